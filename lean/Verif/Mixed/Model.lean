import Verif.Storage.Model

/-!
# Model of the assembly of the hyperelastic elements (src/lib/elements/SOLID81.h, src/lib/elements/PLANE41.h)

Both elements have displacements at their nodes and one pressure of their own. `nodes` is the array of the element's `getNNodes()`
node numbers, `en` its number.
-/

namespace Nla3d.Mixed

open Storage Dof

variable {K : Type}

/-! ## SOLID81 -/

/-- `dofVec`. src/lib/elements/SOLID81.h:61 -/
def solidDofs : List DofType := [.UX, .UY, .UZ]

/-- The (node, DoF) pairs of the loops over `i` and `di`. src/lib/elements/SOLID81.h:55-94, PLANE41.h:55-97. -/
def nodeDofs (nodes : List Nat) (dofs : List DofType) : List (Nat × DofType) :=
  nodes.flatMap (fun n => dofs.map (fun t => (n, t)))

/-- One addition to the border of the matrix. src/lib/elements/SOLID81.h:80-82 -/
def borderStep [Add K] (elEq : Nat) (kup : List K) (S : Storage K) (p : (Nat × DofType) × Nat) : Res (Storage K) := do
  let rowEq ← S.eqNumber .node p.1.1 p.1.2
  let x ← Res.read kup p.2
  S.addValueEq .K rowEq elEq x

/-- `ElementSOLID81::assemble3`. The loops over `Kuu` and `Fu` have the text of `Element::assembleK`.
src/lib/elements/SOLID81.h:55-94 -/
def assemble3 [Add K] (S : Storage K) (en : Nat) (nodes : List Nat) (dimM : Nat) (kuu kup : List K) (kpp : K) (fu : List K)
    (fp : K) : Res (Storage K) := do
  let S ← S.assembleWith .K nodes solidDofs dimM kuu
  let elEq ← S.eqNumber .elem en .HYDRO_PRESSURE
  let S ← Res.foldlM' (borderStep elEq kup) S (nodeDofs nodes solidDofs).zipIdx
  let S ← S.addValueEq .K elEq elEq kpp
  let S ← S.assembleF nodes solidDofs fu
  S.addValueF elEq fp

/-! ## PLANE41 -/

/-- `nodeDofVec`. src/lib/elements/PLANE41.h:60 -/
def planeDofs : List DofType := [.UX, .UY]

/-- `Ke[i][j]` of a `Mat<n,n>`, with the assertions of `Mat` and `Vec`. src/lib/math/Mat.h:90-100, src/lib/math/Vec.h:61-72 -/
def entry {n : Nat} (Ke : Fin n → Fin n → K) (i j : Nat) : Res K :=
  if h : i < n ∧ j < n then .ok (Ke ⟨i, h.1⟩ ⟨j, h.2⟩) else .assert

/-- `Qe[i]` of a `Vec<n>`. src/lib/math/Vec.h:61-72 -/
def comp {n : Nat} (Qe : Fin n → K) (i : Nat) : Res K := if h : i < n then .ok (Qe ⟨i, h⟩) else .assert

/-- Values of (i, j, di, dj) for which the loop body is executed. src/lib/elements/PLANE41.h:64-70 -/
def planeWalk (nn dim : Nat) : List (Nat × Nat × Nat × Nat) :=
  (List.range nn).flatMap (fun i => (List.range' i (nn - i)).flatMap (fun j => (List.range dim).flatMap (fun di =>
    ((List.range dim).filter (fun dj => ¬ (i = j ∧ dj > di))).map (fun dj => (i, j, di, dj)))))

/-- Body of the first loop. src/lib/elements/PLANE41.h:70 -/
def planeStep [Add K] {n : Nat} (nodes : List Nat) (Ke : Fin n → Fin n → K) (S : Storage K) (q : Nat × Nat × Nat × Nat) :
    Res (Storage K) := do
  let ni ← Res.read nodes q.1
  let ti ← Res.read planeDofs q.2.2.1
  let nj ← Res.read nodes q.2.1
  let tj ← Res.read planeDofs q.2.2.2
  let x ← entry Ke (q.1 * 2 + q.2.2.1) (q.2.1 * 2 + q.2.2.2)
  S.addValueNode .K ni ti nj tj x

/-- Body of the second loop (`eldofs` is 1, so `dj` is 0). src/lib/elements/PLANE41.h:75-79 -/
def planeBorder [Add K] {n : Nat} (en : Nat) (Ke : Fin n → Fin n → K) (S : Storage K) (p : (Nat × DofType) × Nat) :
    Res (Storage K) := do
  let noEq ← S.eqNumber .node p.1.1 p.1.2
  let elEq ← S.eqNumber .elem en .HYDRO_PRESSURE
  let x ← entry Ke p.2 (8 + 0)
  S.addValueEq .K noEq elEq x

/-- `ElementPLANE41::assembleK`. src/lib/elements/PLANE41.h:55-97 -/
def assemble41 [Add K] {n : Nat} (S : Storage K) (en : Nat) (nodes : List Nat) (Ke : Fin n → Fin n → K) (Qe : Fin n → K) :
    Res (Storage K) :=
  if nodes.length * 2 + 1 ≠ n then .assert
  else do
    let S ← Res.foldlM' (planeStep nodes Ke) S (planeWalk nodes.length 2)
    let S ← Res.foldlM' (planeBorder en Ke) S (nodeDofs nodes planeDofs).zipIdx
    let elEqi ← S.eqNumber .elem en .HYDRO_PRESSURE
    let elEqj ← S.eqNumber .elem en .HYDRO_PRESSURE
    let x ← entry Ke (8 + 0) (8 + 0)
    let S ← S.addValueEq .K elEqi elEqj x
    let S ← Res.foldlM' (fun (S : Storage K) (p : (Nat × DofType) × Nat) => do
      let x ← comp Qe p.2
      S.addValueFNode p.1.1 p.1.2 x) S (nodeDofs nodes planeDofs).zipIdx
    let elEq ← S.eqNumber .elem en .HYDRO_PRESSURE
    let y ← comp Qe (8 + 0)
    S.addValueF elEq y

end Nla3d.Mixed
