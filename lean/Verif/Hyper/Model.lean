import Verif.Iso.Model
import Verif.Material.Model
import Mathlib.LinearAlgebra.Matrix.Notation
import Mathlib.Data.Matrix.Mul

/-!
# Model of the hyperelastic elements (src/lib/elements/SOLID81.cpp, src/lib/elements/PLANE41.cpp)

`double` is `ℝ`. The vectors `S`, `C`, `O` of an element, which always have the same length, are one list of points. The results of
`buildK` are the matrices and vectors handed over to the assembly.
-/

noncomputable section

namespace Nla3d.Hyper

open Iso Dense Material

/-- `defaultTensorComponents`. src/lib/solidmech.h:22 -/
def defaultComps : List (Fin 6) := [0, 1, 2, 3, 4, 5]

/-- The `n` numbers of a `Vec<n>`. C++ language: a function parameter `Vec<n>` of src/lib/math/Vec.h:15-60. -/
def entries (n : Nat) (l : List ℝ) : Res (Fin n → ℝ) := if l.length = n then .ok (fun i => l.getD i.val 0) else .ub

/-! ## SOLID81 -/

/-- `O[np]`, `C[np]`, `S[np]`. src/lib/elements/SOLID81.h:40-46 -/
structure Point where
  O : Fin 9 → ℝ
  C : Fin 6 → ℝ
  S : Fin 6 → ℝ

/-- The state `pre` sets. src/lib/elements/SOLID81.cpp:17-19 -/
def Point.initial : Point := ⟨fun _ => 0, ![1, 0, 0, 1, 0, 1], fun _ => 0⟩

/-- One turn of `make_B_L`. src/lib/elements/SOLID81.cpp:122-130 -/
def addBL (G : Fin 8 → Fin 3 → ℝ) (B : List ℝ) (i : Fin 8) : Res (List ℝ) := do
  let B ← acc B (0 * 24 + (i.val * 3 + 0)) (2 * G i 0)
  let B ← acc B (1 * 24 + (i.val * 3 + 0)) (2 * G i 1)
  let B ← acc B (1 * 24 + (i.val * 3 + 1)) (2 * G i 0)
  let B ← acc B (2 * 24 + (i.val * 3 + 0)) (2 * G i 2)
  let B ← acc B (2 * 24 + (i.val * 3 + 2)) (2 * G i 0)
  let B ← acc B (3 * 24 + (i.val * 3 + 1)) (2 * G i 1)
  let B ← acc B (4 * 24 + (i.val * 3 + 1)) (2 * G i 2)
  let B ← acc B (4 * 24 + (i.val * 3 + 2)) (2 * G i 1)
  acc B (5 * 24 + (i.val * 3 + 2)) (2 * G i 2)

/-- `make_B_L` on the zeroed matrix; `G` is `NiXj[np]`. src/lib/elements/SOLID81.cpp:118-132 -/
def makeBL (G : Fin 8 → Fin 3 → ℝ) : Res (List ℝ) :=
  Res.foldlM' (addBL G) (List.replicate 144 0) (List.finRange 8)

/-- One turn of `make_B_NL`. src/lib/elements/SOLID81.cpp:139-147 -/
def addBNL (G : Fin 8 → Fin 3 → ℝ) (B : List ℝ) (i : Fin 8) : Res (List ℝ) := do
  let B ← acc B (0 * 24 + (i.val * 3 + 0)) (G i 0)
  let B ← acc B (1 * 24 + (i.val * 3 + 0)) (G i 1)
  let B ← acc B (2 * 24 + (i.val * 3 + 0)) (G i 2)
  let B ← acc B (3 * 24 + (i.val * 3 + 1)) (G i 0)
  let B ← acc B (4 * 24 + (i.val * 3 + 1)) (G i 1)
  let B ← acc B (5 * 24 + (i.val * 3 + 1)) (G i 2)
  let B ← acc B (6 * 24 + (i.val * 3 + 2)) (G i 0)
  let B ← acc B (7 * 24 + (i.val * 3 + 2)) (G i 1)
  acc B (8 * 24 + (i.val * 3 + 2)) (G i 2)

/-- `make_B_NL` on the zeroed matrix. src/lib/elements/SOLID81.cpp:135-149 -/
def makeBNL (G : Fin 8 → Fin 3 → ℝ) : Res (List ℝ) :=
  Res.foldlM' (addBNL G) (List.replicate 216 0) (List.finRange 8)

/-- `make_S` on the zeroed matrix. src/lib/elements/SOLID81.cpp:153-175 -/
def makeS (S : Fin 6 → ℝ) : Res (List ℝ) := do
  let B ← acc (List.replicate 45 0) 0 (S 0)
  let B ← acc B 1 (S 1)
  let B ← acc B 2 (S 2)
  let B ← acc B 9 (S 3)
  let B ← acc B 10 (S 4)
  let B ← acc B 17 (S 5)
  let B ← acc B 24 (S 0)
  let B ← acc B 25 (S 1)
  let B ← acc B 26 (S 2)
  let B ← acc B 30 (S 3)
  let B ← acc B 31 (S 4)
  let B ← acc B 35 (S 5)
  let B ← acc B 39 (S 0)
  let B ← acc B 40 (S 1)
  let B ← acc B 41 (S 2)
  let B ← acc B 42 (S 3)
  let B ← acc B 43 (S 4)
  acc B 44 (S 5)

/-- One turn of `make_Omega`. src/lib/elements/SOLID81.cpp:181-189 -/
def setOmega (O : Fin 9 → ℝ) (B : List ℝ) (i : Fin 3) : Res (List ℝ) := do
  let B ← Res.write B (0 * 9 + (i.val * 3 + 0)) (O ⟨0 + i.val * 3, by omega⟩)
  let B ← Res.write B (1 * 9 + (i.val * 3 + 0)) (O ⟨1 + i.val * 3, by omega⟩)
  let B ← Res.write B (1 * 9 + (i.val * 3 + 1)) (O ⟨0 + i.val * 3, by omega⟩)
  let B ← Res.write B (2 * 9 + (i.val * 3 + 0)) (O ⟨2 + i.val * 3, by omega⟩)
  let B ← Res.write B (2 * 9 + (i.val * 3 + 2)) (O ⟨0 + i.val * 3, by omega⟩)
  let B ← Res.write B (3 * 9 + (i.val * 3 + 1)) (O ⟨1 + i.val * 3, by omega⟩)
  let B ← Res.write B (4 * 9 + (i.val * 3 + 1)) (O ⟨2 + i.val * 3, by omega⟩)
  let B ← Res.write B (4 * 9 + (i.val * 3 + 2)) (O ⟨1 + i.val * 3, by omega⟩)
  Res.write B (5 * 9 + (i.val * 3 + 2)) (O ⟨2 + i.val * 3, by omega⟩)

/-- `make_Omega` on the zeroed matrix. src/lib/elements/SOLID81.cpp:178-191 -/
def makeOmega (O : Fin 9 → ℝ) : Res (List ℝ) :=
  Res.foldlM' (setOmega O) (List.replicate 54 0) (List.finRange 3)

/-- `matB`. src/lib/elements/SOLID81.cpp:56-66 -/
def solidB (G : Fin 8 → Fin 3 → ℝ) (O : Fin 9 → ℝ) : Res (List ℝ) := do
  let matB ← makeBL G
  let matO ← makeOmega O
  let matBNL ← makeBNL G
  matABprod 6 9 24 matO matBNL 2 matB

/-- `Kuu`, `Kup`, `Kpp`, `Fu`, `Fp` as handed over to `assemble3`. src/lib/elements/SOLID81.cpp:29-82, SOLID81.h:55. -/
structure Sys81 where
  Kuu : List ℝ
  Kup : List ℝ
  Kpp : ℝ
  Fu : List ℝ
  Fp : ℝ

/-- One turn of the loop of `ElementSOLID81::buildK`. src/lib/elements/SOLID81.cpp:52-79 -/
def solidPoint (E : Energy) (k : ℝ) (g : Geom 3 8) (pts : List Point) (p : ℝ) (s : Sys81) (np : Nat) : Res Sys81 := do
  let dWt ← intWeight hexa g np
  let pt ← Res.read pts np
  let (D, Dp) ← getDdDp_UP E defaultComps pt.C p (List.replicate 21 0) (List.replicate 6 0)
  let J := JC pt.C
  let G ← Res.read g.NiXj np
  let matB ← solidB G pt.O
  let matS ← makeS pt.S
  let matBNL ← makeBNL G
  let Kuu ← matBTDBprod 6 24 matB D (1 / 2 * dWt) s.Kuu
  let Kuu ← matBTDBprod 9 24 matBNL matS dWt Kuu
  let Fu ← matBTVprod 6 24 matB (List.ofFn pt.S) (-(1 / 2) * dWt) s.Fu
  let Kup ← matBTVprod 6 24 matB Dp (1 / 2 * dWt) s.Kup
  .ok ⟨Kuu, Kup, s.Kpp + -1 / k * dWt, Fu, s.Fp + -(J - 1 - p / k) * dWt⟩

/-- `ElementSOLID81::buildK` up to the assembly. `p` is the pressure unknown of the element, `k` the bulk modulus of the material.
src/lib/elements/SOLID81.cpp:29-82 -/
def solidK (E : Energy) (k : ℝ) (g : Geom 3 8) (pts : List Point) (p : ℝ) : Res Sys81 :=
  Res.foldlM' (solidPoint E k g pts p) ⟨List.replicate 300 0, List.replicate 24 0, 0, List.replicate 24 0, 0⟩
    (List.range (nOfIntPoints hexa g))

/-- `C[np]` from `O[np]`. src/lib/elements/SOLID81.cpp:105-110 -/
def solidC (O : Fin 9 → ℝ) : Fin 6 → ℝ :=
  ![1 + 2 * O 0 + O 0 ^ 2 + O 3 ^ 2 + O 6 ^ 2,
    O 1 + O 3 + O 0 * O 1 + O 3 * O 4 + O 6 * O 7,
    O 2 + O 6 + O 0 * O 2 + O 3 * O 5 + O 6 * O 8,
    1 + 2 * O 4 + O 1 ^ 2 + O 4 ^ 2 + O 7 ^ 2,
    O 5 + O 7 + O 1 * O 2 + O 4 * O 5 + O 7 * O 8,
    1 + 2 * O 8 + O 2 ^ 2 + O 5 ^ 2 + O 8 ^ 2]

/-- `ElementSOLID81::update`: the new points. `u a i` is the solution for direction `i` at node `a`, `p` the pressure.
src/lib/elements/SOLID81.cpp:85-115 -/
def solidUpdate (E : Energy) (g : Geom 3 8) (u : Fin 8 → Fin 3 → ℝ) (p : ℝ) (pts : List Point) : Res (List Point) :=
  let U := List.ofFn (fun i : Fin 24 => u ⟨i.val / 3, by omega⟩ ⟨i.val % 3, by omega⟩)
  Res.foldlM' (fun pts np => do
    let G ← Res.read g.NiXj np
    let BNL ← makeBNL G
    let pt ← Res.read pts np
    let O ← matBVprod 9 24 BNL U 1 (List.replicate 9 0)
    let O ← entries 9 O
    let S ← getS_UP E defaultComps (solidC O) p (List.ofFn pt.S)
    let S ← entries 6 S
    Res.write pts np ⟨O, solidC O, S⟩) pts (List.range (nOfIntPoints hexa g))

/-! ### Queries of SOLID81 -/

/-- `GP_MEAN` part of the queries: the same query at every point, scaled by its share of the volume. `q np scale` is the query at a
point, which adds to its target. src/lib/elements/SOLID81.cpp:196-205, 239-248, 269-278; src/lib/elements/PLANE41.cpp:158-167,
181-190, 215-224 -/
def meanQuery {d nn : Nat} {α : Type} (S : Shape d nn) (g : Geom d nn) (q : Nat → ℝ → α → Res α) (scale : ℝ) (x : α) : Res α := do
  let dWtSum ← volume S g
  Res.foldlM' (fun x np => do
    let dWt ← intWeight S g np
    q np (dWt / dWtSum * scale) x) x (List.range (nOfIntPoints S g))

/-- `matF`, the transposed deformation gradient. src/lib/elements/SOLID81.cpp:291-300 -/
def solidF (O : Fin 9 → ℝ) : List ℝ := [1 + O 0, O 3, O 6, O 1, 1 + O 4, O 7, O 2, O 5, 1 + O 8]

/-- `getTensor(tensor, tensorQuery::COUCHY, gp, scale)`. src/lib/elements/SOLID81.cpp:289-314 -/
def solidCouchy (pts : List Point) (p : ℝ) (gp : Nat) (scale : ℝ) (tensor : List ℝ) : Res (List ℝ) := do
  let pt ← Res.read pts gp
  let J := JC pt.C
  let cInv := invCC pt.C J
  matBTDBprod 3 3 (solidF pt.O) (List.ofFn (fun i => pt.S i + p * J * cInv i)) (1 / J * scale) tensor

/-- `getTensor(tensor, tensorQuery::PK2, gp, scale)`. src/lib/elements/SOLID81.cpp:316-324 -/
def solidPK2 (pts : List Point) (p : ℝ) (gp : Nat) (scale : ℝ) (tensor : Fin 6 → ℝ) : Res (Fin 6 → ℝ) := do
  let pt ← Res.read pts gp
  let J := JC pt.C
  let cInv := invCC pt.C J
  .ok (fun i => tensor i + (pt.S i + p * J * cInv i) * scale)

/-- `getTensor(tensor, tensorQuery::C, gp, scale)`. src/lib/elements/SOLID81.cpp:326-333 -/
def solidCq (pts : List Point) (gp : Nat) (scale : ℝ) (tensor : Fin 6 → ℝ) : Res (Fin 6 → ℝ) := do
  let pt ← Res.read pts gp
  .ok (fun i => tensor i + pt.C i * scale)

/-- `getTensor(tensor, tensorQuery::E, gp, scale)`. src/lib/elements/SOLID81.cpp:335-342 -/
def solidEq (pts : List Point) (gp : Nat) (scale : ℝ) (tensor : Fin 6 → ℝ) : Res (Fin 6 → ℝ) := do
  let pt ← Res.read pts gp
  .ok ![tensor 0 + (pt.C 0 - 1) * (1 / 2) * scale, tensor 1 + pt.C 1 * (1 / 2) * scale, tensor 2 + pt.C 2 * (1 / 2) * scale,
    tensor 3 + (pt.C 3 - 1) * (1 / 2) * scale, tensor 4 + pt.C 4 * (1 / 2) * scale, tensor 5 + (pt.C 5 - 1) * (1 / 2) * scale]

/-- `getVector(vector, vectorQuery::IC, gp, scale)`. src/lib/elements/SOLID81.cpp:250-262 -/
def solidIC (pts : List Point) (gp : Nat) (scale : ℝ) (vector : Fin 3 → ℝ) : Res (Fin 3 → ℝ) := do
  let pt ← Res.read pts gp
  let IC := ICC pt.C
  .ok ![vector 0 + IC 0 * scale, vector 1 + IC 1 * scale, vector 2 + IC 2 * scale]

/-- `getScalar(scalar, scalarQuery::WU, gp, scale)`: the energy density of the invariants of `C`.
src/lib/elements/SOLID81.cpp:218-222 -/
def solidWU (E : Energy) (pts : List Point) (gp : Nat) (scale : ℝ) (scalar : ℝ) : Res ℝ := do
  let tmp ← solidIC pts gp 1 0
  .ok (scalar + E.W (tmp 0) (tmp 1) (tmp 2) * scale)

/-- `getScalar(scalar, scalarQuery::WP, gp, scale)`. src/lib/elements/SOLID81.cpp:224-228 -/
def solidWP (k : ℝ) (pts : List Point) (gp : Nat) (scale : ℝ) (scalar : ℝ) : Res ℝ := do
  let pt ← Res.read pts gp
  let J := JC pt.C
  .ok (scalar + 1 / 2 * k * (J - 1) * (J - 1) * scale)

/-! ## PLANE41

Here `math::Mat` and its operators are matrices and their operations (`Dense.C31_mul`, `Dense.C31_mulVec`, `Dense.C31_transpose`
are about the operators). -/

/-- `ElementPLANE41::components`. src/lib/elements/PLANE41.cpp:11 -/
def planeComps : List (Fin 6) := [0, 3, 1]

/-- `O[np]`, `C[np]`, `S[np]`. src/lib/elements/PLANE41.h:39-43. -/
structure Point2 where
  O : Fin 4 → ℝ
  C : Fin 3 → ℝ
  S : Fin 3 → ℝ

/-- The state `pre` sets. src/lib/elements/PLANE41.cpp:20-22 -/
def Point2.initial : Point2 := ⟨fun _ => 0, ![1, 1, 0], fun _ => 0⟩

/-- `CVec`. src/lib/elements/PLANE41.cpp:39-42, 54-56 -/
def planeCVec (C : Fin 3 → ℝ) : Fin 6 → ℝ := ![C 0, C 2, 0, C 1, 0, 1]

/-- `make_B`. src/lib/elements/PLANE41.cpp:106-111 -/
def planeB (G : Fin 4 → Fin 2 → ℝ) : Matrix (Fin 3) (Fin 8) ℝ :=
  !![G 0 0, 0, G 1 0, 0, G 2 0, 0, G 3 0, 0;
     0, G 0 1, 0, G 1 1, 0, G 2 1, 0, G 3 1;
     G 0 1, G 0 0, G 1 1, G 1 0, G 2 1, G 2 0, G 3 1, G 3 0]

/-- `make_Bomega`. src/lib/elements/PLANE41.cpp:113-119 -/
def planeBomega (G : Fin 4 → Fin 2 → ℝ) : Matrix (Fin 4) (Fin 8) ℝ :=
  !![G 0 0, 0, G 1 0, 0, G 2 0, 0, G 3 0, 0;
     G 0 1, 0, G 1 1, 0, G 2 1, 0, G 3 1, 0;
     0, G 0 0, 0, G 1 0, 0, G 2 0, 0, G 3 0;
     0, G 0 1, 0, G 1 1, 0, G 2 1, 0, G 3 1]

/-- `matS`. src/lib/elements/PLANE41.cpp:68-71 -/
def planeS (S : Fin 3 → ℝ) : Matrix (Fin 4) (Fin 4) ℝ :=
  !![S 0, S 2, 0, 0; S 2, S 1, 0, 0; 0, 0, S 0, S 2; 0, 0, S 2, S 1]

/-- `matO`. src/lib/elements/PLANE41.cpp:74-76 -/
def planeO (O : Fin 4 → ℝ) : Matrix (Fin 3) (Fin 4) ℝ :=
  !![O 0, 0, O 2, 0; 0, O 1, 0, O 3; O 1, O 0, O 3, O 2]

/-- `Kuu`, `Kup`, `Kpp`, `Qe`, `Fp`. src/lib/elements/PLANE41.cpp:31-104. -/
structure Acc41 where
  Kuu : Matrix (Fin 8) (Fin 8) ℝ
  Kup : Fin 8 → ℝ
  Kpp : ℝ
  Qe : Fin 8 → ℝ
  Fp : ℝ

/-- One turn of the loop of `ElementPLANE41::buildK`. src/lib/elements/PLANE41.cpp:51-87 -/
def planePoint (E : Energy) (k : ℝ) (g : Geom 2 4) (pts : List Point2) (p : ℝ) (s : Acc41) (np : Nat) : Res Acc41 := do
  let dWt ← intWeight quad g np
  let pt ← Res.read pts np
  let (D, Dp) ← getDdDp_UP E planeComps (planeCVec pt.C) p (List.replicate 6 0) (List.replicate 3 0)
  let Ec ← toMat 3 D
  let Ec ← entries 9 Ec
  let matEc : Matrix (Fin 3) (Fin 3) ℝ := Matrix.of fun i j => Ec ⟨i.val * 3 + j.val, by omega⟩
  let Ep ← entries 3 Dp
  let J := JC (planeCVec pt.C)
  let G ← Res.read g.NiXj np
  let matBomega := planeBomega G
  let matB := planeB G + planeO pt.O * matBomega
  .ok ⟨s.Kuu + dWt • ((2 : ℝ) • (matB.transpose * matEc * matB) + matBomega.transpose * planeS pt.S * matBomega),
    s.Kup + dWt • matB.transpose.mulVec Ep, s.Kpp - 1 / k * dWt, s.Qe + dWt • matB.transpose.mulVec pt.S,
    s.Fp + (J - 1 - p / k) * dWt⟩

/-- `Ke` and `Fe`. src/lib/elements/PLANE41.cpp:90-101 -/
def planeJoin (s : Acc41) : Matrix (Fin 9) (Fin 9) ℝ × (Fin 9 → ℝ) :=
  (Matrix.of fun i j =>
    if hi : i.val < 8 then (if hj : j.val < 8 then s.Kuu ⟨i, hi⟩ ⟨j, hj⟩ else s.Kup ⟨i, hi⟩)
    else (if hj : j.val < 8 then s.Kup ⟨j, hj⟩ else s.Kpp),
   fun i => if hi : i.val < 8 then -s.Qe ⟨i, hi⟩ else -s.Fp)

/-- `ElementPLANE41::buildK` up to the assembly. src/lib/elements/PLANE41.cpp:31-104 -/
def planeK (E : Energy) (k : ℝ) (g : Geom 2 4) (pts : List Point2) (p : ℝ) : Res (Matrix (Fin 9) (Fin 9) ℝ × (Fin 9 → ℝ)) := do
  let s ← Res.foldlM' (planePoint E k g pts p) ⟨0, 0, 0, 0, 0⟩ (List.range (nOfIntPoints quad g))
  .ok (planeJoin s)

/-- `C[np]` from `O[np]`. src/lib/elements/PLANE41.cpp:140-142 -/
def planeC (O : Fin 4 → ℝ) : Fin 3 → ℝ :=
  ![1 + 2 * O 0 + 1 * (O 0 * O 0 + O 2 * O 2), 1 + 2 * O 3 + 1 * (O 3 * O 3 + O 1 * O 1), O 1 + O 2 + O 0 * O 1 + O 2 * O 3]

/-- `ElementPLANE41::update`. src/lib/elements/PLANE41.cpp:121-150 -/
def planeUpdate (E : Energy) (g : Geom 2 4) (u : Fin 4 → Fin 2 → ℝ) (p : ℝ) (pts : List Point2) : Res (List Point2) :=
  let U : Fin 8 → ℝ := fun i => u ⟨i.val / 2, by omega⟩ ⟨i.val % 2, by omega⟩
  Res.foldlM' (fun pts np => do
    let G ← Res.read g.NiXj np
    let pt ← Res.read pts np
    let O := (planeBomega G).mulVec U
    let S ← getS_UP E planeComps (planeCVec (planeC O)) p (List.ofFn pt.S)
    let S ← entries 3 S
    Res.write pts np ⟨O, planeC O, S⟩) pts (List.range (nOfIntPoints quad g))

/-- `matF`. src/lib/elements/PLANE41.cpp:247-252 -/
def planeF (O : Fin 4 → ℝ) : Matrix (Fin 3) (Fin 3) ℝ := !![1 + O 0, O 1, 0; O 2, 1 + O 3, 0; 0, 0, 1]

/-- `getTensor(tensor, tensorQuery::COUCHY, gp, scale)`. src/lib/elements/PLANE41.cpp:245-268 -/
def planeCouchy (E : Energy) (pts : List Point2) (p : ℝ) (gp : Nat) (_scale : ℝ) (tensor : List ℝ) : Res (List ℝ) := do
  let pt ← Res.read pts gp
  let F := planeF pt.O
  let J := F 0 0 * (F 1 1 * F 2 2 - F 1 2 * F 2 1) - F 0 1 * (F 1 0 * F 2 2 - F 1 2 * F 2 0)
    + F 0 2 * (F 1 0 * F 2 1 - F 1 1 * F 2 0)
  let S ← getS_UP E defaultComps (planeCVec pt.C) p (List.replicate 6 0)
  matBTDBprod 3 3 [F 0 0, F 0 1, F 0 2, F 1 0, F 1 1, F 1 2, F 2 0, F 2 1, F 2 2] S (1 / J) tensor

/-- `getTensor(tensor, tensorQuery::PK2, gp, scale)`. src/lib/elements/PLANE41.cpp:270-281 -/
def planePK2 (E : Energy) (pts : List Point2) (p : ℝ) (gp : Nat) (scale : ℝ) (tensor : Fin 6 → ℝ) : Res (Fin 6 → ℝ) := do
  let pt ← Res.read pts gp
  let S ← getS_UP E defaultComps (planeCVec pt.C) p (List.replicate 6 0)
  let S ← entries 6 S
  .ok (fun i => tensor i + S i * scale)

/-- `getTensor(tensor, tensorQuery::C, gp, scale)`. src/lib/elements/PLANE41.cpp:283-290 -/
def planeCq (pts : List Point2) (gp : Nat) (scale : ℝ) (tensor : Fin 6 → ℝ) : Res (Fin 6 → ℝ) := do
  let pt ← Res.read pts gp
  .ok (fun i => tensor i + planeCVec pt.C i * scale)

/-- `getTensor(tensor, tensorQuery::E, gp, scale)`. src/lib/elements/PLANE41.cpp:292-299 -/
def planeEq (pts : List Point2) (gp : Nat) (scale : ℝ) (tensor : Fin 6 → ℝ) : Res (Fin 6 → ℝ) := do
  let pt ← Res.read pts gp
  let C := planeCVec pt.C
  .ok ![tensor 0 + (C 0 - 1) * (1 / 2) * scale, tensor 1 + C 1 * (1 / 2) * scale, tensor 2 + C 2 * (1 / 2) * scale,
    tensor 3 + (C 3 - 1) * (1 / 2) * scale, tensor 4 + C 4 * (1 / 2) * scale, tensor 5 + (C 5 - 1) * (1 / 2) * scale]

/-- The constructor `Vec(double first, ...)` of `Vec<3>`, which also converts numbers: `va_arg` for an argument that is not there is
undefined. src/lib/math/Vec.h:22-29 -/
def vec3 (args : List ℝ) : Res (Fin 3 → ℝ) := do
  let a ← Res.read args 0
  let b ← Res.read args 1
  let c ← Res.read args 2
  .ok ![a, b, c]

/-- `getVector(vector, vectorQuery::IC, gp, scale)`: `vector` points to one `Vec<3>`; `vector[1]` and `vector[2]` are beyond it, and
the numbers on the right are converted to `Vec<3>`. src/lib/elements/PLANE41.cpp:192-207 -/
def planeIC (pts : List Point2) (gp : Nat) (scale : ℝ) (vectors : List (Fin 3 → ℝ)) : Res (List (Fin 3 → ℝ)) := do
  let pt ← Res.read pts gp
  let IC := ICC (planeCVec pt.C)
  let w ← vec3 [IC 0 * scale]
  let v ← Res.read vectors 0
  let vectors ← Res.write vectors 0 (v + w)
  let w ← vec3 [IC 1 * scale]
  let v ← Res.read vectors 1
  let vectors ← Res.write vectors 1 (v + w)
  let w ← vec3 [IC 2 * scale]
  let v ← Res.read vectors 2
  Res.write vectors 2 (v + w)

end Nla3d.Hyper
