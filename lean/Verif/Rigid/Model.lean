import Verif.Storage.Model
import Mathlib.Analysis.SpecialFunctions.Trigonometric.Basic
import Mathlib.Data.Fin.VecNotation

/-!
# Model of `RigidBodyMpc`

src/lib/Mpc.cpp, src/lib/solidmech.h:24-38

Real arithmetic in place of `double`; `sin`, `cos`, `sqrt` are the real functions. `sol n d` is
`storage->getNodeDofSolution(n, d)`, `pos n` is `storage->getNodePosition(n, ..., false)`, the position of the undeformed mesh.
The equations are values instead of objects behind pointers; a pointer that was not set is `none`.
-/

namespace Nla3d.Rigid

open Dof Storage

noncomputable section

/-- `solidmech::LeviCivita`. src/lib/solidmech.h:24-33 -/
def leviCivita : Fin 3 → Fin 3 → Fin 3 → ℝ :=
  ![![![0, 0, 0], ![0, 0, 1], ![0, -1, 0]], ![![0, 0, -1], ![0, 0, 0], ![1, 0, 0]], ![![0, 1, 0], ![-1, 0, 0], ![0, 0, 0]]]

/-- `solidmech::I`. src/lib/solidmech.h:35-38 -/
def delta : Fin 3 → Fin 3 → ℝ := ![![1, 0, 0], ![0, 1, 0], ![0, 0, 1]]

/-- `Vec<3>::length`. src/lib/math/Vec.h:122-133 -/
def norm3 (v : Fin 3 → ℝ) : ℝ := √(v 0 * v 0 + v 1 * v 1 + v 2 * v 2)

/-- `c1`, `c2`, `c3`, `c4`. src/lib/Mpc.cpp:95-109 -/
def consts (t : ℝ) : Fin 4 → ℝ :=
  if t < 1.0e-3 then ![1, 0.5, -1 / 3, -1 / 12]
  else ![Real.sin t / t, (1 - Real.cos t) / (t * t), (t * Real.cos t - Real.sin t) / (t * t * t),
    (t * Real.sin t - 2 + 2 * Real.cos t) / (t * t * t * t)]

/-- `C[i][j]`. src/lib/Mpc.cpp:110-118 -/
def matC (th : Fin 3 → ℝ) (i j : Fin 3) : ℝ :=
  let t := norm3 th
  let c := consts t
  let m := leviCivita i 0 j * th 0 + leviCivita i 1 j * th 1 + leviCivita i 2 j * th 2
  Real.cos t * delta i j + c 0 * m + c 1 * th i * th j

/-- `cDeriv[j][l]` for row `i`. src/lib/Mpc.cpp:140-150 -/
def cDeriv (th : Fin 3 → ℝ) (i j l : Fin 3) : ℝ :=
  let c := consts (norm3 th)
  delta i j * (-c 0) * th l + c 2 * th l * (leviCivita i 0 j * th 0 + leviCivita i 1 j * th 1 + leviCivita i 2 j * th 2) +
    c 0 * leviCivita i l j + c 3 * th l * th i * th j + c 1 * (delta i l * th j + th i * delta j l)

/-- The `switch` on the type of the DoF. src/lib/Mpc.cpp:127-139 -/
def direction : DofType → Res (Fin 3)
  | .UX => .ok 0
  | .UY => .ok 1
  | .UZ => .ok 2
  | _ => .fatal

/-- `RigidBodyMpc`: its members and `collection`. src/lib/Mpc.h:41-62 -/
structure RigidBody where
  master : Nat
  slaves : List Nat
  dofs : List DofType
  collection : List (Option (Mpc ℝ))

/-- The equation `pre` makes. src/lib/Mpc.cpp:57-63 -/
def firstEq (master slave : Nat) (d : DofType) : Mpc ℝ :=
  ⟨[⟨slave, d, 1⟩, ⟨master, d, -1⟩, ⟨master, .ROTX, 0⟩, ⟨master, .ROTY, 0⟩, ⟨master, .ROTZ, 0⟩], 0, 0⟩

/-- `RigidBodyMpc::pre`: the collection, and the DoFs it asks for at the master node. src/lib/Mpc.cpp:52-68 -/
def pre (r : RigidBody) : Res (RigidBody × Nat × List DofType) := do
  let c ← Res.foldlM' (fun c i => Res.foldlM' (fun c j => do
      let s ← Res.read r.slaves i
      let d ← Res.read r.dofs j
      Res.write c (i * r.dofs.length + j) (some (firstEq r.master s d))) c (List.range r.dofs.length))
    (List.replicate (r.slaves.length * r.dofs.length) none) (List.range r.slaves.length)
  .ok ({ r with collection := c }, r.master, [.UX, .UY, .UZ, .ROTX, .ROTY, .ROTZ])

/-- `token->coef = c` for the three terms after the second one. src/lib/Mpc.cpp:154-163 -/
def setRot (e : List (MpcTerm ℝ)) (c : Fin 3 → ℝ) : Res (List (MpcTerm ℝ)) :=
  Res.foldlM' (fun e (p : Nat × ℝ) => do
    let t ← Res.read e p.1
    Res.write e p.1 ⟨t.node, t.dof, p.2⟩) e [(2, c 0), (3, c 1), (4, c 2)]

/-- One pointer of the collection. src/lib/Mpc.cpp:52-164. -/
def deref (c : List (Option (Mpc ℝ))) (k : Nat) : Res (Mpc ℝ) := do
  match ← Res.read c k with
  | some m => .ok m
  | none => .ub

/-- The body of the loops of `update` over the slave nodes `n` and the DoFs `d`. src/lib/Mpc.cpp:121-164 -/
def updateOne (r : RigidBody) (sol : Nat → DofType → ℝ) (pos : Nat → Fin 3 → ℝ) (c : List (Option (Mpc ℝ))) (n d : Nat) :
    Res (List (Option (Mpc ℝ))) := do
  let th : Fin 3 → ℝ := ![sol r.master .ROTX, sol r.master .ROTY, sol r.master .ROTZ]
  let w : Fin 3 → ℝ := ![sol r.master .UX, sol r.master .UY, sol r.master .UZ]
  let s ← Res.read r.slaves n
  let pq : Fin 3 → ℝ := fun k => pos s k - pos r.master k
  let dof ← Res.read r.dofs d
  let i ← direction dof
  let k := n * (r.dofs.length % 65536) + d
  let m ← deref c k
  let b := w i + (matC th i 0 - delta i 0) * pq 0 + (matC th i 1 - delta i 1) * pq 1 + (matC th i 2 - delta i 2) * pq 2 -
    sol s dof
  let c ← Res.write c k (some ⟨m.eq, b, m.eqNum⟩)
  let k := n * r.dofs.length + d
  let m ← deref c k
  let e ← setRot m.eq (fun l => -(cDeriv th i 0 l * pq 0 + cDeriv th i 1 l * pq 1 + cDeriv th i 2 l * pq 2))
  Res.write c k (some ⟨e, m.b, m.eqNum⟩)

/-- `RigidBodyMpc::update`. src/lib/Mpc.cpp:70-164 -/
def update (r : RigidBody) (sol : Nat → DofType → ℝ) (pos : Nat → Fin 3 → ℝ) : Res RigidBody := do
  let c ← Res.foldlM' (fun c n => Res.foldlM' (fun c d => updateOne r sol pos c n d) c (List.range r.dofs.length))
    r.collection (List.range r.slaves.length)
  .ok { r with collection := c }

end

end Nla3d.Rigid
