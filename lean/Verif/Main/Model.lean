import Verif.Cmd.Model
import Verif.Cdb.Model
import Verif.Vtk.Model
import Verif.Solver.Model
import Verif.Post.Model
import Mathlib.Algebra.Order.Field.Basic

/-!
# Model of `main`: from the mesh data and the options to the model that is solved, and from the reactions to the exit code

Source: `src/main.cpp`:139-325. The order of independent steps is that of the code. `exit(1)` is `.ok none`. Messages are left out, apart
from the labels of the rigid body's DoFs. Objects are the lists of numbers they hold; the counters `uint16 j`, `uint32 i` do not wrap
(cells have less than 65536 nodes). The signed node numbers of `MeshData` become the `uint32` arguments of `FEStorage`.
-/

namespace Nla3d.Main

open Nla3d.Cdb (Out MeshData Comp CompType toU32)
open Nla3d.Cmd (Options)
open Nla3d.Labels Nla3d.Dof

variable {K : Type}

/-- A `RigidBodyMpc` as it is handed to the storage. main.cpp:262-279; Mpc.h. -/
structure RigidJob where
  master : Nat
  slaves : List Nat
  dofs : List DofType
  deriving DecidableEq, Repr

/-- What `solver.solve()`, main.cpp:291, works on. -/
structure Job (K : Type) where
  constants : List K
  pos : List (K × K × K)
  type : ElementType
  elems : List (List Nat)
  mpcs : List (Storage.Mpc K)
  loads : List (Solver.Bc K)
  fixs : List (Solver.Bc K)
  iterations : Nat
  loadsteps : Nat
  vtk : Option (List Char)
  react : Option (List Nat × List DofType)
  rigid : Option RigidJob

/-- `createMaterial`, `CHECK_NOTNULL` and the constants, main.cpp:173-179. -/
def material (o : Options K) : Out (List K) := do
  match ← Cdb.lift (createMaterial o.material) with
  | none => .error .fatal
  | some m => Cdb.lift (Cmd.setConstants m.consts.length o.constants)

/-- The loop over the new nodes, main.cpp:191-193: `n` nodes from number `i` on. -/
def nodeLoop (md : MeshData K) : Nat → Nat → Out (List (K × K × K))
  | _, 0 => .ok []
  | i, n + 1 => do
    let p ← Cdb.read md.nodesPos i
    let ps ← nodeLoop md (i + 1) n
    .ok (p :: ps)

/-- The loop over the nodes of an element, main.cpp:202-204. -/
def copyNodes (c : List Nat) : Nat → Nat → Out (List Nat)
  | _, 0 => .ok []
  | j, n + 1 => do
    let x ← Cdb.read c j
    let xs ← copyNodes c (j + 1) n
    .ok (x :: xs)

/-- The loop over the new elements, main.cpp:199-205; `nn` is `getNNodes` of the element type. -/
def elementLoop (md : MeshData K) (nn : Nat) : List Nat → Out (List (List Nat))
  | [] => .ok []
  | i :: is => do
    let c ← Cdb.read md.cellNodes i
    if c.length = nn then do
      let e ← copyNodes c 0 nn
      let es ← elementLoop md nn is
      .ok (e :: es)
    else .error .assert

/-- `storage.addMpc`, main.cpp:208-212, FEStorage.cpp:176-180. -/
def mpcLoop : List (Cdb.Eqn K) → Out (List (Storage.Mpc K))
  | [] => .ok []
  | q :: qs =>
    if q.eq = [] then .error .assert else do
      let ms ← mpcLoop qs
      .ok (⟨q.eq.map (fun t => ⟨toU32 t.node, t.dof, t.coef⟩), q.b, 0⟩ :: ms)

/-- `solver.addLoad`, `solver.addFix`, main.cpp:215-222. -/
def bcs (l : List (Cdb.Bc K)) : List (Solver.Bc K) := l.map (fun b => ⟨toU32 b.node, b.dof, b.value⟩)

/-- `md.feComps[name]`: a name that is not there gives a new component, with the type of its constructor, FEComponent.cpp:11-13. -/
def component (md : MeshData K) (name : String) : Comp :=
  match md.feComps.find? (fun c => c.name = name.toList) with
  | some c => c
  | none => ⟨[], .NOT_DEFINED, []⟩

/-- The reaction processor, main.cpp:242-259; the outer `none` is `exit(1)`. -/
def reactionJob (md : MeshData K) (o : Options K) : Option (Option (List Nat × List DofType)) :=
  if o.reaction = "" then some none
  else
    let c := component md o.reaction
    if c.type = .NODES then some (some (c.list, o.reactionDofs)) else none

/-- The rigid body, main.cpp:261-279; the outer `none` is `exit(1)`. -/
def rigidJob (md : MeshData K) (o : Options K) : Option (Option RigidJob) :=
  if 0 < o.rigidMaster ∧ o.rigidSlaves ≠ "" then
    let c := component md o.rigidSlaves
    if c.type = .NODES then some (some ⟨o.rigidMaster, c.list, o.rigidDofs⟩) else none
  else some none

/-- `main` up to `solver.solve()`, main.cpp:171-279, from the mesh data that `readCdbFile` gives. -/
def setUp (o : Options K) (md : MeshData K) : Out (Option (Job K)) := do
  let md ← Cdb.compressNumbers md
  let cs ← material o
  let pos ← nodeLoop md 0 md.nodesNumbers.length
  let ind ← Cdb.getCellsByAttribute md "TYPE" 1
  let shape ← Cdb.lift (Vtk.factoryShape o.element)
  let nn ← Cdb.lift (Vtk.nNodesOf shape)
  let elems ← elementLoop md nn ind
  let mpcs ← mpcLoop md.mpcs
  match reactionJob md o, rigidJob md o with
  | some re, some ri =>
    .ok (some ⟨cs, pos, o.element, elems, mpcs, bcs md.loadBcs, bcs md.fixBcs, o.iterations, o.loadsteps,
      if o.useVtk then some (Cmd.fileStem o.model.toList) else none, re, ri⟩)
  | _, _ => .ok none

/-- The labels in the message about the rigid body, main.cpp:281-285: `Dof::dofTypeLabels[i]` for the position `i`. -/
def slaveLabels (dofs : List DofType) : Res (List String) :=
  (List.range dofs.length).foldr (fun i r => do
    let l ← Res.read dofTypeLabels i
    let ls ← r
    .ok (l :: ls)) (.ok [])

/-! ## After the solution -/

/-- One row of the table of reactions, main.cpp:303-305. -/
def tableRow (P : Post.Proc K) (ls : Nat) : List DofType → Res (List K)
  | [] => .ok []
  | d :: ds => do
    let h ← Post.getReactions P d
    let v ← Res.read h ls
    let r ← tableRow P ls ds
    .ok (v :: r)

/-- The table of reactions, main.cpp:301-307: `n` rows from load step `ls` on. -/
def tableLoop (P : Post.Proc K) : Nat → Nat → Res (List (List K))
  | _, 0 => .ok []
  | ls, n + 1 => do
    let r ← tableRow P ls P.dofs
    let rs ← tableLoop P (ls + 1) n
    .ok (r :: rs)

/-- Comparison with the reference curve, main.cpp:309-321. The exit code. -/
def verdict [Field K] [LinearOrder K] (o : Options K) (ref : List K) (P : Post.Proc K) : Res Nat :=
  if ref = [] then .ok 0
  else do
    let d ← Res.read P.dofs 0
    let cur ← Post.getReactions P d
    match Cmd.compareCurves (fun x => |x|) ref cur with
    | none => .ok 1
    | some e => if 0 < o.threshold then (if o.threshold < e then .ok 1 else .ok 0) else .ok 0

/-- `main` after `solver.solve()`, main.cpp:293-324: the table, if reactions were asked for, and the exit code. -/
def report [Field K] [LinearOrder K] (o : Options K) (ref : List K) : Option (Post.Proc K) → Res (Option (List (List K)) × Nat)
  | none => .ok (none, 0)
  | some P => do
    let t ← tableLoop P 0 (o.loadsteps + 1)
    let c ← verdict o ref P
    .ok (some t, c)

end Nla3d.Main
