import Verif.Struct.Sample
import Verif.Vtk.Files

/-!
# The truss program

`src/main_truss.cpp`: tables of nodes and bars, supports and loads, `LinearFESolver` with the Gauss solver, `VtkProcessor`, a report of
displacements, reactions and stresses, and six checks. The program has its tables in the code; here they are a parameter, and `shipped`
are the tables of the code.

Simplifications: exact real arithmetic; a bar of length zero divides by zero, which is the outcome `ub` (there is no such number); the
matrices of all bars are computed before the first is assembled; the log is the returned `Output`. Built without MKL, so the default
Gauss solver is used.
-/

noncomputable section

namespace Nla3d.Truss

open Nla3d.Dof Nla3d.Storage Nla3d.Solver Nla3d.Struct

/-- The tables of the program. src/main_truss.cpp:22-42, 62-63, 69-83. `fixs` and `loads` are the calls of `addFix` and `addLoad`. -/
structure Input where
  nodeTable : List (Fin 3 → ℝ)
  elementTable : List (Nat × Nat)
  E : ℝ
  A : ℝ
  fixs : List (Bc ℝ)
  loads : List (Bc ℝ)

/-- The nodes: entries of the table times 12. src/main_truss.cpp:52-58 -/
def positions (t : Input) : List (Fin 3 → ℝ) := t.nodeTable.map fun p i => p i * 12

/-- `storage->getNode(n).pos`. src/lib/FEStorage.h:635-638 -/
def nodePos (t : Input) (n : Nat) : Res (Fin 3 → ℝ) :=
  if 0 < n ∧ n ≤ (positions t).length then Res.read (positions t) (n - 1) else .assert

/-- `ElementTRUSS3::buildK`. src/lib/elements/TRUSS3.cpp:16-60 -/
def barEl (t : Input) (b : Nat × Nat) : Res (LinEl ℝ) := do
  let p ← nodePos t b.1
  let q ← nodePos t b.2
  match Bars.trussK ![p, q] t.E t.A with
  | none => .ub
  | some Ke => .ok { nodes := [b.1, b.2], dofs := [.UX, .UY, .UZ], Ke := Dense.ext (Bars.assembled Ke) }

/-- `ElementTRUSS3::pre` of all elements. src/lib/elements/TRUSS3.cpp:9-13 -/
def calls (t : Input) : List RegCall :=
  t.elementTable.flatMap fun b => [(.node, b.1, [.UX, .UY, .UZ]), (.node, b.2, [.UX, .UY, .UZ])]

/-- The storage with the nodes and elements. src/main_truss.cpp:45, 52-68 -/
def storage (t : Input) : Storage ℝ := Storage.fresh t.nodeTable.length (t.elementTable.map fun b => [b.1, b.2]) [] false

/-- `storage.getNodeDofSolution(n, ...)` for the three displacements. src/main_truss.cpp:102-103, src/lib/FEStorage.h:623-626. -/
def dispOf (S : Storage ℝ) (n : Nat) : Res (Fin 3 → ℝ) := do
  let x ← Post.solution S .node n .UX
  let y ← Post.solution S .node n .UY
  let z ← Post.solution S .node n .UZ
  .ok ![x, y, z]

/-- `ElementTRUSS3::update`: the stress. src/lib/elements/TRUSS3.cpp:64-97 -/
def stressOf (t : Input) (S : Storage ℝ) (b : Nat × Nat) : Res ℝ := do
  let p ← nodePos t b.1
  let q ← nodePos t b.2
  let u ← dispOf S b.1
  let v ← dispOf S b.2
  match Bars.trussS ![p, q] t.E ![u, v] with
  | none => .ub
  | some s => .ok s

/-- What `VtkProcessor` sees. `ElementTRUSS3` answers no queries (src/lib/elements/TRUSS3.h). src/lib/elements/TRUSS3.h:9-63. -/
def view (t : Input) (S : Storage ℝ) : Vtk.View ℝ :=
  ⟨S, (positions t).map fun p => ⟨p 0, p 1, p 2⟩, t.elementTable.map fun b => ⟨.TRUSS3, .LINE, [b.1, b.2]⟩,
    ⟨fun _ _ => none, fun _ _ => none, fun _ _ => none⟩⟩

/-- The processor after its constructor. src/main_truss.cpp:93-94, src/lib/VtkProcessor.h:61-69 -/
def newProc : Vtk.Proc := ⟨false, [], [], [], [], [], false⟩

/-- What the program logs, and the files it writes. src/main_truss.cpp:98-114 -/
structure Output where
  disp : List (ℝ × ℝ)
  react : List (ℝ × ℝ)
  stress : List ℝ
  files : Vtk.Disk (List (List (Vtk.Tok ℝ)))

/-- One line pair of the report on displacements. src/main_truss.cpp:101-102 -/
def logDisp (S : Storage ℝ) (n : Nat) : Res (ℝ × ℝ) := do
  let x ← Post.solution S .node n .UX
  let y ← Post.solution S .node n .UY
  .ok (x, y)

/-- One line pair of the report on reactions. src/main_truss.cpp:107-108 -/
def logReact (S : Storage ℝ) (n : Nat) : Res (ℝ × ℝ) := do
  let x ← Post.reaction S n .UX
  let y ← Post.reaction S n .UY
  .ok (x, y)

/-- The program up to the checks: `LinearFESolver::solve` (src/lib/FESolver.cpp:337-397) with `VtkProcessor`, then the report.
src/main_truss.cpp:44-115. The storage after the solution is returned for the checks. -/
def run (t : Input) : Res (Storage ℝ × Output) := do
  let S1 ← (storage t).prepare (calls t) [] (fixKeys t.fixs)
  let P := Vtk.setUp (view t S1) newProc
  let f0 ← Vtk.file (view t S1) P
  let els ← Vtk.collect (barEl t) t.elementTable
  let (S, _) ← linearCore Gauss.solveEquations (linear els fun _ _ => ()) t.loads t.fixs S1 ()
  let stress ← Vtk.collect (stressOf t S) t.elementTable
  let f1 ← Vtk.file (view t S) P
  let disp ← Vtk.collect (logDisp S) (Vtk.from1 t.nodeTable.length)
  let react ← Vtk.collect (logReact S) (Vtk.from1 t.nodeTable.length)
  .ok (S, ⟨disp, react, stress, (Vtk.preFile "truss2D" f0 fun _ => none).put (Vtk.fileName "truss2D" 1) f1⟩)

/-- One `CHECK(storage.getNodeDofSolution(node, dof) - ref < 1.0e-7)`: without an absolute value. src/main_truss.cpp:117-124 -/
def checkOne (S : Storage ℝ) (c : Bc ℝ) : Res Unit := by
  classical exact do
    let x ← Post.solution S .node c.node c.dof
    Res.check (decide (x - c.value < 1 / 10 ^ 7))

/-- `main`: the program with its checks. src/main_truss.cpp:21-127. -/
def main (t : Input) (checks : List (Bc ℝ)) : Res Output := do
  let (S, o) ← run t
  let _ ← Vtk.collect (checkOne S) checks
  .ok o

/-- The tables of the code. src/main_truss.cpp:23-42, 62-63, 70-83 -/
def shipped : Input where
  nodeTable := [![0, 0, 0], ![16, 0, 0], ![16, 12, 0], ![32, 0, 0], ![32, 12, 0]]
  elementTable := [(1, 3), (1, 2), (2, 3), (3, 5), (3, 4), (2, 5), (2, 4), (4, 5)]
  E := 30000
  A := 10
  fixs := [⟨1, .UZ, 0⟩, ⟨2, .UZ, 0⟩, ⟨3, .UZ, 0⟩, ⟨4, .UZ, 0⟩, ⟨5, .UZ, 0⟩, ⟨1, .UX, 0⟩, ⟨1, .UY, 0⟩, ⟨4, .UX, 0⟩, ⟨4, .UY, 0⟩]
  loads := [⟨2, .UY, -100⟩, ⟨5, .UX, 50⟩]

/-- The checks of the code. src/main_truss.cpp:117-124 -/
def shippedChecks : List (Bc ℝ) :=
  [⟨2, .UX, 146067 / 10 ^ 7⟩, ⟨2, .UY, -(1046405 / 10 ^ 7)⟩, ⟨3, .UX, 27214 / 10 ^ 7⟩, ⟨3, .UY, -(730729 / 10 ^ 7)⟩,
    ⟨5, .UX, 55080 / 10 ^ 7⟩, ⟨5, .UY, -(164325 / 10 ^ 7)⟩]

end Nla3d.Truss
