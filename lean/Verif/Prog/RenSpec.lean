import Verif.Prog.FileSpec

/-!
# Specification for C106: models that differ in numbering and order only, and load paths that are determined

Two jobs describe the same model if one is obtained from the other by renumbering nodes and elements and by changing the order of
elements, loads, fixes of different DoFs, constraint equations, terms of an equation, slave nodes and nodes of the report.
-/

namespace Nla3d.Prog

open Nla3d.Dof Nla3d.Storage Nla3d.Labels
open Nla3d.Solver (Bc keyOf lastFix fixKeys loadsOn)
open Nla3d.Rigid (Plain)
open Nla3d.Cmd (Options)
open Nla3d.Main (Job RigidJob)

noncomputable section

/-! ## Steps that are determined -/

/-- No element is degenerate before the step, the equations of the rigid body are not near a change of form, and no increment of a fixed
DoF is so small that the code takes it for zero. -/
structure Fine (j : Job ℝ) (x y : Vals) : Prop where
  sound : Sound j x
  plain : ∀ b, j.rigid = some b → Plain (turn b x)
  big : ∀ f ∈ fixKeys j.fixs, y f - x f = 0 ∨ 1 / 10 ^ 20 < |y f - x f|

/-- A load step: fine steps that satisfy the equations of Newton's method, until the increment is small. -/
inductive CleanRun (W : ℝ → ℝ → ℝ) (k : ℝ) (j : Job ℝ) (t : ℝ) : Vals → List (Vals × Vals) → Prop
  | last {x y r : Vals} : Linearised W k j t x y r → Fine j x y → Small j x y → CleanRun W k j t x [(y, r)]
  | more {x y r : Vals} {l : List (Vals × Vals)} : Linearised W k j t x y r → Fine j x y → ¬ Small j x y → CleanRun W k j t y l →
      CleanRun W k j t x ((y, r) :: l)

/-- Load steps `i, i + 1, ..`, with values and reactions at their ends. -/
inductive CleanPath (W : ℝ → ℝ → ℝ) (k : ℝ) (j : Job ℝ) : Nat → Vals → List (Vals × Vals) → Prop
  | done {i : Nat} {x : Vals} : CleanPath W k j i x []
  | step {i : Nat} {x : Vals} {l : List (Vals × Vals)} {e : Vals × Vals} {es : List (Vals × Vals)} :
      CleanRun W k j (((i : ℝ) + 1) / j.loadsteps) x l → l.getLast? = some e →
      CleanPath W k j (i + 1) e.1 es → CleanPath W k j i x (e :: es)

/-! ## The same model -/

/-- A key with new numbers of nodes and elements. -/
def ren (σ τ : Equiv.Perm Nat) : Key → Key
  | (.node, n, d) => (.node, σ n, d)
  | (.elem, e, d) => (.elem, τ e, d)

/-- A load or fix with new numbers of nodes. -/
def renBc (σ : Equiv.Perm Nat) (b : Bc ℝ) : Bc ℝ := { b with node := σ b.node }

/-- A term of a constraint equation with new numbers of nodes. -/
def renTerm (σ : Equiv.Perm Nat) (t : MpcTerm ℝ) : MpcTerm ℝ := { t with node := σ t.node }

/-- The equation `m'` is the equation `m`. -/
def SameEq (σ : Equiv.Perm Nat) (m m' : Mpc ℝ) : Prop := m'.b = m.b ∧ m'.eq.Perm (m.eq.map (renTerm σ))

/-- The rigid body `r'` is the rigid body `r`. -/
structure SameBody (σ : Equiv.Perm Nat) (r r' : RigidJob) : Prop where
  master : r'.master = σ r.master
  slaves : ∀ n, σ n ∈ r'.slaves ↔ n ∈ r.slaves
  dofs : ∀ d, d ∈ r'.dofs ↔ d ∈ r.dofs

/-- The report asked for is the same. If DoFs are not given, they are those of the first node, so that has to be the same. -/
def SameReport (σ : Equiv.Perm Nat) (a a' : List Nat × List DofType) : Prop :=
  a'.2 = a.2 ∧ a'.1.Perm (a.1.map σ) ∧ (a.2 = [] → a'.1.head? = a.1.head?.map σ)

/-- The job `j'` is the job `j` with other numbers, and in another order. -/
structure Renumbers (σ τ : Equiv.Perm Nat) (j j' : Job ℝ) : Prop where
  constants : j'.constants = j.constants
  type : j'.type = j.type
  loadsteps : j'.loadsteps = j.loadsteps
  pos : ∀ n, 0 < n → n ≤ j.pos.length → posOf j'.pos (σ n) = posOf j.pos n
  elems : (j'.elems.zipIdx 1).Perm ((j.elems.zipIdx 1).map (fun e => (e.1.map σ, τ e.2)))
  loads : j'.loads.Perm (j.loads.map (renBc σ))
  fixs : ∀ f, lastFix (ren σ τ f) j'.fixs = lastFix f j.fixs
  mpcs : (∀ m' ∈ j'.mpcs, ∃ m ∈ j.mpcs, SameEq σ m m') ∧ ∀ m ∈ j.mpcs, ∃ m' ∈ j'.mpcs, SameEq σ m m'
  rigid : j.rigid = none ∧ j'.rigid = none ∨ ∃ r r', j.rigid = some r ∧ j'.rigid = some r' ∧ SameBody σ r r'
  react : j.react = none ∧ j'.react = none ∨ ∃ a a', j.react = some a ∧ j'.react = some a' ∧ SameReport σ a a'

end

end Nla3d.Prog
