import Verif.Truss.Model
import Verif.Vtk.SetUp

/-!
# Specification of the truss program

What a truss does, written out in coordinates: forces of bars at joints. Displacements and forces at the nodes are functions
`Nat → Fin 3 → ℝ`.
-/

noncomputable section

namespace Nla3d.Truss

open Nla3d.Dof Nla3d.Storage Nla3d.Solver Finset

/-- Displacements or forces at the nodes. -/
abbrev Field := Nat → Fin 3 → ℝ

/-- Position of a node: the entry of the table times 12. -/
def coord (t : Input) (n : Nat) (i : Fin 3) : ℝ := 12 * (t.nodeTable.getD (n - 1) 0) i

/-- Nodes are numbered from one. -/
def IsNode (t : Input) (n : Nat) : Prop := 1 ≤ n ∧ n ≤ t.nodeTable.length

/-- Square of the length of a bar. -/
def length2 (t : Input) (b : Nat × Nat) : ℝ := ∑ i, (coord t b.2 i - coord t b.1 i) ^ 2

/-- Strain of a bar: elongation by length. -/
def strain (t : Input) (u : Field) (b : Nat × Nat) : ℝ := (∑ i, (u b.2 i - u b.1 i) * (coord t b.2 i - coord t b.1 i)) / length2 t b

/-- The force of a bar in tension at a node: `E A` times the strain, towards the other end, with the sign of the force that holds it. -/
def pull (t : Input) (u : Field) (b : Nat × Nat) (n : Nat) (i : Fin 3) : ℝ :=
  t.E * t.A * strain t u b * (((if n = b.2 then 1 else 0) - (if n = b.1 then 1 else 0)) * ((coord t b.2 i - coord t b.1 i) / √(length2 t b)))

/-- The displacement DoFs. -/
def dir : DofType → Option (Fin 3)
  | .UX => some 0
  | .UY => some 1
  | .UZ => some 2
  | _ => none

/-- Boundary conditions at a node in a direction. -/
def valuesAt (l : List (Bc ℝ)) (n : Nat) (i : Fin 3) : List ℝ := (l.filter fun b => b.node = n ∧ dir b.dof = some i).map Bc.value

/-- Displacements `u` and forces `r` at the nodes (loads and reactions) of a truss in equilibrium. -/
structure Statics (t : Input) (u r : Field) : Prop where
  support : ∀ n i, ∀ x ∈ valuesAt t.fixs n i, u n i = x
  load : ∀ n i, IsNode t n → valuesAt t.fixs n i = [] → r n i = (valuesAt t.loads n i).sum
  joint : ∀ n i, IsNode t n → (t.elementTable.map fun b => pull t u b n i).sum = r n i

/-- Tables that describe a truss: bars of non-zero length between nodes, every node at a bar, supports and loads at nodes, each DoF supported
once, by 0 or a value over `1e-20`. -/
structure Legal (t : Input) : Prop where
  some : t.nodeTable ≠ []
  ends : ∀ b ∈ t.elementTable, IsNode t b.1 ∧ IsNode t b.2
  long : ∀ b ∈ t.elementTable, length2 t b ≠ 0
  used : ∀ n, IsNode t n → ∃ b ∈ t.elementTable, n = b.1 ∨ n = b.2
  fixs : ∀ f ∈ t.fixs, IsNode t f.node ∧ (dir f.dof).isSome ∧ (f.value = 0 ∨ 1 / 10 ^ 20 < |f.value|)
  once : (t.fixs.map fun f => (f.node, f.dof)).Nodup
  loads : ∀ l ∈ t.loads, IsNode t l.node ∧ (dir l.dof).isSome
  size : 3 * t.nodeTable.length < 4294967295

/-- Displacements that the supports admit. -/
def Admitted (t : Input) (w : Field) : Prop := ∀ n i, ¬ IsNode t n ∨ valuesAt t.fixs n i ≠ [] → w n i = 0

/-- Supports hold all nodes in all directions. -/
def AllFixed (t : Input) : Prop := ∀ n i, IsNode t n → valuesAt t.fixs n i ≠ []

/-- Bars join a node with itself and 33 other nodes at least. -/
def Crowded (t : Input) : Prop := ∃ (n : Nat) (ns : Finset Nat),
  (∀ m ∈ ns, ∃ b ∈ t.elementTable, (n = b.1 ∨ n = b.2) ∧ (m = b.1 ∨ m = b.2)) ∧ 33 < ns.card

/-- 1000 displacements at least are unknown. -/
def Large (t : Input) : Prop := ∃ s : Finset (Nat × Fin 3), (∀ p ∈ s, IsNode t p.1 ∧ valuesAt t.fixs p.1 p.2 = []) ∧ 1000 ≤ s.card

/-- A displacement that the supports admit, of 1 somewhere, meets forces below `1e-20` only. -/
def IsSoft (t : Input) : Prop := ∃ w : Field, Admitted t w ∧ (∃ n i, w n i = 1) ∧
  ∀ n i, IsNode t n → valuesAt t.fixs n i = [] → |(t.elementTable.map fun b => pull t w b n i).sum| < 1 / 10 ^ 20

/-- Displacements that the supports admit and that leave all bars as long as they are, to first order. -/
structure Mechanism (t : Input) (w : Field) : Prop where
  admitted : Admitted t w
  moves : ∃ n i, w n i ≠ 0
  lengths : ∀ b ∈ t.elementTable, ∑ i, (w b.2 i - w b.1 i) * (coord t b.2 i - coord t b.1 i) = 0

/-- A file shows the truss with values at its nodes. -/
def Shows (t : Input) (u r : Field) (file : List (List (Vtk.Tok ℝ))) : Prop :=
  Vtk.readVtk file = some ⟨(List.range t.nodeTable.length).map fun k => ⟨coord t (k + 1) 0, coord t (k + 1) 1, coord t (k + 1) 2⟩,
    t.elementTable.map fun b => [b.1 - 1, b.2 - 1], t.elementTable.map fun _ => 3,
    [("disp", .vectors ((List.range t.nodeTable.length).map fun k => ⟨u (k + 1) 0, u (k + 1) 1, u (k + 1) 2⟩)),
     ("reaction", .vectors ((List.range t.nodeTable.length).map fun k => ⟨r (k + 1) 0, r (k + 1) 1, r (k + 1) 2⟩))], []⟩

/-- The report and the files are those of the displacements `u` and forces `r`. -/
structure Reports (t : Input) (u r : Field) (o : Output) : Prop where
  disp : o.disp = (List.range t.nodeTable.length).map fun k => (u (k + 1) 0, u (k + 1) 1)
  react : o.react = (List.range t.nodeTable.length).map fun k => (r (k + 1) 0, r (k + 1) 1)
  stress : o.stress = t.elementTable.map fun b => t.E * strain t u b
  before : ∃ f, o.files "truss2D0.vtk" = some f ∧ Shows t (fun _ _ => 0) (fun _ _ => 0) f
  after : ∃ f, o.files "truss2D1.vtk" = some f ∧ Shows t u r f
  only : ∀ name, name ≠ "truss2D0.vtk" → name ≠ "truss2D1.vtk" → o.files name = none

end Nla3d.Truss
