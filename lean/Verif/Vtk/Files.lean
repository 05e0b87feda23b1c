import Verif.Vtk.Model
import Verif.TimeCtl.Model

/-!
# C97: the files that a run writes, and the tables of shapes
-/

namespace Nla3d.Vtk

open Nla3d.TimeCtl (u16)

/-- The files on the disk, by name. -/
abbrev Disk (α : Type) := String → Option α

/-- `std::ofstream file(name, std::ios::trunc)` and the writes to it: VtkProcessor.cpp:50-56, 60-66. -/
def Disk.put {α : Type} (d : Disk α) (name : String) (a : α) : Disk α := fun s => if s = name then some a else d s

/-- `VtkProcessor::pre` writes the file of number 0 (VtkProcessor.cpp:49-56). -/
def preFile {α : Type} (base : String) (a : α) (d : Disk α) : Disk α := d.put (fileName base 0) a

/-- The calls of `VtkProcessor::process` (VtkProcessor.cpp:58-66) with the numbers and the contents at that time. -/
def processFiles {α : Type} (base : String) : List (Nat × α) → Disk α → Disk α
  | [], d => d
  | (k, a) :: l, d => processFiles base l (d.put (fileName base k) a)

theorem fileName_inj {base : String} {i j : Nat} (h : fileName base i = fileName base j) : i = j := by
  unfold fileName at h
  have h1 := congrArg String.toList h
  simp only [String.toList_append, List.append_cancel_right_eq, List.append_cancel_left_eq, Nat.toString_eq_repr,
    Nat.toList_repr] at h1
  have h2 := congrArg (fun l => Nat.ofDigitChars 10 l 0) h1
  simpa only [Nat.ofDigitChars_toDigits (by decide : 1 < 10) (by decide : 10 ≤ 10)] using h2

theorem processFiles_append {α : Type} (base : String) (l l' : List (Nat × α)) (d : Disk α) :
    processFiles base (l ++ l') d = processFiles base l' (processFiles base l d) := by
  induction l generalizing d with
  | nil => rfl
  | cons a l ih => exact ih _

/-- The files of `n` steps, the contents of which are `c 0` (before the solution), `c 1`, …, `c n`, as the solvers number
them (`C21_solution`, `C24_partial`: the number is of type `uint16`). -/
def runFiles {α : Type} (base : String) (c : Nat → α) (n : Nat) (d : Disk α) : Disk α :=
  processFiles base ((List.range' 1 n).map fun i => (u16 i, c i)) (preFile base (c 0) d)

theorem runFiles_succ {α : Type} (base : String) (c : Nat → α) (n : Nat) (d : Disk α) :
    runFiles base c (n + 1) d = (runFiles base c n d).put (fileName base (u16 (n + 1))) (c (n + 1)) := by
  unfold runFiles
  rw [List.range'_concat, List.map_append, processFiles_append, Nat.one_mul, Nat.add_comm 1 n]
  rfl

/-- The state of every file after any number of steps: the file of number `k < 65536` holds the contents of the last step not
after `n` that is congruent to `k`; nothing else is touched. -/
theorem runFiles_spec {α : Type} (base : String) (c : Nat → α) (d : Disk α) : ∀ n : Nat,
    (∀ k, k < 65536 → k ≤ n → runFiles base c n d (fileName base k) = some (c (k + 65536 * ((n - k) / 65536)))) ∧
    (∀ s, (∀ k, k < 65536 → k ≤ n → s ≠ fileName base k) → runFiles base c n d s = d s) := by
  intro n
  induction n with
  | zero =>
    refine ⟨fun k _ h => ?_, fun s hs => ?_⟩
    · obtain rfl : k = 0 := by omega
      show (if fileName base 0 = fileName base 0 then some (c 0) else _) = _
      rw [if_pos rfl]
    · show (if s = fileName base 0 then some (c 0) else d s) = _
      rw [if_neg (hs 0 (by omega) (by omega))]
  | succ n ih =>
    obtain ⟨h1, h2⟩ := ih
    rw [runFiles_succ]
    refine ⟨fun k hk hn => ?_, fun s hs => ?_⟩
    · unfold Disk.put
      by_cases he : k = u16 (n + 1)
      · rw [if_pos (by rw [he])]
        congr 2
        simp only [u16] at he
        omega
      · rw [if_neg (fun h => he (fileName_inj h))]
        simp only [u16] at he
        rw [h1 k hk (by omega)]
        congr 3
        omega
    · unfold Disk.put
      rw [if_neg (hs _ (by simp only [u16]; omega) (by simp only [u16]; omega))]
      exact h2 s fun k hk hn => hs k hk (by omega)

/-- **C97**, with fewer than 65536 steps: after the run the file of every number from 0 to `n` holds what was written in that step,
and no other file is touched. Missing for the full claim: `C97_violated`. -/
theorem C97_files_partial {α : Type} (base : String) (c : Nat → α) (d : Disk α) {n : Nat} (hn : n < 65536) :
    (∀ i, i ≤ n → runFiles base c n d (fileName base i) = some (c i)) ∧
    (∀ s, (∀ i, i ≤ n → s ≠ fileName base i) → runFiles base c n d s = d s) := by
  obtain ⟨h1, h2⟩ := runFiles_spec base c d n
  refine ⟨fun i hi => ?_, fun s hs => h2 s fun k _ hk => hs k hk⟩
  rw [h1 i (by omega) hi, Nat.div_eq_of_lt (by omega)]
  rfl

/-- Different steps have different files. -/
theorem C97_names {base : String} {i j : Nat} : fileName base i = fileName base j ↔ i = j :=
  ⟨fileName_inj, fun h => by rw [h]⟩

/-- **C97 is violated** from 65536 steps on: the file written before the solution holds a later state, and the file of the last step
does not exist. -/
theorem C97_violated {α : Type} (base : String) (c : Nat → α) {n : Nat} (hn : 65536 ≤ n) :
    runFiles base c n (fun _ => none) (fileName base 0) = some (c (65536 * (n / 65536))) ∧ 0 < 65536 * (n / 65536) ∧
    runFiles base c n (fun _ => none) (fileName base n) = none := by
  obtain ⟨h1, h2⟩ := runFiles_spec base c (fun _ => none) n
  refine ⟨?_, by omega, ?_⟩
  · rw [h1 0 (by omega) (by omega)]
    simp
  · exact h2 _ fun k hk _ h => by
      have := fileName_inj h
      omega

/-- Three steps. -/
example : (runFiles "job" (fun i => i * i) 3 (fun _ => none)) "job3.vtk" = some 9 ∧
    (runFiles "job" (fun i => i * i) 3 (fun _ => none)) "job0.vtk" = some 0 ∧
    (runFiles "job" (fun i => i * i) 3 (fun _ => none)) "job4.vtk" = none := by
  decide +kernel

/-- Specification: dimension of the cell of a shape, from the VTK file formats (VTK_VERTEX to VTK_QUADRATIC_HEXAHEDRON); a pair of
vertices has none. -/
def cellDim : Shape → Option Nat
  | .VERTEX | .TWIN_VERTEX => some 0
  | .LINE | .QUADRARIC_EDGE => some 1
  | .TRIANGLE | .QUAD | .QUADRATIC_TRIANGLE | .QUADRATIC_QUAD => some 2
  | .TETRA | .HEXAHEDRON | .WEDGE | .PYRAMID | .QUADRATIC_TETRA | .QUADRARIC_HEXAHEDRON => some 3
  | .UNDEFINED => none

/-- Specification: numbers of corners of the cell, and of its edges. -/
def cellGraph : Shape → Option (Nat × Nat)
  | .VERTEX => some (1, 0)
  | .TWIN_VERTEX => some (2, 0)
  | .LINE | .QUADRARIC_EDGE => some (2, 1)
  | .TRIANGLE | .QUADRATIC_TRIANGLE => some (3, 3)
  | .QUAD | .QUADRATIC_QUAD => some (4, 4)
  | .TETRA | .QUADRATIC_TETRA => some (4, 6)
  | .HEXAHEDRON | .QUADRARIC_HEXAHEDRON => some (8, 12)
  | .WEDGE => some (6, 9)
  | .PYRAMID => some (5, 8)
  | .UNDEFINED => none

/-- Specification: does the shape have a node in the middle of every edge. -/
def isQuadratic : Shape → Bool
  | .QUADRARIC_EDGE | .QUADRATIC_TRIANGLE | .QUADRATIC_QUAD | .QUADRATIC_TETRA | .QUADRARIC_HEXAHEDRON => true
  | _ => false

/-- C97: the number of nodes of every shape is the number of corners, with one more node on every edge of a quadratic shape; the
undefined shape reads past the end of the table. -/
theorem C97_node_counts (s : Shape) : nNodesOf s = match cellGraph s with
    | some (v, e) => .ok (v + if isQuadratic s then e else 0)
    | none => .ub := by
  cases s <;> rfl

/-- C97: the dimension of a shape is that of its cell, except for the quadratic edge. -/
theorem C97_dimensions_partial (s : Shape) (h : s ≠ .QUADRARIC_EDGE) : dimOf s = match cellDim s with
    | some d => .ok d
    | none => .ub := by
  cases s <;> first | rfl | exact absurd rfl h

/-- **C97 is violated**: the quadratic edge is said to be of two dimensions. -/
theorem C97_dimensions_violated : cellDim .QUADRARIC_EDGE = some 1 ∧ dimOf .QUADRARIC_EDGE = .ok 2 := ⟨rfl, rfl⟩

/-- A quadratic tetrahedron has 4 + 6 nodes and three dimensions. -/
example : nNodesOf .QUADRATIC_TETRA = .ok 10 ∧ dimOf .QUADRATIC_TETRA = .ok 3 := ⟨rfl, rfl⟩

end Nla3d.Vtk
