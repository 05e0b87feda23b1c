import Mathlib.Data.List.Basic
import Mathlib.Tactic.Ring

/-! # Lists of rows stored one after the other in a flat list -/

namespace Nla3d

variable {α : Type _}

/-- Number of elements in the first `i` rows. -/
def off (rows : List (List α)) (i : Nat) : Nat := (rows.take i).flatten.length

theorem off_zero (rows : List (List α)) : off rows 0 = 0 := rfl

theorem off_succ {rows : List (List α)} {i : Nat} (h : i < rows.length) :
    off rows (i + 1) = off rows i + rows[i].length := by
  unfold off
  rw [List.take_succ_eq_append_getElem h, List.flatten_append, List.length_append]
  simp

theorem off_le (rows : List (List α)) (i : Nat) : off rows i ≤ rows.flatten.length := by
  have h : rows.flatten = (rows.take i).flatten ++ (rows.drop i).flatten := by
    rw [← List.flatten_append, List.take_append_drop]
  rw [h, List.length_append]
  exact Nat.le_add_right _ _

theorem off_mono {rows : List (List α)} {i j : Nat} (h : i ≤ j) : off rows i ≤ off rows j := by
  unfold off
  have : (rows.take j).flatten = (rows.take i).flatten ++ ((rows.take j).drop i).flatten := by
    rw [← List.flatten_append]
    congr 1
    rw [show rows.take i = (rows.take j).take i by rw [List.take_take, Nat.min_eq_left h]]
    exact (List.take_append_drop i _).symm
  rw [this, List.length_append]
  exact Nat.le_add_right _ _

theorem flat_get {rows : List (List α)} {i k : Nat} (hi : i < rows.length) (hk : k < rows[i].length) :
    rows.flatten[off rows i + k]? = some rows[i][k] := by
  have h : rows.flatten = (rows.take i).flatten ++ (rows[i] ++ (rows.drop (i + 1)).flatten) := by
    rw [← List.flatten_cons, ← List.flatten_append, ← List.drop_eq_getElem_cons hi, List.take_append_drop]
  rw [h, List.getElem?_append_right (by unfold off; omega)]
  unfold off
  rw [Nat.add_sub_cancel_left, List.getElem?_append_left hk, List.getElem?_eq_getElem hk]

theorem flat_split {rows : List (List α)} {i : Nat} (hi : i < rows.length) :
    rows.flatten = (rows.take i).flatten ++ rows[i] ++ (rows.drop (i + 1)).flatten := by
  rw [List.append_assoc, ← List.flatten_cons, ← List.flatten_append, ← List.drop_eq_getElem_cons hi, List.take_append_drop]

theorem take_off {rows : List (List α)} (i : Nat) : rows.flatten.take (off rows i) = (rows.take i).flatten := by
  have h : rows.flatten = (rows.take i).flatten ++ (rows.drop i).flatten := by
    rw [← List.flatten_append, List.take_append_drop]
  unfold off
  rw [h, List.take_left]

theorem drop_off {rows : List (List α)} (i : Nat) : rows.flatten.drop (off rows i) = (rows.drop i).flatten := by
  have h : rows.flatten = (rows.take i).flatten ++ (rows.drop i).flatten := by
    rw [← List.flatten_append, List.take_append_drop]
  unfold off
  rw [h, List.drop_left]

/-- Replacing one row. -/
theorem flat_set {rows : List (List α)} {i : Nat} (hi : i < rows.length) (r : List α) :
    (rows.set i r).flatten = (rows.take i).flatten ++ r ++ (rows.drop (i + 1)).flatten := by
  rw [List.set_eq_take_append_cons_drop, if_pos hi]
  simp

theorem off_set {rows : List (List α)} {i : Nat} (hi : i < rows.length) (r : List α) {j : Nat} :
    off (rows.set i r) j = if j ≤ i then off rows j else off rows j - rows[i].length + r.length := by
  by_cases h : j ≤ i
  · rw [if_pos h]
    unfold off
    rw [List.take_set_of_le h]
  · rw [if_neg h]
    unfold off
    rw [List.take_set]
    have hi' : i < (rows.take j).length := by rw [List.length_take]; omega
    rw [flat_set hi' r, flat_split hi']
    simp only [List.length_append, List.getElem_take]
    omega

theorem off_inj {rows : List (List α)} {i i' k k' : Nat} (hi : i < rows.length) (hi' : i' < rows.length)
    (hk : k < rows[i].length) (hk' : k' < rows[i'].length) (h : off rows i + k = off rows i' + k') :
    i = i' ∧ k = k' := by
  rcases Nat.lt_trichotomy i i' with hlt | rfl | hlt
  · have h1 := off_succ hi
    have h2 : off rows (i + 1) ≤ off rows i' := off_mono hlt
    omega
  · exact ⟨rfl, by omega⟩
  · have h1 := off_succ hi'
    have h2 : off rows (i' + 1) ≤ off rows i := off_mono hlt
    omega

end Nla3d
