import Verif.Sparse.Model
import Mathlib.Data.List.Basic
import Mathlib.Data.List.Dedup
import Mathlib.Data.List.Sort

/-! # Lemmas about the sparsity model -/

namespace Nla3d.Sparse

/-! ## Rows before compression -/

/-- A row of the uncompressed `columns` array: the registered columns, then sentinels. -/
def padRow (m : Nat) (r : List Nat) : List Nat := r ++ List.replicate (m - r.length) invalid

theorem padRow_length {m : Nat} {r : List Nat} (h : r.length ≤ m) : (padRow m r).length = m := by
  simp [padRow]; omega

/-- Abstraction of an uncompressed `SpInfo`: row `i` (0-based) holds the columns `rows[i]` in order of
first registration. -/
structure Rep (s : SpInfo) (rows : List (List Nat)) : Prop where
  unc : s.compressed = false
  len : rows.length = s.nRows
  nodup : ∀ r ∈ rows, r.Nodup
  fits : ∀ r ∈ rows, r.length ≤ s.maxInRow
  range : ∀ r ∈ rows, ∀ c ∈ r, 0 < c ∧ c ≤ s.nColumns
  small : s.nColumns < invalid
  cols : s.columns = rows.flatMap (padRow s.maxInRow)
  iof : s.iofeir = 1 :: iofeirLoop s.maxInRow s.nRows 1
  num : s.numberOfValues = (rows.map List.length).sum

theorem iofeirLoop_get (m : Nat) : ∀ (n last i : Nat), i < n →
    (iofeirLoop m n last)[i]? = some (last + (i + 1) * m) := by
  intro n
  induction n with
  | zero => intro last i h; omega
  | succ n ih =>
    intro last i h
    cases i with
    | zero => simp [iofeirLoop]
    | succ i =>
      simp only [iofeirLoop, List.getElem?_cons_succ]
      rw [ih _ _ (by omega)]
      congr 1
      rw [Nat.add_mul (i + 1) 1 m]; omega

theorem Rep.read_iof {s : SpInfo} {rows : List (List Nat)} (h : Rep s rows) {i : Nat} (hi : i ≤ s.nRows) :
    Res.read s.iofeir i = .ok (1 + i * s.maxInRow) := by
  rw [Res.read_eq_ok, h.iof]
  cases i with
  | zero => simp
  | succ i =>
    rw [List.getElem?_cons_succ, iofeirLoop_get _ _ _ _ (by omega)]

theorem flatMap_pad_length {m : Nat} {rows : List (List Nat)} (h : ∀ r ∈ rows, r.length ≤ m) :
    (rows.flatMap (padRow m)).length = rows.length * m := by
  induction rows with
  | nil => simp
  | cons r rs ih =>
    rw [List.flatMap_cons, List.length_append, padRow_length (h r (by simp)),
      ih (fun r hr => h r (by simp [hr])), List.length_cons, Nat.add_mul]
    omega

/-- The scan of one padded row. -/
theorem addScan_row (j : Nat) (hj : j ≠ invalid) (p : Nat) (post : List Nat) :
    ∀ (r pre : List Nat), invalid ∉ r →
    addScan (pre ++ (r ++ List.replicate p invalid) ++ post) j pre.length (r.length + p) =
      if j ∈ r then .dup else if p = 0 then .full else .slot (pre.length + r.length) := by
  intro r
  induction r with
  | nil =>
    intro pre _
    cases p with
    | zero => simp [addScan]
    | succ p =>
      simp [addScan, List.replicate_succ, Ne.symm hj]
  | cons c r ih =>
    intro pre hinv
    have hc : c ≠ invalid := fun h => hinv (by simp [h])
    have hr : invalid ∉ r := fun h => hinv (by simp [h])
    have hlen : (c :: r).length + p = (r.length + p) + 1 := by simp; omega
    rw [hlen, addScan]
    have hget : (pre ++ (c :: r ++ List.replicate p invalid) ++ post)[pre.length]? = some c := by
      simp
    rw [hget]
    have ih' := ih (pre ++ [c]) hr
    simp only [List.length_append, List.length_cons, List.length_nil, List.append_assoc,
      List.cons_append, List.nil_append] at ih'
    by_cases h : c = j
    · simp [h]
    · simp only [h, hc, if_false]
      have : pre ++ (c :: r ++ List.replicate p invalid) ++ post
          = pre ++ c :: (r ++ (List.replicate p invalid ++ post)) := by simp
      rw [this, ih']
      have hne : j ≠ c := fun e => h e.symm
      simp [hne]
      split
      · rfl
      · split
        · rfl
        · congr 1; omega

theorem takeRow_row (p : Nat) (post : List Nat) :
    ∀ (r pre : List Nat), invalid ∉ r →
    takeRow (pre ++ (r ++ List.replicate p invalid) ++ post) pre.length (r.length + p) = .ok r := by
  intro r
  induction r with
  | nil =>
    intro pre _
    cases p with
    | zero => simp [takeRow]
    | succ p => simp [takeRow, Res.read, List.replicate_succ]
  | cons c r ih =>
    intro pre hinv
    have hc : c ≠ invalid := fun h => hinv (by simp [h])
    have hr : invalid ∉ r := fun h => hinv (by simp [h])
    have hlen : (c :: r).length + p = (r.length + p) + 1 := by simp; omega
    rw [hlen, takeRow]
    have hget : Res.read (pre ++ (c :: r ++ List.replicate p invalid) ++ post) pre.length = .ok c := by
      rw [Res.read_eq_ok]; simp
    rw [hget]
    have ih' := ih (pre ++ [c]) hr
    simp only [List.length_append, List.length_cons, List.length_nil, List.append_assoc,
      List.cons_append, List.nil_append] at ih'
    have : pre ++ (c :: r ++ List.replicate p invalid) ++ post
          = pre ++ c :: (r ++ (List.replicate p invalid ++ post)) := by simp
    rw [this]
    simp [hc, ih']

theorem split_at {α : Type _} {l : List α} {i : Nat} (h : i < l.length) :
    l = l.take i ++ l[i] :: l.drop (i + 1) := by
  simp

/-- Effect of `addEntry` on the row abstraction. -/
def addToRow (m : Nat) (r : List Nat) (j : Nat) : Option (List Nat) :=
  if j ∈ r then some r else if r.length < m then some (r ++ [j]) else none

theorem Rep.invalid_notin {s : SpInfo} {rows : List (List Nat)} (h : Rep s rows) {r : List Nat}
    (hr : r ∈ rows) : invalid ∉ r := fun hm => by
  have := h.range r hr _ hm
  have := h.small
  omega

theorem Rep.addEntry {s : SpInfo} {rows : List (List Nat)} (h : Rep s rows) {i j : Nat}
    (hi : 0 < i ∧ i ≤ s.nRows) (hj : 0 < j ∧ j ≤ s.nColumns) :
    ∃ r, rows[i - 1]? = some r ∧
      ((j ∈ r ∧ s.addEntry i j = .ok s) ∨
       (j ∉ r ∧ r.length < s.maxInRow ∧
          ∃ s', s.addEntry i j = .ok s' ∧ s'.nRows = s.nRows ∧ s'.nColumns = s.nColumns ∧
            s'.maxInRow = s.maxInRow ∧ Rep s' (rows.set (i - 1) (r ++ [j]))) ∨
       (j ∉ r ∧ r.length = s.maxInRow ∧ s.addEntry i j = .fatal)) := by
  have hlt : i - 1 < rows.length := by rw [h.len]; omega
  set r := rows[i - 1] with hr
  have hmem : r ∈ rows := List.getElem_mem hlt
  refine ⟨r, by rw [List.getElem?_eq_getElem hlt], ?_⟩
  have hjinv : j ≠ invalid := by have := h.small; omega
  have hfit := h.fits r hmem
  have hsplit := split_at hlt
  rw [← hr] at hsplit
  -- the flat array around row `i`
  set A := rows.take (i - 1) with hA
  set B := rows.drop (i - 1 + 1) with hB
  have hAlen : A.length = i - 1 := by simp [hA]; omega
  have hAfit : ∀ r ∈ A, r.length ≤ s.maxInRow := fun x hx => h.fits x (List.mem_of_mem_take hx)
  have hprelen : (A.flatMap (padRow s.maxInRow)).length = (i - 1) * s.maxInRow := by
    rw [flatMap_pad_length hAfit, hAlen]
  have hcols : s.columns = A.flatMap (padRow s.maxInRow) ++
      (r ++ List.replicate (s.maxInRow - r.length) invalid) ++ B.flatMap (padRow s.maxInRow) := by
    rw [h.cols, hsplit]; simp [padRow]
  have hrd1 : Res.read s.iofeir (i - 1) = .ok (1 + (i - 1) * s.maxInRow) := h.read_iof (by omega)
  have hrd2 : Res.read s.iofeir i = .ok (1 + i * s.maxInRow) := h.read_iof hi.2
  have hi1 : i * s.maxInRow = (i - 1) * s.maxInRow + s.maxInRow := by
    obtain ⟨k, rfl⟩ : ∃ k, i = k + 1 := ⟨i - 1, by omega⟩
    simp [Nat.add_mul]
  have hscan : addScan s.columns j ((1 + (i - 1) * s.maxInRow) - 1)
      ((1 + i * s.maxInRow - 1) - (1 + (i - 1) * s.maxInRow - 1)) =
      if j ∈ r then .dup else if s.maxInRow - r.length = 0 then .full
        else .slot ((i - 1) * s.maxInRow + r.length) := by
    have := addScan_row j hjinv (s.maxInRow - r.length) (B.flatMap (padRow s.maxInRow)) r
      (A.flatMap (padRow s.maxInRow)) (h.invalid_notin hmem)
    rw [← hcols, hprelen] at this
    rw [← this]
    congr 1
    · omega
    · rw [hi1]; omega
  have hunf : s.addEntry i j = (match addScan s.columns j ((1 + (i - 1) * s.maxInRow) - 1)
      ((1 + i * s.maxInRow - 1) - (1 + (i - 1) * s.maxInRow - 1)) with
      | .dup => .ok s
      | .slot p => .ok { s with columns := s.columns.set p j, numberOfValues := s.numberOfValues + 1 }
      | .full => .fatal
      | .oob => .ub) := by
    unfold SpInfo.addEntry
    rw [if_neg (by simp [hi]), if_neg (by simp [hj]), if_neg (by simp [h.unc]), hrd1, hrd2]
    rfl
  rw [hunf, hscan]
  by_cases hin : j ∈ r
  · left; simp [hin]
  · right
    rw [if_neg hin]
    by_cases hfull : s.maxInRow - r.length = 0
    · right; simp [hin, hfull]; omega
    · left
      refine ⟨hin, by omega, ?_⟩
      rw [if_neg hfull]
      refine ⟨_, rfl, rfl, rfl, rfl, ?_⟩
      have hset : rows.set (i - 1) (r ++ [j]) = A ++ (r ++ [j]) :: B := by
        conv_lhs => rw [hsplit]
        rw [List.set_append_right _ _ (by omega)]
        simp [hAlen]
      constructor
      · exact h.unc
      · simpa using h.len
      · intro x hx
        rw [hset] at hx
        simp only [List.mem_append, List.mem_cons] at hx
        rcases hx with hx | rfl | hx
        · exact h.nodup x (List.mem_of_mem_take hx)
        · have := h.nodup r hmem
          simp only [List.nodup_append, this, List.nodup_cons, List.not_mem_nil, not_false_eq_true,
            List.nodup_nil, and_self, List.mem_cons, or_false, ne_eq, forall_eq, true_and]
          intro a ha e; exact hin (e ▸ ha)
        · exact h.nodup x (List.mem_of_mem_drop hx)
      · intro x hx
        rw [hset] at hx
        simp only [List.mem_append, List.mem_cons] at hx
        rcases hx with hx | rfl | hx
        · exact h.fits x (List.mem_of_mem_take hx)
        · simp; omega
        · exact h.fits x (List.mem_of_mem_drop hx)
      · intro x hx
        rw [hset] at hx
        simp only [List.mem_append, List.mem_cons] at hx
        rcases hx with hx | rfl | hx
        · exact h.range x (List.mem_of_mem_take hx)
        · intro c hc
          simp only [List.mem_append, List.mem_cons, List.not_mem_nil, or_false] at hc
          rcases hc with hc | rfl
          · exact h.range r hmem c hc
          · exact hj
        · exact h.range x (List.mem_of_mem_drop hx)
      · exact h.small
      · show s.columns.set _ _ = _
        rw [hset, hcols, ← hprelen]
        simp only [List.flatMap_append, List.flatMap_cons, List.append_assoc]
        rw [List.set_append_right _ _ (by omega)]
        congr 1
        rw [Nat.add_sub_cancel_left, List.set_append_right _ _ (by omega), Nat.sub_self]
        obtain ⟨q, hq⟩ : ∃ q, s.maxInRow - r.length = q + 1 := ⟨s.maxInRow - r.length - 1, by omega⟩
        have hq' : s.maxInRow - (r ++ [j]).length = q := by simp; omega
        rw [padRow, hq', hq, List.replicate_succ]
        simp
      · exact h.iof
      · show s.numberOfValues + 1 = _
        rw [hset, h.num]
        conv_lhs => rw [hsplit]
        simp; omega

/-- Once the asserted index ranges hold, the only outcomes are success and `fatal`. -/
theorem Rep.init {n m k : Nat} (hk : 0 < k) (hm : m < invalid) :
    ∃ s, SpInfo.init n m k = .ok s ∧ Rep s (List.replicate n []) ∧ s.nRows = n ∧ s.nColumns = m ∧
      s.maxInRow = min k m := by
  unfold SpInfo.init
  rw [if_pos hk]
  refine ⟨_, rfl, ?_, rfl, rfl, ?_⟩
  · constructor
    · rfl
    · simp
    · intro r hr; rw [List.eq_of_mem_replicate hr]; simp
    · intro r hr; rw [List.eq_of_mem_replicate hr]; simp
    · intro r hr; rw [List.eq_of_mem_replicate hr]; simp
    · exact hm
    · simp only
      generalize (if k < m then k else m) = q
      induction n with
      | zero => simp
      | succ n ih =>
        rw [List.replicate_succ, List.flatMap_cons, ← ih]
        simp [padRow, Nat.add_mul, Nat.add_comm]
    · rfl
    · simp
  · simp only; split <;> omega

end Nla3d.Sparse
