import Verif.Sparse.Lemmas

/-! # Lemmas about `compress`, `getIndex` and the compressed arrays -/

namespace Nla3d.Sparse

/-- Positions (1-based) at which the rows start in the compressed arrays. -/
def starts : (acc : Nat) → List (List Nat) → List Nat
  | acc, [] => [acc + 1]
  | acc, r :: rs => (acc + 1) :: starts (acc + r.length) rs

/-- Abstraction of a compressed `SpInfo`: row `i` (0-based) holds the strictly increasing list of
columns `rows[i]`. -/
structure Csr (s : SpInfo) (rows : List (List Nat)) : Prop where
  comp : s.compressed = true
  len : rows.length = s.nRows
  sorted : ∀ r ∈ rows, r.Pairwise (· < ·)
  range : ∀ r ∈ rows, ∀ c ∈ r, 0 < c ∧ c ≤ s.nColumns
  cols : s.columns = rows.flatten
  iof : s.iofeir = starts 0 rows
  num : s.numberOfValues = rows.flatten.length

/-- Number of stored entries before row `i` (0-based). -/
def offset (rows : List (List Nat)) (i : Nat) : Nat := (rows.take i).flatten.length

theorem starts_get (rows : List (List Nat)) : ∀ (acc i : Nat), i ≤ rows.length →
    (starts acc rows)[i]? = some (acc + offset rows i + 1) := by
  induction rows with
  | nil => intro acc i h; simp at h; subst h; simp [starts, offset]
  | cons r rs ih =>
    intro acc i h
    cases i with
    | zero => simp [starts, offset]
    | succ i =>
      simp only [starts, List.getElem?_cons_succ]
      rw [ih _ _ (by simpa using h)]
      simp [offset]; omega

theorem starts_length (rows : List (List Nat)) : ∀ acc, (starts acc rows).length = rows.length + 1 := by
  induction rows with
  | nil => intro acc; simp [starts]
  | cons r rs ih => intro acc; simp [starts, ih]

theorem offset_succ {rows : List (List Nat)} {i : Nat} (h : i < rows.length) :
    offset rows (i + 1) = offset rows i + rows[i].length := by
  unfold offset
  rw [List.take_succ_eq_append_getElem h, List.flatten_append, List.length_append]
  simp only [List.flatten_cons, List.flatten_nil, List.append_nil]

theorem offset_mono {rows : List (List Nat)} {i j : Nat} (h : i ≤ j) : offset rows i ≤ offset rows j := by
  induction h with
  | refl => exact le_rfl
  | @step k hk ih =>
    refine le_trans ih ?_
    by_cases hlt : k < rows.length
    · rw [offset_succ hlt]; omega
    · unfold offset
      rw [List.take_of_length_le (by omega), List.take_of_length_le (by omega)]

theorem offset_le (rows : List (List Nat)) (i : Nat) : offset rows i ≤ rows.flatten.length := by
  have : offset rows i ≤ offset rows (max i rows.length) := offset_mono (le_max_left _ _)
  refine le_trans this ?_
  unfold offset
  rw [List.take_of_length_le (le_max_right _ _)]

theorem flatten_get {α : Type _} {rows : List (List α)} {i k : Nat} (hi : i < rows.length)
    (hk : k < rows[i].length) :
    rows.flatten[((rows.take i).flatten.length) + k]? = some rows[i][k] := by
  have hsp : rows.flatten = (rows.take i).flatten ++ (rows[i] ++ (rows.drop (i + 1)).flatten) := by
    conv_lhs => rw [split_at hi]
    rw [List.flatten_append, List.flatten_cons]
  rw [hsp, List.getElem?_append_right (Nat.le_add_right _ _), Nat.add_sub_cancel_left,
    List.getElem?_append_left hk, List.getElem?_eq_getElem hk]

/-- The sort step of `compress` (`std::sort` skipped for short rows). -/
def sortRow (r : List Nat) : List Nat := if r.length > 1 then r.mergeSort (· ≤ ·) else r

theorem sortRow_perm (r : List Nat) : (sortRow r).Perm r := by
  unfold sortRow; split
  · exact List.mergeSort_perm _ _
  · exact List.Perm.refl _

theorem sortRow_length (r : List Nat) : (sortRow r).length = r.length := (sortRow_perm r).length_eq

theorem sortRow_mem {r : List Nat} {c : Nat} : c ∈ sortRow r ↔ c ∈ r := (sortRow_perm r).mem_iff

theorem sortRow_sorted {r : List Nat} (h : r.Nodup) : (sortRow r).Pairwise (· < ·) := by
  have hle : (sortRow r).Pairwise (· ≤ ·) := by
    unfold sortRow; split
    · have := List.pairwise_mergeSort (le := fun a b : Nat => decide (a ≤ b))
        (fun a b c hab hbc => by simp at *; omega) (fun a b => by simp; omega) r
      refine this.imp ?_
      simp
    · rename_i hlen
      rcases r with _ | ⟨a, _ | ⟨b, t⟩⟩
      · simp
      · simp
      · simp at hlen
  have hnd : (sortRow r).Nodup := (sortRow_perm r).nodup_iff.mpr h
  have := hle.and hnd
  refine this.imp ?_
  intro a b hab
  exact lt_of_le_of_ne hab.1 hab.2

theorem compressLoop_eq {s : SpInfo} {rows : List (List Nat)} (h : Rep s rows) :
    ∀ (B A : List (List Nat)) (acc : List Nat), rows = A ++ B →
      acc.length = A.flatten.length →
      ∃ iof, compressLoop s A.length B.length acc =
          .ok (acc ++ (B.map sortRow).flatten, iof) ∧
        iof ++ [(acc ++ (B.map sortRow).flatten).length + 1] = starts acc.length (B.map sortRow) := by
  intro B
  induction B with
  | nil =>
    intro A acc _ _
    exact ⟨[], by simp [compressLoop], by simp [starts]⟩
  | cons r B ih =>
    intro A acc hrows hacc
    have hAlt : A.length < rows.length := by rw [hrows]; simp
    have hmem : r ∈ rows := by rw [hrows]; simp
    have hAfit : ∀ r ∈ A, r.length ≤ s.maxInRow := fun x hx => h.fits x (by rw [hrows]; simp [hx])
    have hprelen : (A.flatMap (padRow s.maxInRow)).length = A.length * s.maxInRow :=
      flatMap_pad_length hAfit
    have hfit := h.fits r hmem
    have hrd1 : Res.read s.iofeir A.length = .ok (1 + A.length * s.maxInRow) :=
      h.read_iof (by rw [← h.len]; omega)
    have hrd2 : Res.read s.iofeir (A.length + 1) = .ok (1 + (A.length + 1) * s.maxInRow) :=
      h.read_iof (by rw [← h.len]; omega)
    have hcols : s.columns = A.flatMap (padRow s.maxInRow) ++
        (r ++ List.replicate (s.maxInRow - r.length) invalid) ++ B.flatMap (padRow s.maxInRow) := by
      rw [h.cols, hrows]; simp [padRow]
    have htake : takeRow s.columns (1 + A.length * s.maxInRow - 1)
        ((1 + (A.length + 1) * s.maxInRow - 1) - (1 + A.length * s.maxInRow - 1)) = .ok r := by
      have := takeRow_row (s.maxInRow - r.length) (B.flatMap (padRow s.maxInRow)) r
        (A.flatMap (padRow s.maxInRow)) (h.invalid_notin hmem)
      rw [← hcols, hprelen] at this
      rw [← this, Nat.add_mul]
      congr 1 <;> omega
    have hnum : ¬ s.numberOfValues < acc.length + r.length := by
      rw [h.num, hrows, hacc, List.length_flatten]; simp
    have hsr : (if r.length > 1 then r.mergeSort (· ≤ ·) else r) = sortRow r := rfl
    obtain ⟨iof, h1, h2⟩ := ih (A ++ [r]) (acc ++ sortRow r) (by rw [hrows]; simp)
      (by simp [sortRow_length, hacc])
    refine ⟨(acc.length + 1) :: iof, ?_, ?_⟩
    · rw [List.length_cons, compressLoop, hrd1, hrd2]
      simp only [Res.ok_bind, htake, if_neg hnum, hsr]
      have : (A ++ [r]).length = A.length + 1 := by simp
      rw [this] at h1
      rw [h1]
      simp
    · simp only [List.map_cons, List.flatten_cons, starts, List.cons_append]
      congr 1
      simp only [List.length_append, List.append_assoc] at h2
      rw [← h2]
      simp

theorem Rep.compress {s : SpInfo} {rows : List (List Nat)} (h : Rep s rows) :
    ∃ s', s.compress = .ok s' ∧ Csr s' (rows.map sortRow) ∧
      s'.nRows = s.nRows ∧ s'.nColumns = s.nColumns ∧ s'.maxInRow = s.maxInRow ∧
      s' = { nRows := s.nRows, nColumns := s.nColumns, maxInRow := s.maxInRow,
             numberOfValues := (rows.map sortRow).flatten.length,
             columns := (rows.map sortRow).flatten,
             iofeir := starts 0 (rows.map sortRow), compressed := true } := by
  obtain ⟨iof, h1, h2⟩ := compressLoop_eq h rows [] [] (by simp) (by simp)
  have hlen : ((rows.map sortRow).flatten).length = s.numberOfValues := by
    rw [h.num, List.length_flatten, List.map_map]
    congr 1
    apply List.map_congr_left
    intro r _
    simp [sortRow_length]
  simp only [List.length_nil, List.nil_append] at h1 h2
  have hres : s.compress = .ok { s with
      columns := (rows.map sortRow).flatten,
      iofeir := iof ++ [((rows.map sortRow).flatten).length + 1], compressed := true } := by
    unfold SpInfo.compress
    rw [if_neg (by simp [h.unc]), ← h.len, h1]
    simp [hlen]
  refine ⟨_, hres, ?_, rfl, rfl, rfl, ?_⟩
  · constructor
    · rfl
    · simpa using h.len
    · intro r hr
      obtain ⟨r0, hr0, rfl⟩ := List.mem_map.mp hr
      exact sortRow_sorted (h.nodup r0 hr0)
    · intro r hr c hc
      obtain ⟨r0, hr0, rfl⟩ := List.mem_map.mp hr
      exact h.range r0 hr0 c (sortRow_mem.mp hc)
    · rfl
    · exact h2
    · exact hlen.symm
  · rw [hlen] at h2
    simp [hlen, h2]

/-- The binary search of `getIndex` on a strictly increasing stretch. -/
theorem getIndexLoop_spec (cols : List Nat) (j lo hi : Nat) (hhi : hi < cols.length)
    (hs : ∀ a b (ha : a < cols.length) (hb : b < cols.length), lo ≤ a → a < b → b ≤ hi →
      cols[a] < cols[b]) :
    ∀ (st en : Nat), lo ≤ st → st ≤ en → en ≤ hi →
    (∃ k, st ≤ k ∧ k ≤ en ∧ cols[k]? = some j ∧ getIndexLoop cols j st en = .ok (some k)) ∨
    ((∀ k, st ≤ k → k ≤ en → cols[k]? ≠ some j) ∧ getIndexLoop cols j st en = .ok none) := by
  intro st en
  induction hn : en - st using Nat.strongRecOn generalizing st en with
  | _ n ih =>
    intro hlo hle hen
    have hstlt : st < cols.length := by omega
    have henlt : en < cols.length := by omega
    rw [getIndexLoop, if_neg (by omega)]
    by_cases h1 : en - st = 1
    · rw [if_pos h1, Res.read_of_lt hstlt, Res.read_of_lt henlt]
      simp only [Res.ok_bind]
      by_cases ha : cols[st] = j
      · left; exact ⟨st, le_rfl, hle, by simp [ha, hstlt], by simp [ha]⟩
      · by_cases hb : cols[en] = j
        · left; exact ⟨en, hle, le_rfl, by simp [hb, henlt], by simp [ha, hb]⟩
        · right
          refine ⟨?_, by simp [ha, hb]⟩
          intro k hk1 hk2
          have : k = st ∨ k = en := by omega
          rcases this with rfl | rfl
          · simp [hstlt, ha]
          · simp [henlt, hb]
    · rw [if_neg h1]
      have hmid : (en + st) / 2 < cols.length := by omega
      simp only [List.getElem?_eq_getElem hmid]
      by_cases hc : cols[(en + st) / 2] = j
      · left
        exact ⟨(en + st) / 2, by omega, by omega, by simp [hc, hmid], by simp [hc]⟩
      · rw [if_neg hc]
        by_cases he : en = st
        · right
          subst he
          refine ⟨?_, by simp⟩
          intro k hk1 hk2
          have : k = (en + en) / 2 := by omega
          subst this
          simp [hmid, hc]
        · rw [if_neg he]
          by_cases hgt : cols[(en + st) / 2] > j
          · rw [if_pos hgt]
            rcases ih ((en + st) / 2 - st) (by omega) st ((en + st) / 2) rfl hlo (by omega) (by omega) with
              ⟨k, h1, h2, h3, h4⟩ | ⟨h1, h2⟩
            · left; exact ⟨k, h1, by omega, h3, h4⟩
            · right
              refine ⟨?_, h2⟩
              intro k hk1 hk2
              by_cases hk : k ≤ (en + st) / 2
              · exact h1 k hk1 hk
              · have hklt : k < cols.length := by omega
                have := hs ((en + st) / 2) k hmid hklt (by omega) (by omega) (by omega)
                simp [hklt]; omega
          · rw [if_neg hgt]
            rcases ih (en - (en + st) / 2) (by omega) ((en + st) / 2) en rfl (by omega) (by omega) hen with
              ⟨k, h1, h2, h3, h4⟩ | ⟨h1, h2⟩
            · left; exact ⟨k, by omega, h2, h3, h4⟩
            · right
              refine ⟨?_, h2⟩
              intro k hk1 hk2
              by_cases hk : (en + st) / 2 ≤ k
              · exact h1 k hk hk2
              · have hklt : k < cols.length := by omega
                have := hs k ((en + st) / 2) hklt hmid (by omega) (by omega) (by omega)
                simp [hklt]; omega

theorem Csr.read_iof {s : SpInfo} {rows : List (List Nat)} (h : Csr s rows) {i : Nat} (hi : i ≤ s.nRows) :
    Res.read s.iofeir i = .ok (offset rows i + 1) := by
  rw [Res.read_eq_ok, h.iof, starts_get _ _ _ (by rw [h.len]; exact hi)]
  simp

/-- What `getIndex` answers on a compressed matrix. -/
theorem Csr.getIndex {s : SpInfo} {rows : List (List Nat)} (h : Csr s rows) {i j : Nat}
    (hi : 0 < i ∧ i ≤ s.nRows) (hj : 0 < j ∧ j ≤ s.nColumns) :
    ∃ (hlt : i - 1 < rows.length),
      (∃ (k : Nat) (hk : k < rows[i - 1].length), rows[i - 1][k] = j ∧
          s.getIndex i j = .ok (some (offset rows (i - 1) + k))) ∨
      (j ∉ rows[i - 1] ∧ s.getIndex i j = .ok none) := by
  have hlt : i - 1 < rows.length := by rw [h.len]; omega
  refine ⟨hlt, ?_⟩
  set r := rows[i - 1] with hr
  have hmem : r ∈ rows := List.getElem_mem hlt
  have hoff : offset rows i = offset rows (i - 1) + r.length := by
    have := offset_succ hlt
    rwa [Nat.sub_add_cancel hi.1] at this
  have hrd1 : Res.read s.iofeir (i - 1) = .ok (offset rows (i - 1) + 1) := h.read_iof (by omega)
  have hrd2 : Res.read s.iofeir i = .ok (offset rows i + 1) := h.read_iof hi.2
  have hunf : s.getIndex i j = (if offset rows (i - 1) + 1 - 1 = offset rows i + 1 - 1 then .ok none
      else getIndexLoop s.columns j (offset rows (i - 1) + 1 - 1) (offset rows i + 1 - 1 - 1)) := by
    unfold SpInfo.getIndex
    rw [if_neg (by simp [hi]), if_neg (by simp [hj]), hrd1, hrd2]
    rfl
  rw [hunf]
  have hget : ∀ k (hk : k < r.length), s.columns[offset rows (i - 1) + k]? = some r[k] := by
    intro k hk
    rw [h.cols]
    exact flatten_get hlt hk
  have hcolslen : offset rows i ≤ s.columns.length := by
    rw [h.cols]; exact offset_le rows i
  rcases Nat.eq_zero_or_pos r.length with h0 | hpos
  · right
    have : r = [] := List.length_eq_zero_iff.mp h0
    exact ⟨by simp [this], by rw [if_pos (by omega)]⟩
  · rw [if_neg (by omega)]
    have hsorted := h.sorted r hmem
    have hspec := getIndexLoop_spec s.columns j (offset rows (i - 1)) (offset rows i - 1) (by omega) (by
      intro a b ha hb hlo hab hbhi
      obtain ⟨ka, rfl⟩ : ∃ ka, a = offset rows (i - 1) + ka := ⟨a - offset rows (i - 1), by omega⟩
      obtain ⟨kb, rfl⟩ : ∃ kb, b = offset rows (i - 1) + kb := ⟨b - offset rows (i - 1), by omega⟩
      have h1 := hget ka (by omega)
      have h2 := hget kb (by omega)
      rw [List.getElem?_eq_getElem ha] at h1
      rw [List.getElem?_eq_getElem hb] at h2
      simp only [Option.some.injEq] at h1 h2
      rw [h1, h2]
      exact (List.pairwise_iff_getElem.mp hsorted) ka kb _ _ (by omega))
      (offset rows (i - 1)) (offset rows i - 1) le_rfl (by omega) le_rfl
    have e1 : offset rows (i - 1) + 1 - 1 = offset rows (i - 1) := by omega
    have e2 : offset rows i + 1 - 1 - 1 = offset rows i - 1 := by omega
    rw [e1, e2]
    rcases hspec with ⟨k, hk1, hk2, hk3, hk4⟩ | ⟨hno, hres⟩
    · left
      obtain ⟨q, rfl⟩ : ∃ q, k = offset rows (i - 1) + q := ⟨k - offset rows (i - 1), by omega⟩
      have hq : q < r.length := by omega
      refine ⟨q, hq, ?_, hk4⟩
      have := hget q hq
      rw [hk3] at this
      simpa using this.symm
    · right
      refine ⟨?_, hres⟩
      intro hjr
      obtain ⟨q, hq, hqe⟩ := List.getElem_of_mem hjr
      have := hget q hq
      rw [hqe] at this
      exact hno _ (by omega) (by omega) this

end Nla3d.Sparse
