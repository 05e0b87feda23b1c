import Verif.Block.Spec
import Verif.Sparse.Prod
import Mathlib.Tactic.Linarith
import Mathlib.Tactic.Ring

/-! # Lemmas about the block matrix -/

namespace Nla3d.Block

open Nla3d.Sparse

variable {K : Type _}

/-! ## Index of the off-diagonal blocks -/

/-- First index of row `i+1` (0-based `i`) of the array `upper`. -/
def rowStart (nb : Nat) : Nat → Nat
  | 0 => 0
  | i + 1 => rowStart nb i + (nb - (i + 1))

theorem rowStart_closed (nb : Nat) : ∀ i, i ≤ nb → 2 * rowStart nb i + i * (i + 1) = 2 * nb * i := by
  intro i
  induction i with
  | zero => intro _; simp [rowStart]
  | succ i ih =>
    intro h
    have := ih (by omega)
    simp only [rowStart]
    obtain ⟨d, rfl⟩ : ∃ d, nb = i + 1 + d := ⟨nb - (i + 1), by omega⟩
    rw [Nat.add_sub_cancel_left]
    ring_nf at this ⊢
    omega

theorem rowStart_mono {nb i j : Nat} (h : i ≤ j) : rowStart nb i ≤ rowStart nb j := by
  induction h with
  | refl => exact le_rfl
  | step _ ih => exact le_trans ih (Nat.le_add_right _ _)

theorem nUpper_eq (nb : Nat) : nUpper nb = rowStart nb nb := by
  have h := rowStart_closed nb nb le_rfl
  unfold nUpper
  have h2 : nb * (nb + 1) = 2 * nb + 2 * rowStart nb nb - 0 := by
    have : nb * (nb + 1) = nb * nb + nb := by ring
    have h3 : 2 * nb * nb = 2 * (nb * nb) := by ring
    omega
  omega

theorem upperIndex_eq {nb i j : Nat} (hi : 0 < i) (hij : i < j) (hj : j ≤ nb) (hsmall : nUpper nb ≤ 65536) :
    upperIndex nb i j = rowStart nb (i - 1) + (j - i - 1) ∧ upperIndex nb i j < nUpper nb := by
  obtain ⟨t, rfl⟩ : ∃ t, i = t + 1 := ⟨i - 1, by omega⟩
  have hc := rowStart_closed nb t (by omega)
  have hlt : rowStart nb t + (j - (t + 1) - 1) < nUpper nb := by
    rw [nUpper_eq]
    have : rowStart nb (t + 1) ≤ rowStart nb nb := rowStart_mono (by omega)
    simp only [rowStart] at this
    omega
  have hval : (nb : Int) * (((t + 1 : Nat) : Int) - 1) - (((t + 1 : Nat) : Int) - 2) * (((t + 1 : Nat) : Int) - 1) / 2 +
      ((j : Int) - ((t + 1 : Nat) : Int)) - ((t + 1 : Nat) : Int) = ((rowStart nb t + (j - (t + 1) - 1) : Nat) : Int) := by
    have hdiv : ((((t + 1 : Nat) : Int) - 2) * (((t + 1 : Nat) : Int) - 1)) / 2 * 2 =
        (((t + 1 : Nat) : Int) - 2) * (((t + 1 : Nat) : Int) - 1) := by
      apply Int.ediv_mul_cancel
      have : (((t + 1 : Nat) : Int) - 2) * (((t + 1 : Nat) : Int) - 1) = ((t : Int) - 1) * t := by push_cast; ring
      rw [this]
      rcases Int.even_or_odd (t : Int) with ⟨r, hr⟩ | ⟨r, hr⟩
      · exact ⟨(↑t - 1) * r, by rw [hr]; ring⟩
      · exact ⟨r * t, by rw [hr]; ring⟩
    have hcz : 2 * (rowStart nb t : Int) + (t : Int) * ((t : Int) + 1) = 2 * (nb : Int) * t := by exact_mod_cast hc
    have hjj : ((j - (t + 1) - 1 : Nat) : Int) = (j : Int) - t - 2 := by omega
    push_cast
    rw [hjj]
    push_cast at hdiv
    nlinarith
  unfold upperIndex
  rw [hval]
  have : ((rowStart nb t + (j - (t + 1) - 1) : Nat) : Int) % 65536 = ((rowStart nb t + (j - (t + 1) - 1) : Nat) : Int) := by
    apply Int.emod_eq_of_lt
    · omega
    · omega
  rw [this, Int.toNat_natCast]
  exact ⟨rfl, hlt⟩

/-- Slot of block `(a, b)`, `a ≤ b`. -/
def slotNo (nb a b : Nat) : Nat := if a = b then a - 1 else nb + (rowStart nb (a - 1) + (b - a - 1))

theorem blockSlot_eq {nb a b : Nat} (ha : 0 < a) (hab : a ≤ b) (hb : b ≤ nb) (hs : nUpper nb ≤ 65536) :
    blockSlot nb a b = .ok (slotNo nb a b) ∧ slotNo nb a b < nb + nUpper nb := by
  unfold blockSlot slotNo
  by_cases h : a = b
  · subst h
    rw [if_pos rfl, if_pos ⟨ha, hb⟩, if_pos rfl]
    exact ⟨rfl, by omega⟩
  · obtain ⟨h1, h2⟩ := upperIndex_eq ha (by omega : a < b) hb hs
    rw [if_neg h, if_neg h, if_neg (by omega : ¬ a > b)]
    simp only
    rw [if_pos h2, h1]
    exact ⟨rfl, by omega⟩

theorem slotNo_inj {nb a b a' b' : Nat} (ha : 0 < a) (hab : a ≤ b) (hb : b ≤ nb) (ha' : 0 < a') (hab' : a' ≤ b')
    (hb' : b' ≤ nb) (h : slotNo nb a b = slotNo nb a' b') : a = a' ∧ b = b' := by
  unfold slotNo at h
  by_cases h1 : a = b <;> by_cases h2 : a' = b'
  · rw [if_pos h1, if_pos h2] at h; omega
  · rw [if_pos h1, if_neg h2] at h; omega
  · rw [if_neg h1, if_pos h2] at h; omega
  · rw [if_neg h1, if_neg h2] at h
    have key : ∀ {x y x' y' : Nat}, 0 < x → x < y → y ≤ nb → 0 < x' → x < x' →
        rowStart nb (x - 1) + (y - x - 1) < rowStart nb (x' - 1) + (y' - x' - 1) := by
      intro x y x' y' e1 e2 e3 e4 e5
      have : rowStart nb (x - 1 + 1) ≤ rowStart nb (x' - 1) := rowStart_mono (by omega)
      simp only [rowStart] at this
      omega
    rcases Nat.lt_trichotomy a a' with hl | rfl | hl
    · have := key (y' := b') ha (by omega : a < b) hb ha' hl; omega
    · omega
    · have := key (y' := b) ha' (by omega : a' < b') hb' ha hl; omega

theorem slotNo_surj {nb t : Nat} (ht : t < nb + nUpper nb) :
    ∃ a b, 0 < a ∧ a ≤ b ∧ b ≤ nb ∧ slotNo nb a b = t := by
  by_cases h : t < nb
  · exact ⟨t + 1, t + 1, by omega, le_rfl, by omega, by simp [slotNo]⟩
  · have key : ∀ i, i ≤ nb → t - nb < rowStart nb i → ∃ a b, 0 < a ∧ a < b ∧ b ≤ nb ∧
        rowStart nb (a - 1) + (b - a - 1) = t - nb := by
      intro i
      induction i with
      | zero => intro _ hlt; simp [rowStart] at hlt
      | succ i ih =>
        intro hi hlt
        by_cases hlt' : t - nb < rowStart nb i
        · exact ih (by omega) hlt'
        · simp only [rowStart] at hlt
          refine ⟨i + 1, i + 1 + (t - nb - rowStart nb i) + 1, by omega, by omega, by omega, ?_⟩
          simp only [Nat.add_sub_cancel]
          omega
    rw [nUpper_eq] at ht
    obtain ⟨a, b, h1, h2, h3, h4⟩ := key nb le_rfl (by omega)
    refine ⟨a, b, h1, by omega, h3, ?_⟩
    unfold slotNo
    rw [if_neg (by omega), h4]
    omega

/-! ## Block and position of a global index -/

theorem locateLoop_spec : ∀ (sizes : List Nat) (blk pos : Nat), 0 < pos → pos ≤ sizes.sum →
    ∃ a p, locateLoop sizes blk pos = (blk + a, p) ∧ a < sizes.length ∧ 0 < p ∧ p ≤ sizes.getD a 0 ∧
      (sizes.take a).sum + p = pos := by
  intro sizes
  induction sizes with
  | nil => intro blk pos h1 h2; simp at h2; omega
  | cons n rest ih =>
    intro blk pos h1 h2
    rw [locateLoop]
    by_cases h : pos ≤ n
    · exact ⟨0, pos, by simp [h], by simp, h1, by simpa using h, by simp⟩
    · rw [if_neg h]
      simp only [List.sum_cons] at h2
      obtain ⟨a, p, e1, e2, e3, e4, e5⟩ := ih (blk + 1) (pos - n) (by omega) (by omega)
      refine ⟨a + 1, p, by rw [e1]; congr 1; omega, by simpa using e2, e3, by simpa using e4, ?_⟩
      simp only [List.take_succ_cons, List.sum_cons]
      omega

theorem take_sum_succ (sizes : List Nat) (a : Nat) : (sizes.take (a + 1)).sum = (sizes.take a).sum + sizes.getD a 0 := by
  induction sizes generalizing a with
  | nil => simp
  | cons n rest ih =>
    cases a with
    | zero => simp
    | succ a => simp only [List.take_succ_cons, List.sum_cons, ih]; simp [Nat.add_assoc]

theorem take_sum_mono (sizes : List Nat) {a b : Nat} (h : a ≤ b) : (sizes.take a).sum ≤ (sizes.take b).sum := by
  induction h with
  | refl => exact le_rfl
  | step _ ih => rw [take_sum_succ]; omega

/-- Order of global numbers is the lexicographic order of (block, position). -/
theorem glob_lt {sizes : List Nat} {a p a' p' : Nat} (h : IsPos sizes a p) (h' : IsPos sizes a' p') (hlt : a < a') :
    glob sizes a p < glob sizes a' p' := by
  unfold glob
  have h1 := take_sum_succ sizes (a - 1)
  have h2 : (sizes.take (a - 1 + 1)).sum ≤ (sizes.take (a' - 1)).sum := take_sum_mono _ (by
    have := h.1; omega)
  obtain ⟨_, _, _, h3⟩ := h
  obtain ⟨_, _, h4, _⟩ := h'
  omega

theorem glob_inj {sizes : List Nat} {a p a' p' : Nat} (h : IsPos sizes a p) (h' : IsPos sizes a' p')
    (he : glob sizes a p = glob sizes a' p') : a = a' ∧ p = p' := by
  rcases Nat.lt_trichotomy a a' with hl | rfl | hl
  · have := glob_lt h h' hl; omega
  · unfold glob at he; exact ⟨rfl, by omega⟩
  · have := glob_lt h' h hl; omega

theorem glob_le {sizes : List Nat} {a p a' p' : Nat} (h : IsPos sizes a p) (h' : IsPos sizes a' p')
    (he : glob sizes a p ≤ glob sizes a' p') : a ≤ a' ∧ (a = a' → p ≤ p') := by
  rcases Nat.lt_trichotomy a a' with hl | rfl | hl
  · exact ⟨by omega, by omega⟩
  · unfold glob at he; exact ⟨le_rfl, by omega⟩
  · have := glob_lt h' h hl; omega

theorem glob_range {sizes : List Nat} {a p : Nat} (h : IsPos sizes a p) :
    0 < glob sizes a p ∧ glob sizes a p ≤ sizes.sum := by
  have h1 := take_sum_succ sizes (a - 1)
  have h2 : (sizes.take (a - 1 + 1)).sum ≤ (sizes.take sizes.length).sum := take_sum_mono _ (by
    have := h.1; have := h.2.1; omega)
  rw [List.take_length] at h2
  obtain ⟨_, _, h3, h4⟩ := h
  unfold glob
  omega

theorem locate_spec {sizes : List Nat} {i : Nat} (hi : 0 < i) (hle : i ≤ sizes.sum) :
    ∃ a p, locateLoop sizes 1 i = (a, p) ∧ IsPos sizes a p ∧ glob sizes a p = i := by
  obtain ⟨a, p, e1, e2, e3, e4, e5⟩ := locateLoop_spec sizes 1 i hi hle
  refine ⟨1 + a, p, e1, ⟨by omega, by omega, e3, ?_⟩, ?_⟩
  · rw [Nat.add_sub_cancel_left]; exact e4
  · unfold glob; rw [Nat.add_sub_cancel_left]; exact e5

/-! ## Rows described by a predicate -/

/-- Row `i` holds exactly the columns `c` with `P (i+1) c`. -/
def DescP (rows : List (List Nat)) (P : Nat → Nat → Prop) : Prop :=
  ∀ i (hi : i < rows.length) j, j ∈ rows[i] ↔ P (i + 1) j

theorem addEntry_P {s : SpInfo} {rows : List (List Nat)} {P : Nat → Nat → Prop} (h : Rep s rows)
    (hd : DescP rows P) {i j : Nat} (hi : 0 < i ∧ i ≤ s.nRows) (hj : 0 < j ∧ j ≤ s.nColumns) :
    (∃ s' rows', s.addEntry i j = .ok s' ∧ s'.nRows = s.nRows ∧ s'.nColumns = s.nColumns ∧
        s'.maxInRow = s.maxInRow ∧ Rep s' rows' ∧ DescP rows' (fun a b => P a b ∨ (a = i ∧ b = j))) ∨
    (¬ P i j ∧ (∃ r : List Nat, r.Nodup ∧ (∀ c, c ∈ r ↔ P i c) ∧ r.length = s.maxInRow) ∧ s.addEntry i j = .fatal) := by
  obtain ⟨r, hr, hcase⟩ := h.addEntry hi hj
  have hlt : i - 1 < rows.length := by rw [h.len]; omega
  rw [List.getElem?_eq_getElem hlt] at hr
  simp only [Option.some.injEq] at hr
  have hi1 : i - 1 + 1 = i := Nat.sub_add_cancel hi.1
  have hjr : ∀ c, c ∈ r ↔ P i c := by
    intro c; rw [← hr, hd (i - 1) hlt, hi1]
  rcases hcase with ⟨h1, h2⟩ | ⟨h1, h2, s', h3, h4, h5, h6, h7⟩ | ⟨h1, h2, h3⟩
  · left
    refine ⟨s, rows, h2, rfl, rfl, rfl, h, ?_⟩
    intro a ha b
    rw [hd a ha b]
    constructor
    · exact Or.inl
    · rintro (hh | ⟨h3, rfl⟩)
      · exact hh
      · rw [h3]; exact (hjr b).mp h1
  · left
    refine ⟨s', _, h3, h4, h5, h6, h7, ?_⟩
    intro a ha b
    simp only [List.length_set] at ha
    simp only [List.getElem_set]
    by_cases hai : i - 1 = a
    · subst hai
      rw [if_pos rfl]
      simp only [List.mem_append, List.mem_singleton, hjr, hi1]
      tauto
    · rw [if_neg hai, hd a ha]
      constructor
      · exact Or.inl
      · rintro (hh | ⟨hh, _⟩)
        · exact hh
        · omega
  · right
    refine ⟨fun hh => h1 ((hjr j).mpr hh), ⟨r, ?_, hjr, h2⟩, h3⟩
    rw [← hr]; exact h.nodup _ (List.getElem_mem hlt)

theorem DescP.congr {rows : List (List Nat)} {P Q : Nat → Nat → Prop} (h : DescP rows P)
    (hpq : ∀ i c, 0 < i → i ≤ rows.length → (P i c ↔ Q i c)) : DescP rows Q := by
  intro i hi j
  rw [h i hi j, hpq (i + 1) j (by omega) (by omega)]

theorem DescP.sorted {rows : List (List Nat)} {P : Nat → Nat → Prop} (h : DescP rows P) :
    DescP (rows.map sortRow) P := by
  intro i hi j
  simp only [List.length_map] at hi
  rw [List.getElem_map, sortRow_mem, h i hi j]

theorem _root_.Nla3d.Sparse.Vals.congr {a : SpMat K} {rows : List (List Nat)} {f g : Nat → Nat → K}
    (h : Vals a rows f) (hfg : ∀ i (hi : i < rows.length), ∀ c ∈ rows[i], f (i + 1) c = g (i + 1) c) : Vals a rows g := by
  refine ⟨h.csr, ?_⟩
  obtain ⟨v, h1, h2, h3⟩ := h.vals
  refine ⟨v, h1, h2, ?_⟩
  intro i hi k hk
  rw [h3 i hi k hk, hfg i hi _ (List.getElem_mem hk)]

/-! ## Folds over slots -/

theorem onSlot_ok {slots : List (Slot K)} {b : Nat} {g : Slot K → Res (Slot K)} {s s' : Slot K}
    (h1 : slots[b]? = some s) (h2 : g s = .ok s') : onSlot slots b g = .ok (slots.set b s') := by
  unfold onSlot
  rw [Res.read_eq_ok.mpr h1]
  simp [h2]

/-- Applying `g x` once to slot `κ x` for each `x` of a list with distinct slots. -/
theorem fold_onSlot {ι : Type _} (κ : ι → Nat) (g : ι → Slot K → Res (Slot K)) (T : ι → Slot K → Slot K → Prop) :
    ∀ (bs : List ι) (slots : List (Slot K)), (bs.map κ).Nodup →
    (∀ b ∈ bs, ∃ s s', slots[κ b]? = some s ∧ g b s = .ok s' ∧ T b s s') →
    ∃ slots', Res.foldlM' (fun slots b => onSlot slots (κ b) (g b)) slots bs = .ok slots' ∧
      slots'.length = slots.length ∧
      (∀ b ∈ bs, ∃ s s', slots[κ b]? = some s ∧ slots'[κ b]? = some s' ∧ T b s s') ∧
      (∀ t, t ∉ bs.map κ → slots'[t]? = slots[t]?) := by
  intro bs
  induction bs with
  | nil => intro slots _ _; exact ⟨slots, rfl, rfl, by simp, by simp⟩
  | cons b bs ih =>
    intro slots hnd h
    obtain ⟨s, s', h1, h2, h3⟩ := h b (by simp)
    rw [List.map_cons, List.nodup_cons] at hnd
    have hblt : κ b < slots.length := (List.getElem?_eq_some_iff.mp h1).1
    have hne : ∀ c ∈ bs, κ b ≠ κ c := by
      intro c hc e; exact hnd.1 (e ▸ List.mem_map_of_mem hc)
    obtain ⟨slots', e1, e2, e3, e4⟩ := ih (slots.set (κ b) s') hnd.2 (by
      intro c hc
      obtain ⟨t, t', q1, q2, q3⟩ := h c (by simp [hc])
      refine ⟨t, t', ?_, q2, q3⟩
      rw [List.getElem?_set_ne (hne c hc)]
      exact q1)
    refine ⟨slots', ?_, by simpa using e2, ?_, ?_⟩
    · rw [Res.foldlM'_cons, onSlot_ok h1 h2]
      exact e1
    · intro c hc
      rw [List.mem_cons] at hc
      rcases hc with rfl | hc
      · refine ⟨s, s', h1, ?_, h3⟩
        rw [e4 _ hnd.1, List.getElem?_set_self hblt]
      · obtain ⟨t, t', q1, q2, q3⟩ := e3 c hc
        refine ⟨t, t', ?_, q2, q3⟩
        rw [List.getElem?_set_ne (hne c hc)] at q1
        exact q1
    · intro c hc
      rw [List.map_cons, List.mem_cons, not_or] at hc
      rw [e4 c hc.2, List.getElem?_set_ne (fun e => hc.1 e.symm)]

theorem foldlM'_congr {σ ι : Type _} {f g : σ → ι → Res σ} : ∀ (xs : List ι) (s : σ), (∀ s, ∀ x ∈ xs, f s x = g s x) →
    Res.foldlM' f s xs = Res.foldlM' g s xs := by
  intro xs
  induction xs with
  | nil => intro s _; rfl
  | cons x xs ih =>
    intro s h
    rw [Res.foldlM'_cons, Res.foldlM'_cons, h s x (by simp)]
    cases g s x with
    | ok s' => exact ih s' (fun s y hy => h s y (by simp [hy]))
    | fatal => rfl
    | assert => rfl
    | ub => rfl

theorem mem_blockPairs {nb a b : Nat} : (a, b) ∈ blockPairs nb ↔ 0 < a ∧ a ≤ b ∧ b ≤ nb := by
  unfold blockPairs
  simp only [List.mem_flatMap, List.mem_range, List.mem_map, Prod.mk.injEq]
  constructor
  · rintro ⟨i, hi, d, hd, rfl, rfl⟩; omega
  · rintro ⟨h1, h2, h3⟩
    exact ⟨a - 1, by omega, b - a, by omega, by omega, by omega⟩

theorem blockPairs_nodup (nb : Nat) : (blockPairs nb).Nodup := by
  unfold blockPairs
  rw [List.nodup_flatMap]
  refine ⟨?_, ?_⟩
  · intro i _
    apply List.Nodup.map ?_ (List.nodup_range)
    intro x y hxy
    simp only [Prod.mk.injEq] at hxy
    omega
  · refine List.nodup_range.imp ?_
    intro x y hxy
    simp only [Function.onFun, List.disjoint_left, List.mem_map, List.mem_range]
    rintro ⟨p, q⟩ ⟨_, _, h1⟩ ⟨_, _, h2⟩
    simp only [Prod.mk.injEq] at h1 h2
    omega

theorem slotList_nodup {nb : Nat} : ((blockPairs nb).map (fun p => slotNo nb p.1 p.2)).Nodup := by
  apply List.Nodup.map_on ?_ (blockPairs_nodup nb)
  rintro ⟨a, b⟩ h1 ⟨a', b'⟩ h2 he
  rw [mem_blockPairs] at h1 h2
  obtain ⟨rfl, rfl⟩ := slotNo_inj h1.1 h1.2.1 h1.2.2 h2.1 h2.2.1 h2.2.2 he
  rfl

end Nla3d.Block
