import Verif.Block.Lemmas

/-! # Invariants of the three phases of a block matrix family -/

namespace Nla3d.Block

open Nla3d.Sparse

variable {K : Type _}

/-- Size of block `a` (1-based). -/
local macro "sz" s:term:max a:term:max : term => `(List.getD $s ($a - 1) 0)

/-- Position `(p, c)` of block `(a, b)` is registered in the upper triangle. -/
def Pos (sizes : List Nat) (es : List (Nat × Nat)) (a b p c : Nat) : Prop :=
  IsPos sizes b c ∧ (a = b → p ≤ c) ∧ Reg es (glob sizes a p) (glob sizes b c)

theorem Reg.snoc {es : List (Nat × Nat)} {i j i' j' : Nat} :
    Reg (es ++ [(i, j)]) i' j' ↔ Reg es i' j' ∨ (i' = i ∧ j' = j) ∨ (i' = j ∧ j' = i) := by
  unfold Reg
  simp only [List.mem_append, List.mem_singleton, Prod.mk.injEq]
  tauto

theorem Reg.symm {es : List (Nat × Nat)} {i j : Nat} : Reg es i j ↔ Reg es j i := by
  unfold Reg; tauto

theorem Reg.nil {i j : Nat} : ¬ Reg [] i j := by simp [Reg]

/-- Decomposition of an unordered pair of indices into block coordinates. -/
structure Dec (sizes : List Nat) (i j a p b c : Nat) : Prop where
  ha : IsPos sizes a p
  hb : IsPos sizes b c
  hab : a ≤ b
  hpc : a = b → p ≤ c
  pair : (glob sizes a p = i ∧ glob sizes b c = j) ∨ (glob sizes a p = j ∧ glob sizes b c = i)

theorem pair_eq {sizes : List Nat} {i j a p b c a' p' b' c' : Nat} (h : Dec sizes i j a p b c)
    (ha : IsPos sizes a' p') (hb : IsPos sizes b' c') (hab : a' ≤ b') (hpc : a' = b' → p' ≤ c') :
    ((glob sizes a' p' = i ∧ glob sizes b' c' = j) ∨ (glob sizes a' p' = j ∧ glob sizes b' c' = i)) ↔
    (a' = a ∧ p' = p ∧ b' = b ∧ c' = c) := by
  constructor
  · intro hp
    have le1 : glob sizes a p ≤ glob sizes b c := by
      rcases Nat.lt_or_eq_of_le h.hab with hlt | heq
      · exact le_of_lt (glob_lt h.ha h.hb hlt)
      · have := h.hpc heq; unfold glob; rw [heq]; omega
    have le2 : glob sizes a' p' ≤ glob sizes b' c' := by
      rcases Nat.lt_or_eq_of_le hab with hlt | heq
      · exact le_of_lt (glob_lt ha hb hlt)
      · have := hpc heq; unfold glob; rw [heq]; omega
    have e : glob sizes a' p' = glob sizes a p ∧ glob sizes b' c' = glob sizes b c := by
      have := h.pair
      omega
    obtain ⟨h1, h2⟩ := glob_inj ha h.ha e.1
    obtain ⟨h3, h4⟩ := glob_inj hb h.hb e.2
    exact ⟨h1, h2, h3, h4⟩
  · rintro ⟨rfl, rfl, rfl, rfl⟩
    exact h.pair

theorem Pos.snoc {sizes : List Nat} {es : List (Nat × Nat)} {i j a p b c a' p' b' c' : Nat}
    (h : Dec sizes i j a p b c) (ha : IsPos sizes a' p') (hab : a' ≤ b') :
    Pos sizes (es ++ [(i, j)]) a' b' p' c' ↔ Pos sizes es a' b' p' c' ∨ (a' = a ∧ p' = p ∧ b' = b ∧ c' = c) := by
  unfold Pos
  rw [Reg.snoc]
  constructor
  · rintro ⟨h1, h2, h3 | h3⟩
    · exact Or.inl ⟨h1, h2, h3⟩
    · exact Or.inr ((pair_eq h ha h1 hab h2).mp h3)
  · rintro (⟨h1, h2, h3⟩ | ⟨rfl, rfl, rfl, rfl⟩)
    · exact ⟨h1, h2, Or.inl h3⟩
    · exact ⟨h.hb, h.hpc, Or.inr h.pair⟩

theorem locate_pair {sizes : List Nat} {i j : Nat} (hi : 0 < i ∧ i ≤ sizes.sum) (hj : 0 < j ∧ j ≤ sizes.sum) :
    ∃ a p b c, locateLoop sizes 1 (min i j) = (a, p) ∧ locateLoop sizes 1 (max i j) = (b, c) ∧
      Dec sizes i j a p b c := by
  obtain ⟨a, p, h1, h2, h3⟩ := locate_spec (sizes := sizes) (i := min i j) (by omega) (by omega)
  obtain ⟨b, c, g1, g2, g3⟩ := locate_spec (sizes := sizes) (i := max i j) (by omega) (by omega)
  obtain ⟨k1, k2⟩ := glob_le h2 g2 (by omega)
  exact ⟨a, p, b, c, h1, g1, h2, g2, k1, k2, by omega⟩

theorem swap_eq (i j : Nat) : (if i > j then (j, i) else (i, j)) = (min i j, max i j) := by
  by_cases h : i > j
  · rw [if_pos h, Nat.min_eq_right (by omega), Nat.max_eq_left (by omega)]
  · rw [if_neg h, Nat.min_eq_left (by omega), Nat.max_eq_right (by omega)]

/-! ## Registration phase -/

/-- State of one slot during registration. -/
def SlotReg (sizes : List Nat) (k : Nat) (es : List (Nat × Nat)) (Q a b : Nat) (s : Slot K) : Prop :=
  ∃ si rows, s = ⟨some si, List.replicate Q none⟩ ∧ Rep si rows ∧ si.nRows = sz sizes a ∧ si.nColumns = sz sizes b ∧
    si.maxInRow = min k (sz sizes b) ∧ DescP rows (Pos sizes es a b)

/-- Data common to all phases. -/
structure Shape (F : Family K) (sizes : List Nat) (Q : Nat) : Prop where
  hsz : F.sizes = sizes
  len : F.slots.length = sizes.length + nUpper sizes.length
  tot : F.totals.length = Q
  big : ∀ q < Q, ∃ t, F.totals[q]? = some t ∧ sizes.sum ≤ t
  flg : F.flags.length = Q

/-- Invariant of the registration phase. -/
structure Inv1 (F : Family K) (sizes : List Nat) (k : Nat) (es : List (Nat × Nat)) (Q : Nat) : Prop where
  shape : Shape F sizes Q
  slots : ∀ a b, 0 < a → a ≤ b → b ≤ sizes.length →
    ∃ s, F.slots[slotNo sizes.length a b]? = some s ∧ SlotReg sizes k es Q a b s

theorem Shape.locate {F : Family K} {sizes : List Nat} {Q q i : Nat} (h : Shape F sizes Q) (hq : q < Q)
    (hi : 0 < i ∧ i ≤ sizes.sum) : F.locate q i = .ok (locateLoop sizes 1 i) := by
  obtain ⟨t, h1, h2⟩ := h.big q hq
  unfold Family.locate
  rw [Res.read_eq_ok.mpr h1]
  simp only [Res.ok_bind]
  rw [if_pos (by omega), h.hsz]

theorem card_rowCols {sizes : List Nat} {es : List (Nat × Nat)} {a b p : Nat} {r : List Nat} (hb : 0 < b ∧ b ≤ sizes.length)
    (hnd : r.Nodup) (hr : ∀ c, c ∈ r ↔ Pos sizes es a b p c) : r.length = (rowCols sizes es a b p).card := by
  rw [← List.toFinset_card_of_nodup hnd]
  congr 1
  ext c
  unfold rowCols
  rw [List.mem_toFinset, List.mem_toFinset, hr, List.mem_filter, List.mem_range]
  unfold Pos IsPos
  simp only [decide_eq_true_eq]
  constructor
  · rintro ⟨⟨h1, h2, h3, h4⟩, h5, h6⟩
    exact ⟨by omega, h3, h5, h6⟩
  · rintro ⟨h1, h2, h3, h4⟩
    exact ⟨⟨hb.1, hb.2, h2, by omega⟩, h3, h4⟩

theorem rowCols_mono {sizes : List Nat} {es es' : List (Nat × Nat)} (h : ∀ x ∈ es, x ∈ es') (a b p : Nat) :
    rowCols sizes es a b p ⊆ rowCols sizes es' a b p := by
  intro c
  unfold rowCols
  rw [List.mem_toFinset, List.mem_toFinset, List.mem_filter, List.mem_filter]
  simp only [decide_eq_true_eq]
  rintro ⟨h1, h2, h3, h4⟩
  refine ⟨h1, h2, h3, ?_⟩
  unfold Reg at *
  exact h4.imp (h _) (h _)

theorem Fits.mono {sizes : List Nat} {k : Nat} {es es' : List (Nat × Nat)} (h : ∀ x ∈ es, x ∈ es')
    (hf : Fits sizes k es') : Fits sizes k es := by
  intro a b p h1 h2 h3 h4
  exact le_trans (Finset.card_le_card (rowCols_mono h a b p)) (hf a b p h1 h2 h3 h4)

theorem Inv1.fits {F : Family K} {sizes : List Nat} {k : Nat} {es : List (Nat × Nat)} {Q : Nat}
    (h : Inv1 F sizes k es Q) : Fits sizes k es := by
  intro a b p hab hp hb1 hb2
  obtain ⟨s, _, si, rows, _, h2, h3, h4, h5, h6⟩ := h.slots a b hp.1 hab hb2
  have hlt : p - 1 < rows.length := by rw [h2.len, h3]; have := hp.2.2.1; have := hp.2.2.2; omega
  have := card_rowCols (es := es) (a := a) (p := p) ⟨hb1, hb2⟩ (h2.nodup _ (List.getElem_mem hlt))
    (fun c => by rw [h6 _ hlt, Nat.sub_add_cancel hp.2.2.1])
  have hf := h2.fits _ (List.getElem_mem hlt)
  omega

theorem Slot.call_none {q Q : Nat} (hq : q < Q) {si si' : SpInfo} {f : SpMat K → Res (SpMat K)}
    (hf : f ⟨si, none⟩ = .ok ⟨si', none⟩) :
    Slot.call q f ⟨some si, List.replicate Q none⟩ = .ok ⟨some si', List.replicate Q none⟩ := by
  unfold Slot.call
  simp only
  rw [Res.read_eq_ok.mpr (by rw [List.getElem?_replicate_of_lt hq])]
  simp only [Res.ok_bind, hf]
  congr 2
  apply List.ext_getElem?
  intro t
  rw [List.getElem?_set]
  by_cases h : q = t
  · subst h; simp [hq]
  · simp [h]

theorem step_entry [Zero K] {F : Family K} {sizes : List Nat} {k : Nat} {es : List (Nat × Nat)} {Q q i j : Nat}
    (hs : nUpper sizes.length ≤ 65536) (h : Inv1 F sizes k es Q)
    (hq : q < Q) (hi : 0 < i ∧ i ≤ sizes.sum) (hj : 0 < j ∧ j ≤ sizes.sum) :
    (∃ F', F.addEntry q i j = .ok F' ∧ Inv1 F' sizes k (es ++ [(i, j)]) Q) ∨
    (¬ Fits sizes k (es ++ [(i, j)]) ∧ F.addEntry q i j = .fatal) := by
  obtain ⟨a, p, b, c, l1, l2, hd⟩ := locate_pair hi hj
  have hF : F.addEntry q i j = (onSlot F.slots (slotNo sizes.length a b) (Slot.call q (fun m => m.addEntry p c)) >>=
      fun slots => .ok { F with slots := slots }) := by
    unfold Family.addEntry
    simp only [swap_eq]
    rw [h.shape.locate hq (by omega : 0 < min i j ∧ min i j ≤ sizes.sum), l1,
      h.shape.locate hq (by omega : 0 < max i j ∧ max i j ≤ sizes.sum), l2]
    simp only [Res.ok_bind, h.shape.hsz]
    rw [(blockSlot_eq hd.ha.1 hd.hab hd.hb.2.1 hs).1]
    simp only [Res.ok_bind]
    have : (fun m : SpMat K => if a = b then m.addEntrySym p c else m.addEntry p c) = fun m => m.addEntry p c := by
      funext m
      split
      · have := hd.hpc (by assumption)
        unfold SpMat.addEntrySym
        rw [if_neg (by omega)]
      · rfl
    rw [this]
  obtain ⟨s, g1, si, rows, rfl, g2, g3, g4, g5, g6⟩ := h.slots a b hd.ha.1 hd.hab hd.hb.2.1
  rcases addEntry_P g2 g6 (i := p) (j := c) (by rw [g3]; exact hd.ha.2.2) (by rw [g4]; exact hd.hb.2.2) with
    ⟨si', rows', e1, e2, e3, e4, e5, e6⟩ | ⟨e1, ⟨r, r1, r2, r3⟩, e2⟩
  · left
    have hcall : Slot.call q (fun m => m.addEntry p c) ⟨some si, List.replicate Q none⟩ =
        .ok (⟨some si', List.replicate Q none⟩ : Slot K) :=
      Slot.call_none hq (by simp [SpMat.addEntry, e1])
    refine ⟨_, by rw [hF, onSlot_ok g1 hcall]; rfl, ?_⟩
    constructor
    · exact ⟨h.shape.hsz, by simpa using h.shape.len, h.shape.tot, h.shape.big, h.shape.flg⟩
    · intro a' b' ha' hab' hb'
      simp only
      by_cases hsame : a = a' ∧ b = b'
      · obtain ⟨rfl, rfl⟩ := hsame
        refine ⟨_, by rw [List.getElem?_set_self (List.getElem?_eq_some_iff.mp g1).1], si', rows', rfl, e5,
          by omega, by omega, by omega, e6.congr ?_⟩
        intro p' c' hp1 hp2
        have hp : IsPos sizes a p' := ⟨ha', by omega, hp1, by rw [e5.len, e2, g3] at hp2; exact hp2⟩
        rw [Pos.snoc hd hp hab']
        tauto
      · obtain ⟨s', f1, si2, rows2, rfl, f2, f3, f4, f5, f6⟩ := h.slots a' b' ha' hab' hb'
        refine ⟨_, ?_, si2, rows2, rfl, f2, f3, f4, f5, f6.congr ?_⟩
        · rw [List.getElem?_set_ne]
          · exact f1
          · intro he
            exact hsame (slotNo_inj hd.ha.1 hd.hab hd.hb.2.1 ha' hab' hb' he)
        · intro p' c' hp1 hp2
          have hp : IsPos sizes a' p' := ⟨ha', by omega, hp1, by rw [f2.len, f3] at hp2; exact hp2⟩
          rw [Pos.snoc hd hp hab']
          constructor
          · exact Or.inl
          · rintro (hh | ⟨q1, _, q2, _⟩)
            · exact hh
            · exact absurd ⟨q1.symm, q2.symm⟩ hsame
  · right
    refine ⟨?_, ?_⟩
    · intro hf
      have hc := hf a b p hd.hab hd.ha (by have := hd.ha.1; have := hd.hab; omega) hd.hb.2.1
      have hnew : (r ++ [c]).Nodup := by
        rw [List.nodup_append]
        refine ⟨r1, by simp, ?_⟩
        intro x hx y hy
        simp only [List.mem_singleton] at hy
        subst hy
        rintro rfl
        exact e1 ((r2 x).mp hx)
      have := card_rowCols (sizes := sizes) (es := es ++ [(i, j)]) (a := a) (p := p) (b := b) ⟨hd.hb.1, hd.hb.2.1⟩ hnew (by
        intro c'
        rw [Pos.snoc hd hd.ha hd.hab, List.mem_append, List.mem_singleton, r2]
        tauto)
      rw [List.length_append, r3, g5] at this
      simp only [List.length_singleton] at this
      -- the row cannot hold more than `sz b` columns
      have hsub : (r ++ [c]).toFinset ⊆ (List.range' 1 (sz sizes b)).toFinset := by
        intro x hx
        rw [List.mem_toFinset, List.mem_append, List.mem_singleton, r2] at hx
        rw [List.mem_toFinset, List.mem_range']
        have : 0 < x ∧ x ≤ sz sizes b := by
          rcases hx with hx | rfl
          · exact hx.1.2.2
          · exact hd.hb.2.2
        exact ⟨x - 1, by omega, by omega⟩
      have hle := Finset.card_le_card hsub
      rw [List.toFinset_card_of_nodup hnew, List.toFinset_card_of_nodup List.nodup_range', List.length_range',
        List.length_append, r3, g5] at hle
      simp only [List.length_singleton] at hle
      omega
    · rw [hF]
      have : onSlot F.slots (slotNo sizes.length a b) (Slot.call q (fun m => m.addEntry p c)) = .fatal := by
        unfold onSlot
        rw [Res.read_eq_ok.mpr g1]
        simp only [Res.ok_bind, Slot.call]
        rw [Res.read_eq_ok.mpr (by rw [List.getElem?_replicate_of_lt hq])]
        simp [SpMat.addEntry, e2]
      rw [this]; rfl

/-- Folding over all blocks. -/
theorem fold_pairs {nb : Nat} (hs : nUpper nb ≤ 65536) (g : Nat × Nat → Slot K → Res (Slot K))
    (f : List (Slot K) → Nat × Nat → Res (List (Slot K)))
    (hf : ∀ slots, ∀ x ∈ blockPairs nb, f slots x = (blockSlot nb x.1 x.2 >>= fun b => onSlot slots b (g x)))
    (T : Nat × Nat → Slot K → Slot K → Prop) (slots : List (Slot K))
    (h : ∀ a b, 0 < a → a ≤ b → b ≤ nb → ∃ s s', slots[slotNo nb a b]? = some s ∧ g (a, b) s = .ok s' ∧ T (a, b) s s') :
    ∃ slots', Res.foldlM' f slots (blockPairs nb) = .ok slots' ∧ slots'.length = slots.length ∧
      ∀ a b, 0 < a → a ≤ b → b ≤ nb → ∃ s s', slots[slotNo nb a b]? = some s ∧ slots'[slotNo nb a b]? = some s' ∧
        T (a, b) s s' := by
  have := foldlM'_congr (f := f) (g := fun slots x => onSlot slots (slotNo nb x.1 x.2) (g x)) (blockPairs nb) slots (by
    intro s x hx
    rw [hf s x hx]
    obtain ⟨a, b⟩ := x
    rw [mem_blockPairs] at hx
    rw [(blockSlot_eq hx.1 hx.2.1 hx.2.2 hs).1]
    rfl)
  rw [this]
  obtain ⟨slots', e1, e2, e3, _⟩ := fold_onSlot (fun x : Nat × Nat => slotNo nb x.1 x.2) g T (blockPairs nb) slots
    slotList_nodup (by
      rintro ⟨a, b⟩ hx
      rw [mem_blockPairs] at hx
      exact h a b hx.1 hx.2.1 hx.2.2)
  refine ⟨slots', e1, e2, ?_⟩
  intro a b h1 h2 h3
  exact e3 (a, b) (mem_blockPairs.mpr ⟨h1, h2, h3⟩)

theorem create_ok {sizes : List Nat} {k : Nat} (hs : nUpper sizes.length ≤ 65536) (hk : 0 < k)
    (hn : ∀ n ∈ sizes, n < invalid) :
    ∃ F : Family K, Family.create sizes k = .ok F ∧ Inv1 F sizes k [] 1 := by
  obtain ⟨slots', e1, e2, e3⟩ := fold_pairs (K := K) hs
    (fun x s => do
        let si ← SpInfo.init (sz sizes x.1) (sz sizes x.2) k
        .ok { s with si := some si, vals := [none] })
    (fun slots (p : Nat × Nat) => do
      let b ← blockSlot sizes.length p.1 p.2
      let ni ← Res.read sizes (p.1 - 1)
      let nj ← Res.read sizes (p.2 - 1)
      onSlot slots b (fun s => do
        let si ← SpInfo.init ni nj k
        .ok { s with si := some si, vals := [none] }))
    (by
      rintro slots ⟨a, b⟩ hx
      rw [mem_blockPairs] at hx
      have r1 : Res.read sizes (a - 1) = .ok (sz sizes a) := by
        rw [Res.read_of_lt (by omega)]; simp [List.getD, List.getElem?_eq_getElem (by omega : a - 1 < sizes.length)]
      have r2 : Res.read sizes (b - 1) = .ok (sz sizes b) := by
        rw [Res.read_of_lt (by omega)]; simp [List.getD, List.getElem?_eq_getElem (by omega : b - 1 < sizes.length)]
      simp only [r1, r2, Res.ok_bind])
    (fun x _ s' => SlotReg sizes k [] 1 x.1 x.2 s')
    (List.replicate (sizes.length + nUpper sizes.length) { si := none, vals := [none] }) (by
      intro a b h1 h2 h3
      have hlt := (blockSlot_eq h1 h2 h3 hs).2
      have hm : sz sizes b < invalid := by
        have hb : b - 1 < sizes.length := by omega
        have : sz sizes b = sizes[b - 1] := by simp [List.getD, List.getElem?_eq_getElem hb]
        rw [this]; exact hn _ (List.getElem_mem hb)
      obtain ⟨si, g1, g2, g3, g4, g5⟩ := Rep.init (n := sz sizes a) hk hm
      refine ⟨_, _, by rw [List.getElem?_replicate_of_lt hlt], by simp only [g1, Res.ok_bind]; rfl, si, _, rfl, g2, g3, g4, g5, ?_⟩
      intro i hi j
      simp [Pos, Reg])
  refine ⟨_, by
    unfold Family.create
    simp only []
    rw [e1]; rfl, ?_⟩
  constructor
  · refine ⟨rfl, by simpa using e2, rfl, ?_, rfl⟩
    intro q hq
    exact ⟨sizes.sum, by simp [show q = 0 by omega], le_rfl⟩
  · intro a b h1 h2 h3
    obtain ⟨_, s', _, g1, g2⟩ := e3 a b h1 h2 h3
    exact ⟨s', g1, g2⟩

theorem Shape.copy {F : Family K} {sizes : List Nat} {Q : Nat} (h : Shape F sizes Q) {slots : List (Slot K)} {t : Nat}
    {fl : Bool} (hl : slots.length = F.slots.length) :
    Shape { F with slots := slots, totals := F.totals ++ [t + F.sizes.sum], flags := F.flags ++ [fl] } sizes (Q + 1) := by
  refine ⟨h.hsz, by simpa [hl] using h.len, by simp [h.tot], ?_, by simp [h.flg]⟩
  intro q hq
  by_cases hq' : q < Q
  · obtain ⟨t, h1, h2⟩ := h.big q hq'
    exact ⟨t, by simp only; rw [List.getElem?_append_left (by rw [h.tot]; exact hq')]; exact h1, h2⟩
  · have : q = Q := by omega
    subst this
    refine ⟨t + F.sizes.sum, ?_, by rw [h.hsz]; omega⟩
    simp only
    rw [List.getElem?_append_right (by rw [h.tot]), h.tot]
    simp

theorem step_copy1 [Zero K] {F : Family K} {sizes : List Nat} {k : Nat} {es : List (Nat × Nat)} {Q q : Nat}
    (hs : nUpper sizes.length ≤ 65536) (h : Inv1 F sizes k es Q) (hq : q < Q) :
    ∃ F', F.copy q = .ok F' ∧ Inv1 F' sizes k es (Q + 1) := by
  obtain ⟨slots', e1, e2, e3⟩ := fold_pairs (K := K) hs (fun _ => Slot.share)
    (fun slots (p : Nat × Nat) => do
      let b ← blockSlot F.sizes.length p.1 p.2
      onSlot slots b Slot.share) (by intro slots x _; rw [h.shape.hsz])
    (fun x _ s' => SlotReg sizes k es (Q + 1) x.1 x.2 s') F.slots (by
      intro a b h1 h2 h3
      obtain ⟨s, g1, si, rows, rfl, g2, g3⟩ := h.slots a b h1 h2 h3
      refine ⟨_, _, g1, by simp only [Slot.share, g2.unc]; rfl, si, rows, ?_, g2, g3⟩
      rw [List.replicate_succ'])
  obtain ⟨t, ht, _⟩ := h.shape.big q hq
  have hfl : q < F.flags.length := by rw [h.shape.flg]; exact hq
  refine ⟨_, by
    unfold Family.copy
    rw [Res.read_eq_ok.mpr ht, Res.read_of_lt hfl]
    simp only [Res.ok_bind]
    rw [show blockPairs F.sizes.length = blockPairs sizes.length by rw [h.shape.hsz], e1]; rfl, ?_⟩
  refine ⟨h.shape.copy e2, ?_⟩
  intro a b h1 h2 h3
  obtain ⟨_, s', _, g1, g2⟩ := e3 a b h1 h2 h3
  exact ⟨s', g1, g2⟩

theorem phase1 [Zero K] {sizes : List Nat} {k : Nat} (hs : nUpper sizes.length ≤ 65536) :
    ∀ (cs : List Call1) (F : Family K) (es : List (Nat × Nat)) (Q : Nat), Inv1 F sizes k es Q → Legal1 sizes.sum Q cs →
    (Fits sizes k (es ++ entriesOf cs) ∧ ∃ F', Res.foldlM' step1 F cs = .ok F' ∧
      Inv1 F' sizes k (es ++ entriesOf cs) (count1 Q cs)) ∨
    (¬ Fits sizes k (es ++ entriesOf cs) ∧ Res.foldlM' step1 F cs = .fatal) := by
  intro cs
  induction cs with
  | nil =>
    intro F es Q h _
    left
    simp only [entriesOf, List.append_nil]
    exact ⟨h.fits, F, rfl, h⟩
  | cons c cs ih =>
    intro F es Q h hl
    cases c with
    | entry q i j =>
      obtain ⟨h1, h2, h3, h4⟩ := hl
      simp only [entriesOf]
      rw [show es ++ (i, j) :: entriesOf cs = es ++ [(i, j)] ++ entriesOf cs by simp]
      rcases step_entry hs h h1 h2 h3 with ⟨F', e1, e2⟩ | ⟨e1, e2⟩
      · rw [Res.foldlM'_cons, show step1 F (.entry q i j) = .ok F' from e1]
        exact ih F' _ Q e2 h4
      · right
        refine ⟨fun hf => e1 (hf.mono (fun x hx => List.mem_append_left _ hx)), ?_⟩
        rw [Res.foldlM'_cons, show step1 F (.entry q i j) = .fatal from e2]
        rfl
    | copy q =>
      obtain ⟨h1, h2⟩ := hl
      obtain ⟨F', e1, e2⟩ := step_copy1 hs h h1
      rw [Res.foldlM'_cons, show step1 F (.copy q) = .ok F' from e1]
      exact ih F' _ (Q + 1) e2 h2

/-! ## Compression and values -/

/-- State of one slot after compression: the first `st.length` matrices have values. -/
def SlotVal [Zero K] [Add K] (sizes : List Nat) (es : List (Nat × Nat)) (st : List (List (Op K))) (Q a b : Nat)
    (s : Slot K) : Prop :=
  ∃ si rows, s.si = some si ∧ Csr si rows ∧ si.nRows = sz sizes a ∧ si.nColumns = sz sizes b ∧
    DescP rows (Pos sizes es a b) ∧ s.vals.length = Q ∧
    (∀ q (hq : q < st.length), ∃ v, s.vals[q]? = some v ∧
      Vals ⟨si, v⟩ rows (fun p c => totalSym st[q] (glob sizes a p) (glob sizes b c))) ∧
    (∀ q, st.length ≤ q → q < Q → s.vals[q]? = some none)

/-- Invariant of the value phase. -/
structure Inv3 [Zero K] [Add K] (F : Family K) (sizes : List Nat) (es : List (Nat × Nat)) (st : List (List (Op K)))
    (Q : Nat) : Prop where
  shape : Shape F sizes Q
  le : st.length ≤ Q
  slots : ∀ a b, 0 < a → a ≤ b → b ≤ sizes.length →
    ∃ s, F.slots[slotNo sizes.length a b]? = some s ∧ SlotVal sizes es st Q a b s
  reg : ∀ ops ∈ st, ∀ i j x, Op.add i j x ∈ ops → Reg es i j

theorem fold_all {sizes : List Nat} (hs : nUpper sizes.length ≤ 65536) (F : Family K) (hF : F.sizes = sizes)
    (g : Slot K → Res (Slot K)) (T : Nat → Nat → Slot K → Prop)
    (h : ∀ a b, 0 < a → a ≤ b → b ≤ sizes.length →
      ∃ s s', F.slots[slotNo sizes.length a b]? = some s ∧ g s = .ok s' ∧ T a b s') :
    ∃ slots', allSlots F g = .ok slots' ∧ slots'.length = F.slots.length ∧
      ∀ a b, 0 < a → a ≤ b → b ≤ sizes.length → ∃ s', slots'[slotNo sizes.length a b]? = some s' ∧ T a b s' := by
  obtain ⟨slots', e1, e2, e3, _⟩ := fold_onSlot (fun t : Nat => t) (fun _ => g)
    (fun t _ s' => ∀ a b, 0 < a → a ≤ b → b ≤ sizes.length → slotNo sizes.length a b = t → T a b s')
    (List.range (sizes.length + nUpper sizes.length)) F.slots (by simpa using List.nodup_range) (by
      intro t ht
      rw [List.mem_range] at ht
      obtain ⟨a, b, h1, h2, h3, rfl⟩ := slotNo_surj ht
      obtain ⟨s, s', g1, g2, g3⟩ := h a b h1 h2 h3
      refine ⟨s, s', g1, g2, ?_⟩
      intro a' b' k1 k2 k3 k4
      obtain ⟨rfl, rfl⟩ := slotNo_inj k1 k2 k3 h1 h2 h3 k4
      exact g3)
  refine ⟨slots', by unfold allSlots; rw [hF]; exact e1, e2, ?_⟩
  intro a b h1 h2 h3
  obtain ⟨s, s', _, g1, g2⟩ := e3 (slotNo sizes.length a b) (List.mem_range.mpr (blockSlot_eq h1 h2 h3 hs).2)
  exact ⟨s', g1, g2 a b h1 h2 h3 rfl⟩

theorem totalSym_nil [AddMonoid K] (i j : Nat) : totalSym ([] : List (Op K)) i j = 0 := rfl

theorem Shape.setSlots {F : Family K} {sizes : List Nat} {Q : Nat} (h : Shape F sizes Q) {slots : List (Slot K)}
    {fl : List Bool} (hl : slots.length = F.slots.length) (hf : fl.length = F.flags.length) :
    Shape { F with slots := slots, flags := fl } sizes Q :=
  ⟨h.hsz, by simpa [hl] using h.len, h.tot, h.big, by rw [hf]; exact h.flg⟩

/-- `compress` of the first matrix. -/
theorem compress_first [AddMonoid K] {F : Family K} {sizes : List Nat} {k : Nat} {es : List (Nat × Nat)} {Q : Nat}
    (hs : nUpper sizes.length ≤ 65536) (h : Inv1 F sizes k es (Q + 1)) :
    ∃ F', F.compress 0 = .ok F' ∧ Inv3 F' sizes es [[]] (Q + 1) := by
  obtain ⟨slots', e1, e2, e3⟩ := fold_all hs F h.shape.hsz (Slot.call 0 SpMat.compress)
    (fun a b s' => SlotVal sizes es [([] : List (Op K))] (Q + 1) a b s') (by
      intro a b h1 h2 h3
      obtain ⟨s, g1, si, rows, rfl, g2, g3, g4, g5, g6⟩ := h.slots a b h1 h2 h3
      obtain ⟨m, m1, m2, m3, m4, _⟩ := g2.compressMat (K := K)
      refine ⟨_, ⟨some m.si, (List.replicate (Q + 1) none).set 0 m.values⟩, g1, by
        unfold Slot.call
        simp only
        rw [Res.read_eq_ok.mpr (by rw [List.getElem?_replicate_of_lt (by omega)])]
        simp only [Res.ok_bind, m1], ?_⟩
      refine ⟨m.si, rows.map sortRow, rfl, m2.csr, by omega, by omega, g6.sorted, by simp, ?_, ?_⟩
      · intro q hq
        have : q = 0 := by simpa using hq
        subst this
        exact ⟨m.values, by simp [List.replicate_succ], m2⟩
      · intro q hq1 hq2
        have hq1' : 1 ≤ q := by simpa using hq1
        simp only
        rw [List.getElem?_set_ne (by omega), List.getElem?_replicate_of_lt hq2])
  refine ⟨_, by unfold Family.compress; rw [e1]; rfl, ?_⟩
  exact ⟨h.shape.setSlots e2 (by simp), by simp, e3, by simp⟩

/-- `compress` of the next matrix. -/
theorem compress_next [AddMonoid K] {F : Family K} {sizes : List Nat} {es : List (Nat × Nat)} {Q : Nat}
    {st : List (List (Op K))} (hs : nUpper sizes.length ≤ 65536) (h : Inv3 F sizes es st Q) (hq : st.length < Q) :
    ∃ F', F.compress st.length = .ok F' ∧ Inv3 F' sizes es (st ++ [[]]) Q := by
  obtain ⟨slots', e1, e2, e3⟩ := fold_all hs F h.shape.hsz (Slot.call st.length SpMat.compress)
    (fun a b s' => SlotVal sizes es (st ++ [([] : List (Op K))]) Q a b s') (by
      intro a b h1 h2 h3
      obtain ⟨s, g1, si, rows, g2, g3, g4, g5, g6, g7, g8, g9⟩ := h.slots a b h1 h2 h3
      refine ⟨s, ⟨some si, s.vals.set st.length (some (List.replicate si.numberOfValues 0))⟩, g1, by
        unfold Slot.call
        rw [g2]
        simp only
        rw [Res.read_eq_ok.mpr (g9 _ le_rfl hq)]
        simp [SpMat.compress, g3.comp], si, rows, rfl, g3, g4, g5, g6, by simpa using g7, ?_, ?_⟩
      · intro q hq'
        simp only [List.length_append, List.length_singleton] at hq'
        by_cases hlt : q < st.length
        · obtain ⟨v, v1, v2⟩ := g8 q hlt
          refine ⟨v, by simp only; rw [List.getElem?_set_ne (by omega)]; exact v1, ?_⟩
          simp only [List.getElem_append_left hlt]
          exact v2
        · have : q = st.length := by omega
          subst this
          refine ⟨_, by simp only; rw [List.getElem?_set_self (by omega)], ?_⟩
          simp only [List.getElem_append_right le_rfl, Nat.sub_self, List.getElem_singleton]
          refine ⟨g3, _, rfl, by simp [g3.num], ?_⟩
          intro i hi k hk
          rw [List.getElem?_replicate_of_lt (by rw [g3.num]; exact offset_lt_total hi hk)]
          rfl
      · intro q hq1 hq2
        simp only [List.length_append, List.length_singleton] at hq1
        simp only
        rw [List.getElem?_set_ne (by omega)]
        exact g9 q (by omega) hq2)
  refine ⟨_, by unfold Family.compress; rw [e1]; rfl, ?_⟩
  refine ⟨h.shape.setSlots e2 (by simp), by simp; omega, e3, ?_⟩
  intro ops hops
  rw [List.mem_append, List.mem_singleton] at hops
  rcases hops with hops | rfl
  · exact h.reg ops hops
  · simp

theorem phase2 [AddMonoid K] {F : Family K} {sizes : List Nat} {k : Nat} {es : List (Nat × Nat)} {Q : Nat}
    (hs : nUpper sizes.length ≤ 65536) (h : Inv1 F sizes k es Q) (hQ : 0 < Q) :
    ∃ F', Res.foldlM' Family.compress F (List.range Q) = .ok F' ∧
      Inv3 F' sizes es (List.replicate Q []) Q := by
  have key : ∀ m, m < Q → ∃ F', Res.foldlM' Family.compress F (List.range (m + 1)) = .ok F' ∧
      Inv3 F' sizes es (List.replicate (m + 1) []) Q := by
    intro m
    induction m with
    | zero =>
      intro hm
      obtain ⟨t, rfl⟩ : ∃ t, Q = t + 1 := ⟨Q - 1, by omega⟩
      obtain ⟨F', e1, e2⟩ := compress_first hs h
      exact ⟨F', by rw [show List.range (0 + 1) = [0] from rfl, Res.foldlM'_cons, e1]; rfl, e2⟩
    | succ m ih =>
      intro hm
      obtain ⟨F', e1, e2⟩ := ih (by omega)
      obtain ⟨F'', f1, f2⟩ := compress_next hs e2 (by simpa using hm)
      rw [List.length_replicate] at f1
      refine ⟨F'', ?_, by rw [← List.replicate_succ'] at f2; exact f2⟩
      rw [List.range_succ, Res.foldlM'_append, e1]
      simp only [Res.ok_bind, Res.foldlM'_cons, f1, Res.foldlM'_nil]
  obtain ⟨m, rfl⟩ : ∃ m, Q = m + 1 := ⟨Q - 1, by omega⟩
  exact key m (by omega)

theorem totalSym_snoc_add [AddMonoid K] (ops : List (Op K)) (i j : Nat) (x : K) (p q : Nat) :
    totalSym (ops ++ [.add i j x]) p q =
      if (i = p ∧ j = q) ∨ (i = q ∧ j = p) then totalSym ops p q + x else totalSym ops p q := by
  simp [totalSym]

theorem totalSym_snoc_zero [AddMonoid K] (ops : List (Op K)) (p q : Nat) :
    totalSym (ops ++ [.zero]) p q = 0 := by
  simp [totalSym]

theorem totalSym_unreg [AddMonoid K] {es : List (Nat × Nat)} {p q : Nat} (hn : ¬ Reg es p q) :
    ∀ (ops : List (Op K)), (∀ i j x, Op.add i j x ∈ ops → Reg es i j) → totalSym ops p q = 0 := by
  intro ops
  induction ops using List.reverseRecOn with
  | nil => intro _; rfl
  | append_singleton ops o ih =>
    intro h
    cases o with
    | zero => rw [totalSym_snoc_zero]
    | add i j x =>
      rw [totalSym_snoc_add, if_neg, ih (fun i j x hm => h i j x (by simp [hm]))]
      rintro (⟨rfl, rfl⟩ | ⟨rfl, rfl⟩)
      · exact hn (h _ _ x (by simp))
      · exact hn (Reg.symm.mp (h _ _ x (by simp)))

theorem modify_reg {es : List (Nat × Nat)} {st : List (List (Op K))} {q : Nat} {o : Op K}
    (h : ∀ ops ∈ st, ∀ i j x, Op.add i j x ∈ ops → Reg es i j) (ho : ∀ i j x, o = Op.add i j x → Reg es i j) :
    ∀ ops ∈ st.modify q (· ++ [o]), ∀ i j x, Op.add i j x ∈ ops → Reg es i j := by
  intro ops hops
  obtain ⟨t, ht, rfl⟩ := List.mem_iff_getElem.mp hops
  intro i j x hm
  rw [List.length_modify] at ht
  rw [List.getElem_modify] at hm
  split at hm
  · rw [List.mem_append, List.mem_singleton] at hm
    rcases hm with hm | hm
    · exact h _ (List.getElem_mem ht) i j x hm
    · exact ho i j x hm.symm
  · exact h _ (List.getElem_mem ht) i j x hm

/-- Replacing the values of matrix `q` in one slot. -/
theorem SlotVal.set [AddMonoid K] {sizes : List Nat} {es : List (Nat × Nat)} {st : List (List (Op K))} {Q a b q : Nat}
    {s : Slot K} {o : Op K} {si : SpInfo} {rows : List (List Nat)} {v' : Option (List K)}
    (hq : q < st.length) (g3 : Csr si rows) (g4 : si.nRows = sz sizes a) (g5 : si.nColumns = sz sizes b)
    (g6 : DescP rows (Pos sizes es a b)) (g7 : s.vals.length = Q) (hle : st.length ≤ Q)
    (g8 : ∀ q (hq : q < st.length), ∃ v, s.vals[q]? = some v ∧
      Vals ⟨si, v⟩ rows (fun p c => totalSym st[q] (glob sizes a p) (glob sizes b c)))
    (g9 : ∀ q, st.length ≤ q → q < Q → s.vals[q]? = some none)
    (hv : Vals ⟨si, v'⟩ rows (fun p c => totalSym (st[q] ++ [o]) (glob sizes a p) (glob sizes b c))) :
    SlotVal sizes es (st.modify q (· ++ [o])) Q a b ⟨some si, s.vals.set q v'⟩ := by
  refine ⟨si, rows, rfl, g3, g4, g5, g6, by simpa using g7, ?_, ?_⟩
  · intro q' hq'
    rw [List.length_modify] at hq'
    by_cases he : q = q'
    · subst he
      refine ⟨v', by simp only; rw [List.getElem?_set_self (by omega)], ?_⟩
      simp only [List.getElem_modify_eq]
      exact hv
    · obtain ⟨v, v1, v2⟩ := g8 q' hq'
      refine ⟨v, by simp only; rw [List.getElem?_set_ne he]; exact v1, ?_⟩
      rw [List.getElem_modify_ne _ _ he]
      exact v2
  · intro q' hq1 hq2
    rw [List.length_modify] at hq1
    simp only
    rw [List.getElem?_set_ne (by omega)]
    exact g9 q' hq1 hq2

theorem Slot.call_some {q : Nat} {s : Slot K} {si : SpInfo} {v : Option (List K)} {f : SpMat K → Res (SpMat K)}
    {m : SpMat K} (h1 : s.si = some si) (h2 : s.vals[q]? = some v) (h3 : f ⟨si, v⟩ = .ok m) (h4 : m.si = si) :
    Slot.call q f s = .ok ⟨some si, s.vals.set q m.values⟩ := by
  unfold Slot.call
  rw [h1]
  simp only
  rw [Res.read_eq_ok.mpr h2]
  simp [h3, h4]

theorem step_zero [AddMonoid K] {F : Family K} {sizes : List Nat} {es : List (Nat × Nat)} {Q q : Nat}
    {st : List (List (Op K))} (hs : nUpper sizes.length ≤ 65536) (h : Inv3 F sizes es st Q) (hq : q < st.length) :
    ∃ F', F.zero q = .ok F' ∧ Inv3 F' sizes es (st.modify q (· ++ [.zero])) Q := by
  obtain ⟨slots', e1, e2, e3⟩ := fold_all hs F h.shape.hsz (Slot.call q SpMat.zero)
    (fun a b s' => SlotVal sizes es (st.modify q (· ++ [.zero])) Q a b s') (by
      intro a b h1 h2 h3
      obtain ⟨s, g1, si, rows, g2, g3, g4, g5, g6, g7, g8, g9⟩ := h.slots a b h1 h2 h3
      obtain ⟨v, v1, v2⟩ := g8 q hq
      obtain ⟨m, m1, m2, m3⟩ := v2.zero
      refine ⟨s, _, g1, Slot.call_some g2 v1 m1 m2, ?_⟩
      apply SlotVal.set hq g3 g4 g5 g6 g7 h.le g8 g9
      obtain ⟨msi, mv⟩ := m
      simp only at m2
      subst m2
      simp only [totalSym_snoc_zero]
      exact m3)
  refine ⟨_, by unfold Family.zero; rw [e1]; rfl, ?_⟩
  exact ⟨h.shape.setSlots e2 rfl, by simpa using h.le, e3, modify_reg h.reg (by simp)⟩

theorem step_copy3 [AddMonoid K] {F : Family K} {sizes : List Nat} {es : List (Nat × Nat)} {q : Nat}
    {st : List (List (Op K))} (hs : nUpper sizes.length ≤ 65536) (h : Inv3 F sizes es st st.length) (hq : q < st.length) :
    ∃ F', F.copy q = .ok F' ∧ Inv3 F' sizes es (st ++ [[]]) (st ++ [([] : List (Op K))]).length := by
  obtain ⟨slots', e1, e2, e3⟩ := fold_pairs (K := K) hs (fun _ => Slot.share)
    (fun slots (p : Nat × Nat) => do
      let b ← blockSlot F.sizes.length p.1 p.2
      onSlot slots b Slot.share) (by intro slots x _; rw [h.shape.hsz])
    (fun x _ s' => SlotVal sizes es (st ++ [([] : List (Op K))]) (st ++ [([] : List (Op K))]).length x.1 x.2 s') F.slots (by
      intro a b h1 h2 h3
      obtain ⟨s, g1, si, rows, g2, g3, g4, g5, g6, g7, g8, g9⟩ := h.slots a b h1 h2 h3
      refine ⟨s, ⟨some si, s.vals ++ [some (List.replicate si.numberOfValues 0)]⟩, g1, by
        simp [Slot.share, g2, SpMat.compress, g3.comp], si, rows, rfl, g3, g4, g5, g6, by simp [g7], ?_, ?_⟩
      · intro q hq'
        simp only [List.length_append, List.length_singleton] at hq'
        by_cases hlt : q < st.length
        · obtain ⟨v, v1, v2⟩ := g8 q hlt
          refine ⟨v, by simp only; rw [List.getElem?_append_left (by omega)]; exact v1, ?_⟩
          simp only [List.getElem_append_left hlt]
          exact v2
        · have : q = st.length := by omega
          subst this
          refine ⟨some (List.replicate si.numberOfValues 0), by simp only; rw [List.getElem?_append_right (by omega), g7]; simp, ?_⟩
          simp only [List.getElem_append_right le_rfl, Nat.sub_self, List.getElem_singleton]
          refine ⟨g3, _, rfl, by simp [g3.num], ?_⟩
          intro i hi k hk
          rw [List.getElem?_replicate_of_lt (by rw [g3.num]; exact offset_lt_total hi hk)]
          rfl
      · intro q hq1 hq2
        omega)
  obtain ⟨t, ht, _⟩ := h.shape.big q hq
  have hfl : q < F.flags.length := by rw [h.shape.flg]; exact hq
  refine ⟨_, by
    unfold Family.copy
    rw [Res.read_eq_ok.mpr ht, Res.read_of_lt hfl]
    simp only [Res.ok_bind]
    rw [show blockPairs F.sizes.length = blockPairs sizes.length by rw [h.shape.hsz], e1]; rfl, ?_⟩
  refine ⟨by simpa using h.shape.copy e2, le_rfl, ?_, ?_⟩
  · intro a b h1 h2 h3
    obtain ⟨_, s', _, g1, g2⟩ := e3 a b h1 h2 h3
    exact ⟨s', g1, g2⟩
  · intro ops hops
    rw [List.mem_append, List.mem_singleton] at hops
    rcases hops with hops | rfl
    · exact h.reg ops hops
    · simp

theorem step_add [AddMonoid K] {F : Family K} {sizes : List Nat} {es : List (Nat × Nat)} {Q q i j : Nat} {x : K}
    {st : List (List (Op K))} (hs : nUpper sizes.length ≤ 65536) (h : Inv3 F sizes es st Q) (hq : q < st.length)
    (hi : 0 < i ∧ i ≤ sizes.sum) (hj : 0 < j ∧ j ≤ sizes.sum) :
    (Reg es i j ∧ ∃ F', F.addValue q i j x = .ok F' ∧ Inv3 F' sizes es (st.modify q (· ++ [.add i j x])) Q) ∨
    (¬ Reg es i j ∧ F.addValue q i j x = .fatal) := by
  obtain ⟨a, p, b, c, l1, l2, hd⟩ := locate_pair hi hj
  have hqQ : q < Q := lt_of_lt_of_le hq h.le
  have hF : F.addValue q i j x = (onSlot F.slots (slotNo sizes.length a b) (Slot.call q (fun m => m.addValue p c x)) >>=
      fun slots => .ok { F with slots := slots }) := by
    unfold Family.addValue
    simp only [swap_eq]
    rw [h.shape.locate hqQ (by omega : 0 < min i j ∧ min i j ≤ sizes.sum), l1,
      h.shape.locate hqQ (by omega : 0 < max i j ∧ max i j ≤ sizes.sum), l2]
    simp only [Res.ok_bind, h.shape.hsz]
    rw [(blockSlot_eq hd.ha.1 hd.hab hd.hb.2.1 hs).1]
    simp only [Res.ok_bind]
    have : (fun m : SpMat K => if a = b then m.addValueSym p c x else m.addValue p c x) = fun m => m.addValue p c x := by
      funext m
      split
      · have := hd.hpc (by assumption)
        unfold SpMat.addValueSym
        rw [if_neg (by omega)]
      · rfl
    rw [this]
  have hreg : Pos sizes es a b p c ↔ Reg es i j := by
    unfold Pos
    constructor
    · rintro ⟨_, _, h3⟩
      rcases hd.pair with ⟨q1, q2⟩ | ⟨q1, q2⟩
      · rw [q1, q2] at h3; exact h3
      · rw [q1, q2] at h3; exact Reg.symm.mp h3
    · intro h3
      refine ⟨hd.hb, hd.hpc, ?_⟩
      rcases hd.pair with ⟨q1, q2⟩ | ⟨q1, q2⟩
      · rw [q1, q2]; exact h3
      · rw [q1, q2]; exact Reg.symm.mp h3
  obtain ⟨s, g1, si, rows, g2, g3, g4, g5, g6, g7, g8, g9⟩ := h.slots a b hd.ha.1 hd.hab hd.hb.2.1
  obtain ⟨v, v1, v2⟩ := g8 q hq
  obtain ⟨hlt, hc⟩ := v2.addValue (i := p) (j := c) (by simp only; rw [g4]; exact hd.ha.2.2)
    (by simp only; rw [g5]; exact hd.hb.2.2) x
  have hmem : c ∈ rows[p - 1] ↔ Pos sizes es a b p c := by
    rw [g6 _ hlt, Nat.sub_add_cancel hd.ha.2.2.1]
  have hpos : ∀ {a' b' : Nat} {rows' : List (List Nat)}, 0 < a' → a' ≤ sizes.length → rows'.length = sz sizes a' →
      DescP rows' (Pos sizes es a' b') → ∀ t (ht : t < rows'.length), ∀ c' ∈ rows'[t],
      IsPos sizes a' (t + 1) ∧ Pos sizes es a' b' (t + 1) c' := by
    intro a' b' rows' k0 k1 k2 k3 t ht c' hc'
    exact ⟨⟨k0, k1, by omega, by rw [k2] at ht; exact ht⟩, (k3 t ht c').mp hc'⟩
  rcases hc with ⟨hin, m, m1, m2, m3⟩ | ⟨hno, m1⟩
  · left
    have hr : Reg es i j := hreg.mp (hmem.mp hin)
    refine ⟨hr, _, by rw [hF, onSlot_ok g1 (Slot.call_some g2 v1 m1 m2)]; rfl, ?_⟩
    refine ⟨?_, by simpa using h.le, ?_, modify_reg h.reg ?_⟩
    · exact ⟨h.shape.hsz, by simpa using h.shape.len, h.shape.tot, h.shape.big, h.shape.flg⟩
    · intro a' b' ha' hab' hb'
      by_cases hsame : a = a' ∧ b = b'
      · obtain ⟨rfl, rfl⟩ := hsame
        refine ⟨_, by simp only; rw [List.getElem?_set_self (List.getElem?_eq_some_iff.mp g1).1], ?_⟩
        apply SlotVal.set hq g3 g4 g5 g6 g7 h.le g8 g9
        obtain ⟨msi, mv⟩ := m
        simp only at m2
        subst m2
        refine m3.congr ?_
        intro t ht c' hc'
        obtain ⟨w1, w2⟩ := hpos ha' (by omega) (by rw [g3.len, g4]) g6 t ht c' hc'
        rw [totalSym_snoc_add]
        have := pair_eq hd w1 w2.1 hab' w2.2.1
        by_cases hpc : p = t + 1 ∧ c = c'
        · rw [if_pos hpc, if_pos]
          have := this.mpr ⟨rfl, hpc.1.symm, rfl, hpc.2.symm⟩
          omega
        · rw [if_neg hpc, if_neg]
          intro hh
          have := this.mp (by omega)
          exact hpc ⟨this.2.1.symm, this.2.2.2.symm⟩
      · obtain ⟨s', f1, si', rows', f2, f3, f4, f5, f6, f7, f8, f9⟩ := h.slots a' b' ha' hab' hb'
        refine ⟨s', ?_, si', rows', f2, f3, f4, f5, f6, f7, ?_, ?_⟩
        · simp only
          rw [List.getElem?_set_ne]
          · exact f1
          · intro he
            exact hsame (slotNo_inj hd.ha.1 hd.hab hd.hb.2.1 ha' hab' hb' he)
        · intro q' hq'
          rw [List.length_modify] at hq'
          obtain ⟨u, u1, u2⟩ := f8 q' hq'
          refine ⟨u, u1, ?_⟩
          by_cases he : q = q'
          · subst he
            simp only [List.getElem_modify_eq]
            refine u2.congr ?_
            intro t ht c' hc'
            obtain ⟨w1, w2⟩ := hpos ha' (by omega) (by rw [f3.len, f4]) f6 t ht c' hc'
            rw [totalSym_snoc_add, if_neg]
            intro hh
            have := (pair_eq hd w1 w2.1 hab' w2.2.1).mp (by omega)
            exact hsame ⟨this.1.symm, this.2.2.1.symm⟩
          · rw [List.getElem_modify_ne _ _ he]
            exact u2
        · intro q' k1 k2
          rw [List.length_modify] at k1
          exact f9 q' k1 k2
    · intro i' j' x' he
      simp only [Op.add.injEq] at he
      rw [← he.1, ← he.2.1]; exact hr
  · right
    refine ⟨fun hr => hno (hmem.mpr (hreg.mpr hr)), ?_⟩
    rw [hF]
    have : onSlot F.slots (slotNo sizes.length a b) (Slot.call q (fun m => m.addValue p c x)) = .fatal := by
      unfold onSlot Slot.call
      rw [Res.read_eq_ok.mpr g1]
      simp only [Res.ok_bind, g2]
      rw [Res.read_eq_ok.mpr v1]
      simp [m1]
    rw [this]; rfl

theorem phase3 [AddMonoid K] {sizes : List Nat} {es : List (Nat × Nat)} (hs : nUpper sizes.length ≤ 65536) :
    ∀ (ds : List (Call3 K)) (F : Family K) (st : List (List (Op K))), Inv3 F sizes es st st.length →
    Legal3 sizes.sum st.length ds →
    (AllReg es ds ∧ ∃ F', Res.foldlM' step3 F ds = .ok F' ∧
      Inv3 F' sizes es (runSpec st ds) (runSpec st ds).length) ∨
    (¬ AllReg es ds ∧ Res.foldlM' step3 F ds = .fatal) := by
  intro ds
  induction ds with
  | nil => intro F st h _; left; exact ⟨by simp [AllReg], F, rfl, h⟩
  | cons d ds ih =>
    intro F st h hl
    have hcons : ∀ d : Call3 K, (∀ q i j x, d = .op q (.add i j x) → Reg es i j) → (AllReg es (d :: ds) ↔ AllReg es ds) := by
      intro d hd
      unfold AllReg
      simp only [List.mem_cons, forall_eq_or_imp]
      exact ⟨fun hh => hh.2, fun hh => ⟨hd, hh⟩⟩
    have next : ∀ (F' : Family K) (st' : List (List (Op K))), step3 F d = .ok F' → Inv3 F' sizes es st' st'.length →
        Legal3 sizes.sum st'.length ds → runSpec st (d :: ds) = runSpec st' ds →
        (∀ q i j x, d = .op q (.add i j x) → Reg es i j) →
        (AllReg es (d :: ds) ∧ ∃ F', Res.foldlM' step3 F (d :: ds) = .ok F' ∧
          Inv3 F' sizes es (runSpec st (d :: ds)) (runSpec st (d :: ds)).length) ∨
        (¬ AllReg es (d :: ds) ∧ Res.foldlM' step3 F (d :: ds) = .fatal) := by
      intro F' st' k1 k2 k3 k4 k5
      rw [Res.foldlM'_cons, k1, k4, hcons d k5]
      exact ih F' st' k2 k3
    cases d with
    | op q o =>
      obtain ⟨h1, h2, h3⟩ := hl
      cases o with
      | zero =>
        obtain ⟨F', e1, e2⟩ := step_zero hs h h1
        exact next F' _ e1 (by simpa using e2) (by simpa using h3) rfl (by simp)
      | add i j x =>
        rcases step_add (x := x) hs h h1 h2.1 h2.2 with ⟨hr, F', e1, e2⟩ | ⟨hr, e1⟩
        · refine next F' _ e1 (by simpa using e2) (by simpa using h3) rfl ?_
          intro q' i' j' x' he
          simp only [Call3.op.injEq, Op.add.injEq] at he
          rw [← he.2.1, ← he.2.2.1]; exact hr
        · right
          refine ⟨fun hh => hr (hh _ (by simp) q i j x rfl), ?_⟩
          rw [Res.foldlM'_cons, show step3 F (.op q (.add i j x)) = .fatal from e1]
          rfl
    | copy q =>
      obtain ⟨h1, h2⟩ := hl
      obtain ⟨F', e1, e2⟩ := step_copy3 hs h h1
      exact next F' _ e1 e2 (by simpa using h2) rfl (by simp)

theorem Inv3.blockValue [AddMonoid K] {F : Family K} {sizes : List Nat} {es : List (Nat × Nat)}
    {st : List (List (Op K))} {Q : Nat} (hs : nUpper sizes.length ≤ 65536) (h : Inv3 F sizes es st Q) {q a b p c : Nat}
    (hq : q < st.length) (ha : IsPos sizes a p) (hb : IsPos sizes b c) (hab : a ≤ b) :
    F.blockValue q a b p c = .ok (totalSym st[q] (glob sizes a p) (glob sizes b c)) := by
  obtain ⟨s, g1, si, rows, g2, g3, g4, g5, g6, g7, g8, g9⟩ := h.slots a b ha.1 hab hb.2.1
  obtain ⟨v, v1, v2⟩ := g8 q hq
  have hsym : ∀ i j : Nat, totalSym st[q] i j = totalSym st[q] j i := by
    intro i j
    unfold totalSym
    congr 1
    funext acc o
    cases o with
    | zero => rfl
    | add a b x => simp only [or_comm]
  -- value of an entry in the upper triangle
  have key : ∀ p c, IsPos sizes a p → IsPos sizes b c → (a = b → p ≤ c) →
      SpMat.value ⟨si, v⟩ p c = .ok (totalSym st[q] (glob sizes a p) (glob sizes b c)) := by
    intro p c hp hc hpc
    obtain ⟨hlt, hv⟩ := v2.value (i := p) (j := c) (by simp only; rw [g4]; exact hp.2.2) (by simp only; rw [g5]; exact hc.2.2)
    rw [hv]
    have hmem : c ∈ rows[p - 1] ↔ Pos sizes es a b p c := by
      rw [g6 _ hlt, Nat.sub_add_cancel hp.2.2.1]
    by_cases hin : c ∈ rows[p - 1]
    · rw [if_pos hin]
    · rw [if_neg hin, totalSym_unreg (es := es) ?_ _ (h.reg _ (List.getElem_mem hq))]
      intro hr
      exact hin (hmem.mpr ⟨hc, hpc, hr⟩)
  unfold Family.blockValue
  rw [h.shape.hsz, (blockSlot_eq ha.1 hab hb.2.1 hs).1]
  simp only [Res.ok_bind]
  rw [Res.read_eq_ok.mpr g1]
  simp only [Res.ok_bind, g2]
  rw [Res.read_eq_ok.mpr v1]
  simp only [Res.ok_bind]
  by_cases he : a = b
  · rw [if_pos he]
    subst he
    unfold SpMat.valueSym
    by_cases hgt : p > c
    · rw [if_pos hgt, key c p hb ha (fun _ => by omega), hsym]
    · rw [if_neg hgt, key p c ha hb (fun _ => by omega)]
  · rw [if_neg he, key p c ha hb (fun hh => absurd hh he)]

end Nla3d.Block
