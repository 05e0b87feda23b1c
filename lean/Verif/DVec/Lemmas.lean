import Verif.DVec.Model
import Mathlib.Tactic.SplitIfs

/-!
# Effects of the `dVec` operations on memory
-/

namespace Nla3d.DVec

variable {K : Type}

/-- The value in memory cell `k` of block `b`, if the block is live and long enough. -/
def Mem.val (m : Mem K) (p : Nat × Nat) : Option K := (m.heap[p.1]?).join.bind (fun l => l[p.2]?)

/-- The memory cell behind component `i` of object `t`. -/
def Mem.loc (m : Mem K) (t i : Nat) : Option (Nat × Nat) :=
  (m.objs[t]?).bind (fun o => o.data.bind (fun p => if i < o.size then some (p.1, p.2 + i) else none))

/-- The object points into block `b`. -/
def Mem.Blk (m : Mem K) (t b : Nat) : Prop := ∃ o off, m.objs[t]? = some o ∧ o.data = some (b, off)

/-- Object `t` is the range of `n` cells from `off` in the live block `b`. -/
structure Mem.Live (m : Mem K) (t b off n : Nat) : Prop where
  obj : ∃ ow, m.objs[t]? = some ⟨ow, some (b, off), n⟩
  block : ∃ l, m.heap[b]? = some (some l) ∧ off + n ≤ l.length

theorem Mem.cell_eq {m : Mem K} {b k : Nat} {x : K} : m.cell b k = .ok x ↔ m.val (b, k) = some x := by
  unfold Mem.cell Mem.val
  rcases h : m.heap[b]? with _ | _ | l
  · simp
  · simp
  · simp only [Option.join_some, Option.bind_some]
    exact Res.read_eq_ok

theorem Mem.setCell_ok {m : Mem K} {b k : Nat} {l : List K} (h : m.heap[b]? = some (some l)) (hk : k < l.length) (v : K) :
    m.setCell b k v = .ok { m with heap := m.heap.set b (some (l.set k v)) } := by
  unfold Mem.setCell
  rw [h]
  simp only [hk, if_true]

/-- The effect of a successful write: one cell changes. -/
structure Mem.Wrote (m m' : Mem K) (P : Nat × Nat → Prop) (f : Nat × Nat → K) : Prop where
  objs : m'.objs = m.objs
  len : m'.heap.length = m.heap.length
  dead : ∀ b : Nat, m'.heap[b]? = some none ↔ m.heap[b]? = some none
  lens : ∀ b : Nat, ∀ l' : List K, m'.heap[b]? = some (some l') →
    ∃ l : List K, m.heap[b]? = some (some l) ∧ l.length = l'.length
  lens' : ∀ b : Nat, ∀ l : List K, m.heap[b]? = some (some l) →
    ∃ l' : List K, m'.heap[b]? = some (some l') ∧ l.length = l'.length
  inside : ∀ p, P p → m'.val p = some (f p)
  outside : ∀ p, ¬ P p → m'.val p = m.val p
  blocks : ∀ b : Nat, (∀ k, ¬ P (b, k)) → m'.heap[b]? = m.heap[b]?

theorem Mem.setCell_wrote {m m' : Mem K} {b k : Nat} {v : K} (h : m.setCell b k v = .ok m') :
    Mem.Wrote m m' (fun p => p = (b, k)) (fun _ => v) ∧ (m.val (b, k)).isSome := by
  unfold Mem.setCell at h
  rcases hb : m.heap[b]? with _ | _ | l
  · rw [hb] at h; simp at h
  · rw [hb] at h; simp at h
  · rw [hb] at h
    simp only at h
    have hk : k < l.length := by
      by_cases hk : k < l.length
      · exact hk
      · rw [if_neg hk] at h; simp at h
    rw [if_pos hk, Res.ok.injEq] at h
    subst h
    have hblt : b < m.heap.length := by
      rcases Nat.lt_or_ge b m.heap.length with h | h
      · exact h
      · rw [List.getElem?_eq_none h] at hb; simp at hb
    have hget : ∀ b', (m.heap.set b (some (l.set k v)))[b']? =
        if b' = b then some (some (l.set k v)) else m.heap[b']? := by
      intro b'
      rw [List.getElem?_set]
      by_cases e : b = b'
      · rw [if_pos e, if_pos hblt, if_pos e.symm]
      · rw [if_neg e, if_neg (fun hh => e hh.symm)]
    refine ⟨⟨rfl, List.length_set .., ?_, ?_, ?_, ?_, ?_, ?_⟩, ?_⟩
    · intro b'
      show (m.heap.set b (some (l.set k v)))[b']? = some none ↔ _
      rw [hget]
      split
      · rename_i e; subst e; rw [hb]; simp
      · rfl
    · intro b' l' hl'
      rw [show (⟨m.heap.set b (some (l.set k v)), m.objs⟩ : Mem K).heap = m.heap.set b (some (l.set k v)) from rfl,
        hget] at hl'
      split at hl'
      · rename_i e
        subst e
        rw [Option.some.injEq, Option.some.injEq] at hl'
        exact ⟨l, hb, by rw [← hl', List.length_set]⟩
      · exact ⟨l', hl', rfl⟩
    · intro b' l' hl'
      rw [show (⟨m.heap.set b (some (l.set k v)), m.objs⟩ : Mem K).heap = m.heap.set b (some (l.set k v)) from rfl,
        hget]
      split
      · rename_i e
        subst e
        rw [hb, Option.some.injEq, Option.some.injEq] at hl'
        exact ⟨_, rfl, by rw [← hl', List.length_set]⟩
      · exact ⟨l', hl', rfl⟩
    · rintro p rfl
      unfold Mem.val
      simp only [hget, if_true, Option.join_some, Option.bind_some]
      rw [List.getElem?_set, if_pos rfl, if_pos hk]
    · rintro ⟨b', k'⟩ hp
      unfold Mem.val
      simp only [hget]
      split
      · rename_i e
        subst e
        rw [hb]
        simp only [Option.join_some, Option.bind_some]
        rw [List.getElem?_set, if_neg]
        intro e
        exact hp (by rw [e])
      · rfl
    · intro b' hP
      show (m.heap.set b (some (l.set k v)))[b']? = _
      rw [hget, if_neg]
      intro e
      exact hP k (by rw [e])
    · unfold Mem.val
      rw [hb]
      simp [hk]

theorem Mem.Wrote.refl (m : Mem K) (f : Nat × Nat → K) : Mem.Wrote m m (fun _ => False) f :=
  ⟨rfl, rfl, fun _ => Iff.rfl, fun _ l' h => ⟨l', h, rfl⟩, fun _ l' h => ⟨l', h, rfl⟩, fun _ h => h.elim,
    fun _ _ => rfl, fun _ _ => rfl⟩

theorem Mem.Wrote.trans {m m' m'' : Mem K} {P Q : Nat × Nat → Prop} {f : Nat × Nat → K} (h : Mem.Wrote m m' P f)
    (h' : Mem.Wrote m' m'' Q f) : Mem.Wrote m m'' (fun p => P p ∨ Q p) f := by
  classical
  refine ⟨h'.objs.trans h.objs, h'.len.trans h.len, fun b => (h'.dead b).trans (h.dead b), ?_, ?_, ?_, ?_, ?_⟩
  · intro b l'' hl
    obtain ⟨l', e1, e2⟩ := h'.lens b l'' hl
    obtain ⟨l, e3, e4⟩ := h.lens b l' e1
    exact ⟨l, e3, e4.trans e2⟩
  · intro b l hl
    obtain ⟨l', e1, e2⟩ := h.lens' b l hl
    obtain ⟨l'', e3, e4⟩ := h'.lens' b l' e1
    exact ⟨l'', e3, e2.trans e4⟩
  · intro p hp
    by_cases hq : Q p
    · exact h'.inside p hq
    · rw [h'.outside p hq]
      exact h.inside p (hp.resolve_right hq)
  · intro p hp
    rw [h'.outside p (fun hh => hp (Or.inr hh)), h.outside p (fun hh => hp (Or.inl hh))]
  · intro b hb
    rw [h'.blocks b (fun k hk => hb k (Or.inr hk)), h.blocks b (fun k hk => hb k (Or.inl hk))]

theorem Mem.Wrote.congr {m m' : Mem K} {P Q : Nat × Nat → Prop} {f g : Nat × Nat → K} (h : Mem.Wrote m m' P f)
    (e : ∀ p, P p ↔ Q p) (ef : ∀ p, P p → f p = g p) : Mem.Wrote m m' Q g := by
  refine ⟨h.objs, h.len, h.dead, h.lens, h.lens', ?_, ?_, ?_⟩
  · intro p hp
    rw [h.inside p ((e p).mpr hp), ef p ((e p).mpr hp)]
  · intro p hp
    exact h.outside p (fun hh => hp ((e p).mp hh))
  · intro b hb
    exact h.blocks b (fun k hk => hb k ((e _).mp hk))

/-- Cells `off .. off + n - 1` of block `b`. -/
def InRange (b off n : Nat) (p : Nat × Nat) : Prop := p.1 = b ∧ off ≤ p.2 ∧ p.2 < off + n

/-- A loop writing `g i` to cell `off + i` whenever it succeeds. -/
theorem loop_wrote {b off : Nat} (body : Mem K → Nat → Res (Mem K)) (g : Nat → K) (n : Nat) (m : Mem K)
    (hbody : ∀ (m1 m2 : Mem K) (i : Nat), i < n → Mem.Wrote m m1 (InRange b off i) (fun p => g (p.2 - off)) →
      body m1 i = .ok m2 → Mem.Wrote m1 m2 (fun p => p = (b, off + i)) (fun _ => g i)) :
    ∀ (j : Nat), j ≤ n → ∀ m' : Mem K, Res.foldlM' body m (List.range j) = .ok m' →
      Mem.Wrote m m' (InRange b off j) (fun p => g (p.2 - off)) := by
  intro j
  induction j with
  | zero =>
    intro _ m' h
    rw [List.range_zero, Res.foldlM'_nil, Res.ok.injEq] at h
    subst h
    exact (Mem.Wrote.refl m (fun p => g (p.2 - off))).congr (fun p => ⟨fun h => h.elim, fun h => by unfold InRange at h; omega⟩) (fun _ h => h.elim)
  | succ j ih =>
    intro hj m' h
    rw [List.range_succ, Res.foldlM'_append] at h
    obtain ⟨m1, h1, h2⟩ := Res.bind_eq_ok.mp h
    rw [Res.foldlM'_cons] at h2
    obtain ⟨m2, h3, h4⟩ := Res.bind_eq_ok.mp h2
    rw [Res.foldlM'_nil, Res.ok.injEq] at h4
    subst h4
    have w1 := ih (by omega) m1 h1
    have w2 := hbody m1 m2 j (by omega) w1 h3
    have w2' : Mem.Wrote m1 m2 (fun p => p = (b, off + j)) (fun p => g (p.2 - off)) :=
      w2.congr (fun _ => Iff.rfl) (fun p hp => by subst hp; simp)
    refine (w1.trans w2').congr ?_ (fun _ _ => rfl)
    rintro ⟨b', k'⟩
    simp only [InRange, Prod.mk.injEq]
    constructor
    · rintro (h | h) <;> omega
    · rintro ⟨h1, h2, h3⟩
      rcases Nat.lt_or_ge k' (off + j) with h | h
      · exact Or.inl ⟨h1, h2, h⟩
      · exact Or.inr ⟨h1, by omega⟩

/-- Progress of such a loop. -/
theorem loop_ok {b off : Nat} (body : Mem K → Nat → Res (Mem K)) (g : Nat → K) (n : Nat) (m : Mem K)
    (hbody : ∀ (m1 : Mem K) (i : Nat), i < n → Mem.Wrote m m1 (InRange b off i) (fun p => g (p.2 - off)) →
      ∃ m2, body m1 i = .ok m2 ∧ Mem.Wrote m1 m2 (fun p => p = (b, off + i)) (fun _ => g i)) :
    ∃ m', Res.foldlM' body m (List.range n) = .ok m' ∧ Mem.Wrote m m' (InRange b off n) (fun p => g (p.2 - off)) := by
  refine Res.foldlM'_range body (fun j m1 => Mem.Wrote m m1 (InRange b off j) (fun p => g (p.2 - off))) n m ?_ ?_
  · exact (Mem.Wrote.refl m (fun p => g (p.2 - off))).congr (fun p => ⟨fun h => h.elim, fun h => by unfold InRange at h; omega⟩) (fun _ h => h.elim)
  · intro j m1 hj w1
    obtain ⟨m2, h2, w2⟩ := hbody m1 j hj w1
    refine ⟨m2, h2, ?_⟩
    have w2' : Mem.Wrote m1 m2 (fun p => p = (b, off + j)) (fun p => g (p.2 - off)) :=
      w2.congr (fun _ => Iff.rfl) (fun p hp => by subst hp; simp)
    refine (w1.trans w2').congr ?_ (fun _ _ => rfl)
    rintro ⟨b', k'⟩
    simp only [InRange, Prod.mk.injEq]
    constructor
    · rintro (h | h) <;> omega
    · rintro ⟨h1, h2, h3⟩
      rcases Nat.lt_or_ge k' (off + j) with h | h
      · exact Or.inl ⟨h1, h2, h⟩
      · exact Or.inr ⟨h1, by omega⟩

theorem Mem.setCell_live {m m1 : Mem K} {b off n i : Nat} {P : Nat × Nat → Prop} {f : Nat × Nat → K}
    (w : Mem.Wrote m m1 P f) (hl : ∃ l, m.heap[b]? = some (some l) ∧ off + n ≤ l.length) (hi : i < n) (v : K) :
    ∃ m2, m1.setCell b (off + i) v = .ok m2 := by
  obtain ⟨l, h1, h2⟩ := hl
  obtain ⟨l', h3, h4⟩ := w.lens' b l h1
  exact ⟨_, Mem.setCell_ok h3 (by omega) v⟩

theorem writeRange_ok {m : Mem K} {b off : Nat} {l : List K}
    (hl : ∃ l0, m.heap[b]? = some (some l0) ∧ off + l.length ≤ l0.length) (d : K) :
    ∃ m', m.writeRange b off l = .ok m' ∧
      Mem.Wrote m m' (InRange b off l.length) (fun p => l.getD (p.2 - off) d) := by
  unfold Mem.writeRange
  refine loop_ok (g := fun i => l.getD i d) _ l.length m ?_
  intro m1 i hi w
  obtain ⟨m2, h2⟩ := Mem.setCell_live w hl hi (l.getD i d)
  refine ⟨m2, ?_, ?_⟩
  · rw [List.getElem?_eq_getElem hi]
    simp only
    rw [← h2, List.getD_eq_getElem?_getD, List.getElem?_eq_getElem hi]
    rfl
  · exact (Mem.setCell_wrote h2).1

theorem writeRange_wrote {m m' : Mem K} {b off : Nat} {l : List K} (h : m.writeRange b off l = .ok m') (d : K) :
    Mem.Wrote m m' (InRange b off l.length) (fun p => l.getD (p.2 - off) d) := by
  unfold Mem.writeRange at h
  refine loop_wrote _ (fun i => l.getD i d) l.length m ?_ l.length (Nat.le_refl _) m' h
  intro m1 m2 i hi w hb
  rw [List.getElem?_eq_getElem hi] at hb
  simp only at hb
  have := (Mem.setCell_wrote hb).1
  rw [List.getD_eq_getElem?_getD, List.getElem?_eq_getElem hi]
  exact this

theorem readRange_ok {m : Mem K} {b off : Nat} {l : List K} (hl : m.heap[b]? = some (some l)) :
    ∀ {n : Nat}, off + n ≤ l.length → m.readRange b off n = .ok ((l.drop off).take n) := by
  intro n
  induction n with
  | zero => intro _; simp [Mem.readRange]
  | succ n ih =>
    intro h
    rw [Mem.readRange, ih (by omega), Res.ok_bind]
    have hc : m.cell b (off + n) = .ok l[off + n] := by
      rw [Mem.cell_eq]
      unfold Mem.val
      rw [hl]
      simp only [Option.join_some, Option.bind_some]
      exact List.getElem?_eq_getElem (by omega)
    rw [hc, Res.ok_bind]
    congr 1
    rw [List.take_add_one]
    congr 1
    rw [List.getElem?_drop, List.getElem?_eq_getElem (by omega)]
    rfl

theorem readRange_some {m : Mem K} {b off : Nat} : ∀ {n : Nat} {l : List K}, m.readRange b off n = .ok l →
    l.length = n ∧ ∀ i, i < n → l[i]? = m.val (b, off + i) := by
  intro n
  induction n with
  | zero =>
    intro l h
    rw [Mem.readRange, Res.ok.injEq] at h
    subst h
    exact ⟨rfl, fun i hi => by omega⟩
  | succ n ih =>
    intro l h
    rw [Mem.readRange] at h
    obtain ⟨l1, h1, h2⟩ := Res.bind_eq_ok.mp h
    obtain ⟨x, h3, h4⟩ := Res.bind_eq_ok.mp h2
    rw [Res.ok.injEq] at h4
    subst h4
    obtain ⟨e1, e2⟩ := ih h1
    refine ⟨by rw [List.length_append, e1]; rfl, ?_⟩
    intro i hi
    rcases Nat.lt_or_ge i n with hi' | hi'
    · rw [List.getElem?_append_left (by omega)]
      exact e2 i hi'
    · have : i = n := by omega
      subst this
      rw [List.getElem?_append_right (by omega), e1]
      rw [Mem.cell_eq] at h3
      rw [h3]
      simp

/-! ## clear -/

theorem clear_spec {m m' : Mem K} {t : Nat} (h : m.clear t = .ok m') :
    t < m.objs.length ∧ m'.objs = m.objs.set t Obj.empty ∧ m'.heap.length = m.heap.length ∧
    (∀ b : Nat, ¬ m.Blk t b → m'.heap[b]? = m.heap[b]?) ∧
    (∀ b : Nat, m'.heap[b]? = m.heap[b]? ∨ m'.heap[b]? = some none) := by
  unfold Mem.clear at h
  obtain ⟨o, h1, h2⟩ := Res.bind_eq_ok.mp h
  rw [Res.read_eq_ok] at h1
  obtain ⟨heap, h3, h4⟩ := Res.bind_eq_ok.mp h2
  rw [Res.ok.injEq] at h4
  subst h4
  have ht : t < m.objs.length := by
    rcases Nat.lt_or_ge t m.objs.length with h | h
    · exact h
    · rw [List.getElem?_eq_none h] at h1; simp at h1
  obtain ⟨ow, data, size⟩ := o
  cases ow with
  | false =>
    simp only [Res.ok.injEq] at h3
    subst h3
    exact ⟨ht, rfl, rfl, fun _ _ => rfl, fun _ => Or.inl rfl⟩
  | true =>
    cases data with
    | none =>
      simp only [Res.ok.injEq] at h3
      subst h3
      exact ⟨ht, rfl, rfl, fun _ _ => rfl, fun _ => Or.inl rfl⟩
    | some p =>
      obtain ⟨b, off⟩ := p
      simp only at h3
      split at h3
      · rw [Res.ok.injEq] at h3
        subst h3
        refine ⟨ht, rfl, List.length_set .., ?_, ?_⟩
        · intro b' hb'
          show (m.heap.set b none)[b']? = _
          rw [List.getElem?_set, if_neg]
          intro e
          exact hb' ⟨_, off, h1, by rw [← e]⟩
        · intro b'
          show (m.heap.set b none)[b']? = _ ∨ (m.heap.set b none)[b']? = _
          rw [List.getElem?_set]
          split
          · rename_i e
            subst e
            split
            · exact Or.inr rfl
            · rename_i hb; left; rw [List.getElem?_eq_none (by omega)]
          · exact Or.inl rfl
      · simp at h3

theorem blk_set {m : Mem K} {heap : List (Option (List K))} {t : Nat} {o : Obj} {u b : Nat}
    (h : (⟨heap, m.objs.set t o⟩ : Mem K).Blk u b) : (u = t ∧ ∃ off, o.data = some (b, off)) ∨ (u ≠ t ∧ m.Blk u b) := by
  obtain ⟨o', off, h1, h2⟩ := h
  simp only [List.getElem?_set] at h1
  by_cases e : t = u
  · rw [if_pos e] at h1
    split at h1
    · rw [Option.some.injEq] at h1
      subst h1
      exact Or.inl ⟨e.symm, off, h2⟩
    · simp at h1
  · rw [if_neg e] at h1
    exact Or.inr ⟨fun hh => e hh.symm, o', off, h1, h2⟩

theorem blk_append {m : Mem K} {heap : List (Option (List K))} {o : Obj} {u b : Nat}
    (h : (⟨heap, m.objs ++ [o]⟩ : Mem K).Blk u b) :
    (u = m.objs.length ∧ ∃ off, o.data = some (b, off)) ∨ (u < m.objs.length ∧ m.Blk u b) := by
  obtain ⟨o', off, h1, h2⟩ := h
  simp only at h1
  rcases Nat.lt_or_ge u m.objs.length with h | h
  · rw [List.getElem?_append_left h] at h1
    exact Or.inr ⟨h, o', off, h1, h2⟩
  · rw [List.getElem?_append_right h] at h1
    have : u - m.objs.length = 0 := by
      rcases Nat.eq_zero_or_pos (u - m.objs.length) with h | h
      · exact h
      · rw [List.getElem?_eq_none (by simp; omega)] at h1; simp at h1
    rw [this] at h1
    simp only [List.getElem?_cons_zero, Option.some.injEq] at h1
    subst h1
    exact Or.inl ⟨by omega, off, h2⟩

end Nla3d.DVec
