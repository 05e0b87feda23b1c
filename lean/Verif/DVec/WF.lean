import Verif.DVec.Frame

/-!
# The ownership invariant of `dVec`
-/

namespace Nla3d.DVec

variable {K : Type}

/-- Every pointer points to an allocated (possibly freed) block; an owner points to the beginning of a live block of
exactly its size; a block has at most one owner. -/
structure Mem.WF (m : Mem K) : Prop where
  range : ∀ t b, m.Blk t b → b < m.heap.length
  owned : ∀ (t : Nat) (o : Obj), m.objs[t]? = some o → o.owner = true →
    ∃ (b : Nat) (l : List K), o.data = some (b, 0) ∧ m.heap[b]? = some (some l) ∧ l.length = o.size
  uniq : ∀ (t u : Nat) (o o' : Obj) (b : Nat), m.objs[t]? = some o → m.objs[u]? = some o' → o.owner = true →
    o'.owner = true → o.data = some (b, 0) → o'.data = some (b, 0) → t = u

theorem wf_empty : (⟨[], []⟩ : Mem K).WF :=
  ⟨fun t b ⟨o, off, h, _⟩ => by simp at h, fun t o h => by simp at h, fun t u o o' b h => by simp at h⟩

theorem wf_wrote {m m' : Mem K} {P : Nat × Nat → Prop} {f : Nat × Nat → K} (w : Mem.Wrote m m' P f) (h : m.WF) :
    m'.WF := by
  refine ⟨?_, ?_, ?_⟩
  · intro t b hb
    rw [w.len]
    exact h.range t b ((Mem.Blk.congr w.objs).mp hb)
  · intro t o ho how
    rw [w.objs] at ho
    obtain ⟨b, l, h1, h2, h3⟩ := h.owned t o ho how
    obtain ⟨l', h4, h5⟩ := w.lens' b l h2
    exact ⟨b, l', h1, h4, by omega⟩
  · intro t u o o' b h1 h2
    rw [w.objs] at h1 h2
    exact h.uniq t u o o' b h1 h2

theorem getElem?_push {l : List Obj} {o o' : Obj} {t : Nat} (h : (l ++ [o])[t]? = some o') :
    (t = l.length ∧ o' = o) ∨ l[t]? = some o' := by
  rcases Nat.lt_or_ge t l.length with h' | h'
  · rw [List.getElem?_append_left h'] at h
    exact Or.inr h
  · rw [List.getElem?_append_right h'] at h
    have : t - l.length = 0 := by
      have := lt_of_getElem? h
      simp at this
      omega
    rw [this] at h
    simp only [List.getElem?_cons_zero, Option.some.injEq] at h
    exact Or.inl ⟨by omega, h.symm⟩

theorem getElem?_upd {l : List Obj} {o o' : Obj} {t u : Nat} (h : (l.set u o)[t]? = some o') :
    (t = u ∧ o' = o) ∨ (t ≠ u ∧ l[t]? = some o') := by
  rw [List.getElem?_set] at h
  by_cases e : u = t
  · rw [if_pos e] at h
    split at h
    · rw [Option.some.injEq] at h
      exact Or.inl ⟨e.symm, h.symm⟩
    · simp at h
  · rw [if_neg e] at h
    exact Or.inr ⟨fun hh => e hh.symm, h⟩

theorem wf_push {m : Mem K} (h : m.WF) : (⟨m.heap, m.objs ++ [Obj.empty]⟩ : Mem K).WF := by
  refine ⟨?_, ?_, ?_⟩
  · intro t b hb
    rcases blk_append hb with ⟨_, off, h'⟩ | ⟨_, h'⟩
    · simp [Obj.empty] at h'
    · exact h.range t b h'
  · intro t o ho how
    rcases getElem?_push ho with ⟨_, rfl⟩ | ho
    · simp [Obj.empty] at how
    · exact h.owned t o ho how
  · intro t u o o' b h1 h2 h3 h4 h5 h6
    rcases getElem?_push h1 with ⟨_, rfl⟩ | h1
    · simp [Obj.empty] at h3
    rcases getElem?_push h2 with ⟨_, rfl⟩ | h2
    · simp [Obj.empty] at h4
    exact h.uniq t u o o' b h1 h2 h3 h4 h5 h6

theorem wf_newOwner {m : Mem K} (h : m.WF) (l : List K) : (m.newOwner l).WF := by
  have hlast : (m.heap ++ [some l])[m.heap.length]? = some (some l) := by simp
  have hold : ∀ (t b : Nat), m.Blk t b → b ≠ m.heap.length := fun t b hb => Nat.ne_of_lt (h.range t b hb)
  refine ⟨?_, ?_, ?_⟩
  · intro t b hb
    show b < (m.heap ++ [some l]).length
    rw [List.length_append]
    rcases blk_append hb with ⟨_, off, h'⟩ | ⟨_, h'⟩
    · simp only [Option.some.injEq, Prod.mk.injEq] at h'
      simp; omega
    · have := h.range t b h'
      simp; omega
  · intro t o ho how
    rcases getElem?_push ho with ⟨_, rfl⟩ | ho
    · exact ⟨m.heap.length, l, rfl, hlast, rfl⟩
    · obtain ⟨b, l', h1, h2, h3⟩ := h.owned t o ho how
      exact ⟨b, l', h1, by
        show (m.heap ++ [some l])[b]? = _
        rw [List.getElem?_append_left (lt_of_getElem? h2)]; exact h2, h3⟩
  · intro t u o o' b h1 h2 h3 h4 h5 h6
    rcases getElem?_push h1 with ⟨e1, rfl⟩ | h1
    · simp only [Option.some.injEq, Prod.mk.injEq] at h5
      rcases getElem?_push h2 with ⟨e2, rfl⟩ | h2
      · omega
      · exact absurd h5.1.symm (hold u b ⟨o', 0, h2, h6⟩)
    · rcases getElem?_push h2 with ⟨e2, rfl⟩ | h2
      · simp only [Option.some.injEq, Prod.mk.injEq] at h6
        exact absurd h6.1.symm (hold t b ⟨o, 0, h1, h5⟩)
      · exact h.uniq t u o o' b h1 h2 h3 h4 h5 h6

theorem clear_heap {m m' : Mem K} {t : Nat} (hwf : m.WF) (h : m.clear t = .ok m') (u : Nat) (o : Obj) (hu : u ≠ t)
    (ho : m.objs[u]? = some o) (how : o.owner = true) (b : Nat) (hd : o.data = some (b, 0)) :
    m'.heap[b]? = m.heap[b]? := by
  unfold Mem.clear at h
  obtain ⟨o', h1, h2⟩ := Res.bind_eq_ok.mp h
  rw [Res.read_eq_ok] at h1
  obtain ⟨heap, h3, h4⟩ := Res.bind_eq_ok.mp h2
  rw [Res.ok.injEq] at h4
  subst h4
  obtain ⟨ow, data, size⟩ := o'
  cases ow with
  | false =>
    simp only [Res.ok.injEq] at h3
    subst h3
    rfl
  | true =>
    cases data with
    | none =>
      simp only [Res.ok.injEq] at h3
      subst h3
      rfl
    | some p =>
      obtain ⟨b', off⟩ := p
      simp only at h3
      split at h3
      · rename_i hc
        rw [Res.ok.injEq] at h3
        subst h3
        show (m.heap.set b' none)[b]? = _
        rw [List.getElem?_set, if_neg]
        rintro rfl
        have := hc.1
        subst this
        exact hu (hwf.uniq u t _ _ b' ho h1 how rfl hd rfl)
      · simp at h3

theorem wf_clear {m m' : Mem K} {t : Nat} (hwf : m.WF) (h : m.clear t = .ok m') : m'.WF := by
  obtain ⟨h1, h2, h3, h4, _⟩ := clear_spec h
  refine ⟨?_, ?_, ?_⟩
  · intro u b hb
    rw [h3]
    rcases blk_set (heap := m.heap) ((Mem.Blk.congr (m' := ⟨m.heap, m.objs.set t Obj.empty⟩) h2).mp hb) with
      ⟨_, off, h'⟩ | ⟨_, h'⟩
    · simp [Obj.empty] at h'
    · exact hwf.range u b h'
  · intro u o ho how
    rw [h2] at ho
    rcases getElem?_upd ho with ⟨_, rfl⟩ | ⟨hne, ho⟩
    · simp [Obj.empty] at how
    · obtain ⟨b, l, e1, e2, e3⟩ := hwf.owned u o ho how
      exact ⟨b, l, e1, by rw [clear_heap hwf h u o hne ho how b e1]; exact e2, e3⟩
  · intro u v o o' b g1 g2 g3 g4 g5 g6
    rw [h2] at g1 g2
    rcases getElem?_upd g1 with ⟨_, rfl⟩ | ⟨_, g1⟩
    · simp [Obj.empty] at g3
    rcases getElem?_upd g2 with ⟨_, rfl⟩ | ⟨_, g2⟩
    · simp [Obj.empty] at g4
    exact hwf.uniq u v o o' b g1 g2 g3 g4 g5 g6

theorem wf_allocFor {m : Mem K} (h : m.WF) (t : Nat) (l : List K) : (m.allocFor t l).WF := by
  have hlast : (m.heap ++ [some l])[m.heap.length]? = some (some l) := by simp
  have hold : ∀ (t b : Nat), m.Blk t b → b ≠ m.heap.length := fun t b hb => Nat.ne_of_lt (h.range t b hb)
  refine ⟨?_, ?_, ?_⟩
  · intro u b hb
    show b < (m.heap ++ [some l]).length
    rw [List.length_append]
    rcases blk_set hb with ⟨_, off, h'⟩ | ⟨_, h'⟩
    · simp only [Option.some.injEq, Prod.mk.injEq] at h'
      simp; omega
    · have := h.range u b h'
      simp; omega
  · intro u o ho how
    rcases getElem?_upd ho with ⟨_, rfl⟩ | ⟨_, ho⟩
    · exact ⟨m.heap.length, l, rfl, hlast, rfl⟩
    · obtain ⟨b, l', h1, h2, h3⟩ := h.owned u o ho how
      exact ⟨b, l', h1, by
        show (m.heap ++ [some l])[b]? = _
        rw [List.getElem?_append_left (lt_of_getElem? h2)]; exact h2, h3⟩
  · intro t u o o' b h1 h2 h3 h4 h5 h6
    rcases getElem?_upd h1 with ⟨e1, rfl⟩ | ⟨_, h1⟩
    · simp only [Option.some.injEq, Prod.mk.injEq] at h5
      rcases getElem?_upd h2 with ⟨e2, rfl⟩ | ⟨_, h2⟩
      · omega
      · exact absurd h5.1.symm (hold u b ⟨o', 0, h2, h6⟩)
    · rcases getElem?_upd h2 with ⟨e2, rfl⟩ | ⟨_, h2⟩
      · simp only [Option.some.injEq, Prod.mk.injEq] at h6
        exact absurd h6.1.symm (hold t b ⟨o, 0, h1, h5⟩)
      · exact h.uniq t u o o' b h1 h2 h3 h4 h5 h6

theorem wf_setView {m : Mem K} (h : m.WF) {t b off n : Nat} (hb : b < m.heap.length) :
    (⟨m.heap, m.objs.set t ⟨false, some (b, off), n⟩⟩ : Mem K).WF := by
  refine ⟨?_, ?_, ?_⟩
  · intro u b' hb'
    rcases blk_set hb' with ⟨_, off', h'⟩ | ⟨_, h'⟩
    · simp only [Option.some.injEq, Prod.mk.injEq] at h'
      show b' < m.heap.length
      omega
    · exact h.range u b' h'
  · intro u o ho how
    rcases getElem?_upd ho with ⟨_, rfl⟩ | ⟨_, ho⟩
    · simp at how
    · exact h.owned u o ho how
  · intro t u o o' b h1 h2 h3 h4 h5 h6
    rcases getElem?_upd h1 with ⟨e1, rfl⟩ | ⟨_, h1⟩
    · simp at h3
    rcases getElem?_upd h2 with ⟨e2, rfl⟩ | ⟨_, h2⟩
    · simp at h4
    exact h.uniq t u o o' b h1 h2 h3 h4 h5 h6

theorem wf_move {m : Mem K} (h : m.WF) {s : Nat} {o : Obj} (hs : m.objs[s]? = some o) :
    (⟨m.heap, m.objs.set s Obj.empty ++ [o]⟩ : Mem K).WF := by
  have key : ∀ (t : Nat) (o' : Obj), (m.objs.set s Obj.empty ++ [o])[t]? = some o' → o'.data ≠ none →
      ∃ t', m.objs[t']? = some o' ∧ ((t = m.objs.length ∧ t' = s) ∨ (t' = t ∧ t ≠ s)) := by
    intro t o' ho hd
    rcases getElem?_push ho with ⟨e, rfl⟩ | ho
    · exact ⟨s, hs, Or.inl ⟨by rw [e, List.length_set], rfl⟩⟩
    · rcases getElem?_upd ho with ⟨_, rfl⟩ | ⟨hne, ho⟩
      · simp [Obj.empty] at hd
      · exact ⟨t, ho, Or.inr ⟨rfl, hne⟩⟩
  refine ⟨?_, ?_, ?_⟩
  · rintro t b ⟨o', off, h1, h2⟩
    obtain ⟨t', h3, _⟩ := key t o' h1 (by rw [h2]; simp)
    exact h.range t' b ⟨o', off, h3, h2⟩
  · intro t o' ho how
    by_cases hd : o'.data = none
    · rcases getElem?_push ho with ⟨e, rfl⟩ | ho
      · exact h.owned s _ hs how
      · rcases getElem?_upd ho with ⟨_, rfl⟩ | ⟨hne, ho⟩
        · simp [Obj.empty] at how
        · exact h.owned t o' ho how
    · obtain ⟨t', h3, _⟩ := key t o' ho hd
      exact h.owned t' o' h3 how
  · intro t u o1 o2 b h1 h2 h3 h4 h5 h6
    obtain ⟨t', g1, g2⟩ := key t o1 h1 (by rw [h5]; simp)
    obtain ⟨u', g3, g4⟩ := key u o2 h2 (by rw [h6]; simp)
    have := h.uniq t' u' o1 o2 b g1 g3 h3 h4 h5 h6
    omega

theorem wf_reinitView {m m' : Mem K} {t r start size : Nat} (h : m.WF) (hs : m.reinitView t r start size = .ok m') :
    m'.WF := by
  simp only [Mem.reinitView] at hs
  obtain ⟨m1, h1, h2⟩ := Res.bind_eq_ok.mp hs
  obtain ⟨o, h3, h4⟩ := Res.bind_eq_ok.mp h2
  obtain ⟨p, h5, h6⟩ := Res.bind_eq_ok.mp h4
  obtain ⟨_, _, h8⟩ := Res.bind_eq_ok.mp h6
  rw [Res.ok.injEq] at h8
  subst h8
  rw [Res.read_eq_ok] at h3
  have hwf1 := wf_clear h h1
  exact wf_setView hwf1 (hwf1.range r p.1 ⟨o, p.2, h3, ptr_eq h5⟩)

/-- Every call that completes preserves the invariant. -/
theorem step_wf [Zero K] {m m' : Mem K} {op : Op K} (h : m.WF) (hs : step m op = .ok m') : m'.WF := by
  cases op with
  | default =>
    simp only [step, Res.ok.injEq] at hs
    subst hs
    exact wf_push h
  | new n v =>
    simp only [step, Res.ok.injEq] at hs
    subst hs
    exact wf_newOwner h _
  | copy s =>
    simp only [step, Mem.copy] at hs
    obtain ⟨o, h1, h2⟩ := Res.bind_eq_ok.mp hs
    split at h2
    · rw [Res.ok.injEq] at h2
      subst h2
      exact wf_push h
    · obtain ⟨l, _, h3⟩ := Res.bind_eq_ok.mp h2
      rw [Res.ok.injEq] at h3
      subst h3
      exact wf_newOwner h _
  | move s =>
    simp only [step, Mem.move] at hs
    obtain ⟨o, h1, h2⟩ := Res.bind_eq_ok.mp hs
    rw [Res.ok.injEq] at h2
    subst h2
    rw [Res.read_eq_ok] at h1
    exact wf_move h h1
  | view r start size => exact wf_reinitView (wf_push h) hs
  | reinit t n v =>
    simp only [step, Mem.reinit] at hs
    obtain ⟨m1, h1, h2⟩ := Res.bind_eq_ok.mp hs
    rw [Res.ok.injEq] at h2
    subst h2
    exact wf_allocFor (wf_clear h h1) _ _
  | reinitView t r start size => exact wf_reinitView h hs
  | clear t => exact wf_clear h hs
  | fill t v =>
    simp only [step, Mem.fill] at hs
    obtain ⟨o, h1, h2⟩ := Res.bind_eq_ok.mp hs
    obtain ⟨p, h3, h4⟩ := Res.bind_eq_ok.mp h2
    exact wf_wrote (writeRange_wrote h4 v) h
  | set t i v =>
    simp only [step, Mem.set] at hs
    obtain ⟨o, h1, h2⟩ := Res.bind_eq_ok.mp hs
    obtain ⟨p, h3, h4⟩ := Res.bind_eq_ok.mp h2
    obtain ⟨_, _, h6⟩ := Res.bind_eq_ok.mp h4
    exact wf_wrote (Mem.setCell_wrote h6).1 h
  | assign t s =>
    simp only [step, Mem.assign] at hs
    split at hs
    · rw [Res.ok.injEq] at hs
      subst hs
      exact h
    · obtain ⟨o, h1, h2⟩ := Res.bind_eq_ok.mp hs
      split at h2
      · exact wf_clear h h2
      · obtain ⟨ot, h3, h4⟩ := Res.bind_eq_ok.mp h2
        split at h4
        · split at h4
          · obtain ⟨_, l, _, w⟩ := memcpy_wrote h4 (0 : K)
            exact wf_wrote w h
          · split at h4
            · rw [Res.ok.injEq] at h4
              subst h4
              exact h
            · simp at h4
        · obtain ⟨m1, h5, h6⟩ := Res.bind_eq_ok.mp h4
          obtain ⟨ot', h7, h8⟩ := Res.bind_eq_ok.mp h6
          obtain ⟨q, h9, h10⟩ := Res.bind_eq_ok.mp h8
          simp only [Mem.reinit] at h5
          obtain ⟨m0, h11, h12⟩ := Res.bind_eq_ok.mp h5
          rw [Res.ok.injEq] at h12
          subst h12
          obtain ⟨_, l, _, w⟩ := memcpy_wrote h10 (0 : K)
          exact wf_wrote w (wf_allocFor (wf_clear h h11) _ _)
  | opAssign f t s =>
    simp only [step, Mem.opAssign] at hs
    obtain ⟨ot, h1, h2⟩ := Res.bind_eq_ok.mp hs
    obtain ⟨q, h3, h4⟩ := Res.bind_eq_ok.mp h2
    obtain ⟨o, h5, h6⟩ := Res.bind_eq_ok.mp h4
    obtain ⟨p, h7, h8⟩ := Res.bind_eq_ok.mp h6
    obtain ⟨_, _, h10⟩ := Res.bind_eq_ok.mp h8
    clear hs h2 h4 h6 h8
    revert h10
    generalize ot.size = n
    intro h10
    induction n generalizing m' with
    | zero =>
      rw [List.range_zero, Res.foldlM'_nil, Res.ok.injEq] at h10
      subst h10
      exact h
    | succ n ih =>
      rw [List.range_succ, Res.foldlM'_append] at h10
      obtain ⟨m1, h1, h2⟩ := Res.bind_eq_ok.mp h10
      rw [Res.foldlM'_cons] at h2
      obtain ⟨m2, h3, h4⟩ := Res.bind_eq_ok.mp h2
      rw [Res.foldlM'_nil, Res.ok.injEq] at h4
      subst h4
      obtain ⟨x, _, h5⟩ := Res.bind_eq_ok.mp h3
      obtain ⟨y, _, h6⟩ := Res.bind_eq_ok.mp h5
      exact wf_wrote (Mem.setCell_wrote h6).1 (ih h1)
  | binop f s r =>
    simp only [step, Mem.binop] at hs
    obtain ⟨x, _, h2⟩ := Res.bind_eq_ok.mp hs
    obtain ⟨y, _, h4⟩ := Res.bind_eq_ok.mp h2
    obtain ⟨_, _, h6⟩ := Res.bind_eq_ok.mp h4
    rw [Res.ok.injEq] at h6
    subst h6
    exact wf_newOwner h _
  | unop f s =>
    simp only [step, Mem.unop] at hs
    obtain ⟨x, _, h2⟩ := Res.bind_eq_ok.mp hs
    rw [Res.ok.injEq] at h2
    subst h2
    exact wf_newOwner h _

end Nla3d.DVec
