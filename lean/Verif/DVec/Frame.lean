import Verif.DVec.Lemmas

/-!
# What a `dVec` call leaves alone
-/

namespace Nla3d.DVec

variable {K : Type}

/-- The existing object a call is allowed to modify (constructors other than the move constructor, and the arithmetic
operators, have none). -/
def Op.target : Op K → Option Nat
  | .move s => some s
  | .reinit t _ _ => some t
  | .reinitView t _ _ _ => some t
  | .clear t => some t
  | .fill t _ => some t
  | .set t _ _ => some t
  | .assign t _ => some t
  | .opAssign _ t _ => some t
  | _ => none

/-- The object from which the call makes an alias (a view, or the destination of a move). -/
def Op.source : Op K → Option Nat
  | .move s => some s
  | .view r _ _ => some r
  | .reinitView _ r _ _ => some r
  | _ => none

/-- The object that becomes an alias, where `n` is the number of existing objects. -/
def Op.alias (n : Nat) : Op K → Nat
  | .reinitView t _ _ _ => t
  | _ => n

/-- Objects sharing memory with the objects in `D` after a call. -/
def grow (D : List Nat) (n : Nat) (op : Op K) : List Nat :=
  match op.source with
  | some r => if r ∈ D then Op.alias n op :: D else D
  | none => D

/-- What is left alone by a call for a block `b` not reached by the target of the call. -/
structure Kept (m m' : Mem K) (b : Nat) (op : Op K) : Prop where
  block : m'.heap[b]? = m.heap[b]?
  heapLen : m.heap.length ≤ m'.heap.length
  objsLen : m.objs.length ≤ m'.objs.length
  objs : ∀ t, t < m.objs.length → op.target ≠ some t → m'.objs[t]? = m.objs[t]?
  reach : ∀ t, m'.Blk t b → m.Blk t b ∨ (∃ r, op.source = some r ∧ m.Blk r b ∧ t = Op.alias m.objs.length op)

theorem lt_of_getElem? {α : Type} {l : List α} {i : Nat} {x : α} (h : l[i]? = some x) : i < l.length := by
  rcases Nat.lt_or_ge i l.length with h' | h'
  · exact h'
  · rw [List.getElem?_eq_none h'] at h; simp at h

theorem Mem.Blk.congr {m m' : Mem K} {t b : Nat} (h : m.objs = m'.objs) : m.Blk t b ↔ m'.Blk t b := by
  unfold Mem.Blk
  rw [h]

theorem kept_wrote {m m' : Mem K} {b : Nat} {op : Op K} {P : Nat × Nat → Prop} {f : Nat × Nat → K}
    (w : Mem.Wrote m m' P f) (h : ∀ k, ¬ P (b, k)) : Kept m m' b op :=
  ⟨w.blocks b h, Nat.le_of_eq w.len.symm, Nat.le_of_eq (by rw [w.objs]), fun t _ _ => by rw [w.objs],
    fun t ht => Or.inl ((Mem.Blk.congr w.objs).mp ht)⟩

theorem kept_newOwner {m : Mem K} {b : Nat} {op : Op K} (hb : b < m.heap.length) (l : List K) :
    Kept m (m.newOwner l) b op := by
  refine ⟨?_, ?_, ?_, ?_, ?_⟩
  · show (m.heap ++ [some l])[b]? = _
    rw [List.getElem?_append_left hb]
  · show _ ≤ (m.heap ++ [some l]).length
    simp
  · show _ ≤ (m.objs ++ [_]).length
    simp
  · intro t ht _
    show (m.objs ++ [_])[t]? = _
    rw [List.getElem?_append_left ht]
  · intro t ht
    rcases blk_append ht with ⟨_, off, h⟩ | ⟨_, h⟩
    · simp only [Option.some.injEq, Prod.mk.injEq] at h
      omega
    · exact Or.inl h

theorem kept_push {m : Mem K} {b : Nat} {op : Op K} : Kept m ⟨m.heap, m.objs ++ [Obj.empty]⟩ b op := by
  refine ⟨rfl, Nat.le_refl _, by simp, ?_, ?_⟩
  · intro t ht _
    show (m.objs ++ [_])[t]? = _
    rw [List.getElem?_append_left ht]
  · intro t ht
    rcases blk_append ht with ⟨_, off, h⟩ | ⟨_, h⟩
    · simp [Obj.empty] at h
    · exact Or.inl h

theorem kept_clear {m m' : Mem K} {t b : Nat} {op : Op K} (h : m.clear t = .ok m') (hb : ¬ m.Blk t b)
    (htgt : t < m.objs.length → op.target = some t) : Kept m m' b op := by
  obtain ⟨h1, h2, h3, h4, _⟩ := clear_spec h
  refine ⟨h4 b hb, Nat.le_of_eq h3.symm, Nat.le_of_eq (by rw [h2, List.length_set]), ?_, ?_⟩
  · intro u _ hu
    rw [h2, List.getElem?_set, if_neg]
    rintro rfl
    exact hu (htgt h1)
  · intro u hu
    rcases blk_set (heap := m'.heap) ((Mem.Blk.congr (m' := ⟨m'.heap, m.objs.set t Obj.empty⟩) h2).mp hu) with
      ⟨_, off, h⟩ | ⟨_, h⟩
    · simp [Obj.empty] at h
    · exact Or.inl h

theorem kept_allocFor {m m1 : Mem K} {t b : Nat} {op : Op K} (k : Kept m m1 b op) (hb : b < m.heap.length)
    (htgt : op.target = some t) (l : List K) : Kept m (m1.allocFor t l) b op := by
  have hb1 : b < m1.heap.length := Nat.lt_of_lt_of_le hb k.heapLen
  refine ⟨?_, ?_, ?_, ?_, ?_⟩
  · show (m1.heap ++ [some l])[b]? = _
    rw [List.getElem?_append_left hb1, k.block]
  · show _ ≤ (m1.heap ++ [some l]).length
    have := k.heapLen
    simp; omega
  · show _ ≤ (m1.objs.set _ _).length
    rw [List.length_set]; exact k.objsLen
  · intro u hu hne
    show (m1.objs.set _ _)[u]? = _
    rw [List.getElem?_set, if_neg, k.objs u hu hne]
    rintro rfl
    exact hne htgt
  · intro u hu
    rcases blk_set hu with ⟨_, off, h⟩ | ⟨_, h⟩
    · simp only [Option.some.injEq, Prod.mk.injEq] at h
      omega
    · exact k.reach u h

theorem not_inRange {m : Mem K} {t b : Nat} {o : Obj} {p : Nat × Nat} (h : m.objs[t]? = some o)
    (hd : o.data = some p) (hb : ¬ m.Blk t b) : p.1 ≠ b := by
  rintro rfl
  exact hb ⟨o, p.2, h, hd⟩

theorem ptr_eq {o : Obj} {p : Nat × Nat} (h : o.ptr = .ok p) : o.data = some p := by
  unfold Obj.ptr at h
  split at h
  · rename_i q hq
    rw [Res.ok.injEq] at h
    rw [hq, h]
  · simp at h

theorem guard_eq {c : Bool} {u : Unit} (h : Res.guard c = .ok u) : c = true := by
  cases c
  · simp [Res.guard] at h
  · rfl

theorem memcpy_wrote {m m' : Mem K} {dst src : Nat × Nat} {n : Nat} (h : m.memcpy dst src n = .ok m') (d : K) :
    (∀ k, InRange dst.1 dst.2 n k → ¬ InRange src.1 src.2 n k) ∧
    ∃ l, m.readRange src.1 src.2 n = .ok l ∧
      Mem.Wrote m m' (InRange dst.1 dst.2 n) (fun p => l.getD (p.2 - dst.2) d) := by
  unfold Mem.memcpy at h
  split at h
  · simp at h
  rename_i hov
  obtain ⟨l, h1, h2⟩ := Res.bind_eq_ok.mp h
  refine ⟨?_, l, h1, ?_⟩
  · unfold InRange
    intro k h1 h2
    omega
  · have := writeRange_wrote h2 d
    rwa [(readRange_some h1).1] at this

theorem opLoop_wrote {m m' : Mem K} {q p : Nat × Nat} {n : Nat} {f : K → K → K}
    (h : Res.foldlM' (fun m i => do
      let x ← m.cell q.1 (q.2 + i)
      let y ← m.cell p.1 (p.2 + i)
      m.setCell q.1 (q.2 + i) (f x y)) m (List.range n) = .ok m') : 
    ∀ b, b ≠ q.1 → m'.objs = m.objs ∧ m'.heap.length = m.heap.length ∧ m'.heap[b]? = m.heap[b]? := by
  intro b hb
  revert m m'
  induction n with
  | zero => intro m m' h; rw [List.range_zero, Res.foldlM'_nil, Res.ok.injEq] at h; subst h; exact ⟨rfl, rfl, rfl⟩
  | succ n ih =>
    intro m m' h
    rw [List.range_succ, Res.foldlM'_append] at h
    obtain ⟨m1, h1, h2⟩ := Res.bind_eq_ok.mp h
    rw [Res.foldlM'_cons] at h2
    obtain ⟨m2, h3, h4⟩ := Res.bind_eq_ok.mp h2
    rw [Res.foldlM'_nil, Res.ok.injEq] at h4
    subst h4
    obtain ⟨x, _, h5⟩ := Res.bind_eq_ok.mp h3
    obtain ⟨y, _, h6⟩ := Res.bind_eq_ok.mp h5
    have w := (Mem.setCell_wrote h6).1
    obtain ⟨e1, e2, e3⟩ := ih h1
    refine ⟨w.objs.trans e1, w.len.trans e2, ?_⟩
    rw [w.blocks b, e3]
    intro k hk
    rw [Prod.mk.injEq] at hk
    exact hb hk.1

/-- A call whose target does not point into `b` keeps block `b`, and only aliases of objects pointing into `b` can
point into it afterwards. -/
theorem step_kept [Zero K] {m m' : Mem K} {op : Op K} {b : Nat} (h : step m op = .ok m') (hb : b < m.heap.length)
    (htgt : ∀ t, op.target = some t → ¬ m.Blk t b) : Kept m m' b op := by
  cases op with
  | default =>
    simp only [step, Res.ok.injEq] at h
    subst h
    exact kept_push
  | new n v =>
    simp only [step, Res.ok.injEq] at h
    subst h
    exact kept_newOwner hb _
  | copy s =>
    simp only [step, Mem.copy] at h
    obtain ⟨o, h1, h2⟩ := Res.bind_eq_ok.mp h
    split at h2
    · rw [Res.ok.injEq] at h2
      subst h2
      exact kept_push
    · obtain ⟨l, _, h3⟩ := Res.bind_eq_ok.mp h2
      rw [Res.ok.injEq] at h3
      subst h3
      exact kept_newOwner hb _
  | move s =>
    simp only [step, Mem.move] at h
    obtain ⟨o, h1, h2⟩ := Res.bind_eq_ok.mp h
    rw [Res.ok.injEq] at h2
    subst h2
    rw [Res.read_eq_ok] at h1
    have hs := lt_of_getElem? h1
    have hnb := htgt s rfl
    refine ⟨rfl, Nat.le_refl _, by simp, ?_, ?_⟩
    · intro t ht hne
      show (m.objs.set s Obj.empty ++ [o])[t]? = _
      rw [List.getElem?_append_left (by rw [List.length_set]; exact ht), List.getElem?_set, if_neg]
      rintro rfl
      exact hne rfl
    · intro t ht
      rcases blk_append (m := ⟨m.heap, m.objs.set s Obj.empty⟩) ht with ⟨_, off, h⟩ | ⟨_, h⟩
      · exact absurd ⟨o, off, h1, h⟩ hnb
      · rcases blk_set h with ⟨_, off, h⟩ | ⟨_, h⟩
        · simp [Obj.empty] at h
        · exact Or.inl h
  | view r start size =>
    simp only [step, Mem.reinitView] at h
    obtain ⟨m1, h1, h2⟩ := Res.bind_eq_ok.mp h
    obtain ⟨o, h3, h4⟩ := Res.bind_eq_ok.mp h2
    obtain ⟨p, h5, h6⟩ := Res.bind_eq_ok.mp h4
    obtain ⟨_, _, h8⟩ := Res.bind_eq_ok.mp h6
    rw [Res.ok.injEq] at h8
    subst h8
    obtain ⟨_, c2, c3, c4, _⟩ := clear_spec h1
    have hset : (m.objs ++ [Obj.empty]).set m.objs.length Obj.empty = m.objs ++ [Obj.empty] := by
      rw [List.set_append_right _ _ (Nat.le_refl _)]
      simp
    rw [show (⟨m.heap, m.objs ++ [Obj.empty]⟩ : Mem K).objs = m.objs ++ [Obj.empty] from rfl, hset] at c2
    have hemp : ∀ b, ¬ (⟨m.heap, m.objs ++ [Obj.empty]⟩ : Mem K).Blk m.objs.length b := by
      intro b hh
      rcases blk_append hh with ⟨_, off, h⟩ | ⟨h, _⟩
      · simp [Obj.empty] at h
      · omega
    rw [Res.read_eq_ok] at h3
    refine ⟨?_, ?_, ?_, ?_, ?_⟩
    · exact c4 b (hemp b)
    · exact Nat.le_of_eq c3.symm
    · show _ ≤ (m1.objs.set _ _).length
      rw [List.length_set, c2]; simp
    · intro t ht _
      show (m1.objs.set _ _)[t]? = _
      rw [List.getElem?_set, if_neg (by omega), c2, List.getElem?_append_left ht]
    · intro t ht
      rcases blk_set ht with ⟨rfl, off, h⟩ | ⟨_, h⟩
      · right
        simp only [Option.some.injEq, Prod.mk.injEq] at h
        refine ⟨r, rfl, ?_, rfl⟩
        have hr : m1.Blk r b := ⟨o, p.2, h3, by rw [ptr_eq h5, ← h.1]⟩
        rcases blk_append (heap := m.heap) ((Mem.Blk.congr (m' := ⟨m.heap, m.objs ++ [Obj.empty]⟩) c2).mp hr) with
          ⟨_, off', h'⟩ | ⟨_, h'⟩
        · simp [Obj.empty] at h'
        · exact h'
      · left
        rcases blk_append (heap := m.heap) ((Mem.Blk.congr (m' := ⟨m.heap, m.objs ++ [Obj.empty]⟩) c2).mp h) with
          ⟨_, off', h'⟩ | ⟨_, h'⟩
        · simp [Obj.empty] at h'
        · exact h'
  | reinit t n v =>
    simp only [step, Mem.reinit] at h
    obtain ⟨m1, h1, h2⟩ := Res.bind_eq_ok.mp h
    rw [Res.ok.injEq] at h2
    subst h2
    exact kept_allocFor (kept_clear h1 (htgt t rfl) (fun _ => rfl)) hb rfl _
  | reinitView t r start size =>
    simp only [step, Mem.reinitView] at h
    obtain ⟨m1, h1, h2⟩ := Res.bind_eq_ok.mp h
    obtain ⟨o, h3, h4⟩ := Res.bind_eq_ok.mp h2
    obtain ⟨p, h5, h6⟩ := Res.bind_eq_ok.mp h4
    obtain ⟨_, _, h8⟩ := Res.bind_eq_ok.mp h6
    rw [Res.ok.injEq] at h8
    subst h8
    rw [Res.read_eq_ok] at h3
    have k : Kept m m1 b (.reinitView t r start size) := kept_clear h1 (htgt t rfl) (fun _ => rfl)
    obtain ⟨_, c2, _⟩ := clear_spec h1
    refine ⟨k.block, k.heapLen, ?_, ?_, ?_⟩
    · show _ ≤ (m1.objs.set _ _).length
      rw [List.length_set]; exact k.objsLen
    · intro u hu hne
      show (m1.objs.set _ _)[u]? = _
      rw [List.getElem?_set, if_neg, k.objs u hu hne]
      rintro rfl
      exact hne rfl
    · intro u hu
      rcases blk_set hu with ⟨rfl, off, h⟩ | ⟨_, h⟩
      · right
        simp only [Option.some.injEq, Prod.mk.injEq] at h
        refine ⟨r, rfl, ?_, rfl⟩
        have hr : m1.Blk r b := ⟨o, p.2, h3, by rw [ptr_eq h5, ← h.1]⟩
        rcases blk_set (heap := m.heap) ((Mem.Blk.congr (m' := ⟨m.heap, m.objs.set u Obj.empty⟩) c2).mp hr) with
          ⟨_, off', h'⟩ | ⟨_, h'⟩
        · simp [Obj.empty] at h'
        · exact h'
      · left
        rcases blk_set (heap := m.heap) ((Mem.Blk.congr (m' := ⟨m.heap, m.objs.set t Obj.empty⟩) c2).mp h) with
          ⟨_, off', h'⟩ | ⟨_, h'⟩
        · simp [Obj.empty] at h'
        · exact h'
  | clear t => exact kept_clear h (htgt t rfl) (fun _ => rfl)
  | fill t v =>
    simp only [step, Mem.fill] at h
    obtain ⟨o, h1, h2⟩ := Res.bind_eq_ok.mp h
    obtain ⟨p, h3, h4⟩ := Res.bind_eq_ok.mp h2
    rw [Res.read_eq_ok] at h1
    have := not_inRange h1 (ptr_eq h3) (htgt t rfl)
    exact kept_wrote (writeRange_wrote h4 v) (fun k hk => this hk.1.symm)
  | set t i v =>
    simp only [step, Mem.set] at h
    obtain ⟨o, h1, h2⟩ := Res.bind_eq_ok.mp h
    obtain ⟨p, h3, h4⟩ := Res.bind_eq_ok.mp h2
    obtain ⟨_, _, h6⟩ := Res.bind_eq_ok.mp h4
    rw [Res.read_eq_ok] at h1
    have := not_inRange h1 (ptr_eq h3) (htgt t rfl)
    exact kept_wrote (Mem.setCell_wrote h6).1 (fun k hk => this (by rw [Prod.mk.injEq] at hk; exact hk.1.symm))
  | assign t s =>
    simp only [step, Mem.assign] at h
    split at h
    · rw [Res.ok.injEq] at h
      subst h
      exact ⟨rfl, Nat.le_refl _, Nat.le_refl _, fun _ _ _ => rfl, fun _ ht => Or.inl ht⟩
    · obtain ⟨o, h1, h2⟩ := Res.bind_eq_ok.mp h
      split at h2
      · exact kept_clear h2 (htgt t rfl) (fun _ => rfl)
      · rename_i p hp
        obtain ⟨ot, h3, h4⟩ := Res.bind_eq_ok.mp h2
        rw [Res.read_eq_ok] at h3
        split at h4
        · split at h4
          · rename_i q hq
            have := not_inRange h3 hq (htgt t rfl)
            obtain ⟨_, l, _, w⟩ := memcpy_wrote h4 (0 : K)
            exact kept_wrote w (fun k hk => this hk.1.symm)
          · split at h4
            · rw [Res.ok.injEq] at h4
              subst h4
              exact ⟨rfl, Nat.le_refl _, Nat.le_refl _, fun _ _ _ => rfl, fun _ ht => Or.inl ht⟩
            · simp at h4
        · obtain ⟨m1, h5, h6⟩ := Res.bind_eq_ok.mp h4
          obtain ⟨ot', h7, h8⟩ := Res.bind_eq_ok.mp h6
          obtain ⟨q, h9, h10⟩ := Res.bind_eq_ok.mp h8
          rw [Res.read_eq_ok] at h7
          simp only [Mem.reinit] at h5
          obtain ⟨m0, h11, h12⟩ := Res.bind_eq_ok.mp h5
          rw [Res.ok.injEq] at h12
          subst h12
          have k0 : Kept m m0 b (.assign t s) := kept_clear h11 (htgt t rfl) (fun _ => rfl)
          have k1 := kept_allocFor k0 hb (t := t) rfl (List.replicate o.size (0 : K))
          obtain ⟨_, l, _, w⟩ := memcpy_wrote h10 (0 : K)
          have hq : q.1 ≠ b := by
            have ht0 : t < m0.objs.length := by
              have := (clear_spec h11)
              rw [this.2.1, List.length_set]; exact this.1
            simp only [Mem.allocFor, List.getElem?_set, ht0, if_true, Option.some.injEq] at h7
            have := ptr_eq h9
            rw [← h7] at this
            simp only [Option.some.injEq] at this
            rw [← this]
            have := k0.heapLen
            show m0.heap.length ≠ b
            omega
          have kw : Kept (m0.allocFor t (List.replicate o.size (0 : K))) m' b (.assign t s) :=
            kept_wrote w (fun k hk => hq hk.1.symm)
          refine ⟨kw.block.trans k1.block, Nat.le_trans k1.heapLen kw.heapLen, Nat.le_trans k1.objsLen kw.objsLen, ?_, ?_⟩
          · intro u hu hne
            rw [w.objs]
            exact k1.objs u hu hne
          · intro u hu
            exact k1.reach u ((Mem.Blk.congr w.objs).mp hu)
  | opAssign f t s =>
    simp only [step, Mem.opAssign] at h
    obtain ⟨ot, h1, h2⟩ := Res.bind_eq_ok.mp h
    obtain ⟨q, h3, h4⟩ := Res.bind_eq_ok.mp h2
    obtain ⟨o, h5, h6⟩ := Res.bind_eq_ok.mp h4
    obtain ⟨p, h7, h8⟩ := Res.bind_eq_ok.mp h6
    obtain ⟨_, _, h10⟩ := Res.bind_eq_ok.mp h8
    rw [Res.read_eq_ok] at h1
    have := not_inRange h1 (ptr_eq h3) (htgt t rfl)
    obtain ⟨e1, e2, e3⟩ := opLoop_wrote h10 b (Ne.symm this)
    exact ⟨e3, Nat.le_of_eq e2.symm, Nat.le_of_eq (by rw [e1]), fun _ _ _ => by rw [e1],
      fun u hu => Or.inl ((Mem.Blk.congr e1).mp hu)⟩
  | binop f s r =>
    simp only [step, Mem.binop] at h
    obtain ⟨x, _, h2⟩ := Res.bind_eq_ok.mp h
    obtain ⟨y, _, h4⟩ := Res.bind_eq_ok.mp h2
    obtain ⟨_, _, h6⟩ := Res.bind_eq_ok.mp h4
    rw [Res.ok.injEq] at h6
    subst h6
    exact kept_newOwner hb _
  | unop f s =>
    simp only [step, Mem.unop] at h
    obtain ⟨x, _, h2⟩ := Res.bind_eq_ok.mp h
    rw [Res.ok.injEq] at h2
    subst h2
    exact kept_newOwner hb _

end Nla3d.DVec
