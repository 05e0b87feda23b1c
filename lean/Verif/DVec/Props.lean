import Verif.DVec.WF
import Mathlib.Algebra.Ring.Rat

/-!
# C27: ownership and views of `dVec`

Observables: `comp m t i` is what `v[i]` of object `t` returns; `loc m t i` is the memory cell behind it (its address).
-/

namespace Nla3d.DVec

variable {K : Type}

/-- Component `i` of object `t`, as read through `operator[]`. -/
def comp (m : Mem K) (t i : Nat) : Option K := (m.loc t i).bind m.val

theorem get_eq {m : Mem K} {t i : Nat} {x : K} : m.get t i = .ok x ↔ comp m t i = some x := by
  unfold Mem.get comp Mem.loc
  rcases ht : m.objs[t]? with _ | ⟨ow, d, n⟩
  · simp [Res.read, ht]
  · simp only [Res.read, ht, Res.ok_bind, Option.bind_some, Obj.ptr]
    rcases d with _ | p
    · simp
    · simp only [Res.ok_bind, Option.bind_some, Res.guard]
      by_cases hi : i < n
      · simp only [hi, decide_true, if_true, Option.bind_some, Res.ok_bind]
        exact Mem.cell_eq
      · simp [hi]

theorem loc_of_obj {m : Mem K} {t : Nat} {ow : Bool} {p : Nat × Nat} {n : Nat}
    (h : m.objs[t]? = some ⟨ow, some p, n⟩) (i : Nat) :
    m.loc t i = if i < n then some (p.1, p.2 + i) else none := by
  unfold Mem.loc
  rw [h]
  rfl

theorem loc_obj {m : Mem K} {t : Nat} {o : Obj} {p : Nat × Nat} (h : m.objs[t]? = some o) (hd : o.data = some p)
    (i : Nat) : m.loc t i = if i < o.size then some (p.1, p.2 + i) else none := by
  unfold Mem.loc
  rw [h]
  simp [hd]

theorem loc_blk {m : Mem K} {t i : Nat} {p : Nat × Nat} (h : m.loc t i = some p) : m.Blk t p.1 := by
  unfold Mem.loc at h
  rcases ho : m.objs[t]? with _ | o
  · rw [ho] at h; simp at h
  rw [ho] at h
  rcases hd : o.data with _ | q
  · simp [hd] at h
  simp only [Option.bind_some, hd] at h
  split at h
  · rw [Option.some.injEq] at h
    refine ⟨o, q.2, ho, ?_⟩
    rw [hd, ← h]
  · simp at h

theorem loc_congr {m m' : Mem K} {t : Nat} (h : m'.objs[t]? = m.objs[t]?) (i : Nat) : m'.loc t i = m.loc t i := by
  unfold Mem.loc
  rw [h]

theorem val_congr {m m' : Mem K} {p : Nat × Nat} (h : m'.heap[p.1]? = m.heap[p.1]?) : m'.val p = m.val p := by
  unfold Mem.val
  rw [h]

/-! ## Histories -/

/-- States reached from the empty memory by calls that complete. -/
inductive Reachable [Zero K] : Mem K → Prop
  | init : Reachable ⟨[], []⟩
  | step {m m' : Mem K} (op : Op K) : Reachable m → step m op = .ok m' → Reachable m'

theorem Reachable.wf [Zero K] {m : Mem K} (h : Reachable m) : m.WF := by
  induction h with
  | init => exact wf_empty
  | step op _ hs ih => exact step_wf ih hs

/-- A history of completed calls, none of which targets an object of `D`, where `D` collects the aliases (views and
move destinations) made from its members on the way. -/
inductive Hist [Zero K] : Mem K → List Nat → Mem K → List Nat → Prop
  | nil (m : Mem K) (D : List Nat) : Hist m D m D
  | snoc {m m1 m2 : Mem K} {D D1 : List Nat} (op : Op K) : Hist m D m1 D1 → step m1 op = .ok m2 →
      (∀ t, op.target = some t → t ∉ D1) → Hist m D m2 (grow D1 m1.objs.length op)

theorem mem_grow {D : List Nat} {n t : Nat} {op : Op K} (h : t ∈ D) : t ∈ grow D n op := by
  unfold grow
  split
  · split
    · exact List.mem_cons_of_mem _ h
    · exact h
  · exact h

theorem hist_kept [Zero K] {m m' : Mem K} {D D' : List Nat} (hh : Hist m D m' D') {b : Nat} (hb : b < m.heap.length)
    (hD : ∀ t, m.Blk t b → t ∈ D) :
    m'.heap[b]? = m.heap[b]? ∧ m.heap.length ≤ m'.heap.length ∧ m.objs.length ≤ m'.objs.length ∧
    (∀ t, t ∈ D → t ∈ D') ∧ (∀ t, m'.Blk t b → t ∈ D') ∧
    (∀ t, t ∈ D → t < m.objs.length → m'.objs[t]? = m.objs[t]?) := by
  induction hh with
  | nil D => exact ⟨rfl, Nat.le_refl _, Nat.le_refl _, fun _ h => h, hD, fun _ _ _ => rfl⟩
  | snoc op h1 hs htgt ih =>
    obtain ⟨i1, i2, i3, i4, i5, i6⟩ := ih hD
    have k := step_kept hs (Nat.lt_of_lt_of_le hb i2) (fun t ht hblk => htgt t ht (i5 t hblk))
    refine ⟨k.block.trans i1, Nat.le_trans i2 k.heapLen, Nat.le_trans i3 k.objsLen,
      fun t ht => mem_grow (i4 t ht), ?_, ?_⟩
    · intro t ht
      rcases k.reach t ht with h | ⟨r, hr, hrb, rfl⟩
      · exact mem_grow (i5 t h)
      · unfold grow
        rw [hr]
        simp only [i5 r hrb, if_true]
        exact List.mem_cons_self
    · intro t ht hlt
      rw [k.objs t (Nat.lt_of_lt_of_le hlt i3) (fun h => htgt t h (i4 t ht))]
      exact i6 t ht hlt

/-! ## Records -/

/-- The calls that change what object `t` points to: everything but writes into its components. Assignment does so
only when the sizes differ or the source has no data. -/
def Rebinds (m : Mem K) (t : Nat) : Op K → Prop
  | .move s => s = t
  | .reinit u _ _ => u = t
  | .reinitView u _ _ _ => u = t
  | .clear u => u = t
  | .assign u s => u = t ∧ s ≠ t ∧ ∀ o ot, m.objs[s]? = some o → m.objs[t]? = some ot → o.data = none ∨ o.size ≠ ot.size
  | _ => False

theorem opLoop_objs {m m' : Mem K} {q p : Nat × Nat} {n : Nat} {f : K → K → K}
    (h : Res.foldlM' (fun m i => do
      let x ← m.cell q.1 (q.2 + i)
      let y ← m.cell p.1 (p.2 + i)
      m.setCell q.1 (q.2 + i) (f x y)) m (List.range n) = .ok m') : m'.objs = m.objs :=
  (opLoop_wrote h (q.1 + 1) (by omega)).1

theorem clear_objs {m m' : Mem K} {t u : Nat} (h : m.clear t = .ok m') :
    m'.objs.length = m.objs.length ∧ (u ≠ t → m'.objs[u]? = m.objs[u]?) := by
  obtain ⟨_, h2, _⟩ := clear_spec h
  rw [h2]
  refine ⟨List.length_set .., fun hu => ?_⟩
  rw [List.getElem?_set, if_neg (Ne.symm hu)]

theorem reinitView_objs {m m' : Mem K} {t r start size u : Nat} (h : m.reinitView t r start size = .ok m') :
    m'.objs.length = m.objs.length ∧ (u ≠ t → m'.objs[u]? = m.objs[u]?) := by
  simp only [Mem.reinitView] at h
  obtain ⟨m1, h1, h2⟩ := Res.bind_eq_ok.mp h
  obtain ⟨o, h3, h4⟩ := Res.bind_eq_ok.mp h2
  obtain ⟨p, h5, h6⟩ := Res.bind_eq_ok.mp h4
  obtain ⟨_, _, h8⟩ := Res.bind_eq_ok.mp h6
  rw [Res.ok.injEq] at h8
  subst h8
  have c := clear_objs (u := u) h1
  refine ⟨by simp [c.1], fun hu => ?_⟩
  show (m1.objs.set _ _)[u]? = _
  rw [List.getElem?_set, if_neg (Ne.symm hu)]
  exact c.2 hu

theorem reinit_objs {m m' : Mem K} {t n u : Nat} {v : K} (h : m.reinit t n v = .ok m') :
    m'.objs.length = m.objs.length ∧ (u ≠ t → m'.objs[u]? = m.objs[u]?) := by
  simp only [Mem.reinit] at h
  obtain ⟨m1, h1, h2⟩ := Res.bind_eq_ok.mp h
  rw [Res.ok.injEq] at h2
  subst h2
  have c := clear_objs (u := u) h1
  refine ⟨by simp [Mem.allocFor, c.1], fun hu => ?_⟩
  show (m1.objs.set _ _)[u]? = _
  rw [List.getElem?_set, if_neg (Ne.symm hu)]
  exact c.2 hu

/-- A call that does not rebind an object leaves its pointer and size alone. -/
theorem step_records [Zero K] {m m' : Mem K} {op : Op K} {t : Nat} (h : step m op = .ok m') (ht : t < m.objs.length)
    (hn : ¬ Rebinds m t op) : m'.objs[t]? = m.objs[t]? ∧ m.objs.length ≤ m'.objs.length := by
  have hpush : ∀ o : Obj, (m.objs ++ [o])[t]? = m.objs[t]? ∧ m.objs.length ≤ (m.objs ++ [o]).length := fun o =>
    ⟨List.getElem?_append_left ht, by simp⟩
  cases op with
  | default => simp only [step, Res.ok.injEq] at h; subst h; exact hpush _
  | new n v => simp only [step, Res.ok.injEq] at h; subst h; exact hpush _
  | copy s =>
    simp only [step, Mem.copy] at h
    obtain ⟨o, h1, h2⟩ := Res.bind_eq_ok.mp h
    split at h2
    · rw [Res.ok.injEq] at h2; subst h2; exact hpush _
    · obtain ⟨l, _, h3⟩ := Res.bind_eq_ok.mp h2
      rw [Res.ok.injEq] at h3; subst h3; exact hpush _
  | move s =>
    simp only [step, Mem.move] at h
    obtain ⟨o, h1, h2⟩ := Res.bind_eq_ok.mp h
    rw [Res.ok.injEq] at h2
    subst h2
    refine ⟨?_, by simp⟩
    show (m.objs.set s Obj.empty ++ [o])[t]? = _
    rw [List.getElem?_append_left (by simpa using ht), List.getElem?_set,
      if_neg (show ¬ s = t from hn)]
  | view r start size =>
    have := reinitView_objs (u := t) h
    refine ⟨(this.2 (Nat.ne_of_lt ht)).trans (hpush _).1, ?_⟩
    rw [this.1]
    simp
  | reinit u n v =>
    have := reinit_objs (u := t) h
    exact ⟨this.2 (fun e => hn e.symm), Nat.le_of_eq this.1.symm⟩
  | reinitView u r start size =>
    have := reinitView_objs (u := t) h
    exact ⟨this.2 (fun e => hn e.symm), Nat.le_of_eq this.1.symm⟩
  | clear u =>
    have := clear_objs (u := t) h
    exact ⟨this.2 (fun e => hn e.symm), Nat.le_of_eq this.1.symm⟩
  | fill u v =>
    simp only [step, Mem.fill] at h
    obtain ⟨o, h1, h2⟩ := Res.bind_eq_ok.mp h
    obtain ⟨p, h3, h4⟩ := Res.bind_eq_ok.mp h2
    have := (writeRange_wrote h4 v).objs
    exact ⟨by rw [this], Nat.le_of_eq (by rw [this])⟩
  | set u i v =>
    simp only [step, Mem.set] at h
    obtain ⟨o, h1, h2⟩ := Res.bind_eq_ok.mp h
    obtain ⟨p, h3, h4⟩ := Res.bind_eq_ok.mp h2
    obtain ⟨_, _, h6⟩ := Res.bind_eq_ok.mp h4
    have := (Mem.setCell_wrote h6).1.objs
    exact ⟨by rw [this], Nat.le_of_eq (by rw [this])⟩
  | assign u s =>
    simp only [step, Mem.assign] at h
    split at h
    · rw [Res.ok.injEq] at h
      subst h
      exact ⟨rfl, Nat.le_refl _⟩
    · rename_i hus
      obtain ⟨o, h1, h2⟩ := Res.bind_eq_ok.mp h
      rw [Res.read_eq_ok] at h1
      have hall : ∀ {x : Nat}, x = x → (u = t → ∀ o' ot, m.objs[s]? = some o' → m.objs[t]? = some ot →
          (o'.data = none ∨ o'.size ≠ ot.size)) → u ≠ t := fun _ hh hu =>
        hn ⟨hu, fun e => hus (by rw [hu, e]), hh hu⟩
      split at h2
      · rename_i hd
        have hut : u ≠ t := hall (x := 0) rfl (fun _ o' ot e1 _ => by
          rw [h1, Option.some.injEq] at e1; subst e1; exact Or.inl hd)
        have := clear_objs (u := t) h2
        exact ⟨this.2 (Ne.symm hut), Nat.le_of_eq this.1.symm⟩
      · obtain ⟨ot, h3, h4⟩ := Res.bind_eq_ok.mp h2
        rw [Res.read_eq_ok] at h3
        split at h4
        · split at h4
          · obtain ⟨_, l, _, w⟩ := memcpy_wrote h4 (0 : K)
            exact ⟨by rw [w.objs], Nat.le_of_eq (by rw [w.objs])⟩
          · split at h4
            · rw [Res.ok.injEq] at h4
              subst h4
              exact ⟨rfl, Nat.le_refl _⟩
            · simp at h4
        · rename_i hsz
          have hut : u ≠ t := hall (x := 0) rfl (fun hu o' ot' e1 e2 => by
            rw [h1, Option.some.injEq] at e1
            rw [hu, e2, Option.some.injEq] at h3
            subst e1 h3
            exact Or.inr (Ne.symm hsz))
          obtain ⟨m1, h5, h6⟩ := Res.bind_eq_ok.mp h4
          obtain ⟨ot', h7, h8⟩ := Res.bind_eq_ok.mp h6
          obtain ⟨q, h9, h10⟩ := Res.bind_eq_ok.mp h8
          obtain ⟨_, l, _, w⟩ := memcpy_wrote h10 (0 : K)
          have := reinit_objs (u := t) h5
          rw [w.objs]
          exact ⟨this.2 (Ne.symm hut), Nat.le_of_eq this.1.symm⟩
  | opAssign f u s =>
    simp only [step, Mem.opAssign] at h
    obtain ⟨ot, h1, h2⟩ := Res.bind_eq_ok.mp h
    obtain ⟨q, h3, h4⟩ := Res.bind_eq_ok.mp h2
    obtain ⟨o, h5, h6⟩ := Res.bind_eq_ok.mp h4
    obtain ⟨p, h7, h8⟩ := Res.bind_eq_ok.mp h6
    obtain ⟨_, _, h10⟩ := Res.bind_eq_ok.mp h8
    have := opLoop_objs h10
    exact ⟨by rw [this], Nat.le_of_eq (by rw [this])⟩
  | binop f s r =>
    simp only [step, Mem.binop] at h
    obtain ⟨x, _, h2⟩ := Res.bind_eq_ok.mp h
    obtain ⟨y, _, h4⟩ := Res.bind_eq_ok.mp h2
    obtain ⟨_, _, h6⟩ := Res.bind_eq_ok.mp h4
    rw [Res.ok.injEq] at h6
    subst h6
    exact hpush _
  | unop f s =>
    simp only [step, Mem.unop] at h
    obtain ⟨x, _, h2⟩ := Res.bind_eq_ok.mp h
    rw [Res.ok.injEq] at h2
    subst h2
    exact hpush _

theorem rebinds_target {m : Mem K} {t : Nat} {op : Op K} (h : Rebinds m t op) : op.target = some t := by
  cases op <;> simp_all [Rebinds, Op.target]

/-! ## Copies are independent -/

/-- What a construction of a fresh vector with components `x i` in state `m` means: the new object has those
components; every existing object keeps its cells and every cell of an existing object keeps its value; no cell is
shared with an existing object. -/
structure Fresh (m m' : Mem K) (x : Nat → Option K) : Prop where
  len : m'.objs.length = m.objs.length + 1
  new : ∀ i, comp m' m.objs.length i = x i
  old : ∀ u, u < m.objs.length → ∀ i, m'.loc u i = m.loc u i
  vals : ∀ u i p, m.loc u i = some p → m'.val p = m.val p
  apart : ∀ u i j p, u < m.objs.length → m'.loc u i = some p → m'.loc m.objs.length j ≠ some p
  only : ∀ u b, m'.Blk m.objs.length b → m'.Blk u b → u = m.objs.length

theorem fresh_push {m : Mem K} : Fresh m ⟨m.heap, m.objs ++ [Obj.empty]⟩ (fun _ => none) := by
  have hlast : (m.objs ++ [Obj.empty])[m.objs.length]? = some Obj.empty := by simp
  have hloc : ∀ i, (⟨m.heap, m.objs ++ [Obj.empty]⟩ : Mem K).loc m.objs.length i = none := by
    intro i
    unfold Mem.loc
    rw [hlast]
    rfl
  refine ⟨by simp, ?_, ?_, fun _ _ _ _ => rfl, ?_, ?_⟩
  · intro i
    unfold comp
    rw [hloc]
    rfl
  · intro u hu i
    exact loc_congr (List.getElem?_append_left hu) i
  · intro u i j p hu _
    rw [hloc]
    simp
  · rintro u b ⟨o, off, h1, h2⟩ _
    rw [show (⟨m.heap, m.objs ++ [Obj.empty]⟩ : Mem K).objs = m.objs ++ [Obj.empty] from rfl, hlast,
      Option.some.injEq] at h1
    subst h1
    simp [Obj.empty] at h2

theorem fresh_newOwner {m : Mem K} (hwf : m.WF) (l : List K) : Fresh m (m.newOwner l) (fun i => l[i]?) := by
  have hlast : (m.newOwner l).objs[m.objs.length]? = some ⟨true, some (m.heap.length, 0), l.length⟩ := by
    simp [Mem.newOwner]
  have hloc : ∀ u, u < m.objs.length → ∀ i, (m.newOwner l).loc u i = m.loc u i := fun u hu i =>
    loc_congr (List.getElem?_append_left hu) i
  refine ⟨by simp [Mem.newOwner], ?_, hloc, ?_, ?_, ?_⟩
  · intro i
    unfold comp
    rw [loc_of_obj hlast]
    by_cases hi : i < l.length
    · rw [if_pos hi]
      simp only [Option.bind_some]
      unfold Mem.val
      simp [Mem.newOwner]
    · rw [if_neg hi, List.getElem?_eq_none (by omega)]
      rfl
  · intro u i p hp
    have := hwf.range u p.1 (loc_blk hp)
    exact val_congr (List.getElem?_append_left this)
  · intro u i j p hu hp hq
    rw [hloc u hu] at hp
    have := hwf.range u p.1 (loc_blk hp)
    rw [loc_of_obj hlast] at hq
    split at hq
    · rw [Option.some.injEq] at hq
      rw [← hq] at this
      simp at this
    · simp at hq
  · rintro u b ⟨o, off, h1, h2⟩ hb
    rcases blk_append hb with ⟨e, _⟩ | ⟨_, h⟩
    · exact e
    · have := hwf.range u b h
      rw [hlast, Option.some.injEq] at h1
      subst h1
      simp only [Option.some.injEq, Prod.mk.injEq] at h2
      omega

/-- `dVec()` and `dVec(n, x)` make fresh vectors without components and with `n` components `x`. -/
theorem C27_new [Zero K] {m : Mem K} (hr : Reachable m) (n : Nat) (x : K) :
    (∃ m', step m .default = .ok m' ∧ Fresh m m' (fun _ => none)) ∧
    ∃ m', step m (.new n x) = .ok m' ∧ Fresh m m' (fun i => if i < n then some x else none) := by
  refine ⟨⟨_, rfl, fresh_push⟩, _, rfl, ?_⟩
  have : (fun i => if i < n then some x else none) = fun i => (List.replicate n x)[i]? := by
    funext i
    rw [List.getElem?_replicate]
  rw [this]
  exact fresh_newOwner hr.wf _

/-- The move constructor takes the components over, leaves the source empty, and changes nothing else. -/
theorem C27_move [Zero K] {m m' : Mem K} {s : Nat} (h : step m (.move s) = .ok m') :
    m'.objs.length = m.objs.length + 1 ∧ m'.heap = m.heap ∧ (∀ i, m'.loc m.objs.length i = m.loc s i) ∧ (∀ i, m'.loc s i = none) ∧
    ∀ u, u < m.objs.length → u ≠ s → ∀ i, m'.loc u i = m.loc u i := by
  simp only [step, Mem.move] at h
  obtain ⟨o, h1, h2⟩ := Res.bind_eq_ok.mp h
  rw [Res.read_eq_ok] at h1
  rw [Res.ok.injEq] at h2
  subst h2
  have hs := lt_of_getElem? h1
  refine ⟨by simp, rfl, ?_, ?_, ?_⟩
  · intro i
    unfold Mem.loc
    rw [h1]
    simp only
    rw [List.getElem?_append_right (by simp)]
    simp
  · intro i
    unfold Mem.loc
    simp only
    rw [List.getElem?_append_left (by simpa using hs), List.getElem?_set_self hs]
    rfl
  · intro u hu hus i
    apply loc_congr
    simp only
    rw [List.getElem?_append_left (by simpa using hu), List.getElem?_set_ne (Ne.symm hus)]

/-- The block that object `t` owns. -/
def Owns (m : Mem K) (t b : Nat) : Prop := ∃ o off, m.objs[t]? = some o ∧ o.owner = true ∧ o.data = some (b, off)

/-- `clear()` leaves no components, frees the block that the object owns, and changes nothing else. -/
theorem C27_clear [Zero K] {m m' : Mem K} {t : Nat} (h : step m (.clear t) = .ok m') :
    m'.objs.length = m.objs.length ∧ (∀ i, m'.loc t i = none) ∧ (∀ u, u ≠ t → ∀ i, m'.loc u i = m.loc u i) ∧
    (∀ b k, Owns m t b → m'.val (b, k) = none) ∧ ∀ b k, ¬ Owns m t b → m'.val (b, k) = m.val (b, k) := by
  simp only [step, Mem.clear] at h
  obtain ⟨o, h1, h2⟩ := Res.bind_eq_ok.mp h
  obtain ⟨heap, h3, h4⟩ := Res.bind_eq_ok.mp h2
  rw [Res.read_eq_ok] at h1
  rw [Res.ok.injEq] at h4
  subst h4
  have ht := lt_of_getElem? h1
  refine ⟨by simp, ?_, ?_, ?_, ?_⟩
  · intro i
    unfold Mem.loc
    simp only
    rw [List.getElem?_set_self ht]
    rfl
  · intro u hu i
    exact loc_congr (List.getElem?_set_ne (Ne.symm hu)) i
  · rintro b k ⟨o', off, k1, k2, k3⟩
    rw [h1, Option.some.injEq] at k1
    subst k1
    rw [k2, k3] at h3
    simp only at h3
    split at h3
    · rw [Res.ok.injEq] at h3
      subst h3
      unfold Mem.val
      simp only [List.getElem?_set_self']
      cases m.heap[b]? <;> rfl
    · simp at h3
  · intro b k hno
    apply val_congr
    simp only
    split at h3
    · rename_i b' off how hda
      split at h3
      · rw [Res.ok.injEq] at h3
        subst h3
        rw [List.getElem?_set_ne]
        rintro rfl
        exact hno ⟨o, off, h1, how, hda⟩
      · simp at h3
    · rw [Res.ok.injEq] at h3
      rw [h3]

/-- `reinit(n, x)`: `n` components `x` in a block of their own; the block that the object owned is freed, nothing else changes. -/
theorem C27_reinit [Zero K] {m m' : Mem K} {t n : Nat} {x : K} (hr : Reachable m) (h : step m (.reinit t n x) = .ok m') :
    m'.objs.length = m.objs.length ∧ (∀ i, comp m' t i = if i < n then some x else none) ∧
    (∀ u, u ≠ t → ∀ i, m'.loc u i = m.loc u i) ∧ (∀ u i j p, u ≠ t → m'.loc u i = some p → m'.loc t j ≠ some p) ∧
    ∀ u i p, u ≠ t → m.loc u i = some p → ¬ Owns m t p.1 → m'.val p = m.val p := by
  simp only [step, Mem.reinit] at h
  obtain ⟨m1, h1, h2⟩ := Res.bind_eq_ok.mp h
  rw [Res.ok.injEq] at h2
  subst h2
  obtain ⟨c1, _, c3, _, c5⟩ := C27_clear (show step m (.clear t) = .ok m1 from h1)
  obtain ⟨hlen, hobjs, hheap⟩ : t < m.objs.length ∧ m1.objs = m.objs.set t Obj.empty ∧ m1.heap.length = m.heap.length := by
    unfold Mem.clear at h1
    obtain ⟨o, k1, k2⟩ := Res.bind_eq_ok.mp h1
    obtain ⟨heap, k3, k4⟩ := Res.bind_eq_ok.mp k2
    rw [Res.read_eq_ok] at k1
    rw [Res.ok.injEq] at k4
    subst k4
    refine ⟨lt_of_getElem? k1, rfl, ?_⟩
    split at k3
    · split at k3
      · rw [Res.ok.injEq] at k3; rw [← k3]; simp
      · simp at k3
    · rw [Res.ok.injEq] at k3; rw [k3]
  have ht1 : t < m1.objs.length := by rw [c1]; exact hlen
  have hobj : (m1.allocFor t (List.replicate n x)).objs[t]? = some ⟨true, some (m1.heap.length, 0), n⟩ := by
    simp [Mem.allocFor, ht1]
  have hoth : ∀ u, u ≠ t → ∀ i, (m1.allocFor t (List.replicate n x)).loc u i = m.loc u i := by
    intro u hu i
    rw [← c3 u hu i]
    exact loc_congr (List.getElem?_set_ne (Ne.symm hu)) i
  refine ⟨by simp [Mem.allocFor, c1], ?_, hoth, ?_, ?_⟩
  · intro i
    unfold comp
    rw [loc_of_obj hobj]
    by_cases hi : i < n
    · simp [Mem.val, Mem.allocFor, hi]
    · simp [hi]
  · intro u i j p hu hp hq
    rw [hoth u hu] at hp
    have := hr.wf.range u p.1 (loc_blk hp)
    rw [loc_of_obj hobj] at hq
    split at hq
    · rw [Option.some.injEq] at hq
      rw [← hq] at this
      simp only at this
      omega
    · simp at hq
  · intro u i p hu hp hno
    have := hr.wf.range u p.1 (loc_blk hp)
    rw [← c5 p.1 p.2 hno]
    exact val_congr (List.getElem?_append_left (by omega))

/-- Copy construction makes a fresh vector with the components of the source. -/
theorem C27_copy [Zero K] {m m' : Mem K} {s : Nat} (hr : Reachable m) (h : step m (.copy s) = .ok m') :
    Fresh m m' (comp m s) := by
  have hwf := hr.wf
  simp only [step, Mem.copy] at h
  obtain ⟨o, h1, h2⟩ := Res.bind_eq_ok.mp h
  rw [Res.read_eq_ok] at h1
  split at h2
  · rename_i hd
    rw [Res.ok.injEq] at h2
    subst h2
    have : comp m s = fun _ => none := by
      funext i
      unfold comp Mem.loc
      rw [h1]
      simp [hd]
    rw [this]
    exact fresh_push
  · rename_i q hd
    obtain ⟨l, h3, h4⟩ := Res.bind_eq_ok.mp h2
    rw [Res.ok.injEq] at h4
    subst h4
    obtain ⟨hl1, hl2⟩ := readRange_some h3
    have : comp m s = fun i => l[i]? := by
      funext i
      unfold comp
      rw [loc_obj h1 hd]
      by_cases hi : i < o.size
      · rw [if_pos hi, hl2 i hi]
        rfl
      · rw [if_neg hi, List.getElem?_eq_none (by omega)]
        rfl
    rw [this]
    exact fresh_newOwner hwf l

/-- No history of calls that target neither the members of `D` nor aliases made from them changes a component of a
member of `D`, provided `D` contains with it every object sharing its memory. -/
theorem hist_comp [Zero K] {m m' : Mem K} {D D' : List Nat} (hwf : m.WF) (hh : Hist m D m' D') {t : Nat} (ht : t ∈ D)
    (hlt : t < m.objs.length) (hD : ∀ b u, m.Blk t b → m.Blk u b → u ∈ D) (i : Nat) :
    comp m' t i = comp m t i ∧ m'.loc t i = m.loc t i := by
  have hrec : m'.objs[t]? = m.objs[t]? ∧ m.objs.length ≤ m'.objs.length ∧ t ∈ D' := by
    clear hD hwf
    induction hh with
    | nil D => exact ⟨rfl, Nat.le_refl _, ht⟩
    | snoc op h1 hs htgt ih =>
      obtain ⟨i1, i2, i3⟩ := ih ht
      have hrec := step_records hs (t := t) (by omega) (fun h => htgt t (rebinds_target h) i3)
      exact ⟨hrec.1.trans i1, Nat.le_trans i2 hrec.2, mem_grow i3⟩
  have hl := loc_congr hrec.1 i
  refine ⟨?_, hl⟩
  unfold comp
  rw [hl]
  rcases hp : m.loc t i with _ | p
  · rfl
  · have hblk := loc_blk hp
    obtain ⟨k1, _⟩ := hist_kept hh (hwf.range _ _ hblk) (fun u hu => hD _ u hblk hu)
    exact val_congr k1

/-- After a copy construction, no history of calls on objects other than the copy and its aliases changes the copy. -/
theorem C27_copy_independent [Zero K] {m m1 m2 : Mem K} {s : Nat} {D : List Nat} (hr : Reachable m)
    (h : step m (.copy s) = .ok m1) (hh : Hist m1 [m.objs.length] m2 D) :
    ∀ i, comp m2 m.objs.length i = comp m s i := by
  intro i
  have c := C27_copy hr h
  rw [← c.new i]
  refine (hist_comp (hr.step _ h).wf hh List.mem_cons_self (by rw [c.len]; omega) ?_ i).1
  intro b u hb hu
  rw [c.only u b hb hu]
  exact List.mem_cons_self

/-- Conversely, no history of calls on the copy and its aliases (and on objects constructed later) changes any of the
objects that existed before the copy was made. -/
theorem C27_source_independent [Zero K] {m m1 m2 : Mem K} {s : Nat} {D : List Nat} (hr : Reachable m)
    (h : step m (.copy s) = .ok m1) (hh : Hist m1 (List.range m.objs.length) m2 D) :
    ∀ u, u < m.objs.length → ∀ i, comp m2 u i = comp m u i := by
  intro u hu i
  have c := C27_copy hr h
  have h1 : comp m1 u i = comp m u i := by
    unfold comp
    rw [c.old u hu i]
    rcases hp : m.loc u i with _ | p
    · rfl
    · exact c.vals u i p hp
  rw [← h1]
  refine (hist_comp (hr.step _ h).wf hh (List.mem_range.mpr hu) (by rw [c.len]; omega) ?_ i).1
  intro b v hb hv
  rw [List.mem_range]
  by_contra hge
  have hv' : v = m.objs.length := by
    obtain ⟨o, off, ho, _⟩ := hv
    have := lt_of_getElem? ho
    rw [c.len] at this
    omega
  subst hv'
  have := c.only u b hv hb
  omega

/-! ## Arithmetic returns fresh vectors -/

theorem readObj_comp {m : Mem K} {s : Nat} {l : List K} (h : m.readObj s = .ok l) : comp m s = fun i => l[i]? := by
  simp only [Mem.readObj] at h
  obtain ⟨o, h1, h2⟩ := Res.bind_eq_ok.mp h
  obtain ⟨p, h3, h4⟩ := Res.bind_eq_ok.mp h2
  rw [Res.read_eq_ok] at h1
  obtain ⟨hl1, hl2⟩ := readRange_some h4
  funext i
  unfold comp
  rw [loc_obj h1 (ptr_eq h3)]
  by_cases hi : i < o.size
  · rw [if_pos hi, hl2 i hi]
    rfl
  · rw [if_neg hi, List.getElem?_eq_none (by omega)]
    rfl

/-- `a + b`, `a - b` (any componentwise `f`): a fresh vector; nothing that existed changes. -/
theorem C27_binop [Zero K] {m m' : Mem K} {f : K → K → K} {s r : Nat} (hr : Reachable m)
    (h : step m (.binop f s r) = .ok m') :
    Fresh m m' (fun i => (comp m s i).bind (fun x => (comp m r i).map (f x))) := by
  simp only [step, Mem.binop] at h
  obtain ⟨x, h1, h2⟩ := Res.bind_eq_ok.mp h
  obtain ⟨y, h3, h4⟩ := Res.bind_eq_ok.mp h2
  obtain ⟨_, _, h6⟩ := Res.bind_eq_ok.mp h4
  rw [Res.ok.injEq] at h6
  subst h6
  rw [readObj_comp h1, readObj_comp h3]
  have : (fun i : Nat => (x[i]?).bind (fun x => (y[i]?).map (f x))) = fun i => (List.zipWith f x y)[i]? := by
    funext i
    rw [List.getElem?_zipWith]
    cases x[i]? <;> cases y[i]? <;> rfl
  rw [this]
  exact fresh_newOwner hr.wf _

/-- `-a`, `a * k`, `a / k` (any componentwise `f`): a fresh vector; nothing that existed changes. -/
theorem C27_unop [Zero K] {m m' : Mem K} {f : K → K} {s : Nat} (hr : Reachable m)
    (h : step m (.unop f s) = .ok m') : Fresh m m' (fun i => (comp m s i).map f) := by
  simp only [step, Mem.unop] at h
  obtain ⟨x, h1, h2⟩ := Res.bind_eq_ok.mp h
  rw [Res.ok.injEq] at h2
  subst h2
  rw [readObj_comp h1]
  have : (fun i : Nat => (x[i]?).map f) = fun i => (x.map f)[i]? := by
    funext i
    rw [List.getElem?_map]
  rw [this]
  exact fresh_newOwner hr.wf _

/-! ## Views -/

/-- The new view has as component `i` the very cell of component `start + i` of the referenced vector, and nothing else
changes. (The range check of the code is done in `uint32`, so the sum must not wrap.) -/
theorem C27_view [Zero K] {m m' : Mem K} {r start size : Nat} (h : step m (.view r start size) = .ok m')
    (hw : start + size < 2 ^ 32) :
    m'.heap = m.heap ∧ (∀ u, u < m.objs.length → ∀ i, m'.loc u i = m.loc u i) ∧
    ∀ i, m'.loc m.objs.length i = if i < size then m.loc r (start + i) else none := by
  simp only [step, Mem.reinitView] at h
  obtain ⟨m1, h1, h2⟩ := Res.bind_eq_ok.mp h
  obtain ⟨o, h3, h4⟩ := Res.bind_eq_ok.mp h2
  obtain ⟨p, h5, h6⟩ := Res.bind_eq_ok.mp h4
  obtain ⟨_, h7, h8⟩ := Res.bind_eq_ok.mp h6
  rw [Res.ok.injEq] at h8
  subst h8
  rw [Res.read_eq_ok] at h3
  have hc := guard_eq h7
  rw [decide_eq_true_eq, Nat.mod_eq_of_lt hw] at hc
  obtain ⟨_, c2, _⟩ := clear_spec h1
  have hheap : m1.heap = m.heap := by
    have hl : (m.objs ++ [Obj.empty])[m.objs.length]? = some Obj.empty := by simp
    unfold Mem.clear at h1
    rw [show Res.read (⟨m.heap, m.objs ++ [Obj.empty]⟩ : Mem K).objs m.objs.length = .ok Obj.empty from
      Res.read_eq_ok.mpr hl, Res.ok_bind] at h1
    simp only [Obj.empty, Res.ok_bind, Res.ok.injEq] at h1
    rw [← h1]
  have hset : (m.objs ++ [Obj.empty]).set m.objs.length Obj.empty = m.objs ++ [Obj.empty] := by
    rw [List.set_append_right _ _ (Nat.le_refl _)]
    simp
  rw [show (⟨m.heap, m.objs ++ [Obj.empty]⟩ : Mem K).objs = m.objs ++ [Obj.empty] from rfl, hset] at c2
  have hr : m.objs[r]? = some o := by
    rw [c2] at h3
    rcases getElem?_push h3 with ⟨_, rfl⟩ | h3
    · simp [Obj.ptr, Obj.empty] at h5
    · exact h3
  refine ⟨hheap, ?_, ?_⟩
  · intro u hu i
    refine loc_congr ?_ i
    show (m1.objs.set _ _)[u]? = _
    rw [List.getElem?_set, if_neg (by omega), c2, List.getElem?_append_left hu]
  · intro i
    have hnew : (⟨m1.heap, m1.objs.set m.objs.length ⟨false, some (p.1, p.2 + start), size⟩⟩ : Mem K).objs[m.objs.length]? =
        some ⟨false, some (p.1, p.2 + start), size⟩ := by
      show (m1.objs.set _ _)[_]? = _
      rw [List.getElem?_set, if_pos rfl, if_pos (by rw [c2]; simp)]
    rw [loc_of_obj hnew, loc_obj hr (ptr_eq h5)]
    by_cases hi : i < size
    · rw [if_pos hi, if_pos hi, if_pos (by omega)]
      simp only [Nat.add_assoc]
    · rw [if_neg hi, if_neg hi]

theorem view_ref [Zero K] {m m' : Mem K} {r start size : Nat} (h : step m (.view r start size) = .ok m')
    (hw : start + size < 2 ^ 32) : ∃ o, m.objs[r]? = some o ∧ start + size ≤ o.size := by
  simp only [step, Mem.reinitView] at h
  obtain ⟨m1, h1, h2⟩ := Res.bind_eq_ok.mp h
  obtain ⟨o, h3, h4⟩ := Res.bind_eq_ok.mp h2
  obtain ⟨p, h5, h6⟩ := Res.bind_eq_ok.mp h4
  obtain ⟨_, h7, h8⟩ := Res.bind_eq_ok.mp h6
  rw [Res.read_eq_ok] at h3
  have hc := guard_eq h7
  rw [decide_eq_true_eq, Nat.mod_eq_of_lt hw] at hc
  obtain ⟨_, c2, _⟩ := clear_spec h1
  rw [c2] at h3
  rcases getElem?_upd h3 with ⟨_, rfl⟩ | ⟨_, h3⟩
  · simp [Obj.ptr, Obj.empty] at h5
  · rcases getElem?_push h3 with ⟨_, rfl⟩ | h3
    · simp [Obj.ptr, Obj.empty] at h5
    · exact ⟨o, h3, hc⟩

/-- Histories of completed calls that rebind none of the given objects. Writes into components, and assignments of
equal size, are allowed. -/
inductive Steady [Zero K] (ts : List Nat) : Mem K → Mem K → Prop
  | nil (m : Mem K) : Steady ts m m
  | snoc {m m1 m2 : Mem K} (op : Op K) : Steady ts m m1 → step m1 op = .ok m2 → (∀ t ∈ ts, ¬ Rebinds m1 t op) →
      Steady ts m m2

theorem steady_rec [Zero K] {ts : List Nat} {m m' : Mem K} (h : Steady ts m m') {t : Nat} (ht : t ∈ ts)
    (hlt : t < m.objs.length) : m'.objs[t]? = m.objs[t]? ∧ m.objs.length ≤ m'.objs.length := by
  induction h with
  | nil => exact ⟨rfl, Nat.le_refl _⟩
  | snoc op h1 hs hn ih =>
    have hr := step_records hs (t := t) (Nat.lt_of_lt_of_le hlt ih.2) (hn t ht)
    exact ⟨hr.1.trans ih.1, Nat.le_trans ih.2 hr.2⟩

theorem steady_reachable [Zero K] {ts : List Nat} {m m' : Mem K} (h : Steady ts m m') (hr : Reachable m) :
    Reachable m' := by
  induction h with
  | nil => exact hr
  | snoc op _ hs _ ih => exact ih.step op hs

/-- As long as neither the view nor the vector it refers to is rebound, whatever is written through whichever object,
component `i` of the view is the same cell as component `start + i` of the referenced vector: each reads what is
written through the other. If the referenced vector owns its memory, the cell is alive. -/
theorem C27_view_history [Zero K] {m m1 m2 : Mem K} {r start size : Nat} (hr : Reachable m)
    (h : step m (.view r start size) = .ok m1) (hw : start + size < 2 ^ 32)
    (hs : Steady [r, m.objs.length] m1 m2) :
    (∀ i, i < size → m2.loc m.objs.length i = m2.loc r (start + i)) ∧
    (∀ i, i < size → comp m2 m.objs.length i = comp m2 r (start + i)) ∧
    (∀ i, size ≤ i → comp m2 m.objs.length i = none) ∧
    (∀ o, m.objs[r]? = some o → o.owner = true → ∀ i, i < size → (comp m2 m.objs.length i).isSome) := by
  obtain ⟨v1, v2, v3⟩ := C27_view h hw
  obtain ⟨o, ho, hsz⟩ := view_ref h hw
  have hrlt := lt_of_getElem? ho
  have hlen : m.objs.length < m1.objs.length := by
    have := (reinitView_objs (u := 0) h).1
    rw [this]
    simp
  obtain ⟨e1, _⟩ := steady_rec hs (t := r) (by simp) (by omega)
  obtain ⟨e2, _⟩ := steady_rec hs (t := m.objs.length) (by simp) hlen
  have hr1 : m1.objs[r]? = m.objs[r]? :=
    (step_records h hrlt (by simp [Rebinds])).1
  have hl : ∀ i, m2.loc m.objs.length i = if i < size then m2.loc r (start + i) else none := by
    intro i
    rw [loc_congr e2, v3 i, loc_congr (e1.trans hr1)]
  refine ⟨fun i hi => by rw [hl, if_pos hi], fun i hi => ?_, fun i hi => ?_, ?_⟩
  · unfold comp
    rw [hl, if_pos hi]
  · unfold comp
    rw [hl, if_neg (by omega)]
    rfl
  · intro o' ho' how i hi
    rw [ho, Option.some.injEq] at ho'
    subst ho'
    have hwf2 := (steady_reachable hs (hr.step _ h)).wf
    obtain ⟨b, l, d1, d2, d3⟩ := hwf2.owned r o (by rw [e1, hr1, ho]) how
    unfold comp
    rw [hl, if_pos hi, loc_obj (by rw [e1, hr1, ho]) d1, if_pos (by omega)]
    simp only [Option.bind_some, Mem.val, d2, Option.join_some, Nat.zero_add]
    rw [List.getElem?_eq_getElem (by omega)]
    rfl

/-! ## Writes change exactly the components of the target -/

/-- `v[i] = x`. -/
theorem C27_set [Zero K] {m m' : Mem K} {t i : Nat} {x : K} (h : step m (.set t i x) = .ok m') :
    (∀ u j, m'.loc u j = m.loc u j) ∧ comp m' t i = some x ∧
    ∀ p, m.loc t i ≠ some p → m'.val p = m.val p := by
  simp only [step, Mem.set] at h
  obtain ⟨o, h1, h2⟩ := Res.bind_eq_ok.mp h
  obtain ⟨p, h3, h4⟩ := Res.bind_eq_ok.mp h2
  obtain ⟨_, h5, h6⟩ := Res.bind_eq_ok.mp h4
  rw [Res.read_eq_ok] at h1
  have hi := of_decide_eq_true (guard_eq h5)
  have w := (Mem.setCell_wrote h6).1
  have hl := loc_obj h1 (ptr_eq h3) i
  rw [if_pos hi] at hl
  have hloc : ∀ u j, m'.loc u j = m.loc u j := fun u j => loc_congr (by rw [w.objs]) j
  refine ⟨hloc, ?_, ?_⟩
  · unfold comp
    rw [hloc, hl]
    exact w.inside _ rfl
  · intro q hq
    refine w.outside q ?_
    rintro rfl
    exact hq hl

theorem inRange_loc {m : Mem K} {t : Nat} {o : Obj} {q : Nat × Nat} (h : m.objs[t]? = some o) (hd : o.data = some q)
    (p : Nat × Nat) : InRange q.1 q.2 o.size p ↔ ∃ i, m.loc t i = some p := by
  constructor
  · rintro ⟨h1, h2, h3⟩
    refine ⟨p.2 - q.2, ?_⟩
    rw [loc_obj h hd, if_pos (by omega), ← h1, Nat.add_sub_cancel' h2]
  · rintro ⟨i, hi⟩
    rw [loc_obj h hd] at hi
    split at hi
    · rw [Option.some.injEq] at hi
      subst hi
      refine ⟨rfl, ?_, ?_⟩ <;> simp only <;> omega
    · simp at hi

/-- `v.fill(x)`. -/
theorem C27_fill [Zero K] {m m' : Mem K} {t : Nat} {x : K} (h : step m (.fill t x) = .ok m') :
    (∀ u j, m'.loc u j = m.loc u j) ∧ (∀ i, comp m' t i = (m.loc t i).map (fun _ => x)) ∧
    ∀ p, (∀ i, m.loc t i ≠ some p) → m'.val p = m.val p := by
  simp only [step, Mem.fill] at h
  obtain ⟨o, h1, h2⟩ := Res.bind_eq_ok.mp h
  obtain ⟨q, h3, h4⟩ := Res.bind_eq_ok.mp h2
  rw [Res.read_eq_ok] at h1
  have w := writeRange_wrote h4 x
  rw [List.length_replicate] at w
  have hloc : ∀ u j, m'.loc u j = m.loc u j := fun u j => loc_congr (by rw [w.objs]) j
  have hin := inRange_loc h1 (ptr_eq h3)
  refine ⟨hloc, ?_, ?_⟩
  · intro i
    unfold comp
    rw [hloc]
    rcases hp : m.loc t i with _ | p
    · rfl
    · have := (hin p).mpr ⟨i, hp⟩
      show m'.val p = some x
      rw [w.inside p this]
      have h7 := this.2
      rw [List.getD_eq_getElem?_getD, List.getElem?_replicate, if_pos (by omega)]
      rfl
  · intro p hp
    exact w.outside p (fun hh => by obtain ⟨i, hi⟩ := (hin p).mp hh; exact hp i hi)

/-- Assignment of a vector of the same size: the target keeps its cells (a view stays a view of the same components),
which get the values of the source; no other cell changes. -/
theorem C27_assign [Zero K] {m m' : Mem K} {t s : Nat} {ot o : Obj} (h : step m (.assign t s) = .ok m')
    (ht : m.objs[t]? = some ot) (hs : m.objs[s]? = some o) (hd : o.data ≠ none) (hsz : ot.size = o.size) :
    (∀ u j, m'.loc u j = m.loc u j) ∧ (∀ i, comp m' t i = comp m s i) ∧
    ∀ p, (∀ i, m.loc t i ≠ some p) → m'.val p = m.val p := by
  simp only [step, Mem.assign] at h
  by_cases hts : t = s
  · rw [if_pos hts, Res.ok.injEq] at h
    subst h hts
    exact ⟨fun _ _ => rfl, fun _ => rfl, fun _ _ => rfl⟩
  rw [if_neg hts, show Res.read m.objs s = .ok o from Res.read_eq_ok.mpr hs, Res.ok_bind] at h
  obtain ⟨ow, d, n⟩ := o
  obtain ⟨ow', d', n'⟩ := ot
  simp only at hsz hd h
  subst hsz
  rcases d with _ | p
  · simp at hd
  simp only at h
  rw [show Res.read m.objs t = .ok _ from Res.read_eq_ok.mpr ht, Res.ok_bind] at h
  simp only [if_true] at h
  rcases d' with _ | q
  · simp only at h
    by_cases hz : n' = 0
    · rw [if_pos hz, Res.ok.injEq] at h
      subst h
      refine ⟨fun _ _ => rfl, ?_, fun _ _ => rfl⟩
      intro i
      unfold comp
      rw [loc_of_obj hs, if_neg (by omega)]
      unfold Mem.loc
      rw [ht]
      rfl
    · rw [if_neg hz] at h
      simp at h
  simp only at h
  obtain ⟨hdis, l, hl, w⟩ := memcpy_wrote h (0 : K)
  obtain ⟨hl1, hl2⟩ := readRange_some hl
  have hloc : ∀ u j, m'.loc u j = m.loc u j := fun u j => loc_congr (by rw [w.objs]) j
  have hin := inRange_loc (q := q) ht rfl
  refine ⟨hloc, ?_, ?_⟩
  · intro i
    unfold comp
    rw [hloc, loc_of_obj ht, loc_of_obj hs]
    by_cases hi : i < n'
    · rw [if_pos hi, if_pos hi]
      show m'.val (q.1, q.2 + i) = m.val (p.1, p.2 + i)
      rw [w.inside (q.1, q.2 + i) ⟨rfl, by simp, by simp only; omega⟩, ← hl2 i hi]
      simp only [Nat.add_sub_cancel_left]
      rw [List.getD_eq_getElem?_getD, List.getElem?_eq_getElem (by omega)]
      rfl
    · rw [if_neg hi, if_neg hi]
      rfl
  · intro p hp
    exact w.outside p (fun hh => by obtain ⟨i, hi⟩ := (hin p).mp hh; exact hp i hi)

/-- `t += s`, `t -= s` (any componentwise `f`): the target keeps its cells, which get the combined values; no other cell
changes. The operands may be the same vector or share memory, unless a component of the source is an earlier component
of the target (which the loop would already have changed). -/
theorem C27_opAssign [Zero K] {m m' : Mem K} {f : K → K → K} {t s : Nat} (h : step m (.opAssign f t s) = .ok m')
    (hov : ∀ i j p, j < i → m.loc s i = some p → m.loc t j ≠ some p) :
    (∀ u j, m'.loc u j = m.loc u j) ∧
    (∀ i, comp m' t i = (comp m t i).bind (fun x => (comp m s i).map (f x))) ∧
    ∀ p, (∀ i, m.loc t i ≠ some p) → m'.val p = m.val p := by
  simp only [step, Mem.opAssign] at h
  obtain ⟨ot, h1, h2⟩ := Res.bind_eq_ok.mp h
  obtain ⟨q, h3, h4⟩ := Res.bind_eq_ok.mp h2
  obtain ⟨o, h5, h6⟩ := Res.bind_eq_ok.mp h4
  obtain ⟨p, h7, h8⟩ := Res.bind_eq_ok.mp h6
  obtain ⟨_, h9, h10⟩ := Res.bind_eq_ok.mp h8
  rw [Res.read_eq_ok] at h1 h5
  have hsz : ot.size = o.size := of_decide_eq_true (guard_eq h9)
  have w : Mem.Wrote m m' (InRange q.1 q.2 ot.size)
      (fun a => f ((m.val (q.1, q.2 + (a.2 - q.2))).getD 0) ((m.val (p.1, p.2 + (a.2 - q.2))).getD 0)) ∧
      ∀ i, i < ot.size → (m.val (q.1, q.2 + i)).isSome ∧ (m.val (p.1, p.2 + i)).isSome := by
    have hq : ∀ (m1 : Mem K) (i : Nat), i < ot.size → Mem.Wrote m m1 (InRange q.1 q.2 i)
        (fun a => f ((m.val (q.1, q.2 + (a.2 - q.2))).getD 0) ((m.val (p.1, p.2 + (a.2 - q.2))).getD 0)) →
        m1.val (q.1, q.2 + i) = m.val (q.1, q.2 + i) ∧ m1.val (p.1, p.2 + i) = m.val (p.1, p.2 + i) := by
      intro m1 i hi w
      refine ⟨w.outside _ (by unfold InRange; simp only; omega), w.outside _ ?_⟩
      rintro ⟨g1, g2, g3⟩
      simp only at g1 g2 g3
      refine hov i (p.2 + i - q.2) (p.1, p.2 + i) (by omega) ?_ ?_
      · rw [loc_obj h5 (ptr_eq h7), if_pos (by omega)]
      · rw [loc_obj h1 (ptr_eq h3), if_pos (by omega), g1, Nat.add_sub_cancel' g2]
    have hbody : ∀ (m1 m2 : Mem K) (i : Nat), i < ot.size → Mem.Wrote m m1 (InRange q.1 q.2 i)
        (fun a => f ((m.val (q.1, q.2 + (a.2 - q.2))).getD 0) ((m.val (p.1, p.2 + (a.2 - q.2))).getD 0)) →
        (do
          let x ← m1.cell q.1 (q.2 + i)
          let y ← m1.cell p.1 (p.2 + i)
          m1.setCell q.1 (q.2 + i) (f x y)) = .ok m2 →
        Mem.Wrote m1 m2 (fun a => a = (q.1, q.2 + i))
          (fun _ => f ((m.val (q.1, q.2 + i)).getD 0) ((m.val (p.1, p.2 + i)).getD 0)) ∧
        (m.val (q.1, q.2 + i)).isSome ∧ (m.val (p.1, p.2 + i)).isSome := by
      intro m1 m2 i hi w hb
      obtain ⟨x, b1, b2⟩ := Res.bind_eq_ok.mp hb
      obtain ⟨y, b3, b4⟩ := Res.bind_eq_ok.mp b2
      rw [Mem.cell_eq] at b1 b3
      obtain ⟨e1, e2⟩ := hq m1 i hi w
      rw [e1] at b1
      rw [e2] at b3
      rw [b1, b3]
      exact ⟨(Mem.setCell_wrote b4).1, rfl, rfl⟩
    refine ⟨loop_wrote _ (fun i => f ((m.val (q.1, q.2 + i)).getD 0) ((m.val (p.1, p.2 + i)).getD 0)) ot.size m
      (fun m1 m2 i hi w hb => (hbody m1 m2 i hi w hb).1) ot.size (Nat.le_refl _) m' h10, ?_⟩
    intro i hi
    have hsplit : List.range ot.size = List.range i ++ i :: List.range' (i + 1) (ot.size - i - 1) := by
      obtain ⟨d, hd⟩ : ∃ d, ot.size = i + (d + 1) := ⟨ot.size - i - 1, by omega⟩
      rw [hd, show i + (d + 1) - i - 1 = d by omega, List.range_eq_range', List.range_eq_range', ← List.range'_succ,
        ← List.range'_append_1 (s := 0) (m := i), Nat.zero_add]
    rw [hsplit, Res.foldlM'_append] at h10
    obtain ⟨m1, g1, g2⟩ := Res.bind_eq_ok.mp h10
    rw [Res.foldlM'_cons] at g2
    obtain ⟨m2, g3, _⟩ := Res.bind_eq_ok.mp g2
    have w1 := loop_wrote _ (fun i => f ((m.val (q.1, q.2 + i)).getD 0) ((m.val (p.1, p.2 + i)).getD 0)) ot.size m
      (fun m1 m2 i hi w hb => (hbody m1 m2 i hi w hb).1) i (by omega) m1 g1
    exact (hbody m1 m2 i hi w1 g3).2
  obtain ⟨w, hsome⟩ := w
  have hloc : ∀ u j, m'.loc u j = m.loc u j := fun u j => loc_congr (by rw [w.objs]) j
  have hin := inRange_loc h1 (ptr_eq h3)
  refine ⟨hloc, ?_, ?_⟩
  · intro i
    unfold comp
    rw [hloc, loc_obj h1 (ptr_eq h3), loc_obj h5 (ptr_eq h7)]
    by_cases hi : i < ot.size
    · rw [if_pos hi, if_pos (by omega)]
      show m'.val (q.1, q.2 + i) = (m.val (q.1, q.2 + i)).bind (fun x => (m.val (p.1, p.2 + i)).map (f x))
      rw [w.inside (q.1, q.2 + i) ⟨rfl, by simp, by simp only; omega⟩]
      obtain ⟨e1, e2⟩ := hsome i hi
      obtain ⟨x, hx⟩ := Option.isSome_iff_exists.mp e1
      obtain ⟨y, hy⟩ := Option.isSome_iff_exists.mp e2
      simp only [Nat.add_sub_cancel_left, hx, hy]
      rfl
    · rw [if_neg hi]
      rfl
  · intro p hp
    exact w.outside p (fun hh => by obtain ⟨i, hi⟩ := (hin p).mp hh; exact hp i hi)

/-- Assigning a vector of another size to a view detaches the view: it becomes the owner of fresh memory and the
vector it referred to is left as it was. So "assigning to a view keeps it a view" needs equal sizes. -/
theorem C27_assign_other_size_detaches [Zero K] {m m' : Mem K} {t s : Nat} {ot o : Obj} (hr : Reachable m)
    (h : step m (.assign t s) = .ok m') (ht : m.objs[t]? = some ot) (hs : m.objs[s]? = some o) (hd : o.data ≠ none)
    (hsz : ot.size ≠ o.size) (hv : ot.owner = false) :
    (∀ u, u ≠ t → ∀ i, m'.loc u i = m.loc u i ∧ comp m' u i = comp m u i) ∧ (∀ i, comp m' t i = comp m s i) ∧
    ∀ u i j p, u ≠ t → m'.loc u i = some p → m'.loc t j ≠ some p := by
  have hwf := hr.wf
  have hts : t ≠ s := by
    rintro rfl
    rw [ht, Option.some.injEq] at hs
    subst hs
    exact hsz rfl
  simp only [step, Mem.assign] at h
  rw [if_neg hts, show Res.read m.objs s = .ok o from Res.read_eq_ok.mpr hs, Res.ok_bind] at h
  obtain ⟨ow, d, n⟩ := o
  obtain ⟨ow', d', n'⟩ := ot
  simp only at hsz hd h hv
  subst hv
  rcases d with _ | p
  · simp at hd
  simp only at h
  rw [show Res.read m.objs t = .ok _ from Res.read_eq_ok.mpr ht, Res.ok_bind] at h
  simp only [if_neg hsz] at h
  have hclear : m.clear t = .ok ⟨m.heap, m.objs.set t Obj.empty⟩ := by
    unfold Mem.clear
    rw [show Res.read m.objs t = .ok _ from Res.read_eq_ok.mpr ht, Res.ok_bind]
    rfl
  have htl := lt_of_getElem? ht
  have hobj : (Mem.allocFor ⟨m.heap, m.objs.set t Obj.empty⟩ t (List.replicate n (0 : K))).objs[t]? =
      some ⟨true, some (m.heap.length, 0), n⟩ := by
    simp [Mem.allocFor, htl]
  simp only [Mem.reinit, hclear, Res.ok_bind] at h
  rw [show Res.read (Mem.allocFor ⟨m.heap, m.objs.set t Obj.empty⟩ t (List.replicate n (0 : K))).objs t = .ok _ from
    Res.read_eq_ok.mpr hobj, Res.ok_bind] at h
  simp only [Obj.ptr, Res.ok_bind] at h
  obtain ⟨_, l, hl, w⟩ := memcpy_wrote h (0 : K)
  obtain ⟨hl1, hl2⟩ := readRange_some hl
  have hrec : ∀ u, u ≠ t → m'.objs[u]? = m.objs[u]? := by
    intro u hu
    rw [w.objs]
    simp [Mem.allocFor, Ne.symm hu]
  have hblk : ∀ b : Nat, b < m.heap.length → m'.heap[b]? = m.heap[b]? := by
    intro b hb
    rw [w.blocks b]
    · exact List.getElem?_append_left hb
    · rintro k ⟨e, _⟩
      simp only at e
      omega
  have hloc : ∀ u, u ≠ t → ∀ i, m'.loc u i = m.loc u i := fun u hu i => loc_congr (hrec u hu) i
  have htloc : ∀ i, m'.loc t i = if i < n then some (m.heap.length, 0 + i) else none := by
    intro i
    exact loc_of_obj (by rw [w.objs]; exact hobj) i
  refine ⟨fun u hu i => ⟨hloc u hu i, ?_⟩, ?_, ?_⟩
  · unfold comp
    rw [hloc u hu i]
    rcases hp : m.loc u i with _ | p
    · rfl
    · exact val_congr (hblk _ (hwf.range _ _ (loc_blk hp)))
  · intro i
    unfold comp
    rw [htloc, loc_of_obj hs]
    by_cases hi : i < n
    · rw [if_pos hi, if_pos hi]
      show m'.val _ = m.val _
      rw [w.inside (m.heap.length, 0 + i) ⟨rfl, Nat.zero_le _, by simp only; omega⟩]
      have h8 := hl2 i hi
      rw [val_congr (m := m) (List.getElem?_append_left (hwf.range s p.1 ⟨_, p.2, hs, rfl⟩))] at h8
      rw [← h8]
      simp only [Nat.zero_add, Nat.sub_zero]
      rw [List.getD_eq_getElem?_getD, List.getElem?_eq_getElem (by omega)]
      rfl
    · rw [if_neg hi, if_neg hi]
      rfl
  · intro u i j q hu hq hq'
    rw [hloc u hu] at hq
    have := hwf.range u q.1 (loc_blk hq)
    rw [htloc] at hq'
    split at hq'
    · rw [Option.some.injEq] at hq'
      rw [← hq'] at this
      simp at this
    · simp at hq'

/-! ## Calls that respect lifetimes complete -/

/-- The calls that respect lifetimes and bounds. -/
def Legal (m : Mem K) : Op K → Prop
  | .default => True
  | .new _ _ => True
  | .copy s => ∃ o, m.objs[s]? = some o ∧ (o.data = none ∨ ∃ b off, m.Live s b off o.size)
  | .move s => s < m.objs.length
  | .view r start size => ∃ b off n, m.Live r b off n ∧ start + size ≤ n ∧ n < 2 ^ 32
  | .reinit t _ _ => t < m.objs.length
  | .reinitView t r start size => t < m.objs.length ∧ t ≠ r ∧
      ∃ b off n, m.Live r b off n ∧ start + size ≤ n ∧ n < 2 ^ 32
  | .clear t => t < m.objs.length
  | .fill t _ => ∃ b off n, m.Live t b off n
  | .set t i _ => ∃ b off n, m.Live t b off n ∧ i < n
  | .assign t s => ∃ ot o, m.objs[t]? = some ot ∧ m.objs[s]? = some o ∧ (t = s ∨ o.data = none ∨
      ∃ b off, m.Live s b off o.size ∧
        ((∃ b' off', m.Live t b' off' o.size ∧ (b = b' → o.size = 0 ∨ off + o.size ≤ off' ∨ off' + o.size ≤ off)) ∨
         (ot.size ≠ o.size ∧ (ot.owner = true → ot.data ≠ some (b, 0)))))
  | .opAssign _ t s => ∃ b off b' off' n, m.Live t b off n ∧ m.Live s b' off' n
  | .binop _ s r => ∃ b off b' off' n, m.Live s b off n ∧ m.Live r b' off' n
  | .unop _ s => ∃ b off n, m.Live s b off n

theorem clear_ok {m : Mem K} (h : m.WF) {t : Nat} (ht : t < m.objs.length) : ∃ m', m.clear t = .ok m' := by
  unfold Mem.clear
  rw [show Res.read m.objs t = .ok m.objs[t] from Res.read_eq_ok.mpr (List.getElem?_eq_getElem ht), Res.ok_bind]
  rcases ho : m.objs[t] with ⟨ow, d, n⟩
  have ho' : m.objs[t]? = some ⟨ow, d, n⟩ := by rw [List.getElem?_eq_getElem ht, ho]
  cases ow with
  | false => exact ⟨_, rfl⟩
  | true =>
    obtain ⟨b, l, h1, h2, _⟩ := h.owned t _ ho' rfl
    simp only at h1
    subst h1
    refine ⟨⟨m.heap.set b none, m.objs.set t Obj.empty⟩, ?_⟩
    simp [h2]

theorem clear_heap_at {m m' : Mem K} {t b : Nat} {o : Obj} (hwf : m.WF) (h : m.clear t = .ok m')
    (ht : m.objs[t]? = some o) (hown : o.owner = true → o.data ≠ some (b, 0)) : m'.heap[b]? = m.heap[b]? := by
  unfold Mem.clear at h
  rw [show Res.read m.objs t = .ok o from Res.read_eq_ok.mpr ht, Res.ok_bind] at h
  obtain ⟨ow, d, n⟩ := o
  cases ow with
  | false =>
    simp only [Res.ok_bind, Res.ok.injEq] at h
    rw [← h]
  | true =>
    obtain ⟨b', l, h1, h2, _⟩ := hwf.owned t _ ht rfl
    simp only at h1 hown
    subst h1
    simp only [h2, Option.join_some, Option.isSome_some, and_self, if_true, Res.ok_bind, Res.ok.injEq] at h
    rw [← h]
    show (m.heap.set b' none)[b]? = _
    rw [List.getElem?_set, if_neg]
    rintro rfl
    exact hown trivial rfl

theorem live_readRange {m : Mem K} {t b off n : Nat} (h : m.Live t b off n) : ∃ l, m.readRange b off n = .ok l ∧ l.length = n := by
  obtain ⟨l, h1, h2⟩ := h.block
  exact ⟨_, readRange_ok h1 h2, (readRange_some (readRange_ok h1 h2)).1⟩

theorem live_readObj {m : Mem K} {t b off n : Nat} (h : m.Live t b off n) : ∃ l, m.readObj t = .ok l ∧ l.length = n := by
  obtain ⟨ow, ho⟩ := h.obj
  obtain ⟨l, hl, hn⟩ := live_readRange h
  refine ⟨l, ?_, hn⟩
  unfold Mem.readObj
  rw [show Res.read m.objs t = .ok _ from Res.read_eq_ok.mpr ho]
  simp only [Res.ok_bind, Obj.ptr, hl]

theorem cell_ok {m : Mem K} {b k : Nat} {l : List K} (h : m.heap[b]? = some (some l)) (hk : k < l.length) :
    m.cell b k = .ok l[k] := by
  rw [Mem.cell_eq]
  unfold Mem.val
  rw [h]
  exact List.getElem?_eq_getElem hk

/-- A call that respects lifetimes and bounds completes without undefined behaviour, a failed assertion or a fatal error
(and, by `step_wf`, leaves a well-formed state). -/
theorem C27_safe [Zero K] {m : Mem K} (hr : Reachable m) {op : Op K} (hl : Legal m op) :
    ∃ m', step m op = .ok m' ∧ Reachable m' := by
  suffices hh : ∃ m', step m op = .ok m' by
    obtain ⟨m', h⟩ := hh
    exact ⟨m', h, hr.step op h⟩
  have hwf := hr.wf
  have hread : ∀ {t : Nat} {o : Obj}, m.objs[t]? = some o → Res.read m.objs t = .ok o := fun h => Res.read_eq_ok.mpr h
  cases op with
  | default => exact ⟨_, rfl⟩
  | new n v => exact ⟨_, rfl⟩
  | copy s =>
    obtain ⟨o, ho, hd⟩ := hl
    simp only [step, Mem.copy, hread ho, Res.ok_bind]
    rcases hd with hd | ⟨b, off, hlive⟩
    · rw [hd]
      exact ⟨_, rfl⟩
    · obtain ⟨ow, ho'⟩ := hlive.obj
      obtain ⟨l, hl', _⟩ := live_readRange hlive
      rw [ho, Option.some.injEq] at ho'
      rw [ho'] at hl' ⊢
      simp only at hl' ⊢
      rw [hl']
      exact ⟨_, rfl⟩
  | move s =>
    have := List.getElem?_eq_getElem hl
    simp only [step, Mem.move, hread this, Res.ok_bind]
    exact ⟨_, rfl⟩
  | view r start size =>
    obtain ⟨b, off, n, hlive, hsz, hn⟩ := hl
    obtain ⟨ow, ho⟩ := hlive.obj
    have hlast : (m.objs ++ [Obj.empty])[m.objs.length]? = some Obj.empty := by simp
    obtain ⟨m1, h1⟩ := clear_ok (wf_push hwf) (t := m.objs.length) (by simp)
    obtain ⟨_, c2, _⟩ := clear_spec h1
    have hr1 : m1.objs[r]? = some ⟨ow, some (b, off), n⟩ := by
      have hrl := lt_of_getElem? ho
      rw [c2, List.getElem?_set, if_neg (by omega)]
      show (m.objs ++ [Obj.empty])[r]? = _
      rw [List.getElem?_append_left hrl, ho]
    simp only [step, Mem.reinitView, h1, Res.ok_bind,
      show Res.read m1.objs r = .ok _ from Res.read_eq_ok.mpr hr1, Obj.ptr, Res.guard,
      Nat.mod_eq_of_lt (show start + size < 2 ^ 32 by omega), hsz, decide_true, if_true]
    exact ⟨_, rfl⟩
  | reinit t n v =>
    obtain ⟨m1, h1⟩ := clear_ok hwf hl
    simp only [step, Mem.reinit, h1, Res.ok_bind]
    exact ⟨_, rfl⟩
  | reinitView t r start size =>
    obtain ⟨ht, hne, b, off, n, hlive, hsz, hn⟩ := hl
    obtain ⟨ow, ho⟩ := hlive.obj
    obtain ⟨m1, h1⟩ := clear_ok hwf ht
    obtain ⟨_, c2, _⟩ := clear_spec h1
    have hr1 : m1.objs[r]? = some ⟨ow, some (b, off), n⟩ := by
      rw [c2, List.getElem?_set, if_neg hne, ho]
    simp only [step, Mem.reinitView, h1, Res.ok_bind,
      show Res.read m1.objs r = .ok _ from Res.read_eq_ok.mpr hr1, Obj.ptr, Res.guard,
      Nat.mod_eq_of_lt (show start + size < 2 ^ 32 by omega), hsz, decide_true, if_true]
    exact ⟨_, rfl⟩
  | clear t => exact clear_ok hwf hl
  | fill t v =>
    obtain ⟨b, off, n, hlive⟩ := hl
    obtain ⟨ow, ho⟩ := hlive.obj
    simp only [step, Mem.fill, hread ho, Res.ok_bind, Obj.ptr]
    obtain ⟨m', h, _⟩ := writeRange_ok (m := m) (b := b) (off := off) (l := List.replicate n v)
      (by rw [List.length_replicate]; exact hlive.block) v
    exact ⟨m', h⟩
  | set t i v =>
    obtain ⟨b, off, n, hlive, hi⟩ := hl
    obtain ⟨ow, ho⟩ := hlive.obj
    obtain ⟨l, e1, e2⟩ := hlive.block
    simp only [step, Mem.set, hread ho, Res.ok_bind, Obj.ptr, Res.guard, hi, decide_true, if_true]
    exact ⟨_, Mem.setCell_ok e1 (by omega) v⟩
  | assign t s =>
    obtain ⟨ot, o, ht, hs, hcase⟩ := hl
    simp only [step, Mem.assign]
    by_cases hts : t = s
    · rw [if_pos hts]
      exact ⟨_, rfl⟩
    rw [if_neg hts, hread hs, Res.ok_bind]
    rcases hcase with h | hd | ⟨b, off, hlive, hc⟩
    · exact absurd h hts
    · rw [hd]
      exact clear_ok hwf (lt_of_getElem? ht)
    · obtain ⟨ow, ho⟩ := hlive.obj
      rw [hs, Option.some.injEq] at ho
      obtain ⟨ow1, d1, n⟩ := o
      simp only [Obj.mk.injEq] at ho
      obtain ⟨_, rfl, _⟩ := ho
      simp only at hlive hc ⊢
      rw [hread ht, Res.ok_bind]
      obtain ⟨l, hl1, hl2⟩ := live_readRange hlive
      rcases hc with ⟨b', off', hlt, hdis⟩ | ⟨hne, hown⟩
      · obtain ⟨ow', ho'⟩ := hlt.obj
        rw [ht, Option.some.injEq] at ho'
        subst ho'
        simp only [if_true]
        unfold Mem.memcpy
        rw [if_neg (by simp only; intro hh; have := hdis hh.2.1.symm; omega)]
        simp only [hl1, Res.ok_bind]
        obtain ⟨m', h', _⟩ := writeRange_ok (m := m) (b := b') (off := off') (l := l) (by rw [hl2]; exact hlt.block) (0 : K)
        exact ⟨m', h'⟩
      · rw [if_neg hne]
        have htl := lt_of_getElem? ht
        obtain ⟨m1, h1⟩ := clear_ok hwf htl
        obtain ⟨_, c2, c3, c4, _⟩ := clear_spec h1
        have hobj : (m1.allocFor t (List.replicate n (0 : K))).objs[t]? = some ⟨true, some (m1.heap.length, 0), n⟩ := by
          simp [Mem.allocFor, c2, htl]
        simp only [Mem.reinit, h1, Res.ok_bind]
        rw [show Res.read (m1.allocFor t (List.replicate n (0 : K))).objs t = .ok _ from Res.read_eq_ok.mpr hobj,
          Res.ok_bind]
        simp only [Obj.ptr, Res.ok_bind]
        obtain ⟨l0, e1, e2⟩ := hlive.block
        have hbl := lt_of_getElem? e1
        have hblock : (m1.allocFor t (List.replicate n (0 : K))).heap[b]? = some (some l0) := by
          show (m1.heap ++ [_])[b]? = _
          rw [List.getElem?_append_left (by omega), clear_heap_at hwf h1 ht hown]
          exact e1
        unfold Mem.memcpy
        rw [if_neg (by simp only; omega)]
        simp only [readRange_ok hblock e2, Res.ok_bind]
        obtain ⟨m', h', _⟩ := writeRange_ok (m := m1.allocFor t (List.replicate n (0 : K))) (b := m1.heap.length)
          (off := 0) (l := (l0.drop off).take n) ⟨List.replicate n 0, by simp [Mem.allocFor], by simp; omega⟩ (0 : K)
        exact ⟨m', h'⟩
  | opAssign f t s =>
    obtain ⟨b, off, b', off', n, hlt, hls⟩ := hl
    obtain ⟨ow, ho⟩ := hlt.obj
    obtain ⟨ow', ho'⟩ := hls.obj
    simp only [step, Mem.opAssign, hread ho, hread ho', Res.ok_bind, Obj.ptr, Res.guard, decide_true, if_true]
    obtain ⟨m', h1, _⟩ := Res.foldlM'_range (fun (m1 : Mem K) i => do
        let x ← m1.cell b (off + i)
        let y ← m1.cell b' (off' + i)
        m1.setCell b (off + i) (f x y)) (fun _ m1 => m1.Live t b off n ∧ m1.Live s b' off' n) n m ⟨hlt, hls⟩ (by
      intro i m1 hi ⟨g1, g2⟩
      obtain ⟨l, e1, e2⟩ := g1.block
      obtain ⟨l', e3, e4⟩ := g2.block
      obtain ⟨m2, h3⟩ : ∃ m2, m1.setCell b (off + i) (f (l[off + i]'(by omega)) (l'[off' + i]'(by omega))) = .ok m2 :=
        ⟨_, Mem.setCell_ok e1 (show off + i < l.length by omega) _⟩
      refine ⟨m2, ?_, ?_⟩
      · simp only [cell_ok e1 (show off + i < l.length by omega), cell_ok e3 (show off' + i < l'.length by omega),
          Res.ok_bind]
        exact h3
      · have w := (Mem.setCell_wrote h3).1
        constructor
        · exact ⟨by rw [w.objs]; exact g1.obj, by
            obtain ⟨l2, e5, e6⟩ := w.lens' b l e1
            exact ⟨l2, e5, by omega⟩⟩
        · exact ⟨by rw [w.objs]; exact g2.obj, by
            obtain ⟨l2, e5, e6⟩ := w.lens' b' l' e3
            exact ⟨l2, e5, by omega⟩⟩)
    exact ⟨m', h1⟩
  | binop f s r =>
    obtain ⟨b, off, b', off', n, hlt, hls⟩ := hl
    obtain ⟨x, h1, h2⟩ := live_readObj hlt
    obtain ⟨y, h3, h4⟩ := live_readObj hls
    simp only [step, Mem.binop, h1, h3, Res.ok_bind, Res.guard, h2, h4, decide_true, if_true]
    exact ⟨_, rfl⟩
  | unop f s =>
    obtain ⟨b, off, n, hlt⟩ := hl
    obtain ⟨x, h1, h2⟩ := live_readObj hlt
    simp only [step, Mem.unop, h1, Res.ok_bind]
    exact ⟨_, rfl⟩

/-! ## A concrete session -/

/-- A vector of four zeros, the view of its components 1 and 2, a vector of two sevens. -/
def demo : Mem Nat :=
  ⟨[some [0, 0, 0, 0], some [7, 7]], [⟨true, some (0, 0), 4⟩, ⟨false, some (0, 1), 2⟩, ⟨true, some (1, 0), 2⟩]⟩

theorem demo_reachable : Reachable demo :=
  (((Reachable.init.step (.new 4 0) (m' := ⟨[some [0, 0, 0, 0]], [⟨true, some (0, 0), 4⟩]⟩) rfl).step (.view 0 1 2)
    (m' := ⟨[some [0, 0, 0, 0]], [⟨true, some (0, 0), 4⟩, ⟨false, some (0, 1), 2⟩]⟩) rfl).step (.new 2 7) rfl)

/-- Assigning the sevens to the view changes components 1 and 2 of the vector (hypotheses of `C27_assign`). -/
example : step demo (.assign 1 2) = .ok ⟨[some [0, 7, 7, 0], some [7, 7]], demo.objs⟩ := rfl

/-- `C27_copy_independent` is not vacuous: copy the vector, then write through the view. -/
example : ∃ m1 m2 D, step demo (.copy 0) = .ok m1 ∧ Hist m1 [demo.objs.length] m2 D ∧ comp m2 0 1 = some 5 ∧
    comp m2 3 1 = some 0 :=
  ⟨_, _, _, rfl, Hist.snoc (.set 1 0 5) (.nil _ _) rfl (by simp [Op.target, demo]), rfl, rfl⟩

/-- `C27_reinit`, `C27_clear`, `C27_move`: the vector gets new memory, is emptied, and is taken over. -/
example : ∃ m', step demo (.reinit 0 1 9) = .ok m' ∧ comp m' 0 0 = some 9 ∧ comp m' 1 0 = none := ⟨_, rfl, rfl, rfl⟩
example : ∃ m', step demo (.clear 2) = .ok m' ∧ comp m' 2 0 = none ∧ comp m' 1 0 = some 0 := ⟨_, rfl, rfl, rfl⟩
example : ∃ m', step demo (.move 2) = .ok m' ∧ comp m' 3 0 = some 7 ∧ comp m' 2 0 = none := ⟨_, rfl, rfl, rfl⟩

/-- `C27_source_independent`: write through the copy. -/
example : ∃ m1 m2 D, step demo (.copy 0) = .ok m1 ∧ Hist m1 (List.range demo.objs.length) m2 D ∧
    comp m2 0 1 = some 0 ∧ comp m2 3 1 = some 5 :=
  ⟨_, _, _, rfl, Hist.snoc (.set 3 1 5) (.nil _ _) rfl (by simp [Op.target, demo]), rfl, rfl⟩

/-- `C27_view_history`: write through the vector and through the view. -/
example : ∃ m1 m2, step demo (.view 0 1 3) = .ok m1 ∧ Steady [0, demo.objs.length] m1 m2 ∧ comp m2 3 0 = some 8 ∧
    comp m2 0 3 = some 9 :=
  ⟨_, _, rfl, Steady.snoc (.set 3 2 9) (Steady.snoc (.set 0 1 8) (.nil _) rfl (by simp [Rebinds])) rfl
    (by simp [Rebinds]), rfl, rfl⟩

/-- `C27_opAssign`: the view is increased by the two sevens, then by itself. -/
example : step demo (.opAssign (· + ·) 1 2) = .ok ⟨[some [0, 7, 7, 0], some [7, 7]], demo.objs⟩ := rfl

example : step demo (.opAssign (· + ·) 2 2) = .ok ⟨[some [0, 0, 0, 0], some [14, 14]], demo.objs⟩ := rfl

example : step demo (.binop (· + ·) 1 2) = .ok ⟨[some [0, 0, 0, 0], some [7, 7], some [7, 7]],
    demo.objs ++ [⟨true, some (2, 0), 2⟩]⟩ := rfl

/-- `C27_assign_other_size_detaches`: the vector of four is assigned to the view of two components. -/
example : ∃ m', step demo (.assign 1 0) = .ok m' ∧ comp m' 1 3 = some 0 := ⟨_, rfl, rfl⟩

/-- Legal calls exist in the demonstration state. -/
example : Legal demo (.assign 1 2) :=
  ⟨_, _, rfl, rfl, Or.inr (Or.inr ⟨1, 0, ⟨⟨true, rfl⟩, [7, 7], rfl, by decide⟩,
    Or.inl ⟨0, 1, ⟨⟨false, rfl⟩, [0, 0, 0, 0], rfl, by decide⟩, fun h => by simp at h⟩⟩)⟩

/-- The range check of the view constructor is done modulo `2^32`: a view that starts before the vector is accepted, and
reading its first component is out of bounds. -/
theorem C27_view_wrap_violated : ∃ m' : Mem Nat, step demo (.view 0 (2 ^ 32 - 1) 2) = .ok m' ∧ m'.get 3 0 = .ub :=
  ⟨_, rfl, rfl⟩

end Nla3d.DVec
