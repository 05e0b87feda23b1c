import Verif.DVec.Props
import Verif.Solver.Model

/-!
# C131: the vectors of a solver are windows of the vectors of the storage

Source: `FESolver::initSolutionData`, src/lib/FESolver.cpp:175-218, on the memory of Verif.DVec. In the model of the solvers the vectors
`vecUc`, `vecUs`, … are segments of lists (`seg`, `put`); here it is proved that the memory behaves like that.
-/

namespace Nla3d.Views

open Nla3d.DVec

variable {K : Type}

/-! ## Model -/

/-- The five vectors of a solver for one vector of the storage, e.g. `vecU`, `vecUc`, `vecUs`, `vecUl`, `vecUsl`: numbers of the objects.
src/lib/FESolver.h:152-184 -/
structure Five where
  all : Nat
  c : Nat
  s : Nat
  l : Nat
  sl : Nat

/-- The vectors of the storage: `vecU`, `vecF`, `vecR`, `vecDU`, `vecDDU`. src/lib/FEStorage.h:343-360 -/
structure Store where
  U : Nat
  F : Nat
  R : Nat
  DU : Nat
  DDU : Nat

/-- The vectors of a solver. src/lib/FESolver.h:152-184 -/
structure Solv where
  U : Five
  F : Five
  R : Five
  DU : Five
  DDU : Five

/-- One call `t.reinit(r, start, size)`. src/lib/math/Vec.cpp:56-64 -/
structure Request where
  t : Nat
  r : Nat
  start : Nat
  size : Nat

/-- The five calls for one vector. The sums are made in `uint32`. src/lib/FESolver.cpp:184-188, 190-194, 196-200, 206-210, 212-216 -/
def five (r : Nat) (v : Five) (c s l : Nat) : List Request :=
  [⟨v.all, r, 0, (c + s + l) % 2 ^ 32⟩, ⟨v.c, r, 0, c⟩, ⟨v.s, r, c, s⟩, ⟨v.l, r, (c + s) % 2 ^ 32, l⟩, ⟨v.sl, r, c, (s + l) % 2 ^ 32⟩]

/-- The calls of `initSolutionData`, with the numbers of constrained and unknown DoFs and of constraint equations.
src/lib/FESolver.cpp:175-218 -/
def requests (st : Store) (sv : Solv) (transient : Bool) (c s l : Nat) : List Request :=
  five st.U sv.U c s l ++ (five st.F sv.F c s l ++ (five st.R sv.R c s l ++
    if transient then five st.DU sv.DU c s l ++ five st.DDU sv.DDU c s l else []))

/-- The part of `FESolver::initSolutionData` about vectors. src/lib/FESolver.cpp:175-218 -/
def initViews (m : Mem K) (st : Store) (sv : Solv) (transient : Bool) (c s l : Nat) : Res (Mem K) :=
  Res.foldlM' (fun m q => m.reinitView q.t q.r q.start q.size) m (requests st sv transient c s l)

/-! ## Specification -/

/-- Object `t` is the window of `size` components of object `r` from `start`: the same cells. -/
structure Window (m : Mem K) (t r start size : Nat) : Prop where
  inside : ∀ i, i < size → m.loc t i = m.loc r (start + i) ∧ (m.loc r (start + i)).isSome
  outside : ∀ i, size ≤ i → m.loc t i = none

/-- The five vectors are the whole, the constrained DoFs, the unknown ones, the multipliers, and the last two together. -/
structure Windows (m : Mem K) (r : Nat) (v : Five) (c s l : Nat) : Prop where
  whole : Window m v.all r 0 (c + s + l)
  known : Window m v.c r 0 c
  unknown : Window m v.s r c s
  multipliers : Window m v.l r (c + s) l
  solved : Window m v.sl r c (s + l)

/-- The objects of a solver that are set up. -/
def Five.list (v : Five) : List Nat := [v.all, v.c, v.s, v.l, v.sl]

/-- All of them. -/
def Solv.list (sv : Solv) (transient : Bool) : List Nat :=
  sv.U.list ++ (sv.F.list ++ (sv.R.list ++ if transient then sv.DU.list ++ sv.DDU.list else []))

/-- The vectors of the storage that are in use. -/
def Store.list (st : Store) (transient : Bool) : List Nat := [st.U, st.F, st.R] ++ if transient then [st.DU, st.DDU] else []

/-- The components of object `t` are the list. -/
def Holds (m : Mem K) (t : Nat) (x : List K) : Prop := ∀ i, comp m t i = x[i]?

/-! ## One call -/

theorem reinitView_eq {m : Mem K} {t r start size b off n : Nat} {o : Obj} {ow : Bool} (ht : m.objs[t]? = some o) (ho : o.owner = false)
    (hr : m.objs[r]? = some ⟨ow, some (b, off), n⟩) (hne : t ≠ r) (hs : start + size ≤ n) (hw : start + size < 2 ^ 32) :
    ∃ m', m.reinitView t r start size = .ok m' ∧ m'.heap = m.heap ∧ m'.objs[t]? = some ⟨false, some (b, off + start), size⟩ ∧
      ∀ u, u ≠ t → m'.objs[u]? = m.objs[u]? := by
  have htl := (List.getElem?_eq_some_iff.1 ht).1
  have hc : m.clear t = .ok ⟨m.heap, m.objs.set t Obj.empty⟩ := by
    unfold Mem.clear
    rw [Res.read_eq_ok.2 ht]
    simp only [Res.ok_bind, ho]
  unfold Mem.reinitView
  rw [hc]
  simp only [Res.ok_bind]
  have h1 : (m.objs.set t Obj.empty)[r]? = some ⟨ow, some (b, off), n⟩ := by rw [List.getElem?_set_ne hne]; exact hr
  rw [Res.read_eq_ok.2 h1]
  simp only [Res.ok_bind, Obj.ptr, Res.guard, Nat.mod_eq_of_lt hw, hs, decide_true, if_true]
  refine ⟨_, rfl, rfl, ?_, ?_⟩
  · show ((m.objs.set t Obj.empty).set t _)[t]? = _
    rw [List.getElem?_set_self (by simpa using htl)]
  · intro u hu
    show ((m.objs.set t Obj.empty).set t _)[u]? = _
    rw [List.getElem?_set_ne (Ne.symm hu), List.getElem?_set_ne (Ne.symm hu)]

/-- Any sequence of such calls. -/
theorem bind_all (own : List Nat) : ∀ (qs : List Request) (m : Mem K), (qs.map Request.t).Nodup →
    (∀ q ∈ qs, (∃ o, m.objs[q.t]? = some o ∧ o.owner = false) ∧ q.r ∈ own) →
    (∀ q ∈ qs, ∃ b off n, m.objs[q.r]? = some ⟨true, some (b, off), n⟩ ∧ q.start + q.size ≤ n ∧ q.start + q.size < 2 ^ 32) →
    (∀ q ∈ qs, q.t ∉ own) →
    ∃ m', Res.foldlM' (fun m q => m.reinitView q.t q.r q.start q.size) m qs = .ok m' ∧ m'.heap = m.heap ∧
      (∀ u, u ∉ qs.map Request.t → m'.objs[u]? = m.objs[u]?) ∧
      ∀ q ∈ qs, ∃ b off n, m.objs[q.r]? = some ⟨true, some (b, off), n⟩ ∧ q.start + q.size ≤ n ∧
        m'.objs[q.t]? = some ⟨false, some (b, off + q.start), q.size⟩
  | [], m, _, _, _, _ => ⟨m, rfl, rfl, fun _ _ => rfl, fun _ h => by cases h⟩
  | q :: qs, m, hn, h1, h2, h3 => by
    obtain ⟨⟨o, ho1, ho2⟩, hown⟩ := h1 q (by simp)
    obtain ⟨b, off, n, hr, hle, hlt⟩ := h2 q (by simp)
    have hne : q.t ≠ q.r := fun h => h3 q (by simp) (h ▸ hown)
    obtain ⟨m1, e1, e2, e3, e4⟩ := reinitView_eq ho1 ho2 hr hne hle hlt
    rw [List.map_cons, List.nodup_cons] at hn
    have ne_t : ∀ q' ∈ qs, q'.t ≠ q.t := fun q' hq' h => hn.1 (h ▸ List.mem_map_of_mem hq')
    have ne_r : ∀ q' ∈ qs, q'.r ≠ q.t := fun q' hq' h => h3 q (by simp) (h ▸ (h1 q' (by simp [hq'])).2)
    obtain ⟨m2, f1, f2, f3, f4⟩ := bind_all own qs m1 hn.2
      (fun q' hq' => ⟨by rw [e4 _ (ne_t q' hq')]; exact (h1 q' (by simp [hq'])).1, (h1 q' (by simp [hq'])).2⟩)
      (fun q' hq' => by rw [e4 _ (ne_r q' hq')]; exact h2 q' (by simp [hq']))
      (fun q' hq' => h3 q' (by simp [hq']))
    refine ⟨m2, ?_, f2.trans e2, ?_, ?_⟩
    · rw [Res.foldlM'_cons, e1, Res.ok_bind]; exact f1
    · intro u hu
      simp only [List.map_cons, List.mem_cons, not_or] at hu
      rw [f3 u hu.2, e4 u hu.1]
    · intro q' hq'
      rcases List.mem_cons.1 hq' with rfl | hq'
      · exact ⟨b, off, n, hr, hle, by rw [f3 _ hn.1]; exact e3⟩
      · obtain ⟨b', off', n', g1, g2, g3⟩ := f4 q' hq'
        exact ⟨b', off', n', by rw [← e4 _ (ne_r q' hq')]; exact g1, g2, g3⟩

theorem window_of {m m' : Mem K} {q : Request} {b off n : Nat} (hr : m'.objs[q.r]? = some ⟨true, some (b, off), n⟩)
    (hs : q.start + q.size ≤ n) (ht : m'.objs[q.t]? = some ⟨false, some (b, off + q.start), q.size⟩) : Window m' q.t q.r q.start q.size := by
  constructor
  · intro i hi
    rw [loc_of_obj ht, loc_of_obj hr, if_pos hi, if_pos (by omega)]
    simp only [Nat.add_assoc, Option.isSome_some, and_self]
  · intro i hi
    rw [loc_of_obj ht, if_neg (by omega)]

/-! ## C131 -/

/-- C131: if the vectors of the storage have as many components as there are DoFs and constraint equations, then `initSolutionData` of a
solver whose vectors do not own memory (a new one, or one that was used before, even if its vectors point to memory that is freed by
now) binds them as windows of those of the storage, and nothing else changes. -/
theorem C131_windows {m : Mem K} {st : Store} {sv : Solv} {transient : Bool} {c s l : Nat} (hsum : c + s + l < 2 ^ 32)
    (hst : ∀ r ∈ st.list transient, ∃ b off, m.objs[r]? = some ⟨true, some (b, off), c + s + l⟩)
    (hsv : ∀ t ∈ sv.list transient, ∃ o, m.objs[t]? = some o ∧ o.owner = false) (hnd : (sv.list transient).Nodup) :
    ∃ m', initViews m st sv transient c s l = .ok m' ∧ m'.heap = m.heap ∧
      (∀ u, u ∉ sv.list transient → m'.objs[u]? = m.objs[u]?) ∧
      Windows m' st.U sv.U c s l ∧ Windows m' st.F sv.F c s l ∧ Windows m' st.R sv.R c s l ∧
      (transient = true → Windows m' st.DU sv.DU c s l ∧ Windows m' st.DDU sv.DDU c s l) := by
  have hts : (requests st sv transient c s l).map Request.t = sv.list transient := by
    cases transient <;> rfl
  have hmem : ∀ q ∈ requests st sv transient c s l, q.t ∈ sv.list transient := fun q hq => hts ▸ List.mem_map_of_mem hq
  have m1 : (c + s + l) % 2 ^ 32 = c + s + l := Nat.mod_eq_of_lt hsum
  have m2 : (c + s) % 2 ^ 32 = c + s := Nat.mod_eq_of_lt (by omega)
  have m3 : (s + l) % 2 ^ 32 = s + l := Nat.mod_eq_of_lt (by omega)
  have hfive : ∀ (r : Nat) (v : Five), ∀ q ∈ five r v c s l, q.r = r ∧ q.start + q.size ≤ c + s + l := by
    intro r v q hq
    simp only [five, m1, m2, m3, List.mem_cons, List.not_mem_nil, or_false] at hq
    rcases hq with rfl | rfl | rfl | rfl | rfl <;> exact ⟨rfl, by simp only; omega⟩
  have hreq : ∀ q ∈ requests st sv transient c s l, q.r ∈ st.list transient ∧ q.start + q.size ≤ c + s + l := by
    intro q hq
    unfold requests at hq
    unfold Store.list
    cases transient <;> simp only [List.mem_append, if_true, if_false, List.not_mem_nil, or_false, Bool.false_eq_true] at hq
    · rcases hq with hq | hq | hq <;> (have := hfive _ _ q hq; simp [this.1, this.2])
    · rcases hq with hq | hq | hq | hq | hq <;> (have := hfive _ _ q hq; simp [this.1, this.2])
  have hown : ∀ q ∈ requests st sv transient c s l, q.t ∉ st.list transient := by
    intro q hq hin
    obtain ⟨o, h1, h2⟩ := hsv _ (hmem q hq)
    obtain ⟨b, off, h3⟩ := hst _ hin
    rw [h1] at h3
    rw [Option.some.inj h3] at h2
    cases h2
  obtain ⟨m', e1, e2, e3, e4⟩ := bind_all (st.list transient) (requests st sv transient c s l) m (by rw [hts]; exact hnd)
    (fun q hq => ⟨hsv _ (hmem q hq), (hreq q hq).1⟩)
    (fun q hq => by
      obtain ⟨b, off, h3⟩ := hst _ (hreq q hq).1
      exact ⟨b, off, _, h3, (hreq q hq).2, lt_of_le_of_lt (hreq q hq).2 hsum⟩)
    hown
  rw [hts] at e3
  have hwin : ∀ q ∈ requests st sv transient c s l, Window m' q.t q.r q.start q.size := by
    intro q hq
    obtain ⟨b, off, n, g1, g2, g3⟩ := e4 q hq
    refine window_of (m := m) ?_ g2 g3
    rw [e3]
    · exact g1
    · intro hin
      obtain ⟨o, h1, h2⟩ := hsv _ hin
      rw [g1] at h1
      rw [← Option.some.inj h1] at h2
      cases h2
  have hw5 : ∀ (r : Nat) (v : Five), (∀ q ∈ five r v c s l, q ∈ requests st sv transient c s l) → Windows m' r v c s l := by
    intro r v hin
    have h : ∀ q ∈ five r v c s l, Window m' q.t q.r q.start q.size := fun q hq => hwin q (hin q hq)
    simp only [five, m1, m2, m3, List.mem_cons, List.not_mem_nil, or_false, forall_eq_or_imp, forall_eq] at h
    exact ⟨h.1, h.2.1, h.2.2.1, h.2.2.2.1, h.2.2.2.2⟩
  refine ⟨m', e1, e2, e3, hw5 _ _ ?_, hw5 _ _ ?_, hw5 _ _ ?_, ?_⟩
  · intro q hq; simp only [requests, List.mem_append]; exact .inl hq
  · intro q hq; simp only [requests, List.mem_append]; exact .inr (.inl hq)
  · intro q hq; simp only [requests, List.mem_append]; exact .inr (.inr (.inl hq))
  · rintro rfl
    refine ⟨hw5 _ _ ?_, hw5 _ _ ?_⟩
    · intro q hq; simp only [requests, List.mem_append, if_true]; exact .inr (.inr (.inr (.inl hq)))
    · intro q hq; simp only [requests, List.mem_append, if_true]; exact .inr (.inr (.inr (.inr hq)))

/-- C131: a window stays one in every history of calls that binds neither of the two objects anew. -/
theorem C131_steady [Zero K] {m m2 : Mem K} {t r start size : Nat} (h : Window m t r start size) (ht : t < m.objs.length)
    (hr : r < m.objs.length) (hs : Steady [r, t] m m2) : Window m2 t r start size := by
  obtain ⟨e1, -⟩ := steady_rec hs (t := r) (by simp) hr
  obtain ⟨e2, -⟩ := steady_rec hs (t := t) (by simp) ht
  constructor
  · intro i hi
    rw [loc_congr e2, loc_congr e1]
    exact h.inside i hi
  · intro i hi
    rw [loc_congr e2]
    exact h.outside i hi

/-- C131, reading: what a window holds is the segment of what the vector of the storage holds. -/
theorem C131_read {m : Mem K} {t r start size : Nat} (h : Window m t r start size) {x : List K} (hx : Holds m r x) :
    Holds m t (Solver.seg x start size) := by
  intro i
  unfold Solver.seg
  rw [List.getElem?_take]
  by_cases hi : i < size
  · rw [if_pos hi, List.getElem?_drop, ← hx]
    unfold comp
    rw [(h.inside i hi).1]
  · rw [if_neg hi]
    unfold comp
    rw [h.outside i (by omega)]
    rfl

/-- C131, writing: if only the cells of a window change, the vector of the storage afterwards has the new components at the place of the
window and the old ones elsewhere. -/
theorem C131_write {m m2 : Mem K} {t r start size : Nat} (h : Window m t r start size) {x y : List K} (hx : Holds m r x)
    (hlen : start + size ≤ x.length) (hy : y.length = size) (hloc : ∀ u i, m2.loc u i = m.loc u i)
    (hval : ∀ p, (∀ i, m.loc t i ≠ some p) → m2.val p = m.val p) (hnew : Holds m2 t y) :
    Holds m2 r (Solver.put x start y) := by
  have inj : ∀ i j p, m.loc r i = some p → m.loc r j = some p → i = j := by
    intro i j p hi hj
    unfold Mem.loc at hi hj
    cases ho : m.objs[r]? with
    | none => rw [ho] at hi; cases hi
    | some o =>
      rw [ho] at hi hj
      simp only [Option.bind_some] at hi hj
      cases hd : o.data with
      | none => rw [hd] at hi; cases hi
      | some q =>
        rw [hd] at hi hj
        simp only [Option.bind_some] at hi hj
        split at hi
        · split at hj
          · have e := Option.some.inj (hi.trans hj.symm)
            have := congrArg Prod.snd e
            simp only at this
            omega
          · cases hj
        · cases hi
  intro i
  unfold Solver.put
  rcases Nat.lt_or_ge i start with hi | hi
  · rw [List.getElem?_append_left (by rw [List.length_take]; omega), List.getElem?_take, if_pos hi, ← hx]
    unfold comp
    rw [hloc]
    cases hp : m.loc r i with
    | none => rfl
    | some p =>
      simp only [Option.bind_some]
      refine hval p fun j hj => ?_
      rcases Nat.lt_or_ge j size with hjs | hjs
      · rw [(h.inside j hjs).1] at hj
        have := inj _ _ _ hp hj
        omega
      · rw [h.outside j hjs] at hj
        cases hj
  · have ht : (x.take start).length = start := by rw [List.length_take]; omega
    rw [List.getElem?_append_right (by rw [ht]; exact hi), ht]
    rcases Nat.lt_or_ge i (start + size) with hi2 | hi2
    · rw [List.getElem?_append_left (by omega), ← hnew]
      unfold comp
      rw [hloc, hloc, (h.inside (i - start) (by omega)).1, show start + (i - start) = i by omega]
    · rw [List.getElem?_append_right (by omega), List.getElem?_drop, hy, show start + size + (i - start - size) = i by omega, ← hx]
      unfold comp
      rw [hloc]
      cases hp : m.loc r i with
      | none => rfl
      | some p =>
        simp only [Option.bind_some]
        refine hval p fun j hj => ?_
        rcases Nat.lt_or_ge j size with hjs | hjs
        · rw [(h.inside j hjs).1] at hj
          have := inj _ _ _ hp hj
          omega
        · rw [h.outside j hjs] at hj
          cases hj

/-- C131: the parts do not overlap and leave nothing out: each component of the vector of the storage is seen through exactly one of the
windows of the constrained DoFs, of the unknown ones and of the multipliers. -/
theorem C131_parts {m : Mem K} {r : Nat} {v : Five} {c s l : Nat} (h : Windows m r v c s l) (i : Nat) (hi : i < c + s + l) :
    (i < c ∧ m.loc v.c i = m.loc r i ∧ (∀ j, m.loc v.s j ≠ m.loc r i) ∧ ∀ j, m.loc v.l j ≠ m.loc r i) ∨
    (c ≤ i ∧ i < c + s ∧ m.loc v.s (i - c) = m.loc r i ∧ (∀ j, m.loc v.c j ≠ m.loc r i) ∧ ∀ j, m.loc v.l j ≠ m.loc r i) ∨
    (c + s ≤ i ∧ m.loc v.l (i - c - s) = m.loc r i ∧ (∀ j, m.loc v.c j ≠ m.loc r i) ∧ ∀ j, m.loc v.s j ≠ m.loc r i) := by
  have some : (m.loc r i).isSome := by
    have := (h.whole.inside i hi).2
    rwa [Nat.zero_add] at this
  obtain ⟨p, hp⟩ := Option.isSome_iff_exists.1 some
  have inj : ∀ j, m.loc r j = m.loc r i → j = i := by
    intro j hj
    rw [hp] at hj
    unfold Mem.loc at hp hj
    cases ho : m.objs[r]? with
    | none => rw [ho] at hp; cases hp
    | some o =>
      rw [ho] at hp hj
      simp only [Option.bind_some] at hp hj
      cases hd : o.data with
      | none => rw [hd] at hp; cases hp
      | some q =>
        rw [hd] at hp hj
        simp only [Option.bind_some] at hp hj
        split at hp
        · split at hj
          · have e := Option.some.inj (hj.trans hp.symm)
            have := congrArg Prod.snd e
            simp only at this
            omega
          · cases hj
        · cases hp
  have off : ∀ {t start size : Nat}, Window m t r start size → (i < start ∨ start + size ≤ i) → ∀ j, m.loc t j ≠ m.loc r i := by
    intro t start size hw hout j hj
    rcases Nat.lt_or_ge j size with hjs | hjs
    · rw [(hw.inside j hjs).1] at hj
      have := inj _ hj
      omega
    · rw [hw.outside j hjs, hp] at hj
      cases hj
  rcases Nat.lt_or_ge i c with h1 | h1
  · refine .inl ⟨h1, ?_, off h.unknown (.inl h1), off h.multipliers (.inl (by omega))⟩
    rw [(h.known.inside i h1).1, Nat.zero_add]
  · rcases Nat.lt_or_ge i (c + s) with h2 | h2
    · refine .inr (.inl ⟨h1, h2, ?_, off h.known (.inr (by omega)), off h.multipliers (.inl h2)⟩)
      rw [(h.unknown.inside (i - c) (by omega)).1, show c + (i - c) = i by omega]
    · refine .inr (.inr ⟨h2, ?_, off h.known (.inr (by omega)), off h.unknown (.inr h2)⟩)
      rw [(h.multipliers.inside (i - c - s) (by omega)).1, show c + s + (i - c - s) = i by omega]

/-! ## Example -/

/-- Three vectors of the storage with one constrained DoF, two unknown ones and one equation, and fifteen vectors of a solver; `vecU` of the
solver points to memory that was freed. -/
def demoMem : Mem Nat :=
  ⟨[some [7, 8, 9, 10], some [0, 0, 0, 0], some [0, 0, 0, 0], none],
   [⟨true, some (0, 0), 4⟩, ⟨true, some (1, 0), 4⟩, ⟨true, some (2, 0), 4⟩, ⟨false, some (3, 1), 2⟩] ++ List.replicate 14 Obj.empty⟩

example : ∃ m', initViews demoMem ⟨0, 1, 2, 0, 0⟩ ⟨⟨3, 4, 5, 6, 7⟩, ⟨8, 9, 10, 11, 12⟩, ⟨13, 14, 15, 16, 17⟩, ⟨0, 0, 0, 0, 0⟩, ⟨0, 0, 0, 0, 0⟩⟩
    false 1 2 1 = .ok m' ∧ Holds m' 5 [8, 9] := by
  obtain ⟨m', h1, h2, h3, h4, -⟩ := C131_windows (m := demoMem) (st := ⟨0, 1, 2, 0, 0⟩)
    (sv := ⟨⟨3, 4, 5, 6, 7⟩, ⟨8, 9, 10, 11, 12⟩, ⟨13, 14, 15, 16, 17⟩, ⟨0, 0, 0, 0, 0⟩, ⟨0, 0, 0, 0, 0⟩⟩) (transient := false) (c := 1) (s := 2)
    (l := 1) (by decide)
    (by
      intro r hr
      simp only [Store.list, List.mem_append, List.mem_cons, List.not_mem_nil, or_false, Bool.false_eq_true, if_false] at hr
      rcases hr with rfl | rfl | rfl <;> exact ⟨_, _, rfl⟩)
    (by
      intro t ht
      simp only [Solv.list, Five.list, List.mem_append, List.mem_cons, List.not_mem_nil, or_false, Bool.false_eq_true, if_false] at ht
      rcases ht with (rfl | rfl | rfl | rfl | rfl) | (rfl | rfl | rfl | rfl | rfl) | rfl | rfl | rfl | rfl | rfl <;> exact ⟨_, rfl, rfl⟩)
    (by decide)
  refine ⟨m', h1, ?_⟩
  have hx : Holds m' 0 [7, 8, 9, 10] := by
    have ho : m'.objs[0]? = some ⟨true, some (0, 0), 4⟩ := by rw [h3 0 (by decide)]; rfl
    intro i
    unfold comp
    rw [loc_of_obj ho]
    by_cases hi : i < 4
    · rw [if_pos hi]
      simp only [Option.bind_some, Mem.val, h2, demoMem, List.getElem?_cons_zero, Option.join_some, Nat.zero_add]
    · rw [if_neg hi, List.getElem?_eq_none (by simp; omega)]
      rfl
  exact C131_read h4.unknown hx

end Nla3d.Views
