import Verif.Storage.Owner

/-!
# C129: elements own their node lists
-/

namespace Nla3d.Owner

/-! ## Specification: elements as values -/

/-- Number of nodes of a shape. -/
def Corners : Shape → Nat
  | .vertex => 1
  | .twinVertex => 2
  | .line => 2
  | .triangle => 3
  | .quad => 4
  | .tetra => 4
  | .hexahedron => 8
  | .wedge => 6

/-- Elements as values (`none`: destroyed) and the numbers asked for. -/
structure World where
  els : List (Option (Shape × List (Option Nat)))
  out : List Nat
  deriving DecidableEq

/-- No elements. -/
def World.empty : World := ⟨[], []⟩

/-- What a statement does to the values. An assignment is allowed if the right element has all numbers the left one needs. -/
def World.step (w : World) : Stmt → Res World
  | .make s => .ok { w with els := w.els ++ [some (s, List.replicate (Corners s) none)] }
  | .set d i x =>
    match w.els[d]? with
    | some (some (s, v)) => if i < Corners s then .ok { w with els := w.els.set d (some (s, v.set i (some x))) } else .assert
    | _ => .ub
  | .get d i =>
    match w.els[d]? with
    | some (some (s, v)) =>
      if i < Corners s then
        match v[i]? with
        | some (some x) => .ok { w with out := w.out ++ [x] }
        | _ => .ub
      else .assert
    | _ => .ub
  | .assign d e =>
    match w.els[d]?, w.els[e]? with
    | some (some (s, _)), some (some (s', v')) =>
      if Corners s ≤ Corners s' then .ok { w with els := w.els.set d (some (s, v'.take (Corners s))) } else .ub
    | _, _ => .ub
  | .copy d =>
    match w.els[d]? with
    | some (some x) => .ok { w with els := w.els ++ [some x] }
    | _ => .ub
  | .destroy d =>
    match w.els[d]? with
    | some (some _) => .ok { w with els := w.els.set d none }
    | _ => .ub

/-- A program over values. -/
def World.run (w : World) : List Stmt → Res World := Res.foldlM' World.step w

/-- Statements without copy constructor and without assignment of an element to itself. -/
def Safe : Stmt → Prop
  | .copy _ => False
  | .assign d e => d ≠ e
  | _ => True

/-! ## Simulation -/

/-- Memory holds the values, each in a block of its own, and no other block is alive. -/
structure Rel (m : Mem) (w : World) : Prop where
  len : m.objs.length = w.els.length
  alive : ∀ (d : Nat) (s : Shape) (v : List (Option Nat)), w.els[d]? = some (some (s, v)) →
    ∃ b, m.objs[d]? = some (some ⟨s, some b⟩) ∧ m.heap[b]? = some (some v) ∧ v.length = Corners s
  gone : ∀ d : Nat, w.els[d]? = some none → m.objs[d]? = some none
  apart : ∀ (d d' : Nat) (o o' : Obj) (b : Nat), m.objs[d]? = some (some o) → m.objs[d']? = some (some o') → o.nodes = some b →
    o'.nodes = some b → d = d'
  owned : ∀ (b : Nat) (l : List (Option Nat)), m.heap[b]? = some (some l) →
    ∃ (d : Nat) (o : Obj), m.objs[d]? = some (some o) ∧ o.nodes = some b
  out : m.out = w.out

/-- Both runs end in the same way. -/
def Sim (r : Res Mem) (s : Res World) : Prop :=
  match r, s with
  | .ok m, .ok w => Rel m w
  | .fatal, .fatal => True
  | .assert, .assert => True
  | .ub, .ub => True
  | _, _ => False

theorem corners (s : Shape) : s.nNodes = Corners s := by cases s <;> rfl

theorem Rel.obj {m : Mem} {w : World} (h : Rel m w) (d : Nat) :
    (∃ s v b, w.els[d]? = some (some (s, v)) ∧ m.objs[d]? = some (some ⟨s, some b⟩) ∧ m.obj d = .ok ⟨s, some b⟩ ∧
      m.block b = .ok v ∧ m.heap[b]? = some (some v) ∧ v.length = Corners s) ∨
    ((∀ x, w.els[d]? ≠ some (some x)) ∧ m.obj d = .ub) := by
  cases hd : w.els[d]? with
  | none =>
    right
    refine ⟨by simp, ?_⟩
    have : m.objs[d]? = none := by
      rw [List.getElem?_eq_none_iff] at hd ⊢
      rw [h.len]; exact hd
    simp [Mem.obj, this]
  | some e =>
    cases e with
    | none => exact .inr ⟨by simp, by simp [Mem.obj, h.gone d hd]⟩
    | some e =>
      obtain ⟨s, v⟩ := e
      obtain ⟨b, h1, h2, h3⟩ := h.alive d s v hd
      exact .inl ⟨s, v, b, rfl, h1, by simp [Mem.obj, h1], by simp [Mem.block, h2], h2, h3⟩

/-- Writing a list. -/
theorem Rel.write {m : Mem} {w : World} (h : Rel m w) {d b : Nat} {s : Shape} {v v' : List (Option Nat)}
    (ho : m.objs[d]? = some (some ⟨s, some b⟩)) (hb : m.heap[b]? = some (some v)) (hv : v'.length = Corners s)
    (hd : w.els[d]? = some (some (s, v))) :
    Rel { m with heap := m.heap.set b (some v') } { w with els := w.els.set d (some (s, v')) } := by
  have hbl := (List.getElem?_eq_some_iff.1 hb).1
  have hdl := (List.getElem?_eq_some_iff.1 hd).1
  constructor
  · simp [h.len]
  · intro e k' u he
    simp only at he ⊢
    by_cases hde : d = e
    · subst hde
      rw [List.getElem?_set_self hdl] at he
      have := Option.some.inj (Option.some.inj he)
      simp only [Prod.mk.injEq] at this
      obtain ⟨rfl, rfl⟩ := this
      exact ⟨b, ho, List.getElem?_set_self hbl, hv⟩
    · rw [List.getElem?_set_ne hde] at he
      obtain ⟨b', h1, h2, h3⟩ := h.alive e k' u he
      refine ⟨b', h1, ?_, h3⟩
      rw [List.getElem?_set_ne]
      · exact h2
      · rintro rfl
        exact hde (h.apart d e _ _ b ho h1 rfl rfl)
  · intro e he
    simp only at he ⊢
    by_cases hde : d = e
    · subst hde
      rw [List.getElem?_set_self hdl] at he
      cases he
    · rw [List.getElem?_set_ne hde] at he
      exact h.gone e he
  · exact h.apart
  · intro b' l hb'
    simp only at hb' ⊢
    by_cases e : b = b'
    · subst e
      exact ⟨d, _, ho, rfl⟩
    · rw [List.getElem?_set_ne e] at hb'
      exact h.owned b' l hb'
  · exact h.out

theorem Rel.make {m : Mem} {w : World} (h : Rel m w) (s : Shape) :
    Rel (m.make s) { w with els := w.els ++ [some (s, List.replicate (Corners s) none)] } := by
  unfold Mem.make
  have last : ∀ {α : Type} (l : List α) (x y : α) (d : Nat), (l ++ [x])[d]? = some y → l[d]? = some y ∨ d = l.length ∧ y = x := by
    intro α l x y d hd
    rcases Nat.lt_or_ge d l.length with hl | hl
    · rw [List.getElem?_append_left hl] at hd
      exact .inl hd
    · have hd' : d = l.length := by
        have := (List.getElem?_eq_some_iff.1 hd).1
        simp at this
        omega
      subst hd'
      rw [List.getElem?_concat_length] at hd
      exact .inr ⟨rfl, (Option.some.inj hd).symm⟩
  have keep : ∀ {α : Type} {l : List α} {x y : α} {d : Nat}, l[d]? = some y → (l ++ [x])[d]? = some y := by
    intro α l x y d hd
    rw [List.getElem?_append_left (List.getElem?_eq_some_iff.1 hd).1]
    exact hd
  constructor
  · simp [h.len]
  · intro d k v hd
    simp only at hd ⊢
    rcases last _ _ _ _ hd with hd | ⟨rfl, hx⟩
    · obtain ⟨b, h1, h2, h3⟩ := h.alive d k v hd
      exact ⟨b, keep h1, keep h2, h3⟩
    · have := Option.some.inj hx
      simp only [Prod.mk.injEq] at this
      obtain ⟨rfl, rfl⟩ := this
      refine ⟨m.heap.length, ?_, ?_, by simp⟩
      · rw [← h.len, List.getElem?_concat_length]
      · rw [List.getElem?_concat_length, corners]
  · intro d hd
    simp only at hd ⊢
    rcases last _ _ _ _ hd with hd | ⟨rfl, hx⟩
    · exact keep (h.gone d hd)
    · cases hx
  · have old : ∀ (d : Nat) (o : Obj) (b : Nat), m.objs[d]? = some (some o) → o.nodes = some b → b < m.heap.length := by
      intro d o b hd ho
      rcases h.obj d with ⟨k', v, b', -, h2, -, -, h3, -⟩ | ⟨-, h2⟩
      · rw [h2] at hd
        have := Option.some.inj (Option.some.inj hd)
        subst this
        have : b' = b := Option.some.inj ho
        subst this
        exact (List.getElem?_eq_some_iff.1 h3).1
      · simp [Mem.obj, hd] at h2
    intro d d' o o' b hd hd' ho ho'
    simp only at hd hd'
    rcases last _ _ _ _ hd with h1 | ⟨h1, h2⟩ <;> rcases last _ _ _ _ hd' with h1' | ⟨h1', h2'⟩
    · exact h.apart d d' o o' b h1 h1' ho ho'
    · have := old d o b h1 ho
      rw [Option.some.inj h2'] at ho'
      have : m.heap.length = b := Option.some.inj ho'
      omega
    · have := old d' o' b h1' ho'
      rw [Option.some.inj h2] at ho
      have : m.heap.length = b := Option.some.inj ho
      omega
    · rw [h1, h1']
  · intro b l hb
    simp only at hb ⊢
    rcases last _ _ _ _ hb with hb | ⟨rfl, -⟩
    · obtain ⟨d, o, h1, h2⟩ := h.owned b l hb
      exact ⟨d, o, keep h1, h2⟩
    · exact ⟨m.objs.length, _, List.getElem?_concat_length, rfl⟩
  · exact h.out

theorem step_sim {m : Mem} {w : World} (h : Rel m w) (s : Stmt) (hs : Safe s) : Sim (m.step s) (w.step s) := by
  cases s with
  | make s => exact h.make s
  | set d i x =>
    rcases h.obj d with ⟨s, v, b, h1, h2, h3, h4, h5, h6⟩ | ⟨h1, h2⟩
    · simp only [Mem.step, Mem.set, World.step, h1, h3, Res.ok_bind, corners]
      by_cases hi : i < Corners s
      · rw [if_pos hi, if_pos hi, h4]
        simp only [Res.ok_bind, Res.write, h6, if_pos hi]
        exact h.write h2 h5 (by simp [h6]) h1
      · rw [if_neg hi, if_neg hi]
        trivial
    · simp only [Mem.step, Mem.set, World.step, h2]
      split
      · next hh => exact absurd hh (h1 _)
      · trivial
  | get d i =>
    rcases h.obj d with ⟨s, v, b, h1, h2, h3, h4, h5, h6⟩ | ⟨h1, h2⟩
    · simp only [Mem.step, Mem.get, World.step, h1, h3, Res.ok_bind, corners]
      by_cases hi : i < Corners s
      · rw [if_pos hi, if_pos hi, h4]
        have hiv : i < v.length := by rw [h6]; exact hi
        simp only [Res.ok_bind, Res.read_of_lt hiv, List.getElem?_eq_getElem hiv]
        cases v[i] with
        | none => trivial
        | some y => exact ⟨h.len, h.alive, h.gone, h.apart, h.owned, by simp [h.out]⟩
      · rw [if_neg hi, if_neg hi]
        trivial
    · simp only [Mem.step, Mem.get, World.step, h2]
      split
      · next hh => exact absurd hh (h1 _)
      · trivial
  | assign d e =>
    have hne : d ≠ e := hs
    rcases h.obj d with ⟨s, v, b, h1, h2, h3, h4, h5, h6⟩ | ⟨h1, h2⟩
    · rcases h.obj e with ⟨s', v', b', g1, g2, g3, g4, g5, g6⟩ | ⟨g1, g2⟩
      · have hb : b ≠ b' := by
          rintro rfl
          exact hne (h.apart d e _ _ b h2 g2 rfl rfl)
        simp only [Mem.step, Mem.assign, World.step, h1, h3, g1, g3, Res.ok_bind, corners, h4, g4, if_neg hb, h6, g6, Nat.le_refl, true_and]
        by_cases hc : Corners s ≤ Corners s'
        · rw [if_pos hc, if_pos hc]
          have hd : v.drop (Corners s) = [] := by rw [← h6]; exact List.drop_length
          rw [hd, List.append_nil]
          exact h.write h2 h5 (by simp [g6, hc]) h1
        · rw [if_neg hc, if_neg hc]
          trivial
      · simp only [Mem.step, Mem.assign, World.step, h3, g2, Res.ok_bind]
        split
        · next hh => exact absurd hh (g1 _)
        · trivial
    · simp only [Mem.step, Mem.assign, World.step, h2]
      split
      · next hh _ => exact absurd hh (h1 _)
      · trivial
  | copy d => exact hs.elim
  | destroy d =>
    rcases h.obj d with ⟨s, v, b, h1, h2, h3, h4, h5, h6⟩ | ⟨h1, h2⟩
    · simp only [Mem.step, Mem.destroy, World.step, h1, h3, h4, Res.ok_bind]
      have hbl := (List.getElem?_eq_some_iff.1 h5).1
      have hdl := (List.getElem?_eq_some_iff.1 h2).1
      have hdw := (List.getElem?_eq_some_iff.1 h1).1
      show Rel _ _
      constructor
      · simp [h.len]
      · intro e k' u he
        simp only at he ⊢
        by_cases hde : d = e
        · subst hde
          rw [List.getElem?_set_self hdw] at he
          cases he
        · rw [List.getElem?_set_ne hde] at he
          obtain ⟨b', g1, g2, g3⟩ := h.alive e k' u he
          refine ⟨b', by rw [List.getElem?_set_ne hde]; exact g1, ?_, g3⟩
          rw [List.getElem?_set_ne]
          · exact g2
          · rintro rfl
            exact hde (h.apart d e _ _ b h2 g1 rfl rfl)
      · intro e he
        simp only at he ⊢
        by_cases hde : d = e
        · subst hde
          exact List.getElem?_set_self hdl
        · rw [List.getElem?_set_ne hde] at he ⊢
          exact h.gone e he
      · intro e e' o o' b' he he' ho ho'
        simp only at he he'
        have ne : ∀ (e : Nat) (o : Obj), (m.objs.set d none)[e]? = some (some o) → m.objs[e]? = some (some o) := by
          intro e o he
          by_cases hde : d = e
          · subst hde
            rw [List.getElem?_set_self hdl] at he
            cases he
          · rwa [List.getElem?_set_ne hde] at he
        exact h.apart e e' o o' b' (ne e o he) (ne e' o' he') ho ho'
      · intro b' l hb'
        simp only at hb' ⊢
        by_cases e : b = b'
        · subst e
          rw [List.getElem?_set_self hbl] at hb'
          cases hb'
        · rw [List.getElem?_set_ne e] at hb'
          obtain ⟨d', o, g1, g2⟩ := h.owned b' l hb'
          refine ⟨d', o, ?_, g2⟩
          rw [List.getElem?_set_ne]
          · exact g1
          · rintro rfl
            rw [h2] at g1
            have := Option.some.inj (Option.some.inj g1)
            subst this
            exact e (Option.some.inj g2)
      · exact h.out
    · simp only [Mem.step, Mem.destroy, World.step, h2]
      trivial

theorem run_sim : ∀ (p : List Stmt) {m : Mem} {w : World}, Rel m w → (∀ s ∈ p, Safe s) → Sim (run m p) (w.run p)
  | [], _, _, h, _ => h
  | s :: p, m, w, h, hs => by
    have h1 := step_sim h s (hs s (by simp))
    unfold run World.run at *
    rw [Res.foldlM'_cons, Res.foldlM'_cons]
    cases hm : m.step s with
    | ok m' =>
      cases hw : w.step s with
      | ok w' =>
        rw [hm, hw] at h1
        have := run_sim p (m := m') (w := w') h1 (fun s' h' => hs s' (by simp [h']))
        unfold run World.run at this
        exact this
      | _ => rw [hm, hw] at h1; exact h1.elim
    | _ =>
      cases hw : w.step s with
      | ok w' => rw [hm, hw] at h1; exact h1.elim
      | _ =>
        rw [hm, hw] at h1
        first | exact trivial | exact h1.elim

/-- Nothing was made yet. -/
theorem rel_empty : Rel Mem.empty World.empty := by
  constructor <;> simp [Mem.empty, World.empty]

/-! ## C129 -/

/-- C129 for programs without copy constructor and self-assignment: they end like the same program over values, with the same answers;
at the end each element left holds its numbers in an array of its own, and no other array is left. -/
theorem C129_values_partial (p : List Stmt) (hp : ∀ s ∈ p, Safe s) :
    (∀ m, run Mem.empty p = .ok m → ∃ w, World.run World.empty p = .ok w ∧ m.out = w.out ∧
      (∀ (d : Nat) (s : Shape) (v : List (Option Nat)), w.els[d]? = some (some (s, v)) → ∃ b, m.objs[d]? = some (some ⟨s, some b⟩) ∧ m.heap[b]? = some (some v)) ∧
      ((∀ (d : Nat) x, w.els[d]? ≠ some (some x)) → ∀ (b : Nat) l, m.heap[b]? ≠ some (some l))) ∧
    (∀ w, World.run World.empty p = .ok w → ∃ m, run Mem.empty p = .ok m) ∧
    (run Mem.empty p = .assert ↔ World.run World.empty p = .assert) ∧
    (run Mem.empty p = .ub ↔ World.run World.empty p = .ub) := by
  have h := run_sim p rel_empty hp
  cases hm : run Mem.empty p with
  | ok m =>
    cases hw : World.run World.empty p with
    | ok w =>
      rw [hm, hw] at h
      have h : Rel m w := h
      refine ⟨fun m' e => ?_, fun w' _ => ⟨m, rfl⟩, by simp, by simp⟩
      obtain rfl := Res.ok.inj e
      refine ⟨w, rfl, h.out, fun d s v hd => ?_, fun hn b l hb => ?_⟩
      · obtain ⟨b, h1, h2, -⟩ := h.alive d s v hd
        exact ⟨b, h1, h2⟩
      · obtain ⟨d, o, h1, -⟩ := h.owned b l hb
        rcases h.obj d with ⟨s, v, b, g1, -⟩ | ⟨-, g2⟩
        · exact hn d _ g1
        · simp [Mem.obj, h1] at g2
    | _ => rw [hm, hw] at h; exact h.elim
  | _ =>
    cases hw : World.run World.empty p with
    | ok w => rw [hm, hw] at h; exact h.elim
    | _ =>
      rw [hm, hw] at h
      first | exact h.elim | exact ⟨by simp, by simp, by simp, by simp⟩

/-- C129 is false with the copy constructor, after every program: a copy shares the array, so that a number set in the copy is seen in
the original, and destroying both is undefined. -/
theorem C129_copy_violated {p : List Stmt} (hp : ∀ s ∈ p, Safe s) {w : World} (hw : World.run World.empty p = .ok w) {d : Nat} {s : Shape}
    {v : List (Option Nat)} (hd : w.els[d]? = some (some (s, v))) :
    (∃ w', World.run World.empty (p ++ [.copy d, .destroy d, .destroy w.els.length]) = .ok w') ∧
    run Mem.empty (p ++ [.copy d, .destroy d, .destroy w.els.length]) = .ub ∧
    ∀ x, ∃ m, run Mem.empty (p ++ [.copy d, .set w.els.length 0 x, .get d 0]) = .ok m ∧ m.out = w.out ++ [x] := by
  obtain ⟨m, hm⟩ := (C129_values_partial p hp).2.1 w hw
  have h := run_sim p rel_empty hp
  rw [hm, hw] at h
  have h : Rel m w := h
  obtain ⟨b, h1, h2, h3⟩ := h.alive d s v hd
  have hdl := (List.getElem?_eq_some_iff.1 h1).1
  have hbl := (List.getElem?_eq_some_iff.1 h2).1
  have hwl := (List.getElem?_eq_some_iff.1 hd).1
  have hpos : 0 < Corners s := by cases s <;> decide
  have hv : 0 < v.length := by rw [h3]; exact hpos
  unfold run at hm
  unfold World.run at hw
  refine ⟨?_, ?_, fun x => ?_⟩
  · unfold World.run
    rw [Res.foldlM'_append, hw]
    simp only [Res.ok_bind, Res.foldlM'_cons, Res.foldlM'_nil, World.step, hd]
    rw [List.getElem?_append_left hwl, hd]
    simp only [Res.ok_bind]
    rw [List.getElem?_set_ne (by omega), List.getElem?_concat_length]
    exact ⟨_, rfl⟩
  · unfold run
    rw [Res.foldlM'_append, hm]
    simp only [Res.ok_bind, Res.foldlM'_cons, Res.foldlM'_nil, Mem.step, Mem.copy, Mem.destroy, Mem.obj, h1]
    rw [List.getElem?_append_left hdl, h1]
    simp only [Res.ok_bind, Mem.block, h2, ← h.len]
    rw [List.getElem?_set_ne (by omega), List.getElem?_concat_length]
    simp only [Res.ok_bind]
    rw [List.getElem?_set_self hbl]
    rfl
  · unfold run
    rw [Res.foldlM'_append, hm]
    simp only [Res.ok_bind, Res.foldlM'_cons, Res.foldlM'_nil, Mem.step, Mem.copy, Mem.set, Mem.get, Mem.obj, h1, ← h.len]
    rw [List.getElem?_concat_length]
    simp only [Res.ok_bind, corners, hpos, if_true, Mem.block, h2, Res.write, hv]
    rw [List.getElem?_append_left hdl, h1]
    simp only [Res.ok_bind, corners, hpos, if_true]
    rw [List.getElem?_set_self hbl]
    have hr : Res.read (v.set 0 (some x)) 0 = .ok (some x) := by
      rw [Res.read_eq_ok, List.getElem?_set_self hv]
    simp only [Res.ok_bind, hr]
    exact ⟨_, rfl, by rw [h.out]⟩

/-- C129 is false for `createElements(n, example)` with an object as example, after every program: the parameter takes the array of the
example with it, so that afterwards the example cannot be asked, set or destroyed. -/
theorem C129_example_violated {p : List Stmt} (hp : ∀ s ∈ p, Safe s) {w : World} (hw : World.run World.empty p = .ok w) {d : Nat} {s : Shape}
    {v : List (Option Nat)} (hd : w.els[d]? = some (some (s, v))) {m : Mem} (hm : run Mem.empty p = .ok m) (n : Nat) :
    ∃ m', m.createLike d n = .ok m' ∧ m'.step (.destroy d) = .ub ∧ ∀ i, i < Corners s → m'.step (.get d i) = .ub := by
  have h := run_sim p rel_empty hp
  rw [hm, hw] at h
  have h : Rel m w := h
  obtain ⟨b, h1, h2, h3⟩ := h.alive d s v hd
  have hdl := (List.getElem?_eq_some_iff.1 h1).1
  have hbl := (List.getElem?_eq_some_iff.1 h2).1
  have key : ∀ (n : Nat) (m1 : Mem), m1.objs[d]? = some (some ⟨s, some b⟩) → m1.objs[m.objs.length]? = some (some ⟨s, some b⟩) →
      m1.heap[b]? = some (some v) →
      let m2 := (List.range n).foldl (fun m _ => m.make s) m1
      m2.objs[d]? = some (some ⟨s, some b⟩) ∧ m2.objs[m.objs.length]? = some (some ⟨s, some b⟩) ∧ m2.heap[b]? = some (some v) := by
    intro n
    induction n with
    | zero => intro m1 a1 a2 a3; exact ⟨a1, a2, a3⟩
    | succ n ih =>
      intro m1 a1 a2 a3
      have := ih m1 a1 a2 a3
      simp only [List.range_succ, List.foldl_append, List.foldl_cons, List.foldl_nil] at this ⊢
      obtain ⟨c1, c2, c3⟩ := this
      generalize (List.range n).foldl (fun (m : Mem) _ => m.make s) m1 = m3 at c1 c2 c3 ⊢
      unfold Mem.make
      refine ⟨?_, ?_, ?_⟩
      · rw [List.getElem?_append_left (List.getElem?_eq_some_iff.1 c1).1]; exact c1
      · rw [List.getElem?_append_left (List.getElem?_eq_some_iff.1 c2).1]; exact c2
      · rw [List.getElem?_append_left (List.getElem?_eq_some_iff.1 c3).1]; exact c3
  have hk := key n { m with objs := m.objs ++ [some ⟨s, some b⟩] } (by rw [List.getElem?_append_left hdl]; exact h1)
    List.getElem?_concat_length h2
  simp only at hk
  unfold Mem.createLike Mem.copy
  simp only [Mem.obj, h1, Res.ok_bind]
  generalize (List.range n).foldl (fun (m : Mem) _ => m.make s) ({ m with objs := m.objs ++ [some ⟨s, some b⟩] } : Mem) = m2 at hk ⊢
  obtain ⟨k1, k2, k3⟩ := hk
  have kb := (List.getElem?_eq_some_iff.1 k3).1
  refine ⟨{ m2 with heap := m2.heap.set b none, objs := m2.objs.set m.objs.length none }, ?_, ?_, fun i hi => ?_⟩
  · simp only [Mem.destroy, Mem.obj, k2, Mem.block, k3, Res.ok_bind]
  · simp only [Mem.step, Mem.destroy, Mem.obj, Mem.block]
    rw [List.getElem?_set_ne (by omega), k1]
    simp only [Res.ok_bind]
    rw [List.getElem?_set_self kb]
    rfl
  · simp only [Mem.step, Mem.get, Mem.obj, Mem.block]
    rw [List.getElem?_set_ne (by omega), k1]
    simp only [Res.ok_bind, corners, if_pos hi]
    rw [List.getElem?_set_self kb]
    rfl

/-- C129 is false for the assignment of an element to itself: `memcpy` on one range is undefined. -/
theorem C129_self_violated {p : List Stmt} (hp : ∀ s ∈ p, Safe s) {w : World} (hw : World.run World.empty p = .ok w) {d : Nat} {s : Shape}
    {v : List (Option Nat)} (hd : w.els[d]? = some (some (s, v))) :
    World.run World.empty (p ++ [.assign d d]) = .ok w ∧ run Mem.empty (p ++ [.assign d d]) = .ub := by
  obtain ⟨m, hm⟩ := (C129_values_partial p hp).2.1 w hw
  have h := run_sim p rel_empty hp
  rw [hm, hw] at h
  have h : Rel m w := h
  obtain ⟨b, h1, h2, h3⟩ := h.alive d s v hd
  unfold run at hm
  unfold World.run at hw
  constructor
  · unfold World.run
    rw [Res.foldlM'_append, hw]
    simp only [Res.ok_bind, Res.foldlM'_cons, Res.foldlM'_nil, World.step, hd, Nat.le_refl, if_true]
    have e : w.els.set d (some (s, v.take (Corners s))) = w.els := by
      rw [← h3, List.take_length]
      apply List.ext_getElem?
      intro i
      by_cases hi : d = i
      · subst hi
        rw [List.getElem?_set_self (List.getElem?_eq_some_iff.1 hd).1, hd]
      · rw [List.getElem?_set_ne hi]
    rw [e]
  · unfold run
    rw [Res.foldlM'_append, hm]
    simp only [Res.ok_bind, Res.foldlM'_cons, Res.foldlM'_nil, Mem.step, Mem.assign, Mem.obj, h1, Mem.block, h2, if_true]
    rfl

/-! ## Examples -/

/-- A triangle and a quadrangle: the triangle takes the first three numbers, both are destroyed, nothing is left. -/
def demoProg : List Stmt :=
  [.make .triangle, .make .quad, .set 1 0 5, .set 1 1 6, .set 1 2 7, .set 1 3 8, .assign 0 1, .set 1 0 9, .get 0 0, .get 1 0,
   .destroy 1, .get 0 2, .destroy 0]

example : (∀ s ∈ demoProg, Safe s) ∧ run Mem.empty demoProg = .ok ⟨[none, none], [none, none], [5, 9, 7]⟩ ∧
    World.run World.empty demoProg = .ok ⟨[none, none], [5, 9, 7]⟩ := by
  refine ⟨?_, by decide +kernel, by decide +kernel⟩
  simp [demoProg, Safe]

/-- The other way round numbers outside of the array are read. -/
example : run Mem.empty [.make .triangle, .make .quad, .assign 1 0] = .ub := by decide +kernel

/-- A copy, then both are destroyed. -/
example : run Mem.empty [.make .line, .copy 0, .destroy 1, .destroy 0] = .ub := by decide +kernel

end Nla3d.Owner
