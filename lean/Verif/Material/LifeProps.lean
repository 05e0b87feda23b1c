import Verif.Material.Life
import Verif.Material.Props
import Verif.Storage.ReportProps

/-!
# C127: materials own their constants and can be read from their text
-/

namespace Nla3d.Material.Life

open Nla3d.Report (cut_unique)

variable {K : Type}

/-! ## Specification: materials as values -/

/-- The names of the constants, as the manual gives them. -/
def Constants : Kind → List String
  | .neoHookean => ["G", "K"]
  | .biderman => ["C10", "C20", "C30", "C01", "K"]
  | .mooneyRivlin => ["C10", "C01", "K"]

/-- The word the text starts with. -/
def Title : Kind → String
  | .neoHookean => "Neo-Hookean"
  | .biderman => "Biderman"
  | .mooneyRivlin => "Money-Rivlin"

/-- The text of a material: its title, then ` name = value` for every constant. -/
def TextOf (num : K → List Char) (k : Kind) (v : List K) : List Char :=
  (Title k).toList ++ (List.zip (Constants k) v).flatMap fun p => " ".toList ++ p.1.toList ++ " = ".toList ++ num p.2

/-- Materials as values (`none`: destroyed) and the texts asked for. -/
structure World (K : Type) where
  mats : List (Option (Kind × List (Option K)))
  out : List (List Char)

/-- What a statement does to the values. -/
def World.step (num : K → List Char) (w : World K) : Stmt K → Res (World K)
  | .make k => .ok { w with mats := w.mats ++ [some (k, List.replicate (Constants k).length none)] }
  | .set d i x =>
    match w.mats[d]? with
    | some (some (k, v)) => if i < (Constants k).length then .ok { w with mats := w.mats.set d (some (k, v.set i (some x))) } else .assert
    | _ => .ub
  | .setNamed d s x =>
    match w.mats[d]? with
    | some (some (k, v)) =>
      if s ∈ Constants k then .ok { w with mats := w.mats.set d (some (k, v.set ((Constants k).idxOf s) (some x))) } else .ub
    | _ => .ub
  | .get d i =>
    match w.mats[d]? with
    | some (some (k, v)) =>
      if i < (Constants k).length then
        match v[i]? with
        | some (some x) => .ok { w with out := w.out ++ [num x] }
        | _ => .ub
      else .assert
    | _ => .ub
  | .text d =>
    match w.mats[d]? with
    | some (some (k, v)) =>
      match v.mapM id with
      | some l => .ok { w with out := w.out ++ [TextOf num k l] }
      | none => .ub
    | _ => .ub
  | .destroy d =>
    match w.mats[d]? with
    | some (some _) => .ok { w with mats := w.mats.set d none }
    | _ => .ub

/-- A program over values. -/
def World.run (num : K → List Char) (w : World K) : List (Stmt K) → Res (World K) := Res.foldlM' (World.step num) w

/-! ## Simulation -/

/-- The object of kind `k` with its constants in block `b`. -/
def objOf (k : Kind) (b : Nat) : Obj := ⟨className k, constNames k, (constNames k).length, some b, true⟩

/-- Memory holds the values, each in a block of its own, and no other block is alive. -/
structure Rel (m : Mem K) (w : World K) : Prop where
  len : m.objs.length = w.mats.length
  alive : ∀ (d : Nat) (k : Kind) (v : List (Option K)), w.mats[d]? = some (some (k, v)) →
    ∃ b, m.objs[d]? = some (some (objOf k b)) ∧ m.heap[b]? = some (some v) ∧ v.length = (Constants k).length
  gone : ∀ d : Nat, w.mats[d]? = some none → m.objs[d]? = some none
  apart : ∀ (d d' : Nat) (o o' : Obj) (b : Nat), m.objs[d]? = some (some o) → m.objs[d']? = some (some o') → o.mc = some b →
    o'.mc = some b → d = d'
  owned : ∀ (b : Nat) (l : List (Option K)), m.heap[b]? = some (some l) → ∃ (d : Nat) (o : Obj), m.objs[d]? = some (some o) ∧ o.mc = some b
  out : m.out = w.out

/-- Both runs end in the same way. -/
def Sim (r : Res (Mem K)) (s : Res (World K)) : Prop :=
  match r, s with
  | .ok m, .ok w => Rel m w
  | .fatal, .fatal => True
  | .assert, .assert => True
  | .ub, .ub => True
  | _, _ => False

theorem Rel.obj {m : Mem K} {w : World K} (h : Rel m w) (d : Nat) :
    (∃ k v b, w.mats[d]? = some (some (k, v)) ∧ m.objs[d]? = some (some (objOf k b)) ∧ m.obj d = .ok (objOf k b) ∧
      m.consts (objOf k b) = .ok (b, v) ∧ m.heap[b]? = some (some v) ∧ v.length = (Constants k).length) ∨
    ((∀ x, w.mats[d]? ≠ some (some x)) ∧ m.obj d = .ub) := by
  cases hd : w.mats[d]? with
  | none =>
    right
    refine ⟨by simp, ?_⟩
    have : m.objs[d]? = none := by
      rw [List.getElem?_eq_none_iff] at hd ⊢
      rw [h.len]; exact hd
    simp [Mem.obj, this]
  | some e =>
    cases e with
    | none => exact .inr ⟨by simp, by simp [Mem.obj, h.gone d hd]⟩
    | some e =>
      obtain ⟨k, v⟩ := e
      obtain ⟨b, h1, h2, h3⟩ := h.alive d k v hd
      exact .inl ⟨k, v, b, rfl, h1, by simp [Mem.obj, h1], by simp [Mem.consts, objOf, h2], h2, h3⟩

/-- Writing one constant. -/
theorem Rel.write {m : Mem K} {w : World K} (h : Rel m w) {d b : Nat} {k : Kind} {v v' : List (Option K)}
    (ho : m.objs[d]? = some (some (objOf k b))) (hb : m.heap[b]? = some (some v)) (hv : v'.length = (Constants k).length)
    (hd : w.mats[d]? = some (some (k, v))) :
    Rel { m with heap := m.heap.set b (some v') } { w with mats := w.mats.set d (some (k, v')) } := by
  have hbl := (List.getElem?_eq_some_iff.1 hb).1
  have hdl := (List.getElem?_eq_some_iff.1 hd).1
  constructor
  · simp [h.len]
  · intro e k' u he
    simp only at he ⊢
    by_cases hde : d = e
    · subst hde
      rw [List.getElem?_set_self hdl] at he
      have := Option.some.inj (Option.some.inj he)
      simp only [Prod.mk.injEq] at this
      obtain ⟨rfl, rfl⟩ := this
      exact ⟨b, ho, List.getElem?_set_self hbl, hv⟩
    · rw [List.getElem?_set_ne hde] at he
      obtain ⟨b', h1, h2, h3⟩ := h.alive e k' u he
      refine ⟨b', h1, ?_, h3⟩
      rw [List.getElem?_set_ne]
      · exact h2
      · rintro rfl
        exact hde (h.apart d e _ _ b ho h1 rfl rfl)
  · intro e he
    simp only at he ⊢
    by_cases hde : d = e
    · subst hde
      rw [List.getElem?_set_self hdl] at he
      cases he
    · rw [List.getElem?_set_ne hde] at he
      exact h.gone e he
  · exact h.apart
  · intro b' l hb'
    simp only at hb' ⊢
    by_cases e : b = b'
    · subst e
      exact ⟨d, _, ho, rfl⟩
    · rw [List.getElem?_set_ne e] at hb'
      exact h.owned b' l hb'
  · exact h.out

theorem toText_eq (num : K → List Char) {m : Mem K} {k : Kind} {b : Nat} {v : List (Option K)} (hc : m.consts (objOf k b) = .ok (b, v))
    (hv : v.length = (Constants k).length) :
    m.toText num (objOf k b) = match v.mapM id with | some l => .ok (TextOf num k l) | none => .ub := by
  have key : ∀ (ns : List String) (us : List (Option K)) (p : Nat) (str : List Char), us.length = ns.length →
      (∀ i, i < ns.length → (constNames k)[p + i]? = ns[i]?) → (∀ i, i < ns.length → v[p + i]? = us[i]?) →
      Res.foldlM' (fun str i => do
        let s ← Res.read (objOf k b).names i
        let (_, l) ← m.consts (objOf k b)
        let x ← readSet l i
        .ok (str ++ (" ".toList ++ s.toList ++ " = ".toList ++ num x))) str (List.range' p ns.length) =
      match us.mapM id with
      | some l => .ok (str ++ (List.zip ns l).flatMap fun p => " ".toList ++ p.1.toList ++ " = ".toList ++ num p.2)
      | none => .ub := by
    intro ns
    induction ns with
    | nil =>
      intro us p str hu _ _
      have : us = [] := List.length_eq_zero_iff.1 hu
      subst this
      simp
    | cons n ns ih =>
      intro us p str hu h1 h2
      obtain ⟨u, us, rfl⟩ : ∃ u us', us = u :: us' := by
        cases us with
        | nil => simp at hu
        | cons u us => exact ⟨u, us, rfl⟩
      have h10 := h1 0 (by simp)
      have h20 := h2 0 (by simp)
      simp only [Nat.add_zero, List.getElem?_cons_zero] at h10 h20
      rw [List.length_cons, List.range'_succ, Res.foldlM'_cons, hc, show (objOf k b).names = constNames k from rfl,
        Res.read_eq_ok.2 h10]
      simp only [Res.ok_bind, readSet, Res.read_eq_ok.2 h20]
      cases u with
      | none => simp
      | some x =>
        simp only [Res.ok_bind]
        have := ih us (p + 1) (str ++ (" ".toList ++ n.toList ++ " = ".toList ++ num x)) (by simpa using hu)
          (fun i hi => by have := h1 (i + 1) (by simpa using hi); rwa [List.getElem?_cons_succ, ← Nat.add_assoc, Nat.add_right_comm] at this)
          (fun i hi => by have := h2 (i + 1) (by simpa using hi); rwa [List.getElem?_cons_succ, ← Nat.add_assoc, Nat.add_right_comm] at this)
        rw [hc] at this
        simp only [Res.ok_bind, readSet, show (objOf k b).names = constNames k from rfl] at this
        rw [this]
        cases hm : us.mapM id with
        | none => simp [hm]
        | some l => simp [hm]
  have hk : Constants k = constNames k := by cases k <;> rfl
  have := key (constNames k) v 0 (className k).toList (by rw [hv, hk]) (fun i _ => by rw [Nat.zero_add]) (fun i _ => by rw [Nat.zero_add])
  rw [← List.range_eq_range'] at this
  have ht : (Title k).toList = (className k).toList := by cases k <;> rfl
  unfold Mem.toText TextOf
  rw [ht, hk]
  exact this

theorem step_sim (num : K → List Char) {m : Mem K} {w : World K} (h : Rel m w) (s : Stmt K) : Sim (m.step num s) (w.step num s) := by
  have hk : ∀ k, constNames k = Constants k := by intro k; cases k <;> rfl
  cases s with
  | make k =>
    show Rel _ _
    simp only [construct, register]
    constructor
    · simp [h.len]
    · intro d k' v hd
      simp only at hd ⊢
      rcases Nat.lt_or_ge d w.mats.length with hl | hl
      · rw [List.getElem?_append_left hl] at hd
        obtain ⟨b, h1, h2, h3⟩ := h.alive d k' v hd
        refine ⟨b, ?_, ?_, h3⟩
        · rw [List.getElem?_append_left (by rw [h.len]; exact hl)]; exact h1
        · rw [List.getElem?_append_left (List.getElem?_eq_some_iff.1 h2).1]; exact h2
      · have hd' : d = w.mats.length := by
          have := (List.getElem?_eq_some_iff.1 hd).1
          simp at this
          omega
        subst hd'
        rw [List.getElem?_concat_length] at hd
        have := Option.some.inj (Option.some.inj hd)
        simp only [Prod.mk.injEq] at this
        obtain ⟨rfl, rfl⟩ := this
        refine ⟨m.heap.length, ?_, ?_, by simp⟩
        · rw [← h.len, List.getElem?_concat_length]; rfl
        · rw [List.getElem?_concat_length, hk]
    · intro d hd
      simp only at hd ⊢
      rcases Nat.lt_or_ge d w.mats.length with hl | hl
      · rw [List.getElem?_append_left hl] at hd
        rw [List.getElem?_append_left (by rw [h.len]; exact hl)]
        exact h.gone d hd
      · have hd' : d = w.mats.length := by
          have := (List.getElem?_eq_some_iff.1 hd).1
          simp at this
          omega
        subst hd'
        rw [List.getElem?_concat_length] at hd
        cases hd
    · have old : ∀ (d : Nat) (o : Obj) (b : Nat), m.objs[d]? = some (some o) → o.mc = some b → b < m.heap.length := by
        intro d o b hd ho
        have hl : d < w.mats.length := by rw [← h.len]; exact (List.getElem?_eq_some_iff.1 hd).1
        rcases h.obj d with ⟨k', v, b', h1, h2, -, -, h3, -⟩ | ⟨-, h2⟩
        · rw [h2] at hd
          have := Option.some.inj (Option.some.inj hd)
          subst this
          have : b' = b := Option.some.inj ho
          subst this
          exact (List.getElem?_eq_some_iff.1 h3).1
        · simp [Mem.obj, hd] at h2
      have new : ∀ (d : Nat) (o : Obj), (m.objs ++ [some (objOf k m.heap.length)])[d]? = some (some o) →
          m.objs[d]? = some (some o) ∨ d = m.objs.length ∧ o = objOf k m.heap.length := by
        intro d o hd
        rcases Nat.lt_or_ge d m.objs.length with hl | hl
        · rw [List.getElem?_append_left hl] at hd
          exact .inl hd
        · have hd' : d = m.objs.length := by
            have := (List.getElem?_eq_some_iff.1 hd).1
            simp at this
            omega
          subst hd'
          rw [List.getElem?_concat_length] at hd
          exact .inr ⟨rfl, (Option.some.inj (Option.some.inj hd)).symm⟩
      intro d d' o o' b hd hd' ho ho'
      rcases new d o hd with h1 | ⟨h1, h2⟩ <;> rcases new d' o' hd' with h1' | ⟨h1', h2'⟩
      · exact h.apart d d' o o' b h1 h1' ho ho'
      · have := old d o b h1 ho
        rw [h2'] at ho'
        have : m.heap.length = b := Option.some.inj ho'
        omega
      · have := old d' o' b h1' ho'
        rw [h2] at ho
        have : m.heap.length = b := Option.some.inj ho
        omega
      · rw [h1, h1']
    · intro b l hb
      simp only at hb ⊢
      rcases Nat.lt_or_ge b m.heap.length with hl | hl
      · rw [List.getElem?_append_left hl] at hb
        obtain ⟨d, o, h1, h2⟩ := h.owned b l hb
        exact ⟨d, o, by rw [List.getElem?_append_left (List.getElem?_eq_some_iff.1 h1).1]; exact h1, h2⟩
      · have hb' : b = m.heap.length := by
          have := (List.getElem?_eq_some_iff.1 hb).1
          simp at this
          omega
        subst hb'
        exact ⟨m.objs.length, _, List.getElem?_concat_length, rfl⟩
    · exact h.out
  | set d i x =>
    rcases h.obj d with ⟨k, v, b, h1, h2, h3, h4, h5, h6⟩ | ⟨h1, h2⟩
    · simp only [Mem.step, World.step, h1, h3, Res.ok_bind, show (objOf k b).numC = (Constants k).length from by rw [← hk]; rfl]
      by_cases hi : i < (Constants k).length
      · rw [if_pos hi, if_pos hi, h4]
        simp only [Res.ok_bind, Res.write, h6, if_pos hi]
        exact h.write h2 h5 (by simp [h6]) h1
      · rw [if_neg hi, if_neg hi]
        trivial
    · simp only [Mem.step, World.step, h2]
      split
      · next hh => exact absurd hh (h1 _)
      · trivial
  | setNamed d s x =>
    rcases h.obj d with ⟨k, v, b, h1, h2, h3, h4, h5, h6⟩ | ⟨h1, h2⟩
    · simp only [Mem.step, World.step, h1, h3, h4, Res.ok_bind]
      have hr : (⟨(objOf k b).names, (objOf k b).numC, v.length⟩ : Consts) = registerConsts (Constants k) := by
        rw [h6, ← hk]; rfl
      rw [hr]
      by_cases hs : s ∈ Constants k
      · have hi := List.idxOf_lt_length_iff.2 hs
        have := (C50_partial (Constants k) (by cases k <;> decide) ((Constants k).idxOf s) s
          (by rw [List.getElem?_eq_getElem hi, List.getElem_idxOf])).1
        rw [this, if_pos hs]
        simp only [Res.ok_bind, Res.write, h6, if_pos hi]
        exact h.write h2 h5 (by simp [h6]) h1
      · rw [C50_violated _ _ hs, if_neg hs]
        trivial
    · simp only [Mem.step, World.step, h2]
      split
      · next hh => exact absurd hh (h1 _)
      · trivial
  | get d i =>
    rcases h.obj d with ⟨k, v, b, h1, h2, h3, h4, h5, h6⟩ | ⟨h1, h2⟩
    · simp only [Mem.step, World.step, h1, h3, Res.ok_bind, show (objOf k b).numC = (Constants k).length from by rw [← hk]; rfl]
      by_cases hi : i < (Constants k).length
      · rw [if_pos hi, if_pos hi, h4]
        have hiv : i < v.length := by rw [h6]; exact hi
        simp only [Res.ok_bind, readSet, Res.read_of_lt hiv, List.getElem?_eq_getElem hiv]
        cases v[i] with
        | none => trivial
        | some y => exact ⟨h.len, h.alive, h.gone, h.apart, h.owned, by simp [h.out]⟩
      · rw [if_neg hi, if_neg hi]
        trivial
    · simp only [Mem.step, World.step, h2]
      split
      · next hh => exact absurd hh (h1 _)
      · trivial
  | text d =>
    rcases h.obj d with ⟨k, v, b, h1, h2, h3, h4, h5, h6⟩ | ⟨h1, h2⟩
    · simp only [Mem.step, World.step, h1, h3, Res.ok_bind, toText_eq num h4 h6]
      cases v.mapM id with
      | none => trivial
      | some l => exact ⟨h.len, h.alive, h.gone, h.apart, h.owned, by simp [h.out]⟩
    · simp only [Mem.step, World.step, h2]
      split
      · next hh => exact absurd hh (h1 _)
      · trivial
  | destroy d =>
    rcases h.obj d with ⟨k, v, b, h1, h2, h3, h4, h5, h6⟩ | ⟨h1, h2⟩
    · simp only [Mem.step, World.step, h1, h3, Res.ok_bind, release, show (objOf k b).mc = some b from rfl, h5]
      have hbl := (List.getElem?_eq_some_iff.1 h5).1
      have hdl := (List.getElem?_eq_some_iff.1 h2).1
      have hdw := (List.getElem?_eq_some_iff.1 h1).1
      show Rel _ _
      constructor
      · simp [h.len]
      · intro e k' u he
        simp only at he ⊢
        by_cases hde : d = e
        · subst hde
          rw [List.getElem?_set_self hdw] at he
          cases he
        · rw [List.getElem?_set_ne hde] at he
          obtain ⟨b', g1, g2, g3⟩ := h.alive e k' u he
          refine ⟨b', by rw [List.getElem?_set_ne hde]; exact g1, ?_, g3⟩
          rw [List.getElem?_set_ne]
          · exact g2
          · rintro rfl
            exact hde (h.apart d e _ _ b h2 g1 rfl rfl)
      · intro e he
        simp only at he ⊢
        by_cases hde : d = e
        · subst hde
          exact List.getElem?_set_self hdl
        · rw [List.getElem?_set_ne hde] at he ⊢
          exact h.gone e he
      · intro e e' o o' b' he he' ho ho'
        simp only at he he'
        have ne : ∀ (e : Nat) (o : Obj), (m.objs.set d none)[e]? = some (some o) → m.objs[e]? = some (some o) := by
          intro e o he
          by_cases hde : d = e
          · subst hde
            rw [List.getElem?_set_self hdl] at he
            cases he
          · rwa [List.getElem?_set_ne hde] at he
        exact h.apart e e' o o' b' (ne e o he) (ne e' o' he') ho ho'
      · intro b' l hb'
        simp only at hb' ⊢
        by_cases e : b = b'
        · subst e
          rw [List.getElem?_set_self hbl] at hb'
          cases hb'
        · rw [List.getElem?_set_ne e] at hb'
          obtain ⟨d', o, g1, g2⟩ := h.owned b' l hb'
          refine ⟨d', o, ?_, g2⟩
          rw [List.getElem?_set_ne]
          · exact g1
          · rintro rfl
            rw [h2] at g1
            have := Option.some.inj (Option.some.inj g1)
            subst this
            exact e (Option.some.inj g2)
      · exact h.out
    · simp only [Mem.step, World.step, h2]
      trivial

theorem run_sim (num : K → List Char) (p : List (Stmt K)) : ∀ {m : Mem K} {w : World K}, Rel m w → Sim (run num m p) (w.run num p) := by
  induction p with
  | nil => intro m w h; exact h
  | cons s p ih =>
    intro m w h
    have hs := step_sim num h s
    show Sim (Res.foldlM' _ _ _) (Res.foldlM' _ _ _)
    rw [Res.foldlM'_cons, Res.foldlM'_cons]
    cases h1 : m.step num s <;> cases h2 : w.step num s <;> rw [h1, h2] at hs <;> try exact hs.elim
    · exact ih hs
    all_goals trivial

/-! ## C127 -/

/-- Nothing made yet. -/
def start : Mem K := ⟨[], [], []⟩

theorem rel_start : Rel (start : Mem K) ⟨[], []⟩ := by
  constructor <;> simp [start]

/-- C127, programs: every program over materials that are destroyed by their own class ends as the same program over values, in the
same way and with the same texts: with undefined behaviour only for a destroyed material, an unknown name or a constant that was
never given. In particular a statement about one material does not touch another. When it ends, the arrays that are alive belong to
living materials, so all are freed when the materials are gone. -/
theorem C127_values_partial (num : K → List Char) (p : List (Stmt K)) :
    (match run num start p, World.run num ⟨[], []⟩ p with
      | .ok m, .ok w => m.out = w.out ∧ m.objs.map Option.isSome = w.mats.map Option.isSome
      | .fatal, .fatal => True
      | .assert, .assert => True
      | .ub, .ub => True
      | _, _ => False) ∧
    ∀ m, run num start p = .ok m → (∀ d : Nat, d < m.objs.length → m.objs[d]? = some none) →
      ∀ b : Nat, b < m.heap.length → m.heap[b]? = some none := by
  have h := run_sim num p rel_start
  constructor
  · cases h1 : run num start p <;> cases h2 : World.run num ⟨[], []⟩ p <;> rw [h1, h2] at h <;> try exact h.elim
    · next m w =>
      have h : Rel m w := h
      refine ⟨h.out, ?_⟩
      apply List.ext_getElem?
      intro d
      rw [List.getElem?_map, List.getElem?_map]
      cases hd : w.mats[d]? with
      | none =>
        have : m.objs[d]? = none := by
          rw [List.getElem?_eq_none_iff] at hd ⊢
          rw [h.len]; exact hd
        rw [this]; rfl
      | some e =>
        cases e with
        | none => rw [h.gone d hd]; rfl
        | some e =>
          obtain ⟨b, h1, -⟩ := h.alive d e.1 e.2 hd
          rw [h1]; rfl
    all_goals trivial
  · intro m hm hall b hb
    rw [hm] at h
    cases h2 : World.run num ⟨[], []⟩ p <;> rw [h2] at h <;> try exact h.elim
    have h : Rel m _ := h
    cases hh : m.heap[b]? with
    | none => rw [List.getElem?_eq_none_iff] at hh; omega
    | some e =>
      cases e with
      | none => rfl
      | some l =>
        obtain ⟨d, o, h1, -⟩ := h.owned b l hh
        rw [hall d (List.getElem?_eq_some_iff.1 h1).1] at h1
        cases h1

theorem words_unique : ∀ {xs ys : List (List Char)}, (∀ x ∈ xs, ' ' ∉ x) → (∀ y ∈ ys, ' ' ∉ y) →
    (xs.flatMap (· ++ [' '])) = (ys.flatMap (· ++ [' '])) → xs = ys
  | [], [], _, _, _ => rfl
  | [], y :: ys, _, _, h => by simp at h
  | x :: xs, [], _, _, h => by simp at h
  | x :: xs, y :: ys, h1, h2, h => by
    simp only [List.flatMap_cons, List.append_assoc, List.singleton_append] at h
    obtain ⟨e1, e2⟩ := cut_unique (h1 x (by simp)) (h2 y (by simp)) h
    rw [e1, words_unique (fun z hz => h1 z (by simp [hz])) (fun z hz => h2 z (by simp [hz])) e2]

/-- C127, reading the text: if numbers are written without blanks, the text tells the class and all constants. -/
theorem C127_read_back {num : K → List Char} (hp : ∀ x, ' ' ∉ num x) {k k' : Kind} {v v' : List K} (hv : v.length = (Constants k).length)
    (hv' : v'.length = (Constants k').length) (h : TextOf num k v = TextOf num k' v') : k = k' ∧ v.map num = v'.map num := by
  have words : ∀ (k : Kind) (v : List K), TextOf num k v ++ [' '] =
      ((Title k).toList :: (List.zip (Constants k) v).flatMap fun p => [p.1.toList, ['='], num p.2]).flatMap (· ++ [' ']) := by
    intro k v
    have : ∀ l : List (String × K), (l.flatMap fun p => " ".toList ++ p.1.toList ++ " = ".toList ++ num p.2) ++ [' '] =
        [' '] ++ (l.flatMap fun p => [p.1.toList, ['='], num p.2]).flatMap (· ++ [' ']) := by
      intro l
      induction l with
      | nil => rfl
      | cons p l ih =>
        rw [List.flatMap_cons, List.append_assoc, ih]
        simp
    rw [TextOf, List.append_assoc, this, List.flatMap_cons, List.append_assoc]
  have plain : ∀ (k : Kind) (v : List K), ∀ x ∈ (Title k).toList :: (List.zip (Constants k) v).flatMap fun p =>
      [p.1.toList, ['='], num p.2], ' ' ∉ x := by
    intro k v x hx
    rw [List.mem_cons] at hx
    rcases hx with rfl | hx
    · cases k <;> decide
    · obtain ⟨p, hp1, hx⟩ := List.mem_flatMap.1 hx
      simp only [List.mem_cons, List.not_mem_nil, or_false] at hx
      rcases hx with rfl | rfl | rfl
      · have hm := (List.of_mem_zip (a := p.1) (b := p.2) hp1).1
        have hall : ∀ k : Kind, ∀ s ∈ Constants k, ' ' ∉ s.toList := by intro k; cases k <;> decide
        exact hall k _ hm
      · decide
      · exact hp _
  have hw := words_unique (plain k v) (plain k' v') (by rw [← words, ← words, h])
  have h0 := (List.cons.inj hw).1
  have h1 := (List.cons.inj hw).2
  have hkk : k = k' := by
    revert h0
    cases k <;> cases k' <;> decide
  subst hkk
  refine ⟨rfl, ?_⟩
  generalize Constants k = c at hv hv' h1
  clear h hw h0 plain words
  induction c generalizing v v' with
  | nil =>
    rw [List.length_eq_zero_iff.1 hv, List.length_eq_zero_iff.1 hv']
  | cons n c ih =>
    cases v with
    | nil => simp at hv
    | cons x v =>
      cases v' with
      | nil => simp at hv'
      | cons x' v' =>
        simp only [List.zip_cons_cons, List.flatMap_cons, List.cons_append, List.nil_append, List.cons.injEq] at h1
        rw [List.map_cons, List.map_cons, h1.2.2.1, ih (by simpa using hv) (by simpa using hv') h1.2.2.2]

/-- C127 is false for `delete material` in `~FEStorage`: it deletes an object of a derived class through a pointer to the base class,
whose destructor is not virtual. This holds for every material that the classes of the program can make. -/
theorem C127_delete_violated (num : K → List Char) (m : Mem K) (k : Kind) :
    ∃ m', m.step num (.make k) = .ok m' ∧ m'.deleteBase m.objs.length = .ub ∧ ∃ m'', m'.step num (.destroy m.objs.length) = .ok m'' := by
  refine ⟨_, rfl, ?_, ?_⟩
  · simp [construct, register, Mem.deleteBase, Mem.obj]
  · simp [construct, register, Mem.step, Mem.obj, release]

/-- C127 is false for `Material(num_c)`: it has constants without names, so that its text is read outside of the list of names, and
registering names afterwards loses the array. -/
theorem C127_sized_violated (num : K → List Char) (n : Nat) (names : List String) (heap : List (Option (List (Option K)))) :
    (∀ m : Mem K, m.heap = (sized (n + 1) heap).1 → m.toText num (sized (n + 1) heap).2 = .ub) ∧
    (let (heap1, o) := sized n heap
     let (heap2, o) := register names heap1 o
     heap2[heap.length]? = some (some (List.replicate n none)) ∧ o.mc = some (heap.length + 1)) := by
  constructor
  · intro m _
    simp [Mem.toText, sized, blank, List.range_succ_eq_map, Res.read]
  · simp [sized, register]

/-! ## Example -/

/-- Two materials, one destroyed, the other asked for its text. -/
example : (run (fun x : Nat => Nat.toDigits 10 x) start [.make .neoHookean, .make .mooneyRivlin, .set 0 0 7, .setNamed 1 "K" 5, .set 1 0 1,
    .setNamed 1 "C01" 12, .destroy 0, .text 1, .destroy 1]).bind (fun m => .ok (m.out, m.heap)) =
      .ok (["Money-Rivlin C10 = 1 C01 = 12 K = 5".toList], [none, none]) := by decide +kernel

end Nla3d.Material.Life
