import Verif.Dof.Lemmas
import Mathlib.Data.Finset.Card

/-!
# Property C11: a DoF table is a finite map from (entity, type) to attributes

Specification: `Spec = entity → type → Option (equation number, constrained)`. `addDof` adds absent keys with
default attributes, writing through the pointer of `getDof` changes the attributes of one key.
-/

namespace Nla3d.Dof

/-- Calls made on a table. `write` is a write through the pointer returned by `getDof`. -/
inductive Call where
  | add (n : Nat) (ts : List DofType)
  | write (n : Nat) (t : DofType) (eq : Nat) (constrained : Bool)
  deriving Repr, DecidableEq

/-- Execution in the model. -/
def exec (T : Table) : Call → Res Table
  | .add n ts => T.addDof n ts
  | .write n t e c => T.modify n t (fun d => { d with eq := e, constrained := c })

/-- Abstract state: attributes of the registered pairs. -/
abbrev Spec := Nat → DofType → Option (Nat × Bool)

/-- Execution in the specification. -/
def specStep (s : Spec) : Call → Spec
  | .add n ts => fun m t => if m = n ∧ t ∈ ts ∧ s m t = none then some (0, false) else s m t
  | .write n t e c => fun m t' => if m = n ∧ t' = t then some (e, c) else s m t'

/-- State after a history. -/
def specRun (cs : List Call) : Spec := cs.foldl specStep (fun _ _ => none)

/-- The entity exists; a write goes to a registered DoF. -/
def LegalCall (N : Nat) (s : Spec) : Call → Prop
  | .add n _ => 0 < n ∧ n ≤ N
  | .write n t _ _ => 0 < n ∧ n ≤ N ∧ s n t ≠ none

/-- Every call is legal in the state it is made. -/
def LegalCalls (N : Nat) : Spec → List Call → Prop
  | _, [] => True
  | s, c :: cs => LegalCall N s c ∧ LegalCalls N (specStep s c) cs

/-- The registered pairs of a table with `N` entities. -/
def pairs (N : Nat) (s : Spec) : Finset (Nat × DofType) :=
  ((List.range (N + 1)).flatMap (fun n => (DofType.all.filter (fun t => (s n t).isSome)).map (fun t => (n, t)))).toFinset

theorem mem_pairs {N : Nat} {s : Spec} {n : Nat} {t : DofType} : (n, t) ∈ pairs N s ↔ n ≤ N ∧ (s n t).isSome := by
  unfold pairs
  simp only [List.mem_toFinset, List.mem_flatMap, List.mem_range, List.mem_map, List.mem_filter, DofType.mem_all,
    true_and, Prod.mk.injEq]
  constructor
  · rintro ⟨m, hm, t', ht, rfl, rfl⟩; exact ⟨by omega, ht⟩
  · rintro ⟨h1, h2⟩; exact ⟨n, by omega, t, h2, rfl, rfl⟩

/-- Simulation relation. -/
structure Sim (T : Table) (N : Nat) (s : Spec) : Prop where
  tab : ∃ ents, Tab T ents ∧ ents.length = N ∧ ∀ n t, (look ents n t).map (fun d => (d.eq, d.constrained)) = s n t

theorem look_type {ents : List (List Dof)} {n : Nat} {t : DofType} {d : Dof} (h : look ents n t = some d) : d.type = t := by
  unfold look at h
  split at h
  · simp at h
  · cases hr : ents[n - 1]? with
    | none => rw [hr] at h; simp at h
    | some r =>
      rw [hr] at h
      simp only [Option.bind_some] at h
      simpa using List.find?_some h

theorem sim_init (T : Table) (N : Nat) : Sim (T.init N) N (fun _ _ => none) := by
  refine ⟨List.replicate N [], Tab.init T N, by simp, ?_⟩
  intro n t
  unfold look
  by_cases h : n = 0
  · simp [h]
  · rw [if_neg h]
    by_cases hn : n - 1 < N
    · simp [List.getElem?_replicate_of_lt hn, pick]
    · rw [List.getElem?_eq_none (by simpa using hn)]; rfl

theorem sim_step {T : Table} {N : Nat} {s : Spec} (h : Sim T N s) {c : Call} (hc : LegalCall N s c) :
    ∃ T', exec T c = .ok T' ∧ Sim T' N (specStep s c) := by
  obtain ⟨ents, h1, h2, h3⟩ := h.tab
  cases c with
  | add n ts =>
    obtain ⟨r, hr, T', e1, e2⟩ := h1.addDof hc.1 (by rw [h2]; exact hc.2) ts
    refine ⟨T', e1, ⟨_, e2, by simpa using h2, ?_⟩⟩
    intro m t
    rw [look_addDof hc.1 (by rw [h2]; exact hc.2) hr]
    simp only [specStep]
    have hn : look ents m t = none ↔ s m t = none := by rw [← h3]; simp
    by_cases hh : m = n ∧ t ∈ ts ∧ look ents m t = none
    · rw [if_pos hh, if_pos ⟨hh.1, hh.2.1, hn.mp hh.2.2⟩]; rfl
    · rw [if_neg hh, if_neg (fun h' => hh ⟨h'.1, h'.2.1, hn.mpr h'.2.2⟩), h3]
  | write n t e k =>
    obtain ⟨hc1, hc2, hc3⟩ := hc
    rw [← h3] at hc3
    obtain ⟨d, hd⟩ : ∃ d, look ents n t = some d := by
      cases hl : look ents n t with
      | none => rw [hl] at hc3; simp at hc3
      | some d => exact ⟨d, rfl⟩
    obtain ⟨T', ents', e1, e2, e3, _, _, _, e4⟩ := h1.modify hc1 (by rw [h2]; exact hc2) (t := t)
      (f := fun d => { d with eq := e, constrained := k }) (fun _ => rfl) hd
    refine ⟨T', e1, ents', e2, by omega, ?_⟩
    intro m t'
    rw [e4]
    simp only [specStep]
    by_cases hh : m = n ∧ t' = t
    · rw [if_pos hh, if_pos hh]; rfl
    · rw [if_neg hh, if_neg hh, h3]

theorem sim_run {N : Nat} : ∀ (cs : List Call) (T : Table) (s : Spec), Sim T N s → LegalCalls N s cs →
    ∃ T', Res.foldlM' exec T cs = .ok T' ∧ Sim T' N (cs.foldl specStep s) := by
  intro cs
  induction cs with
  | nil => intro T s h _; exact ⟨T, rfl, h⟩
  | cons c cs ih =>
    intro T s h hl
    obtain ⟨T', e1, e2⟩ := sim_step h hl.1
    rw [Res.foldlM'_cons, e1]
    exact ih T' _ e2 hl.2

/-- What the queries of a table must answer in an abstract state. -/
structure Answers (T : Table) (N : Nat) (s : Spec) : Prop where
  used : ∀ n t, 0 < n → n ≤ N → T.isDofUsed n t = .ok (s n t).isSome
  get : ∀ n t, 0 < n → n ≤ N → T.deref n t = .ok ((s n t).map (fun a => ⟨a.1, a.2, t⟩))
  ptr : ∀ n t, 0 < n → n ≤ N → ∃ o, T.getDof n t = .ok o ∧ (o.isSome ↔ (s n t).isSome)
  count : T.nUsed = (pairs N s).card
  types : ∀ t, t ∈ T.uniqueTypes ↔ ∃ n, 0 < n ∧ n ≤ N ∧ (s n t).isSome
  typesOnce : T.uniqueTypes.Nodup
  entity : ∀ n, 0 < n → n ≤ N → ∃ r, T.entityDofs n = .ok r ∧ (r.map Dof.type).Nodup ∧
    ∀ d, d ∈ r ↔ s n d.type = some (d.eq, d.constrained)

theorem look_some {T : Table} {ents : List (List Dof)} (h : Tab T ents) {n : Nat} (hn : 0 < n) (hle : n ≤ ents.length)
    {t : DofType} {d : Dof} : look ents n t = some d ↔ d ∈ ents[n - 1] ∧ d.type = t := by
  have hlt : n - 1 < ents.length := by omega
  unfold look
  rw [if_neg (by omega), List.getElem?_eq_getElem hlt]
  exact pick_eq_some (h.nodup _ (List.getElem_mem hlt))

theorem sim_answers {T : Table} {N : Nat} {s : Spec} (h : Sim T N s) : Answers T N s := by
  obtain ⟨ents, h1, h2, h3⟩ := h.tab
  have hsome : ∀ n t, (look ents n t).isSome = (s n t).isSome := by
    intro n t; rw [← h3]; simp
  have hs0 : ∀ n t, (s n t).isSome → 0 < n ∧ n ≤ N := by
    intro n t hh
    rw [← hsome] at hh
    unfold look at hh
    by_cases hn : n = 0
    · simp [hn] at hh
    · rw [if_neg hn] at hh
      refine ⟨by omega, ?_⟩
      by_contra hgt
      rw [List.getElem?_eq_none (by omega)] at hh
      simp at hh
  constructor
  · intro n t h4 h5
    rw [h1.isDofUsed h4 (by omega), hsome]
  · intro n t h4 h5
    rw [h1.deref h4 (by omega), ← h3]
    congr 1
    cases hl : look ents n t with
    | none => rfl
    | some d =>
      have := look_type hl
      simp only [Option.map_some, ← this]
  · intro n t h4 h5
    obtain ⟨o, o1, o2⟩ := h1.getDof h4 (by omega : n ≤ ents.length) t
    exact ⟨o, o1, by rw [o2, hsome]⟩
  · unfold Table.nUsed
    rw [h1.used]
    -- the list of (entity, type) pairs
    have key : ∀ (es : List (List Dof)) (k : Nat), (∀ r ∈ es, (r.map Dof.type).Nodup) →
        ∃ l : List (Nat × DofType), l.length = es.flatten.length ∧ l.Nodup ∧
          ∀ n t, (n, t) ∈ l ↔ k < n ∧ ∃ r, es[n - k - 1]? = some r ∧ t ∈ r.map Dof.type := by
      intro es
      induction es with
      | nil => intro k _; exact ⟨[], by simp, by simp, by simp⟩
      | cons r es ih =>
        intro k hnd
        obtain ⟨l, l1, l2, l3⟩ := ih (k + 1) (fun r' hr' => hnd r' (by simp [hr']))
        refine ⟨(r.map Dof.type).map (fun t => (k + 1, t)) ++ l, by simp [l1], ?_, ?_⟩
        · rw [List.nodup_append]
          refine ⟨(hnd r (by simp)).map (fun a b hab => by simpa using hab), l2, ?_⟩
          rintro ⟨n, t⟩ ha ⟨n', t'⟩ hb hab
          rw [List.mem_map] at ha
          obtain ⟨t0, _, ht0⟩ := ha
          rw [l3] at hb
          simp only [Prod.mk.injEq] at ht0 hab
          omega
        · intro n t
          rw [List.mem_append, l3, List.mem_map]
          constructor
          · rintro (⟨t0, ht0, he⟩ | ⟨hk, r', hr', ht⟩)
            · simp only [Prod.mk.injEq] at he
              obtain ⟨rfl, rfl⟩ := he
              exact ⟨by omega, r, by simp, ht0⟩
            · refine ⟨by omega, r', ?_, ht⟩
              rw [show n - k - 1 = (n - (k + 1) - 1) + 1 by omega, List.getElem?_cons_succ]
              exact hr'
          · rintro ⟨hk, r', hr', ht⟩
            by_cases hn : n = k + 1
            · subst hn
              left
              simp only [Nat.add_sub_cancel_left, Nat.sub_self, List.getElem?_cons_zero, Option.some.injEq] at hr'
              subst hr'
              exact ⟨t, ht, rfl⟩
            · right
              refine ⟨by omega, r', ?_, ht⟩
              rw [show n - k - 1 = (n - (k + 1) - 1) + 1 by omega, List.getElem?_cons_succ] at hr'
              exact hr'
    obtain ⟨l, l1, l2, l3⟩ := key ents 0 h1.nodup
    rw [← l1, ← List.toFinset_card_of_nodup l2]
    congr 1
    ext ⟨n, t⟩
    rw [List.mem_toFinset, l3, mem_pairs]
    constructor
    · rintro ⟨hn, r, hr, ht⟩
      have hn' : n ≤ N := by
        have := (List.getElem?_eq_some_iff.mp hr).1
        omega
      refine ⟨hn', ?_⟩
      rw [← hsome]
      unfold look
      rw [if_neg (by omega)]
      simp only [Nat.sub_zero] at hr
      rw [hr]
      simp only [Option.bind_some]
      cases hp : pick r t with
      | none => exact absurd ht (pick_eq_none.mp hp)
      | some d => rfl
    · rintro ⟨hn, hs⟩
      obtain ⟨hpos, _⟩ := hs0 n t hs
      rw [← hsome] at hs
      unfold look at hs
      rw [if_neg (by omega)] at hs
      have hlt : n - 1 < ents.length := by omega
      rw [List.getElem?_eq_getElem hlt] at hs
      refine ⟨hpos, ents[n - 1], by simp only [Nat.sub_zero]; exact List.getElem?_eq_getElem hlt, ?_⟩
      by_contra hno
      simp only [Option.bind_some] at hs
      rw [pick_eq_none.mpr hno] at hs
      simp at hs
  · intro t
    unfold Table.uniqueTypes
    rw [h1.uniq]
    constructor
    · rintro ⟨r, hr, ht⟩
      obtain ⟨i, hi, rfl⟩ := List.mem_iff_getElem.mp hr
      refine ⟨i + 1, by omega, by omega, ?_⟩
      rw [← hsome]
      unfold look
      simp only [Nat.add_eq_zero_iff, one_ne_zero, and_false, if_false, Nat.add_sub_cancel]
      rw [List.getElem?_eq_getElem hi]
      simp only [Option.bind_some]
      cases hp : pick ents[i] t with
      | none => exact absurd ht (pick_eq_none.mp hp)
      | some d => rfl
    · rintro ⟨n, hn, hle, hs⟩
      rw [← hsome] at hs
      obtain ⟨d, hd⟩ := Option.isSome_iff_exists.mp hs
      rw [look_some h1 hn (by omega)] at hd
      have hlt : n - 1 < ents.length := by omega
      exact ⟨_, List.getElem_mem hlt, by rw [← hd.2]; exact List.mem_map_of_mem hd.1⟩
  · exact h1.unodup
  · intro n h4 h5
    obtain ⟨r, hr, he⟩ := h1.entityDofs h4 (by omega : n ≤ ents.length)
    have hlt : n - 1 < ents.length := by omega
    rw [List.getElem?_eq_getElem hlt, Option.some.injEq] at hr
    refine ⟨r, he, by rw [← hr]; exact h1.nodup _ (List.getElem_mem hlt), ?_⟩
    intro d
    rw [← h3, ← hr]
    constructor
    · intro hd
      rw [(look_some h1 h4 (by omega)).mpr ⟨hd, rfl⟩]
      rfl
    · intro hd
      cases hl : look ents n d.type with
      | none => rw [hl] at hd; simp at hd
      | some d' =>
        rw [hl] at hd
        simp only [Option.map_some, Option.some.injEq, Prod.mk.injEq] at hd
        have ht := look_type hl
        have : d' = d := by
          cases d; cases d'; simp_all
        subst this
        exact ((look_some h1 h4 (by omega)).mp hl).1

/-- **C11.** Start from any table, `initDofTable(N)`, then any legal history of registrations and attribute writes.
All calls complete and every query answers as the finite map: `isDofUsed`, `getDof` and the record behind it,
`getNumberOfUsedDofs` (number of registered pairs), `getUniqueDofTypes`, `getEntityDofs`. -/
theorem C11_refines_map (T : Table) (N : Nat) (cs : List Call) (h : LegalCalls N (fun _ _ => none) cs) :
    ∃ T', Res.foldlM' exec (T.init N) cs = .ok T' ∧ Answers T' N (specRun cs) := by
  obtain ⟨T', e1, e2⟩ := sim_run cs _ _ (sim_init T N) h
  exact ⟨T', e1, sim_answers e2⟩

/-- **C11, membership.** A pair is registered iff some `addDof` call of the history named it. -/
theorem C11_registered_iff (N : Nat) (cs : List Call) (h : LegalCalls N (fun _ _ => none) cs) (n : Nat) (t : DofType) :
    (specRun cs n t).isSome ↔ ∃ ts, Call.add n ts ∈ cs ∧ t ∈ ts := by
  have key : ∀ (cs : List Call) (s : Spec), LegalCalls N s cs →
      ((cs.foldl specStep s n t).isSome ↔ (s n t).isSome ∨ ∃ ts, Call.add n ts ∈ cs ∧ t ∈ ts) := by
    intro cs
    induction cs with
    | nil => intro s _; simp
    | cons c cs ih =>
      intro s hl
      rw [List.foldl_cons, ih _ hl.2]
      cases c with
      | add m ts =>
        simp only [specStep, List.mem_cons, Call.add.injEq]
        constructor
        · rintro (hh | ⟨ts', h1, h2⟩)
          · split at hh
            · rename_i hc
              exact Or.inr ⟨ts, Or.inl ⟨hc.1, rfl⟩, hc.2.1⟩
            · exact Or.inl hh
          · exact Or.inr ⟨ts', Or.inr h1, h2⟩
        · rintro (hh | ⟨ts', h1 | h1, h2⟩)
          · left
            split
            · rfl
            · exact hh
          · left
            obtain ⟨rfl, rfl⟩ := h1
            split
            · rfl
            · rename_i hc
              rw [Option.isSome_iff_ne_none]
              intro hn
              exact hc ⟨rfl, h2, hn⟩
          · exact Or.inr ⟨ts', h1, h2⟩
      | write m t' e k =>
        simp only [specStep, List.mem_cons, reduceCtorEq, false_or]
        by_cases hh : n = m ∧ t = t'
        · rw [if_pos hh]
          have : (s n t).isSome := by
            rw [Option.isSome_iff_ne_none, hh.1, hh.2]; exact hl.1.2.2
          simp [this]
        · rw [if_neg hh]
  rw [specRun, key cs _ h]
  simp

/-- **C11, registering again changes nothing.** A repeated or empty registration leaves the table as it is. -/
theorem C11_repeat_no_change (T : Table) (N : Nat) (cs : List Call) (h : LegalCalls N (fun _ _ => none) cs) (n : Nat)
    (ts : List DofType) (hn : 0 < n ∧ n ≤ N) (hts : ∀ t ∈ ts, (specRun cs n t).isSome) :
    ∃ T', Res.foldlM' exec (T.init N) cs = .ok T' ∧ T'.addDof n ts = .ok T' := by
  obtain ⟨T', e1, e2⟩ := sim_run cs _ _ (sim_init T N) h
  refine ⟨T', e1, ?_⟩
  obtain ⟨ents, h1, h2, h3⟩ := e2.tab
  obtain ⟨r, hr, _⟩ := Tab.row hn.1 (by omega : n ≤ ents.length)
  have hnew : (setOrder ts).filter (· ∉ r.map Dof.type) = [] := by
    rw [List.filter_eq_nil_iff]
    intro t ht
    rw [mem_setOrder] at ht
    have hs := hts t ht
    unfold specRun at hs
    rw [← h3] at hs
    simp only [Option.isSome_map] at hs
    obtain ⟨d, hd⟩ := Option.isSome_iff_exists.mp hs
    rw [look_some h1 hn.1 (by omega)] at hd
    have hre : ents[n - 1] = r := by
      rw [List.getElem?_eq_getElem (by omega), Option.some.injEq] at hr; exact hr
    simp only [decide_eq_true_eq, not_not]
    rw [← hd.2, ← hre]
    exact List.mem_map_of_mem hd.1
  unfold Table.addDof
  rw [h1.bounds hn.1 (by omega)]
  simp only [Res.ok_bind]
  have hnt : T'.newTypes (off ents (n - 1)) (off ents n) ts = .ok [] := by
    unfold Table.newTypes
    by_cases he : off ents (n - 1) = off ents n
    · rw [if_pos he]
      have hl := off_succ (rows := ents) (i := n - 1) (by omega)
      rw [Nat.sub_add_cancel hn.1] at hl
      have hre : ents[n - 1]'(by omega) = r := by
        rw [List.getElem?_eq_getElem (by omega), Option.some.injEq] at hr; exact hr
      rw [hre] at hl
      have hr0 : r = [] := List.eq_nil_of_length_eq_zero (by omega)
      rw [hr0] at hnew
      simpa using hnew
    · rw [if_neg he, h1.missing hn.1 (by omega) hr, hnew]
  rw [hnt]
  simp

/-! ## A concrete case -/

/-- Two entities; repeated registration, attributes written in between. -/
def exCalls : List Call := [.add 2 [.UY, .UX, .UX], .write 2 .UX 7 true, .add 1 [.TEMP], .add 2 [.UX, .UZ], .add 1 []]

theorem exLegal : LegalCalls 2 (fun _ _ => none) exCalls := by
  simp [LegalCalls, LegalCall, exCalls, specStep]

example : ∃ T, Res.foldlM' exec (Table.empty.init 2) exCalls = .ok T ∧ T.nUsed = 4 ∧
    T.deref 2 .UX = .ok (some ⟨7, true, .UX⟩) ∧ T.isDofUsed 1 .UX = .ok false := by
  obtain ⟨T, h1, h2⟩ := C11_refines_map Table.empty 2 exCalls exLegal
  refine ⟨T, h1, by rw [h2.count]; decide, ?_, ?_⟩
  · rw [h2.get 2 .UX (by decide) (by decide)]; decide
  · rw [h2.used 1 .UX (by decide) (by decide)]; decide

example : ∃ T, Res.foldlM' exec (Table.empty.init 2) exCalls = .ok T ∧ T.addDof 2 [.UZ, .UX] = .ok T :=
  C11_repeat_no_change _ _ _ exLegal 2 _ (by decide) (by decide)

end Nla3d.Dof
