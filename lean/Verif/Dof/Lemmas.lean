import Verif.Dof.Model
import Verif.Flat
import Mathlib.Data.List.Nodup

/-! # Lemmas about the DoF table -/

namespace Nla3d.Dof

/-- The table stores one list of records per entity, with distinct types. -/
structure Tab (T : Table) (ents : List (List Dof)) : Prop where
  ent : T.entities = ents.length
  dofs : T.dofs = ents.flatten
  plen : T.pos.length = ents.length + 1
  pos : ∀ i ≤ ents.length, T.pos[i]? = some (off ents i)
  nodup : ∀ r ∈ ents, (r.map Dof.type).Nodup
  used : T.used = ents.flatten.length
  uniq : ∀ t, t ∈ T.uniq ↔ ∃ r ∈ ents, t ∈ r.map Dof.type
  unodup : T.uniq.Nodup

theorem DofType.mem_all (t : DofType) : t ∈ DofType.all := by cases t <;> decide

theorem DofType.all_nodup : DofType.all.Nodup := by decide

theorem mem_setOrder {ts : List DofType} {t : DofType} : t ∈ setOrder ts ↔ t ∈ ts := by
  simp [setOrder, DofType.mem_all]

theorem setOrder_nodup (ts : List DofType) : (setOrder ts).Nodup := DofType.all_nodup.filter _

theorem Tab.init (T : Table) (n : Nat) : Tab (T.init n) (List.replicate n []) := by
  have hoff : ∀ i, off (List.replicate n ([] : List Dof)) i = 0 := by
    intro i
    unfold off
    rw [List.take_replicate]
    simp
  constructor
  · simp [Table.init]
  · simp [Table.init, Table.clear]
  · simp [Table.init]
  · intro i hi
    rw [hoff]
    simp only [Table.init, List.length_replicate] at hi ⊢
    rw [List.getElem?_replicate_of_lt (by omega)]
  · intro r hr
    rw [List.mem_replicate] at hr
    simp [hr.2]
  · simp [Table.init, Table.clear]
  · intro t
    simp only [Table.init, Table.clear, List.not_mem_nil, false_iff]
    rintro ⟨r, hr, ht⟩
    rw [List.mem_replicate] at hr
    simp [hr.2] at ht
  · simp [Table.init, Table.clear]

theorem Tab.bounds {T : Table} {ents : List (List Dof)} (h : Tab T ents) {n : Nat} (hn : 0 < n) (hle : n ≤ ents.length) :
    T.bounds n = .ok (off ents (n - 1), off ents n) := by
  unfold Table.bounds
  rw [if_neg (by rw [h.ent]; omega), if_neg (by rw [h.plen]; omega), if_neg (by omega)]
  rw [Res.read_eq_ok.mpr (h.pos (n - 1) (by omega)), Res.read_eq_ok.mpr (h.pos n hle)]
  rfl

theorem scan_spec (l pre r post : List Dof) (t : DofType) (hl : l = pre ++ r ++ post) (i : Nat) (hi : i = pre.length) :
    (∃ k d, r[k]? = some d ∧ d.type = t ∧ (∀ k' < k, ∀ d', r[k']? = some d' → d'.type ≠ t) ∧
      scan l t i r.length = .ok (some (pre.length + k))) ∨
    (t ∉ r.map Dof.type ∧ scan l t i r.length = .ok none) := by
  induction r generalizing pre i with
  | nil => right; exact ⟨by simp, rfl⟩
  | cons d r ih =>
    subst hi
    have hrd : Res.read l pre.length = .ok d := by
      rw [Res.read_eq_ok, hl]; simp
    simp only [List.length_cons, scan, hrd, Res.ok_bind]
    by_cases hd : d.type = t
    · left
      exact ⟨0, d, rfl, hd, by simp, by rw [if_pos hd]; rfl⟩
    · rw [if_neg hd]
      rcases ih (pre ++ [d]) (by rw [hl]; simp) (pre.length + 1) (by simp) with
        ⟨k, d', h1, h2, h3, h4⟩ | ⟨h1, h2⟩
      · left
        refine ⟨k + 1, d', by simpa using h1, h2, ?_, by rw [h4]; congr 2; simp; omega⟩
        intro k' hk' d'' hd''
        cases k' with
        | zero =>
          rw [List.getElem?_cons_zero, Option.some.injEq] at hd''
          rw [← hd'']; exact hd
        | succ k' => exact h3 k' (by omega) d'' (by simpa using hd'')
      · right
        refine ⟨?_, h2⟩
        simp only [List.map_cons, List.mem_cons, not_or]
        exact ⟨fun e => hd e.symm, h1⟩

/-- Row `n` of the table. -/
theorem Tab.row {ents : List (List Dof)} {n : Nat} (hn : 0 < n) (hle : n ≤ ents.length) :
    ∃ r, ents[n - 1]? = some r ∧ off ents n - off ents (n - 1) = r.length ∧
      ents.flatten = (ents.take (n - 1)).flatten ++ r ++ (ents.drop n).flatten ∧ off ents n = off ents (n - 1) + r.length := by
  have hlt : n - 1 < ents.length := by omega
  have h1 := off_succ hlt
  rw [Nat.sub_add_cancel hn] at h1
  refine ⟨ents[n - 1], List.getElem?_eq_getElem hlt, by omega, ?_, h1⟩
  have := flat_split hlt
  rw [Nat.sub_add_cancel hn] at this
  exact this

theorem Tab.scan {T : Table} {ents : List (List Dof)} (h : Tab T ents) {n : Nat} (hn : 0 < n) (hle : n ≤ ents.length)
    {r : List Dof} (hr : ents[n - 1]? = some r) (t : DofType) :
    (∃ k d, r[k]? = some d ∧ d.type = t ∧
      Dof.scan T.dofs t (off ents (n - 1)) (off ents n - off ents (n - 1)) = .ok (some (off ents (n - 1) + k))) ∨
    (t ∉ r.map Dof.type ∧ Dof.scan T.dofs t (off ents (n - 1)) (off ents n - off ents (n - 1)) = .ok none) := by
  obtain ⟨r', h1, h2, h3, _⟩ := Tab.row hn hle
  rw [hr, Option.some.injEq] at h1
  subst h1
  rw [h2, h.dofs]
  rcases scan_spec _ _ r _ t h3 (off ents (n - 1)) rfl with ⟨k, d, g1, g2, _, g3⟩ | hh
  · left; exact ⟨k, d, g1, g2, g3⟩
  · right; exact hh

theorem Tab.missing {T : Table} {ents : List (List Dof)} (h : Tab T ents) {n : Nat} (hn : 0 < n) (hle : n ≤ ents.length)
    {r : List Dof} (hr : ents[n - 1]? = some r) (ts : List DofType) :
    Dof.missing T.dofs (off ents (n - 1)) (off ents n) ts = .ok (ts.filter (· ∉ r.map Dof.type)) := by
  induction ts with
  | nil => rfl
  | cons t ts ih =>
    simp only [Dof.missing, ih]
    rcases h.scan hn hle hr t with ⟨k, d, g1, g2, g3⟩ | ⟨g1, g2⟩
    · have : t ∈ r.map Dof.type := by
        rw [← g2]; exact List.mem_map_of_mem (List.mem_of_getElem? g1)
      rw [g3, List.filter_cons_of_neg (by simpa using this)]
      rfl
    · rw [g2, List.filter_cons_of_pos (by simpa using g1)]
      rfl

/-- Effect of `addDof`: the missing types are appended to the entity's list. -/
theorem Tab.addDof {T : Table} {ents : List (List Dof)} (h : Tab T ents) {n : Nat} (hn : 0 < n) (hle : n ≤ ents.length)
    (ts : List DofType) :
    ∃ r, ents[n - 1]? = some r ∧ ∃ T', T.addDof n ts = .ok T' ∧
      Tab T' (ents.set (n - 1) (r ++ ((setOrder ts).filter (· ∉ r.map Dof.type)).map Dof.new)) := by
  obtain ⟨r, hr, hlen, hflat, hoff⟩ := Tab.row hn hle
  have hlt : n - 1 < ents.length := by omega
  have hre : ents[n - 1] = r := by rw [List.getElem?_eq_getElem hlt, Option.some.injEq] at hr; exact hr
  refine ⟨r, hr, ?_⟩
  set new := (setOrder ts).filter (· ∉ r.map Dof.type) with hnew
  have hnewEq : T.newTypes (off ents (n - 1)) (off ents n) ts = .ok new := by
    unfold Table.newTypes
    by_cases he : off ents (n - 1) = off ents n
    · rw [if_pos he]
      have : r = [] := List.eq_nil_of_length_eq_zero (by omega)
      rw [hnew, this]
      simp
    · rw [if_neg he]
      exact h.missing hn hle hr _
  unfold Table.addDof
  rw [h.bounds hn hle]
  simp only [Res.ok_bind]
  rw [hnewEq]
  simp only [Res.ok_bind]
  by_cases he : new = []
  · rw [if_pos he]
    refine ⟨T, rfl, ?_⟩
    rw [he]
    simp only [List.map_nil, List.append_nil, ← hre, List.set_getElem_self]
    exact h
  · rw [if_neg he, if_neg (by rw [h.dofs]; have := off_le ents n; omega)]
    refine ⟨_, rfl, ?_⟩
    have hnd : ((r ++ new.map Dof.new).map Dof.type).Nodup := by
      rw [List.map_append, List.map_map]
      have hid : (Dof.type ∘ Dof.new) = id := rfl
      rw [hid, List.map_id, List.nodup_append]
      refine ⟨h.nodup r (List.mem_of_getElem? hr), (setOrder_nodup ts).filter _, ?_⟩
      intro a ha b hb hab
      subst hab
      rw [hnew, List.mem_filter] at hb
      simp only [decide_eq_true_eq] at hb
      exact hb.2 ha
    have htypes : (r ++ new.map Dof.new).map Dof.type = r.map Dof.type ++ new := by
      rw [List.map_append, List.map_map]
      have hid : (Dof.type ∘ Dof.new) = id := rfl
      rw [hid, List.map_id]
    constructor
    · simp [h.ent]
    · simp only
      have hfs := flat_set hlt (r ++ new.map Dof.new)
      rw [Nat.sub_add_cancel hn] at hfs
      rw [hfs, h.dofs, take_off, drop_off]
      have : (ents.take n).flatten = (ents.take (n - 1)).flatten ++ r := by
        conv_lhs => rw [← Nat.sub_add_cancel hn]
        rw [List.take_succ_eq_append_getElem hlt, hre]
        simp
      rw [this]
      simp
    · simp [h.plen]
    · intro i hi
      simp only [List.length_set] at hi
      simp only
      rw [List.getElem?_mapIdx, h.pos i hi]
      simp only [Option.map_some, Option.some.injEq]
      rw [off_set hlt, hre, h.ent]
      by_cases hni : n ≤ i
      · rw [if_pos ⟨hni, hi⟩, if_neg (by omega)]
        have hm : off ents n ≤ off ents i := off_mono hni
        simp only [List.length_append, List.length_map]
        omega
      · rw [if_neg (by omega), if_pos (by omega)]
    · intro r' hr'
      rcases List.mem_or_eq_of_mem_set hr' with hr' | rfl
      · exact h.nodup r' hr'
      · exact hnd
    · simp only
      rw [flat_set hlt, h.used, flat_split hlt, hre]
      simp only [List.length_append, List.length_map]
      omega
    · intro t
      simp only [List.mem_filter, DofType.mem_all, true_and, decide_eq_true_eq]
      rw [h.uniq]
      constructor
      · rintro (⟨r', hr', ht⟩ | ht)
        · obtain ⟨k, hk, rfl⟩ := List.mem_iff_getElem.mp hr'
          by_cases hkn : n - 1 = k
          · subst hkn
            refine ⟨_, List.mem_set hlt _, ?_⟩
            rw [htypes, ← hre]
            exact List.mem_append_left _ ht
          · refine ⟨ents[k], ?_, ht⟩
            rw [List.mem_iff_getElem]
            exact ⟨k, by simpa using hk, by rw [List.getElem_set_ne hkn]⟩
        · refine ⟨_, List.mem_set hlt _, ?_⟩
          rw [htypes, List.mem_append, hnew, List.mem_filter, mem_setOrder]
          by_cases htr : t ∈ r.map Dof.type
          · exact Or.inl htr
          · exact Or.inr ⟨ht, by simpa using htr⟩
      · rintro ⟨r', hr', ht⟩
        rcases List.mem_or_eq_of_mem_set hr' with hr' | rfl
        · exact Or.inl ⟨r', hr', ht⟩
        · rw [htypes, List.mem_append] at ht
          rcases ht with ht | ht
          · exact Or.inl ⟨r, List.mem_of_getElem? hr, ht⟩
          · rw [hnew, List.mem_filter, mem_setOrder] at ht
            exact Or.inr ht.1
    · simp only
      exact DofType.all_nodup.filter _

/-! ## Lookup -/

/-- The record of type `t` in a list with distinct types. -/
def pick (r : List Dof) (t : DofType) : Option Dof := r.find? (fun d => d.type = t)

/-- The record of `(n, t)`. -/
def look (ents : List (List Dof)) (n : Nat) (t : DofType) : Option Dof :=
  if n = 0 then none else (ents[n - 1]?).bind (fun r => pick r t)

theorem pick_eq_some {r : List Dof} (hnd : (r.map Dof.type).Nodup) {t : DofType} {d : Dof} :
    pick r t = some d ↔ d ∈ r ∧ d.type = t := by
  unfold pick
  constructor
  · intro h
    exact ⟨List.mem_of_find?_eq_some h, by simpa using List.find?_some h⟩
  · rintro ⟨h1, h2⟩
    cases hf : r.find? (fun d => d.type = t) with
    | none =>
      rw [List.find?_eq_none] at hf
      exact absurd h2 (by simpa using hf d h1)
    | some d' =>
      have h3 := List.mem_of_find?_eq_some hf
      have h4 : d'.type = t := by simpa using List.find?_some hf
      congr 1
      exact List.inj_on_of_nodup_map hnd h3 h1 (by rw [h4, h2])

theorem pick_eq_none {r : List Dof} {t : DofType} : pick r t = none ↔ t ∉ r.map Dof.type := by
  unfold pick
  rw [List.find?_eq_none]
  simp only [decide_eq_true_eq, List.mem_map, not_exists, not_and]

theorem pick_append {r s : List Dof} {t : DofType} : pick (r ++ s) t = (pick r t).or (pick s t) := by
  unfold pick
  rw [List.find?_append]

theorem pick_new {ts : List DofType} {t : DofType} :
    pick (ts.map Dof.new) t = if t ∈ ts then some (Dof.new t) else none := by
  unfold pick
  induction ts with
  | nil => rfl
  | cons s ts ih =>
    simp only [List.map_cons, List.find?_cons]
    by_cases h : s = t
    · subst h; simp [Dof.new]
    · have h' : (Dof.new s).type ≠ t := h
      simp only [h', decide_false, ih, List.mem_cons]
      have : (t = s ∨ t ∈ ts) ↔ t ∈ ts := ⟨fun hh => hh.resolve_left (fun e => h e.symm), Or.inr⟩
      simp only [this]

theorem Tab.deref {T : Table} {ents : List (List Dof)} (h : Tab T ents) {n : Nat} (hn : 0 < n) (hle : n ≤ ents.length)
    (t : DofType) : T.deref n t = .ok (look ents n t) := by
  obtain ⟨r, hr, _⟩ := Tab.row hn hle
  have hlt : n - 1 < ents.length := by omega
  have hre : ents[n - 1] = r := by rw [List.getElem?_eq_getElem hlt, Option.some.injEq] at hr; exact hr
  have hlook : look ents n t = pick r t := by
    unfold look; rw [if_neg (by omega), hr]; rfl
  have hnd := h.nodup r (List.mem_of_getElem? hr)
  unfold Table.deref Table.getDof
  rw [h.bounds hn hle, hlook]
  simp only [Res.ok_bind]
  rcases h.scan hn hle hr t with ⟨k, d, g1, g2, g3⟩ | ⟨g1, g2⟩
  · rw [g3]
    simp only [Res.ok_bind]
    have hk : k < r.length := (List.getElem?_eq_some_iff.mp g1).1
    have : T.dofs[off ents (n - 1) + k]? = some d := by
      rw [h.dofs, flat_get hlt (by rw [hre]; exact hk)]
      simp only [hre]
      rw [← List.getElem?_eq_getElem hk]; exact g1
    rw [Res.read_eq_ok.mpr this]
    simp only [Res.ok_bind]
    rw [(pick_eq_some hnd).mpr ⟨List.mem_of_getElem? g1, g2⟩]
  · rw [g2]
    simp only [Res.ok_bind]
    rw [pick_eq_none.mpr g1]

theorem Tab.getDof {T : Table} {ents : List (List Dof)} (h : Tab T ents) {n : Nat} (hn : 0 < n) (hle : n ≤ ents.length)
    (t : DofType) : ∃ o, T.getDof n t = .ok o ∧ (o.isSome ↔ (look ents n t).isSome) := by
  obtain ⟨r, hr, _⟩ := Tab.row hn hle
  have hlook : look ents n t = pick r t := by
    unfold look; rw [if_neg (by omega), hr]; rfl
  have hnd := h.nodup r (List.mem_of_getElem? hr)
  unfold Table.getDof
  rw [h.bounds hn hle, hlook]
  simp only [Res.ok_bind]
  rcases h.scan hn hle hr t with ⟨k, d, g1, g2, g3⟩ | ⟨g1, g2⟩
  · refine ⟨_, g3, ?_⟩
    rw [(pick_eq_some hnd).mpr ⟨List.mem_of_getElem? g1, g2⟩]
    simp
  · refine ⟨_, g2, ?_⟩
    rw [pick_eq_none.mpr g1]
    simp

theorem Tab.isDofUsed {T : Table} {ents : List (List Dof)} (h : Tab T ents) {n : Nat} (hn : 0 < n) (hle : n ≤ ents.length)
    (t : DofType) : T.isDofUsed n t = .ok (look ents n t).isSome := by
  obtain ⟨r, hr, hl, _, hoff⟩ := Tab.row hn hle
  have hlook : look ents n t = pick r t := by
    unfold look; rw [if_neg (by omega), hr]; rfl
  have hnd := h.nodup r (List.mem_of_getElem? hr)
  unfold Table.isDofUsed
  rw [h.bounds hn hle, hlook]
  simp only [Res.ok_bind]
  by_cases he : off ents (n - 1) = off ents n
  · rw [if_pos he]
    have : r = [] := List.eq_nil_of_length_eq_zero (by omega)
    rw [this]; rfl
  · rw [if_neg he]
    rcases h.scan hn hle hr t with ⟨k, d, g1, g2, g3⟩ | ⟨g1, g2⟩
    · rw [g3, (pick_eq_some hnd).mpr ⟨List.mem_of_getElem? g1, g2⟩]; rfl
    · rw [g2, pick_eq_none.mpr g1]; rfl

theorem Tab.entityDofs {T : Table} {ents : List (List Dof)} (h : Tab T ents) {n : Nat} (hn : 0 < n) (hle : n ≤ ents.length) :
    ∃ r, ents[n - 1]? = some r ∧ T.entityDofs n = .ok r := by
  obtain ⟨r, hr, hl, hflat, hoff⟩ := Tab.row hn hle
  refine ⟨r, hr, ?_⟩
  unfold Table.entityDofs
  rw [if_neg (by omega), h.bounds hn hle]
  simp only [Res.ok_bind]
  rw [if_pos (by rw [h.dofs]; exact off_le _ _), h.dofs]
  congr 1
  rw [hflat, hoff]
  have : off ents (n - 1) = (ents.take (n - 1)).flatten.length := rfl
  rw [this, ← List.length_append, List.take_left, List.drop_left]

theorem look_addDof {ents : List (List Dof)} {n : Nat} (hn : 0 < n) (hle : n ≤ ents.length) {r : List Dof}
    (hr : ents[n - 1]? = some r) (ts : List DofType) (m : Nat) (t : DofType) :
    look (ents.set (n - 1) (r ++ ((setOrder ts).filter (· ∉ r.map Dof.type)).map Dof.new)) m t =
      if m = n ∧ t ∈ ts ∧ look ents m t = none then some (Dof.new t) else look ents m t := by
  unfold look
  by_cases hm0 : m = 0
  · subst hm0
    rw [if_pos rfl, if_neg (by omega)]
    rfl
  · simp only [if_neg hm0]
    by_cases hmn : m = n
    · subst hmn
      rw [List.getElem?_set_self (by omega), hr]
      simp only [Option.bind_some, pick_append, pick_new, List.mem_filter, mem_setOrder, decide_eq_true_eq, true_and]
      cases hp : pick r t with
      | some d => simp
      | none =>
        have := pick_eq_none.mp hp
        simp [this]
    · rw [List.getElem?_set_ne (by omega), if_neg (by tauto)]

/-- Writing through the pointer of a registered DoF (the type must not change). -/
theorem Tab.modify {T : Table} {ents : List (List Dof)} (h : Tab T ents) {n : Nat} (hn : 0 < n) (hle : n ≤ ents.length)
    {t : DofType} {f : Dof → Dof} (hf : ∀ d, (f d).type = d.type) {d : Dof} (hd : look ents n t = some d) :
    ∃ (T' : Table) (ents' : List (List Dof)), T.modify n t f = .ok T' ∧ Tab T' ents' ∧ ents'.length = ents.length ∧ T'.used = T.used ∧
      T'.uniq = T.uniq ∧ (∀ i : Nat, (ents'[i]?).map (List.map Dof.type) = (ents[i]?).map (List.map Dof.type)) ∧
      (∀ m s, look ents' m s = if m = n ∧ s = t then some (f d) else look ents m s) := by
  obtain ⟨r, hr, _⟩ := Tab.row hn hle
  have hlt : n - 1 < ents.length := by omega
  have hre : ents[n - 1] = r := by rw [List.getElem?_eq_getElem hlt, Option.some.injEq] at hr; exact hr
  have hlook : look ents n t = pick r t := by
    unfold look; rw [if_neg (by omega), hr]; rfl
  have hnd := h.nodup r (List.mem_of_getElem? hr)
  rw [hlook] at hd
  rcases h.scan hn hle hr t with ⟨k, d', g1, g2, g3⟩ | ⟨g1, g2⟩
  · have hd' : d' = d := by
      have := (pick_eq_some hnd).mpr ⟨List.mem_of_getElem? g1, g2⟩
      rw [hd, Option.some.injEq] at this; exact this.symm
    subst hd'
    have hk : k < r.length := (List.getElem?_eq_some_iff.mp g1).1
    have hrk : r[k] = d' := (List.getElem?_eq_some_iff.mp g1).2
    have hrd : T.dofs[off ents (n - 1) + k]? = some d' := by
      rw [h.dofs, flat_get hlt (by rw [hre]; exact hk)]
      simp only [hre]
      rw [← List.getElem?_eq_getElem hk]; exact g1
    have htypes : (r.set k (f d')).map Dof.type = r.map Dof.type := by
      rw [List.map_set, hf d', ← hrk]
      apply List.ext_getElem?
      intro i
      by_cases hik : k = i
      · subst hik
        rw [List.getElem?_set_self (by simpa using hk)]
        simp [hk]
      · rw [List.getElem?_set_ne hik]
    have hflat : (ents.set (n - 1) (r.set k (f d'))).flatten = ents.flatten.set (off ents (n - 1) + k) (f d') := by
      rw [flat_set hlt, flat_split hlt, hre]
      unfold off
      rw [List.append_assoc, List.append_assoc, List.set_append_right _ _ (by omega)]
      rw [Nat.add_sub_cancel_left, List.set_append_left _ _ hk]
    have hnd' : ((r.set k (f d')).map Dof.type).Nodup := by rw [htypes]; exact hnd
    refine ⟨{ T with dofs := T.dofs.set (off ents (n - 1) + k) (f d') }, ents.set (n - 1) (r.set k (f d')), ?_, ?_, by simp,
      rfl, rfl, ?_, ?_⟩
    · unfold Table.modify Table.getDof
      rw [h.bounds hn hle]
      simp only [Res.ok_bind]
      rw [g3]
      simp only [Res.ok_bind]
      rw [Res.read_eq_ok.mpr hrd]
      rfl
    · constructor
      · simpa using h.ent
      · simp only; rw [hflat, h.dofs]
      · simpa using h.plen
      · intro i hi
        simp only [List.length_set] at hi
        simp only
        rw [h.pos i hi, off_set hlt, hre]
        simp only [List.length_set]
        by_cases hin : i ≤ n - 1
        · rw [if_pos hin]
        · rw [if_neg hin]
          have h1 : off ents n ≤ off ents i := off_mono (by omega)
          have h2 := off_succ hlt
          rw [Nat.sub_add_cancel hn, hre] at h2
          congr 1
          omega
      · intro r' hr'
        rcases List.mem_or_eq_of_mem_set hr' with hr' | rfl
        · exact h.nodup r' hr'
        · exact hnd'
      · simp only; rw [hflat, List.length_set]; exact h.used
      · intro t'
        simp only
        rw [h.uniq]
        constructor
        · rintro ⟨r', hr', ht⟩
          obtain ⟨i, hi, rfl⟩ := List.mem_iff_getElem.mp hr'
          by_cases hin : n - 1 = i
          · subst hin
            exact ⟨_, List.mem_set hlt _, by rw [htypes, ← hre]; exact ht⟩
          · refine ⟨ents[i], ?_, ht⟩
            rw [List.mem_iff_getElem]
            exact ⟨i, by simpa using hi, by rw [List.getElem_set_ne hin]⟩
        · rintro ⟨r', hr', ht⟩
          rcases List.mem_or_eq_of_mem_set hr' with hr' | rfl
          · exact ⟨r', hr', ht⟩
          · rw [htypes] at ht
            exact ⟨r, List.mem_of_getElem? hr, ht⟩
      · exact h.unodup
    · intro i
      by_cases hin : n - 1 = i
      · subst hin
        rw [List.getElem?_set_self hlt, hr]
        simp only [Option.map_some, htypes]
      · rw [List.getElem?_set_ne hin]
    · intro m s
      unfold look
      by_cases hm0 : m = 0
      · subst hm0
        rw [if_pos rfl, if_neg (by omega)]
        rfl
      · simp only [if_neg hm0]
        by_cases hmn : m = n
        · subst hmn
          rw [List.getElem?_set_self hlt, hr]
          simp only [Option.bind_some, true_and]
          by_cases hst : s = t
          · subst hst
            rw [if_pos rfl, pick_eq_some hnd']
            exact ⟨List.mem_set hk _, by rw [hf, g2]⟩
          · rw [if_neg hst]
            cases hp : pick r s with
            | none =>
              rw [pick_eq_none] at hp ⊢
              rw [htypes]; exact hp
            | some e =>
              rw [pick_eq_some hnd] at hp
              rw [pick_eq_some hnd']
              refine ⟨?_, hp.2⟩
              obtain ⟨i, hi, hie⟩ := List.mem_iff_getElem.mp hp.1
              rw [List.mem_iff_getElem]
              refine ⟨i, by simpa using hi, ?_⟩
              rw [List.getElem_set_ne]
              · exact hie
              · rintro rfl
                rw [hrk] at hie
                rw [← hie, g2] at hp
                exact hst hp.2.symm
        · rw [List.getElem?_set_ne (by omega), if_neg (by tauto)]
  · rw [pick_eq_none.mpr g1] at hd
    simp at hd

end Nla3d.Dof
