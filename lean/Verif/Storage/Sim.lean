import Verif.Storage.Model
import Verif.Dof.Props

/-!
# The DoF tables of a storage as one finite map

`A : Side → Spec` maps (collection, entity, type) to (equation number, constrained).
-/

namespace Nla3d.Storage

open Nla3d.Dof Nla3d.Block

variable {K : Type}

/-- A degree of freedom: collection, entity, type. -/
abbrev Key := Side × Nat × DofType


/-- Number of entities of a collection. -/
def Storage.size (S : Storage K) : Side → Nat
  | .elem => S.nElements
  | .node => S.nNodes

/-- Both tables refine the map. -/
def SimS (S : Storage K) (A : Side → Spec) : Prop := ∀ s, Sim (S.tab s) (S.size s) (A s)

@[simp] theorem setTab_tab (S : Storage K) (s : Side) (T : Table) (s' : Side) :
    (S.setTab s T).tab s' = if s' = s then T else S.tab s' := by
  cases s <;> cases s' <;> rfl

@[simp] theorem setTab_size (S : Storage K) (s : Side) (T : Table) (s' : Side) :
    (S.setTab s T).size s' = S.size s' := by
  cases s <;> cases s' <;> rfl

theorem SimS.setTab {S : Storage K} {A : Side → Spec} (h : SimS S A) {s : Side} {T : Table} {a : Spec}
    (hT : Sim T (S.size s) a) : SimS (S.setTab s T) (fun s' => if s' = s then a else A s') := by
  intro s'
  rw [setTab_tab, setTab_size]
  by_cases hs : s' = s
  · subst hs; simpa using hT
  · simp only [if_neg hs]; exact h s'

theorem SimS.congr {S S' : Storage K} {A : Side → Spec} (h : SimS S A) (h1 : S'.elemT = S.elemT) (h2 : S'.nodeT = S.nodeT)
    (h3 : S'.nNodes = S.nNodes) (h4 : S'.elements = S.elements) : SimS S' A := by
  intro s
  have := h s
  cases s
  · simpa [Storage.tab, Storage.size, Storage.nElements, h1, h4] using this
  · simpa [Storage.tab, Storage.size, h2, h3] using this

/-- Writing through `getDof` with any function that keeps the type. -/
theorem sim_modify {T : Table} {N : Nat} {s : Spec} (h : Sim T N s) {n : Nat} {t : DofType} {e : Nat} {c : Bool}
    (hn : 0 < n ∧ n ≤ N) (hs : s n t = some (e, c)) {f : Nat × Bool → Nat × Bool} (g : Dof → Dof)
    (hg : ∀ d, g d = ⟨(f (d.eq, d.constrained)).1, (f (d.eq, d.constrained)).2, d.type⟩) :
    ∃ T', T.modify n t g = .ok T' ∧ T'.used = T.used ∧ T'.uniq = T.uniq ∧
      Sim T' N (fun m t' => if m = n ∧ t' = t then some (f (e, c)) else s m t') := by
  obtain ⟨ents, h1, h2, h3⟩ := h.tab
  have hd : ∃ d, look ents n t = some d ∧ d.eq = e ∧ d.constrained = c := by
    have := h3 n t
    rw [hs] at this
    cases hl : look ents n t with
    | none => rw [hl] at this; simp at this
    | some d => rw [hl] at this; simp at this; exact ⟨d, rfl, this.1, this.2⟩
  obtain ⟨d, hd, rfl, rfl⟩ := hd
  obtain ⟨T', ents', e1, e2, e3, e5, e6, _, e4⟩ := h1.modify hn.1 (by rw [h2]; exact hn.2) (t := t)
    (f := g) (fun d => by rw [hg]) hd
  refine ⟨T', e1, e5, e6, ents', e2, by omega, ?_⟩
  intro m t'
  rw [e4]
  by_cases hh : m = n ∧ t' = t
  · rw [if_pos hh, if_pos hh, hg]; rfl
  · rw [if_neg hh, if_neg hh, h3]

/-- Range of the registered keys. -/
theorem sim_range {T : Table} {N : Nat} {s : Spec} (h : Sim T N s) {n : Nat} {t : DofType} (hs : (s n t).isSome) :
    0 < n ∧ n ≤ N := by
  obtain ⟨ents, h1, h2, h3⟩ := h.tab
  rw [← h3] at hs
  unfold look at hs
  by_cases hn : n = 0
  · simp [hn] at hs
  · rw [if_neg hn] at hs
    refine ⟨by omega, ?_⟩
    by_contra hgt
    rw [List.getElem?_eq_none (by omega)] at hs
    simp at hs

theorem sim_deref {T : Table} {N : Nat} {s : Spec} (h : Sim T N s) {n : Nat} (hn : 0 < n ∧ n ≤ N) (t : DofType) :
    T.deref n t = .ok ((s n t).map (fun a => ⟨a.1, a.2, t⟩)) := (sim_answers h).get n t hn.1 hn.2

/-- `getNodeDofEqNumber` of a registered DoF. -/
theorem SimS.eqNumber {S : Storage K} {A : Side → Spec} (h : SimS S A) {s : Side} {n : Nat} {t : DofType} {e : Nat}
    {c : Bool} (hs : A s n t = some (e, c)) : S.eqNumber s n t = .ok e := by
  have hr := sim_range (h s) (n := n) (t := t) (by rw [hs]; rfl)
  have hu : 0 < (S.tab s).nUsed := by
    rw [(sim_answers (h s)).count]
    exact Finset.card_pos.mpr ⟨(n, t), mem_pairs.mpr ⟨hr.2, by rw [hs]; rfl⟩⟩
  unfold Storage.eqNumber
  rw [if_pos hu, sim_deref (h s) hr, hs]
  rfl

/-- An unregistered DoF has no equation number: null pointer dereference, or a failed assertion when the collection is
empty. -/
theorem SimS.eqNumber_none {S : Storage K} {A : Side → Spec} (h : SimS S A) {s : Side} {n : Nat} {t : DofType}
    (hs : A s n t = none) (hn : 0 < n ∧ n ≤ S.size s) :
    S.eqNumber s n t = if 0 < (S.tab s).nUsed then .ub else .assert := by
  unfold Storage.eqNumber
  rw [sim_deref (h s) hn, hs]
  rfl

/-! ## Registration -/

/-- The keys a list of registrations names. -/
def regKeys (calls : List RegCall) : List Key :=
  calls.flatMap (fun c => c.2.2.map (fun t => (c.1, c.2.1, t)))

theorem mem_regKeys {calls : List RegCall} {s : Side} {n : Nat} {t : DofType} :
    (s, n, t) ∈ regKeys calls ↔ ∃ ts, (s, n, ts) ∈ calls ∧ t ∈ ts := by
  unfold regKeys
  simp only [List.mem_flatMap, List.mem_map, Prod.mk.injEq]
  constructor
  · rintro ⟨⟨s', n', ts⟩, h1, t', h2, rfl, rfl, rfl⟩; exact ⟨ts, h1, h2⟩
  · rintro ⟨ts, h1, h2⟩; exact ⟨_, h1, t, h2, rfl, rfl, rfl⟩

/-- The registrations name existing entities. -/
def LegalReg (S : Storage K) (calls : List RegCall) : Prop := ∀ c ∈ calls, 0 < c.2.1 ∧ c.2.1 ≤ S.size c.1

/-- Members that the bookkeeping of DoFs does not touch. -/
structure SameMesh (S S' : Storage K) : Prop where
  nNodes : S'.nNodes = S.nNodes
  elements : S'.elements = S.elements
  transient : S'.transient = S.transient

theorem SameMesh.refl (S : Storage K) : SameMesh S S := ⟨rfl, rfl, rfl⟩

theorem SameMesh.trans {S S' S'' : Storage K} (h : SameMesh S S') (h' : SameMesh S' S'') : SameMesh S S'' :=
  ⟨h'.nNodes.trans h.nNodes, h'.elements.trans h.elements, h'.transient.trans h.transient⟩

theorem SameMesh.size {S S' : Storage K} (h : SameMesh S S') (s : Side) : S'.size s = S.size s := by
  cases s <;> simp [Storage.size, Storage.nElements, h.nNodes, h.elements]

theorem SameMesh.setTab (S : Storage K) (s : Side) (T : Table) : SameMesh S (S.setTab s T) := by
  cases s <;> exact ⟨rfl, rfl, rfl⟩

@[simp] theorem setTab_mpcs (S : Storage K) (s : Side) (T : Table) : (S.setTab s T).mpcs = S.mpcs := by cases s <;> rfl
@[simp] theorem setTab_nConstr (S : Storage K) (s : Side) (T : Table) : (S.setTab s T).nConstr = S.nConstr := by
  cases s <;> rfl
@[simp] theorem setTab_nDofs (S : Storage K) (s : Side) (T : Table) : (S.setTab s T).nDofs = S.nDofs := by cases s <;> rfl
@[simp] theorem setTab_nUnknown (S : Storage K) (s : Side) (T : Table) : (S.setTab s T).nUnknown = S.nUnknown := by
  cases s <;> rfl

theorem tab_entities {T : Table} {N : Nat} {s : Spec} (h : Sim T N s) : T.entities = N := by
  obtain ⟨ents, h1, h2, _⟩ := h.tab
  rw [h1.ent, h2]

/-- The map after registrations only. -/
def regMap (keys : List Key) : Side → Spec := fun s n t => if (s, n, t) ∈ keys then some (0, false) else none

theorem register_run : ∀ (calls : List RegCall) (S : Storage K) (keys : List Key), SimS S (regMap keys) →
    LegalReg S calls →
    ∃ S', Res.foldlM' (fun (S : Storage K) (c : RegCall) => S.addDof c.1 c.2.1 c.2.2) S calls = .ok S' ∧
      SimS S' (regMap (keys ++ regKeys calls)) ∧ SameMesh S S' ∧ S'.mpcs = S.mpcs ∧ S'.nConstr = S.nConstr := by
  intro calls
  induction calls with
  | nil => intro S keys h _; exact ⟨S, rfl, by simpa [regKeys] using h, SameMesh.refl S, rfl, rfl⟩
  | cons c calls ih =>
    intro S keys h hl
    obtain ⟨s, n, ts⟩ := c
    obtain ⟨hn0, hn1⟩ := hl (s, n, ts) (by simp)
    simp only at hn0 hn1
    obtain ⟨T', e1, e2⟩ := sim_step (h s) (c := .add n ts) ⟨hn0, hn1⟩
    have hstep : S.addDof s n ts = .ok (S.setTab s T') := by
      unfold Storage.addDof
      rw [if_pos (by rw [tab_entities (h s)]; omega)]
      simp only [exec] at e1
      rw [e1]; rfl
    have hsim : SimS (S.setTab s T') (regMap (keys ++ ts.map (fun t => (s, n, t)))) := by
      have := h.setTab e2
      have heq : (fun s' => if s' = s then specStep (regMap keys s) (.add n ts) else regMap keys s') =
          regMap (keys ++ ts.map (fun t => (s, n, t))) := by
        funext s' m t
        simp only [regMap, List.mem_append, List.mem_map, Prod.mk.injEq, specStep]
        by_cases hs : s' = s
        · subst hs
          simp only [if_true, true_and]
          by_cases hk : (s', m, t) ∈ keys
          · simp [hk]
          · by_cases hm : m = n ∧ t ∈ ts
            · obtain ⟨rfl, ht⟩ := hm
              simp [hk, ht]
            · have h2 : ¬ ∃ a ∈ ts, n = m ∧ a = t := by
                rintro ⟨a, h1, rfl, rfl⟩; exact hm ⟨rfl, h1⟩
              have h3 : ¬ (m = n ∧ t ∈ ts) := hm
              simp only [hk, h2, or_self, if_false, and_true]
              simp [h3]
        · rw [if_neg hs]
          have : (∃ a ∈ ts, s = s' ∧ n = m ∧ a = t) ↔ False := by
            simp only [iff_false, not_exists, not_and]
            intro a _ h1; exact absurd h1.symm hs
          simp only [this, or_false]
          rfl
      rw [← heq]
      exact this
    obtain ⟨S', f1, f2, f3, f4, f5⟩ := ih (S.setTab s T') _ hsim (by
      intro c hc
      rw [setTab_size]
      exact hl c (by simp [hc]))
    refine ⟨S', ?_, ?_, (SameMesh.setTab S s T').trans f3, by rw [f4, setTab_mpcs], by rw [f5, setTab_nConstr]⟩
    · rw [Res.foldlM'_cons, hstep]; exact f1
    · have : keys ++ regKeys ((s, n, ts) :: calls) = keys ++ ts.map (fun t => (s, n, t)) ++ regKeys calls := by
        simp [regKeys]
      rw [this]; exact f2

theorem addMpcs_run : ∀ (new : List (Mpc K)) (S : Storage K), (∀ m ∈ new, m.eq ≠ []) →
    Res.foldlM' Storage.addMpc S new = .ok { S with mpcs := S.mpcs ++ new } := by
  intro new
  induction new with
  | nil => intro S _; simp
  | cons m new ih =>
    intro S h
    rw [Res.foldlM'_cons]
    unfold Storage.addMpc
    rw [if_neg (h m (by simp)), Res.ok_bind]
    have := ih { S with mpcs := S.mpcs ++ [m] } (fun m' hm' => h m' (by simp [hm']))
    unfold Storage.addMpc at this
    rw [this]
    simp

theorem sim_pairs {T : Table} {N : Nat} {s : Spec} (h : Sim T N s) : T.nUsed = (pairs N s).card := (sim_answers h).count

/-- Number of registered keys, split by collection. -/
theorem card_keys (keys : List Key) (N : Side → Nat) (hr : ∀ s n t, (s, n, t) ∈ keys → n ≤ N s) :
    keys.toFinset.card = (pairs (N .elem) (regMap keys .elem)).card + (pairs (N .node) (regMap keys .node)).card := by
  classical
  have hinj : ∀ s : Side, Function.Injective (fun p : Nat × DofType => ((s, p.1, p.2) : Key)) := by
    rintro s ⟨a, b⟩ ⟨c, d⟩ h; simpa using h
  have he : keys.toFinset = (pairs (N .elem) (regMap keys .elem)).image (fun p => ((Side.elem, p.1, p.2) : Key)) ∪
      (pairs (N .node) (regMap keys .node)).image (fun p => ((Side.node, p.1, p.2) : Key)) := by
    ext ⟨s, n, t⟩
    simp only [List.mem_toFinset, Finset.mem_union, Finset.mem_image, Prod.exists, mem_pairs, Prod.mk.injEq]
    constructor
    · intro hk
      cases s
      · exact Or.inl ⟨n, t, ⟨hr _ _ _ hk, by simp [regMap, hk]⟩, rfl, rfl, rfl⟩
      · exact Or.inr ⟨n, t, ⟨hr _ _ _ hk, by simp [regMap, hk]⟩, rfl, rfl, rfl⟩
    · rintro (⟨n', t', ⟨_, h2⟩, rfl, rfl, rfl⟩ | ⟨n', t', ⟨_, h2⟩, rfl, rfl, rfl⟩)
      · by_contra hk; simp [regMap, hk] at h2
      · by_contra hk; simp [regMap, hk] at h2
  rw [he, Finset.card_union_of_disjoint, Finset.card_image_of_injective _ (hinj _),
    Finset.card_image_of_injective _ (hinj _)]
  rw [Finset.disjoint_left]
  rintro ⟨s, n, t⟩ h1 h2
  simp only [Finset.mem_image, Prod.exists, Prod.mk.injEq] at h1 h2
  obtain ⟨_, _, _, h1, _⟩ := h1
  obtain ⟨_, _, _, h2, _⟩ := h2
  rw [← h1] at h2
  simp at h2

/-- `initDofs` on registrations that name existing entities and proper types. -/
theorem initDofs_ok (S : Storage K) {calls : List RegCall} {new : List (Mpc K)} (hl : LegalReg S calls)
    (hu : ∀ c ∈ calls, DofType.UNDEFINED ∉ c.2.2) (hne : regKeys calls ≠ []) (hnew : ∀ m ∈ new, m.eq ≠ []) :
    ∃ S', S.initDofs calls new = .ok S' ∧ SimS S' (regMap (regKeys calls)) ∧ SameMesh S S' ∧
      S'.mpcs = S.mpcs ++ new ∧ S'.nConstr = S.nConstr ∧ S'.nDofs = (regKeys calls).toFinset.card := by
  have hmesh : ¬ (S.nNodes < 1 ∧ S.nElements < 1) := by
    intro hh
    obtain ⟨⟨s, n, t⟩, hk⟩ := List.exists_mem_of_ne_nil _ hne
    obtain ⟨ts, hc, _⟩ := mem_regKeys.mp hk
    have := hl _ hc
    simp only at this
    cases s
    · simp only [Storage.size] at this; omega
    · simp only [Storage.size] at this; omega
  let S0 : Storage K := { S with nodeT := S.nodeT.init S.nNodes, elemT := S.elemT.init S.nElements }
  have h0 : SimS S0 (regMap []) := by
    intro s
    have : regMap [] s = fun _ _ => none := by funext n t; simp [regMap]
    rw [this]
    cases s
    · exact sim_init S.elemT S.nElements
    · exact sim_init S.nodeT S.nNodes
  obtain ⟨S1, e1, e2, e3, e4, e5⟩ := register_run calls S0 [] h0 hl
  rw [List.nil_append] at e2
  have e6 := addMpcs_run new S1 hnew
  have hr : ∀ s n t, (s, n, t) ∈ regKeys calls → n ≤ S.size s := by
    intro s n t hk
    obtain ⟨ts, hc, _⟩ := mem_regKeys.mp hk
    exact (hl _ hc).2
  have hsz : ∀ s, S1.size s = S.size s := fun s => by rw [e3.size]; cases s <;> rfl
  have hcount : S1.elemT.nUsed + S1.nodeT.nUsed = (regKeys calls).toFinset.card := by
    rw [card_keys (regKeys calls) S.size hr]
    have a1 := sim_pairs (e2 .elem)
    have a2 := sim_pairs (e2 .node)
    rw [hsz] at a1 a2
    simp only [Storage.tab] at a1 a2
    rw [a1, a2]
  have hpos : 0 < (regKeys calls).toFinset.card := by
    obtain ⟨k, hk⟩ := List.exists_mem_of_ne_nil _ hne
    exact Finset.card_pos.mpr ⟨k, by simpa using hk⟩
  have htypes : ∀ s, DofType.UNDEFINED ∉ (S1.tab s).uniqueTypes := by
    intro s hh
    obtain ⟨n, _, _, h3⟩ := ((sim_answers (e2 s)).types .UNDEFINED).mp hh
    by_cases hk : (s, n, DofType.UNDEFINED) ∈ regKeys calls
    · obtain ⟨ts, h4, h5⟩ := mem_regKeys.mp hk
      exact hu _ h4 h5
    · simp [regMap, hk] at h3
  refine ⟨{ S1 with mpcs := S1.mpcs ++ new, nDofs := S1.elemT.nUsed + S1.nodeT.nUsed }, ?_, ?_, ?_, ?_, ?_, ?_⟩
  · unfold Storage.initDofs
    rw [if_neg hmesh]
    simp only
    rw [e1]
    simp only [Res.ok_bind, e6]
    rw [if_neg (by omega), if_neg]
    rintro (hh | hh)
    · exact htypes .node hh
    · exact htypes .elem hh
  · exact e2.congr rfl rfl rfl rfl
  · exact ⟨e3.nNodes, e3.elements, e3.transient⟩
  · simp only; rw [e4]
  · exact e5
  · exact hcount

end Nla3d.Storage
