import Verif.Storage.Sim
import Mathlib.Data.Set.Function
import Mathlib.Order.Interval.Finset.Nat

/-!
# The numbering pass
-/

namespace Nla3d.Storage

open Nla3d.Dof Nla3d.Block

variable {K : Type}

/-- Value of the map at a key. -/
def at' (A : Side → Spec) (k : Key) : Option (Nat × Bool) := A k.1 k.2.1 k.2.2

/-- Update of the map at one key. -/
def upd (A : Side → Spec) (k : Key) (v : Nat × Bool) : Side → Spec :=
  fun s n t => if (s, n, t) = k then some v else A s n t

theorem at_upd (A : Side → Spec) (k k' : Key) (v : Nat × Bool) :
    at' (upd A k v) k' = if k' = k then some v else at' A k' := by
  unfold at' upd; rfl

theorem simS_upd {S : Storage K} {A : Side → Spec} (h : SimS S A) {k : Key} {e : Nat} {c : Bool}
    (hs : at' A k = some (e, c)) {f : Nat × Bool → Nat × Bool} (g : Dof → Dof)
    (hg : ∀ d, g d = ⟨(f (d.eq, d.constrained)).1, (f (d.eq, d.constrained)).2, d.type⟩) :
    ∃ T, (S.tab k.1).modify k.2.1 k.2.2 g = .ok T ∧ SimS (S.setTab k.1 T) (upd A k (f (e, c))) := by
  obtain ⟨s, n, t⟩ := k
  have hr := sim_range (h s) (n := n) (t := t) (by simp only [at'] at hs; rw [hs]; rfl)
  obtain ⟨T', e1, _, _, e2⟩ := sim_modify (h s) hr hs (f := f) g hg
  refine ⟨T', e1, ?_⟩
  have := h.setTab e2
  have heq : (fun s' => if s' = s then (fun m t' => if m = n ∧ t' = t then some (f (e, c)) else A s m t') else A s') =
      upd A (s, n, t) (f (e, c)) := by
    funext s' m t'
    simp only [upd, Prod.mk.injEq]
    by_cases hs' : s' = s
    · subst hs'; simp
    · simp [hs']
  rw [← heq]
  exact this

/-! ## Constraining -/

/-- The map after registrations and constraints. -/
def conMap (keys cs : List Key) : Side → Spec :=
  fun s n t => if (s, n, t) ∈ keys then some (0, decide ((s, n, t) ∈ cs)) else none

theorem constrain_run {keys : List Key} {base : Nat} : ∀ (cs : List Key) (S : Storage K) (done : List Key),
    SimS S (conMap keys done) → S.nConstr = base + done.toFinset.card → (∀ k ∈ cs, k ∈ keys) →
    ∃ S', Res.foldlM' (fun (S : Storage K) (k : Key) => S.setConstrained k.1 k.2.1 k.2.2) S cs = .ok S' ∧
      SimS S' (conMap keys (done ++ cs)) ∧ SameMesh S S' ∧ S'.mpcs = S.mpcs ∧
      S'.nConstr = base + (done ++ cs).toFinset.card ∧ S'.nDofs = S.nDofs := by
  intro cs
  induction cs with
  | nil => intro S done h hc _; exact ⟨S, rfl, by simpa using h, SameMesh.refl S, rfl, by simpa using hc, rfl⟩
  | cons k cs ih =>
    intro S done h hc hk
    have hkey : k ∈ keys := hk k (by simp)
    obtain ⟨s, n, t⟩ := k
    have hat : at' (conMap keys done) (s, n, t) = some (0, decide ((s, n, t) ∈ done)) := by
      simp [at', conMap, hkey]
    have hr := sim_range (h s) (n := n) (t := t) (by simp only [at'] at hat; rw [hat]; rfl)
    have happ : done ++ (s, n, t) :: cs = (done ++ [(s, n, t)]) ++ cs := by simp
    rw [Res.foldlM'_cons, happ]
    simp only
    unfold Storage.setConstrained
    rw [sim_deref (h s) hr]
    simp only [at'] at hat
    rw [hat]
    simp only [Option.map_some, Res.ok_bind]
    by_cases hd : (s, n, t) ∈ done
    · simp only [hd, decide_true, if_true, Res.ok_bind]
      have heq : conMap keys (done ++ [(s, n, t)]) = conMap keys done := by
        funext s' n' t'
        simp only [conMap, List.mem_append, List.mem_singleton]
        by_cases hh : ((s', n', t') : Key) = (s, n, t)
        · rw [hh]; simp [hd]
        · simp [hh]
      obtain ⟨S', f1, f2, f3, f4, f5, f6⟩ := ih S (done ++ [(s, n, t)]) (by rw [heq]; exact h) (by
        rw [hc]; congr 2; ext x; simp only [List.mem_toFinset, List.mem_append, List.mem_singleton]
        constructor
        · exact Or.inl
        · rintro (hx | rfl)
          · exact hx
          · exact hd) (fun k hk' => hk k (by simp [hk']))
      exact ⟨S', f1, f2, f3, f4, f5, f6⟩
    · simp only [hd, decide_false, Bool.false_eq_true, if_false]
      obtain ⟨T, e1, e2⟩ := simS_upd h (k := (s, n, t)) (e := 0) (c := false) (by simp [at', conMap, hkey, hd])
        (f := fun p => (p.1, true)) (fun d => { d with constrained := true }) (fun d => rfl)
      simp only at e1
      rw [e1]
      simp only [Res.ok_bind]
      have heq : upd (conMap keys done) (s, n, t) (0, true) = conMap keys (done ++ [(s, n, t)]) := by
        funext s' n' t'
        simp only [upd, conMap, List.mem_append, List.mem_singleton]
        by_cases hh : ((s', n', t') : Key) = (s, n, t)
        · rw [hh]; simp [hkey]
        · simp [hh]
      simp only at e2
      rw [heq] at e2
      obtain ⟨S', f1, f2, f3, f4, f5, f6⟩ := ih { S.setTab s T with nConstr := S.nConstr + 1 } (done ++ [(s, n, t)])
        (e2.congr rfl rfl rfl rfl) (by
          simp only
          rw [hc, List.toFinset_append, Finset.union_comm]
          have : ([(s, n, t)] : List Key).toFinset ∪ done.toFinset = insert (s, n, t) done.toFinset := by
            ext x; simp
          rw [this, Finset.card_insert_of_notMem (by simpa using hd)]
          omega) (fun k hk' => hk k (by simp [hk']))
      refine ⟨S', f1, f2, SameMesh.trans ?_ f3, by rw [f4]; simp, f5, by rw [f6]; simp⟩
      exact ⟨(SameMesh.setTab S s T).nNodes, (SameMesh.setTab S s T).elements, (SameMesh.setTab S s T).transient⟩

/-! ## Numbering -/

/-- Equation number stored for a key. -/
def num (A : Side → Spec) (k : Key) : Nat := ((at' A k).map Prod.fst).getD 0

/-- Is the key registered and constrained (`true`) / unconstrained (`false`)? -/
def flag (A : Side → Spec) (b : Bool) (k : Key) : Bool := decide ((at' A k).map Prod.snd = some b)

theorem number_run : ∀ (L : List Key) (S : Storage K) (A : Side → Spec) (c u : Nat), SimS S A → L.Nodup →
    (∀ k ∈ L, 0 < k.2.1 ∧ k.2.1 ≤ S.size k.1) →
    ∃ S' A', Res.foldlM' numberOne (S, c, u) L =
        .ok (S', c + (L.filter (flag A true)).length, u + (L.filter (flag A false)).length) ∧
      SimS S' A' ∧ SameMesh S S' ∧ S'.mpcs = S.mpcs ∧ S'.nConstr = S.nConstr ∧ S'.nDofs = S.nDofs ∧
      S'.nUnknown = S.nUnknown ∧ (∀ k, (at' A' k).map Prod.snd = (at' A k).map Prod.snd) ∧
      (∀ k, k ∉ L → at' A' k = at' A k) ∧
      (L.filter (flag A true)).map (num A') = List.range' c (L.filter (flag A true)).length ∧
      (L.filter (flag A false)).map (num A') = List.range' u (L.filter (flag A false)).length := by
  intro L
  induction L with
  | nil =>
    intro S A c u h _ _
    exact ⟨S, A, rfl, h, SameMesh.refl S, rfl, rfl, rfl, rfl, fun _ => rfl, fun _ _ => rfl, rfl, rfl⟩
  | cons k L ih =>
    intro S A c u h hnd hr
    have hk := hr k (by simp)
    have hkL : k ∉ L := (List.nodup_cons.mp hnd).1
    have hstep := sim_deref (h k.1) hk k.2.2
    -- the number of any key is determined by the value at the key
    have hfin : ∀ (A1 A' : Side → Spec) (b : Bool), (∀ k, (at' A1 k).map Prod.snd = (at' A k).map Prod.snd) →
        L.filter (flag A1 b) = L.filter (flag A b) := by
      intro A1 A' b hh
      apply List.filter_congr
      intro x _
      unfold flag
      rw [hh]
    rw [Res.foldlM'_cons]
    cases hat : at' A k with
    | none =>
      have h1 : numberOne (S, c, u) k = .ok (S, c, u) := by
        unfold numberOne
        simp only
        rw [hstep]
        simp only [at'] at hat
        rw [hat]; rfl
      obtain ⟨S', A', e1, e2, e3, e4, e5, e6, e7, e8, e9, e10, e11⟩ := ih S A c u h (List.nodup_cons.mp hnd).2
        (fun k' hk' => hr k' (by simp [hk']))
      have hf : ∀ b, flag A b k = false := by intro b; simp [flag, hat]
      refine ⟨S', A', ?_, e2, e3, e4, e5, e6, e7, e8, fun k' hk' => e9 k' (fun hx => hk' (by simp [hx])), ?_, ?_⟩
      · rw [h1, Res.ok_bind, e1]; simp [hf]
      · simpa [List.filter_cons, hf] using e10
      · simpa [List.filter_cons, hf] using e11
    | some v =>
      obtain ⟨e, b⟩ := v
      cases b with
      | true =>
        obtain ⟨T, t1, t2⟩ := simS_upd h hat (f := fun p => (c, p.2)) (fun d => { d with eq := c }) (fun d => rfl)
        have h1 : numberOne (S, c, u) k = .ok (S.setTab k.1 T, c + 1, u) := by
          unfold numberOne
          simp only
          rw [hstep]
          simp only [at'] at hat
          rw [hat]
          simp only [Option.map_some, Res.ok_bind, if_true]
          rw [t1]; rfl
        have hsnd : ∀ k', (at' (upd A k (c, true)) k').map Prod.snd = (at' A k').map Prod.snd := by
          intro k'
          rw [at_upd]
          by_cases hh : k' = k
          · rw [if_pos hh, hh, hat]; rfl
          · rw [if_neg hh]
        obtain ⟨S', A', e1, e2, e3, e4, e5, e6, e7, e8, e9, e10, e11⟩ := ih (S.setTab k.1 T) _ (c + 1) u t2
          (List.nodup_cons.mp hnd).2 (fun k' hk' => by rw [setTab_size]; exact hr k' (by simp [hk']))
        simp only at e1 e8 e9 e10 e11
        rw [hfin _ A' true hsnd] at e1 e10
        rw [hfin _ A' false hsnd] at e1 e11
        have hft : flag A true k = true := by simp [flag, hat]
        have hff : flag A false k = false := by simp [flag, hat]
        refine ⟨S', A', ?_, e2, (SameMesh.setTab S k.1 T).trans e3, by rw [e4, setTab_mpcs], by rw [e5, setTab_nConstr],
          by rw [e6, setTab_nDofs], by rw [e7, setTab_nUnknown], fun k' => by rw [e8, hsnd], ?_, ?_, ?_⟩
        · rw [h1, Res.ok_bind, e1]
          simp only [List.filter_cons, hft, hff, if_true, Bool.false_eq_true, if_false, List.length_cons]
          congr 2
          congr 1
          omega
        · intro k' hk'
          rw [e9 k' (fun hx => hk' (by simp [hx])), at_upd, if_neg (fun hx => hk' (by simp [hx]))]
        · simp only [List.filter_cons, hft, if_true, List.map_cons, List.length_cons, List.range'_succ]
          rw [e10]
          congr 1
          unfold num
          rw [e9 k hkL, at_upd, if_pos rfl]; rfl
        · simpa [List.filter_cons, hff] using e11
      | false =>
        obtain ⟨T, t1, t2⟩ := simS_upd h hat (f := fun p => (u, p.2)) (fun d => { d with eq := u }) (fun d => rfl)
        have h1 : numberOne (S, c, u) k = .ok (S.setTab k.1 T, c, u + 1) := by
          unfold numberOne
          simp only
          rw [hstep]
          simp only [at'] at hat
          rw [hat]
          simp only [Option.map_some, Res.ok_bind, Bool.false_eq_true, if_false]
          rw [t1]; rfl
        have hsnd : ∀ k', (at' (upd A k (u, false)) k').map Prod.snd = (at' A k').map Prod.snd := by
          intro k'
          rw [at_upd]
          by_cases hh : k' = k
          · rw [if_pos hh, hh, hat]; rfl
          · rw [if_neg hh]
        obtain ⟨S', A', e1, e2, e3, e4, e5, e6, e7, e8, e9, e10, e11⟩ := ih (S.setTab k.1 T) _ c (u + 1) t2
          (List.nodup_cons.mp hnd).2 (fun k' hk' => by rw [setTab_size]; exact hr k' (by simp [hk']))
        simp only at e1 e8 e9 e10 e11
        rw [hfin _ A' true hsnd] at e1 e10
        rw [hfin _ A' false hsnd] at e1 e11
        have hft : flag A true k = false := by simp [flag, hat]
        have hff : flag A false k = true := by simp [flag, hat]
        refine ⟨S', A', ?_, e2, (SameMesh.setTab S k.1 T).trans e3, by rw [e4, setTab_mpcs], by rw [e5, setTab_nConstr],
          by rw [e6, setTab_nDofs], by rw [e7, setTab_nUnknown], fun k' => by rw [e8, hsnd], ?_, ?_, ?_⟩
        · rw [h1, Res.ok_bind, e1]
          simp only [List.filter_cons, hft, hff, if_true, Bool.false_eq_true, if_false, List.length_cons]
          congr 2
          congr 1
          omega
        · intro k' hk'
          rw [e9 k' (fun hx => hk' (by simp [hx])), at_upd, if_neg (fun hx => hk' (by simp [hx]))]
        · simpa [List.filter_cons, hft] using e10
        · simp only [List.filter_cons, hff, if_true, List.map_cons, List.length_cons, List.range'_succ]
          rw [e11]
          congr 1
          unfold num
          rw [e9 k hkL, at_upd, if_pos rfl]; rfl

theorem mem_loopKeys {s : Side} {N : Nat} {k : Key} :
    k ∈ loopKeys s N ↔ k.1 = s ∧ 0 < k.2.1 ∧ k.2.1 ≤ N ∧ k.2.2 ∈ DofType.list := by
  obtain ⟨s', n, t⟩ := k
  unfold loopKeys
  simp only [List.mem_flatMap, List.mem_range, List.mem_map, Prod.mk.injEq]
  constructor
  · rintro ⟨i, hi, t', ht, rfl, rfl, rfl⟩; exact ⟨rfl, by omega, by omega, ht⟩
  · rintro ⟨rfl, h1, h2, h3⟩; exact ⟨n - 1, by omega, t, h3, rfl, by omega, rfl⟩

theorem loopKeys_nodup (s : Side) (N : Nat) : (loopKeys s N).Nodup := by
  unfold loopKeys
  rw [List.nodup_flatMap]
  constructor
  · intro i _
    exact (by decide : DofType.list.Nodup).map (fun a b h => by simpa using h)
  · apply List.Nodup.pairwise_of_forall_ne List.nodup_range
    intro i _ j _ hij
    simp only [Function.onFun, List.disjoint_left, List.mem_map, not_exists, not_and]
    rintro k ⟨t, _, rfl⟩ t' _ h
    simp at h
    exact hij h.1.symm

/-- All keys the numbering pass visits. -/
def allKeys (nE nN : Nat) : List Key := loopKeys .elem nE ++ loopKeys .node nN

theorem allKeys_nodup (nE nN : Nat) : (allKeys nE nN).Nodup := by
  unfold allKeys
  rw [List.nodup_append]
  refine ⟨loopKeys_nodup _ _, loopKeys_nodup _ _, ?_⟩
  intro a ha b hb hab
  rw [mem_loopKeys] at ha hb
  rw [hab, hb.1] at ha
  simp at ha

theorem DofType.mem_list {t : DofType} : t ∈ DofType.list ↔ t ≠ .UNDEFINED := by cases t <;> decide

theorem mem_allKeys {S : Storage K} {k : Key} :
    k ∈ allKeys S.nElements S.nNodes ↔ 0 < k.2.1 ∧ k.2.1 ≤ S.size k.1 ∧ k.2.2 ≠ .UNDEFINED := by
  unfold allKeys
  rw [List.mem_append, mem_loopKeys, mem_loopKeys, DofType.mem_list]
  obtain ⟨s, n, t⟩ := k
  cases s <;> simp [Storage.size]

theorem numberMpcs_ok : ∀ (ms : List (Mpc K)) (next : Nat), (∀ m ∈ ms, m.eq ≠ []) →
    ∃ ms', numberMpcs next ms = .ok (ms', next + ms.length) ∧ ms'.map Mpc.eqNum = List.range' next ms.length ∧
      ms'.map (fun m => (m.eq, m.b)) = ms.map (fun m => (m.eq, m.b)) := by
  intro ms
  induction ms with
  | nil => intro next _; exact ⟨[], rfl, rfl, rfl⟩
  | cons m ms ih =>
    intro next h
    obtain ⟨ms', e1, e2, e3⟩ := ih (next + 1) (fun m' hm' => h m' (by simp [hm']))
    refine ⟨{ m with eqNum := next } :: ms', ?_, ?_, ?_⟩
    · simp only [numberMpcs]
      rw [if_neg (h m (by simp)), e1]
      simp only [Res.ok_bind, List.length_cons]
      congr 2
      omega
    · simp [e2, List.range'_succ]
    · simp [e3]

/-- A list of numbers that is a range gives a bijection. -/
theorem bijOn_of_range {L : List Key} {f : Key → Nat} {a n : Nat} (h : L.map f = List.range' a n) {P : Set Key}
    (hP : ∀ k, k ∈ P ↔ k ∈ L) : Set.BijOn f P (Set.Ico a (a + n)) := by
  refine ⟨?_, ?_, ?_⟩
  · intro k hk
    have : f k ∈ L.map f := List.mem_map_of_mem ((hP k).mp hk)
    rw [h, List.mem_range'_1] at this
    exact this
  · intro k hk k' hk' he
    have hnd : (L.map f).Nodup := by rw [h]; exact List.nodup_range'
    exact List.inj_on_of_nodup_map hnd ((hP k).mp hk) ((hP k').mp hk') he
  · intro m hm
    have : m ∈ L.map f := by rw [h, List.mem_range'_1]; exact hm
    obtain ⟨k, hk, rfl⟩ := List.mem_map.mp this
    exact ⟨k, (hP k).mpr hk, rfl⟩

end Nla3d.Storage
