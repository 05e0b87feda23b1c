import Verif.Solver.Vectors
import Verif.Storage.Props
import Verif.Gauss.Props

/-!
# What is assumed about a problem, and how results are read
-/

set_option linter.unusedSectionVars false

namespace Nla3d.Solver

open Nla3d.Dof Nla3d.Block Nla3d.Sparse Nla3d.Storage Nla3d.TimeCtl Finset

variable {K : Type}

/-- The DoF a boundary condition is about. -/
def keyOf (b : Bc K) : Key := (.node, b.node, b.dof)

/-- Sum of all loads given for a DoF. -/
def loadsOn [AddMonoid K] (k : Key) (loads : List (Bc K)) : K := ((loads.filter (fun b => keyOf b = k)).map Bc.value).sum

/-- The value of the last fix given for a DoF. -/
def lastFix (k : Key) (fixs : List (Bc K)) : Option K := ((fixs.filter (fun b => keyOf b = k)).map Bc.value).getLast?

/-- Two storages that differ only in matrices, vectors and MPC coefficients. -/
def Alike (S1 S : Storage K) : Prop :=
  S = { S1 with mat := S.mat, vecF := S.vecF, mpcs := S.mpcs, vecU := S.vecU, vecR := S.vecR }

/-- A contribution elements make: to a pair of DoFs attached to one element, or to the load of a DoF. -/
def ElemContrib (S1 : Storage K) (regs : List Key) (num : Key → Nat) : Contrib K → Prop
  | .mat w i j _ => Exists S1 w ∧ ∃ en k1 k2, k1 ∈ regs ∧ k2 ∈ regs ∧ Attached S1.elements en k1 ∧
      Attached S1.elements en k2 ∧ i = num k1 ∧ j = num k2
  | .load i _ => ∃ k ∈ regs, i = num k

/-- Elements contribute to DoFs of an element only, MPC collections change coefficients and right-hand sides only. -/
def LegalElems {E : Type} (el : Elems E K) (S1 : Storage K) (regs : List Key) (num : Key → Nat) : Prop :=
  ∀ e S, Alike S1 S → (∀ c ∈ el.build e S, ElemContrib S1 regs num c) ∧ (∀ c ∈ el.cm e S, ElemContrib S1 regs num c) ∧
    ∀ ms, SameShape ms (el.upd e S ms)

/-- A problem for a solver: a legal model, loads and fixes on registered DoFs, legal elements. -/
structure Problem [Zero K] {E : Type} (S0 : Storage K) (calls : List RegCall) (new : List (Mpc K)) (loads fixs : List (Bc K))
    (el : Elems E K) : Prop where
  legal : LegalModel S0 calls new (fixKeys fixs)
  loads : ∀ l ∈ loads, keyOf l ∈ regKeys calls
  elems : ∀ S1 num, S0.prepare calls new (fixKeys fixs) = .ok S1 →
    (∀ k ∈ regKeys calls, S1.eqNumber k.1 k.2.1 k.2.2 = .ok (num k)) → LegalElems el S1 (regKeys calls) num

/-- Component of a vector of the storage. -/
def comp [Zero K] (l : List K) (i : Nat) : K := l.getD (i - 1) 0

theorem loadTotal_eq [AddMonoid K] {regs : List Key} {num : Key → Nat} (hinj : ∀ k ∈ regs, ∀ k' ∈ regs, num k = num k' → k = k')
    {k : Key} (hk : k ∈ regs) : ∀ (loads : List (Bc K)), (∀ l ∈ loads, keyOf l ∈ regs) →
    loadTotal (fun b => num (keyOf b)) (num k) loads = loadsOn k loads := by
  intro loads
  induction loads with
  | nil => intro _; rfl
  | cons l ls ih =>
    intro h
    have hl := h l (by simp)
    unfold loadTotal loadsOn
    rw [ih (fun l' hl' => h l' (by simp [hl']))]
    by_cases hh : keyOf l = k
    · rw [if_pos (by rw [hh]), List.filter_cons_of_pos (by simpa using hh)]
      simp [loadsOn]
    · rw [if_neg (fun hc => hh (hinj _ hl _ hk hc)), List.filter_cons_of_neg (by simpa using hh), zero_add]
      rfl

theorem loadTotal_none [AddMonoid K] {nm : Bc K → Nat} {i : Nat} : ∀ (loads : List (Bc K)), (∀ l ∈ loads, nm l ≠ i) →
    loadTotal nm i loads = 0 := by
  intro loads
  induction loads with
  | nil => intro _; rfl
  | cons l ls ih =>
    intro h
    unfold loadTotal
    rw [ih (fun l' hl' => h l' (by simp [hl'])), if_neg (h l (by simp)), add_zero]

theorem fixLast_eq {regs : List Key} {num : Key → Nat} (hinj : ∀ k ∈ regs, ∀ k' ∈ regs, num k = num k' → k = k')
    {k : Key} (hk : k ∈ regs) : ∀ (fixs : List (Bc K)), (∀ f ∈ fixs, keyOf f ∈ regs) →
    fixLast (fun b => num (keyOf b)) (num k) fixs = lastFix k fixs := by
  intro fixs
  induction fixs with
  | nil => intro _; rfl
  | cons f fs ih =>
    intro h
    have hl := h f (by simp)
    unfold fixLast
    rw [ih (fun f' hf' => h f' (by simp [hf']))]
    unfold lastFix
    by_cases hh : keyOf f = k
    · rw [if_pos (by rw [hh]), List.filter_cons_of_pos (by simpa using hh), List.map_cons]
      rw [List.getLast?_cons]
      cases (List.map Bc.value (fs.filter (fun b => keyOf b = k))).getLast? <;> rfl
    · rw [if_neg (fun hc => hh (hinj _ hl _ hk hc)), List.filter_cons_of_neg (by simpa using hh)]
      cases (List.map Bc.value (fs.filter (fun b => keyOf b = k))).getLast? <;> rfl

theorem fixLast_none {nm : Bc K → Nat} {i : Nat} : ∀ (fixs : List (Bc K)), (∀ f ∈ fixs, nm f ≠ i) →
    fixLast nm i fixs = none := by
  intro fixs
  induction fixs with
  | nil => intro _; rfl
  | cons f fs ih =>
    intro h
    unfold fixLast
    rw [ih (fun f' hf' => h f' (by simp [hf'])), if_neg (h f (by simp))]

theorem lastFix_isSome {k : Key} {fixs : List (Bc K)} : (lastFix k fixs).isSome ↔ k ∈ fixKeys fixs := by
  unfold lastFix fixKeys
  rw [← Option.ne_none_iff_isSome, ne_eq, List.getLast?_eq_none_iff]
  simp only [List.map_eq_nil_iff, List.filter_eq_nil_iff, List.mem_map]
  constructor
  · intro h
    simp only [decide_eq_true_eq, not_forall, not_not] at h
    obtain ⟨f, hf, hk⟩ := h
    exact ⟨f, hf, hk⟩
  · rintro ⟨f, hf, hk⟩ h
    exact h f hf (decide_eq_true (show keyOf f = k from hk))

theorem lastFix_mem {k : Key} {fixs : List (Bc K)} {x : K} (h : lastFix k fixs = some x) :
    ∃ f ∈ fixs, keyOf f = k ∧ f.value = x := by
  unfold lastFix at h
  obtain ⟨f, hf, rfl⟩ := List.mem_map.mp (List.mem_of_getLast? h)
  rw [List.mem_filter] at hf
  exact ⟨f, hf.1, by simpa using hf.2, rfl⟩

/-! ## From the preparation to a running state -/

/-- Everything needed about a prepared problem. -/
structure Base [Zero K] [Add K] (S0 S1 : Storage K) (calls : List RegCall) (new : List (Mpc K)) (fixs : List (Bc K)) (num' : Key → Nat)
    (A : Side → Spec) : Prop where
  prep : Prepared S0 S1 calls new (fixKeys fixs) A
  agree : ∀ k ∈ regKeys calls, num' k = num A k
  fixes : ∀ f ∈ fixs, keyOf f ∈ regKeys calls
  U : S1.vecU = List.replicate (S1.nDofs + S1.nMpc) 0
  R : S1.vecR = List.replicate (S1.nDofs + S1.nMpc) 0

section base
variable [AddMonoid K] {S0 S1 : Storage K} {calls : List RegCall} {new : List (Mpc K)} {fixs : List (Bc K)}
  {num' : Key → Nat} {A : Side → Spec}

theorem base_of_prepare (hl : LegalModel S0 calls new (fixKeys fixs)) (hp : S0.prepare calls new (fixKeys fixs) = .ok S1)
    (hn : ∀ k ∈ regKeys calls, S1.eqNumber k.1 k.2.1 k.2.2 = .ok (num' k)) : ∃ A, Base S0 S1 calls new fixs num' A := by
  rcases prepare_cases hl with ⟨_, S', A, T, _, _, ⟨_, S2, h1, h2, h3, h4⟩ | ⟨_, h1⟩⟩ | ⟨_, h1⟩
  · rw [hp, Res.ok.injEq] at h1
    subst h1
    refine ⟨A, h2, num_agree h2 hn, ?_, h3, h4⟩
    intro f hf
    exact hl.setup.cons _ (List.mem_map.mpr ⟨f, hf, rfl⟩)
  · rw [hp] at h1; simp at h1
  · rw [hp] at h1; simp at h1

/-- Preparing a legal model either gives a storage with equation numbers or stops with a fatal error. -/
theorem prepare_or_fatal (hl : LegalModel S0 calls new (fixKeys fixs)) :
    S0.prepare calls new (fixKeys fixs) = .fatal ∨ ∃ S1 num' A, S0.prepare calls new (fixKeys fixs) = .ok S1 ∧
      (∀ k ∈ regKeys calls, S1.eqNumber k.1 k.2.1 k.2.2 = .ok (num' k)) ∧ Base S0 S1 calls new fixs num' A := by
  rcases prepare_cases hl with ⟨_, S', A, T, _, _, ⟨_, S2, h1, h2, h3, h4⟩ | ⟨_, h1⟩⟩ | ⟨_, h1⟩
  · right
    have hn : ∀ k ∈ regKeys calls, S2.eqNumber k.1 k.2.1 k.2.2 = .ok (num A k) :=
      fun k hk => eqNumber_num h2.ready.sim ((h2.ready.isSome k).mpr hk)
    obtain ⟨A', hb⟩ := base_of_prepare hl h1 hn
    exact ⟨S2, num A, A', h1, hn, hb⟩
  · exact Or.inl h1
  · exact Or.inl h1

theorem Base.run (h : Base S0 S1 calls new fixs num' A) :
    Run S1 S1 A (fun _ _ _ => 0) (fun _ => 0) (fun _ => 0) (fun _ => 0) := start_run h.prep h.U h.R

theorem Base.some (h : Base S0 S1 calls new fixs num' A) {k : Key} (hk : k ∈ regKeys calls) : (at' A k).isSome :=
  (h.prep.ready.isSome k).mpr hk

theorem Base.range (h : Base S0 S1 calls new fixs num' A) {k : Key} (hk : k ∈ regKeys calls) :
    0 < num' k ∧ num' k ≤ S1.nDofs := by
  rw [h.agree k hk]; exact h.prep.ready.num_range hk

theorem Base.inj (h : Base S0 S1 calls new fixs num' A) : ∀ k ∈ regKeys calls, ∀ k' ∈ regKeys calls, num' k = num' k' → k = k' := by
  intro k hk k' hk' he
  rw [h.agree k hk, h.agree k' hk'] at he
  exact h.prep.ready.num_inj hk hk' he

theorem Base.fixRange (h : Base S0 S1 calls new fixs num' A) {k : Key} (hk : k ∈ fixKeys fixs) :
    0 < num' k ∧ num' k ≤ S1.nConstr := by
  obtain ⟨f, hf, rfl⟩ := List.mem_map.mp hk
  have hr := h.fixes f hf
  show 0 < num' (keyOf f) ∧ num' (keyOf f) ≤ _
  rw [h.agree _ hr]
  have := Set.mem_Ico.mp (h.prep.ready.con.mapsTo (show keyOf f ∈ {k | k ∈ fixKeys fixs} from hk))
  omega

theorem Base.freeRange (h : Base S0 S1 calls new fixs num' A) {k : Key} (hk : k ∈ regKeys calls) (hf : k ∉ fixKeys fixs) :
    S1.nConstr < num' k ∧ num' k ≤ S1.nDofs := by
  rw [h.agree k hk]
  have := Set.mem_Ico.mp (h.prep.ready.unk.mapsTo (show k ∈ {k | k ∈ regKeys calls ∧ k ∉ fixKeys fixs} from ⟨hk, hf⟩))
  omega

/-- Each constrained equation belongs to a fix. -/
theorem Base.fixOf (h : Base S0 S1 calls new fixs num' A) {i : Nat} (h1 : 0 < i) (h2 : i ≤ S1.nConstr) :
    ∃ k ∈ fixKeys fixs, k ∈ regKeys calls ∧ num' k = i := by
  obtain ⟨k, hk, he⟩ := h.prep.ready.con.surjOn (Set.mem_Ico.mpr ⟨h1, by omega⟩ : i ∈ Set.Ico 1 (1 + S1.nConstr))
  have hk : k ∈ fixKeys fixs := hk
  obtain ⟨f, hf, rfl⟩ := List.mem_map.mp hk
  have hr := h.fixes f hf
  exact ⟨keyOf f, hk, hr, by rw [h.agree _ hr]; exact he⟩

theorem Base.bc (h : Base S0 S1 calls new fixs num' A) {l : Bc K} (hl : keyOf l ∈ regKeys calls) :
    bcNum A l = num' (keyOf l) := (h.agree _ hl).symm

theorem loadTotal_congr {nm nm' : Bc K → Nat} {i : Nat} : ∀ {loads : List (Bc K)}, (∀ l ∈ loads, nm l = nm' l) →
    loadTotal nm i loads = loadTotal nm' i loads := by
  intro loads
  induction loads with
  | nil => intro _; rfl
  | cons l ls ih =>
    intro h
    unfold loadTotal
    rw [ih (fun l' hl' => h l' (by simp [hl'])), h l (by simp)]

theorem fixLast_congr {nm nm' : Bc K → Nat} {i : Nat} : ∀ {fixs : List (Bc K)}, (∀ l ∈ fixs, nm l = nm' l) →
    fixLast nm i fixs = fixLast nm' i fixs := by
  intro fixs
  induction fixs with
  | nil => intro _; rfl
  | cons l ls ih =>
    intro h
    unfold fixLast
    rw [ih (fun l' hl' => h l' (by simp [hl'])), h l (by simp)]

theorem Base.loadTotal (h : Base S0 S1 calls new fixs num' A) {loads : List (Bc K)} (hl : ∀ l ∈ loads, keyOf l ∈ regKeys calls)
    {k : Key} (hk : k ∈ regKeys calls) : Solver.loadTotal (bcNum A) (num' k) loads = loadsOn k loads := by
  rw [loadTotal_congr (nm' := fun b => num' (keyOf b)) (fun l hll => h.bc (hl l hll))]
  exact loadTotal_eq h.inj hk loads hl

theorem Base.loadTotal_mpc (h : Base S0 S1 calls new fixs num' A) {loads : List (Bc K)} (hl : ∀ l ∈ loads, keyOf l ∈ regKeys calls)
    {i : Nat} (hi : S1.nDofs < i) : Solver.loadTotal (bcNum A) i loads = 0 := by
  apply loadTotal_none
  intro l hll
  rw [h.bc (hl l hll)]
  have := h.range (hl l hll)
  omega

theorem Base.fixLast (h : Base S0 S1 calls new fixs num' A) {k : Key} (hk : k ∈ regKeys calls) :
    Solver.fixLast (bcNum A) (num' k) fixs = lastFix k fixs := by
  rw [fixLast_congr (nm' := fun b => num' (keyOf b)) (fun l hll => h.bc (h.fixes l hll))]
  exact fixLast_eq h.inj hk fixs h.fixes

theorem Base.fixLast_free (h : Base S0 S1 calls new fixs num' A) {i : Nat} (hi : S1.nConstr < i) :
    Solver.fixLast (bcNum A) i fixs = none := by
  apply fixLast_none
  intro f hf
  rw [h.bc (h.fixes f hf)]
  have := h.fixRange (k := keyOf f) (List.mem_map.mpr ⟨f, hf, rfl⟩)
  omega

theorem ElemContrib.wanted (h : Base S0 S1 calls new fixs num' A) {c : Contrib K} (hc : ElemContrib S1 (regKeys calls) num' c) :
    Wanted S1 (regKeys calls) num' c := by
  cases c with
  | mat w i j x => exact ⟨hc.1, Or.inl hc.2⟩
  | load i x =>
    obtain ⟨k, hk, rfl⟩ := hc
    have := h.range hk
    exact ⟨this.1, by omega⟩

/-- Elements contribute nothing to the rows of MPCs. -/
theorem elem_matSum (h : Base S0 S1 calls new fixs num' A) {q i j : Nat} (hi : S1.nDofs < i) : ∀ (cs : List (Contrib K)),
    (∀ c ∈ cs, ElemContrib S1 (regKeys calls) num' c) → matSum q i j cs = 0 ∧ loadSum i cs = 0 := by
  intro cs
  induction cs with
  | nil => intro _; exact ⟨rfl, rfl⟩
  | cons c cs ih =>
    intro hc
    have ih := ih (fun c' hc' => hc c' (by simp [hc']))
    have hc1 := hc c (by simp)
    cases c with
    | mat w a b x =>
      obtain ⟨_, en, k1, k2, h1, h2, _, _, rfl, rfl⟩ := hc1
      have r1 := h.range h1
      have r2 := h.range h2
      simp only [matSum, loadSum]
      rw [ih.1, ih.2, if_neg (by rintro ⟨_, hs⟩; rcases hs with ⟨_, _⟩ | ⟨_, _⟩ <;> omega), add_zero]
      exact ⟨rfl, rfl⟩
    | load a x =>
      obtain ⟨k, hk, rfl⟩ := hc1
      have r1 := h.range hk
      simp only [matSum, loadSum]
      rw [ih.1, ih.2, if_neg (by omega), add_zero]
      exact ⟨rfl, rfl⟩

end base

/-- The row of an MPC applied to a vector. -/
theorem mpcContribs_row [Field K] {num : Key → Nat} {m : Mpc K} {n N : Nat} (hm : n < m.eqNum) (hmN : m.eqNum ≤ N) (u : Nat → K) :
    ∀ (ts : List (MpcTerm K)), (∀ t ∈ ts, 0 < num (.node, t.node, t.dof) ∧ num (.node, t.node, t.dof) ≤ n) →
    ∑ j ∈ range N, matSum 0 m.eqNum (j + 1) (ts.map (fun t => Contrib.mat .K m.eqNum (num (.node, t.node, t.dof)) t.coef)) * u j =
      (ts.map (fun t => t.coef * u (num (.node, t.node, t.dof) - 1))).sum := by
  intro ts
  induction ts with
  | nil => intro _; simp [matSum]
  | cons t ts ih =>
    intro h
    have ht := h t (by simp)
    simp only [List.map_cons, List.sum_cons, matSum, add_mul]
    rw [← ih (fun t' ht' => h t' (by simp [ht']))]
    rw [Finset.sum_add_distrib]
    congr 1
    rw [Finset.sum_eq_single (num (.node, t.node, t.dof) - 1)]
    · rw [if_pos]
      refine ⟨rfl, Or.inl ⟨rfl, by omega⟩⟩
    · intro j _ hj
      rw [if_neg, zero_mul]
      rintro ⟨_, hs⟩
      rcases hs with ⟨_, _⟩ | ⟨_, _⟩ <;> omega
    · intro hj
      rw [Finset.mem_range] at hj
      omega

theorem matSum_mpcs [AddMonoid K] {num : Key → Nat} {n : Nat} {m : Mpc K} {j : Nat} : ∀ (ms : List (Mpc K)),
    (ms.map Mpc.eqNum).Nodup → m ∈ ms → (∀ m' ∈ ms, n < m'.eqNum ∧ ∀ t ∈ m'.eq, num (.node, t.node, t.dof) ≤ n) →
    matSum 0 m.eqNum j (ms.flatMap (mpcContribs num)) = matSum 0 m.eqNum j (mpcContribs num m) := by
  -- MPCs with another number contribute nothing to this row
  have other : ∀ m' : Mpc K, m'.eqNum ≠ m.eqNum → n < m.eqNum → ∀ ts : List (MpcTerm K),
      (∀ t ∈ ts, num (.node, t.node, t.dof) ≤ n) →
      matSum 0 m.eqNum j (ts.map (fun t => Contrib.mat .K m'.eqNum (num (.node, t.node, t.dof)) t.coef)) = 0 := by
    intro m' hne hn ts
    induction ts with
    | nil => intro _; rfl
    | cons t ts ih =>
      intro h
      have := h t (by simp)
      simp only [List.map_cons, matSum]
      rw [ih (fun t' ht' => h t' (by simp [ht'])), if_neg, add_zero]
      rintro ⟨_, hs⟩
      rcases hs with ⟨h1, _⟩ | ⟨h1, _⟩
      · exact hne h1
      · omega
  have zero : ∀ ms : List (Mpc K), n < m.eqNum → m.eqNum ∉ ms.map Mpc.eqNum →
      (∀ m' ∈ ms, n < m'.eqNum ∧ ∀ t ∈ m'.eq, num (.node, t.node, t.dof) ≤ n) →
      matSum 0 m.eqNum j (ms.flatMap (mpcContribs num)) = 0 := by
    intro ms hn
    induction ms with
    | nil => intro _ _; rfl
    | cons m' ms ih =>
      intro h1 h2
      rw [List.map_cons, List.mem_cons, not_or] at h1
      rw [List.flatMap_cons, matSum_append, ih h1.2 (fun x hx => h2 x (by simp [hx])), add_zero]
      exact other m' (Ne.symm h1.1) hn m'.eq (h2 m' (by simp)).2
  intro ms
  induction ms with
  | nil => intro _ h; simp at h
  | cons m' ms ih =>
    intro hnd hm h
    rw [List.map_cons, List.nodup_cons] at hnd
    rw [List.flatMap_cons, matSum_append]
    have hn : n < m.eqNum := (h m hm).1
    by_cases he : m' = m
    · subst he
      rw [zero ms hn hnd.1 (fun x hx => h x (by simp [hx])), add_zero]
    · have hin : m ∈ ms := by
        rcases List.mem_cons.mp hm with hh | hh
        · exact absurd hh.symm he
        · exact hh
      rw [ih hnd.2 hin (fun x hx => h x (by simp [hx]))]
      have : m'.eqNum ≠ m.eqNum := fun hh => hnd.1 (by rw [hh]; exact List.mem_map.mpr ⟨m, hin, rfl⟩)
      rw [show matSum 0 m.eqNum j (mpcContribs num m') = 0 from other m' this hn m'.eq (h m' (by simp)).2, zero_add]

end Nla3d.Solver
