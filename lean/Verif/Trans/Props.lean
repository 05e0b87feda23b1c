import Verif.Trans.Rows

/-!
# C102: the equations of a transient solution
-/

namespace Nla3d.Trans

open Nla3d.Dof Nla3d.Block Nla3d.Sparse Nla3d.Storage Nla3d.Solver Nla3d.Struct Finset

variable {K : Type} [Field K] [LinearOrder K] [IsStrictOrderedRing K]

/-! ## Specification -/

/-- Values, rates and second rates of the DoFs at the times `0, dt, 2 dt, ...`: at the beginning the initial value and no rates; zero
at fixed DoFs; Newmark's relations. -/
structure History (regs : List Key) (fixs : List (Bc K)) (n : Nat) (init alpha delta dt : K) (T V A : Nat → Key → K) : Prop where
  initial : ∀ k ∈ regs, k ∉ fixKeys fixs → T 0 k = init
  rest : ∀ k ∈ regs, V 0 k = 0 ∧ A 0 k = 0
  fixed : ∀ i ≤ n, ∀ k ∈ regs, k ∈ fixKeys fixs → T i k = 0
  step : ∀ i < n, ∀ k ∈ regs, NewmarkU alpha dt (T i k) (V i k) (A i k) (T (i + 1) k) (A (i + 1) k) ∧
    V (i + 1) k = newmarkV delta dt (V i k) (A i k) (A (i + 1) k)

/-- At free DoFs capacity times rate plus what the elements take equals the load. -/
def RateBalance (regs : List Key) (loads fixs : List (Bc K)) (els caps : List (LinEl K)) (V T : Key → K) : Prop :=
  ∀ k ∈ regs, k ∉ fixKeys fixs → (caps.map fun x => capOn x V k).sum + (els.map fun x => x.forceOn T k).sum = loadsOn k loads

/-- Zero or not tiny. -/
def NotTiny (x : K) : Prop := x = 0 ∨ (1 / 10 ^ 20 : K) < |x|

/-- What the step multiplies with mass and capacity is not tiny. -/
def Clear (regs : List Key) (fixs : List (Bc K)) (alpha delta dt : K) (T V A : Key → K) : Prop :=
  ∀ k ∈ regs, k ∉ fixKeys fixs → NotTiny (T k / (alpha * dt * dt) + V k / (alpha * dt) + (1 / (2 * alpha) - 1) * A k) ∧
    NotTiny (delta / (alpha * dt) * T k + (delta / alpha - 1) * V k + dt / 2 * (delta / alpha - 2) * A k)

/-- Length of a time step. -/
abbrev stepOf (st : TSettings K) : K := (st.time1 - st.time0) / st.n

/-- What is reported after the steps of a run is a history; rates and second rates are not reported. -/
structure Traced {E : Type} (regs : List Key) (fixs : List (Bc K)) (st : TSettings K) (seen : List (Nat × K × TState E K))
    (T V A : Nat → Key → K) : Prop where
  steps : seen.length = st.n
  history : History regs fixs st.n st.initValue st.alpha st.delta (stepOf st) T V A
  reported : ∀ i p, seen[i]? = some p → ∀ m d, (Side.node, m, d) ∈ regs → Post.solution p.2.2.S .node m d = .ok (T (i + 1) (.node, m, d))

/-- No tiny values in the run. -/
def AllClear (regs : List Key) (fixs : List (Bc K)) (st : TSettings K) (T V A : Nat → Key → K) : Prop :=
  ∀ i < st.n, Clear regs fixs st.alpha st.delta (stepOf st) (T i) (V i) (A i)

/-- What is reported if the prescribed values are not felt: at free DoFs a history of the same model with zero in their place. -/
structure Blind {E : Type} (regs : List Key) (fixs : List (Bc K)) (st : TSettings K) (seen : List (Nat × K × TState E K))
    (T V A : Nat → Key → K) : Prop where
  steps : seen.length = st.n
  history : History regs fixs st.n st.initValue st.alpha st.delta (stepOf st) T V A
  free : ∀ (i : Nat) (p : Nat × K × TState E K), seen[i]? = some p → ∀ m d, (Side.node, m, d) ∈ regs → (Side.node, m, d) ∉ fixKeys fixs →
    Post.solution p.2.2.S .node m d = .ok (T (i + 1) (.node, m, d))
  fixed : ∀ (i : Nat) (p : Nat × K × TState E K), seen[i]? = some p → ∀ m d, (Side.node, m, d) ∈ regs → ∀ x, lastFix (.node, m, d) fixs = some x →
    Post.solution p.2.2.S .node m d = .ok x

/-- What is asked of a model: legal, loads at its DoFs, elements in their places, no constraint equations; `delta = 1/2`, at least one
step, time goes on. -/
structure AnyModel (S0 : Storage K) (calls : List RegCall) (new : List (Mpc K)) (loads fixs : List (Bc K)) (els caps : List (LinEl K))
    (st : TSettings K) (fuel : Nat) : Prop where
  legal : LegalModel { S0 with transient := true } calls new (fixKeys fixs)
  loads : ∀ l ∈ loads, keyOf l ∈ regKeys calls
  placed : ∀ x ∈ els, Placed { S0 with transient := true } calls x
  placedCaps : ∀ x ∈ caps, Placed { S0 with transient := true } calls x
  noMpc : S0.mpcs ++ new = []
  alpha : st.alpha ≠ 0
  delta : st.delta = 1 / 2
  steps : 0 < st.n
  time : st.time0 < st.time1
  fuel : st.n < fuel

/-- A model with prescribed values zero. -/
structure TransientModel (S0 : Storage K) (calls : List RegCall) (new : List (Mpc K)) (loads fixs : List (Bc K)) (els caps : List (LinEl K))
    (st : TSettings K) (fuel : Nat) : Prop extends AnyModel S0 calls new loads fixs els caps st fuel where
  fixed : ∀ f ∈ fixs, f.value = 0

/-! ## The solver -/

theorem kept_of_notTiny {x : K} (h : NotTiny x) : kept x = x := by
  unfold kept
  rcases h with rfl | h
  · exact ite_self _
  · rw [if_pos h]

/-- What the storage reports. -/
theorem reported_value {S0 S1 S : Storage K} {calls : List RegCall} {new : List (Mpc K)} {fixs : List (Bc K)} {num : Key → Nat}
    {A : Side → Spec} (hb : Base S0 S1 calls new fixs num A) (ha : Alike S1 S) (hU : S.vecU.length = S1.nDofs + S1.nMpc)
    (hR : S.vecR.length = S1.nDofs + S1.nMpc) {n : Nat} {t : DofType} (hk : (Side.node, n, t) ∈ regKeys calls) :
    Post.solution S .node n t = .ok (comp S.vecU (num (.node, n, t))) := by
  have hrow : ∀ s n t e c, A s n t = some (e, c) → num (s, n, t) = e ∧ 0 < e ∧ e ≤ S1.nDofs := by
    intro s n t e c hA
    have hk : (s, n, t) ∈ regKeys calls := (hb.prep.ready.isSome (s, n, t)).mp (by
      show (A s n t).isSome = true
      rw [hA]; rfl)
    have h1 := hb.range hk
    have h2 : num (s, n, t) = e := by
      rw [hb.agree _ hk]
      unfold Storage.num at'
      rw [hA]; rfl
    rw [h2] at h1
    exact ⟨h2, h1⟩
  have hsim : SimS S A := hb.prep.ready.sim.congr (by rw [ha]) (by rw [ha]) (by rw [ha]) (by rw [ha])
  have hs : Post.Solved S A := ⟨hsim, fun s n t e c hA => by have := hrow s n t e c hA; omega,
    fun s n t e c hA => by have := hrow s n t e c hA; omega⟩
  have hi := hb.some hk
  rw [Post.solution_eq hs (show (A .node n t).isSome from hi)]
  obtain ⟨⟨e, c⟩, hA⟩ := Option.isSome_iff_exists.mp hi
  have hA' : A .node n t = some (e, c) := hA
  unfold Post.rowOf
  rw [hA', (hrow _ _ _ _ _ hA').1]
  rfl

section
variable {E : Type} {S0 : Storage K} {calls : List RegCall} {new : List (Mpc K)} {loads fixs : List (Bc K)}
  {els caps : List (LinEl K)} {update : E → Storage K → E} {eqs : EqSolver K} {e : E} {st : TSettings K} {fuel : Nat}
  {seen : List (Nat × K × TState E K)} {last : Nat}

/-- The run, with the equation numbers. -/
theorem run_any (hM : AnyModel S0 calls new loads fixs els caps st fuel)
    (he : Exact eqs)
    (h : transientSolve eqs (evolving els caps update) loads fixs st calls new S0 e fuel = some (.ok (seen, last))) :
    ∃ (S1 : Storage K) (num : Key → Nat) (P : Side → Spec) (T V A : Nat → Key → K), Base { S0 with transient := true } S1 calls new fixs num P ∧
      (∀ k ∈ regKeys calls, S1.eqNumber k.1 k.2.1 k.2.2 = .ok (num k)) ∧ S1.transient = true ∧ S1.mpcs = [] ∧
      Succeeds eqs (S1.nUnknown + S1.nMpc) (fun i j => kmodEntry (newmark st.alpha st.delta ((st.time1 - st.time0) / st.n))
        (tMat (evolving els caps update) e S1 num st.initValue) S1.nConstr (i + 1) (j + 1)) ∧
      Blind (regKeys calls) fixs st seen T V A ∧
      ∀ i < st.n, Clear (regKeys calls) fixs st.alpha st.delta (stepOf st) (T i) (V i) (A i) →
        RateBalance (regKeys calls) loads fixs els caps (V (i + 1)) (T (i + 1)) := by
  obtain ⟨hl, hload, hp, hc, hmpc, ha, hd, hn, ht, hf⟩ := hM
  have hprob := evolving_problem (update := update) hl rfl hload hp hc
  rcases transient_run hprob he ha hn ht e hf with ⟨hfat, _⟩ | ⟨S1, num, start, seen', h1, h2, h3, h4, _, h6, h7, h8, h9⟩
  · rw [h] at hfat; simp at hfat
  rw [h] at h3
  simp only [Option.some.injEq, Res.ok.injEq, Prod.mk.injEq] at h3
  obtain ⟨rfl, _⟩ := h3
  obtain ⟨P, hb⟩ := base_of_prepare hl h1 h2
  have htr : S1.transient = true := hb.prep.ready.mesh.transient
  have hm : S1.mpcs = [] := by
    have := hb.prep.ready.terms
    rw [show ({ S0 with transient := true } : Storage K).mpcs ++ new = [] from hmpc, List.map_nil, List.map_eq_nil_iff] at this
    exact this
  have hnm : S1.nMpc = 0 := by unfold Storage.nMpc; rw [hm]; rfl
  have hdofs := hb.prep.pre.dofs
  obtain ⟨states, hst⟩ : ∃ l, l = start :: seen.map (fun p => p.2.2) := ⟨_, rfl⟩
  rw [← hst] at h7 h8
  have hlen : states.length = st.n + 1 := by rw [hst, List.length_cons, List.length_map, h4]
  have hget : ∀ i < st.n + 1, ∃ s, states[i]? = some s ∧ states.getD i start = s := by
    intro i hi
    refine ⟨states[i]'(by omega), List.getElem?_eq_getElem (by omega), ?_⟩
    rw [List.getD_eq_getElem?_getD, List.getElem?_eq_getElem (by omega)]
    rfl
  have hstep : ∀ i < st.n, StepLaw (evolving els caps update) S1 (tMat (evolving els caps update) e S1 num st.initValue 0)
      (tMat (evolving els caps update) e S1 num st.initValue 1) (tMat (evolving els caps update) e S1 num st.initValue 2)
      (tLoad (evolving els caps update) e S1 st.initValue) st.alpha st.delta ((st.time1 - st.time0) / st.n)
      (states.getD i start) (states.getD (i + 1) start) := by
    intro i hi
    have := List.isChain_iff_getElem.mp h7 i (by omega)
    rw [List.getD_eq_getElem?_getD, List.getD_eq_getElem?_getD, List.getElem?_eq_getElem (show i < states.length by omega),
      List.getElem?_eq_getElem (show i + 1 < states.length by omega)]
    exact this
  have hzero : states.getD 0 start = start := by rw [hst]; rfl
  have hfixed : ∀ i ≤ st.n, ∀ j, 0 < j → j ≤ S1.nConstr → comp (states.getD i start).S.vecU j = comp start.S.vecU j := by
    intro i
    induction i with
    | zero => intro _ j _ _; rw [hzero]
    | succ i ih =>
      intro hi j j1 j2
      rw [((hstep i (by omega)).constrained j j1 j2).1]
      exact ih (by omega) j j1 j2
  have hstill : ∀ i ≤ st.n, ∀ j, 0 < j → j ≤ S1.nConstr → comp (states.getD i start).v j = 0 ∧ comp (states.getD i start).a j = 0 := by
    intro i hi j j1 j2
    rcases i with _ | i
    · rw [hzero]; exact h6.rest j
    · exact ((hstep i (by omega)).constrained j j1 j2).2
  have hloads : ∀ i ≤ st.n, (states.getD i start).S.vecR = start.S.vecR := by
    intro i
    induction i with
    | zero => intro _; rw [hzero]
    | succ i ih =>
      intro hi
      rw [(hstep i (by omega)).storage]
      exact ih (by omega)
  have hfree : ∀ k ∈ regKeys calls, k ∉ fixKeys fixs → S1.nConstr < num k := fun k hk hf => by
    have := (hb.prep.ready.unk.mapsTo (show k ∈ {k | k ∈ regKeys calls ∧ k ∉ fixKeys fixs} from ⟨hk, hf⟩)).1
    rw [← hb.agree k hk] at this
    omega
  have hcons : ∀ k ∈ regKeys calls, k ∈ fixKeys fixs → num k ≤ S1.nConstr := fun k hk hf => by
    have := (hb.prep.ready.con.mapsTo (show k ∈ {k | k ∈ fixKeys fixs} from hf)).2
    rw [← hb.agree k hk] at this
    omega
  obtain ⟨mask, hmask⟩ : ∃ mask : (Nat → K) → Nat → K, ∀ u j, mask u j = if j ≤ S1.nConstr then 0 else u j := ⟨_, fun _ _ => rfl⟩
  have hfreeOf : ∀ k ∈ regKeys calls, k ∉ fixKeys fixs → ∀ u, mask u (num k) = u (num k) := fun k hk hf u => by
    have := hfree k hk hf
    rw [hmask, if_neg (by omega)]
  have hfixOf : ∀ k ∈ regKeys calls, k ∈ fixKeys fixs → ∀ u, mask u (num k) = 0 := fun k hk hf u => by
    rw [hmask, if_pos (hcons k hk hf)]
  have hrep : ∀ (i : Nat) (p : Nat × K × TState E K), seen[i]? = some p → ∀ m d, (Side.node, m, d) ∈ regKeys calls →
      Post.solution p.2.2.S .node m d = .ok (comp (states.getD (i + 1) start).S.vecU (num (.node, m, d))) := by
    intro i p hip m d hk
    have hs : states[i + 1]? = some p.2.2 := by
      rw [hst, List.getElem?_cons_succ, List.getElem?_map, hip]
      rfl
    obtain ⟨a1, a2, a3⟩ := h8 _ (List.mem_of_getElem? hs)
    rw [reported_value hb a1 a2 a3 hk]
    congr 2
    rw [List.getD_eq_getElem?_getD, hs]
    rfl
  refine ⟨S1, num, P, fun i k => mask (comp (states.getD i start).S.vecU) (num k), fun i k => comp (states.getD i start).v (num k),
    fun i k => comp (states.getD i start).a (num k), hb, h2, htr, hm, h9, ⟨h4, ⟨?_, ?_, ?_, ?_⟩, ?_, ?_⟩, ?_⟩
  · intro k hk hf
    have := hb.range hk
    beta_reduce
    rw [hfreeOf k hk hf, hzero]
    exact h6.initial _ (hfree k hk hf) (by omega)
  · intro k _
    beta_reduce
    rw [hzero]
    exact h6.rest _
  · intro i hi k hk hf
    exact hfixOf k hk hf _
  · intro i hi k hk
    have hr := hb.range hk
    have hs := hstep i hi
    beta_reduce
    by_cases hf : k ∈ fixKeys fixs
    · rw [hfixOf k hk hf, hfixOf k hk hf, (hstill i hi.le _ hr.1 (hcons k hk hf)).1, (hstill i hi.le _ hr.1 (hcons k hk hf)).2,
        (hstill (i + 1) hi _ hr.1 (hcons k hk hf)).1, (hstill (i + 1) hi _ hr.1 (hcons k hk hf)).2]
      unfold NewmarkU newmarkV
      constructor <;> ring
    rw [hfreeOf k hk hf, hfreeOf k hk hf]
    refine ⟨hs.displ _ hr.1 (by omega), ?_⟩
    rw [hs.veloc _ hr.1 (by omega), hd]
    unfold newmarkV
    ring
  · intro i p hip m d hk hf
    rw [hrep i p hip m d hk, hfreeOf _ hk hf]
  · intro i p hip m d hk x hx
    have hi : i < st.n := by
      rw [← h4]
      exact (List.getElem?_eq_some_iff.mp hip).1
    have hf : (Side.node, m, d) ∈ fixKeys fixs := lastFix_isSome.mp (by rw [hx]; rfl)
    rw [hrep i p hip m d hk, hfixed (i + 1) hi _ (hb.range hk).1 (hcons _ hk hf), h6.prescribed _ hk x hx]
  · intro i hi hcl k hk hf
    have hr := hb.range hk
    have hs := hstep i hi
    have hnt : NoTiny (newmark st.alpha st.delta ((st.time1 - st.time0) / st.n)) S1 (states.getD i start) := by
      intro j j1 j2
      obtain ⟨k', hk', hf', rfl⟩ := num_onto hb j1 (by omega)
      obtain ⟨c1, c2⟩ := hcl k' hk' hf'
      beta_reduce at c1 c2
      rw [hfreeOf k' hk' hf'] at c1 c2
      simp only [newmark]
      refine ⟨kept_of_notTiny ?_, kept_of_notTiny c2⟩
      have e1 : ∀ a b x y z w : K, x / a + y / b + z * w = 1 / a * x + 1 / b * y + z * w := by intros; ring
      rw [e1] at c1
      exact c1
    have hmo := hs.motion hnt (num k) (hfree k hk hf) (by omega)
    have hvel : rowMul (tMat (evolving els caps update) e S1 num st.initValue 1) (fun j => newmarkV st.delta ((st.time1 - st.time0) / st.n)
        (comp (states.getD i start).v j) (comp (states.getD i start).a j) (comp (states.getD (i + 1) start).a j)) (S1.nDofs + S1.nMpc) (num k) =
        rowMul (tMat (evolving els caps update) e S1 num st.initValue 1) (comp (states.getD (i + 1) start).v) (S1.nDofs + S1.nMpc) (num k) := by
      unfold rowMul
      refine Finset.sum_congr rfl fun j hj => ?_
      rw [hs.veloc (j + 1) (by omega) (by have := Finset.mem_range.mp hj; omega), hd]
      unfold newmarkV
      ring
    rw [hvel, row_cap hb h2 hc update e st.initValue _ hk] at hmo
    have z1 : rowMul (tMat (evolving els caps update) e S1 num st.initValue 2) (comp (states.getD (i + 1) start).a) (S1.nDofs + S1.nMpc) (num k) = 0 := by
      unfold rowMul
      simp only [tMat_mass, zero_mul, Finset.sum_const_zero]
    have z3 : rowMul (tMat (evolving els caps update) e S1 num st.initValue 0) (comp (states.getD (i + 1) start).S.vecU) (S1.nDofs + S1.nMpc) (num k) =
        rowMul (tMat (evolving els caps update) e S1 num st.initValue 0) (mask (comp (states.getD (i + 1) start).S.vecU)) (S1.nDofs + S1.nMpc) (num k) +
        rowMul (tMat (evolving els caps update) e S1 num st.initValue 0) (comp (states.getD i start).S.vecU) S1.nConstr (num k) := by
      unfold rowMul
      rw [show S1.nDofs + S1.nMpc = S1.nConstr + (S1.nUnknown + S1.nMpc) by omega]
      generalize S1.nUnknown + S1.nMpc = N
      rw [sum_split_nc, sum_split_nc, add_comm]
      have e1 : ∑ j ∈ range S1.nConstr, tMat (evolving els caps update) e S1 num st.initValue 0 (num k) (j + 1) *
          mask (comp (states.getD (i + 1) start).S.vecU) (j + 1) = 0 := by
        refine Finset.sum_eq_zero fun j hj => ?_
        rw [hmask, if_pos (by have := Finset.mem_range.mp hj; omega), mul_zero]
      rw [e1, zero_add]
      congr 1
      · refine Finset.sum_congr rfl fun j _ => ?_
        rw [hmask, if_neg (by omega)]
      · refine Finset.sum_congr rfl fun j hj => ?_
        have := Finset.mem_range.mp hj
        rw [(hs.constrained (j + 1) (by omega) (by omega)).1]
    have z2 : rowMul (tMat (evolving els caps update) e S1 num st.initValue 0) (mask (comp (states.getD (i + 1) start).S.vecU)) (S1.nDofs + S1.nMpc) (num k) =
        tLoad (evolving els caps update) e S1 st.initValue (num k) +
          (els.map fun x => x.forceOn (fun k => mask (comp (states.getD (i + 1) start).S.vecU) (num k)) k).sum := by
      have hre := row_eq hb h2 hp update e (mask (comp (states.getD (i + 1) start).S.vecU)) hk
      rw [hm] at hre
      unfold rowMul at hre ⊢
      simp only [tMat_stiff htr, tLoad_eq htr]
      rw [sub_eq_iff_eq_add] at hre
      rw [hre]
      simp [mpcForce]
      ring
    rw [z1, z3, z2, hloads i (by omega), h6.loads k hk] at hmo
    beta_reduce
    linarith

theorem Blind.traced {T V A : Nat → Key → K} (h : Blind (regKeys calls) fixs st seen T V A) (hfix : ∀ f ∈ fixs, f.value = 0) :
    Traced (regKeys calls) fixs st seen T V A := by
  refine ⟨h.steps, h.history, fun i p hip m d hk => ?_⟩
  by_cases hf : (Side.node, m, d) ∈ fixKeys fixs
  · obtain ⟨x, hx⟩ := Option.isSome_iff_exists.mp (lastFix_isSome.mpr hf)
    have hi : i < st.n := by
      rw [← h.steps]
      exact (List.getElem?_eq_some_iff.mp hip).1
    obtain ⟨f, hf', _, e2⟩ := lastFix_mem hx
    rw [h.fixed i p hip m d hk x hx, h.history.fixed (i + 1) hi _ hk hf, ← e2, hfix f hf']
  · exact h.free i p hip m d hk hf

/-- **C102, the equations of the history.** The values reported after the steps of a transient solution are a history from the
initial value by Newmark's relations; after every step the rates and values keep the balance at all free DoFs. For the rest see C25. -/
theorem C102_history (hM : TransientModel S0 calls new loads fixs els caps st fuel)
    (he : Exact eqs)
    (h : transientSolve eqs (evolving els caps update) loads fixs st calls new S0 e fuel = some (.ok (seen, last))) :
    ∃ T V A : Nat → Key → K, Traced (regKeys calls) fixs st seen T V A ∧
      ∀ i < st.n, Clear (regKeys calls) fixs st.alpha st.delta (stepOf st) (T i) (V i) (A i) →
        RateBalance (regKeys calls) loads fixs els caps (V (i + 1)) (T (i + 1)) := by
  obtain ⟨_, _, _, T, V, A, _, _, _, _, _, h6, h7⟩ := run_any hM.toAnyModel he h
  exact ⟨T, V, A, h6.traced hM.fixed, h7⟩

theorem sum_map_sub {α : Type} (f g : α → K) : ∀ l : List α, (l.map fun x => f x - g x).sum = (l.map f).sum - (l.map g).sum := by
  intro l
  induction l with
  | nil => simp
  | cons x l ih => simp only [List.map_cons, List.sum_cons, ih]; ring

theorem capOn_sub (x : LinEl K) (u v : Key → K) (k : Key) : capOn x (fun k => u k - v k) k = capOn x u k - capOn x v k := by
  unfold capOn
  rw [← Finset.sum_sub_distrib]
  refine Finset.sum_congr rfl fun a _ => ?_
  split
  · rw [← Finset.sum_sub_distrib]
    exact Finset.sum_congr rfl fun b _ => mul_sub _ _ _
  · rw [sub_zero]

theorem forceOn_sub (x : LinEl K) (u v : Key → K) (k : Key) : x.forceOn u k - x.forceOn v k = capOn x (fun k => u k - v k) k := by
  unfold LinEl.forceOn LinEl.force capOn
  rw [← Finset.sum_sub_distrib]
  refine Finset.sum_congr rfl fun a _ => ?_
  split
  · rw [sub_sub_sub_cancel_right, ← Finset.sum_sub_distrib]
    exact Finset.sum_congr rfl fun b _ => (mul_sub _ _ _).symm
  · rw [sub_zero]

theorem capOn_smul (x : LinEl K) (c : K) (v : Key → K) (k : Key) : capOn x (fun k => c * v k) k = c * capOn x v k := by
  unfold capOn
  rw [Finset.mul_sum]
  refine Finset.sum_congr rfl fun a _ => ?_
  split
  · rw [Finset.mul_sum]
    exact Finset.sum_congr rfl fun b _ => by ring
  · rw [mul_zero]

theorem capOn_congr {x : LinEl K} (hx : Placed S0 calls x) {u v : Key → K} (h : ∀ k ∈ regKeys calls, u k = v k) (k : Key) :
    capOn x u k = capOn x v k := by
  unfold capOn
  refine Finset.sum_congr rfl fun a _ => ?_
  split
  · refine Finset.sum_congr rfl fun b hb => ?_
    rw [h _ (localKey_reg hx.on (Finset.mem_range.mp hb))]
  · rfl

/-- The row of a free DoF in the matrix of a step, for values that vanish at fixed DoFs. -/
theorem step_row {S1 : Storage K} {num : Key → Nat} {P : Side → Spec} (hb : Base S0 S1 calls new fixs num P)
    (hn : ∀ k ∈ regKeys calls, S1.eqNumber k.1 k.2.1 k.2.2 = .ok (num k)) (htr : S1.transient = true) (hm : S1.mpcs = [])
    (hp : ∀ x ∈ els, Placed S0 calls x) (hc : ∀ x ∈ caps, Placed S0 calls x) {alpha delta dt y : K} {update : E → Storage K → E} {e : E}
    {D : Key → K} {v : Nat → K} (hv : ∀ k ∈ regKeys calls, v (num k) = D k) (hfix : ∀ k ∈ regKeys calls, k ∈ fixKeys fixs → D k = 0)
    {i : Nat} {k : Key} (hk : k ∈ regKeys calls) (hki : num k = S1.nConstr + (i + 1)) :
    ∑ j ∈ range (S1.nUnknown + S1.nMpc), kmodEntry (newmark alpha delta dt)
      (tMat (evolving els caps update) e S1 num y) S1.nConstr (i + 1) (j + 1) * v (S1.nConstr + (j + 1)) =
    delta / (alpha * dt) * (caps.map fun x => capOn x D k).sum + (els.map fun x => capOn x D k).sum := by
  have hdofs := hb.prep.pre.dofs
  have hcon : ∀ i, 0 < i → i ≤ S1.nConstr → v i = 0 := by
    intro i i1 i2
    obtain ⟨k, hk, hreg, rfl⟩ := hb.fixOf i1 i2
    rw [hv k hreg, hfix k hreg hk]
  have h1 := row_cap hb hn hc update e y v hk (els := els)
  have h2 : rowMul (Assembled (linear els update) e S1 num 0) v (S1.nDofs + S1.nMpc) (num k) = (els.map fun x => capOn x D k).sum := by
    have a1 := row_eq hb hn hp update e v hk
    have a2 := row_eq hb hn hp update e (fun _ => 0) hk
    rw [hm] at a1 a2
    have a3 : rowMul (Assembled (linear els update) e S1 num 0) (fun _ => 0) (S1.nDofs + S1.nMpc) (num k) = 0 := by
      unfold rowMul; simp
    rw [a3] at a2
    have a4 : rowMul (Assembled (linear els update) e S1 num 0) v (S1.nDofs + S1.nMpc) (num k) =
        (els.map fun x => x.forceOn (fun k => v (num k)) k).sum - (els.map fun x => x.forceOn (fun _ => 0) k).sum := by
      simp only [mpcForce, List.map_nil, List.sum_nil, add_zero] at a1 a2
      rw [← a1, ← a2]
      ring
    rw [a4, ← sum_map_sub]
    refine congrArg List.sum (List.map_congr_left fun x hx => ?_)
    rw [forceOn_sub]
    exact capOn_congr (hp x hx) (fun k hk => by rw [hv k hk, sub_zero]) k
  have h3 : (caps.map fun x => capOn x (fun k => v (num k)) k).sum = (caps.map fun x => capOn x D k).sum :=
    congrArg List.sum (List.map_congr_left fun x hx => capOn_congr (hc x hx) hv k)
  rw [← h3, ← h1, ← h2]
  have hsplit : ∀ g : Nat → Nat → K, rowMul g v (S1.nDofs + S1.nMpc) (num k) =
      ∑ j ∈ range (S1.nUnknown + S1.nMpc), g (num k) (S1.nConstr + (j + 1)) * v (S1.nConstr + (j + 1)) := by
    intro g
    unfold rowMul
    rw [show S1.nDofs + S1.nMpc = S1.nConstr + (S1.nUnknown + S1.nMpc) by omega, sum_split_nc, Finset.sum_eq_zero, zero_add]
    · rfl
    · intro j hj
      rw [hcon (j + 1) (by omega) (by have := Finset.mem_range.mp hj; omega), mul_zero]
  rw [hsplit, hsplit, Finset.mul_sum, ← Finset.sum_add_distrib]
  refine Finset.sum_congr rfl fun j _ => ?_
  unfold kmodEntry
  rw [hki, tMat_mass, tMat_stiff htr]
  simp only [newmark]
  ring

/-- Only zero solves the homogeneous equations of a step. -/
theorem step_zero {S1 : Storage K} {num : Key → Nat} {P : Side → Spec} (hb : Base S0 S1 calls new fixs num P)
    (hn : ∀ k ∈ regKeys calls, S1.eqNumber k.1 k.2.1 k.2.2 = .ok (num k)) (htr : S1.transient = true) (hm : S1.mpcs = [])
    (hp : ∀ x ∈ els, Placed S0 calls x) (hc : ∀ x ∈ caps, Placed S0 calls x) {alpha delta dt y : K} {update : E → Storage K → E} {e : E}
    (hdet : (Matrix.of fun (i j : Fin (S1.nUnknown + S1.nMpc)) => kmodEntry (newmark alpha delta dt)
      (tMat (evolving els caps update) e S1 num y) S1.nConstr (i + 1) (j + 1)).det ≠ 0) {D : Key → K}
    (hfix : ∀ k ∈ regKeys calls, k ∈ fixKeys fixs → D k = 0)
    (hD : ∀ k ∈ regKeys calls, k ∉ fixKeys fixs →
      delta / (alpha * dt) * (caps.map fun x => capOn x D k).sum + (els.map fun x => capOn x D k).sum = 0) :
    ∀ k ∈ regKeys calls, D k = 0 := by
  have hnm : S1.nMpc = 0 := by unfold Storage.nMpc; rw [hm]; rfl
  have hlen : (S0.mpcs ++ new).length = 0 := by
    have := congrArg List.length hb.prep.ready.terms
    rw [hm] at this
    simpa using this.symm
  have hdofs := hb.prep.pre.dofs
  obtain ⟨v, hv1, _⟩ := vector_exists hb D [] (by rw [hlen]; rfl)
  have hz : (Matrix.of fun (i j : Fin (S1.nUnknown + S1.nMpc)) => kmodEntry (newmark alpha delta dt)
      (tMat (evolving els caps update) e S1 num y) S1.nConstr (i + 1) (j + 1)).mulVec (fun j => v (S1.nConstr + (j + 1))) = 0 := by
    funext i
    obtain ⟨k, hk, hf, hki⟩ := num_onto hb (i := S1.nConstr + (i + 1)) (by omega) (by omega)
    have h4 := step_row hb hn htr hm hp hc (alpha := alpha) (delta := delta) (dt := dt) (y := y) (update := update) (e := e) hv1 hfix hk hki
    rw [hD k hk hf, Finset.sum_range] at h4
    exact h4
  have hzero := Matrix.eq_zero_of_mulVec_eq_zero hdet hz
  intro k hk
  have hr := hb.range hk
  by_cases hf : k ∈ fixKeys fixs
  · exact hfix k hk hf
  · have hi := hb.freeRange hk hf
    rw [← hv1 k hk]
    have := congrFun hzero ⟨num k - S1.nConstr - 1, by omega⟩
    simp only [Pi.zero_apply] at this
    rwa [show S1.nConstr + (num k - S1.nConstr - 1 + 1) = num k by omega] at this

/-- With the Gauss solver a history that keeps the balance after every step is the one reported at free DoFs. -/
theorem unique_any (hM : AnyModel S0 calls new loads fixs els caps st fuel)
    (h : transientSolve Gauss.solveEquations (evolving els caps update) loads fixs st calls new S0 e fuel = some (.ok (seen, last)))
    {T' V' A' : Nat → Key → K}
    (hh : History (regKeys calls) fixs st.n st.initValue st.alpha st.delta (stepOf st) T' V' A')
    (hbal : ∀ i < st.n, RateBalance (regKeys calls) loads fixs els caps (V' (i + 1)) (T' (i + 1)))
    (hclear : AllClear (regKeys calls) fixs st T' V' A') : Blind (regKeys calls) fixs st seen T' V' A' := by
  obtain ⟨S1, num, P, T, V, A, hb, h2, htr, hm, hsuc, ⟨hlen, hist, hrep, hrepf⟩, hrate⟩ := run_any hM gauss_exact h
  obtain ⟨hl, hload, hp, hc, hmpc, ha, hd, hn, ht, hf⟩ := hM
  refine ⟨hlen, hh, ?_, hrepf⟩
  have hdet := gauss_succeeds hsuc
  have hdt : (st.time1 - st.time0) / (st.n : K) ≠ 0 := by
    have : (0 : K) < st.n := by exact_mod_cast hn
    have h2 : 0 < st.time1 - st.time0 := by linarith
    exact (div_pos h2 this).ne'
  have key : ∀ i ≤ st.n, ∀ k ∈ regKeys calls, T i k = T' i k ∧ V i k = V' i k ∧ A i k = A' i k := by
    intro i
    induction i with
    | zero =>
      intro _ k hk
      rw [(hist.rest k hk).1, (hist.rest k hk).2, (hh.rest k hk).1, (hh.rest k hk).2]
      refine ⟨?_, rfl, rfl⟩
      by_cases hf : k ∈ fixKeys fixs
      · rw [hist.fixed 0 (by omega) k hk hf, hh.fixed 0 (by omega) k hk hf]
      · rw [hist.initial k hk hf, hh.initial k hk hf]
    | succ i ih =>
      intro hi
      have ih := ih (by omega)
      have hcl : Clear (regKeys calls) fixs st.alpha st.delta ((st.time1 - st.time0) / st.n) (T i) (V i) (A i) := by
        intro k hk hf
        have := hclear i (by omega) k hk hf
        rw [(ih k hk).1, (ih k hk).2.1, (ih k hk).2.2]
        exact this
      have hr1 := hrate i (by omega) hcl
      have hr2 := hbal i (by omega)
      have hA : ∀ k ∈ regKeys calls, A (i + 1) k - A' (i + 1) k = 1 / (st.alpha * ((st.time1 - st.time0) / st.n) * ((st.time1 - st.time0) / st.n)) *
          (T (i + 1) k - T' (i + 1) k) := by
        intro k hk
        have s1 := (hist.step i (by omega) k hk).1
        have s2 := (hh.step i (by omega) k hk).1
        rw [(ih k hk).1, (ih k hk).2.1, (ih k hk).2.2] at s1
        unfold NewmarkU at s1 s2
        have s3 : T (i + 1) k - T' (i + 1) k = st.alpha * ((st.time1 - st.time0) / st.n) * ((st.time1 - st.time0) / st.n) *
            (A (i + 1) k - A' (i + 1) k) := by
          rw [s1, s2]; ring
        rw [s3, ← mul_assoc, one_div, inv_mul_cancel₀ (mul_ne_zero (mul_ne_zero ha hdt) hdt), one_mul]
      have hV : ∀ k ∈ regKeys calls, V (i + 1) k - V' (i + 1) k = st.delta / (st.alpha * ((st.time1 - st.time0) / st.n)) *
          (T (i + 1) k - T' (i + 1) k) := by
        intro k hk
        rw [(hist.step i (by omega) k hk).2, (hh.step i (by omega) k hk).2, (ih k hk).2.1, (ih k hk).2.2]
        have s3 := hA k hk
        unfold newmarkV
        have s4 : ∀ v dt d a x y : K, v + dt * ((1 - d) * a + d * x) - (v + dt * ((1 - d) * a + d * y)) = dt * d * (x - y) := by
          intros; ring
        rw [s4, s3]
        field_simp
      have hD := step_zero hb h2 htr hm hp hc hdet (D := fun k => T (i + 1) k - T' (i + 1) k)
        (fun k hk hf => by beta_reduce; rw [hist.fixed _ hi k hk hf, hh.fixed _ hi k hk hf, sub_self])
        (fun k hk hf => by
          have b1 := hr1 k hk hf
          have b2 := hr2 k hk hf
          rw [← b2] at b1
          have c1 : (caps.map fun x => capOn x (V (i + 1)) k).sum - (caps.map fun x => capOn x (V' (i + 1)) k).sum =
              st.delta / (st.alpha * ((st.time1 - st.time0) / st.n)) * (caps.map fun x => capOn x (fun k => T (i + 1) k - T' (i + 1) k) k).sum := by
            rw [← sum_map_sub, ← List.sum_map_mul_left]
            refine congrArg List.sum (List.map_congr_left fun x hx => ?_)
            rw [← capOn_sub, ← capOn_smul]
            exact capOn_congr (hc x hx) hV k
          have c2 : (els.map fun x => x.forceOn (T (i + 1)) k).sum - (els.map fun x => x.forceOn (T' (i + 1)) k).sum =
              (els.map fun x => capOn x (fun k => T (i + 1) k - T' (i + 1) k) k).sum := by
            rw [← sum_map_sub]
            exact congrArg List.sum (List.map_congr_left fun x _ => forceOn_sub x _ _ k)
          rw [← c1, ← c2]
          linarith)
      intro k hk
      have d0 := hD k hk
      beta_reduce at d0
      have dA := hA k hk
      have dV := hV k hk
      rw [d0, mul_zero] at dA dV
      exact ⟨sub_eq_zero.mp d0, sub_eq_zero.mp dV, sub_eq_zero.mp dA⟩
  intro i p hip m d hk hf
  have hi : i < st.n := by
    rw [← hlen]
    exact (List.getElem?_eq_some_iff.mp hip).1
  rw [hrep i p hip m d hk hf, (key (i + 1) (by omega) _ hk).1]

/-- **C102, the solution is the only one.** With the Gauss solver: a history that keeps the balance after every step (and has no
tiny values) is the one reported. -/
theorem C102_unique (hM : TransientModel S0 calls new loads fixs els caps st fuel)
    (h : transientSolve Gauss.solveEquations (evolving els caps update) loads fixs st calls new S0 e fuel = some (.ok (seen, last)))
    {T' V' A' : Nat → Key → K}
    (hh : History (regKeys calls) fixs st.n st.initValue st.alpha st.delta (stepOf st) T' V' A')
    (hbal : ∀ i < st.n, RateBalance (regKeys calls) loads fixs els caps (V' (i + 1)) (T' (i + 1)))
    (hclear : AllClear (regKeys calls) fixs st T' V' A') : Traced (regKeys calls) fixs st seen T' V' A' :=
  (unique_any hM.toAnyModel h hh hbal hclear).traced hM.fixed

end

end Nla3d.Trans
