import Verif.Newton.Solve
import Verif.Newton.Local
import Verif.Struct.Unique
import Verif.Solver.Follow
import Mathlib.Topology.UniformSpace.HeineCantor

/-!
# Close to a regular equilibrium the nonlinear solver converges: C114
-/

namespace Nla3d.Newton

open Nla3d.Storage Nla3d.Dof Nla3d.Iso Nla3d.Hyper Nla3d.Material Nla3d.Solver
open Nla3d.Mixed hiding comp
open Nla3d.Struct (mpcForce)

noncomputable section

/-! ## Specification -/

/-- `v` satisfies the homogeneous constraint equations. -/
def Kept (num : Key → Nat) (ms : List (Mpc ℝ)) (v : Nat → ℝ) : Prop :=
  ∀ m ∈ ms, (m.eq.map (fun t => t.coef * v (num (.node, t.node, t.dof)))).sum = 0

/-- `F` is minus the gradient of the potential energy of the elements, `K` is minus the derivative of `F`. -/
structure Tangent (S1 : Storage ℝ) (num : Key → Nat) (els : List El) (K : (Nat → ℝ) → Nat → Nat → ℝ) (F : (Nat → ℝ) → Nat → ℝ) :
    Prop where
  force : ∀ (z : ℝ) (u v : Nat → ℝ), (∀ e ∈ els, e.Sound num u) →
    HasDerivAt (fun s : ℝ => (els.map (El.potential z num (fun j => u j + s * v j))).sum)
      (-∑ i ∈ Finset.Icc 1 (S1.nDofs + S1.nMpc), F u i * v i) 0
  tangent : ∀ u v : Nat → ℝ, (∀ e ∈ els, e.Sound num u) → ∀ i, 0 < i → i ≤ S1.nDofs + S1.nMpc →
    HasDerivAt (fun s : ℝ => F (fun j => u j + s * v j) i) (-∑ j ∈ Finset.Icc 1 (S1.nDofs + S1.nMpc), K u i j * v j) 0

/-- A regular equilibrium at time `t`: values `u` of the DoFs and multipliers that meet the prescribed values, the constraint
equations and the balance of forces, at which the linearised equations have one solution only. -/
structure Equilibrium (K : (Nat → ℝ) → Nat → Nat → ℝ) (F : (Nat → ℝ) → Nat → ℝ) (S1 : Storage ℝ) (regs : List Key) (num : Key → Nat)
    (loads fixs : List (Bc ℝ)) (els : List El) (t : ℝ) (u : Nat → ℝ) : Prop where
  sound : ∀ e ∈ els, e.Sound num u
  fixed : ∀ k ∈ regs, ∀ x, lastFix k fixs = some x → u (num k) = t * x
  free : ∀ k ∈ regs, k ∉ fixKeys fixs → F u (num k) + t * loadsOn k loads = mpcForce S1.mpcs u k
  kept : Kept num S1.mpcs u
  regular : ∀ v : Nat → ℝ, (∀ k ∈ regs, k ∈ fixKeys fixs → v (num k) = 0) → Kept num S1.mpcs v →
    (∀ k ∈ regs, k ∉ fixKeys fixs →
      ∑ j ∈ Finset.Icc 1 (S1.nDofs + S1.nMpc), K u (num k) j * v j + mpcForce S1.mpcs v k = 0) →
    ∀ i, 0 < i → i ≤ S1.nDofs + S1.nMpc → v i = 0

/-- The components `1..n` of `v` are at most `ρ` away from those of `u`. -/
def Within (n : Nat) (u : Nat → ℝ) (ρ : ℝ) (v : Nat → ℝ) : Prop := ∀ i, 0 < i → i ≤ n → |v i - u i| ≤ ρ

/-- The equation solver stops on the matrix of the free unknowns and multipliers at `u`. -/
def Refuses (eqs : EqSolver ℝ) (K : (Nat → ℝ) → Nat → Nat → ℝ) (S1 : Storage ℝ) (num : Key → Nat) (u : Nat → ℝ) : Prop :=
  Stops eqs (S1.nUnknown + S1.nMpc) (fun i j => K u (S1.nConstr + (i + 1)) (S1.nConstr + (j + 1)) +
    matSum 0 (S1.nConstr + (i + 1)) (S1.nConstr + (j + 1)) (S1.mpcs.flatMap (mpcContribs num)))

/-! ## Lemmas -/

variable {S0 S1 : Storage ℝ} {calls : List RegCall} {new : List (Mpc ℝ)} {loads fixs : List (Bc ℝ)} {num : Key → Nat} {els : List El}
  {eqs : EqSolver ℝ}

/-- The constraint equations in the matrix. -/
def conM (S1 : Storage ℝ) (num : Key → Nat) (i j : Nat) : ℝ := matSum 0 i j (S1.mpcs.flatMap (mpcContribs num))

theorem dof_row {A : Side → Spec} (hb : Base S0 S1 calls new fixs num A) {k : Key} (hk : k ∈ regKeys calls) (v : Nat → ℝ) :
    ∑ j ∈ Finset.Icc 1 (S1.nDofs + S1.nMpc), conM S1 num (num k) j * v j = mpcForce S1.mpcs v k := by
  rw [sum_icc]
  exact Struct.row_mpcs v hk hb.inj (fun k hk => hb.range hk) (Nat.le_add_right _ _) S1.mpcs (shape_mpcs hb rfl)

theorem con_row {A : Side → Spec} (hb : Base S0 S1 calls new fixs num A) {m : Mpc ℝ} (hm : m ∈ S1.mpcs) (v : Nat → ℝ) :
    ∑ j ∈ Finset.Icc 1 (S1.nDofs + S1.nMpc), conM S1 num m.eqNum j * v j =
      (m.eq.map fun t => t.coef * v (num (.node, t.node, t.dof))).sum := by
  obtain ⟨_, _, h3⟩ := mpc_row hb (build := []) (cm := []) (ms := S1.mpcs) (by simp) (by simp) rfl hm
  have h4 := h3 fun j => v (j + 1)
  rw [sum_icc]
  have hA : ∀ j, conM S1 num m.eqNum j = asmM S1.transient (Storage.num A) [] S1.mpcs [] 0 m.eqNum j := by
    intro j
    rw [asmM_congr hb rfl]
    unfold conM asmM
    cases S1.transient <;> simp [matSum]
  simp only [hA]
  rw [h4]
  refine congrArg List.sum (List.map_congr_left fun t ht => ?_)
  have := hb.range ((hb.prep.ready.isSome _).mp ((hb.prep.pre.terms m hm).2 t ht))
  rw [Nat.sub_add_cancel this.1]

theorem mpcForce_sub (ms : List (Mpc ℝ)) (v w : Nat → ℝ) (k : Key) :
    mpcForce ms (fun i => v i - w i) k = mpcForce ms v k - mpcForce ms w k := by
  have inner : ∀ (m : Mpc ℝ) (ts : List (MpcTerm ℝ)),
      (ts.map fun t => if (Side.node, t.node, t.dof) = k then t.coef * (v m.eqNum - w m.eqNum) else 0).sum =
      (ts.map fun t => if (Side.node, t.node, t.dof) = k then t.coef * v m.eqNum else 0).sum -
      (ts.map fun t => if (Side.node, t.node, t.dof) = k then t.coef * w m.eqNum else 0).sum := by
    intro m ts
    induction ts with
    | nil => simp
    | cons t ts ih =>
      simp only [List.map_cons, List.sum_cons, ih]
      split <;> ring
  unfold mpcForce
  induction ms with
  | nil => simp
  | cons m ms ih =>
    simp only [List.map_cons, List.sum_cons]
    rw [ih]
    beta_reduce
    rw [inner]
    ring

theorem terms_add (ts : List (MpcTerm ℝ)) (num : Key → Nat) (v w : Nat → ℝ) :
    (ts.map fun t => t.coef * (v (num (.node, t.node, t.dof)) + w (num (.node, t.node, t.dof)))).sum =
    (ts.map fun t => t.coef * v (num (.node, t.node, t.dof))).sum + (ts.map fun t => t.coef * w (num (.node, t.node, t.dof))).sum := by
  induction ts with
  | nil => simp
  | cons t ts ih => simp only [List.map_cons, List.sum_cons, ih]; ring

theorem terms_sub (ts : List (MpcTerm ℝ)) (num : Key → Nat) (v w : Nat → ℝ) :
    (ts.map fun t => t.coef * (v (num (.node, t.node, t.dof)) - w (num (.node, t.node, t.dof)))).sum =
    (ts.map fun t => t.coef * v (num (.node, t.node, t.dof))).sum - (ts.map fun t => t.coef * w (num (.node, t.node, t.dof))).sum := by
  induction ts with
  | nil => simp
  | cons t ts ih => simp only [List.map_cons, List.sum_cons, ih]; ring

/-- The upd of a model whose constraint equations stay as they are. -/
abbrev same (els : List El) : Group els → Storage ℝ → List (Mpc ℝ) → List (Mpc ℝ) := fun _ _ ms => ms

/-- Constant homogeneous constraint equations hold in every state that is reached. -/
theorem reached_kept (hm : Model S0 calls new loads fixs els (same els)) (he : Exact eqs)
    (hp : S0.prepare calls new (fixKeys fixs) = .ok S1) (hn : ∀ k ∈ regKeys calls, S1.eqNumber k.1 k.2.1 k.2.2 = .ok (num k))
    (h0 : ∀ m ∈ S1.mpcs, m.b = 0) {s : NState (Group els) ℝ}
    (hs : Reached eqs (hyper els (same els)) loads fixs S1 (Group.given els) s) :
    s.S.mpcs = S1.mpcs ∧ Kept num S1.mpcs (comp s.S.vecU) := by
  obtain ⟨A, hb⟩ := base_of_prepare hm.legal hp hn
  induction hs with
  | start tc =>
    refine ⟨rfl, fun m hmm => ?_⟩
    show (m.eq.map (fun t => t.coef * comp S1.vecU (num (.node, t.node, t.dof)))).sum = 0
    have hz : comp S1.vecU = fun _ => (0 : ℝ) := by
      funext i
      rw [hb.U]
      exact getD_replicate _ _
    rw [hz]
    simp
  | time tc _ ih => exact ih
  | @iter s s' hr hit ih =>
    obtain ⟨i1, i2⟩ := ih
    obtain ⟨hbk, hc⟩ := C21_iteration (hyper_problem hm) he hp hn hr
    rcases hc with ⟨hf, _⟩ | ⟨s2, g1, g2, g3⟩
    · rw [hit] at hf; simp at hf
    rw [hit, Res.ok.injEq] at g1
    subst g1
    have hmp : s'.S.mpcs = S1.mpcs := g3.mpcs.trans i1
    refine ⟨hmp, fun m hmm => ?_⟩
    have h1 := g3.mpcRows m (by rw [hmp]; exact hmm)
    have h2 := i2 m hmm
    have e : m.eq.map (fun t => t.coef * comp s'.S.vecU (num (.node, t.node, t.dof))) =
        m.eq.map (fun t => t.coef * (comp s.S.vecU (num (.node, t.node, t.dof)) + comp s'.deltaU (num (.node, t.node, t.dof)))) := by
      refine List.map_congr_left fun t ht => ?_
      have hr := hb.range ((hb.prep.ready.isSome _).mp ((hb.prep.pre.terms m hmm).2 t ht))
      rw [g2.sums _ hr.1 hr.2, hbk.sums _ hr.1 hr.2, g3.trace, total_append]
    rw [e, terms_add, h1, h2, h0 m hmm, add_zero]

/-- The gradient and its derivative are unique. -/
theorem Tangent.unique {K K' : (Nat → ℝ) → Nat → Nat → ℝ} {F F' : (Nat → ℝ) → Nat → ℝ} (h : Tangent S1 num els K F)
    (h' : Tangent S1 num els K' F')
    (hnear : ∀ u : Nat → ℝ, (∀ e ∈ els, e.Sound num u) → ∀ᶠ u' in nhds u, ∀ e ∈ els, e.Sound num u') {u : Nat → ℝ}
    (hu : ∀ e ∈ els, e.Sound num u) :
    (∀ i, 0 < i → i ≤ S1.nDofs + S1.nMpc → F u i = F' u i) ∧
    ∀ i j, 0 < i → i ≤ S1.nDofs + S1.nMpc → 0 < j → j ≤ S1.nDofs + S1.nMpc → K u i j = K' u i j := by
  have hsum : ∀ (f : Nat → ℝ) (i : Nat), 0 < i → i ≤ S1.nDofs + S1.nMpc →
      ∑ j ∈ Finset.Icc 1 (S1.nDofs + S1.nMpc), f j * (if j = i then (1 : ℝ) else 0) = f i := by
    intro f i i1 i2
    rw [Finset.sum_eq_single i]
    · simp
    · intro j _ hj
      simp [hj]
    · intro hn
      exact absurd (Finset.mem_Icc.mpr ⟨by omega, i2⟩) hn
  have hF : ∀ u : Nat → ℝ, (∀ e ∈ els, e.Sound num u) → ∀ i, 0 < i → i ≤ S1.nDofs + S1.nMpc → F u i = F' u i := by
    intro u hu i i1 i2
    have := (h.force 0 u (fun j => if j = i then 1 else 0) hu).unique (h'.force 0 u (fun j => if j = i then 1 else 0) hu)
    rw [hsum _ i i1 i2, hsum _ i i1 i2] at this
    exact neg_inj.mp this
  refine ⟨hF u hu, fun i j i1 i2 j1 j2 => ?_⟩
  have hline : Filter.Tendsto (fun s : ℝ => fun k => u k + s * (if k = j then (1 : ℝ) else 0)) (nhds 0) (nhds u) := by
    have hc : Continuous (fun s : ℝ => fun k => u k + s * (if k = j then (1 : ℝ) else 0)) :=
      continuous_pi fun k => continuous_const.add (continuous_id.mul continuous_const)
    have := hc.tendsto 0
    simpa using this
  have d1 := h.tangent u (fun k => if k = j then 1 else 0) hu i i1 i2
  have d2 := h'.tangent u (fun k => if k = j then 1 else 0) hu i i1 i2
  have d3 := d2.congr_of_eventuallyEq (f₁ := fun s : ℝ => F (fun k => u k + s * (if k = j then 1 else 0)) i) (by
    filter_upwards [hline.eventually (hnear u hu)] with s hs
    exact hF _ hs i i1 i2)
  have := d1.unique d3
  rw [hsum _ j j1 j2, hsum _ j j1 j2] at this
  exact neg_inj.mp this

theorem Equilibrium.congr {K K' : (Nat → ℝ) → Nat → Nat → ℝ} {F F' : (Nat → ℝ) → Nat → ℝ} {A : Side → Spec}
    (hb : Base S0 S1 calls new fixs num A) {t : ℝ} {u : Nat → ℝ}
    (h : Equilibrium K F S1 (regKeys calls) num loads fixs els t u)
    (hF : ∀ i, 0 < i → i ≤ S1.nDofs + S1.nMpc → F u i = F' u i)
    (hK : ∀ i j, 0 < i → i ≤ S1.nDofs + S1.nMpc → 0 < j → j ≤ S1.nDofs + S1.nMpc → K u i j = K' u i j) :
    Equilibrium K' F' S1 (regKeys calls) num loads fixs els t u := by
  refine ⟨h.sound, h.fixed, ?_, h.kept, ?_⟩
  · intro k hk hf
    have hr := hb.range hk
    rw [← hF _ hr.1 (by omega)]
    exact h.free k hk hf
  · intro v h1 h2 h3
    refine h.regular v h1 h2 fun k hk hf => ?_
    have hr := hb.range hk
    rw [← h3 k hk hf]
    congr 1
    refine Finset.sum_congr rfl fun j hj => ?_
    have hj' := Finset.mem_Icc.mp hj
    rw [hK _ _ hr.1 (by omega) (by omega) hj'.2]

/-- What an iteration does whatever the tangent. -/
theorem iter_facts (hm : Model S0 calls new loads fixs els (same els)) (he : Exact eqs)
    (hp : S0.prepare calls new (fixKeys fixs) = .ok S1) (hn : ∀ k ∈ regKeys calls, S1.eqNumber k.1 k.2.1 k.2.2 = .ok (num k))
    {s s' : NState (Group els) ℝ} (hs : Reached eqs (hyper els (same els)) loads fixs S1 (Group.given els) s)
    (hit : iteration eqs (hyper els (same els)) loads fixs s = .ok s') :
    s'.tc = s.tc.nextEquilibriumStep ∧ Books S1 (regKeys calls) num fixs s' ∧
    (∀ i, 0 < i → i ≤ S1.nDofs → comp s'.S.vecU i = comp s.S.vecU i + comp s'.deltaU i) ∧
    ∀ k ∈ regKeys calls, ∀ x, lastFix k fixs = some x → comp s'.S.vecU (num k) = s.tc.normalized * x := by
  obtain ⟨hbk, hc⟩ := C21_iteration (hyper_problem hm) he hp hn hs
  rcases hc with ⟨hf, _⟩ | ⟨s2, g1, g2, g3⟩
  · rw [hit] at hf; simp at hf
  rw [hit, Res.ok.injEq] at g1
  subst g1
  refine ⟨g3.tc, g2, fun i i1 i2 => ?_, fun k hk x hx => ?_⟩
  · rw [g2.sums _ i1 i2, hbk.sums _ i1 i2, g3.trace, total_append]
  · rw [g2.fixed k hk x hx, g3.trace, lastTime_append, g3.tc, normalized_next]

/-- There are a gradient and a tangent for which an iteration contracts towards every equilibrium close to a regular one. -/
theorem contract_all (hm : Model S0 calls new loads fixs els (same els)) (he : Exact eqs)
    (hp : S0.prepare calls new (fixKeys fixs) = .ok S1) (hn : ∀ k ∈ regKeys calls, S1.eqNumber k.1 k.2.1 k.2.2 = .ok (num k))
    (hsm : ∀ e ∈ els, e.Smooth) (h0 : ∀ m ∈ S1.mpcs, m.b = 0) :
    ∃ (K : (Nat → ℝ) → Nat → Nat → ℝ) (F : (Nat → ℝ) → Nat → ℝ), Tangent S1 num els K F ∧
      (∀ u : Nat → ℝ, (∀ e ∈ els, e.Sound num u) → ∀ᶠ u' in nhds u, ∀ e ∈ els, e.Sound num u') ∧
      ∀ t₀ u₀, Equilibrium K F S1 (regKeys calls) num loads fixs els t₀ u₀ → ∀ c > 0, ∃ r > 0,
        (∀ v, Within S1.nDofs u₀ r v → ∀ e ∈ els, e.Sound num v) ∧
        ∀ t u, Equilibrium K F S1 (regKeys calls) num loads fixs els t u → Within S1.nDofs u₀ r u → ∀ s ρ,
        Reached eqs (hyper els (same els)) loads fixs S1 (Group.given els) s → s.tc.normalized = t → 0 ≤ ρ →
        Within S1.nDofs u ρ (comp s.S.vecU) → Within S1.nDofs u₀ r (comp s.S.vecU) →
        (iteration eqs (hyper els (same els)) loads fixs s = .fatal ∧ Refuses eqs K S1 num (comp s.S.vecU)) ∨
        ∃ s', iteration eqs (hyper els (same els)) loads fixs s = .ok s' ∧
          Within (S1.nDofs + S1.nMpc) u (c * ρ) (comp s'.S.vecU) := by
  obtain ⟨K, F, hsy, hK0, hd, hF0, hpot, hcont, hloc, hnear, hit⟩ := newton_all hm he hp hn
  obtain ⟨A, hb⟩ := base_of_prepare hm.legal hp hn
  have hdofs := hb.prep.pre.dofs
  refine ⟨K, F, ⟨hpot, fun u v hu i _ _ => hd u v hu i⟩, hnear, ?_⟩
  intro t₀ u₀ hu₀ c hc
  obtain ⟨r1, hr1, hstep⟩ := newton_step (C := S1.nConstr) (D := S1.nDofs) (N := S1.nDofs + S1.nMpc) (K := K) (F := F)
    (M := conM S1 num) (hnear u₀ hu₀.sound) (hcont hsm u₀ hu₀.sound) (fun v w hv i => hd v w hv i) (by
      intro w hw0 hrow j h1 h2
      refine hu₀.regular w ?_ ?_ ?_ j (by omega) h2
      · intro k _ hk
        have := hb.fixRange hk
        exact hw0 _ this.1 this.2
      · intro m hmm
        have hme := (shape_mpcs hb rfl m hmm).1
        have := hrow m.eqNum (by omega) hme.2
        simp only [add_mul, Finset.sum_add_distrib] at this
        rw [con_row hb hmm, Finset.sum_eq_zero, zero_add] at this
        · exact this
        · intro j _
          rw [hsy, hK0 _ _ _ hme.1, zero_mul]
      · intro k hk hf
        have hkr := hb.freeRange hk hf
        have := hrow (num k) hkr.1 (by omega)
        simp only [add_mul, Finset.sum_add_distrib] at this
        rw [dof_row hb hk] at this
        exact this) hc
  obtain ⟨r2, hr2, hsnd⟩ := near_of_eventually (D := S1.nDofs) (hnear u₀ hu₀.sound)
  -- coordinates that are not DoFs do not matter
  let cut : (Nat → ℝ) → Nat → ℝ := fun v j => if 0 < j ∧ j ≤ S1.nDofs then v j else u₀ j
  have hcut : ∀ v i, 0 < i → i ≤ S1.nDofs → v i = cut v i := fun v i a b => (if_pos ⟨a, b⟩).symm
  have hcut0 : ∀ v i, ¬ (0 < i ∧ i ≤ S1.nDofs) → cut v i = u₀ i := fun v i h => if_neg h
  refine ⟨min r1 r2, lt_min hr1 hr2, ?_, ?_⟩
  · intro v hv
    refine (hloc (cut v) v fun i a b => (hcut v i a b).symm).2.2 (hsnd _ (fun j a b => ?_) (hcut0 v))
    rw [← hcut v j a b]
    exact (hv j a b).trans (min_le_right _ _)
  intro t u hu hub s ρ hs htime hρ0 hin hin0
  obtain ⟨hmp, hkept⟩ := reached_kept hm he hp hn h0 hs
  rcases hit s hs with ⟨hf, hst⟩ | ⟨s', g1, g2, _⟩
  · left
    refine ⟨hf, ?_⟩
    simp only [same, hmp] at hst
    exact hst
  right
  refine ⟨s', g1, ?_⟩
  obtain ⟨hmp', hkept'⟩ := reached_kept hm he hp hn h0 (.iter hs g1)
  have ht' : s'.tc.normalized = t := by
    rw [(iter_facts hm he hp hn hs g1).1, normalized_next, htime]
  have l1 := hloc (comp s.S.vecU) (cut (comp s.S.vecU)) (hcut _)
  have l2 := hloc u (cut u) (hcut _)
  have hfix0 : ∀ j, 0 < j → j ≤ S1.nConstr → comp s'.S.vecU j - u j = 0 := by
    intro j a b
    obtain ⟨k, k1, k2, rfl⟩ := hb.fixOf a b
    obtain ⟨x, hx⟩ := Option.isSome_iff_exists.mp (lastFix_isSome.mpr k1)
    rw [g2.fixed k k2 x hx, hu.fixed k k2 x hx, ht', sub_self]
  have key := hstep ρ (cut (comp s.S.vecU)) (cut u) (fun j => comp s'.S.vecU j - u j) hρ0
    (fun j a b => by rw [← hcut _ j a b, ← hcut _ j a b]; exact hin j a b)
    (fun j a b => by rw [← hcut _ j a b]; exact (hin0 j a b).trans (min_le_left _ _)) (hcut0 _)
    (fun j a b => by rw [← hcut _ j a b]; exact (hub j a b).trans (min_le_left _ _)) (hcut0 _) hfix0 (by
      intro i i1 i2
      rw [← l2.2.1, ← l1.2.1, ← l1.1]
      simp only [add_mul, Finset.sum_add_distrib]
      by_cases hi : i ≤ S1.nDofs
      · obtain ⟨k, hk, hf, rfl⟩ := Struct.num_onto hb i1 hi
        rw [dof_row hb hk, mpcForce_sub]
        have h1 := g2.free k hk hf
        have h2 := hu.free k hk hf
        rw [ht', hmp'] at h1
        have h3 : ∑ j ∈ Finset.Icc 1 (S1.nDofs + S1.nMpc), K (comp s.S.vecU) (num k) j * (comp s'.S.vecU j - u j) =
            ∑ j ∈ Finset.Icc 1 (S1.nDofs + S1.nMpc), K (comp s.S.vecU) (num k) j * comp s'.deltaU j +
            ∑ j ∈ Finset.Icc 1 (S1.nDofs + S1.nMpc), K (comp s.S.vecU) (num k) j * (cut (comp s.S.vecU) j - cut u j) := by
          rw [← Finset.sum_add_distrib]
          refine Finset.sum_congr rfl fun j hj => ?_
          have hj' := Finset.mem_Icc.mp hj
          by_cases hjd : j ≤ S1.nDofs
          · rw [g2.dofs j (by omega) hjd, ← hcut _ j (by omega) hjd, ← hcut _ j (by omega) hjd]
            ring
          · rw [hK0 _ _ _ (by omega)]
            ring
        rw [h3]
        linarith
      · have hmem : i ∈ S1.mpcs.map Mpc.eqNum := by
          rw [hb.prep.ready.eqNums, List.mem_range'_1]
          have : S1.nMpc = S1.mpcs.length := rfl
          omega
        obtain ⟨m, hmm, rfl⟩ := List.mem_map.mp hmem
        have z : ∀ w : Nat → ℝ, ∑ j ∈ Finset.Icc 1 (S1.nDofs + S1.nMpc), K (comp s.S.vecU) m.eqNum j * w j = 0 := fun w =>
          Finset.sum_eq_zero fun j _ => by rw [hsy, hK0 _ _ _ (by omega), zero_mul]
        rw [con_row hb hmm, z, z, hF0 _ _ (by omega), hF0 _ _ (by omega), terms_sub, hkept' m hmm, hu.kept m hmm]
        ring)
  intro i i1 i2
  by_cases hi : i ≤ S1.nConstr
  · rw [hfix0 i i1 hi, abs_zero]
    positivity
  · exact key i (by omega) i2

variable {K : (Nat → ℝ) → Nat → Nat → ℝ} {F : (Nat → ℝ) → Nat → ℝ}

/-- The same for every gradient and tangent. -/
theorem contracts (hm : Model S0 calls new loads fixs els (same els)) (he : Exact eqs)
    (hp : S0.prepare calls new (fixKeys fixs) = .ok S1) (hn : ∀ k ∈ regKeys calls, S1.eqNumber k.1 k.2.1 k.2.2 = .ok (num k))
    (hsm : ∀ e ∈ els, e.Smooth) (h0 : ∀ m ∈ S1.mpcs, m.b = 0) (hT : Tangent S1 num els K F) {t₀ : ℝ} {u₀ : Nat → ℝ}
    (hu₀ : Equilibrium K F S1 (regKeys calls) num loads fixs els t₀ u₀) {c : ℝ} (hc : 0 < c) : ∃ r > 0,
      ∀ t u, Equilibrium K F S1 (regKeys calls) num loads fixs els t u → Within S1.nDofs u₀ r u → ∀ s ρ,
        Reached eqs (hyper els (same els)) loads fixs S1 (Group.given els) s → s.tc.normalized = t → 0 ≤ ρ →
        Within S1.nDofs u ρ (comp s.S.vecU) → Within S1.nDofs u₀ r (comp s.S.vecU) →
        (iteration eqs (hyper els (same els)) loads fixs s = .fatal ∧ Refuses eqs K S1 num (comp s.S.vecU)) ∨
        ∃ s', iteration eqs (hyper els (same els)) loads fixs s = .ok s' ∧
          Within (S1.nDofs + S1.nMpc) u (c * ρ) (comp s'.S.vecU) := by
  obtain ⟨K', F', hT', hnear, hall⟩ := contract_all hm he hp hn hsm h0
  obtain ⟨A, hb⟩ := base_of_prepare hm.legal hp hn
  have hdofs := hb.prep.pre.dofs
  have un := fun {u : Nat → ℝ} (hu : ∀ e ∈ els, e.Sound num u) => hT.unique hT' hnear hu
  obtain ⟨r, hr, hsnd, hcon⟩ := hall t₀ u₀ (hu₀.congr hb (un hu₀.sound).1 (un hu₀.sound).2) c hc
  refine ⟨r, hr, fun t u hu hub s ρ hs ht hρ hin hin0 => ?_⟩
  rcases hcon t u (hu.congr hb (un hu.sound).1 (un hu.sound).2) hub s ρ hs ht hρ hin hin0 with ⟨hf, hst⟩ | hok
  · left
    refine ⟨hf, ?_⟩
    obtain ⟨B, rhs, guess, b1, b2, b3⟩ := hst
    refine ⟨B, rhs, guess, b1, fun i hi j hj => ?_, b3⟩
    rw [b2 i hi j hj]
    beta_reduce
    rw [(un (hsnd _ hin0)).2 _ _ (by omega) (by omega) (by omega) (by omega)]
  · exact Or.inr hok

/-! ## C114 -/

/-- **C114, the tangent.** There are functions `F` and `K` as `Tangent` asks for. -/
theorem C114_tangent (hm : Model S0 calls new loads fixs els (same els))
    (hp : S0.prepare calls new (fixKeys fixs) = .ok S1) (hn : ∀ k ∈ regKeys calls, S1.eqNumber k.1 k.2.1 k.2.2 = .ok (num k)) :
    ∃ (K : (Nat → ℝ) → Nat → Nat → ℝ) (F : (Nat → ℝ) → Nat → ℝ), Tangent S1 num els K F := by
  obtain ⟨K, F, _, _, hd, _, hpot, _⟩ := newton_all hm gauss_exact hp hn
  exact ⟨K, F, hpot, fun u v hu i _ _ => hd u v hu i⟩

/-- **C114, one iteration.** For every model of SOLID81 and PLANE41 elements whose materials have continuous second derivatives, with
constant homogeneous constraint equations or none: around every regular equilibrium and for every factor `c > 0` there is a distance
`r` such that an iteration of the nonlinear solver from any state it reached, at the time of the equilibrium, with all DoFs within
`ρ ≤ r` of the equilibrium, stops only if the equation solver stops on the reduced matrix, and otherwise brings all DoFs and all
multipliers within `c * ρ`. -/
theorem C114_iteration (hm : Model S0 calls new loads fixs els (same els)) (he : Exact eqs)
    (hp : S0.prepare calls new (fixKeys fixs) = .ok S1) (hn : ∀ k ∈ regKeys calls, S1.eqNumber k.1 k.2.1 k.2.2 = .ok (num k))
    (hsm : ∀ e ∈ els, e.Smooth) (h0 : ∀ m ∈ S1.mpcs, m.b = 0) (hT : Tangent S1 num els K F) {t : ℝ} {u : Nat → ℝ}
    (hu : Equilibrium K F S1 (regKeys calls) num loads fixs els t u) {c : ℝ} (hc : 0 < c) :
    ∃ r > 0, ∀ s ρ, Reached eqs (hyper els (same els)) loads fixs S1 (Group.given els) s → s.tc.normalized = t → 0 ≤ ρ → ρ ≤ r →
      Within S1.nDofs u ρ (comp s.S.vecU) →
      (iteration eqs (hyper els (same els)) loads fixs s = .fatal ∧ Refuses eqs K S1 num (comp s.S.vecU)) ∨
      ∃ s', iteration eqs (hyper els (same els)) loads fixs s = .ok s' ∧
        Within (S1.nDofs + S1.nMpc) u (c * ρ) (comp s'.S.vecU) := by
  obtain ⟨r, hr, h⟩ := contracts hm he hp hn hsm h0 hT hu hc
  exact ⟨r, hr, fun s ρ hs ht hρ0 hρ hin => h t u hu (fun i _ _ => by simpa using hr.le) s ρ hs ht hρ0 hin
    fun i a b => (hin i a b).trans hρ⟩

end

end Nla3d.Newton
