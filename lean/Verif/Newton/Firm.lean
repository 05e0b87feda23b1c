import Verif.Newton.Path
import Verif.Struct.Stable

/-!
# The Gauss solver follows a path of firm equilibria: C114
-/

namespace Nla3d.Newton

open Nla3d.Storage Nla3d.Dof Nla3d.Iso Nla3d.Hyper Nla3d.Material Nla3d.Solver Nla3d.TimeCtl
open Nla3d.Mixed hiding comp
open Nla3d.Struct (mpcForce)

noncomputable section

/-! ## Specification -/

/-- Every direction in which all forces on free DoFs and all violations of constraint equations are below `b` has entries below 1. -/
def Firm (K : (Nat → ℝ) → Nat → Nat → ℝ) (S1 : Storage ℝ) (regs : List Key) (num : Key → Nat) (fixs : List (Bc ℝ)) (b : ℝ)
    (u : Nat → ℝ) : Prop :=
  ∀ v : Nat → ℝ, (∀ k ∈ regs, k ∈ fixKeys fixs → v (num k) = 0) →
    (∀ m ∈ S1.mpcs, |(m.eq.map (fun t => t.coef * v (num (.node, t.node, t.dof)))).sum| < b) →
    (∀ k ∈ regs, k ∉ fixKeys fixs →
      |∑ j ∈ Finset.Icc 1 (S1.nDofs + S1.nMpc), K u (num k) j * v j + mpcForce S1.mpcs v k| < b) →
    ∀ i, 0 < i → i ≤ S1.nDofs + S1.nMpc → |v i| < 1

/-! ## Lemmas -/

variable {S0 S1 : Storage ℝ} {calls : List RegCall} {new : List (Mpc ℝ)} {loads fixs : List (Bc ℝ)} {num : Key → Nat} {els : List El}
  {K : (Nat → ℝ) → Nat → Nat → ℝ} {F : (Nat → ℝ) → Nat → ℝ}

theorem firm_near (hm : Model S0 calls new loads fixs els (same els))
    (hp : S0.prepare calls new (fixKeys fixs) = .ok S1) (hn : ∀ k ∈ regKeys calls, S1.eqNumber k.1 k.2.1 k.2.2 = .ok (num k))
    (hsm : ∀ e ∈ els, e.Smooth) (hT : Tangent S1 num els K F) {u₀ : Nat → ℝ} (hsnd : ∀ e ∈ els, e.Sound num u₀) {b : ℝ}
    (hb20 : 1 / 10 ^ 20 < b) (hfirm : Firm K S1 (regKeys calls) num fixs b u₀) (hsmall : S1.nUnknown + S1.nMpc < 1000) :
    ∃ r > 0, ∀ v, Within S1.nDofs u₀ r v → ¬ Refuses Gauss.solveEquations K S1 num v := by
  obtain ⟨K', F', hsy, hK0, hd, hF0, hpot, hcont, hloc, hnear, _⟩ := newton_all hm gauss_exact hp hn
  obtain ⟨A, hb⟩ := base_of_prepare hm.legal hp hn
  have hdofs := hb.prep.pre.dofs
  have hT' : Tangent S1 num els K' F' := ⟨hpot, fun u v hu i _ _ => hd u v hu i⟩
  have un := fun {u : Nat → ℝ} (hu : ∀ e ∈ els, e.Sound num u) => hT.unique hT' hnear hu
  obtain ⟨η, hη, hηN⟩ : ∃ η > 0, (S1.nDofs + S1.nMpc : Nat) * η < b - 1 / 10 ^ 20 := by
    have hpos : 0 < b - 1 / 10 ^ 20 := by linarith
    refine ⟨(b - 1 / 10 ^ 20) / ((S1.nDofs + S1.nMpc : Nat) + 1), by positivity, ?_⟩
    rw [mul_div_assoc', div_lt_iff₀ (by positivity)]
    nlinarith
  have hev : ∀ᶠ u in nhds u₀, (∀ e ∈ els, e.Sound num u) ∧ ∀ i ∈ Finset.Icc 1 (S1.nDofs + S1.nMpc),
      ∀ j ∈ Finset.Icc 1 (S1.nDofs + S1.nMpc), |K' u i j - K' u₀ i j| ≤ η := by
    refine (hnear u₀ hsnd).and ?_
    rw [Finset.eventually_all]
    intro i _
    rw [Finset.eventually_all]
    intro j _
    filter_upwards [Metric.tendsto_nhds.mp (hcont hsm u₀ hsnd i j) η hη] with u hu
    rw [Real.dist_eq] at hu
    exact hu.le
  obtain ⟨r, hr, hball⟩ := near_of_eventually (D := S1.nDofs) hev
  refine ⟨r, hr, fun v hv href => ?_⟩
  let cut : Nat → ℝ := fun j => if 0 < j ∧ j ≤ S1.nDofs then v j else u₀ j
  have hcut : ∀ i, 0 < i → i ≤ S1.nDofs → cut i = v i := fun i a b => if_pos ⟨a, b⟩
  obtain ⟨l1, l2⟩ := hball cut (fun j a b => by rw [hcut j a b]; exact hv j a b) (fun j hj => if_neg hj)
  obtain ⟨k1, _, k3⟩ := hloc cut v hcut
  have hvs := k3 l1
  rcases Struct.gauss_near href with h1000 | ⟨w, ⟨i0, hi0, hw1⟩, hw⟩
  · omega
  -- scale the direction
  obtain ⟨i1, hi1, hmax⟩ := Finset.exists_max_image (Finset.range (S1.nUnknown + S1.nMpc)) (fun i => |w i|)
    ⟨i0, Finset.mem_range.mpr hi0⟩
  have hM : 1 ≤ |w i1| := by
    have := hmax i0 (Finset.mem_range.mpr hi0)
    rw [hw1, abs_one] at this
    exact this
  have hM0 : 0 < |w i1| := by linarith
  have hi1' := Finset.mem_range.mp hi1
  let y : Nat → ℝ := fun i => if S1.nConstr < i ∧ i ≤ S1.nDofs + S1.nMpc then w (i - S1.nConstr - 1) / |w i1| else 0
  have hy : ∀ j : Fin (S1.nDofs + S1.nMpc - S1.nConstr), y (S1.nConstr + 1 + j) = w j / |w i1| := by
    intro j
    have hj := j.isLt
    show (if S1.nConstr < S1.nConstr + 1 + j.val ∧ S1.nConstr + 1 + j.val ≤ S1.nDofs + S1.nMpc then
      w (S1.nConstr + 1 + j.val - S1.nConstr - 1) / |w i1| else 0) = _
    rw [if_pos (by omega), show S1.nConstr + 1 + j.val - S1.nConstr - 1 = j.val by omega]
  have hy0 : ∀ j, 0 < j → j ≤ S1.nConstr → y j = 0 := fun j _ h => if_neg (by omega)
  have hy1 : ∀ j, |y j| ≤ 1 := by
    intro j
    by_cases hj : S1.nConstr < j ∧ j ≤ S1.nDofs + S1.nMpc
    · show |if S1.nConstr < j ∧ j ≤ S1.nDofs + S1.nMpc then w (j - S1.nConstr - 1) / |w i1| else 0| ≤ 1
      rw [if_pos hj, abs_div, abs_abs, div_le_one hM0]
      exact hmax _ (Finset.mem_range.mpr (by omega))
    · show |if S1.nConstr < j ∧ j ≤ S1.nDofs + S1.nMpc then w (j - S1.nConstr - 1) / |w i1| else 0| ≤ 1
      rw [if_neg hj]
      simp
  have hrow : ∀ i, S1.nConstr < i → i ≤ S1.nDofs + S1.nMpc →
      |∑ j ∈ Finset.Icc 1 (S1.nDofs + S1.nMpc), (K' v i j + conM S1 num i j) * y j| < 1 / 10 ^ 20 := by
    intro i a b
    have h2 := hw (i - S1.nConstr - 1) (by omega)
    have hi : S1.nConstr + (i - S1.nConstr - 1 + 1) = i := by omega
    simp only [hi] at h2
    rw [sum_free _ y hy0]
    simp only [hy]
    have e : ∑ j : Fin (S1.nDofs + S1.nMpc - S1.nConstr),
        (K' v i (S1.nConstr + 1 + j) + conM S1 num i (S1.nConstr + 1 + j)) * (w j / |w i1|) =
        (∑ j ∈ Finset.range (S1.nUnknown + S1.nMpc), (K v i (S1.nConstr + (j + 1)) +
          matSum 0 i (S1.nConstr + (j + 1)) (S1.mpcs.flatMap (mpcContribs num))) * w j) / |w i1| := by
      rw [Finset.sum_div, Fin.sum_univ_eq_sum_range (fun j => (K' v i (S1.nConstr + 1 + j) + conM S1 num i (S1.nConstr + 1 + j)) *
        (w j / |w i1|)), show S1.nDofs + S1.nMpc - S1.nConstr = S1.nUnknown + S1.nMpc by omega]
      refine Finset.sum_congr rfl fun j hj => ?_
      have hj' := Finset.mem_range.mp hj
      rw [show S1.nConstr + 1 + j = S1.nConstr + (j + 1) by omega,
        (un hvs).2 i _ (by omega) b (by omega) (by omega), mul_div_assoc]
      rfl
    rw [e, abs_div, abs_abs, div_lt_iff₀ hM0]
    exact lt_of_lt_of_le h2 (by nlinarith)
  have hrow0 : ∀ i, S1.nConstr < i → i ≤ S1.nDofs + S1.nMpc →
      |∑ j ∈ Finset.Icc 1 (S1.nDofs + S1.nMpc), (K' u₀ i j + conM S1 num i j) * y j| < b := by
    intro i a c
    have e : ∑ j ∈ Finset.Icc 1 (S1.nDofs + S1.nMpc), (K' u₀ i j + conM S1 num i j) * y j =
        ∑ j ∈ Finset.Icc 1 (S1.nDofs + S1.nMpc), (K' v i j + conM S1 num i j) * y j -
        ∑ j ∈ Finset.Icc 1 (S1.nDofs + S1.nMpc), (K' cut i j - K' u₀ i j) * y j := by
      rw [← Finset.sum_sub_distrib, k1]
      exact Finset.sum_congr rfl fun j _ => by ring
    have h2 : |∑ j ∈ Finset.Icc 1 (S1.nDofs + S1.nMpc), (K' cut i j - K' u₀ i j) * y j| ≤ (S1.nDofs + S1.nMpc : Nat) * η := by
      refine (Finset.abs_sum_le_sum_abs _ _).trans ((Finset.sum_le_card_nsmul _ _ η fun j hj => ?_).trans ?_)
      · rw [abs_mul]
        have := l2 i (Finset.mem_Icc.mpr ⟨by omega, c⟩) j hj
        calc _ ≤ η * 1 := mul_le_mul this (hy1 j) (abs_nonneg _) hη.le
          _ = η := mul_one _
      · rw [Nat.card_Icc, nsmul_eq_mul, Nat.add_sub_cancel]
    rw [e]
    exact lt_of_le_of_lt (abs_sub _ _) (by linarith [hrow i a c])
  have hfin := hfirm y ?_ ?_ ?_ (S1.nConstr + 1 + i1) (by omega) (by omega)
  · have hyi := hy ⟨i1, by omega⟩
    simp only at hyi
    rw [hyi, abs_div, abs_abs, div_self hM0.ne'] at hfin
    exact lt_irrefl _ hfin
  · intro k _ hk
    have := hb.fixRange hk
    exact hy0 _ this.1 this.2
  · intro m hmm
    have hme := (shape_mpcs hb rfl m hmm).1
    have := hrow0 m.eqNum (by omega) hme.2
    simp only [add_mul, Finset.sum_add_distrib] at this
    rw [con_row hb hmm, Finset.sum_eq_zero, zero_add] at this
    · exact this
    · intro j _
      rw [hsy, hK0 _ _ _ hme.1, zero_mul]
  · intro k hk hf
    have hkr := hb.freeRange hk hf
    have := hrow0 (num k) hkr.1 (by omega)
    simp only [add_mul, Finset.sum_add_distrib] at this
    rw [dof_row hb hk] at this
    have e : ∑ j ∈ Finset.Icc 1 (S1.nDofs + S1.nMpc), K u₀ (num k) j * y j =
        ∑ j ∈ Finset.Icc 1 (S1.nDofs + S1.nMpc), K' u₀ (num k) j * y j := by
      refine Finset.sum_congr rfl fun j hj => ?_
      have hj' := Finset.mem_Icc.mp hj
      rw [(un hsnd).2 _ j (by omega) (by omega) (by omega) hj'.2]
    rw [e]
    exact this

/-- Along a path of firm equilibria one distance will do. -/
theorem firm_path (hm : Model S0 calls new loads fixs els (same els))
    (hp : S0.prepare calls new (fixKeys fixs) = .ok S1) (hn : ∀ k ∈ regKeys calls, S1.eqNumber k.1 k.2.1 k.2.2 = .ok (num k))
    (hsm : ∀ e ∈ els, e.Smooth) (hT : Tangent S1 num els K F) {u : ℝ → Nat → ℝ}
    (hs : ∀ t ∈ Set.Icc (0 : ℝ) 1, ∀ e ∈ els, e.Sound num (u t)) {b : ℝ} (hb20 : 1 / 10 ^ 20 < b)
    (hfirm : ∀ t ∈ Set.Icc (0 : ℝ) 1, Firm K S1 (regKeys calls) num fixs b (u t)) (hsmall : S1.nUnknown + S1.nMpc < 1000)
    (hc : ∀ i, 0 < i → i ≤ S1.nDofs → ContinuousOn (fun t => u t i) (Set.Icc 0 1)) :
    ∃ r > 0, ∀ t ∈ Set.Icc (0 : ℝ) 1, ∀ v, Within S1.nDofs (u t) r v → ¬ Refuses Gauss.solveEquations K S1 num v := by
  refine isCompact_Icc.induction_on (p := fun I => ∃ r > 0, ∀ t ∈ I, ∀ v, Within S1.nDofs (u t) r v →
    ¬ Refuses Gauss.solveEquations K S1 num v) ⟨1, one_pos, by simp⟩ ?_ ?_ ?_
  · rintro I J hIJ ⟨r, hr, h⟩
    exact ⟨r, hr, fun t ht => h t (hIJ ht)⟩
  · rintro I J ⟨r, hr, h⟩ ⟨r', hr', h'⟩
    refine ⟨min r r', lt_min hr hr', fun t ht v hv => ?_⟩
    rcases ht with ht | ht
    · exact h t ht v fun i a b => (hv i a b).trans (min_le_left _ _)
    · exact h' t ht v fun i a b => (hv i a b).trans (min_le_right _ _)
  · intro t₀ ht₀
    obtain ⟨r, hr, h⟩ := firm_near hm hp hn hsm hT (hs t₀ ht₀) hb20 (hfirm t₀ ht₀) hsmall
    have hev : ∀ᶠ t in nhdsWithin t₀ (Set.Icc 0 1), ∀ i ∈ Finset.Icc 1 S1.nDofs, |u t i - u t₀ i| ≤ r / 2 := by
      rw [Finset.eventually_all]
      intro i hi
      have hi' := Finset.mem_Icc.mp hi
      filter_upwards [Metric.tendsto_nhds.mp (hc i (by omega) hi'.2 t₀ ht₀) (r / 2) (by positivity)] with t ht
      rw [Real.dist_eq] at ht
      exact ht.le
    refine ⟨_, hev, r / 2, by positivity, fun t ht v hv => h v fun i a b => ?_⟩
    have h1 := ht i (Finset.mem_Icc.mpr ⟨by omega, b⟩)
    have e : v i - u t₀ i = (v i - u t i) + (u t i - u t₀ i) := by ring
    rw [e]
    exact (abs_add_le _ _).trans (by linarith [hv i a b])

/-- Firm equilibria are regular. -/
theorem Firm.regular {u : Nat → ℝ} {b : ℝ} (hb : 0 < b) (h : Firm K S1 (regKeys calls) num fixs b u) (v : Nat → ℝ)
    (h1 : ∀ k ∈ regKeys calls, k ∈ fixKeys fixs → v (num k) = 0) (h2 : Kept num S1.mpcs v)
    (h3 : ∀ k ∈ regKeys calls, k ∉ fixKeys fixs →
      ∑ j ∈ Finset.Icc 1 (S1.nDofs + S1.nMpc), K u (num k) j * v j + mpcForce S1.mpcs v k = 0) :
    ∀ i, 0 < i → i ≤ S1.nDofs + S1.nMpc → v i = 0 := by
  intro i i1 i2
  by_contra hne
  have hlin : ∀ (c : ℝ) (ms : List (Mpc ℝ)) (k : Key), mpcForce ms (fun i => c * v i) k = c * mpcForce ms v k := by
    intro c ms k
    have inner : ∀ (m : Mpc ℝ) (ts : List (MpcTerm ℝ)),
        (ts.map fun t => if (Side.node, t.node, t.dof) = k then t.coef * (c * v m.eqNum) else 0).sum =
        c * (ts.map fun t => if (Side.node, t.node, t.dof) = k then t.coef * v m.eqNum else 0).sum := by
      intro m ts
      induction ts with
      | nil => simp
      | cons t ts ih =>
        simp only [List.map_cons, List.sum_cons, ih]
        split <;> ring
    unfold mpcForce
    induction ms with
    | nil => simp
    | cons m ms ih =>
      simp only [List.map_cons, List.sum_cons]
      rw [ih]
      beta_reduce
      rw [inner]
      ring
  have := h (fun j => (1 / v i) * v j) (fun k hk hf => by rw [h1 k hk hf, mul_zero]) (by
      intro m hm
      have e : m.eq.map (fun t => t.coef * (1 / v i * v (num (.node, t.node, t.dof)))) =
          m.eq.map (fun t => (1 / v i) * (t.coef * v (num (.node, t.node, t.dof)))) :=
        List.map_congr_left fun t _ => by ring
      rw [e, List.sum_map_mul_left, h2 m hm, mul_zero, abs_zero]
      exact hb) (by
      intro k hk hf
      have e : ∑ j ∈ Finset.Icc 1 (S1.nDofs + S1.nMpc), K u (num k) j * (1 / v i * v j) =
          (1 / v i) * ∑ j ∈ Finset.Icc 1 (S1.nDofs + S1.nMpc), K u (num k) j * v j := by
        rw [Finset.mul_sum]
        exact Finset.sum_congr rfl fun j _ => by ring
      rw [e, hlin, ← mul_add, h3 k hk hf, mul_zero, abs_zero]
      exact hb) i i1 i2
  beta_reduce at this
  rw [one_div, inv_mul_cancel₀ hne, abs_one] at this
  exact lt_irrefl _ this

/-! ## C114 -/

/-- **C114, the Gauss solver.** A model of SOLID81 and PLANE41 elements with smooth materials, with constant homogeneous constraint
equations or none, and with fewer than 1000 unknowns and multipliers. Along a path of equilibria that depends continuously on the time,
starts at rest, and is firm with a margin above `1e-20`, the nonlinear solver with the Gauss solver makes all load steps and ends
within `ε` of the equilibrium at the end of the path, if there are enough load steps. -/
theorem C114_gauss (hm : Model S0 calls new loads fixs els (same els))
    (hp : S0.prepare calls new (fixKeys fixs) = .ok S1) (hn : ∀ k ∈ regKeys calls, S1.eqNumber k.1 k.2.1 k.2.2 = .ok (num k))
    (hsm : ∀ e ∈ els, e.Smooth) (h0 : ∀ m ∈ S1.mpcs, m.b = 0) (hsmall : S1.nUnknown + S1.nMpc < 1000) (hT : Tangent S1 num els K F)
    {u : ℝ → Nat → ℝ} {b : ℝ} (hb20 : 1 / 10 ^ 20 < b)
    (hsound : ∀ t ∈ Set.Icc (0 : ℝ) 1, ∀ e ∈ els, e.Sound num (u t))
    (hfixed : ∀ t ∈ Set.Icc (0 : ℝ) 1, ∀ k ∈ regKeys calls, ∀ x, lastFix k fixs = some x → u t (num k) = t * x)
    (hfree : ∀ t ∈ Set.Icc (0 : ℝ) 1, ∀ k ∈ regKeys calls, k ∉ fixKeys fixs →
      F (u t) (num k) + t * loadsOn k loads = mpcForce S1.mpcs (u t) k)
    (hkept : ∀ t ∈ Set.Icc (0 : ℝ) 1, Kept num S1.mpcs (u t))
    (hfirm : ∀ t ∈ Set.Icc (0 : ℝ) 1, Firm K S1 (regKeys calls) num fixs b (u t))
    (hc : ∀ i, 0 < i → i ≤ S1.nDofs → ContinuousOn (fun t => u t i) (Set.Icc 0 1))
    (hrest : ∀ i, 0 < i → i ≤ S1.nDofs → u 0 i = 0) {cc ε : ℝ} (hcc : 0 < cc) (hε : 0 < ε) :
    ∃ n₀ > 0, ∀ (n nIter : Nat) (tend : ℝ) (inner fuel : Nat), n₀ ≤ n → nIter < 65536 → 0 < tend → max 1 nIter ≤ inner → n < fuel →
      ∃ s, nonlinearSolve Gauss.solveEquations (hyper els (same els)) loads fixs ⟨nIter, n, cc⟩ (TimeControl.fresh.setEndTime tend)
          calls new S0 (Group.given els) inner fuel = some (.ok (s, (List.range' 1 n).map u16)) ∧
        Within (S1.nDofs + S1.nMpc) (u 1) ε (comp s.S.vecU) := by
  have hpos : (0 : ℝ) < b := lt_trans (by positivity) hb20
  have hu : ∀ t ∈ Set.Icc (0 : ℝ) 1, Equilibrium K F S1 (regKeys calls) num loads fixs els t (u t) := fun t ht =>
    ⟨hsound t ht, hfixed t ht, hfree t ht, hkept t ht, (hfirm t ht).regular hpos⟩
  obtain ⟨r, hr, hno⟩ := firm_path hm hp hn hsm hT hsound hb20 hfirm hsmall hc
  obtain ⟨n₀, hn₀, h⟩ := C114_enough_steps hm gauss_exact hp hn hsm h0 hT hu hc hrest hcc (ε := min ε r) (lt_min hε hr)
  refine ⟨n₀, hn₀, fun n nIter tend inner fuel a1 a2 a3 a4 a5 => ?_⟩
  rcases h n nIter tend inner fuel a1 a2 a3 a4 a5 with ⟨_, t, ht, s, _, _, hin, href⟩ | ⟨s, g1, g2⟩
  · exact absurd href (hno t ht _ fun i a b => (hin i a b).trans (min_le_right _ _))
  · exact ⟨s, g1, fun i a b => (g2 i a b).trans (min_le_left _ _)⟩

end

end Nla3d.Newton
