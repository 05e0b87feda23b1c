import Verif.Struct.Stable
import Verif.Struct.Sample
import Mathlib.Analysis.Normed.Module.FiniteDimension
import Mathlib.Topology.Algebra.Monoid

/-!
# Solved or not: a matter of units

The Gauss solver compares pivots with `1e-20`, whatever the units of the model are. A model that resists all displacements of its free
DoFs is solved if its forces are measured in a small enough unit, and refused if they are measured in a large enough one.
Trusses with mechanisms.
-/

noncomputable section

namespace Nla3d.Struct

open Nla3d.Dof Nla3d.Block Nla3d.Sparse Nla3d.Storage Nla3d.Solver Finset
open scoped Matrix

/-! ## Specification -/

/-- The element with its forces measured in a unit `s` times smaller. -/
def LinEl.scaled {K : Type} [Mul K] (s : K) (x : LinEl K) : LinEl K :=
  { x with Ke := fun i j => s * x.Ke i j, Fe := x.Fe.map fun f i => s * f i }

/-- Work of the elements on the displacements `w`, without initial forces. -/
def innerWork {K : Type} [CommRing K] (els : List (LinEl K)) (w : Key → K) : K :=
  (els.map fun x => x.work w w - x.work w (fun _ => 0)).sum

/-- The elements resist all displacements of the free DoFs. -/
def Resists (els : List (LinEl ℝ)) (calls : List RegCall) (fixs : List (Bc ℝ)) : Prop :=
  ∀ w : Key → ℝ, (∀ k, k ∉ freeKeys calls fixs → w k = 0) → (∃ k, w k ≠ 0) → 0 < innerWork els w

/-! ## Lemmas -/

theorem work_sub {K : Type} [CommRing K] (x : LinEl K) (w u : Key → K) : x.work w u - x.work w (fun _ => 0) =
    ∑ a ∈ range x.n, ∑ b ∈ range x.n, w (localKey x.nodes x.dofs a) * x.Ke a b * u (localKey x.nodes x.dofs b) := by
  unfold LinEl.work LinEl.force
  rw [← Finset.sum_sub_distrib]
  refine Finset.sum_congr rfl fun a _ => ?_
  simp only [mul_zero, Finset.sum_const_zero]
  rw [← mul_sub, sub_sub_sub_cancel_right, sub_zero, Finset.mul_sum]
  exact Finset.sum_congr rfl fun b _ => by ring

theorem innerWork_smul {K : Type} [CommRing K] (els : List (LinEl K)) (c : K) (w : Key → K) :
    innerWork els (fun k => c * w k) = c ^ 2 * innerWork els w := by
  unfold innerWork
  rw [← List.sum_map_mul_left]
  refine congrArg List.sum (List.map_congr_left fun x _ => ?_)
  rw [work_sub, work_sub, Finset.mul_sum]
  refine Finset.sum_congr rfl fun a _ => ?_
  rw [Finset.mul_sum]
  exact Finset.sum_congr rfl fun b _ => by ring

theorem scaled_placed {K : Type} [CommRing K] {S0 : Storage K} {calls : List RegCall} {x : LinEl K} (s : K) (h : Placed S0 calls x) :
    Placed S0 calls (x.scaled s) :=
  ⟨h.on, h.distinct, fun a ha b hb => congrArg (s * ·) (h.symm a ha b hb)⟩

theorem innerWork_scaled {K : Type} [CommRing K] (s : K) (els : List (LinEl K)) (w : Key → K) :
    innerWork (els.map (LinEl.scaled s)) w = s * innerWork els w := by
  unfold innerWork
  rw [List.map_map, ← List.sum_map_mul_left]
  refine congrArg List.sum (List.map_congr_left fun x _ => ?_)
  show (x.scaled s).work w w - (x.scaled s).work w _ = _
  rw [work_sub, work_sub, Finset.mul_sum]
  refine Finset.sum_congr rfl fun a _ => ?_
  rw [Finset.mul_sum]
  refine Finset.sum_congr rfl fun b _ => ?_
  show w (localKey x.nodes x.dofs a) * (s * x.Ke a b) * w (localKey x.nodes x.dofs b) = _
  ring

theorem forceOn_sub {K : Type} [CommRing K] (x : LinEl K) (u : Key → K) (k : Key) : x.forceOn u k - x.forceOn (fun _ => 0) k =
    ∑ a ∈ range x.n, if localKey x.nodes x.dofs a = k then ∑ b ∈ range x.n, x.Ke a b * u (localKey x.nodes x.dofs b) else 0 := by
  unfold LinEl.forceOn LinEl.force
  rw [← Finset.sum_sub_distrib]
  refine Finset.sum_congr rfl fun a _ => ?_
  split
  · simp
  · simp

theorem resistance_scaled {K : Type} [Field K] [LinearOrder K] [IsStrictOrderedRing K] (s : K) (els : List (LinEl K)) (w : Key → K)
    (k : Key) : resistance (els.map (LinEl.scaled s)) w k = s * resistance els w k := by
  rw [← resistance_eq, ← resistance_eq, List.map_map, ← List.sum_map_mul_left]
  refine congrArg List.sum (List.map_congr_left fun x _ => ?_)
  show (x.scaled s).forceOn w k - (x.scaled s).forceOn _ k = _
  rw [forceOn_sub, forceOn_sub, Finset.mul_sum]
  refine Finset.sum_congr rfl fun a _ => ?_
  show (if localKey x.nodes x.dofs a = k then ∑ b ∈ range x.n, s * x.Ke a b * w (localKey x.nodes x.dofs b) else 0) = _
  split
  · rw [Finset.mul_sum]
    exact Finset.sum_congr rfl fun b _ => by ring
  · rw [mul_zero]

/-- Displacements of the DoFs in `F`. -/
def spread (F : Finset Key) (f : F → ℝ) (k : Key) : ℝ := if h : k ∈ F then f ⟨k, h⟩ else 0

theorem innerWork_continuous (els : List (LinEl ℝ)) (F : Finset Key) : Continuous fun f : F → ℝ => innerWork els (spread F f) := by
  unfold innerWork
  have hs : ∀ k, Continuous fun f : F → ℝ => spread F f k := by
    intro k
    unfold spread
    by_cases h : k ∈ F
    · simp only [dif_pos h]; fun_prop
    · simp only [dif_neg h]; fun_prop
  refine continuous_list_sum els fun x _ => ?_
  simp only [work_sub]
  exact continuous_finset_sum _ fun a _ => continuous_finset_sum _ fun b _ => ((hs _).mul continuous_const).mul (hs _)

/-- Elements that resist do so uniformly. -/
theorem resists_bound {els : List (LinEl ℝ)} {calls : List RegCall} {fixs : List (Bc ℝ)} (h : Resists els calls fixs) :
    ∃ c > 0, ∀ w : Key → ℝ, (∀ k, k ∉ freeKeys calls fixs → w k = 0) → (∃ k ∈ freeKeys calls fixs, w k = 1) →
      c * ∑ k ∈ freeKeys calls fixs, |w k| ≤ innerWork els w := by
  classical
  generalize hF : freeKeys calls fixs = F
  by_cases hne : F.Nonempty
  swap
  · exact ⟨1, one_pos, fun w _ ⟨k, hk, _⟩ => absurd ⟨k, hk⟩ hne⟩
  obtain ⟨k0, hk0⟩ := hne
  have hcomp : IsCompact (Metric.sphere (0 : F → ℝ) 1) := isCompact_sphere 0 1
  have hnon : (Metric.sphere (0 : F → ℝ) 1).Nonempty := by
    refine ⟨fun _ => 1, ?_⟩
    rw [mem_sphere_zero_iff_norm]
    haveI : Nonempty F := ⟨⟨k0, hk0⟩⟩
    rw [pi_norm_const, norm_one]
  obtain ⟨f0, hf0, hmin⟩ := hcomp.exists_isMinOn hnon (innerWork_continuous els F).continuousOn
  have hspread : ∀ f : F → ℝ, ∀ k, k ∉ F → spread F f k = 0 := fun f k hk => dif_neg hk
  have hpos : 0 < innerWork els (spread F f0) := by
    refine h _ (fun k hk => hspread f0 k (by rwa [hF] at hk)) ?_
    by_contra hall
    push Not at hall
    have : f0 = 0 := by
      funext k
      have := hall k.1
      unfold spread at this
      rw [dif_pos k.2] at this
      exact this
    rw [this, mem_sphere_zero_iff_norm, norm_zero] at hf0
    exact absurd hf0 zero_ne_one
  have hcard : 0 < (F.card : ℝ) := by exact_mod_cast Finset.card_pos.mpr ⟨k0, hk0⟩
  refine ⟨innerWork els (spread F f0) / F.card, div_pos hpos hcard, fun w hw ⟨k1, hk1, hw1⟩ => ?_⟩
  let f : F → ℝ := fun k => w k
  have hle : ∀ k ∈ F, |w k| ≤ ‖f‖ := fun k hk => norm_le_pi_norm f ⟨k, hk⟩
  have h1 : 1 ≤ ‖f‖ := by
    have := hle k1 hk1
    rwa [hw1, abs_one] at this
  have hfne : ‖f‖ ≠ 0 := by positivity
  have hunit : (‖f‖⁻¹ • f) ∈ Metric.sphere (0 : F → ℝ) 1 := by
    rw [mem_sphere_zero_iff_norm, norm_smul, norm_inv, norm_norm, inv_mul_cancel₀ hfne]
  have hm := isMinOn_iff.mp hmin _ hunit
  have hsp : spread F (‖f‖⁻¹ • f) = fun k => ‖f‖⁻¹ * w k := by
    funext k
    unfold spread
    by_cases hk : k ∈ F
    · rw [dif_pos hk]; rfl
    · rw [dif_neg hk, hw k hk, mul_zero]
  rw [hsp, innerWork_smul] at hm
  have hsum : ∑ k ∈ F, |w k| ≤ F.card * ‖f‖ := by
    refine (Finset.sum_le_sum hle).trans ?_
    rw [Finset.sum_const, nsmul_eq_mul]
  have hw2 : innerWork els w = ‖f‖ ^ 2 * (‖f‖⁻¹ ^ 2 * innerWork els w) := by
    rw [← mul_assoc, ← mul_pow, mul_inv_cancel₀ hfne, one_pow, one_mul]
  calc innerWork els (spread F f0) / F.card * ∑ k ∈ F, |w k|
      ≤ innerWork els (spread F f0) / F.card * (F.card * ‖f‖) := mul_le_mul_of_nonneg_left hsum (div_nonneg hpos.le hcard.le)
    _ = innerWork els (spread F f0) * ‖f‖ := by rw [← mul_assoc, div_mul_cancel₀ _ hcard.ne']
    _ ≤ innerWork els (spread F f0) * ‖f‖ ^ 2 := by
        refine mul_le_mul_of_nonneg_left ?_ hpos.le
        nlinarith
    _ ≤ (‖f‖⁻¹ ^ 2 * innerWork els w) * ‖f‖ ^ 2 := mul_le_mul_of_nonneg_right hm (sq_nonneg _)
    _ = innerWork els w := by rw [mul_comm, ← hw2]

section
variable {K : Type} [Field K] [LinearOrder K] [IsStrictOrderedRing K]

/-- A result of the Gauss solver means a first pivot. -/
theorem gauss_first {n : Nat} {a : Nat → Nat → K} (h : Succeeds (Gauss.solveEquations : EqSolver K) n a) (hn : 0 < n) :
    ∃ q < n, 1 / 10 ^ 20 ≤ |a q 0| := by
  obtain ⟨B, rhs, guess, X, hB, hv, hr, hg, hs⟩ := h
  subst hB
  by_contra hall
  push Not at hall
  have hb : Gauss.RepV B.si.nRows rhs (fun i => rhs.getD i 0) := ⟨hr, fun i hi => by
    rw [getElem?_of_getD (by rw [hr]; exact hi)]⟩
  obtain ⟨A, f1, f2⟩ := Gauss.fill_spec hv
  have hnone := (Gauss.C20_failure_iff f2 hb hg).mpr ⟨0, a, hn, .start, fun q _ hq => hall q hq⟩
  unfold Gauss.solveEquations at hs
  by_cases h1000 : B.si.nRows < 1000
  · rw [decide_eq_true h1000] at hs
    simp only [Res.check_true, Res.ok_bind, f1, hnone] at hs
    simp at hs
  · rw [decide_eq_false h1000] at hs
    simp [Res.check] at hs

variable {E : Type} {S0 S' : Storage K} {calls : List RegCall} {new : List (Mpc K)} {loads fixs : List (Bc K)} {els : List (LinEl K)}
  {update : E → Storage K → E} {e e' : E}

/-- **C109, weak models are refused.** A model without constraint equations in which a unit displacement of a free DoF meets forces below
`1e-20` only, for each free DoF, is not solved: even if it is properly supported. -/
theorem C109_weak (hl : LegalModel S0 calls new (fixKeys fixs)) (hload : ∀ l ∈ loads, keyOf l ∈ regKeys calls)
    (hp : ∀ x ∈ els, Placed S0 calls x) (hm : S0.mpcs ++ new = []) (hfree : (freeKeys calls fixs).Nonempty)
    (hw : ∀ k ∈ freeKeys calls fixs, ∀ k' ∈ freeKeys calls fixs, |resistance els (fun j => if j = k then 1 else 0) k'| < 1 / 10 ^ 20) :
    linearSolve Gauss.solveEquations (linear els update) loads fixs calls new S0 e = .fatal := by
  have hprob := linear_problem (E := E) (update := update) hl hload hp
  rcases linear_solve hprob gauss_exact e with ⟨hf, _⟩ | ⟨S1, num, hprep, hnum, ⟨hf, _⟩ | ⟨S', e', h1, _, _, _, _, _, _, _, _, _, _, hsuc⟩⟩
  · exact hf
  · exact hf
  exfalso
  obtain ⟨A, hb⟩ := base_of_prepare hl hprep hnum
  have c3 := hb.prep.pre.dofs
  have c4 : S1.nMpc = 0 := by
    rw [hb.prep.ready.nMpc, hm]
    rfl
  have hM : S1.mpcs = [] := List.length_eq_zero_iff.mp c4
  obtain ⟨kf, hkf⟩ := hfree
  obtain ⟨hkf1, hkf2⟩ := mem_freeKeys.mp hkf
  have hr := hb.freeRange hkf1 hkf2
  obtain ⟨q, hq, hbig⟩ := gauss_first hsuc (by omega)
  obtain ⟨k0, hk0, hf0, he0⟩ := num_onto hb (i := S1.nConstr + 1) (by omega) (by omega)
  obtain ⟨k, hk, hf, he⟩ := num_onto hb (i := S1.nConstr + (q + 1)) (by omega) (by omega)
  have hw' := hw k0 (mem_freeKeys.mpr ⟨hk0, hf0⟩) k (mem_freeKeys.mpr ⟨hk, hf⟩)
  have r1 := row_eq hb hnum hp update e (fun j => if j = num k0 then (1 : K) else 0) hk
  have r2 := row_eq hb hnum hp update e (fun _ => (0 : K)) hk
  rw [hM] at r1 r2
  simp only [mpcForce, List.map_nil, List.sum_nil, add_zero] at r1 r2
  rw [rowMul_zero, zero_sub] at r2
  rw [sum_forceOn_congr hp (v := fun j => if j = k0 then 1 else 0) (fun j hj => by
    by_cases c : j = k0
    · rw [c, if_pos rfl, if_pos rfl]
    · rw [if_neg c, if_neg fun h => c (hb.inj _ hj _ hk0 h)])] at r1
  have hrow : rowMul (Assembled (linear els update) e S1 num 0) (fun j => if j = num k0 then (1 : K) else 0) (S1.nDofs + S1.nMpc) (num k) =
      Assembled (linear els update) e S1 num 0 (num k) (num k0) := by
    unfold rowMul
    rw [Finset.sum_eq_single (num k0 - 1)]
    · have : num k0 - 1 + 1 = num k0 := by omega
      rw [this]
      beta_reduce
      rw [if_pos rfl, mul_one]
    · intro b _ hbne
      beta_reduce
      rw [if_neg (by omega), mul_zero]
    · intro h
      exact absurd (Finset.mem_range.mpr (by omega)) h
  rw [hrow] at r1
  unfold resistance at hw'
  rw [← r1, ← r2, sub_neg_eq_add, sub_add_cancel] at hw'
  beta_reduce at hbig
  rw [zero_add, ← he, ← he0] at hbig
  exact absurd hbig (not_le.mpr hw')

end

section
variable {E : Type} {S0 S' : Storage ℝ} {calls : List RegCall} {new : List (Mpc ℝ)} {loads fixs : List (Bc ℝ)} {els : List (LinEl ℝ)}
  {update : E → Storage ℝ → E} {e e' : E}

/-- **C109, properly supported models are solved in suitable units.** Elements that resist all displacements of the free DoFs: if their
forces are measured in a small enough unit, the model is solved. -/
theorem C109_units_partial (hl : LegalModel S0 calls new (fixKeys fixs)) (hload : ∀ l ∈ loads, keyOf l ∈ regKeys calls)
    (hp : ∀ x ∈ els, Placed S0 calls x) (hm : S0.mpcs ++ new = []) (hprep : S0.prepare calls new (fixKeys fixs) ≠ .fatal)
    (hn : (freeKeys calls fixs).card < 1000) (hr : Resists els calls fixs) :
    ∃ s0 > 0, ∀ s ≥ s0, ∀ loads' : List (Bc ℝ), (∀ l ∈ loads', keyOf l ∈ regKeys calls) →
      ∃ S' e', linearSolve Gauss.solveEquations (linear (els.map (LinEl.scaled s)) update) loads' fixs calls new S0 e = .ok (S', e') := by
  obtain ⟨c, hc, hb⟩ := resists_bound hr
  refine ⟨1 / 10 ^ 20 / c, by positivity, fun s hs loads' hload' => ?_⟩
  refine C109_stiff hl hload' (fun x hx => ?_) hm hprep hn fun w h1 h2 => ?_
  · obtain ⟨y, hy, rfl⟩ := List.mem_map.mp hx
    exact scaled_placed s (hp y hy)
  · have h3 := hb w h1 h2
    have h4 : innerWork (els.map (LinEl.scaled s)) w = s * innerWork els w := innerWork_scaled s els w
    unfold innerWork at h4
    rw [h4]
    have hs0 : 1 / 10 ^ 20 ≤ s * c := (div_le_iff₀ hc).mp hs
    have hsum : 0 ≤ ∑ k ∈ freeKeys calls fixs, |w k| := Finset.sum_nonneg fun k _ => abs_nonneg _
    calc 1 / 10 ^ 20 * ∑ k ∈ freeKeys calls fixs, |w k| ≤ s * c * ∑ k ∈ freeKeys calls fixs, |w k| := mul_le_mul_of_nonneg_right hs0 hsum
      _ = s * (c * ∑ k ∈ freeKeys calls fixs, |w k|) := by ring
      _ ≤ _ := mul_le_mul_of_nonneg_left h3 (le_trans (by positivity) hs)

/-- **C109 does not hold in all units.** Every model without constraint equations that has free DoFs, however well it is supported, is
refused if its forces are measured in a large enough unit. -/
theorem C109_units_violated (hl : LegalModel S0 calls new (fixKeys fixs)) (hp : ∀ x ∈ els, Placed S0 calls x) (hm : S0.mpcs ++ new = [])
    (hfree : (freeKeys calls fixs).Nonempty) :
    ∃ s0 > 0, ∀ s, 0 < s → s < s0 → ∀ loads' : List (Bc ℝ), (∀ l ∈ loads', keyOf l ∈ regKeys calls) →
      linearSolve Gauss.solveEquations (linear (els.map (LinEl.scaled s)) update) loads' fixs calls new S0 e = .fatal := by
  classical
  let B : ℝ := ∑ k ∈ freeKeys calls fixs, ∑ k' ∈ freeKeys calls fixs, |resistance els (fun j => if j = k then 1 else 0) k'|
  have hB0 : 0 ≤ B := Finset.sum_nonneg fun k _ => Finset.sum_nonneg fun k' _ => abs_nonneg _
  refine ⟨1 / 10 ^ 20 / (B + 1), by positivity, fun s hs0 hs loads' hload' => ?_⟩
  refine C109_weak hl hload' (fun x hx => ?_) hm hfree fun k hk k' hk' => ?_
  · obtain ⟨y, hy, rfl⟩ := List.mem_map.mp hx
    exact scaled_placed s (hp y hy)
  · rw [resistance_scaled, abs_mul, abs_of_pos hs0]
    have h1 : |resistance els (fun j => if j = k then 1 else 0) k'| ≤ B :=
      (Finset.single_le_sum (f := fun k' => |resistance els (fun j => if j = k then 1 else 0) k'|) (fun _ _ => abs_nonneg _) hk').trans
        (Finset.single_le_sum (f := fun k => ∑ k' ∈ freeKeys calls fixs, |resistance els (fun j => if j = k then 1 else 0) k'|)
          (fun _ _ => Finset.sum_nonneg fun _ _ => abs_nonneg _) hk)
    have h2 : s * (B + 1) < 1 / 10 ^ 20 := (lt_div_iff₀ (by positivity)).mp hs
    nlinarith [abs_nonneg (resistance els (fun j => if j = k then 1 else 0) k')]

end

/-! ## Trusses -/

/-- Displacements that leave the lengths of all bars as they are, to first order. -/
def Inextensible (geo : Nat → Fin 3 → ℝ) (bars : List Bar) (w : Key → ℝ) : Prop :=
  ∀ b ∈ bars, (w (.node, b.n 1, .UX) - w (.node, b.n 0, .UX)) * (geo (b.n 1) 0 - geo (b.n 0) 0) +
    (w (.node, b.n 1, .UY) - w (.node, b.n 0, .UY)) * (geo (b.n 1) 1 - geo (b.n 0) 1) +
    (w (.node, b.n 1, .UZ) - w (.node, b.n 0, .UZ)) * (geo (b.n 1) 2 - geo (b.n 0) 2) = 0

theorem inextensible_iff {geo : Nat → Fin 3 → ℝ} {bars : List Bar} (hne : ∀ b ∈ bars, geo (b.n 0) ≠ geo (b.n 1)) (w : Key → ℝ) :
    Inextensible geo bars w ↔ ∀ b ∈ bars, Bars.elongation (fun a => geo (b.n a)) (fun a => nodal w (b.n a)) = 0 := by
  refine forall₂_congr fun b hb => ?_
  have hl : Bars.length (geo (b.n 1) - geo (b.n 0)) ≠ 0 := (Bars.length_pos fun h => hne b hb (sub_eq_zero.mp h).symm).ne'
  unfold Bars.elongation
  rw [div_eq_zero_iff, or_iff_left hl]
  rfl

theorem truss_work {geo : Nat → Fin 3 → ℝ} {bars : List Bar} {els : List (LinEl ℝ)} {S0 : Storage ℝ} {calls : List RegCall}
    (hp : ∀ x ∈ els, Placed S0 calls x) (ht : Truss geo bars els) (w : Key → ℝ) :
    innerWork els w = (bars.map fun b => b.E * b.A / Bars.length (geo (b.n 1) - geo (b.n 0)) *
      Bars.elongation (fun a => geo (b.n a)) (fun a => nodal w (b.n a)) ^ 2).sum := by
  unfold innerWork
  refine congrArg List.sum ?_
  obtain ⟨hfa, hlen⟩ := ht
  induction hfa with
  | nil => rfl
  | @cons b x bs xs hx _ ih =>
    rw [List.map_cons, List.map_cons, ih (fun y hy => hp y (by simp [hy])) (fun y hy => hlen y (by simp [hy]))]
    congr 1
    obtain ⟨Ke, k1, k2⟩ := hx.solid (hp x (by simp)).symm
    obtain ⟨Ke', k3, _, k4, _⟩ := Bars.C42_stiffness (pos := fun a => geo (b.n a)) (hlen b (by simp)) b.E b.A
    rw [k1, Option.some.injEq] at k3
    subst k3
    rw [k2.work, k2.work, sub_zero, sub_zero, vecOf_two, k4]
    have : (vecOf fun a => nodal (fun _ => (0 : ℝ)) (b.n a)) = (0 : Fin 6 → ℝ) := by
      rw [vecOf_two]
      funext i
      fin_cases i <;> rfl
    rw [this, Matrix.mulVec_zero, dotProduct_zero, sub_zero]

/-- A truss of bars with positive `E A` resists, unless some displacements of the free DoFs extend no bar. -/
theorem truss_resists {geo : Nat → Fin 3 → ℝ} {bars : List Bar} {els : List (LinEl ℝ)} {S0 : Storage ℝ} {calls : List RegCall}
    {fixs : List (Bc ℝ)} (hp : ∀ x ∈ els, Placed S0 calls x) (ht : Truss geo bars els) (hEA : ∀ b ∈ bars, 0 < b.E * b.A)
    (h : ∀ w : Key → ℝ, (∀ k, k ∉ freeKeys calls fixs → w k = 0) → Inextensible geo bars w → ∀ k, w k = 0) : Resists els calls fixs := by
  intro w hw ⟨k, hk⟩
  rw [truss_work hp ht]
  have hnn : ∀ b ∈ bars, 0 ≤ b.E * b.A / Bars.length (geo (b.n 1) - geo (b.n 0)) *
      Bars.elongation (fun a => geo (b.n a)) (fun a => nodal w (b.n a)) ^ 2 := fun b hb =>
    mul_nonneg (div_nonneg (hEA b hb).le (Bars.length_nonneg _)) (sq_nonneg _)
  refine lt_of_le_of_ne (List.sum_nonneg fun y hy => ?_) fun hz => ?_
  · obtain ⟨b, hb, rfl⟩ := List.mem_map.mp hy
    exact hnn b hb
  · refine hk (h w hw ((inextensible_iff ht.length w).mpr fun b hb => ?_) k)
    have hle := List.single_le_sum (l := bars.map fun b => b.E * b.A / Bars.length (geo (b.n 1) - geo (b.n 0)) *
      Bars.elongation (fun a => geo (b.n a)) (fun a => nodal w (b.n a)) ^ 2) (fun y hy => by
        obtain ⟨b, hb, rfl⟩ := List.mem_map.mp hy
        exact hnn b hb) _ (List.mem_map.mpr ⟨b, hb, rfl⟩)
    have hz' := le_antisymm (hle.trans_eq hz.symm) (hnn b hb)
    have hl := Bars.length_pos fun h' => ht.length b hb (sub_eq_zero.mp h').symm
    rcases mul_eq_zero.mp hz' with h1 | h1
    · exact absurd h1 (div_pos (hEA b hb) hl).ne'
    · exact pow_eq_zero_iff (two_ne_zero) |>.mp h1

/-- Displacements that extend no bar meet no forces. -/
theorem truss_slack {geo : Nat → Fin 3 → ℝ} {bars : List Bar} {els : List (LinEl ℝ)} {S0 : Storage ℝ} {calls : List RegCall}
    (hp : ∀ x ∈ els, Placed S0 calls x) (ht : Truss geo bars els) {w : Key → ℝ} (hw : Inextensible geo bars w) (k : Key) :
    resistance els w k = 0 := by
  rw [inextensible_iff ht.length] at hw
  rw [← resistance_eq]
  refine List.sum_eq_zero fun y hy => ?_
  obtain ⟨x, hx, rfl⟩ := List.mem_map.mp hy
  obtain ⟨b, hb, hxb⟩ : ∃ b ∈ bars, TrussEl geo b.n b.E b.A x := by
    have hfa := ht.els
    clear hw hp hy ht
    induction hfa with
    | nil => simp at hx
    | @cons b x' bs xs h1 _ ih =>
      rcases List.mem_cons.mp hx with rfl | hx
      · exact ⟨b, by simp, h1⟩
      · obtain ⟨b', hb', h'⟩ := ih hx
        exact ⟨b', by simp [hb'], h'⟩
  obtain ⟨Ke, k1, k2⟩ := hxb.solid (hp x hx).symm
  obtain ⟨Ke', k3, _, _, k4, _⟩ := Bars.C42_stiffness (pos := fun a => geo (b.n a)) (ht.length b hb) b.E b.A
  rw [k1, Option.some.injEq] at k3
  subst k3
  have hz : (vecOf fun a => nodal (fun _ => (0 : ℝ)) (b.n a)) = (0 : Fin 6 → ℝ) := by
    rw [vecOf_two]
    funext i
    fin_cases i <;> rfl
  unfold LinEl.forceOn
  rw [← Finset.sum_sub_distrib]
  refine Finset.sum_eq_zero fun a ha => ?_
  have han : a < 2 * 3 := by
    rw [← k2.size]; exact Finset.mem_range.mp ha
  have e1 := k2.force w ⟨a, han⟩
  have e2 := k2.force (fun _ => 0) ⟨a, han⟩
  rw [vecOf_two, k4 _ (hw b hb)] at e1
  rw [hz, Matrix.mulVec_zero] at e2
  split
  · rw [e1, e2]; simp
  · simp

section
variable {E : Type} {S0 S' : Storage ℝ} {calls : List RegCall} {new : List (Mpc ℝ)} {loads fixs : List (Bc ℝ)} {els : List (LinEl ℝ)}
  {update : E → Storage ℝ → E} {e e' : E}

/-- **C109, trusses with a mechanism are refused**: displacements of the free DoFs, not all zero, that extend no bar and obey the constraint
equations. -/
theorem C109_truss_mechanism {geo : Nat → Fin 3 → ℝ} {bars : List Bar} (hl : LegalModel S0 calls new (fixKeys fixs))
    (hload : ∀ l ∈ loads, keyOf l ∈ regKeys calls) (hp : ∀ x ∈ els, Placed S0 calls x) (ht : Truss geo bars els)
    (hfix : ∀ f ∈ fixs, f.value = 0 ∨ (1 / 10 ^ 20 : ℝ) < |f.value|) {w : Key → ℝ} (hw : ∀ k, k ∉ freeKeys calls fixs → w k = 0)
    (hmove : ∃ n t, w (.node, n, t) ≠ 0) (hin : Inextensible geo bars w)
    (hcon : ∀ m ∈ S0.mpcs ++ new, (m.eq.map fun t => t.coef * w (.node, t.node, t.dof)).sum = 0) :
    linearSolve Gauss.solveEquations (linear els update) loads fixs calls new S0 e = .fatal :=
  C109_mechanism hl hload hp hfix ⟨hw, hmove, fun k _ => truss_slack hp ht hin k, hcon⟩

/-- **C109, trusses without a mechanism are solved** if the forces are measured in a small enough unit. -/
theorem C109_truss_partial {geo : Nat → Fin 3 → ℝ} {bars : List Bar} (hl : LegalModel S0 calls new (fixKeys fixs))
    (hp : ∀ x ∈ els, Placed S0 calls x) (ht : Truss geo bars els) (hEA : ∀ b ∈ bars, 0 < b.E * b.A) (hm : S0.mpcs ++ new = [])
    (hprep : S0.prepare calls new (fixKeys fixs) ≠ .fatal) (hn : (freeKeys calls fixs).card < 1000)
    (h : ∀ w : Key → ℝ, (∀ k, k ∉ freeKeys calls fixs → w k = 0) → Inextensible geo bars w → ∀ k, w k = 0) :
    ∃ s0 > 0, ∀ s ≥ s0, ∀ loads' : List (Bc ℝ), (∀ l ∈ loads', keyOf l ∈ regKeys calls) →
      ∃ S' e', linearSolve Gauss.solveEquations (linear (els.map (LinEl.scaled s)) update) loads' fixs calls new S0 e = .ok (S', e') :=
  C109_units_partial (loads := []) hl (by simp) hp hm hprep hn (truss_resists hp ht hEA h)

end

/-! ## Examples -/

/-- The two bars, the joint free in its plane: no mechanism. -/
def jointFixs : List (Bc ℝ) := [⟨1, .UX, 0⟩, ⟨1, .UY, 0⟩, ⟨1, .UZ, 0⟩, ⟨2, .UX, 0⟩, ⟨2, .UY, 2⟩, ⟨2, .UZ, 0⟩, ⟨3, .UZ, 0⟩]

theorem joint_legal : LegalModel tripodStorage tripodCalls [] (fixKeys jointFixs) := by
  have hk : fixKeys jointFixs = [(.node, 1, .UX), (.node, 1, .UY), (.node, 1, .UZ), (.node, 2, .UX), (.node, 2, .UY), (.node, 2, .UZ),
    (.node, 3, .UZ)] := rfl
  rw [hk]
  refine ⟨⟨?_, ?_, ?_, ?_, ?_, rfl⟩, ?_, ?_, ?_⟩
  · unfold LegalReg; decide
  · decide
  · decide
  · decide
  · intro m hm; simp [tripodStorage, Storage.fresh] at hm
  · unfold MeshOk; decide
  · intro m hm; simp [tripodStorage, Storage.fresh] at hm
  · decide

theorem joint_free : freeKeys tripodCalls jointFixs = {(.node, 3, .UX), (.node, 3, .UY)} := by decide

/-- The joint in its plane: solved in a suitable unit, refused in others. -/
example : (∃ s0 > 0, ∀ s ≥ s0, ∀ loads' : List (Bc ℝ), (∀ l ∈ loads', keyOf l ∈ regKeys tripodCalls) →
      ∃ S' e', linearSolve Gauss.solveEquations (linear ((tripodBars.map (Bar.el tripod)).map (LinEl.scaled s)) fun _ _ => ()) loads' jointFixs
        tripodCalls [] tripodStorage () = .ok (S', e')) ∧
    ∃ s0 > 0, ∀ s, 0 < s → s < s0 → ∀ loads' : List (Bc ℝ), (∀ l ∈ loads', keyOf l ∈ regKeys tripodCalls) →
      linearSolve Gauss.solveEquations (linear ((tripodBars.map (Bar.el tripod)).map (LinEl.scaled s)) fun _ _ => ()) loads' jointFixs
        tripodCalls [] tripodStorage () = .fatal := by
  constructor
  · refine C109_truss_partial joint_legal tripod_placed tripod_truss ?_ rfl ?_ ?_ ?_
    · intro b hb
      simp only [tripodBars, List.mem_cons, List.not_mem_nil, or_false] at hb
      rcases hb with rfl | rfl <;> norm_num
    · obtain ⟨S1, _, h, _⟩ := prepare_small joint_legal (by decide) (by decide)
      rw [h]; simp
    · rw [joint_free]; decide
    · intro w hw hin k
      rw [joint_free] at hw
      by_contra hk
      have h1 := hin ⟨![1, 3], 10, 2⟩ (by simp [tripodBars])
      have h2 := hin ⟨![2, 3], 10, 2⟩ (by simp [tripodBars])
      have z : ∀ n d, n ≠ 3 → w (.node, n, d) = 0 := fun n d hn => hw _ (by simp [hn])
      have z3 : w (.node, 3, .UZ) = 0 := hw _ (by simp)
      simp [tripod, z] at h1 h2
      have : k = (.node, 3, .UX) ∨ k = (.node, 3, .UY) := by
        by_contra hh
        exact hk (hw k (by simpa using hh))
      rcases this with rfl | rfl
      · exact hk (by linarith)
      · exact hk (by linarith)
  · exact C109_units_violated joint_legal tripod_placed rfl (by rw [joint_free]; exact ⟨_, Finset.mem_insert_self _ _⟩)

/-- The joint free to leave the plane. -/
def swingFixs : List (Bc ℝ) := [⟨1, .UX, 0⟩, ⟨1, .UY, 0⟩, ⟨1, .UZ, 0⟩, ⟨2, .UX, 0⟩, ⟨2, .UY, 0⟩, ⟨2, .UZ, 0⟩]

theorem swing_legal : LegalModel tripodStorage tripodCalls [] (fixKeys swingFixs) := by
  have hk : fixKeys swingFixs = [(.node, 1, .UX), (.node, 1, .UY), (.node, 1, .UZ), (.node, 2, .UX), (.node, 2, .UY), (.node, 2, .UZ)] := rfl
  rw [hk]
  refine ⟨⟨?_, ?_, ?_, ?_, ?_, rfl⟩, ?_, ?_, ?_⟩
  · unfold LegalReg; decide
  · decide
  · decide
  · decide
  · intro m hm; simp [tripodStorage, Storage.fresh] at hm
  · unfold MeshOk; decide
  · intro m hm; simp [tripodStorage, Storage.fresh] at hm
  · decide

/-- It swings, and no unit helps. -/
example (F : ℝ) : linearSolve Gauss.solveEquations (linear (tripodBars.map (Bar.el tripod)) fun _ _ => ()) [⟨3, .UX, F⟩] swingFixs tripodCalls []
    tripodStorage () = .fatal := by
  refine C109_truss_mechanism (w := fun k => if k = (.node, 3, .UZ) then 1 else 0) swing_legal (by simp [keyOf]; decide) tripod_placed
    tripod_truss ?_ ?_ ⟨3, .UZ, by simp⟩ ?_ (by simp [tripodStorage, Storage.fresh])
  · intro f hf
    left
    simp only [swingFixs, List.mem_cons, List.not_mem_nil, or_false] at hf
    rcases hf with rfl | rfl | rfl | rfl | rfl | rfl <;> rfl
  · intro k hk
    refine if_neg fun h => hk ?_
    rw [h]
    decide
  · intro b hb
    simp only [tripodBars, List.mem_cons, List.not_mem_nil, or_false] at hb
    rcases hb with rfl | rfl <;> simp [tripod]

end Nla3d.Struct
