import Mathlib.Analysis.Normed.Module.FiniteDimension
import Mathlib.Data.Matrix.Mul
import Mathlib.Analysis.SpecialFunctions.Sqrt
import Mathlib.Topology.Order.Compact

/-!
# Steps of the trapezoidal rule are contractions

For symmetric positive definite forms of capacity and conduction on finitely many values.
-/

noncomputable section

namespace Nla3d.Trans

open Finset

variable {ι : Type} [Fintype ι]

/-- Symmetric and positive definite. -/
structure Definite (c : (ι → ℝ) →ₗ[ℝ] (ι → ℝ)) : Prop where
  symm : ∀ u v, u ⬝ᵥ c v = v ⬝ᵥ c u
  pos : ∀ u, u ≠ 0 → 0 < u ⬝ᵥ c u

theorem Definite.nonneg {c : (ι → ℝ) →ₗ[ℝ] (ι → ℝ)} (h : Definite c) (u : ι → ℝ) : 0 ≤ u ⬝ᵥ c u := by
  by_cases hu : u = 0
  · rw [hu, zero_dotProduct]
  · exact (h.pos u hu).le

theorem form_smul (c : (ι → ℝ) →ₗ[ℝ] (ι → ℝ)) (t : ℝ) (u : ι → ℝ) : (t • u) ⬝ᵥ c (t • u) = t ^ 2 * (u ⬝ᵥ c u) := by
  rw [map_smul, smul_dotProduct, dotProduct_smul, smul_eq_mul, smul_eq_mul]
  ring

theorem form_continuous (c : (ι → ℝ) →ₗ[ℝ] (ι → ℝ)) : Continuous fun u => u ⬝ᵥ c u := by
  have hc : Continuous c := c.continuous_of_finiteDimensional
  unfold dotProduct
  exact continuous_finsetSum _ fun i _ => (continuous_apply i).mul ((continuous_apply i).comp hc)

theorem unit_scale {u : ι → ℝ} (hu : u ≠ 0) : ‖‖u‖⁻¹ • u‖ = 1 := by
  rw [norm_smul, norm_inv, norm_norm, inv_mul_cancel₀ (norm_ne_zero_iff.mpr hu)]

/-- A definite form bounds the values. -/
theorem Definite.bound {c : (ι → ℝ) →ₗ[ℝ] (ι → ℝ)} (h : Definite c) : ∃ B, 0 ≤ B ∧ ∀ u : ι → ℝ, ‖u‖ ^ 2 ≤ B * (u ⬝ᵥ c u) := by
  by_cases hne : (Metric.sphere (0 : ι → ℝ) 1).Nonempty
  · obtain ⟨x, hx, hmin⟩ := (isCompact_sphere (0 : ι → ℝ) 1).exists_isMinOn hne (form_continuous c).continuousOn
    have hx1 : ‖x‖ = 1 := by simpa using hx
    have hx0 : x ≠ 0 := by rintro rfl; simp at hx1
    have hp := h.pos x hx0
    refine ⟨(x ⬝ᵥ c x)⁻¹, (inv_pos.mpr hp).le, fun u => ?_⟩
    by_cases hu : u = 0
    · rw [hu]; simp
    have h1 := hmin (show ‖u‖⁻¹ • u ∈ Metric.sphere (0 : ι → ℝ) 1 by simpa using unit_scale hu)
    simp only [Set.mem_setOf_eq] at h1
    rw [form_smul] at h1
    have hn : 0 < ‖u‖ := norm_pos_iff.mpr hu
    rw [inv_mul_eq_div, le_div_iff₀ hp]
    calc ‖u‖ ^ 2 * (x ⬝ᵥ c x) ≤ ‖u‖ ^ 2 * (‖u‖⁻¹ ^ 2 * (u ⬝ᵥ c u)) := mul_le_mul_of_nonneg_left h1 (by positivity)
      _ = u ⬝ᵥ c u := by field_simp
  · refine ⟨0, le_rfl, fun u => ?_⟩
    have : u = 0 := by
      by_contra hu
      exact hne ⟨‖u‖⁻¹ • u, by simpa using unit_scale hu⟩
    rw [this]; simp

/-- The step from `x` to `y` by the trapezoidal rule with half length `t`. -/
def TrapStep (c k : (ι → ℝ) →ₗ[ℝ] (ι → ℝ)) (t : ℝ) (x y : ι → ℝ) : Prop := c (y - x) + t • k (x + y) = 0

/-- Every step makes the form of the capacities smaller by the same factor. -/
theorem contraction {c k : (ι → ℝ) →ₗ[ℝ] (ι → ℝ)} (hc : Definite c) (hk : Definite k) {t : ℝ} (ht : 0 < t) :
    ∃ ρ, 0 ≤ ρ ∧ ρ < 1 ∧ ∀ x y, TrapStep c k t x y → y ⬝ᵥ c y ≤ ρ * (x ⬝ᵥ c x) := by
  have hA : Function.Injective (c + t • k) := by
    rw [← LinearMap.ker_eq_bot, LinearMap.ker_eq_bot']
    intro u hu
    by_contra hne
    have h1 : u ⬝ᵥ (c + t • k) u = 0 := by rw [hu, dotProduct_zero]
    rw [LinearMap.add_apply, LinearMap.smul_apply, dotProduct_add, dotProduct_smul, smul_eq_mul] at h1
    have := hc.pos u hne
    have := mul_nonneg ht.le (hk.nonneg u)
    linarith
  obtain ⟨A, hAe⟩ : ∃ A : (ι → ℝ) ≃ₗ[ℝ] (ι → ℝ), ∀ u, A u = (c + t • k) u := ⟨LinearEquiv.ofInjectiveEndo _ hA, fun u => rfl⟩
  obtain ⟨L, hL⟩ : ∃ L : (ι → ℝ) →ₗ[ℝ] (ι → ℝ), ∀ x, L x = A.symm ((c - t • k) x) :=
    ⟨A.symm.toLinearMap ∘ₗ (c - t • k), fun x => rfl⟩
  have hstep : ∀ x y, TrapStep c k t x y ↔ y = L x := by
    intro x y
    rw [hL, LinearEquiv.eq_symm_apply, hAe]
    unfold TrapStep
    rw [map_sub, map_add, smul_add, LinearMap.add_apply, LinearMap.sub_apply, LinearMap.smul_apply, LinearMap.smul_apply]
    constructor
    · intro h; rw [← sub_eq_zero, ← h]; abel
    · intro h; rw [← sub_eq_zero] at h; rw [← h]; abel
  have hless : ∀ x, x ≠ 0 → L x ⬝ᵥ c (L x) < x ⬝ᵥ c x := by
    intro x hx
    have h1 : TrapStep c k t x (L x) := (hstep x (L x)).mpr rfl
    unfold TrapStep at h1
    have h2 : (x + L x) ⬝ᵥ (c (L x - x) + t • k (x + L x)) = 0 := by rw [h1, dotProduct_zero]
    rw [dotProduct_add, dotProduct_smul, smul_eq_mul, map_sub, dotProduct_sub, add_dotProduct, add_dotProduct, hc.symm x (L x)] at h2
    by_cases hs : x + L x = 0
    · exfalso
      rw [hs, map_zero, smul_zero, add_zero] at h1
      have h3 : L x - x = 0 := by
        by_contra hne
        have := hc.pos _ hne
        rw [h1, dotProduct_zero] at this
        exact lt_irrefl _ this
      apply hx
      have h4 : L x = x := sub_eq_zero.mp h3
      rw [h4] at hs
      funext i
      have := congrFun hs i
      simp only [Pi.add_apply, Pi.zero_apply] at this ⊢
      linarith
    · have := mul_pos ht (hk.pos _ hs)
      linarith
  by_cases hne : (Metric.sphere (0 : ι → ℝ) 1).Nonempty
  · have hn0 : ∀ x ∈ Metric.sphere (0 : ι → ℝ) 1, x ≠ 0 := by
      intro x hx h0
      rw [h0] at hx
      simp at hx
    have hcont : ContinuousOn (fun x => (L x ⬝ᵥ c (L x)) / (x ⬝ᵥ c x)) (Metric.sphere (0 : ι → ℝ) 1) :=
      (((form_continuous c).comp L.continuous_of_finiteDimensional).continuousOn).div (form_continuous c).continuousOn
        fun x hx => (hc.pos x (hn0 x hx)).ne'
    obtain ⟨x0, hx0, hmax⟩ := (isCompact_sphere (0 : ι → ℝ) 1).exists_isMaxOn hne hcont
    have hp := hc.pos x0 (hn0 x0 hx0)
    refine ⟨(L x0 ⬝ᵥ c (L x0)) / (x0 ⬝ᵥ c x0), div_nonneg (hc.nonneg _) hp.le, (div_lt_one hp).mpr (hless x0 (hn0 x0 hx0)), ?_⟩
    intro x y hxy
    rw [(hstep x y).mp hxy]
    by_cases hx : x = 0
    · rw [hx, map_zero]; simp
    have h1 := hmax (show ‖x‖⁻¹ • x ∈ Metric.sphere (0 : ι → ℝ) 1 by simpa using unit_scale hx)
    simp only [Set.mem_setOf_eq] at h1
    have hn : 0 < ‖x‖ := norm_pos_iff.mpr hx
    have hpx := hc.pos x hx
    have h2 : (L (‖x‖⁻¹ • x) ⬝ᵥ c (L (‖x‖⁻¹ • x))) / ((‖x‖⁻¹ • x) ⬝ᵥ c (‖x‖⁻¹ • x)) = (L x ⬝ᵥ c (L x)) / (x ⬝ᵥ c x) := by
      rw [map_smul L, form_smul, form_smul, mul_div_mul_left _ _ (by positivity)]
    rw [h2] at h1
    exact (div_le_iff₀ hpx).mp h1
  · refine ⟨0, le_rfl, one_pos, fun x y hxy => ?_⟩
    have h0 : ∀ u : ι → ℝ, u = 0 := fun u => by
      by_contra hu
      exact hne ⟨‖u‖⁻¹ • u, by simpa using unit_scale hu⟩
    rw [h0 y]; simp

/-- An implicit step does not enlarge the form. -/
theorem implicit_le {c k : (ι → ℝ) →ₗ[ℝ] (ι → ℝ)} (hc : Definite c) (hk : Definite k) {t : ℝ} (ht : 0 ≤ t) {x y : ι → ℝ}
    (h : c (y - x) + t • k y = 0) : y ⬝ᵥ c y ≤ x ⬝ᵥ c x := by
  have h1 : y ⬝ᵥ (c (y - x) + t • k y) = 0 := by rw [h, dotProduct_zero]
  rw [dotProduct_add, dotProduct_smul, smul_eq_mul, map_sub, dotProduct_sub] at h1
  have h2 := hc.nonneg (y - x)
  rw [map_sub, dotProduct_sub, sub_dotProduct, sub_dotProduct, hc.symm x y] at h2
  have h3 := mul_nonneg ht (hk.nonneg y)
  linarith

/-- Values that start anywhere, make one implicit step and then steps of the trapezoidal rule vanish at a geometric rate that depends
on the forms only. -/
theorem vanish {c k : (ι → ℝ) →ₗ[ℝ] (ι → ℝ)} (hc : Definite c) (hk : Definite k) {t : ℝ} (ht : 0 < t) (x0 : ι → ℝ) :
    ∃ B ρ, 0 ≤ B ∧ 0 ≤ ρ ∧ ρ < 1 ∧ ∀ (n : Nat) (x : Nat → ι → ℝ), x 0 = x0 → c (x 1 - x 0) + t • k (x 1) = 0 →
      (∀ i, 0 < i → i < n → TrapStep c k t (x i) (x (i + 1))) → ∀ i < n, ∀ j, |x (i + 1) j| ≤ B * ρ ^ i := by
  obtain ⟨B, hB, hbound⟩ := hc.bound
  obtain ⟨ρ, r0, r1, hstep⟩ := contraction hc hk ht
  refine ⟨Real.sqrt (B * (x0 ⬝ᵥ c x0)), Real.sqrt ρ, Real.sqrt_nonneg _, Real.sqrt_nonneg _, ?_, ?_⟩
  · rw [show (1 : ℝ) = Real.sqrt 1 by simp]
    exact Real.sqrt_lt_sqrt r0 r1
  intro n x h0 h1 h2 i hi j
  have key : ∀ i < n, x (i + 1) ⬝ᵥ c (x (i + 1)) ≤ ρ ^ i * (x0 ⬝ᵥ c x0) := by
    intro i
    induction i with
    | zero =>
      intro _
      rw [pow_zero, one_mul, ← h0]
      exact implicit_le hc hk ht.le h1
    | succ i ih =>
      intro hi
      refine (hstep _ _ (h2 (i + 1) (by omega) hi)).trans ?_
      rw [pow_succ']
      rw [mul_assoc]
      exact mul_le_mul_of_nonneg_left (ih (by omega)) r0
  have h3 : |x (i + 1) j| ≤ ‖x (i + 1)‖ := by
    have := norm_le_pi_norm (x (i + 1)) j
    rwa [Real.norm_eq_abs] at this
  have h4 : ‖x (i + 1)‖ ^ 2 ≤ (Real.sqrt (B * (x0 ⬝ᵥ c x0)) * Real.sqrt ρ ^ i) ^ 2 := by
    refine (hbound _).trans ?_
    rw [mul_pow, Real.sq_sqrt (mul_nonneg hB (hc.nonneg _)), ← pow_mul, mul_comm i 2, pow_mul, Real.sq_sqrt r0, mul_assoc]
    refine mul_le_mul_of_nonneg_left ?_ hB
    rw [mul_comm]
    exact key i hi
  exact h3.trans ((le_abs_self _).trans (abs_le_of_sq_le_sq h4 (by positivity)))

end Nla3d.Trans
