import Verif.Material.Model
import Mathlib.Analysis.SpecialFunctions.Pow.Deriv
import Mathlib.Analysis.SpecialFunctions.Sqrt
import Mathlib.Tactic.FieldSimp
import Mathlib.Tactic.LinearCombination
import Mathlib.Tactic.Positivity
import Mathlib.Tactic.FinCases

/-! # Derivatives of the deformation measures along a curve of tensors -/

namespace Nla3d.Material

/-- The double contraction of two packed symmetric tensors. -/
def ddot (a h : Fin 6 → ℝ) : ℝ := a 0 * h 0 + 2 * (a 1 * h 1) + 2 * (a 2 * h 2) + a 3 * h 3 + 2 * (a 4 * h 4) + a 5 * h 5

/-- The determinant of a packed tensor. -/
def detP (C : Fin 6 → ℝ) : ℝ :=
  C 0 * (C 3 * C 5 - C 4 * C 4) - C 1 * (C 1 * C 5 - C 4 * C 2) + C 2 * (C 1 * C 4 - C 3 * C 2)

/-- The adjugate of a packed tensor. -/
def adjP (C : Fin 6 → ℝ) : Fin 6 → ℝ :=
  ![C 3 * C 5 - C 4 * C 4, C 2 * C 4 - C 1 * C 5, C 1 * C 4 - C 2 * C 3, C 0 * C 5 - C 2 * C 2,
    C 1 * C 2 - C 0 * C 4, C 0 * C 3 - C 1 * C 1]

theorem JC_eq (C : Fin 6 → ℝ) : JC C = √(detP C) := rfl

theorem JC_sq {C : Fin 6 → ℝ} (h : 0 < detP C) : JC C * JC C = detP C := Real.mul_self_sqrt h.le

theorem JC_pos {C : Fin 6 → ℝ} (h : 0 < detP C) : 0 < JC C := Real.sqrt_pos.mpr h

theorem invCC_eq (C : Fin 6 → ℝ) (J : ℝ) (k : Fin 6) : invCC C J k = adjP C k / (J * J) := by
  fin_cases k <;> simp [invCC, adjP] <;> ring

theorem invCC_det {C : Fin 6 → ℝ} (h : 0 < detP C) (k : Fin 6) : invCC C (JC C) k = adjP C k / detP C := by
  rw [invCC_eq, JC_sq h]

section Curve

variable {γ : ℝ → Fin 6 → ℝ} {h : Fin 6 → ℝ} {t : ℝ} (hγ : ∀ i, HasDerivAt (fun s => γ s i) (h i) t)

include hγ

theorem deriv_detP : HasDerivAt (fun s => detP (γ s)) (ddot (adjP (γ t)) h) t := by
  unfold detP
  refine ((((hγ 0).fun_mul (((hγ 3).fun_mul (hγ 5)).fun_sub ((hγ 4).fun_mul (hγ 4)))).fun_sub
    ((hγ 1).fun_mul (((hγ 1).fun_mul (hγ 5)).fun_sub ((hγ 4).fun_mul (hγ 2))))).fun_add
    ((hγ 2).fun_mul (((hγ 1).fun_mul (hγ 4)).fun_sub ((hγ 3).fun_mul (hγ 2))))).congr_deriv ?_
  simp [ddot, adjP]
  ring

/-- Derivative of the adjugate. -/
def adjD (C h : Fin 6 → ℝ) : Fin 6 → ℝ :=
  ![h 3 * C 5 + C 3 * h 5 - (h 4 * C 4 + C 4 * h 4), h 2 * C 4 + C 2 * h 4 - (h 1 * C 5 + C 1 * h 5),
    h 1 * C 4 + C 1 * h 4 - (h 2 * C 3 + C 2 * h 3), h 0 * C 5 + C 0 * h 5 - (h 2 * C 2 + C 2 * h 2),
    h 1 * C 2 + C 1 * h 2 - (h 0 * C 4 + C 0 * h 4), h 0 * C 3 + C 0 * h 3 - (h 1 * C 1 + C 1 * h 1)]

theorem deriv_adjP (k : Fin 6) : HasDerivAt (fun s => adjP (γ s) k) (adjD (γ t) h k) t := by
  fin_cases k
  · exact ((hγ 3).fun_mul (hγ 5)).fun_sub ((hγ 4).fun_mul (hγ 4))
  · exact ((hγ 2).fun_mul (hγ 4)).fun_sub ((hγ 1).fun_mul (hγ 5))
  · exact ((hγ 1).fun_mul (hγ 4)).fun_sub ((hγ 2).fun_mul (hγ 3))
  · exact ((hγ 0).fun_mul (hγ 5)).fun_sub ((hγ 2).fun_mul (hγ 2))
  · exact ((hγ 1).fun_mul (hγ 2)).fun_sub ((hγ 0).fun_mul (hγ 4))
  · exact ((hγ 0).fun_mul (hγ 3)).fun_sub ((hγ 1).fun_mul (hγ 1))

omit hγ in
/-- The key algebraic identity: the derivative of the inverse. -/
theorem adj_identity (C h : Fin 6 → ℝ) (k : Fin 6) :
    adjD C h k * detP C - adjP C k * ddot (adjP C) h = ddot (arrIIt (adjP C) k) h := by
  fin_cases k <;> simp [adjD, adjP, detP, ddot, arrIIt] <;> ring

variable (hD : 0 < detP (γ t))

include hD

theorem deriv_JC : HasDerivAt (fun s => JC (γ s)) (JC (γ t) * (ddot (invCC (γ t) (JC (γ t))) h / 2)) t := by
  have h1 := (deriv_detP hγ).sqrt hD.ne'
  simp only [JC_eq]
  refine h1.congr_deriv ?_
  have e : ddot (invCC (γ t) (√(detP (γ t)))) h = ddot (adjP (γ t)) h / detP (γ t) := by
    rw [← JC_eq]
    simp only [ddot, invCC_det hD]
    ring
  rw [e]
  have hs : √(detP (γ t)) * √(detP (γ t)) = detP (γ t) := Real.mul_self_sqrt hD.le
  have hp : 0 < √(detP (γ t)) := Real.sqrt_pos.mpr hD
  field_simp
  rw [pow_two, hs, mul_comm]

theorem deriv_pp : HasDerivAt (fun s => JC (γ s) ^ (-2 / 3 : ℝ))
    (-(1 / 3) * JC (γ t) ^ (-2 / 3 : ℝ) * ddot (invCC (γ t) (JC (γ t))) h) t := by
  have hp := JC_pos hD
  refine ((deriv_JC hγ hD).rpow_const (Or.inl hp.ne')).congr_deriv ?_
  rw [Real.rpow_sub hp, Real.rpow_one]
  field_simp

theorem eventually_pos : ∀ᶠ s in nhds t, 0 < detP (γ s) :=
  (deriv_detP hγ).continuousAt.eventually (lt_mem_nhds hD)

theorem deriv_inv (k : Fin 6) : HasDerivAt (fun s => invCC (γ s) (JC (γ s)) k)
    (ddot (arrIIt (invCC (γ t) (JC (γ t))) k) h) t := by
  have h1 : HasDerivAt (fun s => adjP (γ s) k / detP (γ s))
      ((adjD (γ t) h k * detP (γ t) - adjP (γ t) k * ddot (adjP (γ t)) h) / detP (γ t) ^ 2) t :=
    (deriv_adjP hγ k).fun_div (deriv_detP hγ) hD.ne'
  have h2 : HasDerivAt (fun s => invCC (γ s) (JC (γ s)) k)
      ((adjD (γ t) h k * detP (γ t) - adjP (γ t) k * ddot (adjP (γ t)) h) / detP (γ t) ^ 2) t := by
    refine h1.congr_of_eventuallyEq ?_
    filter_upwards [eventually_pos hγ hD] with s hs
    exact invCC_det hs k
  refine h2.congr_deriv ?_
  rw [adj_identity]
  have e : ∀ j, invCC (γ t) (JC (γ t)) j = adjP (γ t) j / detP (γ t) := invCC_det hD
  have hne := hD.ne'
  fin_cases k <;> simp [ddot, arrIIt, e] <;> field_simp

end Curve

end Nla3d.Material
