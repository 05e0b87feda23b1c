import Verif.Iso.Lemmas
import Mathlib.Analysis.Calculus.FDeriv.Mul
import Mathlib.Analysis.Calculus.FDeriv.Prod
import Mathlib.Analysis.Calculus.FDeriv.Pi
import Mathlib.Analysis.Calculus.FDeriv.Linear
import Mathlib.Analysis.Calculus.Deriv.Basic
import Mathlib.Tactic.FinCases
import Mathlib.Tactic.NormNum
import Mathlib.Tactic.Positivity
import Mathlib.Tactic.Ring

/-!
# C34: shape functions
-/

namespace Nla3d.Iso

open Finset

/-- C34, the specification: `S` has the Lagrange shape functions of the given nodes of the reference cube and their exact
gradients. -/
structure IsLagrange {d nn : Nat} (S : Shape d nn) (nodes : Fin nn → Fin d → ℝ) : Prop where
  sum_one : ∀ x, ∑ a, S.formFunc x a = 1
  nodal : ∀ a b, S.formFunc (nodes b) a = if a = b then 1 else 0
  pos : ∀ x, (∀ i, -1 < x i ∧ x i < 1) → ∀ a, 0 < S.formFunc x a
  /-- the total derivative of the shape function, applied to a direction `v` -/
  grad : ∀ x a, ∃ L : (Fin d → ℝ) →L[ℝ] ℝ, HasFDerivAt (fun y => S.formFunc y a) L x ∧
    ∀ v, L v = ∑ i, S.formFuncDeriv x a i * v i
  grad_sum : ∀ x i, ∑ a, S.formFuncDeriv x a i = 0

/-- The ends of the reference line. -/
def lineNodes : Fin 2 → Fin 1 → ℝ := ![![-1], ![1]]

/-- The corners of the reference square, counterclockwise. -/
def quadNodes : Fin 4 → Fin 2 → ℝ := ![![-1, -1], ![1, -1], ![1, 1], ![-1, 1]]

/-- The corners of the reference cube: bottom face, then top face, both counterclockwise. -/
def hexaNodes : Fin 8 → Fin 3 → ℝ := ![![-1, -1, -1], ![1, -1, -1], ![1, 1, -1], ![-1, 1, -1],
  ![-1, -1, 1], ![1, -1, 1], ![1, 1, 1], ![-1, 1, 1]]

theorem coord {d : Nat} (x : Fin d → ℝ) (i : Fin d) :
    HasFDerivAt (fun y : Fin d → ℝ => y i) (ContinuousLinearMap.proj (R := ℝ) (φ := fun _ => ℝ) i) x :=
  hasFDerivAt_apply i x

/-- A factor `1 + s * x_i`. -/
theorem factor {d : Nat} (x : Fin d → ℝ) (i : Fin d) (s : ℝ) :
    HasFDerivAt (fun y : Fin d → ℝ => 1 + s * y i) (s • ContinuousLinearMap.proj (R := ℝ) (φ := fun _ => ℝ) i) x :=
  ((coord x i).const_mul s).const_add 1

/-- C34 for the line. -/
theorem C34_line : IsLagrange line lineNodes where
  sum_one x := by simp [line, Fin.sum_univ_succ]; ring
  nodal a b := by fin_cases a <;> fin_cases b <;> simp [line, lineNodes] <;> norm_num
  pos x h a := by
    obtain ⟨h0, h1⟩ := h 0
    fin_cases a <;> simp [line] <;> linarith
  grad x a := by
    fin_cases a
    · refine ⟨_, ((factor x 0 (-1)).const_mul 0.5).congr_of_eventuallyEq (Filter.Eventually.of_forall fun y => ?_), ?_⟩
      · simp [line, -mul_eq_mul_left_iff, -mul_eq_mul_right_iff]; ring
      · intro v; simp [line]
    · refine ⟨_, ((factor x 0 1).const_mul 0.5).congr_of_eventuallyEq (Filter.Eventually.of_forall fun y => ?_), ?_⟩
      · simp [line]
      · intro v; simp [line]
  grad_sum x i := by fin_cases i; simp [line, Fin.sum_univ_succ]

theorem quad_factor (x : Fin 2 → ℝ) (s t : ℝ) :
    ∃ L : (Fin 2 → ℝ) →L[ℝ] ℝ, HasFDerivAt (fun y : Fin 2 → ℝ => 0.25 * (1 + s * y 0) * (1 + t * y 1)) L x ∧
    ∀ v, L v = 0.25 * s * (1 + t * x 1) * v 0 + 0.25 * t * (1 + s * x 0) * v 1 := by
  refine ⟨_, ((factor x 0 s).const_mul 0.25).mul (factor x 1 t), fun v => ?_⟩
  simp; ring

/-- C34 for the quadrilateral. -/
theorem C34_quad : IsLagrange quad quadNodes where
  sum_one x := by simp [quad, Fin.sum_univ_succ]; ring
  nodal a b := by fin_cases a <;> fin_cases b <;> simp [quad, quadNodes] <;> norm_num
  pos x h a := by
    obtain ⟨h0, h1⟩ := h 0
    obtain ⟨h2, h3⟩ := h 1
    have a0 : 0 < 1 - x 0 := by linarith
    have a1 : 0 < 1 + x 0 := by linarith
    have a2 : 0 < 1 - x 1 := by linarith
    have a3 : 0 < 1 + x 1 := by linarith
    fin_cases a <;> simp [quad] <;> positivity
  grad x a := by
    have key : ∀ s t : ℝ, (∀ y, quad.formFunc y a = 0.25 * (1 + s * y 0) * (1 + t * y 1)) →
        quad.formFuncDeriv x a 0 = 0.25 * s * (1 + t * x 1) → quad.formFuncDeriv x a 1 = 0.25 * t * (1 + s * x 0) →
        ∃ L : (Fin 2 → ℝ) →L[ℝ] ℝ, HasFDerivAt (fun y => quad.formFunc y a) L x ∧
          ∀ v, L v = ∑ i, quad.formFuncDeriv x a i * v i := by
      intro s t h1 h2 h3
      obtain ⟨L, e1, e2⟩ := quad_factor x s t
      refine ⟨L, e1.congr_of_eventuallyEq (Filter.Eventually.of_forall h1), fun v => ?_⟩
      rw [e2, Fin.sum_univ_two, h2, h3]
    fin_cases a
    · apply key (-1) (-1) <;> intros <;> simp [quad, -mul_eq_mul_left_iff, -mul_eq_mul_right_iff] <;> ring
    · apply key 1 (-1) <;> intros <;> simp [quad, -mul_eq_mul_left_iff, -mul_eq_mul_right_iff] <;> ring
    · apply key 1 1 <;> intros <;> simp [quad, -mul_eq_mul_left_iff, -mul_eq_mul_right_iff] <;> ring
    · apply key (-1) 1 <;> intros <;> simp [quad, -mul_eq_mul_left_iff, -mul_eq_mul_right_iff] <;> ring
  grad_sum x i := by fin_cases i <;> simp [quad, Fin.sum_univ_succ] <;> ring

theorem hexa_factor (x : Fin 3 → ℝ) (s t u : ℝ) :
    ∃ L : (Fin 3 → ℝ) →L[ℝ] ℝ,
    HasFDerivAt (fun y : Fin 3 → ℝ => 0.125 * (1 + s * y 0) * (1 + t * y 1) * (1 + u * y 2)) L x ∧
    ∀ v, L v = 0.125 * s * (1 + t * x 1) * (1 + u * x 2) * v 0 + 0.125 * t * (1 + s * x 0) * (1 + u * x 2) * v 1
      + 0.125 * u * (1 + s * x 0) * (1 + t * x 1) * v 2 := by
  refine ⟨_, (((factor x 0 s).const_mul 0.125).mul (factor x 1 t)).mul (factor x 2 u), fun v => ?_⟩
  simp; ring

/-- C34 for the hexahedron. -/
theorem C34_hexa : IsLagrange hexa hexaNodes where
  sum_one x := by simp [hexa, Fin.sum_univ_succ]; ring
  nodal a b := by fin_cases a <;> fin_cases b <;> simp [hexa, hexaNodes] <;> norm_num
  pos x h a := by
    obtain ⟨h0, h1⟩ := h 0
    obtain ⟨h2, h3⟩ := h 1
    obtain ⟨h4, h5⟩ := h 2
    have a0 : 0 < 1 - x 0 := by linarith
    have a1 : 0 < 1 + x 0 := by linarith
    have a2 : 0 < 1 - x 1 := by linarith
    have a3 : 0 < 1 + x 1 := by linarith
    have a4 : 0 < 1 - x 2 := by linarith
    have a5 : 0 < 1 + x 2 := by linarith
    fin_cases a <;> simp [hexa] <;> positivity
  grad x a := by
    have key : ∀ s t u : ℝ, (∀ y, hexa.formFunc y a = 0.125 * (1 + s * y 0) * (1 + t * y 1) * (1 + u * y 2)) →
        hexa.formFuncDeriv x a 0 = 0.125 * s * (1 + t * x 1) * (1 + u * x 2) →
        hexa.formFuncDeriv x a 1 = 0.125 * t * (1 + s * x 0) * (1 + u * x 2) →
        hexa.formFuncDeriv x a 2 = 0.125 * u * (1 + s * x 0) * (1 + t * x 1) →
        ∃ L : (Fin 3 → ℝ) →L[ℝ] ℝ, HasFDerivAt (fun y => hexa.formFunc y a) L x ∧
          ∀ v, L v = ∑ i, hexa.formFuncDeriv x a i * v i := by
      intro s t u h1 h2 h3 h4
      obtain ⟨L, e1, e2⟩ := hexa_factor x s t u
      refine ⟨L, e1.congr_of_eventuallyEq (Filter.Eventually.of_forall h1), fun v => ?_⟩
      rw [e2, Fin.sum_univ_three, h2, h3, h4]
    fin_cases a
    · apply key (-1) (-1) (-1) <;> intros <;> simp [hexa, -mul_eq_mul_left_iff, -mul_eq_mul_right_iff] <;> ring
    · apply key 1 (-1) (-1) <;> intros <;> simp [hexa, -mul_eq_mul_left_iff, -mul_eq_mul_right_iff] <;> ring
    · apply key 1 1 (-1) <;> intros <;> simp [hexa, -mul_eq_mul_left_iff, -mul_eq_mul_right_iff] <;> ring
    · apply key (-1) 1 (-1) <;> intros <;> simp [hexa, -mul_eq_mul_left_iff, -mul_eq_mul_right_iff] <;> ring
    · apply key (-1) (-1) 1 <;> intros <;> simp [hexa, -mul_eq_mul_left_iff, -mul_eq_mul_right_iff] <;> ring
    · apply key 1 (-1) 1 <;> intros <;> simp [hexa, -mul_eq_mul_left_iff, -mul_eq_mul_right_iff] <;> ring
    · apply key 1 1 1 <;> intros <;> simp [hexa, -mul_eq_mul_left_iff, -mul_eq_mul_right_iff] <;> ring
    · apply key (-1) 1 1 <;> intros <;> simp [hexa, -mul_eq_mul_left_iff, -mul_eq_mul_right_iff] <;> ring
  grad_sum x i := by fin_cases i <;> simp [hexa, Fin.sum_univ_succ] <;> ring

/-- A local point inside the element, and the values there. -/
example : (∀ i, -1 < (![0.5, 0] : Fin 2 → ℝ) i ∧ (![0.5, 0] : Fin 2 → ℝ) i < 1) ∧
    quad.formFunc ![0.5, 0] = ![0.125, 0.375, 0.375, 0.125] := by
  constructor
  · intro i; fin_cases i <;> norm_num
  · funext a; fin_cases a <;> simp [quad] <;> norm_num

end Nla3d.Iso
