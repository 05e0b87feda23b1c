import Mathlib.Analysis.SpecialFunctions.Trigonometric.Inverse
import Mathlib.Analysis.Matrix.Spectrum
import Mathlib.LinearAlgebra.Matrix.Charpoly.Coeff
import Mathlib.Tactic.Linarith
import Mathlib.Tactic.LinearCombination
import Mathlib.Tactic.FieldSimp
import Mathlib.Tactic.Positivity

/-!
# `Mat<3,3>::eigenvalues` (src/lib/math/Mat.h:301-374)

Real numbers in place of `double`. An operation outside of its domain (`0/0`, square root of a negative number, arc cosine
outside of [-1, 1]), which gives NaN in the code, is `none`.
-/

namespace Nla3d.Dense

open Real

/-- `sqrt`. -/
noncomputable def sqrtC (x : ℝ) : Option ℝ := if x < 0 then none else some (√x)

/-- Division; the only division by a variable, in `c3phi`, would be followed by `acos` of NaN or infinity. -/
noncomputable def divC (x y : ℝ) : Option ℝ := if y = 0 then none else some (x / y)

/-- `acos`. -/
noncomputable def acosC (x : ℝ) : Option ℝ := if -1 ≤ x ∧ x ≤ 1 then some (arccos x) else none

/-- The sorting of the roots. src/lib/math/Mat.h:329-372 -/
noncomputable def sort3 (root1 root2 root3 : ℝ) : ℝ × ℝ × ℝ :=
  if root1 > root2 ∧ root1 > root3 then
    if root2 > root3 then (root1, root2, root3) else (root1, root3, root2)
  else if root2 > root1 ∧ root2 > root3 then
    if root1 > root3 then (root2, root1, root3) else (root2, root3, root1)
  else if root1 > root2 then (root3, root1, root2) else (root3, root2, root1)

/-- The roots of `x^3 + a*x^2 + b*x + c`. src/lib/math/Mat.h:311-326 -/
noncomputable def vieta (a b c : ℝ) : Option (ℝ × ℝ × ℝ) := do
  let p := b - a * a / 3
  let q := 2 * a * a * a / 27 - a * b / 3 + c
  let A ← sqrtC (-4 * p / 3)
  let c3phi ← divC (-4 * q) (A * A * A)
  let ac ← acosC c3phi
  let phi := ac / 3
  let root1 := A * cos phi - a / 3
  let root2 := A * cos (phi + 2 * π / 3) - a / 3
  let root3 := A * cos (phi - 2 * π / 3) - a / 3
  some (sort3 root1 root2 root3)

/-- `eigenvalues()`. src/lib/math/Mat.h:302-374 -/
noncomputable def eigenvalues (d : Fin 3 → Fin 3 → ℝ) : Option (ℝ × ℝ × ℝ) :=
  let I1 := d 0 0 + d 1 1 + d 2 2
  let I2 := d 0 0 * d 1 1 + d 1 1 * d 2 2 + d 0 0 * d 2 2 - d 0 1 * d 0 1 - d 0 2 * d 0 2 - d 1 2 * d 1 2
  let I3 := d 0 0 * d 1 1 * d 2 2 + 2 * d 0 1 * d 1 2 * d 0 2 - d 0 0 * d 1 2 * d 1 2 - d 1 1 * d 0 2 * d 0 2
    - d 2 2 * d 0 1 * d 0 1
  vieta (-I1) I2 (-I3)

/-! ## Properties -/

/-- The sorting is right unless the first two roots coincide. -/
theorem sort3_spec {r1 r2 : ℝ} (r3 : ℝ) (h : r2 < r1) :
    (sort3 r1 r2 r3).2.1 ≤ (sort3 r1 r2 r3).1 ∧ (sort3 r1 r2 r3).2.2 ≤ (sort3 r1 r2 r3).2.1 ∧
    ∀ t, (t - (sort3 r1 r2 r3).1) * (t - (sort3 r1 r2 r3).2.1) * (t - (sort3 r1 r2 r3).2.2) =
      (t - r1) * (t - r2) * (t - r3) := by
  unfold sort3
  split_ifs with h1 h2 h3 h4
  · exact ⟨h1.1.le, h2.le, fun t => by ring⟩
  · exact ⟨h1.2.le, not_lt.mp h2, fun t => by ring⟩
  · exact absurd h3.1 (not_lt.mpr h.le)
  · exact absurd h3.1 (not_lt.mpr h.le)
  · refine ⟨?_, h.le, fun t => by ring⟩
    by_contra h'
    exact h1 ⟨h, not_le.mp h'⟩

theorem cos_two_pi_div_three : cos (2 * π / 3) = -1 / 2 := by
  have : 2 * π / 3 = π - π / 3 := by ring
  rw [this, cos_pi_sub, cos_pi_div_three]
  norm_num

theorem sin_two_pi_div_three : sin (2 * π / 3) = √3 / 2 := by
  have : 2 * π / 3 = π - π / 3 := by ring
  rw [this, sin_pi_sub, sin_pi_div_three]

/-- Three real roots of a cubic, not all equal: the formula returns them in order. -/
theorem vieta_roots {a b c x y z : ℝ} (h : ∀ t : ℝ, t ^ 3 + a * t ^ 2 + b * t + c = (t - x) * (t - y) * (t - z))
    (hne : ¬ (x = y ∧ y = z)) :
    ∃ s1 s2 s3, vieta a b c = some (s1, s2, s3) ∧ s2 ≤ s1 ∧ s3 ≤ s2 ∧
      ∀ t : ℝ, (t - s1) * (t - s2) * (t - s3) = (t - x) * (t - y) * (t - z) := by
  have hc : c = - (x * y * z) := by have := h 0; ring_nf at this ⊢; linarith
  have ha : a = -(x + y + z) := by have h1 := h 1; have h2 := h (-1); rw [hc] at h1 h2; ring_nf at h1 h2 ⊢; linarith
  have hb : b = x * y + y * z + x * z := by
    have h1 := h 1; rw [hc, ha] at h1; ring_nf at h1 ⊢; linarith
  set p := b - a * a / 3 with hp
  set q := 2 * a * a * a / 27 - a * b / 3 + c with hq
  have hpneg : p < 0 := by
    have e : p = -((x - y) ^ 2 + (y - z) ^ 2 + (x - z) ^ 2) / 6 := by rw [hp, ha, hb]; ring
    have h1 : 0 < (x - y) ^ 2 + (y - z) ^ 2 + (x - z) ^ 2 := by
      by_contra hle
      have s1 := sq_nonneg (x - y)
      have s2 := sq_nonneg (y - z)
      have s3 := sq_nonneg (x - z)
      have z1 : (x - y) ^ 2 = 0 := by linarith
      have z2 : (y - z) ^ 2 = 0 := by linarith
      rw [sq_eq_zero_iff, sub_eq_zero] at z1 z2
      exact hne ⟨z1, z2⟩
    rw [e]; linarith
  have hdisc : 4 * p ^ 3 + 27 * q ^ 2 = - ((x - y) * (y - z) * (x - z)) ^ 2 := by
    rw [hp, hq, ha, hb, hc]; ring
  set A := √(-4 * p / 3) with hA
  have hA2 : A * A = -4 * p / 3 := by rw [hA, mul_self_sqrt (by linarith)]
  have hApos : 0 < A := sqrt_pos.mpr (by linarith)
  set w := -4 * q / (A * A * A) with hw
  have hA3 : A * A * A ≠ 0 := by positivity
  have hwA : w * (A * A * A) = -4 * q := by rw [hw]; field_simp
  have hw2 : w ^ 2 ≤ 1 := by
    have e : w ^ 2 * (A * A) ^ 3 = 16 * q ^ 2 := by
      have : w ^ 2 * (A * A) ^ 3 = (w * (A * A * A)) ^ 2 := by ring
      rw [this, hwA]; ring
    have e2 : (A * A) ^ 3 = 16 * q ^ 2 + 16 / 27 * ((x - y) * (y - z) * (x - z)) ^ 2 := by
      rw [hA2]; linear_combination (-16 / 27) * hdisc
    have h6 : 0 < (A * A) ^ 3 := by positivity
    by_contra hlt
    have := mul_lt_mul_of_pos_right (not_le.mp hlt) h6
    rw [e, one_mul, e2] at this
    have := sq_nonneg ((x - y) * (y - z) * (x - z))
    linarith
  have hw1 : -1 ≤ w ∧ w ≤ 1 := abs_le.mp (by rw [← sq_le_one_iff_abs_le_one]; exact hw2)
  set φ := arccos w / 3 with hφ
  have hcos3 : cos (3 * φ) = w := by rw [hφ, show 3 * (arccos w / 3) = arccos w by ring, cos_arccos hw1.1 hw1.2]
  rw [cos_three_mul] at hcos3
  have hsc := sin_sq_add_cos_sq φ
  have h3 : √3 * √3 = (3 : ℝ) := mul_self_sqrt (by norm_num)
  set C := cos φ with hC
  set S := sin φ with hS
  have e2 : cos (φ + 2 * π / 3) = C * (-1 / 2) - S * (√3 / 2) := by
    rw [cos_add, cos_two_pi_div_three, sin_two_pi_div_three]
  have e3 : cos (φ - 2 * π / 3) = C * (-1 / 2) + S * (√3 / 2) := by
    rw [cos_sub, cos_two_pi_div_three, sin_two_pi_div_three]
  have hφ0 : 0 ≤ φ := by rw [hφ]; have := arccos_nonneg w; linarith
  have hφ1 : φ ≤ π / 3 := by rw [hφ]; have := arccos_le_pi w; linarith
  have hS0 : 0 ≤ S := sin_nonneg_of_nonneg_of_le_pi hφ0 (by have := pi_pos; linarith)
  have hC0 : 0 < C := cos_pos_of_mem_Ioo ⟨by have := pi_pos; linarith, by have := pi_pos; linarith⟩
  have hr : A * cos (φ + 2 * π / 3) - a / 3 < A * C - a / 3 := by
    have : cos (φ + 2 * π / 3) < C := by
      rw [e2]
      have : 0 ≤ S * (√3 / 2) := by positivity
      linarith
    have := mul_lt_mul_of_pos_left this hApos
    linarith
  obtain ⟨g1, g2, g3⟩ := sort3_spec (A * cos (φ - 2 * π / 3) - a / 3) hr
  refine ⟨_, _, _, ?_, g1, g2, ?_⟩
  · unfold vieta
    simp only [Option.bind_eq_bind]
    rw [sqrtC, if_neg (by rw [← hp]; linarith)]
    simp only [Option.bind_some]
    rw [← hp, ← hA, ← hq, divC, if_neg hA3]
    simp only [Option.bind_some]
    rw [← hw, acosC, if_pos hw1]
    simp only [Option.bind_some]
    rfl
  · intro t
    rw [g3, ← h t, e2, e3]
    linear_combination (-(A ^ 2 * S ^ 2 / 4) * (t + a / 3 - A * C)) * h3 +
      (-(3 / 4) * A ^ 2 * (t + a / 3) + (3 / 4) * A ^ 3 * C) * hsc - A ^ 3 / 4 * hcos3 - 1 / 4 * hwA -
      (3 / 4) * (t + a / 3) * hA2 + (t + a / 3) * hp + hq

end Nla3d.Dense
