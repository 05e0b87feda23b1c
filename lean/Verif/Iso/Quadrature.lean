import Verif.Iso.Props
import Mathlib.MeasureTheory.Integral.Pi
import Mathlib.MeasureTheory.Constructions.Pi
import Mathlib.Analysis.SpecialFunctions.Integrals.Basic

/-!
# C82: the quadrature tables integrate polynomials
-/

noncomputable section

namespace Nla3d.Iso

open MeasureTheory

variable {d nn : Nat}

/-! ## Specification -/

/-- Points per direction of the Gauss-Legendre rule of an order: 1, 2 or 3. -/
def points (o : Nat) : Nat := if o ≤ 1 then 1 else if o = 2 then 2 else 3

/-- The polynomial with the coefficients `c`, of degree below `N` in each variable. -/
def poly {N : Nat} (c : (Fin d → Fin N) → ℝ) (x : Fin d → ℝ) : ℝ := ∑ e, c e * ∏ i, x i ^ (e i).val

/-- The reference element `[-1, 1]^d`. -/
def cube (d : Nat) : Set (Fin d → ℝ) := Set.univ.pi fun _ => Set.Icc (-1) 1

/-- The sum an element forms in place of an integral. -/
def gauss (S : Shape d nn) (o : Nat) (f : (Fin d → ℝ) → ℝ) : ℝ := ((S.table (schemeIndex o)).map fun q => q.w * f q.xi).sum

/-- The tables of `S` integrate every polynomial of degree at most `2n - 1` in each variable, `n` the points per direction, up to
`tol` times the sum of the absolute values of its coefficients. -/
def Integrates (S : Shape d nn) (tol : ℝ) : Prop :=
  ∀ (o : Nat) (c : (Fin d → Fin (2 * points o)) → ℝ), |gauss S o (poly c) - ∫ x in cube d, poly c x| ≤ tol * ∑ e, |c e|

/-! ## Integrals of monomials -/

/-- Integral of `x^n` over `[-1, 1]`. -/
def moment (n : Nat) : ℝ := (1 - (-1) ^ (n + 1)) / (n + 1)

theorem integral_moment (n : Nat) : ∫ x in Set.Icc (-1 : ℝ) 1, x ^ n = moment n := by
  rw [integral_Icc_eq_integral_Ioc, ← intervalIntegral.integral_of_le (by norm_num), integral_pow, one_pow]
  rfl

theorem restrict_cube : (MeasureSpace.volume : Measure (Fin d → ℝ)).restrict (cube d) =
    Measure.pi fun _ => (MeasureSpace.volume : Measure ℝ).restrict (Set.Icc (-1) 1) := by
  unfold cube
  rw [volume_pi, Measure.restrict_pi_pi]

theorem integral_monomial (e : Fin d → Nat) : ∫ x in cube d, ∏ i, x i ^ e i = ∏ i, moment (e i) := by
  rw [restrict_cube, integral_fintype_prod_eq_prod (fun i x => x ^ e i)]
  exact Finset.prod_congr rfl fun i _ => integral_moment (e i)

theorem integrable_monomial (e : Fin d → Nat) : IntegrableOn (fun x : Fin d → ℝ => ∏ i, x i ^ e i) (cube d) := by
  refine ContinuousOn.integrableOn_compact (isCompact_univ_pi fun _ => isCompact_Icc) ?_
  fun_prop

theorem integral_poly {N : Nat} (c : (Fin d → Fin N) → ℝ) :
    ∫ x in cube d, poly c x = ∑ e, c e * ∏ i, moment (e i) := by
  unfold poly
  rw [integral_finset_sum _ fun e _ => (integrable_monomial fun i => (e i).val).const_mul (c e)]
  refine Finset.sum_congr rfl fun e _ => ?_
  rw [integral_const_mul, integral_monomial]

theorem gauss_poly (S : Shape d nn) (o : Nat) {N : Nat} (c : (Fin d → Fin N) → ℝ) :
    gauss S o (poly c) = ∑ e, c e * gauss S o fun x => ∏ i, x i ^ (e i).val := by
  unfold gauss poly
  induction S.table (schemeIndex o) with
  | nil => simp
  | cons q l ih =>
    rw [List.map_cons, List.sum_cons, ih, Finset.mul_sum, ← Finset.sum_add_distrib]
    refine Finset.sum_congr rfl fun e _ => ?_
    rw [List.map_cons, List.sum_cons]
    ring

/-- It is enough to look at monomials. -/
theorem integrates {S : Shape d nn} {tol : ℝ}
    (h : ∀ o (e : Fin d → Nat), (∀ i, e i < 2 * points o) → |gauss S o (fun x => ∏ i, x i ^ e i) - ∏ i, moment (e i)| ≤ tol) :
    Integrates S tol := by
  intro o c
  rw [gauss_poly, integral_poly, ← Finset.sum_sub_distrib, Finset.mul_sum]
  refine (Finset.abs_sum_le_sum_abs _ _).trans (Finset.sum_le_sum fun e _ => ?_)
  rw [← mul_sub, abs_mul, mul_comm]
  exact mul_le_mul_of_nonneg_right (h o _ fun i => (e i).isLt) (abs_nonneg _)

theorem points_scheme (o : Nat) : points o = (schemeIndex o).val + 1 := by
  unfold points
  rcases scheme_cases o with ⟨h, ho⟩ | ⟨h, ho⟩ | ⟨h, ho⟩ <;> rw [h]
  · rw [if_pos ho]; rfl
  · rw [if_neg (by omega), if_pos ho]; rfl
  · rw [if_neg (by omega), if_neg (by omega)]; rfl

/-! ## The tables -/

/-- `(-a)^n + a^n`. -/
def pm (a : ℝ) (n : Nat) : ℝ := (-a) ^ n + a ^ n

theorem table_line (s : Fin 3) (e : Fin 1 → Nat) (he : ∀ i, e i < 2 * (s.val + 1)) :
    |((line.table s).map fun q => q.w * ∏ i, q.xi i ^ e i).sum - ∏ i, moment (e i)| ≤ 1e-15 := by
  have h0 := he 0
  simp only [Fin.prod_univ_succ, Fin.prod_univ_zero, mul_one]
  generalize e 0 = i at h0
  fin_cases s <;> simp only [line, lineO1, lineO2, lineO3] <;> simp at h0 ⊢ <;>
    interval_cases i <;> norm_num [moment, abs_le]

theorem table_quad (s : Fin 3) (e : Fin 2 → Nat) (he : ∀ i, e i < 2 * (s.val + 1)) :
    |((quad.table s).map fun q => q.w * ∏ i, q.xi i ^ e i).sum - ∏ i, moment (e i)| ≤ 1e-15 := by
  have h0 := he 0
  have h1 := he 1
  simp only [Fin.prod_univ_two]
  generalize e 0 = i at h0
  generalize e 1 = j at h1
  fin_cases s <;> simp only [quad, quadO1, quadO2, quadO3] <;> simp at h0 h1 ⊢ <;>
    interval_cases i <;> interval_cases j <;> norm_num [moment, abs_le]

theorem hexa_o2 (a : ℝ) (i j k : Nat) (f : (Fin 3 → ℝ) → ℝ) (hf : ∀ x y z, f ![x, y, z] = x ^ i * (y ^ j * z ^ k)) :
    ([(⟨![-a, -a, -a], 1⟩ : QuadPt 3), ⟨![a, -a, -a], 1⟩, ⟨![-a, a, -a], 1⟩, ⟨![a, a, -a], 1⟩, ⟨![-a, -a, a], 1⟩, ⟨![a, -a, a], 1⟩,
      ⟨![-a, a, a], 1⟩, ⟨![a, a, a], 1⟩].map fun q => q.w * f q.xi).sum = pm a i * pm a j * pm a k := by
  simp only [List.map_cons, List.map_nil, List.sum_cons, List.sum_nil, hf, pm]
  ring

theorem hexa_o3 (a p q r s : ℝ) (i j k : Nat) (f : (Fin 3 → ℝ) → ℝ) (hf : ∀ x y z, f ![x, y, z] = x ^ i * (y ^ j * z ^ k)) :
    ([(⟨![-a, -a, -a], p⟩ : QuadPt 3), ⟨![0, -a, -a], q⟩, ⟨![a, -a, -a], p⟩, ⟨![-a, 0, -a], q⟩, ⟨![0, 0, -a], r⟩, ⟨![a, 0, -a], q⟩,
      ⟨![-a, a, -a], p⟩, ⟨![0, a, -a], q⟩, ⟨![a, a, -a], p⟩, ⟨![-a, -a, 0], q⟩, ⟨![0, -a, 0], r⟩, ⟨![a, -a, 0], q⟩,
      ⟨![-a, 0, 0], r⟩, ⟨![0, 0, 0], s⟩, ⟨![a, 0, 0], r⟩, ⟨![-a, a, 0], q⟩, ⟨![0, a, 0], r⟩, ⟨![a, a, 0], q⟩,
      ⟨![-a, -a, a], p⟩, ⟨![0, -a, a], q⟩, ⟨![a, -a, a], p⟩, ⟨![-a, 0, a], q⟩, ⟨![0, 0, a], r⟩, ⟨![a, 0, a], q⟩,
      ⟨![-a, a, a], p⟩, ⟨![0, a, a], q⟩, ⟨![a, a, a], p⟩].map fun q => q.w * f q.xi).sum =
    p * (pm a i * pm a j * pm a k) + q * (0 ^ i * (pm a j * pm a k) + 0 ^ j * (pm a i * pm a k) + 0 ^ k * (pm a i * pm a j)) +
      r * (0 ^ i * 0 ^ j * pm a k + 0 ^ i * 0 ^ k * pm a j + 0 ^ j * 0 ^ k * pm a i) + s * (0 ^ i * 0 ^ j * 0 ^ k) := by
  simp only [List.map_cons, List.map_nil, List.sum_cons, List.sum_nil, hf, pm]
  generalize (0 : ℝ) ^ i = x0, (0 : ℝ) ^ j = y0, (0 : ℝ) ^ k = z0, a ^ i = x1, a ^ j = y1, a ^ k = z1, (-a) ^ i = x2,
    (-a) ^ j = y2, (-a) ^ k = z2
  ring

theorem table_hexa (s : Fin 3) (e : Fin 3 → Nat) (he : ∀ i, e i < 2 * (s.val + 1)) :
    |((hexa.table s).map fun q => q.w * ∏ i, q.xi i ^ e i).sum - ∏ i, moment (e i)| ≤ 2e-15 := by
  have h0 := he 0
  have h1 := he 1
  have h2 := he 2
  have hf : ∀ x y z : ℝ, ∏ i, (![x, y, z] : Fin 3 → ℝ) i ^ e i = x ^ e 0 * (y ^ e 1 * z ^ e 2) := by
    intro x y z; simp [Fin.prod_univ_three, mul_assoc]
  rw [Fin.prod_univ_three (f := fun i => moment (e i))]
  generalize e 0 = i at h0 hf ⊢
  generalize e 1 = j at h1 hf ⊢
  generalize e 2 = k at h2 hf ⊢
  fin_cases s
  · have hs : ((hexa.table 0).map fun q => q.w * ∏ i, q.xi i ^ e i).sum = 8 * (0 ^ i * (0 ^ j * 0 ^ k)) := by
      show (hexaO1.map _).sum = _
      simp only [hexaO1, List.map_cons, List.map_nil, List.sum_cons, List.sum_nil, hf, add_zero]
    simp only [Fin.zero_eta, hs]
    simp at h0 h1 h2
    interval_cases i <;> interval_cases j <;> interval_cases k <;> norm_num [moment, abs_le]
  · have hs := hexa_o2 0.5773502691896258 i j k (fun x => ∏ i, x i ^ e i) hf
    rw [show (hexa.table ⟨1, by omega⟩) = hexaO2 from rfl]
    unfold hexaO2
    simp only [hs]
    simp at h0 h1 h2
    interval_cases i <;> interval_cases j <;> interval_cases k <;> norm_num [moment, pm, abs_le]
  · have hs := hexa_o3 0.7745966692414834 0.1714677640603567 0.2743484224965707 0.438957475994513 0.7023319615912207
      i j k (fun x => ∏ i, x i ^ e i) hf
    rw [show (hexa.table ⟨2, by omega⟩) = hexaO3 from rfl]
    unfold hexaO3
    simp only [hs]
    simp at h0 h1 h2
    interval_cases i <;> interval_cases j <;> interval_cases k <;> norm_num [moment, pm, abs_le]

/-! ## C82 -/

/-- **C82.** The three tables for the line integrate polynomials of degree 1, 3 and 5 over `[-1, 1]`, up to the rounding of the
table. -/
theorem C82_line : Integrates line 1e-15 := integrates fun o e he => table_line _ e (by rw [← points_scheme]; exact he)

/-- **C82** for the square: degree 1, 3 and 5 in each variable. -/
theorem C82_quad : Integrates quad 1e-15 := integrates fun o e he => table_quad _ e (by rw [← points_scheme]; exact he)

/-- **C82** for the cube. -/
theorem C82_hexa : Integrates hexa 2e-15 := integrates fun o e he => table_hexa _ e (by rw [← points_scheme]; exact he)

/-- Half the cross product of the diagonals: the area of a quadrilateral given by its corners in order. -/
def area (pos : Fin 4 → Fin 2 → ℝ) : ℝ :=
  ((pos 2 0 - pos 0 0) * (pos 3 1 - pos 1 1) - (pos 3 0 - pos 1 0) * (pos 2 1 - pos 0 1)) / 2

theorem det_quad (pos : Fin 4 → Fin 2 → ℝ) : ∃ b c : ℝ, ∀ x, (jac quad pos x).det = area pos / 4 + b * x 0 + c * x 1 := by
  refine ⟨(jac quad pos ![1, 0]).det - (jac quad pos ![0, 0]).det, (jac quad pos ![0, 1]).det - (jac quad pos ![0, 0]).det,
    fun x => ?_⟩
  simp only [Matrix.det_fin_two]
  simp [jac, quad, Fin.sum_univ_succ, area]
  ring

theorem gauss_linear (o : Nat) (a b c : ℝ) : gauss quad o (fun x => a + b * x 0 + c * x 1) = weights quad o * a := by
  unfold gauss weights
  rcases scheme_cases o with ⟨h, _⟩ | ⟨h, _⟩ | ⟨h, _⟩ <;> rw [h] <;> simp [quad, quadO1, quadO2, quadO3] <;> ring

/-- **C82, areas.** The volume of every quadrilateral is its area, also of one that is no affine image of the square: exactly for
the orders 1 and 2, up to the rounding of the table for order 3. -/
theorem C82_area (o : Nat) (pos : Fin 4 → Fin 2 → ℝ) (h : ∀ q ∈ quad.table (schemeIndex o), (jac quad pos q.xi).det ≠ 0) :
    ∃ g v, makeJacob quad o pos = .ok g ∧ volume quad g = .ok v ∧ |v - area pos| ≤ 5e-17 * |area pos| ∧ (o ≤ 2 → v = area pos) := by
  obtain ⟨g, h1, h2⟩ := C35_volume quad o pos h
  obtain ⟨b, c, hd⟩ := det_quad pos
  obtain ⟨w1, w2⟩ := C35_quad_weights o
  have hv := gauss_linear o (area pos / 4) b c
  unfold gauss at hv
  simp only [← hd] at hv
  refine ⟨g, _, h1, h2, ?_, fun ho => ?_⟩
  · rw [hv, show weights quad o * (area pos / 4) - area pos = (weights quad o - 4) * (area pos / 4) by ring, abs_mul, abs_div]
    have := mul_le_mul_of_nonneg_right w1 (abs_nonneg (area pos))
    norm_num at this ⊢
    linarith
  · rw [hv, w2 ho]; ring

/-- The trapezoid of area 6. -/
example : ∃ g, makeJacob quad 2 ![![0, 0], ![4, 0], ![3, 2], ![1, 2]] = .ok g ∧ volume quad g = .ok 6 := by
  obtain ⟨g, v, h1, h2, _, h3⟩ := C82_area 2 ![![0, 0], ![4, 0], ![3, 2], ![1, 2]] (by
    intro q hq
    have e : (jac quad ![![0, 0], ![4, 0], ![3, 2], ![1, 2]] q.xi).det = 0.5 * (3 - q.xi 1) := by
      rw [Matrix.det_fin_two]
      simp [jac, quad, Fin.sum_univ_succ]
      ring
    rw [e]
    rw [show schemeIndex 2 = 1 from rfl] at hq
    simp [quad, quadO2] at hq
    rcases hq with rfl | rfl | rfl | rfl <;> norm_num)
  refine ⟨g, h1, ?_⟩
  rw [h2, h3 (le_refl 2)]
  simp [area]
  norm_num

/-- `3 x^2 y^3 - 5`: its integral over the square is `-20`, and the four points give that up to `8e-15`. -/
example : |gauss quad 2 (fun x => 3 * (x 0 ^ 2 * x 1 ^ 3) - 5) - (-20)| ≤ 8e-15 := by
  simp [gauss, show schemeIndex 2 = 1 from rfl, quad, quadO2]
  norm_num [abs_le]

end Nla3d.Iso
