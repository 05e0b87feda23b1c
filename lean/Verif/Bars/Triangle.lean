import Verif.Bars.Props
import Mathlib.Algebra.MvPolynomial.Degrees
import Mathlib.Algebra.MvPolynomial.Eval
import Mathlib.Analysis.SpecialFunctions.Integrals.Basic

/-!
# C116: integration over triangles

The rules of the six-node interface element, src/lib/elements/INTER3.h:66-184: the one that `buildK` and `update` use (`_rado_o3`,
modelled in Verif/Bars/Model.lean) and the five tables `_triangle_o1` ... `_triangle_o5` that `intWeight` and `intL1`, `intL2`, `intL3`
offer.
-/

noncomputable section

namespace Nla3d.Bars

open MeasureTheory

/-! ## Model -/

/-- `TrianglePt`. src/lib/elements/INTER3.h:69-74 -/
structure TrianglePt where
  L1 : ℝ
  L2 : ℝ
  L3 : ℝ
  W : ℝ

/-- `_triangle_o1`. src/lib/elements/INTER3.h:85-87 -/
def triangleO1 : List TrianglePt := [⟨1 / 3, 1 / 3, 1 / 3, 1⟩]

/-- `_triangle_o2`. src/lib/elements/INTER3.h:90-94 -/
def triangleO2 : List TrianglePt := [⟨1 / 2, 0, 1 / 2, 1 / 3⟩, ⟨1 / 2, 1 / 2, 0, 1 / 3⟩, ⟨0, 1 / 2, 1 / 2, 1 / 3⟩]

/-- `_triangle_o3`. src/lib/elements/INTER3.h:97-102 -/
def triangleO3 : List TrianglePt :=
  [⟨1 / 3, 1 / 3, 1 / 3, -27 / 48⟩, ⟨11 / 15, 2 / 15, 2 / 15, 25 / 48⟩, ⟨2 / 15, 2 / 15, 11 / 15, 25 / 48⟩,
    ⟨2 / 15, 11 / 15, 2 / 15, 25 / 48⟩]

/-- `_triangle_o4`. src/lib/elements/INTER3.h:105-113 -/
def triangleO4 : List TrianglePt :=
  [⟨1 / 3, 1 / 3, 1 / 3, 27 / 60⟩, ⟨1 / 2, 1 / 2, 0, 8 / 60⟩, ⟨0, 1 / 2, 1 / 2, 8 / 60⟩, ⟨1 / 2, 0, 1 / 2, 8 / 60⟩,
    ⟨1, 0, 0, 3 / 60⟩, ⟨0, 1, 0, 3 / 60⟩, ⟨0, 0, 1, 3 / 60⟩]

/-- `_triangle_o5`. src/lib/elements/INTER3.h:116-124 -/
def triangleO5 : List TrianglePt :=
  [⟨1 / 3, 1 / 3, 1 / 3, 0.225⟩,
    ⟨0.05971587, 0.47014206, 0.47014206, 0.13239415⟩,
    ⟨0.47014206, 0.05971587, 0.47014206, 0.13239415⟩,
    ⟨0.47014206, 0.47014206, 0.05971587, 0.13239415⟩,
    ⟨0.79742699, 0.10128651, 0.10128651, 0.12593918⟩,
    ⟨0.10128651, 0.79742699, 0.10128651, 0.12593918⟩,
    ⟨0.10128651, 0.10128651, 0.79742699, 0.12593918⟩]

/-- `_table_triangle`. src/lib/elements/INTER3.h:146-152 -/
def tableTriangle : Fin 5 → List TrianglePt := ![triangleO1, triangleO2, triangleO3, triangleO4, triangleO5]

/-- `_np_triangle`. src/lib/elements/INTER3.h:133-139 -/
def npTriangle (i : Fin 5) : Nat := (tableTriangle i).length

/-- `_table_triangle[i_int][np]`; past the end of the table the read is undefined. src/lib/elements/INTER3.h:154-156, 162-164, 170-172, 178-180 -/
def trianglePt (i : Fin 5) (np : Nat) : Res TrianglePt :=
  match (tableTriangle i)[np]? with
  | some q => .ok q
  | none => .ub

/-- `intWeight`. src/lib/elements/INTER3.h:154-156 -/
def intWeight (i : Fin 5) (det : ℝ) (np : Nat) : Res ℝ := do
  let q ← trianglePt i np
  return q.W * det

/-- `intL1`, `intL2`, `intL3`. src/lib/elements/INTER3.h:162-164, 170-172, 178-180 -/
def intL (i : Fin 5) (np : Nat) : Res (Fin 3 → ℝ) := do
  let q ← trianglePt i np
  return ![q.L1, q.L2, q.L3]

/-- `nOfIntPoints`. src/lib/elements/INTER3.h:141-144 -/
def nOfIntPoints : Nat := 3

/-- The default of `i_int`. src/lib/elements/INTER3.h:51 -/
def defaultScheme : Fin 5 := 4

/-- `for (np = 0; np < n; np++) s += intWeight(np) * f(intL1(np), intL2(np), intL3(np))`: the use these functions are made for, as in
src/lib/elements/INTER3.cpp:26-32. -/
def tableSum (i : Fin 5) (det : ℝ) (n : Nat) (f : (Fin 3 → ℝ) → ℝ) : Res ℝ :=
  (List.range n).foldl (fun s np => do
    let s ← s
    let w ← intWeight i det np
    let L ← intL i np
    return s + w * f L) (.ok 0)

/-- The sum over `np` and `npj` of `radoIntWeight` times a function of the triangle coordinates, as in `buildK` and `update`.
src/lib/elements/INTER3.cpp:26-32, 87-94 -/
def radoSum (det : ℝ) (f : (Fin 3 → ℝ) → ℝ) : ℝ :=
  points.foldl (fun s p => s + radoWeight det p.1 p.2 * f (radoL p.1 p.2)) 0

/-! ## Specification -/

/-- Integral over the triangle with the corners `pos 0`, `pos 1`, `pos 2` of a function of the triangle coordinates: the coordinates
`x`, `y` are those of the first two corners, and the plane is stretched by twice the area. -/
def overTriangle (pos : Fin 6 → Fin 3 → ℝ) (f : (Fin 3 → ℝ) → ℝ) : ℝ :=
  2 * area pos * ∫ x in (0 : ℝ)..1, ∫ y in (0 : ℝ)..(1 - x), f ![x, y, 1 - x - y]

/-- Sum of the absolute values of the coefficients. -/
def size (p : MvPolynomial (Fin 3) ℝ) : ℝ := ∑ m ∈ p.support, |p.coeff m|

/-- `S` integrates every polynomial of degree at most `d` over the triangle, up to `tol` times the area times its size. -/
def OrderOn (pos : Fin 6 → Fin 3 → ℝ) (S : ((Fin 3 → ℝ) → ℝ) → ℝ) (d : Nat) (tol : ℝ) : Prop :=
  ∀ p : MvPolynomial (Fin 3) ℝ, p.totalDegree ≤ d →
    |S (fun L => MvPolynomial.eval L p) - overTriangle pos fun L => MvPolynomial.eval L p| ≤ tol * area pos * size p

/-! ## Integrals of monomials -/

theorem beta_step (a c : Nat) : ((a : ℝ) + 1) * ∫ x in (0 : ℝ)..1, x ^ a * (1 - x) ^ (c + 1) =
    (c + 1) * ∫ x in (0 : ℝ)..1, x ^ (a + 1) * (1 - x) ^ c := by
  have h := intervalIntegral.integral_eq_sub_of_hasDerivAt (a := (0 : ℝ)) (b := 1) (f := fun x => x ^ (a + 1) * (1 - x) ^ (c + 1))
    (f' := fun x => (a + 1) * (x ^ a * (1 - x) ^ (c + 1)) - (c + 1) * (x ^ (a + 1) * (1 - x) ^ c)) ?_ ?_
  · rw [intervalIntegral.integral_sub, intervalIntegral.integral_const_mul, intervalIntegral.integral_const_mul] at h
    · simp at h
      linarith
    · apply Continuous.intervalIntegrable; fun_prop
    · apply Continuous.intervalIntegrable; fun_prop
  · intro x _
    have h1 := (hasDerivAt_pow (a + 1) x).mul (((hasDerivAt_const x (1 : ℝ)).sub (hasDerivAt_id x)).pow (c + 1))
    refine h1.congr_deriv ?_
    simp
    ring
  · apply Continuous.intervalIntegrable; fun_prop

theorem beta (a c : Nat) : ∫ x in (0 : ℝ)..1, x ^ a * (1 - x) ^ c = a.factorial * c.factorial / (a + c + 1).factorial := by
  induction c generalizing a with
  | zero =>
    simp [integral_pow, Nat.factorial_succ]
    field_simp
  | succ c ih =>
    have h := beta_step a c
    rw [ih] at h
    have ha : ((a : ℝ) + 1) ≠ 0 := by positivity
    have e : a + 1 + c + 1 = a + (c + 1) + 1 := by omega
    rw [e] at h
    rw [eq_div_iff (by positivity)]
    apply mul_left_cancel₀ ha
    rw [← mul_assoc, h, Nat.factorial_succ a, Nat.factorial_succ c]
    push_cast
    field_simp

/-- `∫_0^s y^b (s - y)^c`. -/
theorem beta_scaled (b c : Nat) (s : ℝ) : ∫ y in (0 : ℝ)..s, y ^ b * (s - y) ^ c =
    s ^ (b + c + 1) * (b.factorial * c.factorial / (b + c + 1).factorial) := by
  have h := intervalIntegral.mul_integral_comp_mul_left (a := 0) (b := 1) (f := fun y : ℝ => y ^ b * (s - y) ^ c) s
  rw [mul_zero, mul_one] at h
  rw [← h, ← beta b c, ← intervalIntegral.integral_const_mul, ← intervalIntegral.integral_const_mul]
  congr 1
  funext x
  rw [show s - s * x = s * (1 - x) by ring, mul_pow, mul_pow]
  ring

/-- Integral of a monomial over the reference triangle. -/
def triMoment (a b c : Nat) : ℝ := a.factorial * b.factorial * c.factorial / (a + b + c + 2).factorial

theorem integral_triMoment (a b c : Nat) :
    ∫ x in (0 : ℝ)..1, ∫ y in (0 : ℝ)..(1 - x), x ^ a * y ^ b * (1 - x - y) ^ c = triMoment a b c := by
  have h : ∀ x : ℝ, ∫ y in (0 : ℝ)..(1 - x), x ^ a * y ^ b * (1 - x - y) ^ c =
      (b.factorial * c.factorial / (b + c + 1).factorial) * (x ^ a * (1 - x) ^ (b + c + 1)) := by
    intro x
    simp only [mul_assoc]
    rw [intervalIntegral.integral_const_mul, beta_scaled]
    ring
  simp only [h]
  rw [intervalIntegral.integral_const_mul, beta]
  unfold triMoment
  rw [show a + (b + c + 1) + 1 = a + b + c + 2 by omega]
  field_simp

/-- Value of a monomial. -/
def mono (m : Fin 3 →₀ ℕ) (L : Fin 3 → ℝ) : ℝ := L 0 ^ m 0 * L 1 ^ m 1 * L 2 ^ m 2

theorem eval_mono (p : MvPolynomial (Fin 3) ℝ) (L : Fin 3 → ℝ) : MvPolynomial.eval L p = ∑ m ∈ p.support, p.coeff m * mono m L := by
  rw [MvPolynomial.eval_eq']
  refine Finset.sum_congr rfl fun m _ => ?_
  rw [Fin.prod_univ_three]
  rfl

theorem integral_poly (p : MvPolynomial (Fin 3) ℝ) :
    ∫ x in (0 : ℝ)..1, ∫ y in (0 : ℝ)..(1 - x), MvPolynomial.eval ![x, y, 1 - x - y] p =
      ∑ m ∈ p.support, p.coeff m * triMoment (m 0) (m 1) (m 2) := by
  have h : ∀ x : ℝ, ∫ y in (0 : ℝ)..(1 - x), MvPolynomial.eval ![x, y, 1 - x - y] p =
      ∑ m ∈ p.support, p.coeff m * ∫ y in (0 : ℝ)..(1 - x), x ^ m 0 * y ^ m 1 * (1 - x - y) ^ m 2 := by
    intro x
    simp only [eval_mono, mono]
    rw [intervalIntegral.integral_finset_sum]
    · refine Finset.sum_congr rfl fun m _ => ?_
      rw [intervalIntegral.integral_const_mul]
      rfl
    · intro m _
      apply Continuous.intervalIntegrable
      simp only [Matrix.cons_val_zero, Matrix.cons_val_one, Matrix.cons_val]
      fun_prop
  simp only [h]
  rw [intervalIntegral.integral_finset_sum]
  · refine Finset.sum_congr rfl fun m _ => ?_
    rw [intervalIntegral.integral_const_mul, integral_triMoment]
  · intro m _
    apply Continuous.intervalIntegrable
    have e : (fun x : ℝ => p.coeff m * ∫ y in (0 : ℝ)..(1 - x), x ^ m 0 * y ^ m 1 * (1 - x - y) ^ m 2) = fun x : ℝ => p.coeff m *
        (((m 1).factorial * (m 2).factorial / (m 1 + m 2 + 1).factorial) * (x ^ m 0 * (1 - x) ^ (m 1 + m 2 + 1))) := by
      funext x
      simp only [mul_assoc]
      rw [intervalIntegral.integral_const_mul, beta_scaled]
      ring
    rw [e]
    fun_prop

/-! ## The sums -/

/-- A sum of weights times values. -/
def rule (pts : List (ℝ × (Fin 3 → ℝ))) (f : (Fin 3 → ℝ) → ℝ) : ℝ := (pts.map fun q => q.1 * f q.2).sum

theorem rule_poly (pts : List (ℝ × (Fin 3 → ℝ))) (p : MvPolynomial (Fin 3) ℝ) :
    rule pts (fun L => MvPolynomial.eval L p) = ∑ m ∈ p.support, p.coeff m * rule pts (mono m) := by
  unfold rule
  simp only [eval_mono]
  induction pts with
  | nil => simp
  | cons q l ih =>
    rw [List.map_cons, List.sum_cons, ih, Finset.mul_sum, ← Finset.sum_add_distrib]
    refine Finset.sum_congr rfl fun m _ => ?_
    rw [List.map_cons, List.sum_cons]
    ring

theorem rule_scale (pts : List (ℝ × (Fin 3 → ℝ))) (c : ℝ) (f : (Fin 3 → ℝ) → ℝ) :
    rule (pts.map fun q => (c * q.1, q.2)) f = c * rule pts f := by
  unfold rule
  rw [List.map_map, ← List.sum_map_mul_left]
  congr 1
  apply List.map_congr_left
  intro q _
  simp only [Function.comp]
  ring

/-- It is enough to look at monomials. -/
theorem order_of_mono {pos : Fin 6 → Fin 3 → ℝ} {pts : List (ℝ × (Fin 3 → ℝ))} {d : Nat} {tol : ℝ}
    (h : ∀ i j k, i + j + k ≤ d → |rule pts (fun L => L 0 ^ i * L 1 ^ j * L 2 ^ k) - triMoment i j k| ≤ tol) :
    OrderOn pos (fun f => 2 * area pos * rule pts f) d (2 * tol) := by
  intro p hp
  unfold overTriangle
  simp only [rule_poly, integral_poly]
  have ha : 0 ≤ area pos := by unfold area length; positivity
  rw [← mul_sub, abs_mul, abs_of_nonneg (by positivity), ← Finset.sum_sub_distrib]
  have : |∑ m ∈ p.support, (p.coeff m * rule pts (mono m) - p.coeff m * triMoment (m 0) (m 1) (m 2))| ≤ tol * size p := by
    unfold size
    rw [Finset.mul_sum]
    refine (Finset.abs_sum_le_sum_abs _ _).trans (Finset.sum_le_sum fun m hm => ?_)
    rw [← mul_sub, abs_mul, mul_comm]
    refine mul_le_mul_of_nonneg_right (h _ _ _ ?_) (abs_nonneg _)
    have := (MvPolynomial.le_totalDegree hm).trans hp
    rw [Finsupp.sum_fintype _ _ (fun _ => rfl), Fin.sum_univ_three] at this
    exact this
  calc 2 * area pos * |_| ≤ 2 * area pos * (tol * size p) := mul_le_mul_of_nonneg_left this (by positivity)
    _ = _ := by ring

theorem foldl_rule {α : Type} (l : List α) (w : α → ℝ) (x : α → Fin 3 → ℝ) (f : (Fin 3 → ℝ) → ℝ) (s : ℝ) :
    l.foldl (fun s p => s + w p * f (x p)) s = s + rule (l.map fun p => (w p, x p)) f := by
  induction l generalizing s with
  | nil => simp [rule]
  | cons p l ih => rw [List.foldl_cons, ih, List.map_cons]; simp [rule, add_assoc]

/-- The points and weights of `_rado_o3` for the reference triangle. -/
def radoPts : List (ℝ × (Fin 3 → ℝ)) := points.map fun p => ((rado p.1).AS * (rado p.2).H * (1 - (rado p.1).AI), radoL p.1 p.2)

theorem radoSum_eq (det : ℝ) (f : (Fin 3 → ℝ) → ℝ) : radoSum det f = det * rule radoPts f := by
  unfold radoSum
  rw [foldl_rule points (fun p => radoWeight det p.1 p.2) (fun p => radoL p.1 p.2), zero_add, ← rule_scale]
  unfold radoPts
  rw [List.map_map]
  congr 1
  apply List.map_congr_left
  intro p _
  simp only [Function.comp, radoWeight]
  rw [mul_comm]

/-- The points of a table with half the weights. -/
def halfPts (i : Fin 5) : List (ℝ × (Fin 3 → ℝ)) := (tableTriangle i).map fun q => (q.W / 2, ![q.L1, q.L2, q.L3])

theorem tableSum_prefix (i : Fin 5) (det : ℝ) (f : (Fin 3 → ℝ) → ℝ) {n : Nat} (hn : n ≤ npTriangle i) :
    tableSum i det n f = .ok (2 * (det * rule ((halfPts i).take n) f)) := by
  induction n with
  | zero => simp [tableSum, rule]
  | succ n ih =>
    have hi := ih (by omega)
    unfold tableSum at hi ⊢
    have hlt : n < (tableTriangle i).length := hn
    have hlt' : n < (halfPts i).length := by simpa [halfPts] using hlt
    rw [List.range_succ, List.foldl_append, hi]
    have hq : trianglePt i n = .ok (tableTriangle i)[n] := by
      unfold trianglePt
      rw [List.getElem?_eq_getElem hlt]
    simp only [List.foldl_cons, List.foldl_nil, intWeight, intL, hq, Res.ok_bind]
    show Res.ok _ = Res.ok _
    rw [List.take_succ, List.getElem?_eq_getElem hlt']
    simp only [rule, Option.toList_some, List.map_append, List.map_cons, List.map_nil, List.sum_append, List.sum_cons, List.sum_nil]
    simp only [halfPts, List.getElem_map]
    congr 1
    ring

theorem tableSum_eq (i : Fin 5) (det : ℝ) (f : (Fin 3 → ℝ) → ℝ) :
    tableSum i det (npTriangle i) f = .ok (2 * (det * rule (halfPts i) f)) := by
  rw [tableSum_prefix i det f (le_refl _), List.take_of_length_le (by simp [halfPts, npTriangle])]

theorem rado_mono (i j k : Nat) (h : i + j + k ≤ 5) :
    |rule radoPts (fun L => L 0 ^ i * L 1 ^ j * L 2 ^ k) - triMoment i j k| ≤ 2e-11 := by
  simp only [rule, radoPts, points, List.finRange_succ, List.finRange_zero, List.map_cons, List.map_nil, List.flatMap_cons,
    List.flatMap_nil, List.append_nil, List.cons_append, List.nil_append, List.sum_cons, List.sum_nil, radoL, rado, Matrix.cons_val_zero,
    Matrix.cons_val_one, Matrix.cons_val, Fin.succ_zero_eq_one, Fin.succ_one_eq_two, triMoment, add_zero]
  have hi : i ≤ 5 := by omega
  have hj : j ≤ 5 - i := by omega
  have hk : k ≤ 5 - i - j := by omega
  interval_cases i <;> interval_cases j <;> interval_cases k <;> norm_num [abs_le, Nat.factorial]

/-- The degrees that the tables integrate. -/
def degreeOf : Fin 5 → Nat := ![1, 2, 1, 3, 5]

/-- The rounding of the tables. -/
def roundingOf : Fin 5 → ℝ := ![0, 0, 0, 0, 5e-9]

theorem table_mono (t : Fin 5) (i j k : Nat) (h : i + j + k ≤ degreeOf t) :
    |rule (halfPts t) (fun L => L 0 ^ i * L 1 ^ j * L 2 ^ k) - triMoment i j k| ≤ roundingOf t := by
  fin_cases t <;>
    simp only [Fin.zero_eta, Fin.mk_one, Fin.reduceFinMk, degreeOf, roundingOf, rule, halfPts, tableTriangle, triangleO1, triangleO2,
      triangleO3, triangleO4, triangleO5, Matrix.cons_val_zero, Matrix.cons_val_one, Matrix.cons_val, List.map_cons, List.map_nil,
      List.sum_cons, List.sum_nil, triMoment, add_zero] at h ⊢
  · have hi : i ≤ 1 := by omega
    have hj : j ≤ 1 - i := by omega
    have hk : k ≤ 1 - i - j := by omega
    interval_cases i <;> interval_cases j <;> interval_cases k <;> norm_num [Nat.factorial]
  · have hi : i ≤ 2 := by omega
    have hj : j ≤ 2 - i := by omega
    have hk : k ≤ 2 - i - j := by omega
    interval_cases i <;> interval_cases j <;> interval_cases k <;> norm_num [Nat.factorial]
  · have hi : i ≤ 1 := by omega
    have hj : j ≤ 1 - i := by omega
    have hk : k ≤ 1 - i - j := by omega
    interval_cases i <;> interval_cases j <;> interval_cases k <;> norm_num [Nat.factorial]
  · have hi : i ≤ 3 := by omega
    have hj : j ≤ 3 - i := by omega
    have hk : k ≤ 3 - i - j := by omega
    interval_cases i <;> interval_cases j <;> interval_cases k <;> norm_num [Nat.factorial]
  · have hi : i ≤ 5 := by omega
    have hj : j ≤ 5 - i := by omega
    have hk : k ≤ 5 - i - j := by omega
    interval_cases i <;> interval_cases j <;> interval_cases k <;> norm_num [abs_le, Nat.factorial]

theorem area_pos {pos : Fin 6 → Fin 3 → ℝ} (h : cross (edge1 pos) (edge2 pos) ≠ 0) : 0 < area pos := by
  unfold area
  exact div_pos (length_pos h) two_pos

theorem overTriangle_mono (pos : Fin 6 → Fin 3 → ℝ) (i j k : Nat) :
    overTriangle pos (fun L => L 0 ^ i * L 1 ^ j * L 2 ^ k) = 2 * area pos * triMoment i j k := by
  unfold overTriangle
  rw [← integral_triMoment]
  rfl

/-- The integral of one is the area. -/
theorem overTriangle_one (pos : Fin 6 → Fin 3 → ℝ) : overTriangle pos (fun _ => 1) = area pos := by
  have := overTriangle_mono pos 0 0 0
  simp only [pow_zero, mul_one, triMoment] at this
  rw [this]
  norm_num [Nat.factorial]
  ring

/-! ## C116 -/

/-- **C116, the rule in use.** For every non-degenerate triangle the nine points of `buildK` and `update` integrate all polynomials of
degree at most five in the triangle coordinates, up to the rounding of the table. -/
theorem C116_rado {pos : Fin 6 → Fin 3 → ℝ} (h : cross (edge1 pos) (edge2 pos) ≠ 0) :
    ∃ det, makeJacob pos = some (.ok det) ∧ OrderOn pos (radoSum det) 5 4e-11 := by
  refine ⟨_, C44_jacobian h, ?_⟩
  have := order_of_mono (pos := pos) rado_mono
  norm_num at this ⊢
  intro p hp
  have := this p hp
  simpa only [radoSum_eq] using this

/-- **C116, the other tables, what holds.** The functions `intWeight`, `intL1`, `intL2`, `intL3` make twice a rule that integrates
polynomials of degree 1, 2, 1, 3 and 5 for the tables called first to fifth order: exactly, the last one up to its eight digits.
Missing: the factor (`C116_weight_violated`) and the degrees of the third and the fourth table (`C116_order3_violated`,
`C116_order4_violated`). -/
theorem C116_tables_partial {pos : Fin 6 → Fin 3 → ℝ} (h : cross (edge1 pos) (edge2 pos) ≠ 0) (i : Fin 5) :
    ∃ (det : ℝ) (S : ((Fin 3 → ℝ) → ℝ) → ℝ), makeJacob pos = some (.ok det) ∧ (∀ f, tableSum i det (npTriangle i) f = .ok (2 * S f)) ∧
      OrderOn pos S (degreeOf i) (2 * roundingOf i) :=
  ⟨_, fun f => 2 * area pos * rule (halfPts i) f, C44_jacobian h, fun f => tableSum_eq i _ f, order_of_mono (table_mono i)⟩

/-- **C116, weights, negation.** Whatever the triangle and the table, the weights of `intWeight` do not add up to the area but to its
double. -/
theorem C116_weight_violated {pos : Fin 6 → Fin 3 → ℝ} (h : cross (edge1 pos) (edge2 pos) ≠ 0) (i : Fin 5) :
    ∃ det s, makeJacob pos = some (.ok det) ∧ tableSum i det (npTriangle i) (fun _ => 1) = .ok s ∧
      |s - 2 * overTriangle pos (fun _ => 1)| ≤ 2e-8 * area pos ∧ s ≠ overTriangle pos (fun _ => 1) := by
  refine ⟨_, _, C44_jacobian h, tableSum_eq i _ _, ?_⟩
  have ha := area_pos h
  have hm := table_mono i 0 0 0 (Nat.zero_le _)
  simp only [pow_zero, mul_one, triMoment] at hm
  have hr : roundingOf i ≤ 5e-9 := by fin_cases i <;> norm_num [roundingOf]
  have hb := abs_le.mp (hm.trans hr)
  norm_num [Nat.factorial] at hb
  obtain ⟨h1, h2⟩ := hb
  rw [overTriangle_one]
  generalize rule (halfPts i) (fun _ => 1) = r at h1 h2
  constructor
  · rw [abs_le]
    constructor <;> nlinarith
  · intro he
    nlinarith

/-- **C116, third table, negation.** Even with half the weights the table called third order misses the integral of a square by five
parts in twelve. -/
theorem C116_order3_violated {pos : Fin 6 → Fin 3 → ℝ} (h : cross (edge1 pos) (edge2 pos) ≠ 0) :
    ∃ (det : ℝ) (S : ((Fin 3 → ℝ) → ℝ) → ℝ), makeJacob pos = some (.ok det) ∧ (∀ f, tableSum 2 det (npTriangle 2) f = .ok (2 * S f)) ∧
      S (fun L => L 0 ^ 2) = 17 / 12 * overTriangle pos (fun L => L 0 ^ 2) ∧ 0 < overTriangle pos (fun L => L 0 ^ 2) := by
  refine ⟨_, fun f => 2 * area pos * rule (halfPts 2) f, C44_jacobian h, fun f => tableSum_eq 2 _ f, ?_⟩
  have ha := area_pos h
  have ho := overTriangle_mono pos 2 0 0
  simp only [pow_zero, mul_one] at ho
  rw [ho]
  simp only [halfPts, show tableTriangle 2 = triangleO3 from rfl]
  norm_num [triMoment, Nat.factorial, rule, triangleO3]
  constructor
  · ring
  · linarith

/-- **C116, fourth table, negation.** Even with half the weights the table called fourth order misses the integral of a fourth power by
one part in twelve. -/
theorem C116_order4_violated {pos : Fin 6 → Fin 3 → ℝ} (h : cross (edge1 pos) (edge2 pos) ≠ 0) :
    ∃ (det : ℝ) (S : ((Fin 3 → ℝ) → ℝ) → ℝ), makeJacob pos = some (.ok det) ∧ (∀ f, tableSum 3 det (npTriangle 3) f = .ok (2 * S f)) ∧
      S (fun L => L 0 ^ 4) = 13 / 12 * overTriangle pos (fun L => L 0 ^ 4) ∧ 0 < overTriangle pos (fun L => L 0 ^ 4) := by
  refine ⟨_, fun f => 2 * area pos * rule (halfPts 3) f, C44_jacobian h, fun f => tableSum_eq 3 _ f, ?_⟩
  have ha := area_pos h
  have ho := overTriangle_mono pos 4 0 0
  simp only [pow_zero, mul_one] at ho
  rw [ho]
  simp only [halfPts, show tableTriangle 3 = triangleO4 from rfl]
  norm_num [triMoment, Nat.factorial, rule, triangleO4]
  constructor
  · ring
  · linarith

/-- **C116, number of points, negation.** `nOfIntPoints()` is three, whatever the table: a loop over it sees three of the seven points of
the table that `i_int` selects, and its weights add up neither to the area nor to its double. -/
theorem C116_points_violated {pos : Fin 6 → Fin 3 → ℝ} (h : cross (edge1 pos) (edge2 pos) ≠ 0) :
    nOfIntPoints ≠ npTriangle defaultScheme ∧
    ∃ det s, makeJacob pos = some (.ok det) ∧ tableSum defaultScheme det nOfIntPoints (fun _ => 1) = .ok s ∧
      s = 0.9795766 * area pos ∧ s ≠ overTriangle pos (fun _ => 1) := by
  refine ⟨by decide, _, _, C44_jacobian h, tableSum_prefix defaultScheme _ _ (by decide), ?_⟩
  have ha := area_pos h
  rw [overTriangle_one]
  have e : rule ((halfPts defaultScheme).take nOfIntPoints) (fun _ => 1) = 0.24489415 := by
    rw [show defaultScheme = 4 from rfl, halfPts, show tableTriangle 4 = triangleO5 from rfl]
    norm_num [rule, triangleO5, nOfIntPoints]
  rw [e]
  constructor
  · ring
  · intro he
    nlinarith

/-- A triangle with the legs 3 and 4 in the plane `z = 1`. -/
def legs : Fin 6 → Fin 3 → ℝ := ![![0, 0, 1], ![3, 0, 1], ![0, 4, 1], ![0, 0, 2], ![3, 0, 2], ![0, 4, 2]]

/-- The hypotheses hold for it; its area is six. -/
example : cross (edge1 legs) (edge2 legs) ≠ 0 ∧ area legs = 6 := by
  have hc : cross (edge1 legs) (edge2 legs) = ![0, 0, 12] := by
    funext i
    fin_cases i <;> simp [cross, edge1, edge2, legs] <;> norm_num
  refine ⟨?_, ?_⟩
  · rw [hc]
    intro hz
    have := congrFun hz 2
    simp at this
  · unfold area
    rw [hc]
    unfold length qlength
    rw [show (0 + (![0, 0, 12] : Fin 3 → ℝ) 0 * (![0, 0, 12] : Fin 3 → ℝ) 0 + (![0, 0, 12] : Fin 3 → ℝ) 1 * (![0, 0, 12] : Fin 3 → ℝ) 1 +
      (![0, 0, 12] : Fin 3 → ℝ) 2 * (![0, 0, 12] : Fin 3 → ℝ) 2) = 12 ^ 2 by simp; norm_num, Real.sqrt_sq (by norm_num)]
    norm_num

/-- The polynomial `x^2 y^3` has degree five and size one. -/
example : (MvPolynomial.monomial (Finsupp.single (0 : Fin 3) 2 + Finsupp.single 1 3) (1 : ℝ)).totalDegree ≤ 5 := by
  refine (MvPolynomial.totalDegree_monomial_le _ _).trans ?_
  rw [Finsupp.sum_fintype _ _ (fun _ => rfl)]
  simp [Fin.sum_univ_three]

end Nla3d.Bars
