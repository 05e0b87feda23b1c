import Verif.Bars.Model
import Verif.Thermal.Lemmas
import Mathlib.Tactic.FinCases

/-!
# Frames and triangular views
-/

namespace Nla3d.Bars

open scoped Matrix
open Finset

/-- What `assembleK(Eigen::Ref)` adds to the global symmetric matrix: it reads the upper triangle (`Storage.C15_eigen`). -/
def assembled {n : Nat} (Ke : Matrix (Fin n) (Fin n) ℝ) : Matrix (Fin n) (Fin n) ℝ :=
  Matrix.of fun i j => if i ≤ j then Ke i j else Ke j i

theorem assembled_symm {n : Nat} (Ke : Matrix (Fin n) (Fin n) ℝ) : (assembled Ke).IsSymm := by
  ext i j
  simp only [assembled, Matrix.transpose_apply, Matrix.of_apply]
  rcases lt_trichotomy i j with h | h | h
  · rw [if_pos h.le, if_neg (not_le.mpr h)]
  · rw [h]
  · rw [if_pos h.le, if_neg (not_le.mpr h)]

theorem assembled_setUpper {n : Nat} (Ke : Matrix (Fin n) (Fin n) ℝ) {M : Matrix (Fin n) (Fin n) ℝ} (h : M.IsSymm) :
    assembled (setUpper Ke M) = M := by
  ext i j
  simp only [assembled, setUpper, Matrix.of_apply]
  by_cases hij : i ≤ j
  · rw [if_pos hij, if_pos hij]
  · rw [if_neg hij, if_pos (not_le.mp hij).le, ← h.apply]

theorem assembled_of_symm {n : Nat} {M : Matrix (Fin n) (Fin n) ℝ} (h : M.IsSymm) : assembled M = M := by
  ext i j
  simp only [assembled, Matrix.of_apply]
  by_cases hij : i ≤ j
  · rw [if_pos hij]
  · rw [if_neg hij, ← h.apply]

/-! ## Lengths -/

/-- The scalar product. -/
def dot (a b : Fin 3 → ℝ) : ℝ := a 0 * b 0 + a 1 * b 1 + a 2 * b 2

/-- The vector product. -/
def cross (a b : Fin 3 → ℝ) : Fin 3 → ℝ := ![a 1 * b 2 - a 2 * b 1, a 2 * b 0 - a 0 * b 2, a 0 * b 1 - a 1 * b 0]

theorem qlength_eq (v : Fin 3 → ℝ) : qlength v = dot v v := by unfold qlength dot; ring

theorem dot_self_nonneg (v : Fin 3 → ℝ) : 0 ≤ dot v v := by
  unfold dot; have := mul_self_nonneg (v 0); have := mul_self_nonneg (v 1); have := mul_self_nonneg (v 2); linarith

theorem dot_self_eq_zero {v : Fin 3 → ℝ} : dot v v = 0 ↔ v = 0 := by
  constructor
  · intro h
    unfold dot at h
    have h0 := mul_self_nonneg (v 0); have h1 := mul_self_nonneg (v 1); have h2 := mul_self_nonneg (v 2)
    funext i
    fin_cases i
    · exact mul_self_eq_zero.mp (show v 0 * v 0 = 0 by linarith)
    · exact mul_self_eq_zero.mp (show v 1 * v 1 = 0 by linarith)
    · exact mul_self_eq_zero.mp (show v 2 * v 2 = 0 by linarith)
  · rintro rfl; simp [dot]

theorem dot_self_pos {v : Fin 3 → ℝ} (h : v ≠ 0) : 0 < dot v v :=
  lt_of_le_of_ne (dot_self_nonneg v) (fun e => h (dot_self_eq_zero.mp e.symm))

theorem length_sq (v : Fin 3 → ℝ) : length v * length v = dot v v := by
  unfold length; rw [qlength_eq]; exact Real.mul_self_sqrt (dot_self_nonneg v)

theorem length_nonneg (v : Fin 3 → ℝ) : 0 ≤ length v := Real.sqrt_nonneg _

theorem length_eq_zero {v : Fin 3 → ℝ} : length v = 0 ↔ v = 0 := by
  unfold length; rw [qlength_eq, Real.sqrt_eq_zero (dot_self_nonneg v), dot_self_eq_zero]

theorem length_pos {v : Fin 3 → ℝ} (h : v ≠ 0) : 0 < length v :=
  lt_of_le_of_ne (length_nonneg v) (fun e => h (length_eq_zero.mp e.symm))

theorem divide_ok {a b : ℝ} (h : b ≠ 0) : divide a b = some (a / b) := if_neg h

theorem divide_zero (a : ℝ) : divide a 0 = none := if_pos rfl

/-- Normalised vector. -/
noncomputable def unit (v : Fin 3 → ℝ) : Fin 3 → ℝ := fun i => v i * (1 / length v)

theorem dot_unit_self {v : Fin 3 → ℝ} (h : v ≠ 0) : dot (unit v) (unit v) = 1 := by
  have hl := (length_pos h).ne'
  have : dot (unit v) (unit v) = dot v v * (1 / length v) * (1 / length v) := by unfold dot unit; ring
  rw [this, ← length_sq]
  field_simp

theorem dot_unit {a b : Fin 3 → ℝ} (h : dot a b = 0) : dot (unit a) (unit b) = 0 := by
  have : dot (unit a) (unit b) = dot a b * (1 / length a) * (1 / length b) := by unfold dot unit; ring
  rw [this, h, zero_mul, zero_mul]

theorem dot_comm (a b : Fin 3 → ℝ) : dot a b = dot b a := by unfold dot; ring
theorem dot_cross_left (a b : Fin 3 → ℝ) : dot a (cross a b) = 0 := by simp [dot, cross]; ring
theorem dot_cross_right (a b : Fin 3 → ℝ) : dot b (cross a b) = 0 := by simp [dot, cross]; ring

/-- Lagrange's identity. -/
theorem cross_sq (a b : Fin 3 → ℝ) : dot (cross a b) (cross a b) = dot a a * dot b b - dot a b * dot a b := by
  simp [dot, cross]; ring

theorem cross_ne_zero {a b : Fin 3 → ℝ} (ha : a ≠ 0) (hb : b ≠ 0) (h : dot a b = 0) : cross a b ≠ 0 := by
  intro hz
  have := cross_sq a b
  rw [hz, h, dot_self_eq_zero.mpr rfl, mul_zero, sub_zero] at this
  exact (mul_pos (dot_self_pos ha) (dot_self_pos hb)).ne' this.symm

/-! ## Orthonormal frames -/

/-- Stiffness of an interface with unit normal `n`: `ks` in the tangent plane, `kn` along the normal. -/
def interface (ks kn : ℝ) (n : Fin 3 → ℝ) : Matrix (Fin 3) (Fin 3) ℝ :=
  ks • (1 - Matrix.vecMulVec n n) + kn • Matrix.vecMulVec n n

theorem interface_symm (ks kn : ℝ) (n : Fin 3 → ℝ) : (interface ks kn n).IsSymm := by
  unfold interface Matrix.IsSymm
  simp [Matrix.transpose_vecMulVec]

/-- Rows `s1`, `s2`, `n`. -/
def rows (s1 s2 n : Fin 3 → ℝ) : Matrix (Fin 3) (Fin 3) ℝ := Matrix.of ![s1, s2, n]

theorem rows_orthonormal {s1 s2 n : Fin 3 → ℝ} (h11 : dot s1 s1 = 1) (h22 : dot s2 s2 = 1) (hnn : dot n n = 1)
    (h12 : dot s1 s2 = 0) (h1n : dot s1 n = 0) (h2n : dot s2 n = 0) : rows s1 s2 n * (rows s1 s2 n)ᵀ = 1 := by
  have h21 := h12; have hn1 := h1n; have hn2 := h2n
  rw [dot_comm] at h21 hn1 hn2
  unfold dot at *
  ext i j
  fin_cases i <;> fin_cases j <;> simp [rows, Matrix.mul_apply, Fin.sum_univ_three] <;> assumption

theorem frame_springs (ks kn : ℝ) {s1 s2 n : Fin 3 → ℝ} (h : rows s1 s2 n * (rows s1 s2 n)ᵀ = 1) :
    (rows s1 s2 n)ᵀ * springs ks kn * rows s1 s2 n = interface ks kn n := by
  have h' : (rows s1 s2 n)ᵀ * rows s1 s2 n = 1 := mul_eq_one_comm.mp h
  have e : springs ks kn = ks • (1 : Matrix (Fin 3) (Fin 3) ℝ) + (kn - ks) • Matrix.vecMulVec ![0, 0, 1] ![0, 0, 1] := by
    ext i j
    fin_cases i <;> fin_cases j <;> simp [springs, Matrix.vecMulVec_apply]
  have e2 : (rows s1 s2 n)ᵀ * Matrix.vecMulVec ![0, 0, 1] ![0, 0, 1] * rows s1 s2 n = Matrix.vecMulVec n n := by
    ext i j
    simp [rows, Matrix.mul_apply, Fin.sum_univ_three, Matrix.vecMulVec_apply]
  rw [e, Matrix.mul_add, Matrix.add_mul, Matrix.mul_smul, Matrix.smul_mul, Matrix.mul_one, h', Matrix.mul_smul, Matrix.smul_mul, e2]
  unfold interface
  rw [smul_sub, sub_smul]
  abel

end Nla3d.Bars
