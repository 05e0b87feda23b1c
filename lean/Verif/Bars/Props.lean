import Verif.Bars.Lemmas
import Verif.Storage.Eigen
import Mathlib.LinearAlgebra.Matrix.PosDef

/-!
# C42, C43, C44, C66: truss and interface elements
-/

namespace Nla3d.Bars

open scoped Matrix
open Finset

/-! ## C42 -/

/-- Nodal displacements one after the other. -/
def vec6 (u : Fin 2 → Fin 3 → ℝ) : Fin 6 → ℝ := ![u 0 0, u 0 1, u 0 2, u 1 0, u 1 1, u 1 2]

/-- Elongation of the bar to first order: the displacement difference along the axis. -/
noncomputable def elongation (pos u : Fin 2 → Fin 3 → ℝ) : ℝ := dot (u 1 - u 0) (pos 1 - pos 0) / length (pos 1 - pos 0)

theorem trussT_vec (d : Fin 3 → ℝ) (l : ℝ) (u : Fin 2 → Fin 3 → ℝ) : trussT d l *ᵥ vec6 u = ![l * dot (u 0) d, l * dot (u 1) d] := by
  funext i
  fin_cases i <;> simp [trussT, vec6, Matrix.mulVec, dotProduct, Fin.sum_univ_succ, dot] <;> ring

/-- C42, stiffness: for every bar of non-zero length the assembled matrix is symmetric, its energy is `EA/L` times the squared
elongation, its forces are along the bar, and rigid motions (also infinitesimal rotations) give none. -/
theorem C42_stiffness {pos : Fin 2 → Fin 3 → ℝ} (h : pos 0 ≠ pos 1) (E A : ℝ) :
    ∃ Ke, trussK pos E A = some Ke ∧ (assembled Ke).IsSymm ∧
      (∀ u, vec6 u ⬝ᵥ (assembled Ke *ᵥ vec6 u) = E * A / length (pos 1 - pos 0) * elongation pos u ^ 2) ∧
      (∀ u, elongation pos u = 0 → assembled Ke *ᵥ vec6 u = 0) ∧
      (0 ≤ E * A → (assembled Ke).PosSemidef) := by
  have hd : pos 1 - pos 0 ≠ 0 := fun hh => h (sub_eq_zero.mp hh).symm
  have hl := (length_pos hd).ne'
  generalize hD : pos 1 - pos 0 = d at *
  have hM : ((trussT d (1 / length d))ᵀ * ((A * E * (1 / length d)) • (!![1, -1; -1, 1] : Matrix (Fin 2) (Fin 2) ℝ)) *
      trussT d (1 / length d)).IsSymm := by
    have : (!![1, -1; -1, 1] : Matrix (Fin 2) (Fin 2) ℝ)ᵀ = !![1, -1; -1, 1] := by
      ext i j; fin_cases i <;> fin_cases j <;> simp
    unfold Matrix.IsSymm
    rw [Matrix.transpose_mul, Matrix.transpose_mul, Matrix.transpose_transpose, Matrix.transpose_smul, this, Matrix.mul_assoc]
  have hmul : ∀ v : Fin 6 → ℝ, ((trussT d (1 / length d))ᵀ * ((A * E * (1 / length d)) • (!![1, -1; -1, 1] : Matrix (Fin 2) (Fin 2) ℝ)) *
      trussT d (1 / length d)) *ᵥ v = (trussT d (1 / length d))ᵀ *ᵥ (((A * E * (1 / length d)) • (!![1, -1; -1, 1] : Matrix (Fin 2) (Fin 2) ℝ)) *ᵥ
        (trussT d (1 / length d) *ᵥ v)) := by
    intro v; rw [Matrix.mulVec_mulVec, Matrix.mulVec_mulVec, Matrix.mul_assoc]
  have hen : ∀ u, vec6 u ⬝ᵥ (((trussT d (1 / length d))ᵀ * ((A * E * (1 / length d)) • (!![1, -1; -1, 1] : Matrix (Fin 2) (Fin 2) ℝ)) *
      trussT d (1 / length d)) *ᵥ vec6 u) = E * A / length d * elongation pos u ^ 2 := by
    intro u
    rw [hmul, Matrix.dotProduct_mulVec, Matrix.vecMul_transpose, trussT_vec]
    unfold elongation
    rw [hD]
    simp [Matrix.mulVec, dotProduct, Fin.sum_univ_two, dot]
    field_simp
    ring
  refine ⟨setUpper 0 ((trussT d (1 / length d))ᵀ * ((A * E * (1 / length d)) • (!![1, -1; -1, 1] : Matrix (Fin 2) (Fin 2) ℝ)) *
      trussT d (1 / length d)), ?_, assembled_symm _, ?_, ?_, ?_⟩
  · unfold trussK
    dsimp only
    rw [hD, divide_ok hl]
    rfl
  · rw [assembled_setUpper _ hM]; exact hen
  · rw [assembled_setUpper _ hM]
    intro u hu
    rw [hmul, trussT_vec]
    have : dot (u 0) d = dot (u 1) d := by
      unfold elongation at hu
      rw [hD, div_eq_zero_iff] at hu
      have := hu.resolve_right hl
      unfold dot at this ⊢
      simp only [Pi.sub_apply] at this
      linarith
    rw [this]
    have z : ((A * E * (1 / length d)) • (!![1, -1; -1, 1] : Matrix (Fin 2) (Fin 2) ℝ)) *ᵥ
        ![1 / length d * dot (u 1) d, 1 / length d * dot (u 1) d] = 0 := by
      funext i
      fin_cases i <;> simp [Matrix.mulVec, dotProduct, Fin.sum_univ_two]
    rw [z, Matrix.mulVec_zero]
  · rw [assembled_setUpper _ hM]
    intro hEA
    apply Matrix.PosSemidef.of_dotProduct_mulVec_nonneg
    · rw [Matrix.IsHermitian, Matrix.conjTranspose_eq_transpose_of_trivial]; exact hM
    · intro x
      have hx : x = vec6 ![![x 0, x 1, x 2], ![x 3, x 4, x 5]] := by
        funext i; fin_cases i <;> simp [vec6]
      rw [star_trivial, hx, hen]
      have := length_nonneg d
      positivity

/-- C42, rigid motions have no elongation: `u = t + W x` with skew `W`. -/
theorem C42_rigid (pos : Fin 2 → Fin 3 → ℝ) (t : Fin 3 → ℝ) (W : Matrix (Fin 3) (Fin 3) ℝ) (hW : Wᵀ = -W) :
    elongation pos (fun a => t + W *ᵥ pos a) = 0 := by
  have w : ∀ i j, W j i = -W i j := fun i j => congrFun (congrFun hW i) j
  have d : ∀ i, W i i = 0 := fun i => by have := w i i; linarith
  unfold elongation
  rw [div_eq_zero_iff]
  left
  simp only [dot, Pi.sub_apply, Pi.add_apply, Matrix.mulVec, dotProduct, Fin.sum_univ_three, d, w 0 1, w 0 2, w 1 2]
  ring

/-- C42, stress: `E` times the elongation per length. -/
theorem C42_stress {pos : Fin 2 → Fin 3 → ℝ} (h : pos 0 ≠ pos 1) (E : ℝ) (u : Fin 2 → Fin 3 → ℝ) :
    trussS pos E u = some (E * (elongation pos u / length (pos 1 - pos 0))) := by
  have hd : pos 1 - pos 0 ≠ 0 := fun hh => h (sub_eq_zero.mp hh).symm
  have hl := (length_pos hd).ne'
  unfold trussS elongation
  dsimp only
  generalize pos 1 - pos 0 = d at *
  rw [divide_ok hl]
  show some _ = some _
  congr 2
  have := trussT_vec d (1 / length d) u
  unfold vec6 at this
  rw [← Matrix.mulVec_mulVec, this]
  simp [Matrix.mulVec, dotProduct, Fin.sum_univ_two, dot]
  field_simp
  ring

/-- A bar in a general direction. -/
example : (![![0, 0, 0], ![1, 2, 2]] : Fin 2 → Fin 3 → ℝ) 0 ≠ (![![0, 0, 0], ![1, 2, 2]] : Fin 2 → Fin 3 → ℝ) 1 := by
  intro h; have := congrFun h 0; simp at this

/-! ## C43 -/

/-- The tangent the code starts from. -/
def diag011 : Fin 3 → ℝ := ![0, 1, 1]

/-- `Ke` couples two nodes by `M`: force `M (u0 - u1)` on the first, the opposite on the second. -/
def Couples (Ke : Matrix (Fin 6) (Fin 6) ℝ) (M : Matrix (Fin 3) (Fin 3) ℝ) : Prop :=
  ∀ u : Fin 2 → Fin 3 → ℝ, Ke *ᵥ vec6 u = vec6 ![M *ᵥ (u 0 - u 1), M *ᵥ (u 1 - u 0)]

theorem twoByTwo_couples (M : Matrix (Fin 3) (Fin 3) ℝ) : Couples (twoByTwo M) M := by
  intro u
  funext i
  fin_cases i <;> simp [twoByTwo, vec6, Matrix.mulVec, dotProduct, Fin.sum_univ_succ] <;> ring

theorem twoByTwo_symm {M : Matrix (Fin 3) (Fin 3) ℝ} (h : M.IsSymm) : (twoByTwo M).IsSymm := by
  have h' : ∀ a b, M b a = M a b := fun a b => h.apply a b
  ext i j
  simp only [twoByTwo, Matrix.transpose_apply, Matrix.of_apply]
  generalize (⟨i.val / 3, _⟩ : Fin 2) = a
  generalize (⟨j.val / 3, _⟩ : Fin 2) = b
  fin_cases a <;> fin_cases b <;> simp [h']

theorem tangent_eq (n : Fin 3 → ℝ) (hn : n ≠ 0) :
    (![n 0, n 1 + 1, n 2 + 1] : Fin 3 → ℝ) - (fun i => n i * ((n 0 * n 0 + (n 1 + 1) * n 1 + (n 2 + 1) * n 2) / qlength n))
      = diag011 - fun i => n i * (dot diag011 n / dot n n) := by
  have hq := (dot_self_pos hn).ne'
  rw [qlength_eq]
  have e : (n 0 * n 0 + (n 1 + 1) * n 1 + (n 2 + 1) * n 2) / dot n n = 1 + dot diag011 n / dot n n := by
    rw [div_eq_iff hq, add_mul (1 : ℝ) (dot diag011 n / dot n n), div_mul_cancel₀ _ hq]
    simp [dot, diag011]; ring
  rw [e]
  funext i
  fin_cases i <;> simp [diag011] <;> ring

/-- C43 for every normal that is not along `(0, 1, 1)`: the assembled matrix couples the nodes by the interface stiffness of the
normalised normal, which is what the member `n` becomes. Missing: normals along `(0, 1, 1)`, see `C43_violated`. -/
theorem C43_partial {n : Fin 3 → ℝ} (hn : n ≠ 0) (hp : ∀ c : ℝ, n ≠ c • diag011) (ks kn : ℝ) :
    ∃ Ke, inter0K ks kn n = some (unit n, Ke) ∧ dot (unit n) (unit n) = 1 ∧
      Couples (assembled Ke) (interface ks kn (unit n)) := by
  have hl := (length_pos hn).ne'
  have hq : qlength n ≠ 0 := by rw [qlength_eq]; exact (dot_self_pos hn).ne'
  set s := diag011 - fun i => n i * (dot diag011 n / dot n n) with hs
  have hs0 : s ≠ 0 := by
    intro hz
    have hz' : ∀ i, diag011 i = n i * (dot diag011 n / dot n n) := by
      intro i; have := congrFun hz i; rw [hs] at this; simp only [Pi.sub_apply, Pi.zero_apply] at this; linarith
    have hc : dot diag011 n / dot n n ≠ 0 := by
      intro hc
      have := hz' 1
      rw [hc, mul_zero] at this
      simp [diag011] at this
    apply hp (dot diag011 n / dot n n)⁻¹
    funext i
    rw [Pi.smul_apply, hz' i, smul_eq_mul]
    generalize dot diag011 n / dot n n = c at hc
    field_simp
  have hns : dot n s = 0 := by
    have hq' := (dot_self_pos hn).ne'
    have : dot n s = dot diag011 n - dot n n * (dot diag011 n / dot n n) := by
      rw [hs]; simp only [dot, Pi.sub_apply]; ring
    rw [this, mul_div_cancel₀ _ hq', sub_self]
  have hx := cross_ne_zero hn hs0 hns
  have hT := rows_orthonormal (dot_unit_self hs0) (dot_unit_self hx) (dot_unit_self hn)
    (dot_unit (dot_cross_right n s)) (dot_unit (by rw [dot_comm]; exact hns))
    (dot_unit (by rw [dot_comm]; exact dot_cross_left n s))
  refine ⟨twoByTwo (interface ks kn (unit n)), ?_, dot_unit_self hn, ?_⟩
  · unfold inter0K
    dsimp only
    simp only [Matrix.cons_val_zero, Matrix.cons_val_one, Matrix.cons_val, divide_ok hq, Option.bind_eq_bind, Option.bind_some]
    rw [tangent_eq n hn, ← hs]
    show (divide 1 (length n)).bind (fun ln => (divide 1 (length s)).bind fun l1 => (divide 1 (length (cross n s))).bind fun l2 =>
      some (fun i => n i * ln, twoByTwo ((rows (fun i => s i * l1) (fun i => cross n s i * l2) (fun i => n i * ln))ᵀ *
        springs ks kn * rows (fun i => s i * l1) (fun i => cross n s i * l2) (fun i => n i * ln)))) = _
    rw [divide_ok hl, divide_ok (length_pos hs0).ne', divide_ok (length_pos hx).ne']
    simp only [Option.bind_some]
    rw [← frame_springs ks kn hT]
    rfl
  · rw [assembled_of_symm (twoByTwo_symm (interface_symm _ _ _))]
    exact twoByTwo_couples _

/-- A normal that meets the hypotheses. -/
example : (![1, 2, 2] : Fin 3 → ℝ) ≠ 0 ∧ ∀ c : ℝ, (![1, 2, 2] : Fin 3 → ℝ) ≠ c • diag011 :=
  ⟨fun h => by have := congrFun h 0; simp at this, fun c h => by have := congrFun h 0; simp [diag011] at this⟩

/-- C43 is violated: for every normal along `(0, 1, 1)` the first tangent vanishes and `buildK` divides by its length. -/
theorem C43_violated {c : ℝ} (hc : c ≠ 0) (ks kn : ℝ) : c • diag011 ≠ 0 ∧ inter0K ks kn (c • diag011) = none := by
  have hn : c • diag011 ≠ 0 := by
    intro h; have := congrFun h 1; simp [diag011] at this; exact hc this
  refine ⟨hn, ?_⟩
  have hl := (length_pos hn).ne'
  have hq : qlength (c • diag011) ≠ 0 := by rw [qlength_eq]; exact (dot_self_pos hn).ne'
  have hz : (diag011 - fun i => (c • diag011) i * (dot diag011 (c • diag011) / dot (c • diag011) (c • diag011))) = 0 := by
    funext i
    fin_cases i <;> simp [diag011, dot] <;> field_simp <;> ring
  unfold inter0K
  dsimp only
  generalize hm : c • diag011 = n at *
  simp only [Matrix.cons_val_zero, Matrix.cons_val_one, Matrix.cons_val, divide_ok hq, Option.bind_eq_bind, Option.bind_some]
  rw [tangent_eq n hn, hz, divide_ok hl, Option.bind_some, length_eq_zero.mpr rfl, divide_zero]
  rfl

/-- C43, coupling spelt out: a relative displacement along the unit normal meets `kn`, one across it meets `ks`. -/
theorem C43_directions {n d : Fin 3 → ℝ} (hn : dot n n = 1) (ks kn : ℝ) :
    interface ks kn n *ᵥ n = kn • n ∧ (dot n d = 0 → interface ks kn n *ᵥ d = ks • d) := by
  have key : ∀ v : Fin 3 → ℝ, interface ks kn n *ᵥ v = ks • (v - dot n v • n) + kn • (dot n v • n) := by
    intro v
    funext i
    fin_cases i <;>
      simp [interface, Matrix.mulVec, dotProduct, Fin.sum_univ_three, Matrix.vecMulVec_apply, dot] <;> ring
  refine ⟨?_, fun h => ?_⟩
  · rw [key, hn, one_smul, sub_self, smul_zero, zero_add]
  · rw [key, h, zero_smul, sub_zero, smul_zero, add_zero]

/-! ## C44 -/

/-- Edges of the lower triangle. -/
def edge1 (pos : Fin 6 → Fin 3 → ℝ) : Fin 3 → ℝ := pos 1 - pos 0
def edge2 (pos : Fin 6 → Fin 3 → ℝ) : Fin 3 → ℝ := pos 2 - pos 0

/-- Area of the lower triangle. -/
noncomputable def area (pos : Fin 6 → Fin 3 → ℝ) : ℝ := length (cross (edge1 pos) (edge2 pos)) / 2

/-- Its unit normal. -/
noncomputable def normal (pos : Fin 6 → Fin 3 → ℝ) : Fin 3 → ℝ := unit (cross (edge1 pos) (edge2 pos))

theorem edge1_ne {pos : Fin 6 → Fin 3 → ℝ} (h : cross (edge1 pos) (edge2 pos) ≠ 0) : edge1 pos ≠ 0 := by
  intro hz; apply h; rw [hz]; funext i; fin_cases i <;> simp [cross]

theorem edge2_ne {pos : Fin 6 → Fin 3 → ℝ} (h : cross (edge1 pos) (edge2 pos) ≠ 0) : edge2 pos ≠ 0 := by
  intro hz; apply h; rw [hz]; funext i; fin_cases i <;> simp [cross]

/-- C44, Jacobian: twice the area, never the abort. -/
theorem C44_jacobian {pos : Fin 6 → Fin 3 → ℝ} (h : cross (edge1 pos) (edge2 pos) ≠ 0) :
    makeJacob pos = some (.ok (2 * area pos)) := by
  have h1 := length_pos (edge1_ne h)
  have h2 := length_pos (edge2_ne h)
  have hc := cross_sq (edge1 pos) (edge2 pos)
  unfold area
  unfold makeJacob
  dsimp only
  show ((divide (dot (edge1 pos) (edge2 pos)) (length (edge1 pos))).bind fun q => (divide q (length (edge2 pos))).bind fun q => _) = _
  rw [divide_ok h1.ne', Option.bind_some, divide_ok h2.ne', Option.bind_some]
  show some (if (0 - length (edge2 pos) * Real.cos (Real.arccos _)) * (0 - length (edge2 pos) * Real.sin (Real.arccos _)) -
    (0 - length (edge2 pos) * Real.sin (Real.arccos _)) * (length (edge1 pos) - length (edge2 pos) * Real.cos (Real.arccos _)) < 0
    then Res.fatal else Res.ok ((0 - length (edge2 pos) * Real.cos (Real.arccos _)) * (0 - length (edge2 pos) * Real.sin (Real.arccos _)) -
    (0 - length (edge2 pos) * Real.sin (Real.arccos _)) * (length (edge1 pos) - length (edge2 pos) * Real.cos (Real.arccos _)))) = _
  generalize edge1 pos = t1 at *
  generalize edge2 pos = t2 at *
  set q := dot t1 t2 / length t1 / length t2 with hq
  have e : (0 - length t2 * Real.cos (Real.arccos q)) * (0 - length t2 * Real.sin (Real.arccos q)) -
      (0 - length t2 * Real.sin (Real.arccos q)) * (length t1 - length t2 * Real.cos (Real.arccos q)) = length (cross t1 t2) := by
    have r : (0 - length t2 * Real.cos (Real.arccos q)) * (0 - length t2 * Real.sin (Real.arccos q)) -
      (0 - length t2 * Real.sin (Real.arccos q)) * (length t1 - length t2 * Real.cos (Real.arccos q)) =
        length t1 * length t2 * Real.sin (Real.arccos q) := by ring
    rw [r, Real.sin_arccos]
    have hq2 : (1 - q ^ 2) * (length t1 * length t1) * (length t2 * length t2) = dot (cross t1 t2) (cross t1 t2) := by
      rw [hc, ← length_sq t1, ← length_sq t2, hq]
      field_simp
    have hq1 : 0 ≤ 1 - q ^ 2 := by
      by_contra hneg
      push Not at hneg
      have : (1 - q ^ 2) * (length t1 * length t1) * (length t2 * length t2) < 0 :=
        mul_neg_of_neg_of_pos (mul_neg_of_neg_of_pos hneg (mul_pos h1 h1)) (mul_pos h2 h2)
      rw [hq2] at this
      exact absurd (dot_self_nonneg _) (not_le.mpr this)
    have hs := Real.sqrt_nonneg (1 - q ^ 2)
    have hs2 := Real.mul_self_sqrt hq1
    have hl := length_nonneg (cross t1 t2)
    apply (mul_self_inj (by positivity) hl).mp
    rw [length_sq, ← hq2]
    calc _ = Real.sqrt (1 - q ^ 2) * Real.sqrt (1 - q ^ 2) * (length t1 * length t1) * (length t2 * length t2) := by ring
      _ = _ := by rw [hs2]
  rw [e, if_neg (not_lt.mpr (length_nonneg _))]
  congr 2
  ring

/-- C44, frame: `make_T` has the orthonormal columns edge, binormal, normal. -/
theorem C44_frame {pos : Fin 6 → Fin 3 → ℝ} (h : cross (edge1 pos) (edge2 pos) ≠ 0) :
    ∃ R, makeT pos = some Rᵀ ∧ R = rows (unit (edge1 pos)) (unit (cross (cross (edge1 pos) (edge2 pos)) (edge1 pos))) (normal pos) ∧
      R * Rᵀ = 1 ∧ Rᵀ * R = 1 := by
  have h1 := edge1_ne h
  have hn1 : dot (cross (edge1 pos) (edge2 pos)) (edge1 pos) = 0 := by rw [dot_comm]; exact dot_cross_left _ _
  have hx := cross_ne_zero h h1 hn1
  have hR := rows_orthonormal (dot_unit_self h1) (dot_unit_self hx) (dot_unit_self h)
    (dot_unit (dot_cross_right (cross (edge1 pos) (edge2 pos)) (edge1 pos))) (dot_unit (by rw [dot_comm]; exact hn1))
    (dot_unit (by rw [dot_comm]; exact dot_cross_left (cross (edge1 pos) (edge2 pos)) (edge1 pos)))
  refine ⟨_, ?_, rfl, hR, mul_eq_one_comm.mp hR⟩
  unfold makeT
  dsimp only
  show ((divide 1 (length (cross (edge1 pos) (edge2 pos)))).bind fun ln => (divide 1 (length (edge1 pos))).bind fun l1 =>
    (divide 1 (length (cross (cross (edge1 pos) (edge2 pos)) (edge1 pos)))).bind fun l2 =>
      some (rows (fun i => edge1 pos i * l1) (fun i => cross (cross (edge1 pos) (edge2 pos)) (edge1 pos) i * l2)
        (fun i => cross (edge1 pos) (edge2 pos) i * ln))ᵀ) = _
  rw [divide_ok (length_pos h).ne', divide_ok (length_pos h1).ne', divide_ok (length_pos hx).ne']
  rfl

/-- Equation of direction `r` at node `a`. -/
def idx (a : Fin 6) (r : Fin 3) : Fin 18 := ⟨r.val + 3 * a.val, by omega⟩

theorem sum_idx (f : Fin 18 → ℝ) : ∑ i, f i = ∑ a, ∑ r, f (idx a r) := by
  rw [← Equiv.sum_comp (finProdFinEquiv : Fin 6 × Fin 3 ≃ Fin (6 * 3)) f, Fintype.sum_prod_type]
  rfl

/-- Sign of a side and node of the triangle. -/
def sgn (a : Fin 6) : ℝ := if a.val < 3 then 1 else -1
def corner (a : Fin 6) : Fin 3 := ⟨a.val % 3, by omega⟩

theorem idx_div (a : Fin 6) (r : Fin 3) : (idx a r).val / 3 = a.val := by simp only [idx]; omega
theorem idx_mod (a : Fin 6) (r : Fin 3) : (idx a r).val % 3 = r.val := by simp only [idx]; omega

theorem makeB_idx (np npj r' : Fin 3) (a : Fin 6) (r : Fin 3) :
    makeB np npj r' (idx a r) = if r' = r then sgn a * radoL np npj (corner a) else 0 := by
  unfold makeB
  simp only [Matrix.of_apply, idx_div, idx_mod, Fin.eta]
  fin_cases a <;> fin_cases r' <;> fin_cases r <;> simp [shapeBlock, sgn, corner]

/-- Moments of the quadrature. -/
noncomputable def moment (det : ℝ) (i j : Fin 3) : ℝ :=
  (points.map fun p => radoWeight det p.1 p.2 * (radoL p.1 p.2 i * radoL p.1 p.2 j)).sum

theorem addUpper_foldl {n : Nat} (f : Fin 3 × Fin 3 → Matrix (Fin n) (Fin n) ℝ) (i j : Fin n) :
    ∀ (l : List (Fin 3 × Fin 3)) (K : Matrix (Fin n) (Fin n) ℝ),
      l.foldl (fun Ke p => addUpper Ke (f p)) K i j = if i ≤ j then K i j + (l.map fun p => f p i j).sum else K i j := by
  intro l
  induction l with
  | nil => intro K; simp
  | cons p l ih =>
    intro K
    rw [List.foldl_cons, ih]
    by_cases h : i ≤ j
    · simp only [if_pos h, addUpper, Matrix.of_apply, List.map_cons, List.sum_cons]; ring
    · simp only [if_neg h, addUpper, Matrix.of_apply]

theorem localK_idx (ks kn det : ℝ) (a b : Fin 6) (r s : Fin 3) :
    localK ks kn det (idx a r) (idx b s) =
      if a ≤ b then sgn a * sgn b * moment det (corner a) (corner b) * springs ks kn r s else 0 := by
  have hB : ∀ p : Fin 3 × Fin 3, (radoWeight det p.1 p.2 • (makeB p.1 p.2)ᵀ * springs ks kn * makeB p.1 p.2) (idx a r) (idx b s) =
      sgn a * sgn b * (radoWeight det p.1 p.2 * (radoL p.1 p.2 (corner a) * radoL p.1 p.2 (corner b))) * springs ks kn r s := by
    intro p
    rw [Matrix.smul_mul, Matrix.smul_mul, Matrix.smul_apply, Matrix.mul_apply]
    simp only [Matrix.mul_apply, Matrix.transpose_apply, makeB_idx]
    simp
    ring
  unfold localK
  rw [addUpper_foldl]
  simp only [hB]
  have hsum : (points.map fun p => sgn a * sgn b * (radoWeight det p.1 p.2 * (radoL p.1 p.2 (corner a) * radoL p.1 p.2 (corner b))) *
      springs ks kn r s).sum = sgn a * sgn b * moment det (corner a) (corner b) * springs ks kn r s := by
    unfold moment
    rw [List.sum_map_mul_right, List.sum_map_mul_left]
  rw [hsum, Matrix.zero_apply, zero_add]
  by_cases hab : a ≤ b
  · rw [if_pos hab]
    by_cases hij : idx a r ≤ idx b s
    · rw [if_pos hij]
    · rw [if_neg hij]
      have : springs ks kn r s = 0 := by
        have hrs : s < r := by
          simp only [idx, Fin.le_def] at hij hab; rw [Fin.lt_def]; omega
        revert hrs
        fin_cases r <;> fin_cases s <;> simp [springs]
      rw [this, mul_zero]
  · rw [if_neg hab, if_neg]
    simp only [idx, Fin.le_def] at hab ⊢
    omega

theorem blockDiag_idx (T : Matrix (Fin 3) (Fin 3) ℝ) (a b : Fin 6) (r s : Fin 3) :
    (blockDiag 6 T : Matrix (Fin 18) (Fin 18) ℝ) (idx a r) (idx b s) = if a = b then T r s else 0 := by
  unfold blockDiag
  simp only [Matrix.of_apply, idx_div, idx_mod, Fin.eta, Fin.ext_iff]

theorem globalK_idx (ks kn det : ℝ) (R : Matrix (Fin 3) (Fin 3) ℝ) (a b : Fin 6) (r s : Fin 3) :
    ((blockDiag 6 R : Matrix (Fin 18) (Fin 18) ℝ)ᵀ * localK ks kn det * (blockDiag 6 R : Matrix (Fin 18) (Fin 18) ℝ)) (idx a r) (idx b s) =
      if a ≤ b then sgn a * sgn b * moment det (corner a) (corner b) * (Rᵀ * springs ks kn * R) r s else 0 := by
  have inner : ∀ (b : Fin 6) (s : Fin 3), ((blockDiag 6 R : Matrix (Fin 18) (Fin 18) ℝ)ᵀ * localK ks kn det) (idx a r) (idx b s) =
      if a ≤ b then sgn a * sgn b * moment det (corner a) (corner b) * (Rᵀ * springs ks kn) r s else 0 := by
    intro b s
    rw [Matrix.mul_apply]
    refine (sum_idx _).trans ?_
    simp only [Matrix.transpose_apply, localK_idx, blockDiag_idx, ite_mul, zero_mul, Finset.sum_ite_irrel, Finset.sum_const_zero,
      Finset.sum_ite_eq', Finset.mem_univ, if_true]
    by_cases hab : a ≤ b
    · simp only [if_pos hab, Matrix.mul_apply, Finset.mul_sum, Matrix.transpose_apply]
      exact Finset.sum_congr rfl fun x _ => by ring
    · simp only [if_neg hab, mul_zero, Finset.sum_const_zero]
  rw [Matrix.mul_apply]
  refine (sum_idx _).trans ?_
  simp only [inner, blockDiag_idx, mul_ite, mul_zero, Finset.sum_ite_irrel, Finset.sum_const_zero,
      Finset.sum_ite_eq', Finset.mem_univ, if_true]
  by_cases hab : a ≤ b
  · simp only [if_pos hab]
    rw [Matrix.mul_apply (M := Rᵀ * springs ks kn), Finset.mul_sum]
    exact Finset.sum_congr rfl fun x _ => by ring
  · simp only [if_neg hab, zero_mul, Finset.sum_const_zero]

/-- C44, stiffness: the matrix the global system gets couples every pair of nodes by the interface stiffness of the unit normal, times
the moment of the shape functions, with opposite signs on the two sides. In particular it is the whole symmetric matrix although only
one triangle is accumulated. -/
theorem C44_stiffness {pos : Fin 6 → Fin 3 → ℝ} (h : cross (edge1 pos) (edge2 pos) ≠ 0) (ks kn : ℝ) :
    ∃ Ke, inter3K pos ks kn = some (.ok (2 * area pos, Ke)) ∧
      ∀ a b r s, assembled Ke (idx a r) (idx b s) =
        sgn a * sgn b * moment (2 * area pos) (corner a) (corner b) * interface ks kn (normal pos) r s := by
  obtain ⟨R, hT, hRe, hR, -⟩ := C44_frame h
  refine ⟨(blockDiag 6 R : Matrix (Fin 18) (Fin 18) ℝ)ᵀ * localK ks kn (2 * area pos) * (blockDiag 6 R : Matrix (Fin 18) (Fin 18) ℝ),
    ?_, ?_⟩
  · unfold inter3K
    rw [C44_jacobian h]
    show (makeT pos).bind _ = _
    rw [hT]
    show some (Res.ok (_, (blockDiag 6 Rᵀᵀ : Matrix (Fin 18) (Fin 18) ℝ)ᵀ * _ * (blockDiag 6 Rᵀᵀ : Matrix (Fin 18) (Fin 18) ℝ))) = _
    rw [Matrix.transpose_transpose]
  · intro a b r s
    have hI : Rᵀ * springs ks kn * R = interface ks kn (normal pos) := by
      rw [hRe] at hR ⊢; exact frame_springs ks kn hR
    have hm : ∀ i j, moment (2 * area pos) i j = moment (2 * area pos) j i := by
      intro i j; unfold moment; congr 1; apply List.map_congr_left; intro p _; ring
    have hs := (interface_symm ks kn (normal pos)).apply r s
    unfold assembled
    simp only [Matrix.of_apply, globalK_idx, hI]
    by_cases hij : idx a r ≤ idx b s
    · rw [if_pos hij, if_pos]
      simp only [idx, Fin.le_def] at hij ⊢; omega
    · rw [if_neg hij, if_pos, hs, hm (corner b)]
      · ring
      · simp only [idx, Fin.le_def] at hij ⊢; omega

/-- C44, quadrature: the moments are those of linear shape functions, `∫ Nᵢ Nⱼ = A (1 + δᵢⱼ) / 12`, up to the ten printed digits. -/
theorem C44_moments {A : ℝ} (hA : 0 ≤ A) (i j : Fin 3) :
    |moment (2 * A) i j - A * (if i = j then 1 / 6 else 1 / 12)| ≤ A / 10 ^ 10 := by
  have e : moment (2 * A) i j - A * (if i = j then 1 / 6 else 1 / 12) = A * (moment 2 i j - (if i = j then 1 / 6 else 1 / 12)) := by
    rw [mul_sub]
    congr 1
    unfold moment
    rw [← List.sum_map_mul_left]
    congr 1
    apply List.map_congr_left
    intro p _
    unfold radoWeight
    ring
  rw [e, abs_mul, abs_of_nonneg hA, div_eq_mul_one_div]
  apply mul_le_mul_of_nonneg_left _ hA
  rw [abs_le]
  fin_cases i <;> fin_cases j <;>
    (simp [moment, points, List.finRange_succ, radoWeight, radoL, rado]; norm_num)

/-- A triangle in space. -/
def samplePos : Fin 6 → Fin 3 → ℝ := ![![0, 0, 0], ![1, 0, 1], ![0, 2, 0], ![0, 0, 0], ![1, 0, 1], ![0, 2, 0]]

example : cross (edge1 samplePos) (edge2 samplePos) ≠ 0 := by
  intro h; have := congrFun h 0; simp [cross, edge1, edge2, samplePos] at this

/-! ## C66 -/

/-- Relative displacement of the two sides at a corner. -/
def jump (u : Fin 6 → Fin 3 → ℝ) (k : Fin 3) : Fin 3 → ℝ := u ⟨k.val + 3, by omega⟩ - u ⟨k.val, by omega⟩

/-- Average over the triangle of the linearly interpolated relative displacement. -/
noncomputable def meanJump (u : Fin 6 → Fin 3 → ℝ) : Fin 3 → ℝ := (1 / 3 : ℝ) • (jump u 0 + jump u 1 + jump u 2)

/-- First moments of the quadrature. -/
noncomputable def weight (det : ℝ) (i : Fin 3) : ℝ := (points.map fun p => radoWeight det p.1 p.2 * radoL p.1 p.2 i).sum

theorem weight_bound {A : ℝ} (hA : 0 ≤ A) (i : Fin 3) : |weight (2 * A) i - A / 3| ≤ A / 10 ^ 10 := by
  have e : weight (2 * A) i - A / 3 = A * (weight 2 i - 1 / 3) := by
    rw [mul_sub, mul_one_div]
    congr 1
    unfold weight
    rw [← List.sum_map_mul_left]
    congr 1
    apply List.map_congr_left
    intro p _
    unfold radoWeight
    ring
  rw [e, abs_mul, abs_of_nonneg hA, div_eq_mul_one_div A (10 ^ 10)]
  apply mul_le_mul_of_nonneg_left _ hA
  rw [abs_le]
  fin_cases i <;>
    (simp [weight, points, List.finRange_succ, radoWeight, radoL, rado]; norm_num)

theorem subB_sum (np npj : Fin 3) (T : Matrix (Fin 3) (Fin 3) ℝ) (w : ℝ) (v : Fin 9 → ℝ) :
    (w • makeSubB np npj) *ᵥ ((blockDiag 3 T : Matrix (Fin 9) (Fin 9) ℝ) *ᵥ v) =
      T *ᵥ ((w * radoL np npj 0) • ![v 0, v 1, v 2] + (w * radoL np npj 1) • ![v 3, v 4, v 5] + (w * radoL np npj 2) • ![v 6, v 7, v 8]) := by
  have hb : (blockDiag 3 T : Matrix (Fin 9) (Fin 9) ℝ) *ᵥ v = fun i => (T *ᵥ ![v ⟨3 * (i.val / 3), by omega⟩, v ⟨3 * (i.val / 3) + 1, by omega⟩,
      v ⟨3 * (i.val / 3) + 2, by omega⟩]) ⟨i.val % 3, by omega⟩ := by
    funext i
    fin_cases i <;> simp [blockDiag, Matrix.mulVec, dotProduct, Fin.sum_univ_succ]
  rw [hb]
  funext r
  fin_cases r <;>
    simp [makeSubB, shapeBlock, Matrix.mulVec, dotProduct, Fin.sum_univ_succ] <;> ring

/-- What `update` reports: the first moments of the relative displacement, and the interface stiffness times it. -/
theorem C66_update {pos : Fin 6 → Fin 3 → ℝ} (h : cross (edge1 pos) (edge2 pos) ≠ 0) (ks kn det : ℝ) (u : Fin 6 → Fin 3 → ℝ) :
    inter3Update pos ks kn det u =
      some (weight det 0 • jump u 0 + weight det 1 • jump u 1 + weight det 2 • jump u 2,
        interface ks kn (normal pos) *ᵥ (weight det 0 • jump u 0 + weight det 1 • jump u 1 + weight det 2 • jump u 2)) := by
  obtain ⟨R, hT, hRe, hR, hR'⟩ := C44_frame h
  have hI : Rᵀ * springs ks kn * R = interface ks kn (normal pos) := by
    rw [hRe] at hR ⊢; exact frame_springs ks kn hR
  have hinv : Rᵀ⁻¹ = R := Matrix.inv_eq_left_inv hR
  have hloop : ∀ (l : List (Fin 3 × Fin 3)) (U1 U2 : Fin 9 → ℝ) (S : (Fin 3 → ℝ) × (Fin 3 → ℝ)),
      l.foldl (fun (S : (Fin 3 → ℝ) × (Fin 3 → ℝ)) p =>
        (S.1 + (radoWeight det p.1 p.2 • makeSubB p.1 p.2) *ᵥ ((blockDiag 3 R : Matrix (Fin 9) (Fin 9) ℝ) *ᵥ U1),
          S.2 + (radoWeight det p.1 p.2 • makeSubB p.1 p.2) *ᵥ ((blockDiag 3 R : Matrix (Fin 9) (Fin 9) ℝ) *ᵥ U2))) S =
      (S.1 + R *ᵥ ((l.map fun p => radoWeight det p.1 p.2 * radoL p.1 p.2 0).sum • ![U1 0, U1 1, U1 2] +
          (l.map fun p => radoWeight det p.1 p.2 * radoL p.1 p.2 1).sum • ![U1 3, U1 4, U1 5] +
          (l.map fun p => radoWeight det p.1 p.2 * radoL p.1 p.2 2).sum • ![U1 6, U1 7, U1 8]),
       S.2 + R *ᵥ ((l.map fun p => radoWeight det p.1 p.2 * radoL p.1 p.2 0).sum • ![U2 0, U2 1, U2 2] +
          (l.map fun p => radoWeight det p.1 p.2 * radoL p.1 p.2 1).sum • ![U2 3, U2 4, U2 5] +
          (l.map fun p => radoWeight det p.1 p.2 * radoL p.1 p.2 2).sum • ![U2 6, U2 7, U2 8])) := by
    intro l U1 U2
    induction l with
    | nil => intro S; simp
    | cons p l ih =>
      intro S
      rw [List.foldl_cons, ih, subB_sum, subB_sum]
      simp only [List.map_cons, List.sum_cons, add_smul, Matrix.mulVec_add]
      refine Prod.ext ?_ ?_ <;> dsimp only <;> abel
  unfold inter3Update
  rw [hT]
  dsimp only [Option.bind_eq_bind, Option.bind_some]
  rw [hinv, hloop]
  dsimp only
  have hsub : ∀ (w0 w1 w2 : ℝ) (v : Fin 3 → Fin 3 → ℝ) (v' : Fin 3 → Fin 3 → ℝ),
      0 + R *ᵥ (w0 • v' 0 + w1 • v' 1 + w2 • v' 2) - (0 + R *ᵥ (w0 • v 0 + w1 • v 1 + w2 • v 2)) =
        R *ᵥ (w0 • (v' 0 - v 0) + w1 • (v' 1 - v 1) + w2 • (v' 2 - v 2)) := by
    intro w0 w1 w2 v v'
    rw [zero_add, zero_add, ← Matrix.mulVec_sub]
    congr 1
    simp only [smul_sub]
    abel
  have e3 : ∀ v : Fin 3 → ℝ, ![v 0, v 1, v 2] = v := by intro v; funext i; fin_cases i <;> rfl
  have key := hsub (weight det 0) (weight det 1) (weight det 2) (fun k => u ⟨k.val, by omega⟩) (fun k => u ⟨k.val + 3, by omega⟩)
  have a1 : (![u 0 0, u 0 1, u 0 2] : Fin 3 → ℝ) = u 0 := e3 _
  have a2 : (![u 1 0, u 1 1, u 1 2] : Fin 3 → ℝ) = u 1 := e3 _
  have a3 : (![u 2 0, u 2 1, u 2 2] : Fin 3 → ℝ) = u 2 := e3 _
  have a4 : (![u 3 0, u 3 1, u 3 2] : Fin 3 → ℝ) = u 3 := e3 _
  have a5 : (![u 4 0, u 4 1, u 4 2] : Fin 3 → ℝ) = u 4 := e3 _
  have a6 : (![u 5 0, u 5 1, u 5 2] : Fin 3 → ℝ) = u 5 := e3 _
  have hfin : (0 + R *ᵥ (weight det 0 • ![u 3 0, u 3 1, u 3 2] + weight det 1 • ![u 4 0, u 4 1, u 4 2] + weight det 2 • ![u 5 0, u 5 1, u 5 2]) -
      (0 + R *ᵥ (weight det 0 • ![u 0 0, u 0 1, u 0 2] + weight det 1 • ![u 1 0, u 1 1, u 1 2] + weight det 2 • ![u 2 0, u 2 1, u 2 2]))) =
      R *ᵥ (weight det 0 • jump u 0 + weight det 1 • jump u 1 + weight det 2 • jump u 2) := by
    rw [a1, a2, a3, a4, a5, a6]; exact key
  show some (Rᵀ *ᵥ (0 + R *ᵥ (weight det 0 • ![u 3 0, u 3 1, u 3 2] + weight det 1 • ![u 4 0, u 4 1, u 4 2] + weight det 2 • ![u 5 0, u 5 1, u 5 2]) -
      (0 + R *ᵥ (weight det 0 • ![u 0 0, u 0 1, u 0 2] + weight det 1 • ![u 1 0, u 1 1, u 1 2] + weight det 2 • ![u 2 0, u 2 1, u 2 2]))),
    Rᵀ *ᵥ (springs ks kn *ᵥ (0 + R *ᵥ (weight det 0 • ![u 3 0, u 3 1, u 3 2] + weight det 1 • ![u 4 0, u 4 1, u 4 2] + weight det 2 • ![u 5 0, u 5 1, u 5 2]) -
      (0 + R *ᵥ (weight det 0 • ![u 0 0, u 0 1, u 0 2] + weight det 1 • ![u 1 0, u 1 1, u 1 2] + weight det 2 • ![u 2 0, u 2 1, u 2 2]))))) = _
  rw [hfin, Matrix.mulVec_mulVec, hR', Matrix.one_mulVec, Matrix.mulVec_mulVec, Matrix.mulVec_mulVec, hI]

/-- C66 is violated for every triangle whose area differs from 1: a uniform relative displacement `d` is reported as (nearly) the area
times `d`, see the bound. -/
theorem C66_partial {pos : Fin 6 → Fin 3 → ℝ} (h : cross (edge1 pos) (edge2 pos) ≠ 0) (ks kn : ℝ) (u : Fin 6 → Fin 3 → ℝ) :
    ∃ strains stress, inter3Update pos ks kn (2 * area pos) u = some (strains, stress) ∧
      stress = interface ks kn (normal pos) *ᵥ strains ∧
      ∀ i, |strains i - area pos * meanJump u i| ≤ area pos * (|jump u 0 i| + |jump u 1 i| + |jump u 2 i|) / 10 ^ 10 := by
  refine ⟨_, _, C66_update h ks kn _ u, rfl, ?_⟩
  intro i
  have hA : 0 ≤ area pos := div_nonneg (length_nonneg _) (by norm_num)
  have e : (weight (2 * area pos) 0 • jump u 0 + weight (2 * area pos) 1 • jump u 1 + weight (2 * area pos) 2 • jump u 2) i -
      area pos * meanJump u i = (weight (2 * area pos) 0 - area pos / 3) * jump u 0 i +
        (weight (2 * area pos) 1 - area pos / 3) * jump u 1 i + (weight (2 * area pos) 2 - area pos / 3) * jump u 2 i := by
    simp [meanJump]; ring
  rw [e]
  have b : ∀ k, |(weight (2 * area pos) k - area pos / 3) * jump u k i| ≤ area pos / 10 ^ 10 * |jump u k i| := by
    intro k; rw [abs_mul]; exact mul_le_mul_of_nonneg_right (weight_bound hA k) (abs_nonneg _)
  calc _ ≤ _ := abs_add_three _ _ _
    _ ≤ area pos / 10 ^ 10 * |jump u 0 i| + area pos / 10 ^ 10 * |jump u 1 i| + area pos / 10 ^ 10 * |jump u 2 i| := by
      have := b 0; have := b 1; have := b 2; linarith
    _ = _ := by ring

/-- Concretely: a triangle of area 1/2 reports a uniform opening of 1 as about one half. -/
theorem C66_violated : ∃ (pos : Fin 6 → Fin 3 → ℝ) (u : Fin 6 → Fin 3 → ℝ), cross (edge1 pos) (edge2 pos) ≠ 0 ∧
    ∀ ks kn, ∃ strains stress, inter3Update pos ks kn (2 * area pos) u = some (strains, stress) ∧
      (∀ k, jump u k = ![0, 0, 1]) ∧ strains 2 < 3 / 4 := by
  refine ⟨![![0, 0, 0], ![1, 0, 0], ![0, 1, 0], ![0, 0, 0], ![1, 0, 0], ![0, 1, 0]],
    ![![0, 0, 0], ![0, 0, 0], ![0, 0, 0], ![0, 0, 1], ![0, 0, 1], ![0, 0, 1]], ?_, ?_⟩
  · intro h; have := congrFun h 2; simp [cross, edge1, edge2] at this
  · intro ks kn
    set pos : Fin 6 → Fin 3 → ℝ := ![![0, 0, 0], ![1, 0, 0], ![0, 1, 0], ![0, 0, 0], ![1, 0, 0], ![0, 1, 0]] with hp
    have h : cross (edge1 pos) (edge2 pos) ≠ 0 := by
      intro h; have := congrFun h 2; simp [cross, edge1, edge2, hp] at this
    have hA : area pos = 1 / 2 := by
      unfold area length qlength
      simp [cross, edge1, edge2, hp]
    obtain ⟨st, ss, h1, -, h3⟩ := C66_partial h ks kn ![![0, 0, 0], ![0, 0, 0], ![0, 0, 0], ![0, 0, 1], ![0, 0, 1], ![0, 0, 1]]
    have hj : ∀ k, jump (![![0, 0, 0], ![0, 0, 0], ![0, 0, 0], ![0, 0, 1], ![0, 0, 1], ![0, 0, 1]] : Fin 6 → Fin 3 → ℝ) k = ![0, 0, 1] := by
      intro k; funext i; fin_cases k <;> fin_cases i <;> simp [jump]
    refine ⟨st, ss, h1, hj, ?_⟩
    have := h3 2
    rw [hA] at this
    unfold meanJump at this
    rw [hj, hj, hj] at this
    have := (abs_le.mp this).2
    simp at this
    norm_num at this
    linarith

end Nla3d.Bars
