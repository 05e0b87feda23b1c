import Verif.Thermal.Lemmas
import Mathlib.Analysis.Matrix.PosDef
import Mathlib.Data.Real.StarOrdered
import Mathlib.LinearAlgebra.Matrix.PosDef

/-!
# C36, C37: thermal quadrilateral and convection line

The element matrices are the packed arrays handed over to the assembly; `Dense.pack K` is the packed upper triangle of `K`, so
for symmetric `K` the array determines `K`.
-/

namespace Nla3d.Thermal

open Iso Dense
open Finset hiding ext

variable {α : Type} {n : Nat}

/-! ## Sums over integration points -/

theorem sum_induct {A : Type} [AddCommMonoid A] (P : A → Prop) (h0 : P 0) (hadd : ∀ a b, P a → P b → P (a + b)) (f : α → A)
    (qs : List α) (h : ∀ q ∈ qs, P (f q)) : P (qs.map f).sum := by
  induction qs with
  | nil => exact h0
  | cons q qs ih =>
    rw [List.map_cons, List.sum_cons]
    exact hadd _ _ (h q (by simp)) (ih fun q hq => h q (by simp [hq]))

/-- An additive map commutes with the sum over the points. -/
theorem sum_hom {A B : Type} [AddCommMonoid A] [AddCommMonoid B] (T : A → B) (h0 : T 0 = 0) (hadd : ∀ a b, T (a + b) = T a + T b)
    (f : α → A) (qs : List α) : T (qs.map f).sum = (qs.map (fun q => T (f q))).sum := by
  induction qs with
  | nil => exact h0
  | cons q qs ih => rw [List.map_cons, List.sum_cons, hadd, ih, List.map_cons, List.sum_cons]

theorem psd_sum (f : α → Matrix (Fin n) (Fin n) ℝ) (qs : List α) (h : ∀ q ∈ qs, (f q).PosSemidef) :
    (qs.map f).sum.PosSemidef :=
  sum_induct _ Matrix.PosSemidef.zero (fun _ _ => Matrix.PosSemidef.add) f qs h

theorem isSymm_of_psd {M : Matrix (Fin n) (Fin n) ℝ} (h : M.PosSemidef) : M.IsSymm := by
  have := h.isHermitian
  rw [Matrix.IsHermitian, Matrix.conjTranspose_eq_transpose_of_trivial] at this
  exact this

theorem psd_transpose_mul {m : Nat} (B : Matrix (Fin m) (Fin n) ℝ) {c : ℝ} (hc : 0 ≤ c) :
    (c • (B.transpose * B)).PosSemidef := by
  have := Matrix.posSemidef_conjTranspose_mul_self B
  rw [Matrix.conjTranspose_eq_transpose_of_trivial] at this
  exact this.smul hc

theorem table_pos (i : Fin 3) : ∀ q ∈ quad.table i, 0 < q.w := by
  intro q hq
  fin_cases i <;> simp [quad, quadO1, quadO2, quadO3] at hq
  · subst hq; norm_num
  · rcases hq with rfl | rfl | rfl | rfl <;> norm_num
  · rcases hq with rfl | rfl | rfl | rfl | rfl | rfl | rfl | rfl | rfl <;> norm_num

/-! ## C36 -/

theorem condPt_eq (pos : Fin 4 → Fin 2 → ℝ) (k : ℝ) (q : QuadPt 2) :
    condPt pos k q = (wdet pos q * k) • ((B pos q.xi).transpose * B pos q.xi) := by
  unfold condPt
  rw [Matrix.mul_smul, Matrix.mul_one, Matrix.smul_mul, smul_smul]

theorem B_mulVec_affine {pos : Fin 4 → Fin 2 → ℝ} {x : Fin 2 → ℝ} (h : (jac quad pos x).det ≠ 0) (c : ℝ) (b : Fin 2 → ℝ) :
    (B pos x).mulVec (fun a => c + ∑ j, b j * pos a j) = b := by
  funext i
  exact (exact_grads C34_quad pos x h).2 c b i

/-- C36, conductivity: for every geometry with positive Jacobian at the integration points, every order, every `k ≥ 0` and every
volume source. The matrix is symmetric positive semidefinite, annihilates uniform temperature, its energy in a linear field with
gradient `b` is `k |b|^2` times the volume; the load sums to the source times the volume. -/
theorem C36_conductivity (o : Nat) (pos : Fin 4 → Fin 2 → ℝ)
    (h : ∀ q ∈ quad.table (schemeIndex o), 0 < (jac quad pos q.xi).det) {k : ℝ} (hk : 0 ≤ k) (flux : ℝ) :
    ∃ g V K F, makeJacob quad o pos = .ok g ∧ volume quad g = .ok V ∧ quadK g k flux = .ok (pack K, F) ∧
      K.IsSymm ∧ K.PosSemidef ∧ (∀ T : ℝ, K.mulVec (fun _ => T) = 0) ∧
      (∀ (c : ℝ) (b : Fin 2 → ℝ) (T : Fin 4 → ℝ), (∀ a, T a = c + ∑ j, b j * pos a j) →
        dotProduct T (K.mulVec T) = k * dotProduct b b * V) ∧
      ∑ a, F a = flux * V := by
  obtain ⟨g, h1, h2, h3⟩ := makeJacob_good (S := quad) (o := o) (pos := pos) (fun q hq => (h q hq).ne')
  have hpsd : ((quad.table g.scheme).map (condPt pos k)).sum.PosSemidef := by
    apply psd_sum
    intro q hq
    rw [condPt_eq]
    apply psd_transpose_mul
    rw [h2] at hq
    exact mul_nonneg (mul_nonneg (table_pos _ q hq).le (h q hq).le) hk
  refine ⟨g, _, _, _, h1, h3.volume, quadK_eq h3 k flux, isSymm_of_psd hpsd, hpsd, ?_, ?_, ?_⟩
  · intro T
    apply sum_induct (fun K : Matrix (Fin 4) (Fin 4) ℝ => K.mulVec (fun _ => T) = 0)
    · exact Matrix.zero_mulVec _
    · intro a b ha hb; rw [Matrix.add_mulVec, ha, hb, add_zero]
    · intro q hq
      rw [h2] at hq
      have := B_mulVec_affine (h q hq).ne' T 0
      simp only [Pi.zero_apply, zero_mul, Finset.sum_const_zero, add_zero] at this
      rw [condPt_eq, Matrix.smul_mulVec, ← Matrix.mulVec_mulVec, this, Matrix.mulVec_zero, smul_zero]
  · intro c b T hT
    have hT' : T = fun a => c + ∑ j, b j * pos a j := funext hT
    subst hT'
    rw [sum_hom (fun K : Matrix (Fin 4) (Fin 4) ℝ => dotProduct (fun a => c + ∑ j, b j * pos a j)
      (K.mulVec (fun a => c + ∑ j, b j * pos a j))) (by simp) (by intro a b; rw [Matrix.add_mulVec, dotProduct_add])]
    rw [← List.sum_map_mul_left]
    congr 1
    apply List.map_congr_left
    intro q hq
    rw [h2] at hq
    have := B_mulVec_affine (h q hq).ne' c b
    rw [condPt_eq, Matrix.smul_mulVec, dotProduct_smul, ← Matrix.mulVec_mulVec, this, Matrix.dotProduct_mulVec,
      Matrix.vecMul_transpose, this, smul_eq_mul, wdet]
    ring
  · rw [sum_hom (fun F : Fin 4 → ℝ => ∑ a, F a) (by simp) (by intro a b; simp [Finset.sum_add_distrib])]
    rw [← List.sum_map_mul_left]
    congr 1
    apply List.map_congr_left
    intro q _
    simp only [loadPt]
    rw [← Finset.sum_mul, C34_quad.sum_one, one_mul, wdet]

/-- C36, capacity: symmetric positive semidefinite, the entries sum to `rho * c * volume`. -/
theorem C36_capacity (o : Nat) (pos : Fin 4 → Fin 2 → ℝ)
    (h : ∀ q ∈ quad.table (schemeIndex o), 0 < (jac quad pos q.xi).det) {rho c : ℝ} (hr : 0 ≤ rho) (hc : 0 ≤ c) :
    ∃ (g : _) (V : ℝ) (C : Matrix (Fin 4) (Fin 4) ℝ), makeJacob quad o pos = .ok g ∧ volume quad g = .ok V ∧ quadC g rho c = .ok (pack C) ∧
      C.IsSymm ∧ C.PosSemidef ∧ ∑ a, ∑ b, C a b = rho * c * V := by
  obtain ⟨g, h1, h2, h3⟩ := makeJacob_good (S := quad) (o := o) (pos := pos) (fun q hq => (h q hq).ne')
  have hpsd : ((quad.table g.scheme).map (capPt pos rho c)).sum.PosSemidef := by
    apply psd_sum
    intro q hq
    rw [h2] at hq
    have e : capPt pos rho c q = (rho * c * wdet pos q) •
        ((Matrix.of fun (_ : Fin 1) a => quad.formFunc q.xi a).transpose * (Matrix.of fun (_ : Fin 1) a => quad.formFunc q.xi a)) := by
      ext a b
      simp [capPt, Matrix.mul_apply]
      ring
    rw [e]
    apply psd_transpose_mul
    exact mul_nonneg (mul_nonneg hr hc) (mul_nonneg (table_pos _ q hq).le (h q hq).le)
  refine ⟨g, _, _, h1, h3.volume, quadC_eq h3 rho c, isSymm_of_psd hpsd, hpsd, ?_⟩
  rw [sum_hom (fun C : Matrix (Fin 4) (Fin 4) ℝ => ∑ a, ∑ b, C a b) (by simp)
    (by intro a b; simp [Finset.sum_add_distrib])]
  rw [← List.sum_map_mul_left]
  congr 1
  apply List.map_congr_left
  intro q _
  have e : ∀ a b, capPt pos rho c q a b = (quad.formFunc q.xi a * (rho * c * wdet pos q)) * quad.formFunc q.xi b := by
    intro a b; simp only [capPt, Matrix.of_apply]; ring
  simp only [e]
  simp only [← Finset.mul_sum, C34_quad.sum_one, mul_one, ← Finset.sum_mul]
  rw [one_mul, wdet]

/-- A trapezoid meets the hypothesis. -/
example : ∀ q ∈ quad.table (schemeIndex 2), 0 < (jac quad ![![0, 0], ![4, 0], ![3, 2], ![1, 2]] q.xi).det := by
  intro q hq
  have e : (jac quad ![![0, 0], ![4, 0], ![3, 2], ![1, 2]] q.xi).det = 0.5 * (3 - q.xi 1) := by
    rw [Matrix.det_fin_two]
    simp [jac, quad, Fin.sum_univ_succ]
    ring
  rw [e]
  have : schemeIndex 2 = 1 := rfl
  rw [this] at hq
  simp [quad, quadO2] at hq
  rcases hq with rfl | rfl | rfl | rfl <;> norm_num

/-! ## C37 -/

/-- The element after `pre()`: convection with the effective ambient temperatures, for every geometry with distinct nodes. The
load is that of the flux plus film matrix times effective ambient temperatures. -/
theorem surface_balance (o : Nat) (pos : Fin 2 → Fin 3 → ℝ) (hp : pos 0 ≠ pos 1) (s : Surface) :
    ∃ K F, surfaceK (lineJacob o pos) s.pre = .ok (pack K, List.ofFn (F + K.mulVec s.pre.etemp)) ∧ K.IsSymm ∧
      (s.flux = 0 → F = 0) := by
  have hd : 0 < (lineJacob o pos).det := by
    have := length_pos hp
    show 0 < length (fun i => pos 1 i - pos 0 i) * 0.5
    positivity
  refine ⟨_, _, surfaceK_eq hd s.pre, ?_, ?_⟩
  · apply sum_induct (fun K : Matrix (Fin 2) (Fin 2) ℝ => K.IsSymm)
    · exact Matrix.isSymm_zero
    · intro a b ha hb; exact ha.add hb
    · intro q _; exact convPt_symm _ _ q
  · intro hf
    have hf' : s.pre.flux = 0 := by unfold Surface.pre; split <;> exact hf
    apply sum_induct (fun F : Fin 2 → ℝ => F = 0) rfl (by rintro a b rfl rfl; simp)
    intro q _
    funext a; simp [fluxPt, hf']

/-- C37, the full statement: without flux, nodal temperatures equal to the prescribed ambient temperatures give zero net load. -/
def Balanced (s : Surface) : Prop :=
  ∀ (o : Nat) (pos : Fin 2 → Fin 3 → ℝ), pos 0 ≠ pos 1 → ∃ K F, surfaceK (lineJacob o pos) s.pre = .ok (pack K, List.ofFn F) ∧
    K.IsSymm ∧ K.mulVec s.etemp = F

/-- C37 holds if the second ambient temperature is not zero, or both are zero. -/
theorem C37_partial (s : Surface) (hf : s.flux = 0) (h : s.etemp 1 ≠ 0 ∨ s.etemp 0 = 0) : Balanced s := by
  intro o pos hp
  obtain ⟨K, F, h1, h2, h3⟩ := surface_balance o pos hp s
  refine ⟨K, _, h1, h2, ?_⟩
  rw [h3 hf, zero_add]
  congr 1
  unfold Surface.pre
  split
  · next h0 =>
    rcases h with h | h
    · exact absurd h0 h
    · funext i; fin_cases i <;> simp [h0, h]
  · rfl

theorem pack_inj2 {A B : Matrix (Fin 2) (Fin 2) ℝ} (hA : A.IsSymm) (hB : B.IsSymm) (h : pack A = pack B) : A = B := by
  simp [pack, upperPairs, List.range_succ, List.range', ext] at h
  have a1 := hA.apply 0 1
  have b1 := hB.apply 0 1
  ext i j
  fin_cases i <;> fin_cases j
  · exact h.1
  · exact h.2.1
  · show A 1 0 = B 1 0
    rw [a1, b1]; exact h.2.1
  · exact h.2.2

/-- C37 fails for every element with film coefficient `htc ≠ 0` and ambient temperature zero prescribed at the second node only:
the value at the first node is used at both. -/
theorem C37_violated (s : Surface) (hf : s.flux = 0) (hh : s.htc ≠ 0) (h0 : s.etemp 0 ≠ 0) (h1 : s.etemp 1 = 0) :
    ¬ Balanced s := by
  intro hb
  have hp : (![![0, 0, 0], ![2, 0, 0]] : Fin 2 → Fin 3 → ℝ) 0 ≠ (![![0, 0, 0], ![2, 0, 0]] : Fin 2 → Fin 3 → ℝ) 1 := by
    intro h; have := congrFun h 0; simp at this
  obtain ⟨K, F, e1, e2, e3⟩ := hb 1 ![![0, 0, 0], ![2, 0, 0]] hp
  have hdet : (lineJacob 1 ![![0, 0, 0], ![2, 0, 0]]).det = 1 := by
    show length _ * 0.5 = 1
    unfold length
    rw [show ((![![0, 0, 0], ![2, 0, 0]] : Fin 2 → Fin 3 → ℝ) 1 0 - (![![0, 0, 0], ![2, 0, 0]] : Fin 2 → Fin 3 → ℝ) 0 0) *
      ((![![0, 0, 0], ![2, 0, 0]] : Fin 2 → Fin 3 → ℝ) 1 0 - (![![0, 0, 0], ![2, 0, 0]] : Fin 2 → Fin 3 → ℝ) 0 0) +
      ((![![0, 0, 0], ![2, 0, 0]] : Fin 2 → Fin 3 → ℝ) 1 1 - (![![0, 0, 0], ![2, 0, 0]] : Fin 2 → Fin 3 → ℝ) 0 1) *
      ((![![0, 0, 0], ![2, 0, 0]] : Fin 2 → Fin 3 → ℝ) 1 1 - (![![0, 0, 0], ![2, 0, 0]] : Fin 2 → Fin 3 → ℝ) 0 1) +
      ((![![0, 0, 0], ![2, 0, 0]] : Fin 2 → Fin 3 → ℝ) 1 2 - (![![0, 0, 0], ![2, 0, 0]] : Fin 2 → Fin 3 → ℝ) 0 2) *
      ((![![0, 0, 0], ![2, 0, 0]] : Fin 2 → Fin 3 → ℝ) 1 2 - (![![0, 0, 0], ![2, 0, 0]] : Fin 2 → Fin 3 → ℝ) 0 2) = 2 ^ 2 from by
        simp; norm_num, Real.sqrt_sq (by norm_num)]
    norm_num
  have hs : (lineJacob 1 ![![0, 0, 0], ![2, 0, 0]]).scheme = 0 := rfl
  rw [surfaceK_eq (by rw [hdet]; norm_num) s.pre] at e1
  injection e1 with e1
  have ek := (Prod.mk.inj e1).1
  have ef := (Prod.mk.inj e1).2
  rw [hdet, hs] at ek ef
  have hpre : s.pre.htc = s.htc ∧ s.pre.flux = 0 ∧ s.pre.etemp = ![s.etemp 0, s.etemp 0] := by
    unfold Surface.pre; rw [if_pos h1]; exact ⟨rfl, hf, rfl⟩
  rw [hpre.1] at ek ef
  rw [hpre.2.1, hpre.2.2] at ef
  have hsym : ((line.table 0).map (convPt s.htc 1)).sum.IsSymm :=
    sum_induct (fun K : Matrix (Fin 2) (Fin 2) ℝ => K.IsSymm) Matrix.isSymm_zero (fun a b ha hb => ha.add hb) _ _
      (fun q _ => convPt_symm _ _ q)
  have hK := pack_inj2 hsym e2 ek
  have hF := List.ofFn_injective ef
  rw [← hK, ← hF] at e3
  have e00 : ((line.table 0).map (convPt s.htc 1)).sum 0 0 = s.htc / 2 := by
    simp [line, lineO1, convPt]; ring
  have e01 : ((line.table 0).map (convPt s.htc 1)).sum 0 1 = s.htc / 2 := by
    simp [line, lineO1, convPt]; ring
  have eflux : ((line.table 0).map (fluxPt 0 1)).sum 0 = 0 := by simp [line, lineO1, fluxPt]
  have := congrFun e3 0
  simp only [Pi.add_apply, Matrix.mulVec, dotProduct, Fin.sum_univ_two, e00, e01, eflux, h1] at this
  simp at this
  rcases this with h | h
  · exact hh h
  · exact h0 h

/-- Elements meeting the hypotheses of `C37_partial` and of `C37_violated`. -/
example : Balanced { htc := 10, etemp := ![20, 30] } := C37_partial _ rfl (Or.inl (by norm_num))
example : ¬ Balanced { htc := 10, etemp := ![20, 0] } := C37_violated _ rfl (by norm_num) (by norm_num) (by norm_num)

end Nla3d.Thermal
