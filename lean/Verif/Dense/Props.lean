import Verif.Dense.Products
import Verif.Dense.Det
import Verif.Dense.Eigen
import Mathlib.Algebra.Field.Rat
import Mathlib.Tactic.NormNum

/-!
# Dense matrices: C30, C31, C32, C33

`flat`, `pack` (`Verif/Dense/Spec.lean`) say what memory a matrix has: row by row, and the upper triangle row by row.
-/

namespace Nla3d.Dense

variable {K : Type} [Field K]

/-! ## C30: packed symmetric index -/

/-- C30. As long as the length of the array fits into 16 bits, `comp` numbers the pairs `i ≤ j < n`, taken row by row,
`0, 1, 2, ...` without gap or repetition. -/
theorem C30_bijection {n : Nat} (hn : n * (n + 1) / 2 < 65536) :
    (upperPairs n).map (fun p => comp n p.1 p.2) = List.range (symLength n) := by
  rw [upper_map_comp (by omega), symLength, Nat.mod_eq_of_lt hn]

/-- C30. `comp` is symmetric, and reads the entry of the symmetric matrix the array stands for. -/
theorem C30_comp {n : Nat} (hn : n * (n + 1) / 2 < 65536) {D : Matrix (Fin n) (Fin n) K} (hD : D.IsSymm) (i j : Fin n) :
    comp n i j = comp n j i ∧ Res.read (pack D) (comp n i j) = .ok (D i j) := by
  refine ⟨comp_comm n i j, ?_⟩
  rcases le_total i.val j.val with h | h
  · rw [comp_eq (by omega) h j.2, pack_read D h j.2, ext_fin]
  · rw [comp_comm, comp_eq (by omega) h i.2, pack_read D h i.2, ext_fin, hD.apply]

/-- C30. `toMat()` is the full matrix. -/
theorem C30_toMat {n : Nat} {D : Matrix (Fin n) (Fin n) K} (hD : D.IsSymm) : toMat n (pack D) = .ok (flat D) := toMat_eq hD

/-- The bound is sharp: for `n = 362`, the first size it excludes, two different entries share a place. -/
theorem C30_wraps : comp 362 361 361 = comp 362 0 166 := by decide

/-- The pairs meant in `C30_bijection`. -/
example : upperPairs 3 = [(0, 0), (0, 1), (0, 2), (1, 1), (1, 2), (2, 2)] := by decide
example : 24 * (24 + 1) / 2 < 65536 ∧ 361 * (361 + 1) / 2 < 65536 := by decide
example : pack !![(1 : ℚ), 2; 2, 3] = [1, 2, 3] := by simp [pack, upperPairs, ext, List.range_succ, List.range']
example : !![(1 : ℚ), 2; 2, 3].IsSymm := by ext i j; fin_cases i <;> fin_cases j <;> rfl

/-! ## C31: products -/

/-- C31. `matBTDBprod` adds `c * B^T * D * B`, where `D` is the full symmetric matrix. -/
theorem C31_BTDB {m n : Nat} (B : Matrix (Fin m) (Fin n) K) {D : Matrix (Fin m) (Fin m) K} (hD : D.IsSymm) (c : K)
    (R : Matrix (Fin n) (Fin n) K) :
    matBTDBprod m n (flat B) (pack D) c (pack R) = .ok (pack (R + c • (B.transpose * D * B))) := matBTDBprod_eq B hD c R

/-- C31. `matBTVprod` adds `c * B^T * v`. -/
theorem C31_BTV {m n : Nat} (B : Matrix (Fin m) (Fin n) K) (v : Fin m → K) (c : K) (r : Fin n → K) :
    matBTVprod m n (flat B) (List.ofFn v) c (List.ofFn r) = .ok (List.ofFn (r + c • B.transpose.mulVec v)) :=
  matBTVprod_eq B v c r

/-- C31. `matBVprod` adds `c * B * v`, for general and for packed symmetric `B`. -/
theorem C31_BV {m n : Nat} (B : Matrix (Fin m) (Fin n) K) (v : Fin n → K) (c : K) (r : Fin m → K) :
    matBVprod m n (flat B) (List.ofFn v) c (List.ofFn r) = .ok (List.ofFn (r + c • B.mulVec v)) := matBVprod_eq B v c r

theorem C31_BVsym {n : Nat} {B : Matrix (Fin n) (Fin n) K} (hB : B.IsSymm) (v : Fin n → K) (c : K) (r : Fin n → K) :
    matBVprodSym n (pack B) (List.ofFn v) c (List.ofFn r) = .ok (List.ofFn (r + c • B.mulVec v)) :=
  matBVprodSym_eq hB v c r

/-- C31. `matABprod` adds `c * A * B`, `matATBprod` adds `c * A^T * B`. -/
theorem C31_AB {m n p : Nat} (A : Matrix (Fin m) (Fin n) K) (B : Matrix (Fin n) (Fin p) K) (c : K)
    (R : Matrix (Fin m) (Fin p) K) :
    matABprod m n p (flat A) (flat B) c (flat R) = .ok (flat (R + c • (A * B))) := matABprod_eq A B c R

theorem C31_ATB {m n p : Nat} (A : Matrix (Fin m) (Fin n) K) (B : Matrix (Fin m) (Fin p) K) (c : K)
    (R : Matrix (Fin n) (Fin p) K) :
    matATBprod m n p (flat A) (flat B) c (flat R) = .ok (flat (R + c • (A.transpose * B))) := matATBprod_eq A B c R

/-- C31. The operators `*` and `transpose()`. -/
theorem C31_mul {m n p : Nat} (A : Matrix (Fin m) (Fin n) K) (B : Matrix (Fin n) (Fin p) K) :
    mulMat m n p (flat A) (flat B) = .ok (flat (A * B)) := mulMat_eq A B

theorem C31_mulVec {m n : Nat} (A : Matrix (Fin m) (Fin n) K) (v : Fin n → K) :
    mulVec m n (flat A) (List.ofFn v) = .ok (List.ofFn (A.mulVec v)) := mulVec_eq A v

theorem C31_transpose {m n : Nat} (A : Matrix (Fin m) (Fin n) K) : transpose m n (flat A) = .ok (flat A.transpose) :=
  transpose_eq A

/-- C31. `+=` of packed matrices. -/
theorem C31_symAdd {n : Nat} (hn : n * (n + 1) / 2 < 65536) (A B : Matrix (Fin n) (Fin n) K) :
    symAdd n (pack A) (pack B) = .ok (pack (A + B)) := by
  obtain ⟨f, hf, hfe⟩ := pack_arr A
  obtain ⟨g, hg, hge⟩ := pack_arr B
  have hl : symLength n = off n n := by rw [symLength, Nat.mod_eq_of_lt hn, off_total]
  unfold symAdd
  rw [hl]
  obtain ⟨A', h1, h2⟩ := Res.foldlM'_range (fun a i => do
    let x ← Res.read a i
    let y ← Res.read (pack B) i
    Res.write a i (x + y)) (fun i a => IsArr (off n n) a (fun q => if q < i then f q + g q else f q)) (off n n) (pack A)
    (hf.congr (by simp)) (by
      intro i a hi ha
      rw [ha.read hi, Res.ok_bind, hg.read hi, Res.ok_bind, if_neg (by omega)]
      obtain ⟨a', h1, h2⟩ := ha.write hi (f i + g i)
      refine ⟨a', h1, h2.congr ?_⟩
      intro q _
      by_cases e : q = i
      · subst e; simp
      · rw [if_neg e]
        by_cases e' : q < i
        · rw [if_pos e', if_pos (by omega)]
        · rw [if_neg e', if_neg (by omega)])
  rw [h1]
  congr 1
  apply eq_pack h2
  intro i j hij hj
  rw [if_pos (upos_lt hij hj), hfe i j hij hj, hge i j hij hj, ext_add]

/-- What the memory looks like. -/
example : flat !![(1 : ℚ), 2; 3, 4; 5, 6] = [1, 2, 3, 4, 5, 6] := by
  simp [flat, rectPairs, ext, List.range_succ]

/-- A strain-displacement product: `B` is 2 × 1. -/
example : matBTDBprod 2 1 [1, 3] [(1 : ℚ), 2, 5] 2 [7] = .ok [123] := by
  have h := C31_BTDB !![(1 : ℚ); 3] (D := !![1, 2; 2, 5]) (by ext i j; fin_cases i <;> fin_cases j <;> rfl) 2 !![7]
  have e : (!![(7 : ℚ)] + (2 : ℚ) • (Matrix.transpose !![(1 : ℚ); 3] * !![(1 : ℚ), 2; 2, 5] * !![(1 : ℚ); 3])) = !![123] := by
    ext i j
    fin_cases i
    fin_cases j
    simp [Matrix.mul_apply, Fin.sum_univ_succ]
    norm_num
  rw [e] at h
  simpa [flat, pack, rectPairs, upperPairs, ext, List.range_succ, List.range'] using h

/-! ## C32: determinant and inverse -/

/-- C32. `det()` is the determinant, for every size. -/
theorem C32_det {n : Nat} (a : Matrix (Fin (n + 1)) (Fin (n + 1)) K) : det (n + 1) a = .ok a.det := det_eq n a

/-- C32. `inv(det())` is the two-sided inverse of every regular matrix, for every size. -/
theorem C32_inv [DecidableEq K] {n : Nat} (a : Matrix (Fin (n + 1)) (Fin (n + 1)) K) (h : a.det ≠ 0) :
    ∃ d b, det (n + 1) a = .ok d ∧ inv (n + 1) a d = .ok b ∧ a * Matrix.of b = 1 ∧ Matrix.of b * a = 1 := by
  obtain ⟨b, h1, h2⟩ := inv_eq n a a.det h
  refine ⟨a.det, b, det_eq n a, h1, ?_, ?_⟩
  · rw [h2, Matrix.mul_smul, Matrix.mul_adjugate, smul_smul, inv_mul_cancel₀ h, one_smul]
  · rw [h2, Matrix.smul_mul, Matrix.adjugate_mul, smul_smul, inv_mul_cancel₀ h, one_smul]

/-- A regular matrix of a size without closed form. -/
example : (Matrix.diagonal ![(1 : ℚ), 2, 3, 4, 5]).det ≠ 0 := by
  rw [Matrix.det_diagonal]; simp [Fin.prod_univ_succ]

/-! ## C33: principal values -/

omit [Field K] in
/-- The characteristic polynomial of a symmetric matrix. -/
theorem charpoly3 {M : Matrix (Fin 3) (Fin 3) ℝ} (hM : M.IsSymm) (t : ℝ) :
    (t • (1 : Matrix (Fin 3) (Fin 3) ℝ) - M).det =
      t ^ 3 + (-(M 0 0 + M 1 1 + M 2 2)) * t ^ 2 +
      (M 0 0 * M 1 1 + M 1 1 * M 2 2 + M 0 0 * M 2 2 - M 0 1 * M 0 1 - M 0 2 * M 0 2 - M 1 2 * M 1 2) * t +
      -(M 0 0 * M 1 1 * M 2 2 + 2 * M 0 1 * M 1 2 * M 0 2 - M 0 0 * M 1 2 * M 1 2 - M 1 1 * M 0 2 * M 0 2
        - M 2 2 * M 0 1 * M 0 1) := by
  rw [Matrix.det_fin_three]
  have h1 : M 1 0 = M 0 1 := hM.apply 0 1
  have h2 : M 2 0 = M 0 2 := hM.apply 0 2
  have h3 : M 2 1 = M 1 2 := hM.apply 1 2
  simp [h1, h2, h3]
  ring

omit [Field K] in
theorem exists_roots {M : Matrix (Fin 3) (Fin 3) ℝ} (hM : M.IsSymm) :
    ∃ x y z : ℝ, ∀ t : ℝ, (t • (1 : Matrix (Fin 3) (Fin 3) ℝ) - M).det = (t - x) * (t - y) * (t - z) := by
  have hH : M.IsHermitian := by
    rw [Matrix.IsHermitian, Matrix.conjTranspose_eq_transpose_of_trivial]; exact hM
  refine ⟨hH.eigenvalues 0, hH.eigenvalues 1, hH.eigenvalues 2, fun t => ?_⟩
  have h := congrArg (Polynomial.eval t) hH.charpoly_eq
  rw [Matrix.eval_charpoly, Polynomial.eval_prod, Fin.prod_univ_three] at h
  simp at h
  rw [← h]
  congr 1
  ext i j
  simp [Matrix.smul_apply, Matrix.one_apply, Matrix.diagonal_apply]

omit [Field K] in
/-- C33, first part: for a symmetric matrix that is not a multiple of the identity, `eigenvalues()` returns the three
eigenvalues (roots of the characteristic polynomial, with multiplicity) in non-increasing order. The full property also
asks this for multiples of the identity, see `C33_violated`. -/
theorem C33_partial {M : Matrix (Fin 3) (Fin 3) ℝ} (hM : M.IsSymm) (hne : ∀ s : ℝ, M ≠ s • 1) :
    ∃ s1 s2 s3, eigenvalues M = some (s1, s2, s3) ∧ s2 ≤ s1 ∧ s3 ≤ s2 ∧
      ∀ t : ℝ, (t • (1 : Matrix (Fin 3) (Fin 3) ℝ) - M).det = (t - s1) * (t - s2) * (t - s3) := by
  obtain ⟨x, y, z, h⟩ := exists_roots hM
  have h1 : M 1 0 = M 0 1 := hM.apply 0 1
  have h2 : M 2 0 = M 0 2 := hM.apply 0 2
  have h3 : M 2 1 = M 1 2 := hM.apply 1 2
  have hc := fun t => (charpoly3 hM t).symm.trans (h t)
  obtain ⟨s1, s2, s3, e, g1, g2, g3⟩ := vieta_roots hc (by
    rintro ⟨rfl, rfl⟩
    apply hne x
    have t0 := hc 0
    have t1 := hc 1
    have t2 := hc (-1)
    have tr : M 0 0 + M 1 1 + M 2 2 = 3 * x := by ring_nf at t0 t1 t2 ⊢; linarith
    have i2 : M 0 0 * M 1 1 + M 1 1 * M 2 2 + M 0 0 * M 2 2 - M 0 1 * M 0 1 - M 0 2 * M 0 2 - M 1 2 * M 1 2 = 3 * x ^ 2 := by
      ring_nf at t0 t1 t2 ⊢; linarith
    have key : (M 0 0 - x) ^ 2 + (M 1 1 - x) ^ 2 + (M 2 2 - x) ^ 2 + 2 * M 0 1 ^ 2 + 2 * M 0 2 ^ 2 + 2 * M 1 2 ^ 2 = 0 := by
      linear_combination (M 0 0 + M 1 1 + M 2 2 + x) * tr - 2 * i2
    have a1 := sq_nonneg (M 0 0 - x)
    have a2 := sq_nonneg (M 1 1 - x)
    have a3 := sq_nonneg (M 2 2 - x)
    have a4 := sq_nonneg (M 0 1)
    have a5 := sq_nonneg (M 0 2)
    have a6 := sq_nonneg (M 1 2)
    have b1 : (M 0 0 - x) ^ 2 = 0 := by linarith
    have b2 : (M 1 1 - x) ^ 2 = 0 := by linarith
    have b3 : (M 2 2 - x) ^ 2 = 0 := by linarith
    have b4 : M 0 1 ^ 2 = 0 := by linarith
    have b5 : M 0 2 ^ 2 = 0 := by linarith
    have b6 : M 1 2 ^ 2 = 0 := by linarith
    rw [sq_eq_zero_iff] at b1 b2 b3 b4 b5 b6
    rw [sub_eq_zero] at b1 b2 b3
    ext i j
    fin_cases i <;> fin_cases j <;> simp [b1, b2, b3, b4, b5, b6, h1, h2, h3])
  exact ⟨s1, s2, s3, e, g1, g2, fun t => by rw [g3, h]⟩

omit [Field K] in
theorem vieta_none {a b : ℝ} (c : ℝ) (h : b - a * a / 3 = 0) : vieta a b c = none := by
  have h1 : sqrtC (-4 * (b - a * a / 3) / 3) = some 0 := by rw [h]; simp [sqrtC]
  unfold vieta
  simp only [h1]
  simp [divC]

omit [Field K] in
/-- C33, the violation: for every multiple of the identity `eigenvalues()` divides zero by zero. -/
theorem C33_violated (s : ℝ) : eigenvalues (s • (1 : Matrix (Fin 3) (Fin 3) ℝ)) = none := by
  have e01 : (s • (1 : Matrix (Fin 3) (Fin 3) ℝ)) 0 1 = 0 := by simp
  have e02 : (s • (1 : Matrix (Fin 3) (Fin 3) ℝ)) 0 2 = 0 := by simp
  have e12 : (s • (1 : Matrix (Fin 3) (Fin 3) ℝ)) 1 2 = 0 := by simp
  have e : ∀ i, (s • (1 : Matrix (Fin 3) (Fin 3) ℝ)) i i = s := by simp
  apply vieta_none
  rw [e01, e02, e12, e, e, e]
  ring

/-- A non-diagonal stress tensor with shear. -/
example : !![(1 : ℝ), 2, 0; 2, 5, 0; 0, 0, 3].IsSymm ∧ ∀ s : ℝ, !![(1 : ℝ), 2, 0; 2, 5, 0; 0, 0, 3] ≠ s • 1 := by
  refine ⟨by ext i j; fin_cases i <;> fin_cases j <;> rfl, fun s h => ?_⟩
  have := congrFun (congrFun h 0) 1
  simp at this

end Nla3d.Dense
