import Verif.Material.Loops
import Mathlib.Analysis.Matrix.PosDef
import Mathlib.LinearAlgebra.Matrix.PosDef
import Mathlib.LinearAlgebra.Matrix.Trace

/-! # Properties C45-C50: deformation measures, hyperelastic materials, named constants -/

namespace Nla3d.Material

open Nla3d.Dense (upperPairs comp)

abbrev Mat3 := Matrix (Fin 3) (Fin 3) ℝ

/-- The six stored components of a symmetric tensor. -/
def pack6 (M : Mat3) : Fin 6 → ℝ := ![M 0 0, M 0 1, M 0 2, M 1 1, M 1 2, M 2 2]

/-- The tensor six components stand for. -/
def unpack6 (v : Fin 6 → ℝ) : Mat3 := !![v 0, v 1, v 2; v 1, v 3, v 4; v 2, v 4, v 5]

theorem pack6_unpack6 (v : Fin 6 → ℝ) : pack6 (unpack6 v) = v := by
  funext k; fin_cases k <;> rfl

theorem unpack6_pack6 {M : Mat3} (h : M.IsSymm) : unpack6 (pack6 M) = M := by
  have h1 : M 1 0 = M 0 1 := h.apply 0 1
  have h2 : M 2 0 = M 0 2 := h.apply 0 2
  have h3 : M 2 1 = M 1 2 := h.apply 1 2
  ext i j; fin_cases i <;> fin_cases j <;> simp [unpack6, pack6, h1, h2, h3]

theorem det_pack6 {M : Mat3} (h : M.IsSymm) : detP (pack6 M) = M.det := by
  have h1 : M 1 0 = M 0 1 := h.apply 0 1
  have h2 : M 2 0 = M 0 2 := h.apply 0 2
  have h3 : M 2 1 = M 1 2 := h.apply 1 2
  rw [Matrix.det_fin_three]
  simp [detP, pack6, h1, h2, h3]
  ring

theorem symm_of_posDef {M : Mat3} (h : M.PosDef) : M.IsSymm := by
  have := h.1
  rwa [Matrix.IsHermitian, Matrix.conjTranspose_eq_transpose_of_trivial] at this

theorem detP_pos {M : Mat3} (h : M.PosDef) : 0 < detP (pack6 M) := by
  rw [det_pack6 (symm_of_posDef h)]; exact h.det_pos

/-! ## C45 -/

/-- C45. `J_C` is the root of the determinant. -/
theorem C45_J {M : Mat3} (h : M.PosDef) : 0 < JC (pack6 M) ∧ JC (pack6 M) ^ 2 = M.det := by
  refine ⟨JC_pos (detP_pos h), ?_⟩
  rw [pow_two, JC_sq (detP_pos h), det_pack6 (symm_of_posDef h)]

/-- C45. `invC_C` is the inverse. -/
theorem C45_inv {M : Mat3} (h : M.PosDef) :
    M * unpack6 (invCC (pack6 M) (JC (pack6 M))) = 1 ∧ unpack6 (invCC (pack6 M) (JC (pack6 M))) * M = 1 := by
  have hs := symm_of_posDef h
  have hd := detP_pos h
  have key : M * unpack6 (invCC (pack6 M) (JC (pack6 M))) = 1 := by
    have e : unpack6 (invCC (pack6 M) (JC (pack6 M))) = (detP (pack6 M))⁻¹ • unpack6 (adjP (pack6 M)) := by
      ext i j
      fin_cases i <;> fin_cases j <;> simp [unpack6, invCC_det hd] <;> ring
    have e2 : M * unpack6 (adjP (pack6 M)) = detP (pack6 M) • (1 : Mat3) := by
      have h1 : M 1 0 = M 0 1 := hs.apply 0 1
      have h2 : M 2 0 = M 0 2 := hs.apply 0 2
      have h3 : M 2 1 = M 1 2 := hs.apply 1 2
      ext i j
      fin_cases i <;> fin_cases j <;>
        simp [Matrix.mul_apply, Fin.sum_univ_three, unpack6, adjP, pack6, detP, h1, h2, h3] <;> ring
    rw [e, Matrix.mul_smul, e2, smul_smul, inv_mul_cancel₀ hd.ne', one_smul]
  exact ⟨key, mul_eq_one_comm.mp key⟩

/-- C45. `E_C` adds `(C - 1)/2`. -/
theorem C45_E (M : Mat3) (E : Fin 6 → ℝ) :
    EC (pack6 M) E = E + pack6 ((1 / 2 : ℝ) • (M - 1)) ∧ EC (pack6 M) 0 = pack6 ((1 / 2 : ℝ) • (M - 1)) := by
  have key : ∀ E, EC (pack6 M) E = E + pack6 ((1 / 2 : ℝ) • (M - 1)) := by
    intro E
    funext k
    fin_cases k <;> simp [EC, pack6] <;> ring
  exact ⟨key E, by rw [key, zero_add]⟩

/-- C45. `IC_C` gives the first two invariants and the volume ratio. -/
theorem C45_IC {M : Mat3} (h : M.PosDef) :
    ICC (pack6 M) = ![M.trace, (M.trace ^ 2 - (M * M).trace) / 2, √M.det] := by
  have hs := symm_of_posDef h
  have h1 : M 1 0 = M 0 1 := hs.apply 0 1
  have h2 : M 2 0 = M 0 2 := hs.apply 0 2
  have h3 : M 2 1 = M 1 2 := hs.apply 1 2
  funext k
  fin_cases k
  · simp [ICC, pack6, Matrix.trace, Fin.sum_univ_three]
  · simp [ICC, pack6, Matrix.trace, Fin.sum_univ_three, Matrix.mul_apply, h1, h2, h3]
    ring
  · show JC (pack6 M) = √M.det
    rw [JC_eq, det_pack6 hs]

/-- A tensor with shear that meets the hypotheses of C45, C47 and C48. -/
theorem posDef_example : (!![2, 1, 0; 1, 2, 0; 0, 0, 3] : Mat3).PosDef := by
  refine Matrix.PosDef.of_dotProduct_mulVec_pos ?_ ?_
  · rw [Matrix.IsHermitian, Matrix.conjTranspose_eq_transpose_of_trivial]
    ext i j; fin_cases i <;> fin_cases j <;> rfl
  · intro x hx
    have e : star x ⬝ᵥ (!![2, 1, 0; 1, 2, 0; 0, 0, 3] : Mat3).mulVec x =
        (x 0 + x 1) ^ 2 + x 0 ^ 2 + x 1 ^ 2 + 3 * x 2 ^ 2 := by
      simp [dotProduct, Matrix.mulVec, Fin.sum_univ_three]
      ring
    rw [e]
    by_contra hc
    apply hx
    have a := sq_nonneg (x 0 + x 1)
    have b := sq_nonneg (x 0)
    have c := sq_nonneg (x 1)
    have d := sq_nonneg (x 2)
    have b0 : x 0 ^ 2 = 0 := by linarith
    have c0 : x 1 ^ 2 = 0 := by linarith
    have d0 : x 2 ^ 2 = 0 := by linarith
    rw [sq_eq_zero_iff] at b0 c0 d0
    funext i; fin_cases i <;> simp [b0, c0, d0]

/-! ## C46 -/

/-- C46. The derivatives of the Neo-Hookean energy. -/
theorem C46_neoHookean (MC : Fin 2 → ℝ) : (neoHookean MC).Consistent := by
  refine ⟨fun x y z z' => ?_, fun x y z z' => ?_, fun x y z z' => ?_, fun x y z z' => ⟨rfl, rfl⟩⟩
  · refine (((hasFDerivAt_fst (𝕜 := ℝ) (p := ((x, y) : ℝ × ℝ))).sub_const 3).const_mul (1 / 2 * MC 0)).congr_fderiv ?_
    ext <;> simp [neoHookean]
  · refine (hasFDerivAt_const _ _).congr_fderiv ?_
    ext <;> simp [neoHookean]
  · refine (hasFDerivAt_const _ _).congr_fderiv ?_
    ext <;> simp [neoHookean]

/-- C46. The derivatives of the Mooney-Rivlin energy. -/
theorem C46_mooneyRivlin (MC : Fin 3 → ℝ) : (mooneyRivlin MC).Consistent := by
  refine ⟨fun x y z z' => ?_, fun x y z z' => ?_, fun x y z z' => ?_, fun x y z z' => ⟨rfl, rfl⟩⟩
  · refine ((((hasFDerivAt_fst (𝕜 := ℝ) (p := ((x, y) : ℝ × ℝ))).sub_const 3).const_mul (MC 0)).fun_add
      (((hasFDerivAt_snd (𝕜 := ℝ) (p := ((x, y) : ℝ × ℝ))).sub_const 3).const_mul (MC 1))).congr_fderiv ?_
    ext <;> simp [mooneyRivlin]
  · refine (hasFDerivAt_const _ _).congr_fderiv ?_
    ext <;> simp [mooneyRivlin]
  · refine (hasFDerivAt_const _ _).congr_fderiv ?_
    ext <;> simp [mooneyRivlin]

/-- C46. The derivatives of the Biderman energy. -/
theorem C46_biderman (MC : Fin 5 → ℝ) : (biderman MC).Consistent := by
  have h1 : ∀ x y : ℝ, HasFDerivAt (fun q : ℝ × ℝ => q.1 - 3) (ContinuousLinearMap.fst ℝ ℝ ℝ) (x, y) := fun x y =>
    (hasFDerivAt_fst (𝕜 := ℝ) (p := ((x, y) : ℝ × ℝ))).sub_const 3
  have h2 : ∀ x y : ℝ, HasFDerivAt (fun q : ℝ × ℝ => q.2 - 3) (ContinuousLinearMap.snd ℝ ℝ ℝ) (x, y) := fun x y =>
    (hasFDerivAt_snd (𝕜 := ℝ) (p := ((x, y) : ℝ × ℝ))).sub_const 3
  refine ⟨fun x y z z' => ?_, fun x y z z' => ?_, fun x y z z' => ?_, fun x y z z' => ⟨rfl, rfl⟩⟩
  · refine (((((h1 x y).const_mul (MC 0)).fun_add (((h1 x y).const_mul (MC 1)).fun_mul (h1 x y))).fun_add
      ((((h1 x y).const_mul (MC 2)).fun_mul (h1 x y)).fun_mul (h1 x y))).fun_add ((h2 x y).const_mul (MC 3))).congr_fderiv ?_
    ext <;> simp [biderman]
    ring
  · refine ((((h1 x y).const_mul (2 * MC 1)).const_add (MC 0)).fun_add
      (((h1 x y).const_mul (3 * MC 2)).fun_mul (h1 x y))).congr_fderiv ?_
    ext <;> simp [biderman]
    ring
  · refine (hasFDerivAt_const _ _).congr_fderiv ?_
    ext <;> simp [biderman]

/-- C46. In terms of partial derivatives. -/
theorem C46_partials {E : Energy} (hE : E.Consistent) (x y z : ℝ) :
    HasDerivAt (fun x => E.W x y z) (E.first x y z 0) x ∧ HasDerivAt (fun y => E.W x y z) (E.first x y z 1) y ∧
    HasDerivAt (fun x => E.first x y z 0) (E.second x y z 2) x ∧
    HasDerivAt (fun y => E.first x y z 0) (E.second x y z 3) y ∧
    HasDerivAt (fun x => E.first x y z 1) (E.second x y z 3) x ∧
    HasDerivAt (fun y => E.first x y z 1) (E.second x y z 4) y ∧
    E.second x y z 0 = E.first x y z 0 ∧ E.second x y z 1 = E.first x y z 1 := by
  have hx := hasDerivAt_id' x
  have hy := hasDerivAt_id' y
  refine ⟨(chain2 (hE.grad x y z z) hx (hasDerivAt_const x y)).congr_deriv (by ring),
    (chain2 (hE.grad x y z z) (hasDerivAt_const y x) hy).congr_deriv (by ring),
    (chain2 (hE.hess1 x y z z) hx (hasDerivAt_const x y)).congr_deriv (by ring),
    (chain2 (hE.hess1 x y z z) (hasDerivAt_const y x) hy).congr_deriv (by ring),
    (chain2 (hE.hess2 x y z z) hx (hasDerivAt_const x y)).congr_deriv (by ring),
    (chain2 (hE.hess2 x y z z) (hasDerivAt_const y x) hy).congr_deriv (by ring), (hE.same x y z z).1, (hE.same x y z z).2⟩

/-! ## C47 -/

/-- The list `defaultTensorComponents`. src/lib/solidmech.h:22 -/
def allComps : List (Fin 6) := [0, 1, 2, 3, 4, 5]

/-- The stress tensor `getS_UP` returns for the deformation tensor `M`. -/
noncomputable def stressOf (E : Energy) (M : Mat3) (p : ℝ) : Res Mat3 := do
  let S ← getS_UP E allComps (pack6 M) p (List.replicate 6 0)
  .ok (unpack6 (fun k => S.getD k 0))

/-- The energy: the deviatoric part of `M` through `W`, and `p * (J - 1)`. -/
noncomputable def energy (E : Energy) (p z : ℝ) (M : Mat3) : ℝ :=
  let J := √M.det
  E.W (M.trace * J ^ (-2 / 3 : ℝ)) ((M.trace ^ 2 - (M * M).trace) / 2 * J ^ (-4 / 3 : ℝ)) z + p * (J - 1)

theorem stressOf_eq (E : Energy) (M : Mat3) (p : ℝ) : stressOf E M p = .ok (unpack6 (stressEntry E (pack6 M) p)) := by
  unfold stressOf
  rw [getS_eq _ _ _ _ _ (by simp [allComps]), Res.ok_bind]
  congr 2
  funext k
  fin_cases k <;> rfl

theorem ddot_sum (a : Fin 6 → ℝ) {H : Mat3} (hH : H.IsSymm) : ddot a (pack6 H) = ∑ i, ∑ j, unpack6 a i j * H i j := by
  have h1 : H 1 0 = H 0 1 := hH.apply 0 1
  have h2 : H 2 0 = H 0 2 := hH.apply 0 2
  have h3 : H 2 1 = H 1 2 := hH.apply 1 2
  simp [Fin.sum_univ_three, ddot, unpack6, pack6, h1, h2, h3]
  ring

/-- A curve of symmetric tensors through a positive definite one. -/
structure Curve (M : ℝ → Mat3) (H : Mat3) (t : ℝ) : Prop where
  symm : ∀ s, (M s).IsSymm
  deriv : ∀ i j, HasDerivAt (fun s => M s i j) (H i j) t
  pos : (M t).PosDef

theorem Curve.symmH {M : ℝ → Mat3} {H : Mat3} {t : ℝ} (c : Curve M H t) : H.IsSymm := by
  ext i j
  have h1 := c.deriv j i
  have h2 := c.deriv i j
  have : (fun s => M s j i) = fun s => M s i j := by funext s; exact (c.symm s).apply i j
  rw [this] at h1
  exact h1.unique h2

theorem Curve.packed {M : ℝ → Mat3} {H : Mat3} {t : ℝ} (c : Curve M H t) (k : Fin 6) :
    HasDerivAt (fun s => pack6 (M s) k) (pack6 H k) t := by
  fin_cases k
  · exact c.deriv 0 0
  · exact c.deriv 0 1
  · exact c.deriv 0 2
  · exact c.deriv 1 1
  · exact c.deriv 1 2
  · exact c.deriv 2 2

theorem energy_eq (E : Energy) (p z : ℝ) {M : Mat3} (hs : M.IsSymm) (hp : 0 < M.det) :
    energy E p z M = E.W (inv1 (pack6 M) * ppC (pack6 M)) (inv2 (pack6 M) * (ppC (pack6 M) * ppC (pack6 M))) z +
      p * (JC (pack6 M) - 1) := by
  have h1 : M 1 0 = M 0 1 := hs.apply 0 1
  have h2 : M 2 0 = M 0 2 := hs.apply 0 2
  have h3 : M 2 1 = M 1 2 := hs.apply 1 2
  have hJ : √M.det = JC (pack6 M) := by rw [JC_eq, det_pack6 hs]
  have hJp : 0 < JC (pack6 M) := JC_pos (by rw [det_pack6 hs]; exact hp)
  have e1 : M.trace = inv1 (pack6 M) := by simp [inv1, pack6, Matrix.trace, Fin.sum_univ_three]
  have e2 : (M.trace ^ 2 - (M * M).trace) / 2 = inv2 (pack6 M) := by
    simp [inv2, pack6, Matrix.trace, Fin.sum_univ_three, Matrix.mul_apply, h1, h2, h3]
    ring
  have e3 : ppC (pack6 M) * ppC (pack6 M) = JC (pack6 M) ^ (-4 / 3 : ℝ) := by
    simp only [ppC]
    rw [← Real.rpow_add hJp]
    norm_num
  unfold energy
  rw [e2, e1, hJ, e3]

/-- C47. For every consistent material the stress of `getS_UP` is twice the gradient of the energy: along every curve of
symmetric tensors through a positive definite one. -/
theorem C47_stress {E : Energy} (hE : E.Consistent) : ∃ S : Mat3 → ℝ → Mat3, (∀ M p, stressOf E M p = .ok (S M p)) ∧
    ∀ (M : ℝ → Mat3) (H : Mat3) (t p z : ℝ), Curve M H t →
      HasDerivAt (fun s => energy E p z (M s)) (1 / 2 * ∑ i, ∑ j, S (M t) p i j * H i j) t := by
  refine ⟨_, fun M p => stressOf_eq E M p, ?_⟩
  intro M H t p z c
  have h := deriv_energy (γ := fun s => pack6 (M s)) (h := pack6 H) c.packed (detP_pos c.pos) hE p z
  have h' : HasDerivAt (fun s => energy E p z (M s)) (ddot (stressEntry E (pack6 (M t)) p) (pack6 H) / 2) t := by
    refine h.congr_of_eventuallyEq ?_
    filter_upwards [eventually_pos (γ := fun s => pack6 (M s)) (h := pack6 H) c.packed (detP_pos c.pos)] with s hs
    rw [det_pack6 (c.symm s)] at hs
    exact energy_eq E p z (c.symm s) hs
  refine h'.congr_deriv ?_
  rw [ddot_sum _ c.symmH]
  ring

/-- C47. Without deformation the stress is `p` times the identity; in particular zero for `p = 0`. -/
theorem C47_identity (E : Energy) (p : ℝ) : stressOf E 1 p = .ok (p • 1) := by
  rw [stressOf_eq]
  have e : pack6 (1 : Mat3) = ![1, 0, 0, 1, 0, 1] := by funext k; fin_cases k <;> simp [pack6]
  have hJ : JC ![1, 0, 0, 1, 0, 1] = 1 := by simp [JC]
  have hi : invCC ![1, 0, 0, 1, 0, 1] 1 = ![1, 0, 0, 1, 0, 1] := by funext k; fin_cases k <;> simp [invCC]
  have key : stressEntry E ![1, 0, 0, 1, 0, 1] p = fun k => p * ![1, 0, 0, 1, 0, 1] k := by
    funext k
    simp only [stressEntry, ICC_0, ICC_1, ICC_2, hJ, hi, Real.one_rpow]
    fin_cases k <;> simp [arrA, arrB, matI, inv1, inv2] <;> ring
  rw [e, key]
  congr 1
  ext i j
  fin_cases i <;> fin_cases j <;> simp [unpack6]

/-- C47. `S : C = 3 p J`: the part of the stress that comes from `W` is deviatoric. -/
theorem C47_contraction (E : Energy) (p : ℝ) {M : Mat3} (h : M.PosDef) :
    ∃ S, stressOf E M p = .ok S ∧ ∑ i, ∑ j, S i j * M i j = 3 * p * √M.det := by
  have hd := detP_pos h
  refine ⟨_, stressOf_eq E M p, ?_⟩
  rw [← ddot_sum _ (symm_of_posDef h), ← det_pack6 (symm_of_posDef h), ← JC_eq]
  generalize pack6 M = c at *
  have k1 : ddot (invCC c (JC c)) c = 3 := by
    simp only [ddot, invCC_det hd]
    have := hd.ne'
    field_simp
    simp [adjP, detP]
    ring
  have k2 : ddot matI c = inv1 c := by simp [ddot, matI, inv1]
  have k3 : inv1 c * inv1 c - (c 0 * c 0 + 2 * (c 1 * c 1) + 2 * (c 2 * c 2) + c 3 * c 3 + 2 * (c 4 * c 4) + c 5 * c 5) =
      2 * inv2 c := by simp [inv1, inv2]; ring
  simp only [ddot] at k1 k2 ⊢
  simp only [stressEntry, ICC_0, ICC_1, ICC_2]
  generalize invCC c (JC c) = Ci at *
  simp only [arrA, arrB]
  linear_combination (2 * E.first (inv1 c * JC c ^ (-2 / 3 : ℝ)) (inv2 c * (JC c ^ (-2 / 3 : ℝ) * JC c ^ (-2 / 3 : ℝ))) 0 0 *
    JC c ^ (-2 / 3 : ℝ)) * (k2 - 1 / 3 * inv1 c * k1) +
    (2 * E.first (inv1 c * JC c ^ (-2 / 3 : ℝ)) (inv2 c * (JC c ^ (-2 / 3 : ℝ) * JC c ^ (-2 / 3 : ℝ))) 0 1 *
    (JC c ^ (-2 / 3 : ℝ) * JC c ^ (-2 / 3 : ℝ))) * (inv1 c * k2 + k3 - 2 / 3 * inv2 c * k1) + p * JC c * k1

/-! ## C48 -/

/-- Position of component `i j` among the six. -/
def vidx (i j : Fin 3) : Fin 6 := ![![0, 1, 2], ![1, 3, 4], ![2, 4, 5]] i j

/-- The tensors `getDdDp_UP` returns for the deformation tensor `M`: packed symmetric 6 × 6 matrix, six numbers. -/
noncomputable def tangentOf (E : Energy) (M : Mat3) (p : ℝ) : Res ((Fin 3 → Fin 3 → Fin 3 → Fin 3 → ℝ) × Mat3) := do
  let (Dd, Dp) ← getDdDp_UP E allComps (pack6 M) p (List.replicate 21 0) (List.replicate 6 0)
  .ok (fun i j k l => Dd.getD (comp 6 (vidx i j) (vidx k l)) 0, unpack6 (fun k => Dp.getD k 0))

theorem unpack6_vidx (v : Fin 6 → ℝ) (i j : Fin 3) : unpack6 v i j = v (vidx i j) := by
  fin_cases i <;> fin_cases j <;> rfl

theorem allComps_getD (k : Fin 6) : allComps.getD k.val 0 = k := by fin_cases k <;> rfl

/-- Entry of the packed answer. -/
theorem packed_entry {f : Fin 6 → Fin 6 → ℝ} (hf : ∀ a b, f a b = f b a) (R : List ℝ) (a b : Fin 6) :
    ((upperPairs 6).map (fun q => f (allComps.getD q.1 0) (allComps.getD q.2 0)) ++ R)[comp 6 a b]? = some (f a b) := by
  have main : ∀ a b : Fin 6, a.val ≤ b.val →
      ((upperPairs 6).map (fun q => f (allComps.getD q.1 0) (allComps.getD q.2 0)) ++ R)[comp 6 a b]? = some (f a b) := by
    intro a b hab
    have hm := Dense.map_get (Dense.upper_map_comp (n := 6) (by decide))
      (fun q => f (allComps.getD q.1 0) (allComps.getD q.2 0)) (Dense.mem_upper.mpr ⟨hab, b.2⟩)
    simp only [allComps_getD] at hm
    rw [List.getElem?_append_left (List.getElem?_eq_some_iff.mp hm).1]
    exact hm
  rcases Nat.le_total a.val b.val with h | h
  · exact main a b h
  · rw [Dense.comp_comm, main b a h, hf]

theorem tangentOf_eq (E : Energy) (M : Mat3) (p : ℝ) : tangentOf E M p =
    .ok (fun i j k l => tangentEntry E (pack6 M) p (vidx i j) (vidx k l), unpack6 (pressEntry (pack6 M))) := by
  unfold tangentOf
  rw [getDdDp_eq _ _ _ _ _ _ (by simp [allComps]) (by simp [allComps])]
  simp only [Res.ok_bind]
  congr 2
  · funext i j k l
    have := packed_entry (tangent_symm E (pack6 M) p) (List.drop (allComps.length * (allComps.length + 1) / 2)
      (List.replicate 21 0)) (vidx i j) (vidx k l)
    rw [List.getD_eq_getElem?_getD, show allComps.length = 6 from rfl] at *
    rw [this]
    rfl

/-- C48. For every consistent material the matrices of `getDdDp_UP` are the derivatives of the stress of `getS_UP` with
respect to the deformation tensor, along every curve of symmetric tensors through a positive definite one, and with
respect to the pressure; the first is symmetric. -/
theorem C48_tangent {E : Energy} (hE : E.Consistent) :
    ∃ (S : Mat3 → ℝ → Mat3) (D : Mat3 → ℝ → Fin 3 → Fin 3 → Fin 3 → Fin 3 → ℝ) (P : Mat3 → Mat3),
      (∀ M p, stressOf E M p = .ok (S M p)) ∧ (∀ M p, tangentOf E M p = .ok (D M p, P M)) ∧
      (∀ (M : ℝ → Mat3) (H : Mat3) (t p : ℝ), Curve M H t →
        ∀ i j, HasDerivAt (fun s => S (M s) p i j) (∑ k, ∑ l, D (M t) p i j k l * H k l) t) ∧
      (∀ M p i j, HasDerivAt (fun q => S M q i j) (P M i j) p) ∧
      ∀ M p i j k l, D M p i j k l = D M p k l i j ∧ D M p i j k l = D M p j i k l := by
  refine ⟨_, _, fun M => unpack6 (pressEntry (pack6 M)), fun M p => stressOf_eq E M p, fun M p => tangentOf_eq E M p,
    ?_, ?_, ?_⟩
  · intro M H t p c i j
    have h := deriv_stress (γ := fun s => pack6 (M s)) (h := pack6 H) c.packed (detP_pos c.pos) hE p (vidx i j)
    simp only [unpack6_vidx]
    refine h.congr_deriv ?_
    rw [ddot_sum _ c.symmH]
    simp only [unpack6_vidx]
  · intro M p i j
    simp only [unpack6_vidx]
    exact deriv_press E (pack6 M) p (vidx i j)
  · intro M p i j k l
    refine ⟨tangent_symm _ _ _ _ _, ?_⟩
    have : vidx i j = vidx j i := by fin_cases i <;> fin_cases j <;> rfl
    simp only [this]

/-- A curve that meets the hypotheses of C47 and C48. -/
example : Curve (fun s => !![2, 1 + s, 0; 1 + s, 2, 0; 0, 0, 3]) !![0, 1, 0; 1, 0, 0; 0, 0, 0] 0 := by
  refine ⟨fun s => ?_, fun i j => ?_, by simpa using posDef_example⟩
  · ext i j; fin_cases i <;> fin_cases j <;> rfl
  · fin_cases i <;> fin_cases j <;> simp <;> first | exact hasDerivAt_const _ _ |
      exact ((hasDerivAt_id' (0 : ℝ)).const_add 1)

/-! ## C49 -/

/-- C49. For every list of components `getS_UP` writes exactly the entries of the full answer, in the order asked. -/
theorem C49_stress (E : Energy) (C : Fin 6 → ℝ) (p : ℝ) : ∃ full : Fin 6 → ℝ,
    (∀ S : List ℝ, S.length = 6 → getS_UP E allComps C p S = .ok (List.ofFn full)) ∧
    ∀ (comps : List (Fin 6)) (S : List ℝ), comps.length ≤ S.length →
      getS_UP E comps C p S = .ok (comps.map full ++ S.drop comps.length) := by
  refine ⟨stressEntry E C p, ?_, fun comps S h => getS_eq E comps C p S h⟩
  intro S hS
  rw [getS_eq _ _ _ _ _ (by simp [allComps, hS]), List.drop_eq_nil_of_le (by simp [allComps, hS])]
  simp [allComps, List.ofFn_succ, Fin.succ]

/-- C49. For every list of components `getDdDp_UP` writes exactly the entries of the full answer: the upper triangle of
the selected rows and columns, row by row, and the selected pressure derivatives. -/
theorem C49_tangent (E : Energy) (C : Fin 6 → ℝ) (p : ℝ) : ∃ (full : Fin 6 → Fin 6 → ℝ) (fullP : Fin 6 → ℝ),
    (∀ a b, full a b = full b a) ∧
    (∀ Dd Dp : List ℝ, Dd.length = 21 → Dp.length = 6 → ∃ D, getDdDp_UP E allComps C p Dd Dp = .ok (D, List.ofFn fullP) ∧
      D.length = 21 ∧ ∀ a b : Fin 6, Res.read D (comp 6 a b) = .ok (full a b)) ∧
    ∀ (comps : List (Fin 6)) (Dd Dp : List ℝ), comps.length * (comps.length + 1) / 2 ≤ Dd.length →
      comps.length ≤ Dp.length → getDdDp_UP E comps C p Dd Dp = .ok
        ((upperPairs comps.length).map (fun q => full (comps.getD q.1 0) (comps.getD q.2 0)) ++
          Dd.drop (comps.length * (comps.length + 1) / 2), comps.map fullP ++ Dp.drop comps.length) := by
  refine ⟨tangentEntry E C p, pressEntry C, tangent_symm E C p, ?_, fun comps Dd Dp h1 h2 => getDdDp_eq E comps C p Dd Dp h1 h2⟩
  intro Dd Dp h1 h2
  refine ⟨(upperPairs 6).map (fun q => tangentEntry E C p (allComps.getD q.1 0) (allComps.getD q.2 0)) ++ [], ?_, ?_, ?_⟩
  rotate_left
  · rw [List.append_nil, List.length_map]; decide
  · intro a b
    exact Res.read_eq_ok.mpr (packed_entry (tangent_symm E C p) [] a b)
  · rw [getDdDp_eq _ _ _ _ _ _ (by simp [allComps, h1]) (by simp [allComps, h2]),
      List.drop_eq_nil_of_le (by simp [allComps, h1]), List.drop_eq_nil_of_le (by simp [allComps, h2])]
    rw [List.append_nil]
    congr 2

/-- The selection the axisymmetric and plane elements use. -/
example : (upperPairs 3).map (fun q => (([0, 3, 1] : List (Fin 6)).getD q.1 0, ([0, 3, 1] : List (Fin 6)).getD q.2 0)) =
    [(0, 0), (0, 3), (0, 1), (3, 3), (3, 1), (1, 1)] := by decide

/-! ## C50 -/

/-- C50, first part: every registered name addresses its own constant. The full property also asks that an unknown name
is an error without touching memory; see `C50_violated`. -/
theorem C50_partial (names : List String) (hn : names.Nodup) (k : Nat) (s : String) (h : names[k]? = some s) :
    (registerConsts names).byName s = .ok k ∧ (registerConsts names).byIndex k = .ok k := by
  have hk := (List.getElem?_eq_some_iff.mp h).1
  constructor
  · have main : ∀ n i, i + n = names.length → i ≤ k → findConst (registerConsts names) s i n = .ok k := by
      intro n
      induction n with
      | zero => intro i h1 h2; omega
      | succ n ih =>
        intro i h1 h2
        have hi : i < names.length := by omega
        rw [findConst, show (registerConsts names).names = names from rfl, Res.read_of_lt hi, Res.ok_bind]
        by_cases e : i = k
        · subst e
          have : s = names[i] := by rw [List.getElem?_eq_getElem hi] at h; simpa using h.symm
          rw [if_pos this, if_pos (by exact hi)]
        · have : s ≠ names[i] := by
            intro e2
            have hs : s = names[k] := by rw [List.getElem?_eq_getElem hk] at h; simpa using h.symm
            exact e ((List.Nodup.getElem_inj_iff hn).mp (e2.symm.trans hs))
          rw [if_neg this]
          exact ih (i + 1) (by omega) (by omega)
    exact main names.length 0 (by omega) (by omega)
  · simp [Consts.byIndex, registerConsts, hk]

/-- C50, the violation: for every name that is not registered `Ci(name)` returns a dangling reference. -/
theorem C50_violated (names : List String) (s : String) (h : s ∉ names) : (registerConsts names).byName s = .ub := by
  have main : ∀ n i, i + n = names.length → findConst (registerConsts names) s i n = .ub := by
    intro n
    induction n with
    | zero => intro i _; rfl
    | succ n ih =>
      intro i h1
      have hi : i < names.length := by omega
      rw [findConst, show (registerConsts names).names = names from rfl, Res.read_of_lt hi, Res.ok_bind,
        if_neg (fun e => h (by rw [e]; exact List.getElem_mem hi))]
      exact ih (i + 1) (by omega)
  exact main names.length 0 (by omega)

example : (["C10", "C20", "C30", "C01", "K"] : List String).Nodup := by decide

end Nla3d.Material
