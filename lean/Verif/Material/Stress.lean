import Verif.Material.Tensor

/-! # Stress and tangent along a curve of tensors -/

namespace Nla3d.Material

/-- What the virtual functions of a material have to be: gradient and Hessian of the energy. The third argument of the
functions does not matter. -/
structure Energy.Consistent (E : Energy) : Prop where
  grad : ∀ x y z z', HasFDerivAt (fun q : ℝ × ℝ => E.W q.1 q.2 z)
    (E.first x y z' 0 • ContinuousLinearMap.fst ℝ ℝ ℝ + E.first x y z' 1 • ContinuousLinearMap.snd ℝ ℝ ℝ) (x, y)
  hess1 : ∀ x y z z', HasFDerivAt (fun q : ℝ × ℝ => E.first q.1 q.2 z 0)
    (E.second x y z' 2 • ContinuousLinearMap.fst ℝ ℝ ℝ + E.second x y z' 3 • ContinuousLinearMap.snd ℝ ℝ ℝ) (x, y)
  hess2 : ∀ x y z z', HasFDerivAt (fun q : ℝ × ℝ => E.first q.1 q.2 z 1)
    (E.second x y z' 3 • ContinuousLinearMap.fst ℝ ℝ ℝ + E.second x y z' 4 • ContinuousLinearMap.snd ℝ ℝ ℝ) (x, y)
  same : ∀ x y z z', E.second x y z' 0 = E.first x y z 0 ∧ E.second x y z' 1 = E.first x y z 1

/-- The first two invariants. -/
def inv1 (C : Fin 6 → ℝ) : ℝ := C 0 + C 3 + C 5
def inv2 (C : Fin 6 → ℝ) : ℝ := C 0 * C 3 + C 3 * C 5 + C 0 * C 5 - C 1 * C 1 - C 4 * C 4 - C 2 * C 2

theorem ICC_0 (C : Fin 6 → ℝ) : ICC C 0 = inv1 C := rfl
theorem ICC_1 (C : Fin 6 → ℝ) : ICC C 1 = inv2 C := rfl
theorem ICC_2 (C : Fin 6 → ℝ) : ICC C 2 = JC C := rfl

/-- Chain rule for a function of two variables. -/
theorem chain2 {F : ℝ × ℝ → ℝ} {a b : ℝ} {f g : ℝ → ℝ} {f' g' t : ℝ}
    (hF : HasFDerivAt F (a • ContinuousLinearMap.fst ℝ ℝ ℝ + b • ContinuousLinearMap.snd ℝ ℝ ℝ) (f t, g t))
    (hf : HasDerivAt f f' t) (hg : HasDerivAt g g' t) : HasDerivAt (fun s => F (f s, g s)) (a * f' + b * g') t := by
  have h := hF.comp_hasDerivAt t (hf.prodMk hg)
  refine h.congr_deriv ?_
  simp

section Curve

variable {γ : ℝ → Fin 6 → ℝ} {h : Fin 6 → ℝ} {t : ℝ} (hγ : ∀ i, HasDerivAt (fun s => γ s i) (h i) t)

include hγ

theorem deriv_inv1 : HasDerivAt (fun s => inv1 (γ s)) (ddot matI h) t := by
  refine (((hγ 0).fun_add (hγ 3)).fun_add (hγ 5)).congr_deriv ?_
  simp [ddot, matI]

theorem deriv_inv2 : HasDerivAt (fun s => inv2 (γ s)) (ddot (fun k => inv1 (γ t) * matI k - γ t k) h) t := by
  refine ((((((hγ 0).fun_mul (hγ 3)).fun_add ((hγ 3).fun_mul (hγ 5))).fun_add ((hγ 0).fun_mul (hγ 5))).fun_sub
    ((hγ 1).fun_mul (hγ 1))).fun_sub ((hγ 4).fun_mul (hγ 4)) |>.fun_sub ((hγ 2).fun_mul (hγ 2))).congr_deriv ?_
  simp [ddot, matI, inv1]
  ring

variable (hD : 0 < detP (γ t))

include hD

/-- `pp` along the curve. -/
noncomputable abbrev ppC (C : Fin 6 → ℝ) : ℝ := JC C ^ (-2 / 3 : ℝ)

theorem deriv_i1 : HasDerivAt (fun s => inv1 (γ s) * ppC (γ s))
    (ppC (γ t) * ddot (arrA (inv1 (γ t)) (invCC (γ t) (JC (γ t)))) h) t := by
  refine ((deriv_inv1 hγ).fun_mul (deriv_pp hγ hD)).congr_deriv ?_
  simp only [ddot, arrA, ppC]
  ring

theorem deriv_pppp : HasDerivAt (fun s => ppC (γ s) * ppC (γ s))
    (-(2 / 3) * (ppC (γ t) * ppC (γ t)) * ddot (invCC (γ t) (JC (γ t))) h) t := by
  refine ((deriv_pp hγ hD).fun_mul (deriv_pp hγ hD)).congr_deriv ?_
  simp only [ppC]
  ring

theorem deriv_i2 : HasDerivAt (fun s => inv2 (γ s) * (ppC (γ s) * ppC (γ s)))
    (ppC (γ t) * ppC (γ t) * ddot (arrB (inv1 (γ t)) (inv2 (γ t)) (γ t) (invCC (γ t) (JC (γ t)))) h) t := by
  refine ((deriv_inv2 hγ).fun_mul (deriv_pppp hγ hD)).congr_deriv ?_
  simp only [ddot, arrB, ppC]
  ring

/-- The derivative of the energy is half the stress. -/
theorem deriv_energy {E : Energy} (hE : E.Consistent) (p z : ℝ) :
    HasDerivAt (fun s => E.W (inv1 (γ s) * ppC (γ s)) (inv2 (γ s) * (ppC (γ s) * ppC (γ s))) z + p * (JC (γ s) - 1))
      (ddot (stressEntry E (γ t) p) h / 2) t := by
  have h1 := chain2 (hE.grad (inv1 (γ t) * ppC (γ t)) (inv2 (γ t) * (ppC (γ t) * ppC (γ t))) z 0) (deriv_i1 hγ hD)
    (deriv_i2 hγ hD)
  have h2 := ((deriv_JC hγ hD).sub_const 1).const_mul p
  refine (h1.fun_add h2).congr_deriv ?_
  simp only [ddot, stressEntry, ICC_0, ICC_1, ICC_2, ppC]
  ring

theorem deriv_arrA (k : Fin 6) : HasDerivAt (fun s => arrA (inv1 (γ s)) (invCC (γ s) (JC (γ s))) k)
    (-(1 / 3) * (ddot matI h * invCC (γ t) (JC (γ t)) k + inv1 (γ t) * ddot (arrIIt (invCC (γ t) (JC (γ t))) k) h)) t := by
  refine ((((deriv_inv1 hγ).const_mul (1 / 3)).fun_mul (deriv_inv hγ hD k)).const_sub (matI k)).congr_deriv ?_
  ring

theorem deriv_arrB (k : Fin 6) :
    HasDerivAt (fun s => arrB (inv1 (γ s)) (inv2 (γ s)) (γ s) (invCC (γ s) (JC (γ s))) k)
    (ddot matI h * matI k - h k - 2 / 3 * (ddot (fun k => inv1 (γ t) * matI k - γ t k) h * invCC (γ t) (JC (γ t)) k +
      inv2 (γ t) * ddot (arrIIt (invCC (γ t) (JC (γ t))) k) h)) t := by
  refine ((((deriv_inv1 hγ).mul_const (matI k)).fun_sub (hγ k)).fun_sub
    (((deriv_inv2 hγ).const_mul (2 / 3)).fun_mul (deriv_inv hγ hD k))).congr_deriv ?_
  ring

omit hγ hD in
/-- `II` is the identity on symmetric tensors. -/
theorem ddot_II (k : Fin 6) : ddot (matII k) h = h k := by
  fin_cases k <;> simp [ddot, matII]

omit hγ in
theorem pp_cube : ppC (γ t) * (ppC (γ t) * ppC (γ t)) = JC (γ t) ^ (-2 : ℝ) := by
  have hp := JC_pos hD
  simp only [ppC]
  rw [← Real.rpow_add hp, ← Real.rpow_add hp]
  norm_num

/-- The derivative of the stress is the tangent. -/
theorem deriv_stress {E : Energy} (hE : E.Consistent) (p : ℝ) (k : Fin 6) :
    HasDerivAt (fun s => stressEntry E (γ s) p k) (ddot (tangentEntry E (γ t) p k) h) t := by
  have a1 := chain2 (hE.hess1 (inv1 (γ t) * ppC (γ t)) (inv2 (γ t) * (ppC (γ t) * ppC (γ t))) 0 1) (deriv_i1 hγ hD)
    (deriv_i2 hγ hD)
  have a2 := chain2 (hE.hess2 (inv1 (γ t) * ppC (γ t)) (inv2 (γ t) * (ppC (γ t) * ppC (γ t))) 0 1) (deriv_i1 hγ hD)
    (deriv_i2 hγ hD)
  have s1 := (((a1.const_mul 2).fun_mul (deriv_pp hγ hD)).fun_mul (deriv_arrA hγ hD k))
  have s2 := (((a2.const_mul 2).fun_mul (deriv_pppp hγ hD)).fun_mul (deriv_arrB hγ hD k))
  have s3 := (((deriv_JC hγ hD).const_mul p).fun_mul (deriv_inv hγ hD k))
  refine ((s1.fun_add s2).fun_add s3).congr_deriv ?_
  have e := hE.same (inv1 (γ t) * ppC (γ t)) (inv2 (γ t) * (ppC (γ t) * ppC (γ t))) 0 1
  simp only [ppC] at e
  have e2 := ddot_II (h := h) k
  rw [← e2]
  simp only [ddot, tangentEntry, ICC_0, ICC_1, ICC_2]
  rw [← pp_cube hD]
  simp only [ppC, e.1, e.2]
  generalize E.second _ _ _ = al
  generalize E.first _ _ _ = al1
  generalize matII = II
  generalize hCi : invCC (γ t) (JC (γ t)) = Ci
  generalize arrIIt Ci = It
  generalize JC (γ t) ^ (-2 / 3 : ℝ) = pp
  generalize JC (γ t) = J
  generalize hI1 : inv1 (γ t) = I1
  generalize inv2 (γ t) = I2
  simp only [arrA, arrB]
  ring

omit hγ hD in
/-- The derivative of the stress with respect to the pressure. -/
theorem deriv_press (E : Energy) (C : Fin 6 → ℝ) (p : ℝ) (k : Fin 6) :
    HasDerivAt (fun q => stressEntry E C q k) (pressEntry C k) p := by
  unfold stressEntry pressEntry
  refine ((((hasDerivAt_id p).mul_const _).mul_const _).const_add _).congr_deriv ?_
  ring

end Curve

theorem arrIIt_symm (c : Fin 6 → ℝ) (i j : Fin 6) : arrIIt c i j = arrIIt c j i := by
  fin_cases i <;> fin_cases j <;> simp [arrIIt] <;> ring

theorem matII_symm (i j : Fin 6) : matII i j = matII j i := by
  fin_cases i <;> fin_cases j <;> simp [matII]

theorem tangent_symm (E : Energy) (C : Fin 6 → ℝ) (p : ℝ) (i j : Fin 6) :
    tangentEntry E C p i j = tangentEntry E C p j i := by
  simp only [tangentEntry]
  rw [arrIIt_symm, matII_symm]
  ring

end Nla3d.Material
