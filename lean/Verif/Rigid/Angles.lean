import Verif.Rigid.Props
import Mathlib.Analysis.Calculus.MeanValue

/-!
# The rotation as a function of the rotation vector
-/

namespace Nla3d.Rigid

open scoped Matrix

noncomputable section

/-- The matrix of the rotation `rodrigues th`. -/
def rodM (th : Fin 3 → ℝ) : Matrix (Fin 3) (Fin 3) ℝ :=
  rodMat (Real.cos (norm3 th)) (Real.sin (norm3 th) / norm3 th) ((1 - Real.cos (norm3 th)) / norm3 th ^ 2) th

theorem rodM_mulVec (th x : Fin 3 → ℝ) : (rodM th).mulVec x = rodrigues th x := rodMat_mulVec _ _ _ _ _

/-- Entry of the cross product matrix. -/
def crossM (v : Fin 3 → ℝ) (i j : Fin 3) : ℝ := leviCivita i 0 j * v 0 + leviCivita i 1 j * v 1 + leviCivita i 2 j * v 2

theorem rodMat_apply (c s k : ℝ) (v : Fin 3 → ℝ) (i j : Fin 3) :
    rodMat c s k v i j = c * delta i j + s * crossM v i j + k * v i * v j := by
  fin_cases i <;> fin_cases j <;> simp [rodMat, leviCivita, delta, crossM]

/-- The linear map with the constants `c` at the rotation vector `th`, applied to `η`. -/
def lin (c : Fin 4 → ℝ) (th η : Fin 3 → ℝ) (i j : Fin 3) : ℝ :=
  -c 0 * (th ⬝ᵥ η) * delta i j + c 2 * (th ⬝ᵥ η) * crossM th i j + c 0 * crossM η i j + c 3 * (th ⬝ᵥ η) * th i * th j +
    c 1 * (η i * th j + th i * η j)

theorem sum_cDeriv (th η : Fin 3 → ℝ) (i j : Fin 3) : ∑ l, cDeriv th i j l * η l = lin (consts (norm3 th)) th η i j := by
  have hd : ∀ a : Fin 3, delta a 0 * η 0 + delta a 1 * η 1 + delta a 2 * η 2 = η a := by
    intro a; fin_cases a <;> simp [delta]
  simp only [cDeriv, lin, crossM, Fin.sum_univ_three, dotProduct]
  linear_combination (consts (norm3 th) 1 * th j) * hd i + (consts (norm3 th) 1 * th i) * hd j

/-- The constants of the exact branch. -/
def exact (t : ℝ) : Fin 4 → ℝ := ![Real.sin t / t, (1 - Real.cos t) / (t * t),
    (t * Real.cos t - Real.sin t) / (t * t * t), (t * Real.sin t - 2 + 2 * Real.cos t) / (t * t * t * t)]

theorem norm3_nonneg (v : Fin 3 → ℝ) : 0 ≤ norm3 v := Real.sqrt_nonneg _

theorem abs_le_norm3 (v : Fin 3 → ℝ) (k : Fin 3) : |v k| ≤ norm3 v := by
  apply abs_le_of_sq_le_sq _ (norm3_nonneg v)
  rw [pow_two, pow_two, norm3_sq]
  have := mul_self_nonneg (v 0); have := mul_self_nonneg (v 1); have := mul_self_nonneg (v 2)
  fin_cases k <;> simp only [Fin.zero_eta, Fin.mk_one, Fin.reduceFinMk] <;> linarith

theorem norm3_eq_zero {v : Fin 3 → ℝ} (h : norm3 v = 0) : v = 0 := by
  funext k
  have := abs_le_norm3 v k
  rw [h] at this
  exact abs_nonpos_iff.mp this

theorem norm3_le_sum (v : Fin 3 → ℝ) : norm3 v ≤ |v 0| + |v 1| + |v 2| := by
  have h0 := abs_nonneg (v 0); have h1 := abs_nonneg (v 1); have h2 := abs_nonneg (v 2)
  apply Real.sqrt_le_iff.mpr
  refine ⟨by positivity, ?_⟩
  have a := abs_mul_abs_self (v 0); have b := abs_mul_abs_self (v 1); have c := abs_mul_abs_self (v 2)
  nlinarith [mul_nonneg h0 h1, mul_nonneg h0 h2, mul_nonneg h1 h2]

theorem abs_dot (th η : Fin 3 → ℝ) : |th ⬝ᵥ η| ≤ norm3 th * norm3 η := by
  apply abs_le_of_sq_le_sq _ (mul_nonneg (norm3_nonneg _) (norm3_nonneg _))
  have h1 := norm3_sq th
  have h2 := norm3_sq η
  have : (norm3 th * norm3 η) ^ 2 = (norm3 th * norm3 th) * (norm3 η * norm3 η) := by ring
  rw [this, h1, h2]
  simp only [dotProduct, Fin.sum_univ_three]
  nlinarith [sq_nonneg (th 0 * η 1 - th 1 * η 0), sq_nonneg (th 0 * η 2 - th 2 * η 0), sq_nonneg (th 1 * η 2 - th 2 * η 1)]

theorem abs_crossM (v : Fin 3 → ℝ) (i j : Fin 3) : |crossM v i j| ≤ norm3 v := by
  have h0 := norm3_nonneg v
  fin_cases i <;> fin_cases j <;> simp [crossM, leviCivita, h0] <;> first | exact abs_le_norm3 v 0 | exact abs_le_norm3 v 1 | exact abs_le_norm3 v 2

theorem abs_delta (i j : Fin 3) : |delta i j| ≤ 1 := by
  fin_cases i <;> fin_cases j <;> simp [delta]

theorem abs_lin {c : Fin 4 → ℝ} {th : Fin 3 → ℝ} (h0 : |c 0| ≤ 1) (h0' : |c 0| * norm3 th ≤ 1) (h1 : |c 1| * norm3 th ≤ 1)
    (h2 : |c 2| * norm3 th ^ 2 ≤ 2) (h3 : |c 3| * norm3 th ^ 3 ≤ 3) (η : Fin 3 → ℝ) (i j : Fin 3) :
    |lin c th η i j| ≤ 9 * norm3 η := by
  have ht := norm3_nonneg th
  have he := norm3_nonneg η
  have hd := abs_dot th η
  have hm := abs_crossM th i j
  have hmη := abs_crossM η i j
  have hde := abs_delta i j
  have hi := abs_le_norm3 th i
  have hj := abs_le_norm3 th j
  have hηi := abs_le_norm3 η i
  have hηj := abs_le_norm3 η j
  have e1 : |-c 0 * (th ⬝ᵥ η) * delta i j| ≤ norm3 η := by
    rw [abs_mul, abs_mul, abs_neg]
    calc |c 0| * |th ⬝ᵥ η| * |delta i j| ≤ |c 0| * (norm3 th * norm3 η) * 1 := by gcongr
      _ = (|c 0| * norm3 th) * norm3 η := by ring
      _ ≤ 1 * norm3 η := by gcongr
      _ = norm3 η := one_mul _
  have e2 : |c 2 * (th ⬝ᵥ η) * crossM th i j| ≤ 2 * norm3 η := by
    rw [abs_mul, abs_mul]
    calc |c 2| * |th ⬝ᵥ η| * |crossM th i j| ≤ |c 2| * (norm3 th * norm3 η) * norm3 th := by gcongr
      _ = (|c 2| * norm3 th ^ 2) * norm3 η := by ring
      _ ≤ 2 * norm3 η := by gcongr
  have e3 : |c 0 * crossM η i j| ≤ norm3 η := by
    rw [abs_mul]
    calc |c 0| * |crossM η i j| ≤ 1 * norm3 η := by gcongr
      _ = norm3 η := one_mul _
  have e4 : |c 3 * (th ⬝ᵥ η) * th i * th j| ≤ 3 * norm3 η := by
    rw [abs_mul, abs_mul, abs_mul]
    calc |c 3| * |th ⬝ᵥ η| * |th i| * |th j| ≤ |c 3| * (norm3 th * norm3 η) * norm3 th * norm3 th := by gcongr
      _ = (|c 3| * norm3 th ^ 3) * norm3 η := by ring
      _ ≤ 3 * norm3 η := by gcongr
  have e5 : |c 1 * (η i * th j + th i * η j)| ≤ 2 * norm3 η := by
    rw [abs_mul]
    calc |c 1| * |η i * th j + th i * η j| ≤ |c 1| * (|η i| * |th j| + |th i| * |η j|) := by
          gcongr; rw [← abs_mul, ← abs_mul]; exact abs_add_le _ _
      _ ≤ |c 1| * (norm3 η * norm3 th + norm3 th * norm3 η) := by gcongr
      _ = 2 * ((|c 1| * norm3 th) * norm3 η) := by ring
      _ ≤ 2 * (1 * norm3 η) := by gcongr
      _ = 2 * norm3 η := by ring
  unfold lin
  have s1 := abs_add_le (-c 0 * (th ⬝ᵥ η) * delta i j + c 2 * (th ⬝ᵥ η) * crossM th i j + c 0 * crossM η i j +
    c 3 * (th ⬝ᵥ η) * th i * th j) (c 1 * (η i * th j + th i * η j))
  have s2 := abs_add_le (-c 0 * (th ⬝ᵥ η) * delta i j + c 2 * (th ⬝ᵥ η) * crossM th i j + c 0 * crossM η i j)
    (c 3 * (th ⬝ᵥ η) * th i * th j)
  have s3 := abs_add_le (-c 0 * (th ⬝ᵥ η) * delta i j + c 2 * (th ⬝ᵥ η) * crossM th i j) (c 0 * crossM η i j)
  have s4 := abs_add_le (-c 0 * (th ⬝ᵥ η) * delta i j) (c 2 * (th ⬝ᵥ η) * crossM th i j)
  linarith

theorem exact_bounds {t : ℝ} (ht : 0 < t) : |exact t 0| ≤ 1 ∧ |exact t 0| * t ≤ 1 ∧ |exact t 1| * t ≤ 1 ∧
    |exact t 2| * t ^ 2 ≤ 2 ∧ |exact t 3| * t ^ 3 ≤ 3 := by
  have hs : |Real.sin t| ≤ t := by have := Real.abs_sin_le_abs (x := t); rw [abs_of_pos ht] at this; exact this
  have hs1 := Real.abs_sin_le_one t
  have hc1 := Real.abs_cos_le_one t
  have hc : 1 - Real.cos t ≤ t := by
    have h1 := Real.one_sub_sq_div_two_le_cos (x := t)
    have h2 := Real.neg_one_le_cos t
    rcases le_total t 2 with h | h
    · nlinarith
    · linarith
  have hc0 : 0 ≤ 1 - Real.cos t := by linarith [Real.cos_le_one t]
  have hne := ht.ne'
  refine ⟨?_, ?_, ?_, ?_, ?_⟩
  · show |Real.sin t / t| ≤ 1
    rw [abs_div, abs_of_pos ht, div_le_one ht]; exact hs
  · show |Real.sin t / t| * t ≤ 1
    rw [abs_div, abs_of_pos ht, div_mul_cancel₀ _ hne]; exact hs1
  · show |(1 - Real.cos t) / (t * t)| * t ≤ 1
    rw [abs_div, abs_of_nonneg hc0, abs_of_pos (by positivity), div_mul_eq_mul_div, div_le_one (by positivity)]
    nlinarith
  · show |(t * Real.cos t - Real.sin t) / (t * t * t)| * t ^ 2 ≤ 2
    rw [abs_div, abs_of_pos (show 0 < t * t * t by positivity), div_mul_eq_mul_div, div_le_iff₀ (by positivity)]
    have : |t * Real.cos t - Real.sin t| ≤ 2 * t := by
      calc _ ≤ |t * Real.cos t| + |Real.sin t| := abs_sub _ _
        _ ≤ t * 1 + t := by rw [abs_mul, abs_of_pos ht]; gcongr
        _ = 2 * t := by ring
    nlinarith [sq_nonneg t, mul_le_mul_of_nonneg_right this (sq_nonneg t)]
  · show |(t * Real.sin t - 2 + 2 * Real.cos t) / (t * t * t * t)| * t ^ 3 ≤ 3
    rw [abs_div, abs_of_pos (show 0 < t * t * t * t by positivity), div_mul_eq_mul_div, div_le_iff₀ (by positivity)]
    have : |t * Real.sin t - 2 + 2 * Real.cos t| ≤ 3 * t := by
      calc _ = |t * Real.sin t - 2 * (1 - Real.cos t)| := by congr 1; ring
        _ ≤ |t * Real.sin t| + |2 * (1 - Real.cos t)| := abs_sub _ _
        _ ≤ t * 1 + 2 * t := by
          rw [abs_mul, abs_of_pos ht, abs_of_nonneg (by linarith : 0 ≤ 2 * (1 - Real.cos t))]; gcongr
        _ = 3 * t := by ring
    have h3 : 0 ≤ t ^ 3 := by positivity
    nlinarith [mul_le_mul_of_nonneg_right this h3]

/-- The linearised rotation of the code is bounded by the increment of the rotation vector. -/
theorem abs_sum_cDeriv (th η : Fin 3 → ℝ) (i j : Fin 3) : |∑ l, cDeriv th i j l * η l| ≤ 9 * norm3 η := by
  rw [sum_cDeriv]
  by_cases h : norm3 th < 1.0e-3
  · rw [consts_small h]
    have h0 := norm3_nonneg th
    have h' : norm3 th ≤ 1 := by norm_num at h; linarith
    have h2 : norm3 th ^ 2 ≤ 1 := pow_le_one₀ h0 h'
    have h3 : norm3 th ^ 3 ≤ 1 := pow_le_one₀ h0 h'
    apply abs_lin
    · simp
    · simpa using h'
    · simp only [Matrix.cons_val_one, Matrix.cons_val_zero]
      rw [abs_of_pos (by norm_num)]; norm_num; linarith
    · simp only [Matrix.cons_val]
      rw [abs_of_neg (by norm_num)]; linarith
    · simp only [Matrix.cons_val]
      rw [abs_of_neg (by norm_num)]; linarith
  · have hb : (1.0e-3 : ℝ) ≤ norm3 th := not_lt.mp h
    rw [consts_big hb]
    obtain ⟨a, b, c, d, e⟩ := exact_bounds (lt_of_lt_of_le (by norm_num) hb)
    exact abs_lin a b c d e η i j

theorem hasDeriv_line (th η : Fin 3 → ℝ) (k : Fin 3) : HasDerivAt (fun s : ℝ => (th + s • η) k) (η k) 0 := by
  have := ((hasDerivAt_id (0 : ℝ)).mul_const (η k)).const_add (th k)
  simpa using this

theorem rodM_eq (th : Fin 3 → ℝ) (i j : Fin 3) : rodM th i j = Real.cos (norm3 th) * delta i j +
    Real.sin (norm3 th) / norm3 th * crossM th i j + (1 - Real.cos (norm3 th)) / (norm3 th * norm3 th) * th i * th j := by
  unfold rodM
  rw [rodMat_apply, pow_two]

/-- Derivative of the rotation away from the zero rotation. -/
theorem deriv_rodM {th : Fin 3 → ℝ} (hp : 0 < norm3 th) (η : Fin 3 → ℝ) (i j : Fin 3) :
    HasDerivAt (fun s : ℝ => rodM (th + s • η) i j) (lin (exact (norm3 th)) th η i j) 0 := by
  have hr := deriv_norm3 hp η
  have h0 : norm3 (th + (0 : ℝ) • η) = norm3 th := by simp
  have hl := hasDeriv_line th η
  have hc := hr.cos
  have hs := hr.sin.fun_div hr (by rw [h0]; exact hp.ne')
  have hk := (hc.const_sub 1).fun_div (hr.fun_mul hr) (by rw [h0]; positivity)
  have hm : HasDerivAt (fun s : ℝ => crossM (th + s • η) i j) (crossM η i j) 0 :=
    (((hl 0).const_mul (leviCivita i 0 j)).fun_add ((hl 1).const_mul (leviCivita i 1 j))).fun_add
      ((hl 2).const_mul (leviCivita i 2 j))
  have key := ((hc.mul_const (delta i j)).fun_add (hs.fun_mul hm)).fun_add ((hk.fun_mul (hl i)).fun_mul (hl j))
  have hf : (fun s : ℝ => rodM (th + s • η) i j) = _ := funext fun s => rodM_eq (th + s • η) i j
  rw [hf]
  refine key.congr_deriv ?_
  simp only [h0, zero_smul, add_zero, lin, exact]
  have hne : norm3 th ≠ 0 := hp.ne'
  simp only [Matrix.cons_val_zero, Matrix.cons_val_one, Matrix.cons_val]
  generalize norm3 th = t at hne
  generalize th ⬝ᵥ η = y
  generalize crossM th i j = m
  generalize crossM η i j = m'
  field_simp
  ring

theorem norm3_smul (s : ℝ) (η : Fin 3 → ℝ) : norm3 (s • η) = |s| * norm3 η := by
  unfold norm3
  rw [← Real.sqrt_sq_eq_abs, ← Real.sqrt_mul (sq_nonneg s)]
  congr 1
  simp only [Pi.smul_apply, smul_eq_mul]
  ring

/-- The rotations about a fixed axis. -/
theorem rodM_axis {η : Fin 3 → ℝ} (h : norm3 η ≠ 0) (s : ℝ) (i j : Fin 3) : rodM (s • η) i j =
    Real.cos (s * norm3 η) * delta i j + Real.sin (s * norm3 η) / norm3 η * crossM η i j +
      (1 - Real.cos (s * norm3 η)) / (norm3 η * norm3 η) * (η i * η j) := by
  have hcr : crossM (s • η) i j = s * crossM η i j := by
    unfold crossM
    simp only [Pi.smul_apply, smul_eq_mul]
    ring
  rw [rodM_eq, norm3_smul, hcr]
  simp only [Pi.smul_apply, smul_eq_mul]
  generalize norm3 η = e at h
  have hcos : Real.cos (|s| * e) = Real.cos (s * e) := by
    rcases abs_choice s with h | h <;> rw [h]
    rw [neg_mul, Real.cos_neg]
  rw [hcos]
  by_cases hs : s = 0
  · subst hs; simp
  have hsin : Real.sin (|s| * e) / (|s| * e) = Real.sin (s * e) / (s * e) := by
    rcases abs_choice s with h | h <;> rw [h]
    rw [neg_mul, Real.sin_neg, neg_div_neg_eq]
  have habs : |s| * e * (|s| * e) = s * s * (e * e) := by
    have := abs_mul_abs_self s
    linear_combination (e * e) * this
  rw [hsin, habs]
  field_simp

/-- Derivative of the rotation at the zero rotation. -/
theorem deriv_rodM_zero (η : Fin 3 → ℝ) (i j : Fin 3) :
    HasDerivAt (fun s : ℝ => rodM ((0 : Fin 3 → ℝ) + s • η) i j) (crossM η i j) 0 := by
  by_cases h : norm3 η = 0
  · have h0 := norm3_eq_zero h
    subst h0
    have : crossM 0 i j = 0 := by simp [crossM]
    rw [this]
    simp only [smul_zero, add_zero]
    exact hasDerivAt_const _ _
  · have hf := funext fun s => rodM_axis h s i j
    simp only [zero_add]
    rw [hf]
    have hx : HasDerivAt (fun s : ℝ => s * norm3 η) (norm3 η) 0 := by
      simpa using (hasDerivAt_id (0 : ℝ)).mul_const (norm3 η)
    have key := ((hx.cos.mul_const (delta i j)).fun_add ((hx.sin.div_const (norm3 η)).mul_const (crossM η i j))).fun_add
      (((hx.cos.const_sub 1).div_const (norm3 η * norm3 η)).mul_const (η i * η j))
    refine key.congr_deriv ?_
    simp [h]

/-- The rotation depends on the rotation vector in a Lipschitz continuous way. -/
theorem rodM_lipschitz (th η : Fin 3 → ℝ) (i j : Fin 3) : |rodM (th + η) i j - rodM th i j| ≤ 9 * norm3 η := by
  have hd : ∀ τ : ℝ, ∃ d, HasDerivAt (fun s : ℝ => rodM (th + s • η) i j) d τ ∧ ‖d‖ ≤ 9 * norm3 η := by
    intro τ
    have hshift : ∀ d, HasDerivAt (fun s : ℝ => rodM ((th + τ • η) + s • η) i j) d 0 →
        HasDerivAt (fun s : ℝ => rodM (th + s • η) i j) d τ := by
      intro d hd
      have h2 : HasDerivAt (fun s : ℝ => s - τ) 1 τ := (hasDerivAt_id τ).sub_const τ
      have h3 := HasDerivAt.comp (h := fun s : ℝ => s - τ) (h₂ := fun s : ℝ => rodM ((th + τ • η) + s • η) i j) τ
        (by simpa using hd) h2
      rw [mul_one] at h3
      refine h3.congr_of_eventuallyEq (Filter.Eventually.of_forall fun s => ?_)
      show rodM (th + s • η) i j = rodM ((th + τ • η) + (s - τ) • η) i j
      rw [sub_smul, add_add_sub_cancel]
    by_cases h : norm3 (th + τ • η) = 0
    · refine ⟨crossM η i j, hshift _ ?_, ?_⟩
      · rw [norm3_eq_zero h]; exact deriv_rodM_zero η i j
      · have := abs_crossM η i j
        have := norm3_nonneg η
        rw [Real.norm_eq_abs]
        linarith
    · have hpos := lt_of_le_of_ne (norm3_nonneg (th + τ • η)) (Ne.symm h)
      obtain ⟨a, b, c, d, e⟩ := exact_bounds hpos
      exact ⟨_, hshift _ (deriv_rodM hpos η i j), abs_lin a b c d e η i j⟩
  choose d h1 h2 using hd
  have := norm_image_sub_le_of_norm_deriv_le_segment_01' (f := fun s : ℝ => rodM (th + s • η) i j) (f' := d) (C := 9 * norm3 η)
    (fun x _ => (h1 x).hasDerivWithinAt) (fun x _ => h2 x)
  simpa using this

/-- The matrix of the code differs from the rotation by at most `1e-9`. -/
theorem abs_rot_sub (th : Fin 3 → ℝ) (i j : Fin 3) : |rot th i j - rodM th i j| ≤ 1e-9 := by
  by_cases h : norm3 th < 1.0e-3
  · have := C53_small h i j
    rw [← rodM_mulVec] at this
    simp only [Matrix.mulVec_single_one] at this
    have h3 : norm3 th ^ 3 ≤ (1.0e-3 : ℝ) ^ 3 := pow_le_pow_left₀ (norm3_nonneg th) h.le 3
    refine le_trans this (le_trans h3 ?_)
    norm_num
  · have : rot th = rodM th := by
      apply Matrix.ext_of_mulVec_single
      intro k
      rw [rot_mulVec (not_lt.mp h), rodM_mulVec]
    rw [this, sub_self, abs_zero]
    norm_num

/-- `rodrigues th` keeps lengths, also for small and zero angles. -/
theorem rodrigues_norm (th x : Fin 3 → ℝ) : norm3 (rodrigues th x) = norm3 x := by
  have e : ∀ y : Fin 3 → ℝ, norm3 y = √(y ⬝ᵥ y) := by
    intro y; unfold norm3; simp [dotProduct, Fin.sum_univ_three]
  have horth : (rodM th).transpose * rodM th = 1 := by
    by_cases h : norm3 th = 0
    · have h0 := norm3_eq_zero h
      subst h0
      have : rodM 0 = 1 := by
        ext i j
        rw [rodM_eq, h]
        fin_cases i <;> fin_cases j <;> simp [delta, crossM]
      rw [this]; simp
    · have hn := norm3_sq th
      have hsc := Real.sin_sq_add_cos_sq (norm3 th)
      unfold rodM
      rw [rodMat_orth, ← hn]
      have e1 : Real.cos (norm3 th) ^ 2 + (Real.sin (norm3 th) / norm3 th) ^ 2 * (norm3 th * norm3 th) = 1 := by
        field_simp; linarith
      have e3 : 2 * Real.cos (norm3 th) * ((1 - Real.cos (norm3 th)) / norm3 th ^ 2) +
          ((1 - Real.cos (norm3 th)) / norm3 th ^ 2) ^ 2 * (norm3 th * norm3 th) -
          (Real.sin (norm3 th) / norm3 th) ^ 2 = 0 := by
        field_simp
        linarith
      rw [e1, e3]; simp
  rw [← rodM_mulVec, e, e, Matrix.dotProduct_mulVec, Matrix.vecMul_mulVec, horth, Matrix.vecMul_one]

end

end Nla3d.Rigid
