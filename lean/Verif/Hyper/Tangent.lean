import Verif.Hyper.Solid

/-!
# The derivative of the internal forces at one integration point
-/

noncomputable section

namespace Nla3d.Hyper

open Iso Dense Material Thermal
open Finset hiding ext

/-- The variation of `C` along `h`, with the shear components doubled. -/
def bvec (o h : Fin 9 → ℝ) : Fin 6 → ℝ := lin6 h + (2 : ℝ) • (Omega o).mulVec h

/-- The variation of `C` along `h`. -/
def cvar (o h : Fin 9 → ℝ) : Fin 6 → ℝ :=
  ![2 * h 0 + 2 * (o 0 * h 0) + 2 * (o 3 * h 3) + 2 * (o 6 * h 6),
    h 1 + h 3 + (h 0 * o 1 + o 0 * h 1) + (h 3 * o 4 + o 3 * h 4) + (h 6 * o 7 + o 6 * h 7),
    h 2 + h 6 + (h 0 * o 2 + o 0 * h 2) + (h 3 * o 5 + o 3 * h 5) + (h 6 * o 8 + o 6 * h 8),
    2 * h 4 + 2 * (o 1 * h 1) + 2 * (o 4 * h 4) + 2 * (o 7 * h 7),
    h 5 + h 7 + (h 1 * o 2 + o 1 * h 2) + (h 4 * o 5 + o 4 * h 5) + (h 7 * o 8 + o 7 * h 8),
    2 * h 8 + 2 * (o 2 * h 2) + 2 * (o 5 * h 5) + 2 * (o 8 * h 8)]

/-- One for a diagonal component, two for a shear component. -/
def mult : Fin 6 → ℝ := ![1, 2, 2, 1, 2, 1]

theorem bvec_cvar (o h : Fin 9 → ℝ) (k : Fin 6) : bvec o h k = mult k * cvar o h k := by
  unfold bvec lin6 Omega mult cvar
  rw [Pi.add_apply, Pi.smul_apply, Matrix.mulVec, dotProduct]
  fin_cases k <;> simp [Fin.sum_univ_succ] <;> ring

theorem deriv_solidC (o h : Fin 9 → ℝ) (t : ℝ) (k : Fin 6) :
    HasDerivAt (fun s : ℝ => solidC (o + s • h) k) (cvar (o + t • h) h k) t := by
  have e : ∀ i : Fin 9, HasDerivAt (fun s : ℝ => (o + s • h) i) (h i) t := by
    intro i
    have := ((hasDerivAt_id t).mul_const (h i)).const_add (o i)
    simpa using this
  generalize hz : (fun s : ℝ => o + s • h) = z at *
  have e' : ∀ i : Fin 9, HasDerivAt (fun s : ℝ => z s i) (h i) t := by
    intro i; rw [← hz]; exact e i
  have hzt : o + t • h = z t := by rw [← hz]
  have hzs : ∀ s : ℝ, o + s • h = z s := by intro s; rw [← hz]
  simp only [hzs]
  fin_cases k
  · refine ((((((e' 0).const_mul 2).const_add 1).fun_add ((e' 0).fun_pow 2)).fun_add ((e' 3).fun_pow 2)).fun_add
      ((e' 6).fun_pow 2)).congr_deriv ?_
    simp [cvar]; ring
  · refine (((((e' 1).fun_add (e' 3)).fun_add ((e' 0).fun_mul (e' 1))).fun_add ((e' 3).fun_mul (e' 4))).fun_add
      ((e' 6).fun_mul (e' 7))).congr_deriv ?_
    simp [cvar]
  · refine (((((e' 2).fun_add (e' 6)).fun_add ((e' 0).fun_mul (e' 2))).fun_add ((e' 3).fun_mul (e' 5))).fun_add
      ((e' 6).fun_mul (e' 8))).congr_deriv ?_
    simp [cvar]
  · refine ((((((e' 4).const_mul 2).const_add 1).fun_add ((e' 1).fun_pow 2)).fun_add ((e' 4).fun_pow 2)).fun_add
      ((e' 7).fun_pow 2)).congr_deriv ?_
    simp [cvar]; ring
  · refine (((((e' 5).fun_add (e' 7)).fun_add ((e' 1).fun_mul (e' 2))).fun_add ((e' 4).fun_mul (e' 5))).fun_add
      ((e' 7).fun_mul (e' 8))).congr_deriv ?_
    simp [cvar]
  · refine ((((((e' 8).const_mul 2).const_add 1).fun_add ((e' 2).fun_pow 2)).fun_add ((e' 5).fun_pow 2)).fun_add
      ((e' 8).fun_pow 2)).congr_deriv ?_
    simp [cvar]; ring

theorem ddot_bvec (a : Fin 6 → ℝ) (o h : Fin 9 → ℝ) : ddot a (cvar o h) = ∑ k, a k * bvec o h k := by
  simp only [bvec_cvar]
  simp [ddot, Fin.sum_univ_succ, mult]
  ring

/-- The tangent and the stress at a point. -/
theorem deriv_stress_point {E : Energy} (hE : E.Consistent) (o h : Fin 9 → ℝ) (p π : ℝ) (t : ℝ)
    (hD : 0 < detP (solidC (o + t • h))) (k : Fin 6) :
    HasDerivAt (fun s : ℝ => stressEntry E (solidC (o + s • h)) (p + s * π) k)
      ((∑ l, tangentEntry E (solidC (o + t • h)) (p + t * π) k l * bvec (o + t • h) h l) +
        π * pressEntry (solidC (o + t • h)) k) t := by
  have hγ : ∀ i, HasDerivAt (fun s : ℝ => solidC (o + s • h) i) (cvar (o + t • h) h i) t := fun i => deriv_solidC o h t i
  have h1 := deriv_stress hγ hD hE (p + t * π) k
  rw [ddot_bvec] at h1
  have aff : ∀ (C : Fin 6 → ℝ) (q : ℝ), stressEntry E C q k = stressEntry E C (p + t * π) k + (q - (p + t * π)) * pressEntry C k := by
    intro C q
    simp only [stressEntry, pressEntry]
    ring
  have hP : DifferentiableAt ℝ (fun s : ℝ => pressEntry (solidC (o + s • h)) k) t := by
    have := ((deriv_JC hγ hD).fun_mul (deriv_inv hγ hD k)).differentiableAt
    exact this
  have hq : HasDerivAt (fun s : ℝ => (p + s * π) - (p + t * π)) π t := by
    have := (((hasDerivAt_id t).mul_const π).const_add p).sub_const (p + t * π)
    simpa using this
  have h2 := h1.fun_add (hq.fun_mul hP.hasDerivAt)
  simp only [← aff] at h2
  refine h2.congr_deriv ?_
  ring

/-- The internal force at a point, tested with a gradient `v`. -/
def force (E : Energy) (o : Fin 9 → ℝ) (p : ℝ) (v : Fin 9 → ℝ) : ℝ :=
  ∑ k, bvec o v k * stressEntry E (solidC o) p k

theorem bvec_line (o h v : Fin 9 → ℝ) (s : ℝ) (k : Fin 6) :
    bvec (o + s • h) v k = bvec o v k + s * (2 * (Omega h).mulVec v k) := by
  have : Omega (o + s • h) = Omega o + s • Omega h := by
    ext i j; fin_cases i <;> fin_cases j <;> simp [Omega]
  unfold bvec
  rw [this, Matrix.add_mulVec, Matrix.smul_mulVec]
  simp only [Pi.add_apply, Pi.smul_apply, smul_eq_mul]
  ring

theorem Omega_S9 (h v : Fin 9 → ℝ) (S : Fin 6 → ℝ) :
    ∑ k, (Omega h).mulVec v k * S k = v ⬝ᵥ (S9 S).mulVec h := by
  simp [Omega, S9, Matrix.mulVec, dotProduct, Fin.sum_univ_succ]
  ring

theorem deriv_force {E : Energy} (hE : E.Consistent) (o h v : Fin 9 → ℝ) (p π : ℝ) (t : ℝ)
    (hD : 0 < detP (solidC (o + t • h))) :
    HasDerivAt (fun s : ℝ => force E (o + s • h) (p + s * π) v)
      ((∑ k, bvec (o + t • h) v k * (∑ l, tangentEntry E (solidC (o + t • h)) (p + t * π) k l * bvec (o + t • h) h l)) +
        π * (∑ k, bvec (o + t • h) v k * pressEntry (solidC (o + t • h)) k) +
        2 * (v ⬝ᵥ (S9 (stressEntry E (solidC (o + t • h)) (p + t * π))).mulVec h)) t := by
  unfold force
  have hb : ∀ k, HasDerivAt (fun s : ℝ => bvec (o + s • h) v k) (2 * (Omega h).mulVec v k) t := by
    intro k
    have e : (fun s : ℝ => bvec (o + s • h) v k) = fun s => bvec o v k + s * (2 * (Omega h).mulVec v k) := by
      funext s; exact bvec_line o h v s k
    rw [e]
    have := ((hasDerivAt_id t).mul_const (2 * (Omega h).mulVec v k)).const_add (bvec o v k)
    simpa using this
  have h1 := HasDerivAt.fun_sum (u := Finset.univ) (fun k (_ : k ∈ Finset.univ) =>
    (hb k).fun_mul (deriv_stress_point hE o h p π t hD k))
  refine h1.congr_deriv ?_
  rw [← Omega_S9, Finset.mul_sum, Finset.mul_sum, ← Finset.sum_add_distrib, ← Finset.sum_add_distrib]
  refine Finset.sum_congr rfl fun k _ => ?_
  ring

theorem deriv_volume (o h : Fin 9 → ℝ) (t : ℝ) (hD : 0 < detP (solidC (o + t • h))) :
    HasDerivAt (fun s : ℝ => JC (solidC (o + s • h)))
      (1 / 2 * ∑ k, bvec (o + t • h) h k * pressEntry (solidC (o + t • h)) k) t := by
  have hγ : ∀ i, HasDerivAt (fun s : ℝ => solidC (o + s • h) i) (cvar (o + t • h) h i) t := fun i => deriv_solidC o h t i
  refine (deriv_JC hγ hD).congr_deriv ?_
  rw [ddot_bvec, Finset.sum_div, Finset.mul_sum, Finset.mul_sum]
  refine Finset.sum_congr rfl fun k _ => ?_
  unfold pressEntry
  rw [ICC_2]
  ring

end Nla3d.Hyper
