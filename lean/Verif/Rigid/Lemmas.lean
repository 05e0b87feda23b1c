import Verif.Rigid.Model
import Verif.Loop
import Mathlib.LinearAlgebra.CrossProduct
import Mathlib.LinearAlgebra.Matrix.Determinant.Basic
import Mathlib.Analysis.SpecialFunctions.Trigonometric.Deriv
import Mathlib.Analysis.SpecialFunctions.Sqrt
import Mathlib.Analysis.SpecialFunctions.Trigonometric.Bounds

/-!
# Lemmas about the rotation matrix and the loops of `RigidBodyMpc`
-/

namespace Nla3d.Rigid

open Dof Storage
open scoped Matrix

theorem grid_inj {D n d n' d' : Nat} (hd : d < D) (hd' : d' < D) (h : n * D + d = n' * D + d') : n = n' ∧ d = d' := by
  have h1 : (n * D + d) / D = n := by
    rw [Nat.add_comm, Nat.add_mul_div_right _ _ (by omega), Nat.div_eq_of_lt hd]; omega
  have h2 : (n' * D + d') / D = n' := by
    rw [Nat.add_comm, Nat.add_mul_div_right _ _ (by omega), Nat.div_eq_of_lt hd']; omega
  have : n = n' := by rw [← h1, ← h2, h]
  subst this
  omega

theorem grid_lt {N D n d : Nat} (hn : n < N) (hd : d < D) : n * D + d < N * D := by
  have := Nat.mul_le_mul_right D hn
  rw [Nat.succ_mul] at this
  omega

/-- Two nested loops that change entry `n * D + d` in turn `(n, d)`. -/
theorem gridLoop {α : Type} (N D : Nat) (body : List α → Nat → Nat → Res (List α)) (f : Nat → Nat → α → α) (c0 : List α)
    (hl : c0.length = N * D)
    (hb : ∀ (c : List α) (n d : Nat) (x : α), n < N → d < D → c.length = N * D → c0[n * D + d]? = some x →
      c[n * D + d]? = some x → body c n d = .ok (c.set (n * D + d) (f n d x))) :
    ∃ c', Res.foldlM' (fun c n => Res.foldlM' (fun c d => body c n d) c (List.range D)) c0 (List.range N) = .ok c' ∧
      c'.length = N * D ∧ ∀ n d x, n < N → d < D → c0[n * D + d]? = some x → c'[n * D + d]? = some (f n d x) := by
  obtain ⟨c', h1, h2, h3⟩ := Res.foldlM'_range (fun c n => Res.foldlM' (fun c d => body c n d) c (List.range D))
    (fun k c => c.length = N * D ∧ ∀ n d x, n < N → d < D → c0[n * D + d]? = some x →
      c[n * D + d]? = some (if n < k then f n d x else x)) N c0 ⟨hl, by intro n d x _ _ h; simpa using h⟩ (by
    rintro k c hk ⟨hc, hcx⟩
    obtain ⟨c', h1, h2, h3⟩ := Res.foldlM'_range (fun c d => body c k d)
      (fun e c => c.length = N * D ∧ ∀ n d x, n < N → d < D → c0[n * D + d]? = some x →
        c[n * D + d]? = some (if n < k ∨ (n = k ∧ d < e) then f n d x else x)) D c ⟨hc, by
          intro n d x hn hd h; rw [hcx n d x hn hd h]; simp⟩ (by
      rintro e c he ⟨hc, hcx⟩
      have hlt := grid_lt hk he
      have hx := List.getElem?_eq_getElem (hl ▸ hlt : k * D + e < c0.length)
      have hcur := hcx k e _ hk he hx
      rw [if_neg (by omega)] at hcur
      refine ⟨_, hb c k e _ hk he hc hx hcur, by rw [List.length_set]; exact hc, ?_⟩
      intro n d x hn hd h
      by_cases hnd : n = k ∧ d = e
      · obtain ⟨rfl, rfl⟩ := hnd
        rw [List.getElem?_set_self (by rw [hc]; exact hlt), if_pos (by omega)]
        rw [h] at hx
        rw [← Option.some.inj hx]
      · rw [List.getElem?_set_ne (fun hh => hnd (by
          have := grid_inj he hd hh
          exact ⟨this.1.symm, this.2.symm⟩)), hcx n d x hn hd h]
        congr 1
        by_cases h5 : n < k ∨ n = k ∧ d < e
        · rw [if_pos h5, if_pos (by omega)]
        · rw [if_neg h5, if_neg (by omega)])
    refine ⟨c', h1, h2, ?_⟩
    intro n d x hn hd h
    rw [h3 n d x hn hd h]
    congr 1
    by_cases h5 : n < k ∨ n = k ∧ d < D
    · rw [if_pos h5, if_pos (by omega)]
    · rw [if_neg h5, if_neg (by omega)])
  refine ⟨c', h1, h2, ?_⟩
  intro n d x hn hd h
  rw [h3 n d x hn hd h, if_pos hn]

/-! ## The rotation matrix -/

noncomputable section

/-- The matrix used by the code. -/
def rot (th : Fin 3 → ℝ) : Matrix (Fin 3) (Fin 3) ℝ := Matrix.of (matC th)

/-- The matrix with given trigonometric constants. -/
def rodMat (c s k : ℝ) (v : Fin 3 → ℝ) : Matrix (Fin 3) (Fin 3) ℝ :=
  !![c + k * v 0 * v 0, -s * v 2 + k * v 0 * v 1, s * v 1 + k * v 0 * v 2;
     s * v 2 + k * v 1 * v 0, c + k * v 1 * v 1, -s * v 0 + k * v 1 * v 2;
     -s * v 1 + k * v 2 * v 0, s * v 0 + k * v 2 * v 1, c + k * v 2 * v 2]

theorem rot_eq (th : Fin 3 → ℝ) : rot th = rodMat (Real.cos (norm3 th)) (consts (norm3 th) 0) (consts (norm3 th) 1) th := by
  ext i j
  fin_cases i <;> fin_cases j <;> simp [rot, matC, rodMat, leviCivita, delta] <;> ring

theorem norm3_sq (v : Fin 3 → ℝ) : norm3 v * norm3 v = v 0 * v 0 + v 1 * v 1 + v 2 * v 2 :=
  Real.mul_self_sqrt (add_nonneg (add_nonneg (mul_self_nonneg _) (mul_self_nonneg _)) (mul_self_nonneg _))

theorem consts_big {t : ℝ} (h : 1.0e-3 ≤ t) : consts t = ![Real.sin t / t, (1 - Real.cos t) / (t * t),
    (t * Real.cos t - Real.sin t) / (t * t * t), (t * Real.sin t - 2 + 2 * Real.cos t) / (t * t * t * t)] := by
  unfold consts
  rw [if_neg (not_lt.mpr h)]

theorem rodMat_mulVec (c s k : ℝ) (v x : Fin 3 → ℝ) : (rodMat c s k v).mulVec x = c • x + s • (v ⨯₃ x) + (k * (v ⬝ᵥ x)) • v := by
  funext i
  simp only [Pi.add_apply, Pi.smul_apply, smul_eq_mul]
  fin_cases i <;> simp [rodMat, Matrix.mulVec, dotProduct, Fin.sum_univ_three, cross_apply] <;> ring

theorem rodMat_orth (c s k : ℝ) (v : Fin 3 → ℝ) : (rodMat c s k v).transpose * rodMat c s k v =
    (c ^ 2 + s ^ 2 * (v 0 * v 0 + v 1 * v 1 + v 2 * v 2)) • (1 : Matrix (Fin 3) (Fin 3) ℝ) +
    (2 * c * k + k ^ 2 * (v 0 * v 0 + v 1 * v 1 + v 2 * v 2) - s ^ 2) • Matrix.of (fun i j => v i * v j) := by
  ext i j
  fin_cases i <;> fin_cases j <;>
    simp [rodMat, Matrix.mul_apply, Fin.sum_univ_three] <;> ring

theorem rodMat_det (c s k : ℝ) (v : Fin 3 → ℝ) : (rodMat c s k v).det =
    (c + k * (v 0 * v 0 + v 1 * v 1 + v 2 * v 2)) * (c ^ 2 + s ^ 2 * (v 0 * v 0 + v 1 * v 1 + v 2 * v 2)) := by
  rw [Matrix.det_fin_three]
  simp [rodMat]
  ring

end

end Nla3d.Rigid
