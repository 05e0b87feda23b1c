import Verif.Dense.Model
import Mathlib.LinearAlgebra.Matrix.NonsingularInverse
import Mathlib.LinearAlgebra.Matrix.Adjugate
import Mathlib.Tactic.Ring
import Mathlib.Tactic.FieldSimp
import Mathlib.Tactic.FinCases

/-!
# `det` and `inv`
-/

namespace Nla3d.Dense

open Finset

variable {K : Type} [Field K]

theorem crossCut_eq {n : Nat} (a : Matrix (Fin (n + 1)) (Fin (n + 1)) K) (c d : Fin (n + 1)) :
    crossCut a c d = a.submatrix c.succAbove d.succAbove := by
  funext i j
  unfold crossCut
  rw [Matrix.submatrix_apply]
  congr 1
  · unfold Fin.succAbove
    by_cases h : i.castSucc < c
    · rw [if_pos h, if_neg (by rw [Fin.lt_def] at h; simp at h ⊢; exact h)]
    · rw [if_neg h, if_pos (by rw [Fin.lt_def] at h; simp at h ⊢; exact h)]
  · unfold Fin.succAbove
    by_cases h : j.castSucc < d
    · rw [if_pos h, if_neg (by rw [Fin.lt_def] at h; simp at h ⊢; exact h)]
    · rw [if_neg h, if_pos (by rw [Fin.lt_def] at h; simp at h ⊢; exact h)]

/-- Alternating sum of a list. -/
def altSum : List K → K
  | [] => 0
  | x :: xs => x - altSum xs

theorem altLoop {ι : Type} (t : ι → K) (body : K × K → ι → Res (K × K)) (xs : List ι)
    (h : ∀ x ∈ xs, ∀ st, body st x = .ok (st.1 + st.2 * t x, st.2 * (-1))) (s k : K) :
    ∃ k', Res.foldlM' body (s, k) xs = .ok (s + k * altSum (xs.map t), k') := by
  induction xs generalizing s k with
  | nil => exact ⟨k, by simp [altSum]⟩
  | cons x xs ih =>
    obtain ⟨k', h'⟩ := ih (fun y hy => h y (List.mem_cons_of_mem _ hy)) (s + k * t x) (k * (-1))
    refine ⟨k', ?_⟩
    rw [Res.foldlM'_cons, h x List.mem_cons_self, Res.ok_bind, h', List.map_cons, altSum]
    congr 2
    ring

theorem altSum_finRange (n : Nat) (t : Fin n → K) :
    altSum ((List.finRange n).map t) = ∑ j : Fin n, (-1) ^ (j : Nat) * t j := by
  induction n with
  | zero => simp [altSum]
  | succ n ih =>
    rw [List.finRange_succ, List.map_cons, altSum, List.map_map, ih, Fin.sum_univ_succ]
    simp only [Function.comp_apply, Fin.val_zero, pow_zero, one_mul, Fin.val_succ, pow_succ]
    rw [sub_eq_add_neg, ← Finset.sum_neg_distrib]
    congr 1
    exact sum_congr rfl (fun j _ => by ring)

theorem det_step (n : Nat) (a : Fin (n + 4) → Fin (n + 4) → K) :
    det (n + 4) a = (Res.foldlM' (fun (st : K × K) (j : Fin (n + 4)) => do
      let d ← det (n + 3) (crossCut a 0 j)
      Res.ok (st.1 + st.2 * a 0 j * d, st.2 * (-1))) (0, 1) (List.finRange (n + 4)) >>= fun st => Res.ok st.1) := by
  rw [det]

/-- `det()` computes the determinant. -/
theorem det_eq : ∀ (n : Nat) (a : Matrix (Fin (n + 1)) (Fin (n + 1)) K), det (n + 1) a = .ok a.det
  | 0, a => by rw [Matrix.det_fin_one]; rfl
  | 1, a => by rw [Matrix.det_fin_two]; rfl
  | 2, a => by
    rw [Matrix.det_fin_three]
    show Res.ok _ = _
    congr 1
    ring
  | n + 3, a => by
    refine (det_step n a).trans ?_
    obtain ⟨k', h⟩ := altLoop (fun j => a 0 j * (a.submatrix Fin.succ j.succAbove).det)
      (fun (st : K × K) (j : Fin (n + 4)) => do
        let d ← det (n + 3) (crossCut a 0 j)
        Res.ok (st.1 + st.2 * a 0 j * d, st.2 * (-1))) (List.finRange (n + 4)) (by
          intro j _ st
          rw [crossCut_eq, det_eq (n + 2), Res.ok_bind, Fin.succAbove_zero]
          congr 2
          ring) 0 1
    rw [h, Res.ok_bind, altSum_finRange, Matrix.det_succ_row_zero]
    congr 1
    dsimp only
    rw [zero_add, one_mul]
    exact sum_congr rfl (fun j _ => by ring)

theorem npow_eq (d : K) (n : Nat) : npow d n = d ^ n := by
  unfold npow
  induction n with
  | zero => simp
  | succ n ih => rw [List.range_succ, List.foldl_append, ih, List.foldl_cons, List.foldl_nil, pow_succ]

/-- The loop that fills the cofactor matrix. -/
theorem fillLoop {n : Nat} (val : Fin n × Fin n → Res K) (x : Fin n → Fin n → K) (h : ∀ p, val p = .ok (x p.1 p.2))
    (k : Fin n × Fin n → K) (ps : List (Fin n × Fin n)) (C : Fin n → Fin n → K) :
    Res.foldlM' (fun (C : Fin n → Fin n → K) (p : Fin n × Fin n) => do
      let m ← val p
      .ok (fun i j => if i = p.1 ∧ j = p.2 then k p * m else C i j)) C ps =
      .ok (fun i j => if (i, j) ∈ ps then k (i, j) * x i j else C i j) := by
  induction ps generalizing C with
  | nil => simp
  | cons p ps ih =>
    rw [Res.foldlM'_cons, h, Res.ok_bind, Res.ok_bind, ih]
    congr 1
    funext i j
    by_cases e : (i, j) ∈ ps
    · simp [e]
    · rw [if_neg e]
      by_cases e2 : i = p.1 ∧ j = p.2
      · obtain ⟨rfl, rfl⟩ := e2
        simp
      · rw [if_neg e2, if_neg]
        simp [e]
        intro e3
        exact e2 ⟨by rw [← e3], by rw [← e3]⟩

variable [DecidableEq K]

theorem inv_step (n : Nat) (a : Fin (n + 4) → Fin (n + 4) → K) (d : K) :
    inv (n + 4) a d = (Res.foldlM' (fun (C : Fin (n + 4) → Fin (n + 4) → K) (p : Fin (n + 4) × Fin (n + 4)) => do
      let m ← det (n + 3) (crossCut a p.1 p.2)
      Res.ok (fun i j => if i = p.1 ∧ j = p.2 then npow (-1) (p.1.val + p.2.val) * m else C i j)) (fun _ _ => 0)
      ((List.finRange (n + 4)).flatMap (fun i => (List.finRange (n + 4)).map (fun j => (i, j)))) >>=
      fun C => Res.ok (fun i j => C j i * (1 / d))) := by
  rw [inv]

/-- `inv(d)` is the adjugate divided by `d`. -/
theorem inv_eq : ∀ (n : Nat) (a : Matrix (Fin (n + 1)) (Fin (n + 1)) K) (d : K), d ≠ 0 →
    ∃ b, inv (n + 1) a d = .ok b ∧ Matrix.of b = d⁻¹ • a.adjugate
  | 0, a, d, hd => by
    refine ⟨_, if_neg hd, ?_⟩
    ext i j
    fin_cases i
    fin_cases j
    simp
  | 1, a, d, hd => by
    refine ⟨_, if_neg hd, ?_⟩
    rw [Matrix.adjugate_fin_two]
    ext i j
    fin_cases i <;> fin_cases j <;> simp <;> ring
  | 2, a, d, hd => by
    refine ⟨_, if_neg hd, ?_⟩
    rw [Matrix.adjugate_fin_three]
    ext i j
    fin_cases i <;> fin_cases j <;> simp <;> ring
  | n + 3, a, d, hd => by
    have h := inv_step n a d
    rw [fillLoop (fun p => det (n + 3) (crossCut a p.1 p.2)) (fun i j => (a.submatrix i.succAbove j.succAbove).det)
      (by intro p; rw [crossCut_eq, det_eq (n + 2)]) (fun p => npow (-1) (p.1.val + p.2.val))] at h
    refine ⟨_, h.trans rfl, ?_⟩
    ext i j
    rw [Matrix.of_apply, Matrix.smul_apply, Matrix.adjugate_fin_succ_eq_det_submatrix, smul_eq_mul]
    beta_reduce
    rw [if_pos (by simp), npow_eq]
    ring

end Nla3d.Dense
