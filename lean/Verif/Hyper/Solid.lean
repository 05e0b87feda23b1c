import Verif.Hyper.Model
import Verif.Material.Props
import Verif.Thermal.Lemmas
import Mathlib.Data.Matrix.Basis
import Mathlib.Tactic.FinCases

/-!
# Closed forms of the loops of SOLID81
-/

noncomputable section

namespace Nla3d.Hyper

open Iso Dense Material Thermal
open Finset hiding ext

/-- Adding to one cell of a matrix. -/
theorem acc_flat {m n : Nat} (M : Matrix (Fin m) (Fin n) ℝ) {r c : Nat} (hr : r < m) (hc : c < n) (x : ℝ) :
    acc (flat M) (r * n + c) x = .ok (flat (M + Matrix.single ⟨r, hr⟩ ⟨c, hc⟩ x)) := by
  obtain ⟨f, hf, hfM⟩ := flat_arr M
  obtain ⟨A', h1, h2⟩ := hf.acc (pos_lt hr hc) x
  rw [h1]
  congr 1
  apply eq_flat h2
  intro i hi j hj
  rw [ext_add, hfM i hi j hj]
  congr 1
  have : (i * n + j = r * n + c) ↔ (r = i ∧ c = j) := by
    rw [pos_inj hj hc]; constructor <;> rintro ⟨rfl, rfl⟩ <;> exact ⟨rfl, rfl⟩
  unfold ext
  rw [dif_pos ⟨hi, hj⟩, Matrix.single_apply]
  simp only [Fin.mk.injEq, this]

/-- The position of direction `c` at node `a` in a vector of nodal values. -/
def at3 (a : Fin 8) (c : Fin 3) : Fin 24 := ⟨a.val * 3 + c.val, by omega⟩

/-- What node `i` adds to `B_NL`. -/
def nodeBNL (G : Fin 8 → Fin 3 → ℝ) (i : Fin 8) : Matrix (Fin 9) (Fin 24) ℝ :=
  Matrix.single 0 (at3 i 0) (G i 0) + Matrix.single 1 (at3 i 0) (G i 1) + Matrix.single 2 (at3 i 0) (G i 2) +
  Matrix.single 3 (at3 i 1) (G i 0) + Matrix.single 4 (at3 i 1) (G i 1) + Matrix.single 5 (at3 i 1) (G i 2) +
  Matrix.single 6 (at3 i 2) (G i 0) + Matrix.single 7 (at3 i 2) (G i 1) + Matrix.single 8 (at3 i 2) (G i 2)

def nodeBL (G : Fin 8 → Fin 3 → ℝ) (i : Fin 8) : Matrix (Fin 6) (Fin 24) ℝ :=
  Matrix.single 0 (at3 i 0) (2 * G i 0) + Matrix.single 1 (at3 i 0) (2 * G i 1) + Matrix.single 1 (at3 i 1) (2 * G i 0) +
  Matrix.single 2 (at3 i 0) (2 * G i 2) + Matrix.single 2 (at3 i 2) (2 * G i 0) + Matrix.single 3 (at3 i 1) (2 * G i 1) +
  Matrix.single 4 (at3 i 1) (2 * G i 2) + Matrix.single 4 (at3 i 2) (2 * G i 1) + Matrix.single 5 (at3 i 2) (2 * G i 2)

def BNL (G : Fin 8 → Fin 3 → ℝ) : Matrix (Fin 9) (Fin 24) ℝ := ∑ i, nodeBNL G i

def BL (G : Fin 8 → Fin 3 → ℝ) : Matrix (Fin 6) (Fin 24) ℝ := ∑ i, nodeBL G i

theorem addBNL_eq (G : Fin 8 → Fin 3 → ℝ) (M : Matrix (Fin 9) (Fin 24) ℝ) (i : Fin 8) :
    addBNL G (flat M) i = .ok (flat (M + nodeBNL G i)) := by
  have hi := i.isLt
  unfold addBNL
  rw [acc_flat _ (by omega) (by omega), Res.ok_bind, acc_flat _ (by omega) (by omega), Res.ok_bind,
    acc_flat _ (by omega) (by omega), Res.ok_bind, acc_flat _ (by omega) (by omega), Res.ok_bind,
    acc_flat _ (by omega) (by omega), Res.ok_bind, acc_flat _ (by omega) (by omega), Res.ok_bind,
    acc_flat _ (by omega) (by omega), Res.ok_bind, acc_flat _ (by omega) (by omega), Res.ok_bind,
    acc_flat _ (by omega) (by omega)]
  congr 2
  unfold nodeBNL
  simp only [← add_assoc]
  rfl

theorem addBL_eq (G : Fin 8 → Fin 3 → ℝ) (M : Matrix (Fin 6) (Fin 24) ℝ) (i : Fin 8) :
    addBL G (flat M) i = .ok (flat (M + nodeBL G i)) := by
  have hi := i.isLt
  unfold addBL
  rw [acc_flat _ (by omega) (by omega), Res.ok_bind, acc_flat _ (by omega) (by omega), Res.ok_bind,
    acc_flat _ (by omega) (by omega), Res.ok_bind, acc_flat _ (by omega) (by omega), Res.ok_bind,
    acc_flat _ (by omega) (by omega), Res.ok_bind, acc_flat _ (by omega) (by omega), Res.ok_bind,
    acc_flat _ (by omega) (by omega), Res.ok_bind, acc_flat _ (by omega) (by omega), Res.ok_bind,
    acc_flat _ (by omega) (by omega)]
  congr 2
  unfold nodeBL
  simp only [← add_assoc]
  rfl

/-- A loop that adds matrices. -/
theorem matLoop {m n k : Nat} (body : List ℝ → Fin k → Res (List ℝ)) (f : Fin k → Matrix (Fin m) (Fin n) ℝ)
    (h : ∀ M i, body (flat M) i = .ok (flat (M + f i))) (M : Matrix (Fin m) (Fin n) ℝ) :
    Res.foldlM' body (flat M) (List.finRange k) = .ok (flat (M + ∑ i, f i)) := by
  have key : ∀ (l : List (Fin k)) (M : Matrix (Fin m) (Fin n) ℝ),
      Res.foldlM' body (flat M) l = .ok (flat (l.foldl (fun x j => x + f j) M)) := by
    intro l
    induction l with
    | nil => intro M; rfl
    | cons i l ih => intro M; rw [Res.foldlM'_cons, h, Res.ok_bind, ih]; rfl
  rw [key, foldl_sum]

theorem flat_zero' {m n L : Nat} (h : L = m * n) : List.replicate L (0 : ℝ) = flat (0 : Matrix (Fin m) (Fin n) ℝ) := by
  subst h
  symm
  unfold flat
  rw [List.eq_replicate_iff]
  refine ⟨by rw [← flat_length (0 : Matrix (Fin m) (Fin n) ℝ)]; unfold flat; rfl, ?_⟩
  intro b hb
  rw [List.mem_map] at hb
  obtain ⟨p, _, rfl⟩ := hb
  unfold ext
  split <;> rfl

theorem makeBNL_eq (G : Fin 8 → Fin 3 → ℝ) : makeBNL G = .ok (flat (BNL G)) := by
  unfold makeBNL
  rw [flat_zero' (m := 9) (n := 24) rfl, matLoop _ _ (addBNL_eq G), zero_add]
  rfl

theorem makeBL_eq (G : Fin 8 → Fin 3 → ℝ) : makeBL G = .ok (flat (BL G)) := by
  unfold makeBL
  rw [flat_zero' (m := 6) (n := 24) rfl, matLoop _ _ (addBL_eq G), zero_add]
  rfl

/-- The gradient of the nodal values, in the order of `O`. -/
def grad9 (G : Fin 8 → Fin 3 → ℝ) (v : Fin 24 → ℝ) : Fin 9 → ℝ :=
  ![∑ a, G a 0 * v (at3 a 0), ∑ a, G a 1 * v (at3 a 0), ∑ a, G a 2 * v (at3 a 0),
    ∑ a, G a 0 * v (at3 a 1), ∑ a, G a 1 * v (at3 a 1), ∑ a, G a 2 * v (at3 a 1),
    ∑ a, G a 0 * v (at3 a 2), ∑ a, G a 1 * v (at3 a 2), ∑ a, G a 2 * v (at3 a 2)]

theorem BNL_mulVec (G : Fin 8 → Fin 3 → ℝ) (v : Fin 24 → ℝ) : (BNL G).mulVec v = grad9 G v := by
  unfold BNL
  rw [Matrix.sum_mulVec]
  funext r
  rw [Finset.sum_apply]
  have key : ∀ i, (nodeBNL G i).mulVec v r = (![G i 0 * v (at3 i 0), G i 1 * v (at3 i 0), G i 2 * v (at3 i 0),
      G i 0 * v (at3 i 1), G i 1 * v (at3 i 1), G i 2 * v (at3 i 1), G i 0 * v (at3 i 2), G i 1 * v (at3 i 2),
      G i 2 * v (at3 i 2)] : Fin 9 → ℝ) r := by
    intro i
    unfold nodeBNL
    simp only [Matrix.add_mulVec, Matrix.single_mulVec, Pi.add_apply]
    fin_cases r <;> simp [Function.update]
  rw [Finset.sum_congr rfl (fun i _ => key i)]
  fin_cases r <;> rfl

/-- Twice the linear part of the variation of the strain, in engineering form. -/
def lin6 (h : Fin 9 → ℝ) : Fin 6 → ℝ := ![2 * h 0, 2 * (h 1 + h 3), 2 * (h 2 + h 6), 2 * h 4, 2 * (h 5 + h 7), 2 * h 8]

theorem BL_mulVec (G : Fin 8 → Fin 3 → ℝ) (v : Fin 24 → ℝ) : (BL G).mulVec v = lin6 (grad9 G v) := by
  unfold BL
  rw [Matrix.sum_mulVec]
  funext r
  rw [Finset.sum_apply]
  have key : ∀ i, (nodeBL G i).mulVec v r = (![2 * (G i 0 * v (at3 i 0)), 2 * (G i 1 * v (at3 i 0) + G i 0 * v (at3 i 1)),
      2 * (G i 2 * v (at3 i 0) + G i 0 * v (at3 i 2)), 2 * (G i 1 * v (at3 i 1)),
      2 * (G i 2 * v (at3 i 1) + G i 1 * v (at3 i 2)), 2 * (G i 2 * v (at3 i 2))] : Fin 6 → ℝ) r := by
    intro i
    unfold nodeBL
    simp only [Matrix.add_mulVec, Matrix.single_mulVec, Pi.add_apply]
    fin_cases r <;> simp [Function.update] <;> ring
  rw [Finset.sum_congr rfl (fun i _ => key i)]
  fin_cases r <;> simp [lin6, grad9, Finset.mul_sum, Finset.sum_add_distrib, mul_add]

/-- The matrix of `make_Omega`. -/
def Omega (O : Fin 9 → ℝ) : Matrix (Fin 6) (Fin 9) ℝ :=
  !![O 0, 0, 0, O 3, 0, 0, O 6, 0, 0;
     O 1, O 0, 0, O 4, O 3, 0, O 7, O 6, 0;
     O 2, 0, O 0, O 5, 0, O 3, O 8, 0, O 6;
     0, O 1, 0, 0, O 4, 0, 0, O 7, 0;
     0, O 2, O 1, 0, O 5, O 4, 0, O 8, O 7;
     0, 0, O 2, 0, 0, O 5, 0, 0, O 8]

theorem makeOmega_eq (O : Fin 9 → ℝ) : makeOmega O = .ok (flat (Omega O)) := by
  have w : ∀ (L : List ℝ) (i : Nat) (x : ℝ), i < L.length → Res.write L i x = .ok (L.set i x) :=
    fun L i x h => Res.write_eq_ok.mpr ⟨h, rfl⟩
  unfold makeOmega
  rw [show List.finRange 3 = [0, 1, 2] from by decide]
  simp only [Res.foldlM'_cons, Res.foldlM'_nil, List.replicate, setOmega]
  simp [w, flat, rectPairs, List.range_succ, ext, Omega]

/-- The matrix of `make_S`. -/
def S9 (S : Fin 6 → ℝ) : Matrix (Fin 9) (Fin 9) ℝ :=
  !![S 0, S 1, S 2, 0, 0, 0, 0, 0, 0;
     S 1, S 3, S 4, 0, 0, 0, 0, 0, 0;
     S 2, S 4, S 5, 0, 0, 0, 0, 0, 0;
     0, 0, 0, S 0, S 1, S 2, 0, 0, 0;
     0, 0, 0, S 1, S 3, S 4, 0, 0, 0;
     0, 0, 0, S 2, S 4, S 5, 0, 0, 0;
     0, 0, 0, 0, 0, 0, S 0, S 1, S 2;
     0, 0, 0, 0, 0, 0, S 1, S 3, S 4;
     0, 0, 0, 0, 0, 0, S 2, S 4, S 5]

theorem S9_symm (S : Fin 6 → ℝ) : (S9 S).IsSymm := by
  ext i j; fin_cases i <;> fin_cases j <;> rfl

theorem makeS_eq (S : Fin 6 → ℝ) : makeS S = .ok (pack (S9 S)) := by
  have w : ∀ (L : List ℝ) (i : Nat) (x : ℝ) (h : i < L.length), acc L i x = .ok (L.set i (L[i] + x)) := by
    intro L i x h
    unfold acc
    rw [Res.read_of_lt h]
    exact Res.write_eq_ok.mpr ⟨h, rfl⟩
  unfold makeS
  simp only [List.replicate]
  simp [w, pack, upperPairs, List.range_succ, List.range'_succ, ext, S9]

end Nla3d.Hyper
