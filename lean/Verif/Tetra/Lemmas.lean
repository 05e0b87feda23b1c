import Verif.Tetra.Model
import Verif.Thermal.Props

/-!
# Closed forms for the tetrahedra
-/

namespace Nla3d.Tetra

open Dense
open Finset hiding ext

/-- Six times the volume. -/
theorem det_matS (pos : Fin 4 → Fin 3 → ℝ) :
    (matS pos).det =
      (pos 1 0 - pos 0 0) * ((pos 2 1 - pos 0 1) * (pos 3 2 - pos 0 2) - (pos 2 2 - pos 0 2) * (pos 3 1 - pos 0 1))
      - (pos 1 1 - pos 0 1) * ((pos 2 0 - pos 0 0) * (pos 3 2 - pos 0 2) - (pos 2 2 - pos 0 2) * (pos 3 0 - pos 0 0))
      + (pos 1 2 - pos 0 2) * ((pos 2 0 - pos 0 0) * (pos 3 1 - pos 0 1) - (pos 2 1 - pos 0 1) * (pos 3 0 - pos 0 0)) := by
  simp [matS, Matrix.det_succ_row_zero, Fin.sum_univ_succ, Fin.succAbove]
  ring

/-- The gradient of the shape function of node `a`. -/
noncomputable def G (pos : Fin 4 → Fin 3 → ℝ) (a : Fin 4) : Fin 3 → ℝ :=
  ![coefB pos a / (matS pos).det, coefC pos a / (matS pos).det, coefD pos a / (matS pos).det]

theorem G_exact (pos : Fin 4 → Fin 3 → ℝ) (h : (matS pos).det ≠ 0) : Iso.Exact pos (G pos) := by
  have key : ∀ (f : Fin 4 → ℝ) i, ∑ a, G pos a i * f a = (∑ a, (![coefB pos a, coefC pos a, coefD pos a] i) * f a) / (matS pos).det := by
    intro f i
    rw [Finset.sum_div]
    apply Finset.sum_congr rfl
    intro a _
    fin_cases i <;> simp [G] <;> ring
  refine ⟨fun i => ?_, fun c b i => ?_⟩
  · have := key (fun _ => 1) i
    simp only [mul_one] at this
    rw [this, div_eq_zero_iff]
    left
    fin_cases i <;> simp [Fin.sum_univ_four, coefB, coefC, coefD] <;> ring
  · rw [key, div_eq_iff h, det_matS]
    fin_cases i <;> simp [Fin.sum_univ_succ, coefB, coefC, coefD] <;> ring

/-! ## The strain matrix -/

/-- The rows of the strain operator for one node with shape gradient `g`: XX, YY, ZZ, XY, YZ, XZ with engineering shears. -/
def strainOp (g : Fin 3 → ℝ) : Matrix (Fin 6) (Fin 3) ℝ :=
  !![g 0, 0, 0; 0, g 1, 0; 0, 0, g 2; g 1, g 0, 0; 0, g 2, g 1; g 2, 0, g 0]

/-- The strain matrix for the displacements of four nodes. -/
def strainMat (g : Fin 4 → Fin 3 → ℝ) : Matrix (Fin 6) (Fin 12) ℝ :=
  Matrix.of fun r j => strainOp (g ⟨j.val / 3, by omega⟩) r ⟨j.val % 3, by omega⟩

theorem makeB0_raw (pos : Fin 4 → Fin 3 → ℝ) (vol : ℝ) :
    makeB0 pos vol = .ok (flat (strainMat fun a => ![coefB pos a * (-1 / 6 / vol), coefC pos a * (-1 / 6 / vol),
      coefD pos a * (-1 / 6 / vol)])) := by
  unfold makeB0
  generalize coefB pos = b
  generalize coefC pos = c
  generalize coefD pos = d
  generalize -1 / 6 / vol = A
  simp only [Res.foldlM'_cons, Res.foldlM'_nil, List.replicate]
  have w : ∀ (L : List ℝ) (i : Nat) (x : ℝ), i < L.length → Res.write L i x = .ok (L.set i x) := by
    intro L i x h; exact Res.write_eq_ok.mpr ⟨h, rfl⟩
  simp [w, flat, rectPairs, List.range_succ, ext, strainMat, strainOp]

theorem makeB0_eq {pos : Fin 4 → Fin 3 → ℝ} (h : (matS pos).det ≠ 0) :
    makeB0 pos ((matS pos).det / 6) = .ok (flat (-strainMat (G pos))) := by
  rw [makeB0_raw]
  congr 2
  have e : ∀ a, (![coefB pos a * (-1 / 6 / ((matS pos).det / 6)), coefC pos a * (-1 / 6 / ((matS pos).det / 6)),
      coefD pos a * (-1 / 6 / ((matS pos).det / 6))] : Fin 3 → ℝ) = -G pos a := by
    intro a
    funext k
    fin_cases k <;> simp [G] <;> field_simp
  have e2 : (fun a => (![coefB pos a * (-1 / 6 / ((matS pos).det / 6)), coefC pos a * (-1 / 6 / ((matS pos).det / 6)),
      coefD pos a * (-1 / 6 / ((matS pos).det / 6))] : Fin 3 → ℝ)) = fun a => -G pos a := funext e
  rw [e2]
  ext r j
  simp only [strainMat, Matrix.of_apply, Matrix.neg_apply]
  generalize G pos ⟨j.val / 3, _⟩ = g
  generalize (⟨j.val % 3, _⟩ : Fin 3) = k
  fin_cases r <;> fin_cases k <;> simp [strainOp]

/-- The displacements of four nodes one after the other. -/
def vec12 (u : Fin 4 → Fin 3 → ℝ) : Fin 12 → ℝ := fun j => u ⟨j.val / 3, by omega⟩ ⟨j.val % 3, by omega⟩

theorem vec12_list (u : Fin 4 → Fin 3 → ℝ) :
    [u 0 0, u 0 1, u 0 2, u 1 0, u 1 1, u 1 2, u 2 0, u 2 1, u 2 2, u 3 0, u 3 1, u 3 2] = List.ofFn (vec12 u) := by
  simp [vec12]

theorem strainMat_mulVec (g u : Fin 4 → Fin 3 → ℝ) :
    (strainMat g).mulVec (vec12 u) = ![∑ a, g a 0 * u a 0, ∑ a, g a 1 * u a 1, ∑ a, g a 2 * u a 2,
      ∑ a, g a 1 * u a 0 + ∑ a, g a 0 * u a 1, ∑ a, g a 2 * u a 1 + ∑ a, g a 1 * u a 2,
      ∑ a, g a 2 * u a 0 + ∑ a, g a 0 * u a 2] := by
  funext r
  fin_cases r <;> simp [Matrix.mulVec, dotProduct, Fin.sum_univ_succ, strainMat, strainOp, vec12] <;> ring

/-! ## The elasticity matrix -/

/-- The matrix of `makeC`. -/
noncomputable def elast (E my : ℝ) : Matrix (Fin 6) (Fin 6) ℝ :=
  (E / ((1 + my) * (1 - 2 * my))) •
  !![1 - my, my, my, 0, 0, 0;
     my, 1 - my, my, 0, 0, 0;
     my, my, 1 - my, 0, 0, 0;
     0, 0, 0, 1 / 2 - my, 0, 0;
     0, 0, 0, 0, 1 / 2 - my, 0;
     0, 0, 0, 0, 0, 1 / 2 - my]

theorem elast_symm (E my : ℝ) : (elast E my).IsSymm := by
  ext i j
  fin_cases i <;> fin_cases j <;> simp [elast]

theorem makeC0_eq (E my : ℝ) : makeC0 E my = .ok (pack (elast E my)) := by
  unfold makeC0
  generalize hA : E / ((1 + my) * (1 - 2 * my)) = A
  have h00 : comp 6 0 0 = 0 := by decide
  have h01 : comp 6 0 1 = 1 := by decide
  have h02 : comp 6 0 2 = 2 := by decide
  have h11 : comp 6 1 1 = 6 := by decide
  have h12 : comp 6 1 2 = 7 := by decide
  have h22 : comp 6 2 2 = 11 := by decide
  have h33 : comp 6 3 3 = 15 := by decide
  have h44 : comp 6 4 4 = 18 := by decide
  have h55 : comp 6 5 5 = 20 := by decide
  have w : ∀ (L : List ℝ) (i : Nat) (x : ℝ), i < L.length → Res.write L i x = .ok (L.set i x) := by
    intro L i x h; exact Res.write_eq_ok.mpr ⟨h, rfl⟩
  simp only [h00, h01, h02, h11, h12, h22, h33, h44, h55, List.replicate]
  have e : elast E my = A •
    !![1 - my, my, my, 0, 0, 0; my, 1 - my, my, 0, 0, 0; my, my, 1 - my, 0, 0, 0;
      0, 0, 0, 1 / 2 - my, 0, 0; 0, 0, 0, 0, 1 / 2 - my, 0; 0, 0, 0, 0, 0, 1 / 2 - my] := by rw [← hA]; rfl
  rw [e]
  simp [w, pack, upperPairs, List.range_succ, List.range', ext, mul_comm A]

/-- The elasticity matrix is positive semidefinite for `E ≥ 0` and `-1 < my < 1/2`. -/
theorem elast_psd {E my : ℝ} (hE : 0 ≤ E) (h1 : -1 < my) (h2 : my < 1 / 2) : (elast E my).PosSemidef := by
  unfold elast
  apply Matrix.PosSemidef.smul
  · apply Matrix.PosSemidef.of_dotProduct_mulVec_nonneg
    · ext i j
      fin_cases i <;> fin_cases j <;> simp
    · intro x
      have e : dotProduct (star x) (Matrix.mulVec !![1 - my, my, my, 0, 0, 0; my, 1 - my, my, 0, 0, 0; my, my, 1 - my, 0, 0, 0;
          0, 0, 0, 1 / 2 - my, 0, 0; 0, 0, 0, 0, 1 / 2 - my, 0; 0, 0, 0, 0, 0, 1 / 2 - my] x)
          = (1 + my) / 3 * (x 0 + x 1 + x 2) ^ 2
            + (1 - 2 * my) * ((x 0 - x 1) ^ 2 + (x 1 - x 2) ^ 2 + (x 0 - x 2) ^ 2) / 3
            + (1 / 2 - my) * (x 3 ^ 2 + x 4 ^ 2 + x 5 ^ 2) := by
        simp [Matrix.mulVec, dotProduct, Fin.sum_univ_succ]
        ring
      rw [e]
      have : 0 ≤ 1 + my := by linarith
      have : 0 ≤ 1 - 2 * my := by linarith
      have : 0 ≤ 1 / 2 - my := by linarith
      positivity
  · have : 0 < (1 + my) * (1 - 2 * my) := mul_pos (by linarith) (by linarith)
    positivity

/-! ## buildK and update -/

theorem rep_flat0 (n : Nat) : List.replicate n (0 : ℝ) = List.ofFn (fun _ : Fin n => (0 : ℝ)) := by
  rw [List.ofFn_const]

/-- The stiffness matrix. -/
noncomputable def stiff0 (pos : Fin 4 → Fin 3 → ℝ) (E my : ℝ) : Matrix (Fin 12) (Fin 12) ℝ :=
  ((matS pos).det / 6) • ((strainMat (G pos)).transpose * elast E my * strainMat (G pos))

theorem stiffness_eq {pos : Fin 4 → Fin 3 → ℝ} (E my : ℝ) :
    matBTDBprod 6 12 (flat (-strainMat (G pos))) (pack (elast E my)) ((matS pos).det / 6) (List.replicate 78 0)
      = .ok (pack (stiff0 pos E my)) := by
  rw [← Thermal.pack_zero (n := 12) (m := 78) rfl, matBTDBprod_eq _ (elast_symm E my), zero_add]
  congr 2
  unfold stiff0
  simp [Matrix.transpose_neg]

theorem update0_eq {pos : Fin 4 → Fin 3 → ℝ} (h : (matS pos).det ≠ 0) (u : Fin 4 → Fin 3 → ℝ) {e : Elem0}
    (hv : e.vol = (matS pos).det / 6) :
    update0 pos u e = .ok { e with
      strains := (strainMat (G pos)).mulVec (vec12 u)
      stress := (elast e.E e.my).mulVec ((strainMat (G pos)).mulVec (vec12 u)) } := by
  unfold update0
  dsimp only
  rw [makeC0_eq, Res.ok_bind, hv, makeB0_eq h, Res.ok_bind, vec12_list, rep_flat0 6, matBVprod_eq, Res.ok_bind,
    matBVprodSym_eq (elast_symm _ _), Res.ok_bind]
  have v6 : ∀ v : Fin 6 → ℝ, vec6 (List.ofFn v) = v := by
    intro v; funext i; fin_cases i <;> simp [vec6]
  have z : ∀ v : Fin 6 → ℝ, (fun _ : Fin 6 => (0 : ℝ)) + v = v := by intro v; funext i; simp
  simp only [v6, z, one_smul, Matrix.neg_mulVec, smul_neg, neg_smul, neg_neg]

theorem qlength_eq_zero {n : Nat} (v : Fin n → ℝ) : qlength v = 0 ↔ v = 0 := by
  unfold qlength
  rw [Iso.foldl_sum, zero_add, Finset.sum_eq_zero_iff_of_nonneg (fun i _ => mul_self_nonneg (v i))]
  constructor
  · intro h; funext i; exact mul_self_eq_zero.mp (h i (Finset.mem_univ i))
  · rintro rfl; simp

/-- The strains of an initial stress. -/
noncomputable def initial (e : Elem0) : Fin 6 → ℝ :=
  if e.stress = 0 then e.strains else (elast e.E e.my)⁻¹.mulVec e.stress

theorem mat6_flat (M : Matrix (Fin 6) (Fin 6) ℝ) : mat6 (flat M) = M := by
  funext i j
  have := flat_get M i.2 j.2
  unfold mat6
  rw [List.getD_eq_getElem?_getD, this, Option.getD_some, ext_fin]

theorem elast_det (E my : ℝ) : (elast E my).det =
    (E / ((1 + my) * (1 - 2 * my))) ^ 6 * ((1 + my) * (1 - 2 * my) ^ 2 * (1 / 2 - my) ^ 3) := by
  unfold elast
  rw [Matrix.det_smul, Fintype.card_fin]
  congr 1
  simp [Matrix.det_succ_row_zero, Fin.sum_univ_succ, Fin.succAbove]
  ring

theorem elast_regular {E my : ℝ} (hE : 0 < E) (h1 : -1 < my) (h2 : my < 1 / 2) : (elast E my).det ≠ 0 := by
  have a1 : 0 < 1 + my := by linarith
  have a2 : 0 < 1 - 2 * my := by linarith
  have a3 : 0 < 1 / 2 - my := by linarith
  rw [elast_det]
  positivity

theorem stressStrains_eq (e : Elem0) (h : e.stress = 0 ∨ (elast e.E e.my).det ≠ 0) :
    stressStrains e (pack (elast e.E e.my)) = .ok (initial e) := by
  unfold stressStrains initial
  by_cases hz : e.stress = 0
  · rw [if_neg (not_not.mpr ((qlength_eq_zero _).mpr hz)), if_pos hz]
  · rw [if_pos (fun hq => hz ((qlength_eq_zero _).mp hq)), if_neg hz, C30_toMat (elast_symm _ _), Res.ok_bind, mat6_flat]
    have hd := h.resolve_left hz
    obtain ⟨b, h1, h2⟩ := inv_eq 5 (elast e.E e.my) (elast e.E e.my).det hd
    rw [C32_det (n := 5), Res.ok_bind, h1, Res.ok_bind]
    congr 1
    funext i
    rw [Iso.foldl_sum, zero_add, Matrix.inv_def, Ring.inverse_eq_inv', ← h2]
    rfl

/-- The load of initial strains. -/
noncomputable def load0 (pos : Fin 4 → Fin 3 → ℝ) (E my : ℝ) (s : Fin 6 → ℝ) : Fin 12 → ℝ :=
  ((matS pos).det / 6) • ((strainMat (G pos)).transpose * elast E my).mulVec s

theorem buildK0_eq {pos : Fin 4 → Fin 3 → ℝ} (h : (matS pos).det ≠ 0) (e : Elem0)
    (hc : e.stress = 0 ∨ (elast e.E e.my).det ≠ 0) :
    buildK0 pos e = .ok (
      if (e.alpha ≠ 0 ∧ e.T ≠ 0) ∨ e.strains ≠ 0 ∨ e.stress ≠ 0 then
        ({ e with vol := (matS pos).det / 6, strains := addThermal e (initial e) }, pack (stiff0 pos e.E e.my),
          some (List.ofFn (load0 pos e.E e.my (addThermal e (initial e)))))
      else ({ e with vol := (matS pos).det / 6 }, pack (stiff0 pos e.E e.my), none)) := by
  unfold buildK0
  dsimp only
  rw [makeC0_eq, Res.ok_bind, makeB0_eq h, Res.ok_bind, stiffness_eq, Res.ok_bind]
  have hq : ((e.alpha ≠ 0 ∧ e.T ≠ 0) ∨ qlength e.strains ≠ 0 ∨ qlength e.stress ≠ 0) ↔
      ((e.alpha ≠ 0 ∧ e.T ≠ 0) ∨ e.strains ≠ 0 ∨ e.stress ≠ 0) := by
    simp only [Ne, qlength_eq_zero]
  by_cases hh : (e.alpha ≠ 0 ∧ e.T ≠ 0) ∨ e.strains ≠ 0 ∨ e.stress ≠ 0
  · rw [if_pos (hq.mpr hh), if_pos hh, C31_transpose, Res.ok_bind, C30_toMat (elast_symm _ _), Res.ok_bind, C31_mul, Res.ok_bind]
    have hs := stressStrains_eq { e with vol := (matS pos).det / 6 } hc
    dsimp only at hs
    rw [hs, Res.ok_bind, rep_flat0 12, matBVprod_eq, Res.ok_bind]
    have z : ∀ v : Fin 12 → ℝ, (fun _ : Fin 12 => (0 : ℝ)) + v = v := by intro v; funext i; simp
    have e1 : addThermal { e with vol := (matS pos).det / 6 } (initial { e with vol := (matS pos).det / 6 })
        = addThermal e (initial e) := rfl
    rw [e1, z]
    have e2 : -((matS pos).det / 6) • ((-strainMat (G pos)).transpose * elast e.E e.my).mulVec (addThermal e (initial e))
        = load0 pos e.E e.my (addThermal e (initial e)) := by
      unfold load0
      rw [Matrix.transpose_neg, Matrix.neg_mul, Matrix.neg_mulVec, smul_neg, neg_smul, neg_neg]
    rw [e2]
  · rw [if_neg (fun hc => hh (hq.mp hc)), if_neg hh]

/-! ## TETRA1 -/

/-- The gradient matrix. -/
noncomputable def gradMat (pos : Fin 4 → Fin 3 → ℝ) : Matrix (Fin 3) (Fin 4) ℝ := Matrix.of fun i a => G pos a i

theorem makeB1_eq {pos : Fin 4 → Fin 3 → ℝ} (h : (matS pos).det ≠ 0) :
    makeB1 pos ((matS pos).det / 6) = flat (-gradMat pos) := by
  have e : ∀ x : ℝ, x * (-1 / 6 / ((matS pos).det / 6)) = -(x / (matS pos).det) := by intro x; field_simp
  unfold makeB1
  dsimp only
  simp only [e]
  simp [flat, rectPairs, List.range_succ, ext, gradMat, G]

theorem makeC1_eq (k : ℝ) : makeC1 k = .ok (pack ((-k) • (1 : Matrix (Fin 3) (Fin 3) ℝ))) := by
  have h0 : comp 3 0 0 = 0 := by decide
  have h1 : comp 3 1 1 = 3 := by decide
  have h2 : comp 3 2 2 = 5 := by decide
  simp [makeC1, Res.write, h0, h1, h2, pack, upperPairs, List.range_succ, List.range', ext, List.replicate]

/-- The conductivity matrix the code builds. -/
noncomputable def cond1 (pos : Fin 4 → Fin 3 → ℝ) (k : ℝ) : Matrix (Fin 4) (Fin 4) ℝ :=
  (-(k * ((matS pos).det / 6))) • ((gradMat pos).transpose * gradMat pos)

theorem buildK1_eq {pos : Fin 4 → Fin 3 → ℝ} (h : (matS pos).det ≠ 0) (k : ℝ) :
    buildK1 pos k = .ok ((matS pos).det / 6, pack (cond1 pos k)) := by
  unfold buildK1 vol1
  have hs : ((-k) • (1 : Matrix (Fin 3) (Fin 3) ℝ)).IsSymm := by
    unfold Matrix.IsSymm; rw [Matrix.transpose_smul, Matrix.transpose_one]
  rw [C32_det (n := 3), Res.ok_bind, Res.ok_bind, makeC1_eq, Res.ok_bind, makeB1_eq h,
    ← Thermal.pack_zero (n := 4) (m := 10) rfl, matBTDBprod_eq _ hs, Res.ok_bind, zero_add]
  congr 3
  unfold cond1
  rw [Matrix.transpose_neg, Matrix.mul_smul, Matrix.mul_one, Matrix.smul_mul, Matrix.neg_mul, Matrix.mul_neg, neg_neg, smul_smul]
  congr 1
  ring

theorem update1_eq {pos : Fin 4 → Fin 3 → ℝ} (h : (matS pos).det ≠ 0) (k : ℝ) (T : Fin 4 → ℝ) :
    update1 pos k ((matS pos).det / 6) T = .ok (List.ofFn ((-k) • (gradMat pos).mulVec T)) := by
  unfold update1
  rw [makeB1_eq h, rep_flat0 3, matBVprod_eq]
  congr 2
  funext i
  simp [Matrix.neg_mulVec]

end Nla3d.Tetra
