import Verif.Tri.Model
import Verif.Tetra.Props

/-!
# Closed forms for the triangle
-/

namespace Nla3d.Tri

open Dense
open Finset hiding ext

/-- The packed array determines a symmetric matrix. -/
theorem pack_inj {n : Nat} {A B : Matrix (Fin n) (Fin n) ℝ} (hA : A.IsSymm) (hB : B.IsSymm) (h : pack A = pack B) : A = B := by
  have up : ∀ i j : Fin n, i.val ≤ j.val → A i j = B i j := by
    intro i j hij
    have h1 := pack_get A hij j.2
    rw [h, pack_get B hij j.2, Option.some.injEq, ext_fin, ext_fin] at h1
    exact h1.symm
  ext i j
  rcases le_total i.val j.val with hij | hij
  · exact up i j hij
  · rw [← hA.apply, ← hB.apply, up j i hij]

/-- Twice the area. -/
theorem det_matS (pos : Fin 3 → Fin 2 → ℝ) : (matS pos).det =
    (pos 1 0 - pos 0 0) * (pos 2 1 - pos 0 1) - (pos 1 1 - pos 0 1) * (pos 2 0 - pos 0 0) := by
  simp [matS, Matrix.det_fin_three]
  ring

/-- The gradient of the shape function of node `a`. -/
noncomputable def G (pos : Fin 3 → Fin 2 → ℝ) : Fin 3 → Fin 2 → ℝ :=
  ![![(pos 1 1 - pos 2 1) / (matS pos).det, (pos 2 0 - pos 1 0) / (matS pos).det],
    ![(pos 2 1 - pos 0 1) / (matS pos).det, (pos 0 0 - pos 2 0) / (matS pos).det],
    ![(pos 0 1 - pos 1 1) / (matS pos).det, (pos 1 0 - pos 0 0) / (matS pos).det]]

theorem G_exact (pos : Fin 3 → Fin 2 → ℝ) (h : (matS pos).det ≠ 0) : Iso.Exact pos (G pos) := by
  refine ⟨fun i => ?_, fun c b i => ?_⟩
  · fin_cases i <;> simp [Fin.sum_univ_three, G] <;> field_simp <;> ring
  · fin_cases i <;> simp [Fin.sum_univ_three, Fin.sum_univ_two, G] <;> field_simp <;> rw [det_matS] <;> ring

/-- The strain operator for one node: XX, YY, XY with engineering shear. -/
def strainOp (g : Fin 2 → ℝ) : Matrix (Fin 3) (Fin 2) ℝ := !![g 0, 0; 0, g 1; g 1, g 0]

/-- The strain matrix for the displacements of three nodes. -/
def strainMat (g : Fin 3 → Fin 2 → ℝ) : Matrix (Fin 3) (Fin 6) ℝ :=
  Matrix.of fun r j => strainOp (g ⟨j.val / 2, by omega⟩) r ⟨j.val % 2, by omega⟩

theorem makeB_eq {pos : Fin 3 → Fin 2 → ℝ} (h : (matS pos).det ≠ 0) :
    makeB pos ((matS pos).det / 2) = .ok (flat (strainMat (G pos))) := by
  have hA : ∀ x : ℝ, x / (matS pos).det = x * (1 / 2 / ((matS pos).det / 2)) := by intro x; field_simp
  unfold makeB strainMat G
  simp only [hA]
  generalize 1 / 2 / ((matS pos).det / 2) = A
  have w : ∀ (L : List ℝ) (i : Nat) (x : ℝ), i < L.length → Res.write L i x = .ok (L.set i x) := by
    intro L i x h; exact Res.write_eq_ok.mpr ⟨h, rfl⟩
  simp [w, flat, rectPairs, List.range_succ, ext, strainOp, List.replicate]

/-- The displacements of three nodes one after the other. -/
def vec6 (u : Fin 3 → Fin 2 → ℝ) : Fin 6 → ℝ := fun j => u ⟨j.val / 2, by omega⟩ ⟨j.val % 2, by omega⟩

theorem vec6_list (u : Fin 3 → Fin 2 → ℝ) : [u 0 0, u 0 1, u 1 0, u 1 1, u 2 0, u 2 1] = List.ofFn (vec6 u) := by
  simp [vec6]

theorem strainMat_mulVec (g u : Fin 3 → Fin 2 → ℝ) :
    (strainMat g).mulVec (vec6 u) =
      ![∑ a, g a 0 * u a 0, ∑ a, g a 1 * u a 1, ∑ a, g a 1 * u a 0 + ∑ a, g a 0 * u a 1] := by
  funext r
  fin_cases r <;> simp [Matrix.mulVec, dotProduct, Fin.sum_univ_succ, strainMat, strainOp, vec6] <;> ring

/-- The matrix of `makeC`. -/
noncomputable def elast (E my : ℝ) : PlaneState → Matrix (Fin 3) (Fin 3) ℝ
  | .strain => (E * (1 - my) / ((1 + my) * (1 - 2 * my))) •
      !![1, my / (1 - my), 0; my / (1 - my), 1, 0; 0, 0, (1 - 2 * my) / (2 * (1 - my))]
  | .stress => (E * (1 - my * my)) • !![1, my, 0; my, 1, 0; 0, 0, (1 - my) / 2]

theorem elast_symm (E my : ℝ) (s : PlaneState) : (elast E my s).IsSymm := by
  ext i j
  cases s <;> fin_cases i <;> fin_cases j <;> simp [elast]

theorem makeC_eq (E my : ℝ) (s : PlaneState) : makeC E my s = .ok (pack (elast E my s)) := by
  have h00 : comp 3 0 0 = 0 := by decide
  have h01 : comp 3 0 1 = 1 := by decide
  have h11 : comp 3 1 1 = 3 := by decide
  have h22 : comp 3 2 2 = 5 := by decide
  have w : ∀ (L : List ℝ) (i : Nat) (x : ℝ), i < L.length → Res.write L i x = .ok (L.set i x) := by
    intro L i x h; exact Res.write_eq_ok.mpr ⟨h, rfl⟩
  cases s
  · unfold makeC makeCStrain elast
    generalize E * (1 - my) / ((1 + my) * (1 - 2 * my)) = A
    simp only [h00, h01, h11, h22, List.replicate]
    simp [w, pack, upperPairs, List.range_succ, List.range', ext, mul_comm A]
  · unfold makeC makeCStress elast
    generalize E * (1 - my * my) = A
    simp only [h00, h01, h11, h22, List.replicate]
    simp [w, pack, upperPairs, List.range_succ, List.range', ext, mul_comm A]

/-- The stiffness matrix. -/
noncomputable def stiff (pos : Fin 3 → Fin 2 → ℝ) (E my : ℝ) (s : PlaneState) : Matrix (Fin 6) (Fin 6) ℝ :=
  ((matS pos).det / 2) • ((strainMat (G pos)).transpose * elast E my s * strainMat (G pos))

theorem buildK_eq {pos : Fin 3 → Fin 2 → ℝ} (h : (matS pos).det ≠ 0) (e : Elem) :
    buildK pos e = .ok ({ e with area := some ((matS pos).det / 2) }, pack (stiff pos e.E e.my e.state)) := by
  unfold buildK
  dsimp only
  rw [makeC_eq, Res.ok_bind, makeB_eq h, Res.ok_bind, ← Thermal.pack_zero (n := 6) (m := 21) rfl,
    matBTDBprod_eq _ (elast_symm _ _ _), Res.ok_bind, zero_add]
  rfl

theorem update_eq {pos : Fin 3 → Fin 2 → ℝ} (h : (matS pos).det ≠ 0) (u : Fin 3 → Fin 2 → ℝ) {e : Elem}
    (ha : e.area = some ((matS pos).det / 2)) (strains stress : Fin 3 → ℝ) (h1 : e.strains = List.ofFn strains)
    (h2 : e.stress = List.ofFn stress) :
    update pos u e = .ok { e with
      strains := List.ofFn (strains + (strainMat (G pos)).mulVec (vec6 u))
      stress := List.ofFn (stress + (elast e.E e.my e.state).mulVec (strains + (strainMat (G pos)).mulVec (vec6 u))) } := by
  unfold update Elem.getArea
  rw [makeC_eq, Res.ok_bind, ha, Res.ok_bind, makeB_eq h, Res.ok_bind]
  dsimp only
  rw [vec6_list, h1, matBVprod_eq, Res.ok_bind, h2, matBVprodSym_eq (elast_symm _ _ _), Res.ok_bind, one_smul, one_smul]

end Nla3d.Tri
