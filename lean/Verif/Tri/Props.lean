import Verif.Tri.Lemmas

/-!
# C41: the linear triangle
-/

namespace Nla3d.Tri

open Dense
open Finset hiding ext

/-! ## Specification -/

/-- Nodal values of the affine vector field with value `t` at the origin and gradient `H i j = d u_i / d x_j`. -/
def affineField (pos : Fin 3 → Fin 2 → ℝ) (t : Fin 2 → ℝ) (H : Matrix (Fin 2) (Fin 2) ℝ) : Fin 3 → Fin 2 → ℝ :=
  fun a i => t i + ∑ j, H i j * pos a j

/-- The symmetric gradient in the order XX, YY, XY, with engineering shear. -/
def symGrad (H : Matrix (Fin 2) (Fin 2) ℝ) : Fin 3 → ℝ := ![H 0 0, H 1 1, H 0 1 + H 1 0]

/-- Compliance of the isotropic material, strains of the stresses XX, YY, XY, under plane stress and plane strain. -/
noncomputable def compliance (E my : ℝ) : PlaneState → Matrix (Fin 3) (Fin 3) ℝ
  | .stress => (1 / E) • !![1, -my, 0; -my, 1, 0; 0, 0, 2 * (1 + my)]
  | .strain => ((1 + my) / E) • !![1 - my, -my, 0; -my, 1 - my, 0; 0, 0, 2]

/-- The element matrix of the element is the inverse of the compliance: what `buildK` and `update` work with. -/
def Elastic (s : PlaneState) (E my : ℝ) : Prop :=
  ∃ C : Matrix (Fin 3) (Fin 3) ℝ, makeC E my s = .ok (pack C) ∧ C.IsSymm ∧ C * compliance E my s = 1

/-- An element as constructed, with material and state set. -/
def fresh (E my : ℝ) (s : PlaneState) : Elem := { E := E, my := my, state := s }

/-- `n` calls of `update` with the same displacements. -/
noncomputable def updates (pos u : Fin 3 → Fin 2 → ℝ) : Nat → Elem → Res Elem
  | 0, e => .ok e
  | n + 1, e => do
    let e ← update pos u e
    updates pos u n e

/-! ## Theorems -/

theorem strain_affine {pos : Fin 3 → Fin 2 → ℝ} (h : (matS pos).det ≠ 0) (t : Fin 2 → ℝ) (H : Matrix (Fin 2) (Fin 2) ℝ) :
    (strainMat (G pos)).mulVec (vec6 (affineField pos t H)) = symGrad H := by
  have e : ∀ i k, ∑ a, G pos a i * affineField pos t H a k = H k i := fun i k => (G_exact pos h).2 (t k) (H k) i
  rw [strainMat_mulVec]
  simp only [e]
  rfl

theorem ofFn3_zero : ([0, 0, 0] : List ℝ) = List.ofFn (0 : Fin 3 → ℝ) := by simp

/-- C41, strain: the first `update` after `buildK` reports the strain of every linear field, and the stress that the matrix of
`makeC` gives for it. -/
theorem C41_strain {pos : Fin 3 → Fin 2 → ℝ} (h : (matS pos).det ≠ 0) (E my : ℝ) (s : PlaneState) (t : Fin 2 → ℝ)
    (H : Matrix (Fin 2) (Fin 2) ℝ) :
    ∃ (e1 : Elem) (K : List ℝ) (e2 : Elem) (C : Matrix (Fin 3) (Fin 3) ℝ), buildK pos (fresh E my s) = .ok (e1, K) ∧
      update pos (affineField pos t H) e1 = .ok e2 ∧ e2.strains = List.ofFn (symGrad H) ∧
      makeC E my s = .ok (pack C) ∧ C.IsSymm ∧ e2.stress = List.ofFn (C.mulVec (symGrad H)) := by
  have hu := update_eq h (affineField pos t H) (e := { fresh E my s with area := some ((matS pos).det / 2) }) rfl 0 0
    ofFn3_zero ofFn3_zero
  rw [strain_affine h, zero_add, zero_add] at hu
  exact ⟨_, _, _, _, buildK_eq h _, hu, rfl, makeC_eq _ _ _, elast_symm _ _ _, rfl⟩

/-- C41, plane strain: inverse of the compliance for every admissible material. -/
theorem C41_plane_strain {E my : ℝ} (hE : 0 < E) (h1 : -1 < my) (h2 : my < 1 / 2) : Elastic .strain E my := by
  refine ⟨_, makeC_eq E my .strain, elast_symm _ _ _, ?_⟩
  have a1 : 1 + my ≠ 0 := by intro h; linarith
  have a2 : 1 - 2 * my ≠ 0 := by intro h; linarith
  have a2' : 1 - my * 2 ≠ 0 := by rwa [mul_comm my 2]
  have a3 : 1 - my ≠ 0 := by intro h; linarith
  ext i j
  fin_cases i <;> fin_cases j <;>
    simp [elast, compliance, Matrix.mul_apply, Fin.sum_univ_three] <;> field_simp <;> ring

/-- C41 fails for plane stress: the code has `E*(1-my^2)` where `E/(1-my^2)` is needed. The product with the compliance is
`(1-my^2)^2`, so the matrix is right only for `my = 0`. -/
theorem C41_plane_stress_violated {E my : ℝ} (hE : 0 < E) (h1 : -1 < my) (h2 : my < 1 / 2) :
    Elastic .stress E my ↔ my = 0 := by
  have hp : elast E my .stress * compliance E my .stress = ((1 - my ^ 2) ^ 2) • (1 : Matrix (Fin 3) (Fin 3) ℝ) := by
    ext i j
    fin_cases i <;> fin_cases j <;>
      simp [elast, compliance, Matrix.mul_apply, Fin.sum_univ_three] <;> field_simp <;> ring
  constructor
  · rintro ⟨C, hC, hs, hI⟩
    rw [makeC_eq, Res.ok.injEq] at hC
    have hCe : elast E my .stress = C := pack_inj (elast_symm _ _ _) hs hC
    rw [← hCe, hp] at hI
    have := congrFun (congrFun hI 0) 0
    simp at this
    have hm : my ^ 2 < 1 := by nlinarith
    rcases this with h | h
    · exact h
    · linarith
  · rintro rfl
    refine ⟨_, makeC_eq E 0 .stress, elast_symm _ _ _, ?_⟩
    rw [hp]; simp

/-- C41, stiffness: symmetric, and rigid motions give zero nodal forces; for both states. -/
theorem C41_stiffness {pos : Fin 3 → Fin 2 → ℝ} (h : (matS pos).det ≠ 0) (E my : ℝ) (s : PlaneState) :
    ∃ (e1 : Elem) (K : Matrix (Fin 6) (Fin 6) ℝ), buildK pos (fresh E my s) = .ok (e1, pack K) ∧ K.IsSymm ∧
      (∀ (t : Fin 2 → ℝ) (W : Matrix (Fin 2) (Fin 2) ℝ), W.transpose = -W → K.mulVec (vec6 (affineField pos t W)) = 0) ∧
      (∀ (t : Fin 2 → ℝ) (H : Matrix (Fin 2) (Fin 2) ℝ) (C : Matrix (Fin 3) (Fin 3) ℝ), C.IsSymm → makeC E my s = .ok (pack C) →
        dotProduct (vec6 (affineField pos t H)) (K.mulVec (vec6 (affineField pos t H))) =
          (matS pos).det / 2 * dotProduct (symGrad H) (C.mulVec (symGrad H))) := by
  refine ⟨_, stiff pos E my s, buildK_eq h _, ?_, ?_, ?_⟩
  · unfold stiff Matrix.IsSymm
    rw [Matrix.transpose_smul, Matrix.transpose_mul, Matrix.transpose_mul, Matrix.transpose_transpose, elast_symm, Matrix.mul_assoc]
  · intro t W hW
    have w : ∀ i j, W j i = -W i j := fun i j => congrFun (congrFun hW i) j
    have hz : symGrad W = 0 := by
      have d : ∀ i, W i i = 0 := fun i => by have := w i i; linarith
      funext r
      fin_cases r <;> simp [symGrad, d, w 0 1]
    unfold stiff
    rw [Matrix.smul_mulVec, ← Matrix.mulVec_mulVec, strain_affine h, hz, Matrix.mulVec_zero, smul_zero]
  · intro t H C hs hC
    rw [makeC_eq, Res.ok.injEq] at hC
    rw [← pack_inj (elast_symm _ _ _) hs hC]
    unfold stiff
    rw [Matrix.smul_mulVec, dotProduct_smul, ← Matrix.mulVec_mulVec, ← Matrix.mulVec_mulVec, strain_affine h,
      Matrix.dotProduct_mulVec, Matrix.vecMul_transpose, strain_affine h, smul_eq_mul]

theorem updates_eq {pos : Fin 3 → Fin 2 → ℝ} (h : (matS pos).det ≠ 0) (u : Fin 3 → Fin 2 → ℝ) (eps : Fin 3 → ℝ)
    (he : (strainMat (G pos)).mulVec (vec6 u) = eps) : ∀ (n : Nat) (e : Elem) (k : ℝ), e.area = some ((matS pos).det / 2) →
      e.strains = List.ofFn (k • eps) → e.stress = List.ofFn ((k * (k + 1) / 2) • (elast e.E e.my e.state).mulVec eps) →
      updates pos u n e = .ok { e with
        strains := List.ofFn ((k + n) • eps)
        stress := List.ofFn (((k + n) * (k + n + 1) / 2) • (elast e.E e.my e.state).mulVec eps) } := by
  intro n
  induction n with
  | zero =>
    intro e k h0 h1 h2
    unfold updates
    rw [Nat.cast_zero, add_zero, ← h1, ← h2]
  | succ n ih =>
    intro e k h0 h1 h2
    unfold updates
    rw [update_eq h u h0 _ _ h1 h2, Res.ok_bind, he]
    have a1 : k • eps + eps = (k + 1) • eps := by rw [add_smul, one_smul]
    have a2 : (k * (k + 1) / 2) • (elast e.E e.my e.state).mulVec eps + (elast e.E e.my e.state).mulVec ((k + 1) • eps)
        = ((k + 1) * (k + 1 + 1) / 2) • (elast e.E e.my e.state).mulVec eps := by
      rw [Matrix.mulVec_smul, ← add_smul]; congr 1; ring
    rw [a1, a2, ih _ (k + 1) (by exact h0) rfl rfl]
    have a3 : k + 1 + (n : ℝ) = k + ((n + 1 : Nat) : ℝ) := by push_cast; ring
    rw [a3]

/-- What repeated updates report: after `n` calls the strain is `n` times, the stress `n(n+1)/2` times the right one. -/
theorem C41_updates {pos : Fin 3 → Fin 2 → ℝ} (h : (matS pos).det ≠ 0) (E my : ℝ) (s : PlaneState) (t : Fin 2 → ℝ)
    (H : Matrix (Fin 2) (Fin 2) ℝ) (n : Nat) :
    ∃ (e1 : Elem) (K : List ℝ) (e2 : Elem) (C : Matrix (Fin 3) (Fin 3) ℝ), buildK pos (fresh E my s) = .ok (e1, K) ∧
      updates pos (affineField pos t H) n e1 = .ok e2 ∧ makeC E my s = .ok (pack C) ∧ C.IsSymm ∧
      e2.strains = List.ofFn ((n : ℝ) • symGrad H) ∧
      e2.stress = List.ofFn (((n : ℝ) * (n + 1) / 2) • C.mulVec (symGrad H)) := by
  have hu := updates_eq h (affineField pos t H) _ (strain_affine h t H) n
    { fresh E my s with area := some ((matS pos).det / 2) } 0 rfl (by rw [zero_smul]; exact ofFn3_zero)
    (by rw [zero_mul, zero_div, zero_smul]; exact ofFn3_zero)
  rw [zero_add] at hu
  exact ⟨_, _, _, _, buildK_eq h _, hu, makeC_eq _ _ _, elast_symm _ _ _, rfl, rfl⟩

/-- C41 fails for repeated updates: whenever the strain is not zero, the second `update` reports another strain than the first,
for the same displacements. -/
theorem C41_update_violated {pos : Fin 3 → Fin 2 → ℝ} (h : (matS pos).det ≠ 0) (E my : ℝ) (s : PlaneState) (t : Fin 2 → ℝ)
    (H : Matrix (Fin 2) (Fin 2) ℝ) (hH : symGrad H ≠ 0) :
    ∃ (e1 : Elem) (K : List ℝ) (e2 e3 : Elem), buildK pos (fresh E my s) = .ok (e1, K) ∧
      update pos (affineField pos t H) e1 = .ok e2 ∧ update pos (affineField pos t H) e2 = .ok e3 ∧ e3.strains ≠ e2.strains := by
  have hu := update_eq h (affineField pos t H) (e := { fresh E my s with area := some ((matS pos).det / 2) }) rfl 0 0
    ofFn3_zero ofFn3_zero
  rw [strain_affine h, zero_add, zero_add] at hu
  have hv := update_eq h (affineField pos t H) (e := { fresh E my s with
    area := some ((matS pos).det / 2), strains := List.ofFn (symGrad H)
    stress := List.ofFn ((elast E my s).mulVec (symGrad H)) }) rfl _ _ rfl rfl
  rw [strain_affine h] at hv
  refine ⟨_, _, _, _, buildK_eq h _, hu, hv, ?_⟩
  intro hc
  have := List.ofFn_injective hc
  exact hH (add_eq_left.mp this)

/-! ## Cases -/

/-- The unit right triangle. -/
def unitTri : Fin 3 → Fin 2 → ℝ := ![![0, 0], ![1, 0], ![0, 1]]

theorem unitTri_det : (matS unitTri).det = 1 := by rw [det_matS]; simp [unitTri]

example : (matS unitTri).det ≠ 0 := by rw [unitTri_det]; norm_num
example : symGrad !![0.1, 0.2; 0, 0] ≠ 0 := by intro h; have := congrFun h 0; norm_num [symGrad] at this
example : (!![0, 1; -1, 0] : Matrix (Fin 2) (Fin 2) ℝ).transpose = -!![0, 1; -1, 0] := by
  ext i j; fin_cases i <;> fin_cases j <;> simp
/-- Steel under plane stress: the matrix is wrong. -/
example : ¬ Elastic .stress 200 0.3 := by
  rw [C41_plane_stress_violated (by norm_num) (by norm_num) (by norm_num)]; norm_num

end Nla3d.Tri
