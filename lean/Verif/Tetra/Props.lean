import Verif.Tetra.Lemmas

/-!
# C38, C39, C40, C65: linear tetrahedra
-/

namespace Nla3d.Tetra

open Dense
open Finset hiding ext

/-! ## Specification -/

/-- Nodal values of the affine vector field with value `t` at the origin and gradient `H i j = d u_i / d x_j`. -/
def affineField (pos : Fin 4 → Fin 3 → ℝ) (t : Fin 3 → ℝ) (H : Matrix (Fin 3) (Fin 3) ℝ) : Fin 4 → Fin 3 → ℝ :=
  fun a i => t i + ∑ j, H i j * pos a j

/-- The symmetric gradient in the order XX, YY, ZZ, XY, YZ, XZ, with engineering shears. -/
def symGrad (H : Matrix (Fin 3) (Fin 3) ℝ) : Fin 6 → ℝ :=
  ![H 0 0, H 1 1, H 2 2, H 0 1 + H 1 0, H 1 2 + H 2 1, H 0 2 + H 2 0]

/-- Isotropic linear elasticity with the Lamé coefficients `lam` and `mu`. -/
def hooke (lam mu : ℝ) (e : Fin 6 → ℝ) : Fin 6 → ℝ :=
  ![lam * (e 0 + e 1 + e 2) + 2 * mu * e 0, lam * (e 0 + e 1 + e 2) + 2 * mu * e 1, lam * (e 0 + e 1 + e 2) + 2 * mu * e 2,
    mu * e 3, mu * e 4, mu * e 5]

/-- The Lamé coefficients of `E` and Poisson's ratio. -/
noncomputable def lameLam (E nu : ℝ) : ℝ := E * nu / ((1 + nu) * (1 - 2 * nu))
noncomputable def lameMu (E nu : ℝ) : ℝ := E / (2 * (1 + nu))

/-- Admissible elastic constants. -/
structure Admissible (e : Elem0) : Prop where
  E : 0 < e.E
  lo : -1 < e.my
  hi : e.my < 1 / 2

/-! ## C38 -/

attribute [local irreducible] stiff0 load0 elast

/-- `buildK0_eq` with the state spelt out, when there is a load. -/
theorem buildK0_loaded {pos : Fin 4 → Fin 3 → ℝ} (h : (matS pos).det ≠ 0) (E my alpha T : ℝ) (stress strains : Fin 6 → ℝ) (vol : ℝ)
    (hc : stress = 0 ∨ (elast E my).det ≠ 0) (hl : (alpha ≠ 0 ∧ T ≠ 0) ∨ strains ≠ 0 ∨ stress ≠ 0) (s : Fin 6 → ℝ)
    (hs : addThermal ⟨E, my, alpha, T, stress, strains, vol⟩ (initial ⟨E, my, alpha, T, stress, strains, vol⟩) = s) :
    buildK0 pos ⟨E, my, alpha, T, stress, strains, vol⟩ =
      .ok (⟨E, my, alpha, T, stress, s, (matS pos).det / 6⟩, pack (stiff0 pos E my), some (List.ofFn (load0 pos E my s))) := by
  subst hs
  rw [buildK0_eq h ⟨E, my, alpha, T, stress, strains, vol⟩ hc, if_pos hl]

/-- And when there is none. -/
theorem buildK0_unloaded {pos : Fin 4 → Fin 3 → ℝ} (h : (matS pos).det ≠ 0) (E my alpha T : ℝ) (vol : ℝ)
    (hl : ¬ (alpha ≠ 0 ∧ T ≠ 0)) :
    buildK0 pos ⟨E, my, alpha, T, 0, 0, vol⟩ = .ok (⟨E, my, alpha, T, 0, 0, (matS pos).det / 6⟩, pack (stiff0 pos E my), none) := by
  rw [buildK0_eq h ⟨E, my, alpha, T, 0, 0, vol⟩ (Or.inl rfl), if_neg (by simpa using hl)]

theorem stiff0_symm (pos : Fin 4 → Fin 3 → ℝ) (E my : ℝ) : (stiff0 pos E my).IsSymm := by
  unfold stiff0 Matrix.IsSymm
  rw [Matrix.transpose_smul, Matrix.transpose_mul, Matrix.transpose_mul, Matrix.transpose_transpose, elast_symm, Matrix.mul_assoc]

theorem strain_affine {pos : Fin 4 → Fin 3 → ℝ} (h : (matS pos).det ≠ 0) (t : Fin 3 → ℝ) (H : Matrix (Fin 3) (Fin 3) ℝ) :
    (strainMat (G pos)).mulVec (vec12 (affineField pos t H)) = symGrad H := by
  have e : ∀ i k, ∑ a, G pos a i * affineField pos t H a k = H k i := fun i k => (G_exact pos h).2 (t k) (H k) i
  rw [strainMat_mulVec]
  simp only [e]
  rfl

theorem elast_hooke {E nu : ℝ} (h1 : 1 + nu ≠ 0) (h2 : 1 - 2 * nu ≠ 0) (s : Fin 6 → ℝ) :
    (elast E nu).mulVec s = hooke (lameLam E nu) (lameMu E nu) s := by
  funext i
  have h2' : 1 - nu * 2 ≠ 0 := by rwa [mul_comm nu 2]
  fin_cases i <;> simp [elast, hooke, lameLam, lameMu, Matrix.mulVec, dotProduct, Fin.sum_univ_succ, -mul_eq_mul_right_iff] <;>
    field_simp <;> ring

/-- C38, strain and stress: for every non-degenerate tetrahedron, every state before and every linear displacement field the
element, built and updated, reports the symmetric gradient and Hooke's stress of it. -/
theorem C38_strain {pos : Fin 4 → Fin 3 → ℝ} (h : (matS pos).det ≠ 0) {e : Elem0} (he : Admissible e) (t : Fin 3 → ℝ)
    (H : Matrix (Fin 3) (Fin 3) ℝ) :
    ∃ e1 K F e2, buildK0 pos e = .ok (e1, K, F) ∧ update0 pos (affineField pos t H) e1 = .ok e2 ∧
      e2.strains = symGrad H ∧ e2.stress = hooke (lameLam e.E e.my) (lameMu e.E e.my) (symGrad H) := by
  have hb := buildK0_eq h e (Or.inr (elast_regular he.E he.lo he.hi))
  have h1 : 1 + e.my ≠ 0 := by have := he.lo; intro h; linarith
  have h2 : 1 - 2 * e.my ≠ 0 := by have := he.hi; intro h; linarith
  split at hb
  · refine ⟨_, _, _, _, hb, update0_eq h _ rfl, ?_, ?_⟩
    · exact strain_affine h t H
    · show (elast e.E e.my).mulVec _ = _
      rw [strain_affine h t H, elast_hooke h1 h2]
  · refine ⟨_, _, _, _, hb, update0_eq h _ rfl, ?_, ?_⟩
    · exact strain_affine h t H
    · show (elast e.E e.my).mulVec _ = _
      rw [strain_affine h t H, elast_hooke h1 h2]

/-- What `buildK` hands over as the matrix, whatever the state. -/
theorem buildK0_matrix {pos : Fin 4 → Fin 3 → ℝ} (h : (matS pos).det ≠ 0) {e : Elem0} (he : Admissible e) :
    ∃ e1 F, buildK0 pos e = .ok (e1, pack (stiff0 pos e.E e.my), F) := by
  have hb := buildK0_eq h e (Or.inr (elast_regular he.E he.lo he.hi))
  split at hb
  · exact ⟨_, _, hb⟩
  · exact ⟨_, _, hb⟩

/-- C38, stiffness: symmetric; infinitesimal rigid motions (skew gradient) give zero nodal forces; the energy of a linear field
is volume times stress times strain. -/
theorem C38_stiffness {pos : Fin 4 → Fin 3 → ℝ} (h : (matS pos).det ≠ 0) {e : Elem0} (he : Admissible e) :
    ∃ e1 K F, buildK0 pos e = .ok (e1, pack K, F) ∧ K.IsSymm ∧
      (∀ (t : Fin 3 → ℝ) (W : Matrix (Fin 3) (Fin 3) ℝ), W.transpose = -W → K.mulVec (vec12 (affineField pos t W)) = 0) ∧
      (∀ (t : Fin 3 → ℝ) (H : Matrix (Fin 3) (Fin 3) ℝ),
        dotProduct (vec12 (affineField pos t H)) (K.mulVec (vec12 (affineField pos t H))) =
          e1.vol * dotProduct (symGrad H) (hooke (lameLam e.E e.my) (lameMu e.E e.my) (symGrad H))) ∧
      (0 < (matS pos).det → K.PosSemidef) := by
  have h1 : 1 + e.my ≠ 0 := by have := he.lo; intro h; linarith
  have h2 : 1 - 2 * e.my ≠ 0 := by have := he.hi; intro h; linarith
  have hvol : ∃ e1 F, buildK0 pos e = .ok (e1, pack (stiff0 pos e.E e.my), F) ∧ e1.vol = (matS pos).det / 6 := by
    have hb := buildK0_eq h e (Or.inr (elast_regular he.E he.lo he.hi))
    split at hb
    · exact ⟨_, _, hb, rfl⟩
    · exact ⟨_, _, hb, rfl⟩
  obtain ⟨e1, F, hb, hv⟩ := hvol
  refine ⟨e1, _, F, hb, ?_, ?_, ?_, ?_⟩
  · unfold stiff0 Matrix.IsSymm
    rw [Matrix.transpose_smul, Matrix.transpose_mul, Matrix.transpose_mul, Matrix.transpose_transpose, elast_symm, Matrix.mul_assoc]
  · intro t W hW
    have w : ∀ i j, W j i = -W i j := fun i j => congrFun (congrFun hW i) j
    have hz : symGrad W = 0 := by
      have d : ∀ i, W i i = 0 := fun i => by have := w i i; linarith
      funext r
      fin_cases r <;> simp [symGrad, d, w 0 1, w 1 2, w 0 2]
    unfold stiff0
    rw [Matrix.smul_mulVec, ← Matrix.mulVec_mulVec, strain_affine h, hz, Matrix.mulVec_zero, smul_zero]
  · intro t H
    unfold stiff0
    rw [Matrix.smul_mulVec, dotProduct_smul, ← Matrix.mulVec_mulVec, ← Matrix.mulVec_mulVec, strain_affine h,
      Matrix.dotProduct_mulVec, Matrix.vecMul_transpose, strain_affine h, elast_hooke h1 h2, hv, smul_eq_mul]
  · intro hp
    unfold stiff0
    apply Matrix.PosSemidef.smul
    · have := (elast_psd he.E.le he.lo he.hi).conjTranspose_mul_mul_same (strainMat (G pos))
      rw [Matrix.conjTranspose_eq_transpose_of_trivial] at this
      exact this
    · positivity

/-! ## C39 -/

/-- An element as constructed, with material and temperature set. -/
def fresh (E my alpha T : ℝ) : Elem0 := { E := E, my := my, alpha := alpha, T := T }

/-- The gradient of free thermal expansion. -/
def expansion (alpha T : ℝ) : Matrix (Fin 3) (Fin 3) ℝ := (alpha * T) • (1 : Matrix (Fin 3) (Fin 3) ℝ)

/-- C39, first half: the thermal load balances the elastic forces of free expansion. Missing: the reported stress is not zero,
see `C39_violated`. -/
theorem C39_partial {pos : Fin 4 → Fin 3 → ℝ} (h : (matS pos).det ≠ 0) (E my : ℝ) {alpha T : ℝ}
    (ha : alpha ≠ 0) (hT : T ≠ 0) (t : Fin 3 → ℝ) :
    ∃ (e1 : Elem0) (K : Matrix (Fin 12) (Fin 12) ℝ) (F : Fin 12 → ℝ),
      buildK0 pos (fresh E my alpha T) = .ok (e1, pack K, some (List.ofFn F)) ∧ K.IsSymm ∧
      K.mulVec (vec12 (affineField pos t (expansion alpha T))) = F := by
  have hs : addThermal (fresh E my alpha T) (initial (fresh E my alpha T)) = symGrad (expansion alpha T) := by
    unfold addThermal initial
    rw [if_pos ⟨ha, hT⟩, if_pos (show (fresh E my alpha T).stress = 0 from rfl)]
    funext i
    fin_cases i <;> simp [symGrad, expansion, fresh]
  refine ⟨_, stiff0 pos E my, _, buildK0_loaded h E my alpha T 0 0 0 (Or.inl rfl) (Or.inl ⟨ha, hT⟩) _ hs, stiff0_symm _ _ _, ?_⟩
  unfold stiff0 load0
  rw [Matrix.smul_mulVec, ← Matrix.mulVec_mulVec, strain_affine h]

/-- C39 fails in its second half, for every tetrahedron and every admissible material: after free expansion the element reports
the hydrostatic stress `E alpha T / (1 - 2 my)`, which is not zero. -/
theorem C39_violated {pos : Fin 4 → Fin 3 → ℝ} (h : (matS pos).det ≠ 0) {E my alpha T : ℝ}
    (he : Admissible (fresh E my alpha T)) (ha : alpha ≠ 0) (hT : T ≠ 0) (t : Fin 3 → ℝ) :
    ∃ e1 K F e2, buildK0 pos (fresh E my alpha T) = .ok (e1, K, F) ∧
      update0 pos (affineField pos t (expansion alpha T)) e1 = .ok e2 ∧
      e2.stress = ![E * alpha * T / (1 - 2 * my), E * alpha * T / (1 - 2 * my), E * alpha * T / (1 - 2 * my), 0, 0, 0] ∧
      e2.stress ≠ 0 := by
  obtain ⟨e1, K, F, e2, h1, h2, h3, h4⟩ := C38_strain h he t (expansion alpha T)
  have a1 : 1 + my ≠ 0 := by have := he.lo; intro h; simp only [fresh] at this; linarith
  have a2 : 1 - 2 * my ≠ 0 := by have := he.hi; intro h; simp only [fresh] at this; linarith
  have e : e2.stress = ![E * alpha * T / (1 - 2 * my), E * alpha * T / (1 - 2 * my), E * alpha * T / (1 - 2 * my), 0, 0, 0] := by
    rw [h4]
    have a2' : 1 - my * 2 ≠ 0 := by rwa [mul_comm my 2]
    funext i
    fin_cases i <;> simp [hooke, symGrad, expansion, lameLam, lameMu, fresh] <;> field_simp <;> ring
  refine ⟨e1, K, F, e2, h1, h2, e, ?_⟩
  intro hz
  rw [e] at hz
  have := congrFun hz 0
  simp at this
  have hE : E ≠ 0 := he.E.ne'
  rcases this with ((h | h) | h) | h
  · exact hE h
  · exact ha h
  · exact hT h
  · exact a2 h

/-! ## C65: building again -/

/-- C65 fails: build, update with a linear field that strains the element, build again. The first build has no load. The second
one takes the stress computed by `update` for an initial stress and adds the whole elastic force `K u` as a load. -/
theorem C65_violated {pos : Fin 4 → Fin 3 → ℝ} (h : (matS pos).det ≠ 0) {E my : ℝ} (he : Admissible (fresh E my 0 0))
    (t : Fin 3 → ℝ) (H : Matrix (Fin 3) (Fin 3) ℝ) (hs : symGrad H ≠ 0) :
    ∃ e1 K e2 e3, buildK0 pos (fresh E my 0 0) = .ok (e1, pack K, none) ∧
      update0 pos (affineField pos t H) e1 = .ok e2 ∧
      buildK0 pos e2 = .ok (e3, pack K, some (List.ofFn (K.mulVec (vec12 (affineField pos t H))))) := by
  have hreg : (elast E my).det ≠ 0 := elast_regular he.E he.lo he.hi
  have hu := update0_eq h (affineField pos t H) (e := ⟨E, my, 0, 0, 0, 0, (matS pos).det / 6⟩) rfl
  rw [strain_affine h] at hu
  have hinv : (elast E my)⁻¹.mulVec ((elast E my).mulVec (symGrad H)) = symGrad H := by
    rw [Matrix.mulVec_mulVec, Matrix.nonsing_inv_mul _ (isUnit_iff_ne_zero.mpr hreg), Matrix.one_mulVec]
  have hne : (elast E my).mulVec (symGrad H) ≠ 0 := by
    intro hz
    apply hs
    rw [← hinv, hz, Matrix.mulVec_zero]
  have hst : addThermal ⟨E, my, 0, 0, (elast E my).mulVec (symGrad H), symGrad H, (matS pos).det / 6⟩
      (initial ⟨E, my, 0, 0, (elast E my).mulVec (symGrad H), symGrad H, (matS pos).det / 6⟩) = symGrad H := by
    unfold addThermal initial
    rw [if_neg (by simp), if_neg hne]
    exact hinv
  have hK : (stiff0 pos E my).mulVec (vec12 (affineField pos t H)) = load0 pos E my (symGrad H) := by
    unfold stiff0 load0
    rw [Matrix.smul_mulVec, ← Matrix.mulVec_mulVec, strain_affine h]
  have h2 := buildK0_loaded h E my 0 0 _ _ _ (Or.inr hreg) (Or.inr (Or.inl hs)) _ hst
  rw [← hK] at h2
  exact ⟨_, stiff0 pos E my, _, _, buildK0_unloaded h E my 0 0 0 (by simp), hu, h2⟩

/-- C65, what holds: without temperature load and without `update` in between, building again gives the same matrix and load. -/
theorem C65_partial {pos : Fin 4 → Fin 3 → ℝ} (h : (matS pos).det ≠ 0) {e : Elem0} (he : Admissible e)
    (ht : e.alpha = 0 ∨ e.T = 0) :
    ∃ e1 K F e2, buildK0 pos e = .ok (e1, K, F) ∧ buildK0 pos e1 = .ok (e2, K, F) := by
  obtain ⟨E, my, alpha, T, stress, strains, vol⟩ := e
  have hreg : (elast E my).det ≠ 0 := elast_regular he.E he.lo he.hi
  have hn : ¬ (alpha ≠ 0 ∧ T ≠ 0) := by rintro ⟨h1, h2⟩; rcases ht with h | h <;> contradiction
  have hadd : ∀ stress strains vol s, addThermal ⟨E, my, alpha, T, stress, strains, vol⟩ s = s := by
    intro _ _ _ s; unfold addThermal; rw [if_neg hn]
  by_cases hz : stress = 0
  · subst hz
    by_cases hy : strains = 0
    · subst hy
      exact ⟨_, _, _, _, buildK0_unloaded h E my alpha T vol hn, buildK0_unloaded h E my alpha T _ hn⟩
    · have hi : ∀ v, initial ⟨E, my, alpha, T, 0, strains, v⟩ = strains := by
        intro v; unfold initial; rw [if_pos rfl]
      have hs : ∀ v, addThermal ⟨E, my, alpha, T, 0, strains, v⟩ (initial ⟨E, my, alpha, T, 0, strains, v⟩) = strains := by
        intro v; rw [hadd, hi]
      exact ⟨_, _, _, _, buildK0_loaded h E my alpha T 0 strains vol (Or.inl rfl) (Or.inr (Or.inl hy)) _ (hs _),
        buildK0_loaded h E my alpha T 0 strains _ (Or.inl rfl) (Or.inr (Or.inl hy)) _ (hs _)⟩
  · have hi : ∀ s v, initial ⟨E, my, alpha, T, stress, s, v⟩ = (elast E my)⁻¹.mulVec stress := by
      intro s v; unfold initial; rw [if_neg hz]
    have hs : ∀ s v, addThermal ⟨E, my, alpha, T, stress, s, v⟩ (initial ⟨E, my, alpha, T, stress, s, v⟩)
        = (elast E my)⁻¹.mulVec stress := by
      intro s v; rw [hadd, hi]
    exact ⟨_, _, _, _, buildK0_loaded h E my alpha T stress strains vol (Or.inr hreg) (Or.inr (Or.inr hz)) _ (hs _ _),
      buildK0_loaded h E my alpha T stress _ _ (Or.inr hreg) (Or.inr (Or.inr hz)) _ (hs _ _)⟩

/-- C65 fails with a temperature load even without `update`: the thermal strain is added at every build, the second load is
twice the first. -/
theorem C65_thermal_violated {pos : Fin 4 → Fin 3 → ℝ} (h : (matS pos).det ≠ 0) {E my alpha T : ℝ} (ha : alpha ≠ 0) (hT : T ≠ 0) :
    ∃ (e1 : Elem0) (K : List ℝ) (F : Fin 12 → ℝ) (e2 : Elem0),
      buildK0 pos (fresh E my alpha T) = .ok (e1, K, some (List.ofFn F)) ∧
      buildK0 pos e1 = .ok (e2, K, some (List.ofFn ((2 : ℝ) • F))) := by
  have hs : ∀ s v, addThermal ⟨E, my, alpha, T, 0, s, v⟩ (initial ⟨E, my, alpha, T, 0, s, v⟩) = s + symGrad (expansion alpha T) := by
    intro s v
    unfold addThermal initial
    rw [if_pos ⟨ha, hT⟩, if_pos rfl]
    funext i
    fin_cases i <;> simp [symGrad, expansion]
  have hl : ∀ s, load0 pos E my ((2 : ℝ) • s) = (2 : ℝ) • load0 pos E my s := by
    intro s
    unfold load0
    rw [Matrix.mulVec_smul, smul_comm]
  have h2 := buildK0_loaded h E my alpha T 0 (symGrad (expansion alpha T)) ((matS pos).det / 6) (Or.inl rfl) (Or.inl ⟨ha, hT⟩) _
    ((hs _ _).trans (two_smul ℝ _).symm)
  rw [hl] at h2
  exact ⟨_, _, load0 pos E my (symGrad (expansion alpha T)), _,
    buildK0_loaded h E my alpha T 0 0 0 (Or.inl rfl) (Or.inl ⟨ha, hT⟩) _ ((hs _ _).trans (zero_add _)), h2⟩

/-! ## C40 -/

theorem gradMat_affine {pos : Fin 4 → Fin 3 → ℝ} (h : (matS pos).det ≠ 0) (c : ℝ) (b : Fin 3 → ℝ) :
    (gradMat pos).mulVec (fun a => c + ∑ j, b j * pos a j) = b := by
  funext i
  exact (G_exact pos h).2 c b i

/-- C40, flux: `-k` times the gradient of every linear temperature field, for every non-degenerate tetrahedron. -/
theorem C40_flux {pos : Fin 4 → Fin 3 → ℝ} (h : (matS pos).det ≠ 0) (k c : ℝ) (b : Fin 3 → ℝ) (T : Fin 4 → ℝ)
    (hT : ∀ a, T a = c + ∑ j, b j * pos a j) :
    ∃ vol K, buildK1 pos k = .ok (vol, K) ∧ update1 pos k vol T = .ok (List.ofFn fun i => -k * b i) := by
  refine ⟨_, _, buildK1_eq h k, ?_⟩
  rw [update1_eq h, show T = fun a => c + ∑ j, b j * pos a j from funext hT, gradMat_affine h]
  rfl

/-- C40, matrix: symmetric, annihilates uniform temperature, and is the negative of a positive semidefinite matrix. Missing:
it is not positive semidefinite itself, see `C40_violated`. -/
theorem C40_partial {pos : Fin 4 → Fin 3 → ℝ} (h : 0 < (matS pos).det) {k : ℝ} (hk : 0 ≤ k) :
    ∃ (vol : ℝ) (K : Matrix (Fin 4) (Fin 4) ℝ), buildK1 pos k = .ok (vol, pack K) ∧ K.IsSymm ∧ (∀ T : ℝ, K.mulVec (fun _ => T) = 0) ∧ (-K).PosSemidef := by
  refine ⟨_, _, buildK1_eq h.ne' k, ?_, ?_, ?_⟩
  · unfold cond1 Matrix.IsSymm
    rw [Matrix.transpose_smul, Matrix.transpose_mul, Matrix.transpose_transpose]
  · intro T
    have := gradMat_affine h.ne' T 0
    simp only [Pi.zero_apply, zero_mul, Finset.sum_const_zero, add_zero] at this
    unfold cond1
    rw [Matrix.smul_mulVec, ← Matrix.mulVec_mulVec, this, Matrix.mulVec_zero, smul_zero]
  · have : -cond1 pos k = (k * ((matS pos).det / 6)) • ((gradMat pos).transpose * gradMat pos) := by
      unfold cond1; rw [← neg_smul, neg_neg]
    rw [this]
    apply Thermal.psd_transpose_mul
    positivity

/-- C40 fails: for every positively oriented tetrahedron and `k > 0` the energy of a linear field with gradient `b` is
`-k |b|^2 vol`, so the matrix is not positive semidefinite. (In QUADTH the energy is `+k |b|^2 vol`, see `C36_conductivity`.) -/
theorem C40_violated {pos : Fin 4 → Fin 3 → ℝ} (h : 0 < (matS pos).det) {k : ℝ} (hk : 0 < k) :
    ∃ (vol : ℝ) (K : Matrix (Fin 4) (Fin 4) ℝ), buildK1 pos k = .ok (vol, pack K) ∧ 0 < vol ∧
      (∀ (c : ℝ) (b : Fin 3 → ℝ) (T : Fin 4 → ℝ), (∀ a, T a = c + ∑ j, b j * pos a j) →
        dotProduct T (K.mulVec T) = -(k * dotProduct b b * vol)) ∧ ¬ K.PosSemidef := by
  have hen : ∀ (c : ℝ) (b : Fin 3 → ℝ) (T : Fin 4 → ℝ), (∀ a, T a = c + ∑ j, b j * pos a j) →
      dotProduct T ((cond1 pos k).mulVec T) = -(k * dotProduct b b * ((matS pos).det / 6)) := by
    intro c b T hT
    rw [show T = fun a => c + ∑ j, b j * pos a j from funext hT]
    unfold cond1
    rw [Matrix.smul_mulVec, dotProduct_smul, ← Matrix.mulVec_mulVec, gradMat_affine h.ne', Matrix.dotProduct_mulVec,
      Matrix.vecMul_transpose, gradMat_affine h.ne', smul_eq_mul]
    ring
  refine ⟨_, _, buildK1_eq h.ne' k, by positivity, hen, ?_⟩
  intro hp
  have h1 := hp.dotProduct_mulVec_nonneg (fun a => (0 : ℝ) + ∑ j, (![1, 0, 0] : Fin 3 → ℝ) j * pos a j)
  rw [star_trivial, hen 0 ![1, 0, 0] _ (fun a => rfl)] at h1
  simp [dotProduct, Fin.sum_univ_succ] at h1
  have : 0 < k * ((matS pos).det / 6) := by positivity
  linarith

/-- `GRADT` is the negative gradient as well. -/
theorem C40_gradT {pos : Fin 4 → Fin 3 → ℝ} (h : (matS pos).det ≠ 0) {k : ℝ} (hk : k ≠ 0) (c : ℝ) (b : Fin 3 → ℝ)
    (T : Fin 4 → ℝ) (hT : ∀ a, T a = c + ∑ j, b j * pos a j) :
    ∃ vol K q, buildK1 pos k = .ok (vol, K) ∧ update1 pos k vol T = .ok q ∧ gradT q k 1 = List.ofFn fun i => -b i := by
  obtain ⟨vol, K, h1, h2⟩ := C40_flux h k c b T hT
  refine ⟨vol, K, _, h1, h2, ?_⟩
  unfold gradT
  rw [List.map_ofFn]
  refine congrArg List.ofFn ?_
  funext i
  simp only [Function.comp]
  field_simp

/-! ## Cases -/

/-- The unit tetrahedron. -/
def unitTet : Fin 4 → Fin 3 → ℝ := ![![0, 0, 0], ![1, 0, 0], ![0, 1, 0], ![0, 0, 1]]

theorem unitTet_det : (matS unitTet).det = 1 := by rw [det_matS]; simp [unitTet]

/-- Steel; a stretch with shear. All hypotheses above are met. -/
example : Admissible (fresh 200 0.3 1e-5 100) := ⟨by norm_num [fresh], by norm_num [fresh], by norm_num [fresh]⟩
example : 0 < (matS unitTet).det := by rw [unitTet_det]; norm_num
example : symGrad !![0.1, 0.2, 0; 0, 0, 0; 0, 0, 0] ≠ 0 := by
  intro h; have := congrFun h 0; norm_num [symGrad] at this
example : (!![0, 1, 0; -1, 0, 2; 0, -2, 0] : Matrix (Fin 3) (Fin 3) ℝ).transpose = -!![0, 1, 0; -1, 0, 2; 0, -2, 0] := by
  ext i j; fin_cases i <;> fin_cases j <;> simp

end Nla3d.Tetra
