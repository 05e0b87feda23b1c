import Verif.Iso.Shape
import Mathlib.Tactic.Abel
import Mathlib.Tactic.FieldSimp
import Mathlib.LinearAlgebra.Matrix.NonsingularInverse

/-!
# C35: isoparametric gradients and volumes
-/

namespace Nla3d.Iso

open Finset

variable {d nn : Nat}

/-! ## The Jacobian -/

/-- The isoparametric map of the local coordinates into space. -/
noncomputable def isoMap (S : Shape d nn) (pos : Fin nn → Fin d → ℝ) (x : Fin d → ℝ) : Fin d → ℝ :=
  fun j => ∑ a, S.formFunc x a * pos a j

/-- `jac` is the matrix of the derivative of the isoparametric map: the hypotheses below are about the geometry. -/
theorem C35_jacobian {S : Shape d nn} {nodes : Fin nn → Fin d → ℝ} (hS : IsLagrange S nodes) (pos : Fin nn → Fin d → ℝ)
    (x : Fin d → ℝ) :
    ∃ L : (Fin d → ℝ) →L[ℝ] (Fin d → ℝ), HasFDerivAt (isoMap S pos) L x ∧ ∀ v j, L v j = ∑ i, jac S pos x i j * v i := by
  choose L h1 h2 using hS.grad x
  refine ⟨ContinuousLinearMap.pi fun j => ∑ a, (pos a j) • L a, ?_, ?_⟩
  · rw [hasFDerivAt_pi]
    intro j
    have := HasFDerivAt.fun_sum (u := Finset.univ) (fun a (_ : a ∈ Finset.univ) => (h1 a).mul_const (pos a j))
    exact this
  · intro v j
    simp only [ContinuousLinearMap.coe_pi', FunLike.coe_sum, Finset.sum_apply, FunLike.coe_smul,
      Pi.smul_apply, smul_eq_mul, h2, jac, Matrix.of_apply, Finset.sum_mul, Finset.mul_sum]
    rw [Finset.sum_comm]
    apply Finset.sum_congr rfl; intro i _
    apply Finset.sum_congr rfl; intro a _
    ring

/-- `makeJacob` ends normally for regular Jacobians of either sign and stops on an assertion otherwise. -/
theorem makeJacob_assert {m : Nat} (hm : m < 3) (S : Shape (m + 1) nn) (o : Nat) (pos : Fin nn → Fin (m + 1) → ℝ)
    (h : ∃ q ∈ S.table (schemeIndex o), (jac S pos q.xi).det = 0) : makeJacob S o pos = .assert := by
  unfold makeJacob
  generalize hg : ({ scheme := schemeIndex o } : Geom (m + 1) nn) = g0
  clear hg
  revert g0 h
  generalize S.table (schemeIndex o) = qs
  induction qs with
  | nil => rintro ⟨q, hq, _⟩; simp at hq
  | cons q qs ih =>
    rintro ⟨q', hq', h0⟩ g
    rw [Res.foldlM'_cons]
    by_cases hz : (jac S pos q.xi).det = 0
    · have h1 : Dense.det (m + 1) (jacobian (S.formFuncDeriv q.xi) pos) = .ok 0 := by
        rw [jacobian_jac, Dense.C32_det, hz]
      have h2 : ∀ a, Dense.inv (m + 1) a (0 : ℝ) = .assert := by
        intro a
        interval_cases m <;> simp [Dense.inv]
      simp only [h1, h2, Res.ok_bind]
      rfl
    · obtain ⟨h1, b, h2, h3⟩ := turn_ok S pos q.xi hz
      simp only [h1, h2, Res.ok_bind]
      apply ih
      rcases List.mem_cons.mp hq' with rfl | hq'
      · exact absurd h0 hz
      · exact ⟨q', hq', h0⟩

theorem makeJacob_good {m : Nat} {S : Shape (m + 1) nn} {o : Nat} {pos : Fin nn → Fin (m + 1) → ℝ}
    (h : ∀ q ∈ S.table (schemeIndex o), (jac S pos q.xi).det ≠ 0) :
    ∃ g, makeJacob S o pos = .ok g ∧ g.scheme = schemeIndex o ∧ Good S pos g := by
  obtain ⟨g, h1, h2, h3, h4, _⟩ := makeJacob_eq S o pos h
  exact ⟨g, h1, h2, ⟨by rw [h2, h3], by rw [h2, h4]⟩⟩

/-! ## Gradients -/

/-- C35, the specification: gradients `G` of the shape functions of an element with nodes `pos` are exact for every affine
field `c + b · x`; their sum is zero. -/
def Exact (pos G : Fin nn → Fin d → ℝ) : Prop :=
  (∀ i, ∑ a, G a i = 0) ∧ ∀ (c : ℝ) (b : Fin d → ℝ) (i : Fin d), ∑ a, G a i * (c + ∑ j, b j * pos a j) = b i

theorem exact_grads {S : Shape d nn} {nodes : Fin nn → Fin d → ℝ} (hS : IsLagrange S nodes) (pos : Fin nn → Fin d → ℝ)
    (x : Fin d → ℝ) (h : (jac S pos x).det ≠ 0) : Exact pos (grads S pos x) := by
  have h0 : ∀ i, ∑ a, grads S pos x a i = 0 := by
    intro i
    unfold grads
    rw [Finset.sum_comm]
    apply Finset.sum_eq_zero
    intro j _
    rw [← Finset.mul_sum, hS.grad_sum, mul_zero]
  refine ⟨h0, fun c b i => ?_⟩
  have h1 : ∀ k, ∑ a, grads S pos x a i * pos a k = (1 : Matrix (Fin d) (Fin d) ℝ) i k := by
    intro k
    rw [← Matrix.nonsing_inv_mul (jac S pos x) (isUnit_iff_ne_zero.mpr h), Matrix.mul_apply]
    unfold grads
    simp only [Finset.sum_mul]
    rw [Finset.sum_comm]
    apply Finset.sum_congr rfl; intro j _
    rw [jac, Matrix.of_apply, Finset.mul_sum]
    apply Finset.sum_congr rfl; intro a _
    ring
  have : ∑ a, grads S pos x a i * (c + ∑ j, b j * pos a j)
      = c * ∑ a, grads S pos x a i + ∑ j, b j * ∑ a, grads S pos x a i * pos a j := by
    simp only [mul_add, Finset.sum_add_distrib, Finset.mul_sum]
    congr 1
    · apply Finset.sum_congr rfl; intro a _; ring
    · rw [Finset.sum_comm]
      apply Finset.sum_congr rfl; intro a _
      apply Finset.sum_congr rfl; intro j _
      ring
  rw [this, h0, mul_zero, zero_add]
  simp only [h1, Matrix.one_apply]
  simp

/-- C35 for the quadrilateral: whenever `makeJacob` succeeds, the gradients at every integration point are exact. -/
theorem C35_quad_gradients (o : Nat) (pos : Fin 4 → Fin 2 → ℝ)
    (h : ∀ q ∈ quad.table (schemeIndex o), (jac quad pos q.xi).det ≠ 0) :
    ∃ g, makeJacob quad o pos = .ok g ∧ g.NiXj.length = (quad.table (schemeIndex o)).length ∧ ∀ G ∈ g.NiXj, Exact pos G := by
  obtain ⟨g, h1, h2, h3, h4, _⟩ := makeJacob_eq quad o pos h
  refine ⟨g, h1, by rw [h4, List.length_map], ?_⟩
  intro G hG
  rw [h4] at hG
  obtain ⟨q, hq, rfl⟩ := List.mem_map.mp hG
  exact exact_grads C34_quad pos q.xi (h q hq)

/-- C35 for the hexahedron. -/
theorem C35_hexa_gradients (o : Nat) (pos : Fin 8 → Fin 3 → ℝ)
    (h : ∀ q ∈ hexa.table (schemeIndex o), (jac hexa pos q.xi).det ≠ 0) :
    ∃ g, makeJacob hexa o pos = .ok g ∧ g.NiXj.length = (hexa.table (schemeIndex o)).length ∧ ∀ G ∈ g.NiXj, Exact pos G := by
  obtain ⟨g, h1, h2, h3, h4, _⟩ := makeJacob_eq hexa o pos h
  refine ⟨g, h1, by rw [h4, List.length_map], ?_⟩
  intro G hG
  rw [h4] at hG
  obtain ⟨q, hq, rfl⟩ := List.mem_map.mp hG
  exact exact_grads C34_hexa pos q.xi (h q hq)

/-- C35: a Jacobian that vanishes at an integration point stops both elements. -/
theorem C35_singular (o : Nat) (pos : Fin 4 → Fin 2 → ℝ) (pos' : Fin 8 → Fin 3 → ℝ) :
    ((∃ q ∈ quad.table (schemeIndex o), (jac quad pos q.xi).det = 0) → makeJacob quad o pos = .assert) ∧
    ((∃ q ∈ hexa.table (schemeIndex o), (jac hexa pos' q.xi).det = 0) → makeJacob hexa o pos' = .assert) :=
  ⟨makeJacob_assert (by omega) quad o pos, makeJacob_assert (by omega) hexa o pos'⟩

/-- C35, what holds of "a negative Jacobian aborts": it is reported, once per integration point. -/
theorem C35_negative_partial {m : Nat} (S : Shape (m + 1) nn) (o : Nat) (pos : Fin nn → Fin (m + 1) → ℝ)
    (h : ∀ q ∈ S.table (schemeIndex o), (jac S pos q.xi).det < 0) :
    ∃ g, makeJacob S o pos = .ok g ∧ g.errors = (S.table (schemeIndex o)).length := by
  obtain ⟨g, h1, _, _, _, h5⟩ := makeJacob_eq S o pos (fun q hq => (h q hq).ne)
  refine ⟨g, h1, ?_⟩
  rw [h5, List.countP_eq_length]
  intro q hq
  have := h q hq
  exact decide_eq_true (by norm_num; linarith)

/-! ## Volumes -/

/-- C35: the volume is the sum over the integration points of weight times Jacobian. -/
theorem C35_volume {m : Nat} (S : Shape (m + 1) nn) (o : Nat) (pos : Fin nn → Fin (m + 1) → ℝ)
    (h : ∀ q ∈ S.table (schemeIndex o), (jac S pos q.xi).det ≠ 0) :
    ∃ g, makeJacob S o pos = .ok g ∧
      volume S g = .ok ((S.table (schemeIndex o)).map (fun q => q.w * (jac S pos q.xi).det)).sum := by
  obtain ⟨g, h1, h2, h3⟩ := makeJacob_good h
  exact ⟨g, h1, by rw [h3.volume, h2]⟩

/-- The image of the reference nodes under an affine map. -/
def affine (A : Matrix (Fin d) (Fin d) ℝ) (b : Fin d → ℝ) (nodes : Fin nn → Fin d → ℝ) : Fin nn → Fin d → ℝ :=
  fun a i => A.mulVec (nodes a) i + b i

theorem jac_affine {S : Shape d nn} {nodes : Fin nn → Fin d → ℝ} (hS : IsLagrange S nodes) (A : Matrix (Fin d) (Fin d) ℝ)
    (b x : Fin d → ℝ) (hr : ∀ i k, ∑ a, S.formFuncDeriv x a i * nodes a k = if i = k then 1 else 0) :
    jac S (affine A b nodes) x = A.transpose := by
  ext i j
  rw [jac, Matrix.of_apply, Matrix.transpose_apply]
  unfold affine
  have : ∑ a, S.formFuncDeriv x a i * (A.mulVec (nodes a) j + b j)
      = ∑ k, A j k * (∑ a, S.formFuncDeriv x a i * nodes a k) + (∑ a, S.formFuncDeriv x a i) * b j := by
    simp only [Matrix.mulVec, dotProduct, mul_add, Finset.sum_add_distrib, Finset.mul_sum, Finset.sum_mul]
    congr 1
    rw [Finset.sum_comm]
    apply Finset.sum_congr rfl; intro a _
    apply Finset.sum_congr rfl; intro j _
    ring
  rw [this, hS.grad_sum, zero_mul, add_zero]
  simp [hr]

theorem quad_repr (x : Fin 2 → ℝ) (i k : Fin 2) :
    ∑ a, quad.formFuncDeriv x a i * quadNodes a k = if i = k then 1 else 0 := by
  fin_cases i <;> fin_cases k <;> simp [quad, quadNodes, Fin.sum_univ_succ] <;> ring

theorem hexa_repr (x : Fin 3 → ℝ) (i k : Fin 3) :
    ∑ a, hexa.formFuncDeriv x a i * hexaNodes a k = if i = k then 1 else 0 := by
  fin_cases i <;> fin_cases k <;> simp [hexa, hexaNodes, Fin.sum_univ_succ] <;> ring

/-- The sum of the weights. -/
noncomputable def weights (S : Shape d nn) (o : Nat) : ℝ := ((S.table (schemeIndex o)).map (fun q => q.w)).sum

theorem scheme_cases (o : Nat) : schemeIndex o = 0 ∧ o ≤ 1 ∨ schemeIndex o = 1 ∧ o = 2 ∨ schemeIndex o = 2 ∧ 3 ≤ o := by
  unfold schemeIndex
  rcases Nat.lt_or_ge o 1 with h | h
  · left; rw [if_pos h]; dsimp only; exact ⟨rfl, by omega⟩
  · rw [if_neg (by omega)]
    dsimp only
    rcases Nat.lt_or_ge o 4 with h2 | h2
    · rw [if_neg (by omega)]
      interval_cases o
      · exact Or.inl ⟨rfl, by omega⟩
      · exact Or.inr (Or.inl ⟨rfl, rfl⟩)
      · exact Or.inr (Or.inr ⟨rfl, by omega⟩)
    · rw [if_pos (by omega)]
      exact Or.inr (Or.inr ⟨rfl, by omega⟩)

/-- C35: the tabulated weights sum to the volume of the reference square, exactly for the first two orders and up to `2e-16`
for the third. -/
theorem C35_quad_weights (o : Nat) : |weights quad o - 4| ≤ 2e-16 ∧ (o ≤ 2 → weights quad o = 4) := by
  unfold weights
  rcases scheme_cases o with ⟨h, ho⟩ | ⟨h, ho⟩ | ⟨h, ho⟩ <;> rw [h]
  · simp [quad, quadO1]; norm_num
  · simp [quad, quadO2]; norm_num
  · refine ⟨?_, by omega⟩
    simp [quad, quadO3]; norm_num [abs_le]

/-- C35: the same for the reference cube, third order up to `7e-16`. -/
theorem C35_hexa_weights (o : Nat) : |weights hexa o - 8| ≤ 7e-16 ∧ (o ≤ 2 → weights hexa o = 8) := by
  unfold weights
  rcases scheme_cases o with ⟨h, ho⟩ | ⟨h, ho⟩ | ⟨h, ho⟩ <;> rw [h]
  · simp [hexa, hexaO1]; norm_num
  · simp [hexa, hexaO2]; norm_num
  · refine ⟨?_, by omega⟩
    simp [hexa, hexaO3]; norm_num [abs_le]

theorem volume_affine {m : Nat} {S : Shape (m + 1) nn} {nodes : Fin nn → Fin (m + 1) → ℝ} (hS : IsLagrange S nodes)
    (hr : ∀ x i k, ∑ a, S.formFuncDeriv x a i * nodes a k = if i = k then 1 else 0) (o : Nat)
    (A : Matrix (Fin (m + 1)) (Fin (m + 1)) ℝ) (b : Fin (m + 1) → ℝ) (hA : A.det ≠ 0) :
    ∃ g, makeJacob S o (affine A b nodes) = .ok g ∧ volume S g = .ok (weights S o * A.det) := by
  have hj : ∀ x, (jac S (affine A b nodes) x).det = A.det := by
    intro x; rw [jac_affine hS A b x (hr x), Matrix.det_transpose]
  obtain ⟨g, h1, h2⟩ := C35_volume S o (affine A b nodes) (fun q _ => by rw [hj]; exact hA)
  refine ⟨g, h1, ?_⟩
  rw [h2, weights]
  simp only [hj, List.sum_map_mul_right]

/-- C35: the volume of every affine image of the reference square is the sum of the weights times the determinant (for
`det A > 0` this is the area up to the rounding of the table). -/
theorem C35_quad_affine (o : Nat) (A : Matrix (Fin 2) (Fin 2) ℝ) (b : Fin 2 → ℝ) (hA : A.det ≠ 0) :
    ∃ g v, makeJacob quad o (affine A b quadNodes) = .ok g ∧ volume quad g = .ok v ∧
      |v - 4 * A.det| ≤ 2e-16 * |A.det| ∧ (o ≤ 2 → v = 4 * A.det) := by
  obtain ⟨g, h1, h2⟩ := volume_affine C34_quad quad_repr o A b hA
  obtain ⟨w1, w2⟩ := C35_quad_weights o
  refine ⟨g, _, h1, h2, ?_, fun ho => by rw [w2 ho]⟩
  rw [← sub_mul, abs_mul]
  exact mul_le_mul_of_nonneg_right w1 (abs_nonneg _)

/-- C35: the same for the hexahedron. -/
theorem C35_hexa_affine (o : Nat) (A : Matrix (Fin 3) (Fin 3) ℝ) (b : Fin 3 → ℝ) (hA : A.det ≠ 0) :
    ∃ g v, makeJacob hexa o (affine A b hexaNodes) = .ok g ∧ volume hexa g = .ok v ∧
      |v - 8 * A.det| ≤ 7e-16 * |A.det| ∧ (o ≤ 2 → v = 8 * A.det) := by
  obtain ⟨g, h1, h2⟩ := volume_affine C34_hexa hexa_repr o A b hA
  obtain ⟨w1, w2⟩ := C35_hexa_weights o
  refine ⟨g, _, h1, h2, ?_, fun ho => by rw [w2 ho]⟩
  rw [← sub_mul, abs_mul]
  exact mul_le_mul_of_nonneg_right w1 (abs_nonneg _)

/-- C35: the volume of a line element is the distance of its nodes, for every integration order. -/
theorem C35_line (o : Nat) (pos : Fin 2 → Fin 3 → ℝ) (h : pos 0 ≠ pos 1) :
    lineVolume (lineJacob o pos) = .ok (length (fun i => pos 1 i - pos 0 i)) := by
  have hl := length_pos h
  generalize hL : length (fun i => pos 1 i - pos 0 i) = L at hl ⊢
  have hd : (lineJacob o pos).det = L * 0.5 := by rw [← hL]; rfl
  have hs : (lineJacob o pos).scheme = schemeIndex o := rfl
  rw [lineVolume_eq (by rw [hd]; norm_num; exact hl), hs, hd]
  rcases scheme_cases o with ⟨e, _⟩ | ⟨e, _⟩ | ⟨e, _⟩ <;> rw [e] <;>
    simp [line, lineO1, lineO2, lineO3] <;> ring

/-! ## Cases -/

/-- A parallelogram of area 12, described clockwise: `jac` is `-3` everywhere. -/
theorem clockwise (x : Fin 2 → ℝ) : (jac quad (affine !![0, 1; 3, 1] ![5, 7] quadNodes) x).det = -3 := by
  rw [jac_affine C34_quad _ _ _ (quad_repr x), Matrix.det_transpose, Matrix.det_fin_two]
  norm_num

/-- C35, "a negative Jacobian aborts", fails: `makeJacob` only writes to the log and the volume is negative. -/
theorem C35_negative_violated : ∃ (pos : Fin 4 → Fin 2 → ℝ) (g : Geom 2 4), (∀ x, (jac quad pos x).det < 0) ∧
    makeJacob quad 2 pos = .ok g ∧ g.errors = 4 ∧ volume quad g = .ok (-12) := by
  obtain ⟨g, h1, h2⟩ := C35_negative_partial quad 2 (affine !![0, 1; 3, 1] ![5, 7] quadNodes)
    (fun q _ => by rw [clockwise]; norm_num)
  obtain ⟨g', v, h3, h4, _, h5⟩ := C35_quad_affine 2 !![0, 1; 3, 1] ![5, 7] (by rw [Matrix.det_fin_two]; norm_num)
  rw [h1] at h3
  injection h3 with h3
  subst h3
  refine ⟨_, g, fun x => by rw [clockwise]; norm_num, h1, by rw [h2]; rfl, ?_⟩
  rw [h4, h5 (le_refl 2), Matrix.det_fin_two]; norm_num

/-- A trapezoid, not an affine image of the square, meets the hypothesis of `C35_quad_gradients`. -/
example : ∀ q ∈ quad.table (schemeIndex 2), (jac quad ![![0, 0], ![4, 0], ![3, 2], ![1, 2]] q.xi).det ≠ 0 := by
  intro q hq
  have e : (jac quad ![![0, 0], ![4, 0], ![3, 2], ![1, 2]] q.xi).det = 0.5 * (3 - q.xi 1) := by
    rw [Matrix.det_fin_two]
    simp [jac, quad, Fin.sum_univ_succ]
    ring
  rw [e]
  have : schemeIndex 2 = 1 := rfl
  rw [this] at hq
  simp [quad, quadO2] at hq
  rcases hq with rfl | rfl | rfl | rfl <;> norm_num

end Nla3d.Iso
