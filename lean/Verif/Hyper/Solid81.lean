import Verif.Hyper.SolidLoops

/-!
# Properties of SOLID81: C51, C67
-/

noncomputable section

namespace Nla3d.Hyper

open Iso Dense Material Thermal
open Finset hiding ext

/-! ## Specification -/

/-- `F` is the deformation gradient at the local point `x` of an element with nodes `pos` displaced by `u`: the derivative of the
displaced mapping is the derivative of the mapping followed by `F` (`jac` is the transposed derivative, see `C35_jacobian`). -/
def IsDefGrad {d nn : Nat} (S : Shape d nn) (pos u : Fin nn → Fin d → ℝ) (x : Fin d → ℝ) (F : Matrix (Fin d) (Fin d) ℝ) : Prop :=
  jac S (pos + u) x = jac S pos x * F.transpose

/-- A symmetric tensor from its components with doubled shear. -/
def sym6 (b : Fin 6 → ℝ) : Mat3 := !![b 0, b 1 / 2, b 2 / 2; b 1 / 2, b 3, b 4 / 2; b 2 / 2, b 4 / 2, b 5]

/-! ## Deformation gradient -/

/-- The displacement gradient. -/
def dispGrad {d nn : Nat} (S : Shape d nn) (pos u : Fin nn → Fin d → ℝ) (x : Fin d → ℝ) : Matrix (Fin d) (Fin d) ℝ :=
  Matrix.of fun i j => ∑ a, u a i * grads S pos x a j

theorem jac_disp {d nn : Nat} (S : Shape d nn) (pos u : Fin nn → Fin d → ℝ) (x : Fin d → ℝ) (h : (jac S pos x).det ≠ 0) :
    jac S (pos + u) x = jac S pos x * (1 + dispGrad S pos u x).transpose := by
  rw [Matrix.transpose_add, Matrix.transpose_one, Matrix.mul_add, Matrix.mul_one]
  have e : dispGrad S pos u x = (Matrix.of fun i l => ∑ a, u a i * S.formFuncDeriv x a l) * ((jac S pos x)⁻¹).transpose := by
    ext i j
    rw [Matrix.mul_apply]
    simp only [dispGrad, Matrix.of_apply, grads, Matrix.transpose_apply, Finset.mul_sum, Finset.sum_mul]
    rw [Finset.sum_comm]
    refine Finset.sum_congr rfl fun a _ => Finset.sum_congr rfl fun l _ => ?_
    ring
  rw [e, Matrix.transpose_mul, Matrix.transpose_transpose, ← Matrix.mul_assoc,
    Matrix.mul_nonsing_inv _ (isUnit_iff_ne_zero.mpr h), Matrix.one_mul]
  ext i j
  simp only [jac, Matrix.of_apply, Matrix.add_apply, Matrix.transpose_apply, Pi.add_apply, mul_add, Finset.sum_add_distrib]
  congr 1
  exact Finset.sum_congr rfl fun a _ => mul_comm _ _

theorem defGrad_eq {d nn : Nat} {S : Shape d nn} {pos u : Fin nn → Fin d → ℝ} {x : Fin d → ℝ} (h : (jac S pos x).det ≠ 0)
    {F : Matrix (Fin d) (Fin d) ℝ} : IsDefGrad S pos u x F ↔ F = 1 + dispGrad S pos u x := by
  unfold IsDefGrad
  constructor
  · intro hF
    rw [jac_disp S pos u x h] at hF
    have := congrArg (fun M => (jac S pos x)⁻¹ * M) hF
    simp only [← Matrix.mul_assoc, Matrix.nonsing_inv_mul _ (isUnit_iff_ne_zero.mpr h), Matrix.one_mul] at this
    exact (Matrix.transpose_injective this).symm
  · rintro rfl
    exact jac_disp S pos u x h

/-! ## C51 -/

theorem grad9_disp (pos u : Fin 8 → Fin 3 → ℝ) (x : Fin 3 → ℝ) (i j : Fin 3) :
    grad9 (grads hexa pos x) (vec24 u) ⟨3 * i.val + j.val, by omega⟩ = dispGrad hexa pos u x i j := by
  unfold grad9
  simp only [vec24_at, dispGrad, Matrix.of_apply, mul_comm (u _ _)]
  fin_cases i <;> fin_cases j <;> rfl

theorem solidC_disp (pos u : Fin 8 → Fin 3 → ℝ) (x : Fin 3 → ℝ) :
    solidC (grad9 (grads hexa pos x) (vec24 u)) =
      pack6 ((1 + dispGrad hexa pos u x).transpose * (1 + dispGrad hexa pos u x)) := by
  have g := grad9_disp pos u x
  generalize grad9 (grads hexa pos x) (vec24 u) = o at g
  generalize dispGrad hexa pos u x = H at g
  have g00 : o 0 = H 0 0 := g 0 0
  have g01 : o 1 = H 0 1 := g 0 1
  have g02 : o 2 = H 0 2 := g 0 2
  have g10 : o 3 = H 1 0 := g 1 0
  have g11 : o 4 = H 1 1 := g 1 1
  have g12 : o 5 = H 1 2 := g 1 2
  have g20 : o 6 = H 2 0 := g 2 0
  have g21 : o 7 = H 2 1 := g 2 1
  have g22 : o 8 = H 2 2 := g 2 2
  funext k
  fin_cases k <;>
    simp [solidC, pack6, Matrix.mul_apply, Fin.sum_univ_three, g00, g01, g02, g10, g11, g12, g20, g21, g22] <;> ring

theorem isSymm_gram (F : Mat3) : (F.transpose * F).IsSymm := by
  unfold Matrix.IsSymm; rw [Matrix.transpose_mul, Matrix.transpose_transpose]

/-- C51. `update` stores at every integration point the displacement gradient, the tensor `FᵀF` and the second Piola-Kirchhoff
stress of the material for it. -/
theorem C51_update (E : Energy) (o : Nat) (pos : Fin 8 → Fin 3 → ℝ)
    (h : ∀ q ∈ hexa.table (schemeIndex o), (jac hexa pos q.xi).det ≠ 0) :
    ∃ g, makeJacob hexa o pos = .ok g ∧ ∀ (u : Fin 8 → Fin 3 → ℝ) (p : ℝ) (pts : List Point),
      pts.length = nOfIntPoints hexa g → ∃ pts', solidUpdate E g u p pts = .ok pts' ∧
        pts'.length = (hexa.table (schemeIndex o)).length ∧
        ∀ (k : Nat) (q : QuadPt 3) (pt : Point) (F : Mat3), (hexa.table (schemeIndex o))[k]? = some q → pts'[k]? = some pt →
          IsDefGrad hexa pos u q.xi F →
          (∀ i j : Fin 3, pt.O ⟨3 * i.val + j.val, by omega⟩ = (F - 1) i j) ∧ unpack6 pt.C = F.transpose * F ∧
          stressOf E (F.transpose * F) p = .ok (unpack6 pt.S) := by
  obtain ⟨g, h1, h2, h3⟩ := makeJacob_good h
  refine ⟨g, h1, fun u p pts hp => ⟨_, solidUpdate_eq E h3 u p pts hp, by rw [List.length_map, h2], ?_⟩⟩
  intro k q pt F hq hpt hF
  rw [List.getElem?_map, h2, hq] at hpt
  simp only [Option.map_some, Option.some.injEq] at hpt
  subst hpt
  have hq' : q ∈ hexa.table (schemeIndex o) := List.mem_of_getElem? hq
  rw [defGrad_eq (h q hq')] at hF
  subst hF
  refine ⟨?_, ?_, ?_⟩
  · intro i j
    rw [show (pointOf E (grads hexa pos q.xi) u p).O = grad9 (grads hexa pos q.xi) (vec24 u) from rfl, grad9_disp,
      add_sub_cancel_left]
  · show unpack6 (solidC _) = _
    rw [solidC_disp, unpack6_pack6 (isSymm_gram _)]
  · rw [stressOf_eq, ← solidC_disp]
    rfl

/-- C51. The B matrix of `buildK` is the exact variation of `FᵀF`, its shear components doubled. -/
theorem C51_variation (pos : Fin 8 → Fin 3 → ℝ) (x : Fin 3 → ℝ) (h : (jac hexa pos x).det ≠ 0) (u : Fin 8 → Fin 3 → ℝ)
    (F0 : Mat3) (hF0 : IsDefGrad hexa pos u x F0) (O : Fin 9 → ℝ)
    (hO : ∀ i j : Fin 3, O ⟨3 * i.val + j.val, by omega⟩ = (F0 - 1) i j) :
    ∃ B : Matrix (Fin 6) (Fin 24) ℝ, solidB (grads hexa pos x) O = .ok (flat B) ∧
      ∀ (δ : Fin 8 → Fin 3 → ℝ) (F : ℝ → Mat3), (∀ s : ℝ, IsDefGrad hexa pos (u + s • δ) x (F s)) →
        ∀ i j, HasDerivAt (fun s : ℝ => ((F s).transpose * F s) i j) (sym6 (B.mulVec (vec24 δ)) i j) 0 := by
  refine ⟨_, solidB_eq _ _, ?_⟩
  intro δ F hF i j
  rw [defGrad_eq h] at hF0
  have eO : O = grad9 (grads hexa pos x) (vec24 u) := by
    rw [hF0, add_sub_cancel_left] at hO
    funext r
    have := hO ⟨r.val / 3, by omega⟩ ⟨r.val % 3, by omega⟩
    rw [← grad9_disp] at this
    have er : (⟨3 * (r.val / 3) + r.val % 3, by omega⟩ : Fin 9) = r := Fin.ext (Nat.div_add_mod _ _)
    simpa only [er] using this
  have eC : ∀ s, (F s).transpose * F s =
      unpack6 (solidC (grad9 (grads hexa pos x) (vec24 u) + s • grad9 (grads hexa pos x) (vec24 δ))) := by
    intro s
    rw [← grad9_line, ← vec24_line, solidC_disp, unpack6_pack6 (isSymm_gram _), (defGrad_eq h).mp (hF s)]
  simp only [eC]
  have d := deriv_solidC (grad9 (grads hexa pos x) (vec24 u)) (grad9 (grads hexa pos x) (vec24 δ)) 0
  rw [Bmat_mulVec, ← eO]
  rw [← eO] at d
  simp only [zero_smul, add_zero] at d
  generalize grad9 (grads hexa pos x) (vec24 δ) = w at d
  have b := bvec_cvar O w
  fin_cases i <;> fin_cases j
  · exact (d 0).congr_deriv (by simp [sym6, b, mult])
  · exact (d 1).congr_deriv (by simp [sym6, b, mult])
  · exact (d 2).congr_deriv (by simp [sym6, b, mult])
  · exact (d 1).congr_deriv (by simp [sym6, b, mult])
  · exact (d 3).congr_deriv (by simp [sym6, b, mult])
  · exact (d 4).congr_deriv (by simp [sym6, b, mult])
  · exact (d 2).congr_deriv (by simp [sym6, b, mult])
  · exact (d 4).congr_deriv (by simp [sym6, b, mult])
  · exact (d 5).congr_deriv (by simp [sym6, b, mult])

/-- Every hypothesis is met by the unit cube, and the deformation gradient of a simple shear is not symmetric. -/
example : ∃ (pos u : Fin 8 → Fin 3 → ℝ), (∀ x, (jac hexa pos x).det ≠ 0) ∧
    ∀ x, IsDefGrad hexa pos u x !![1, 1, 0; 0, 1, 0; 0, 0, 1] := by
  refine ⟨affine 1 0 hexaNodes, affine !![0, 1, 0; 0, 0, 0; 0, 0, 0] 0 hexaNodes, ?_, ?_⟩
  · intro x
    rw [jac_affine C34_hexa _ _ _ (hexa_repr x)]
    simp
  · intro x
    unfold IsDefGrad
    have e : (affine 1 0 hexaNodes + affine !![0, 1, 0; 0, 0, 0; 0, 0, 0] 0 hexaNodes : Fin 8 → Fin 3 → ℝ) =
        affine !![1, 1, 0; 0, 1, 0; 0, 0, 1] 0 hexaNodes := by
      funext a i
      simp only [affine, Pi.add_apply, Matrix.one_mulVec]
      fin_cases i <;> simp [Matrix.mulVec, dotProduct, Fin.sum_univ_three]
    rw [e, jac_affine C34_hexa _ _ _ (hexa_repr x), jac_affine C34_hexa _ _ _ (hexa_repr x)]
    simp

/-! ## C67 -/

theorem detP_disp (pos u : Fin 8 → Fin 3 → ℝ) (x : Fin 3 → ℝ) (h : (jac hexa pos x).det ≠ 0)
    (hu : (jac hexa (pos + u) x).det ≠ 0) : 0 < detP (solidC (grad9 (grads hexa pos x) (vec24 u))) := by
  rw [solidC_disp, det_pack6 (isSymm_gram _), Matrix.det_mul, Matrix.det_transpose]
  rw [jac_disp hexa pos u x h, Matrix.det_mul, Matrix.det_transpose] at hu
  exact mul_self_pos.mpr (right_ne_zero_of_mul hu)

theorem hasDerivAt_listSum {α : Type} (qs : List α) (f : α → ℝ → ℝ) (f' : α → ℝ) (t : ℝ)
    (h : ∀ q ∈ qs, HasDerivAt (f q) (f' q) t) : HasDerivAt (fun s => (qs.map (fun q => f q s)).sum) (qs.map f').sum t := by
  induction qs with
  | nil => simpa using hasDerivAt_const t (0 : ℝ)
  | cons q qs ih =>
    simp only [List.map_cons, List.sum_cons]
    exact (h q (by simp)).fun_add (ih (fun q hq => h q (by simp [hq])))

theorem dot_transpose {m n : Nat} (B : Matrix (Fin m) (Fin n) ℝ) (v : Fin n → ℝ) (s : Fin m → ℝ) :
    v ⬝ᵥ B.transpose.mulVec s = B.mulVec v ⬝ᵥ s := by
  rw [Matrix.dotProduct_mulVec, Matrix.vecMul_transpose]

theorem dot_BDB {m n : Nat} (B : Matrix (Fin m) (Fin n) ℝ) (D : Matrix (Fin m) (Fin m) ℝ) (v w : Fin n → ℝ) :
    v ⬝ᵥ (B.transpose * D * B).mulVec w = B.mulVec v ⬝ᵥ D.mulVec (B.mulVec w) := by
  rw [← Matrix.mulVec_mulVec, ← Matrix.mulVec_mulVec, dot_transpose]

/-- The forces of a point on a test vector. -/
theorem term_Fu (E : Energy) (k : ℝ) (G u : Fin 8 → Fin 3 → ℝ) (w p : ℝ) (v : Fin 24 → ℝ) :
    v ⬝ᵥ (term E k G w (pointOf E G u p) p).2.2.2.1 = -(1 / 2) * w * force E (grad9 G (vec24 u)) p (grad9 G v) := by
  simp only [term, pointOf]
  rw [dotProduct_smul, dot_transpose, Bmat_mulVec]
  rfl

/-- The matrices of a point. -/
theorem term_K (E : Energy) (k : ℝ) (G u : Fin 8 → Fin 3 → ℝ) (w p : ℝ) (v δ : Fin 24 → ℝ) :
    v ⬝ᵥ (term E k G w (pointOf E G u p) p).1.mulVec δ = 1 / 2 * w *
      (∑ i, bvec (grad9 G (vec24 u)) (grad9 G v) i * (∑ l, tangentEntry E (solidC (grad9 G (vec24 u))) p i l *
        bvec (grad9 G (vec24 u)) (grad9 G δ) l)) +
      w * (grad9 G v ⬝ᵥ (S9 (stressEntry E (solidC (grad9 G (vec24 u))) p)).mulVec (grad9 G δ)) := by
  simp only [term, pointOf]
  rw [Matrix.add_mulVec, dotProduct_add, Matrix.smul_mulVec, Matrix.smul_mulVec, dotProduct_smul, dotProduct_smul, dot_BDB,
    dot_BDB, Bmat_mulVec, Bmat_mulVec, BNL_mulVec, BNL_mulVec]
  rfl

theorem term_Kup (E : Energy) (k : ℝ) (G u : Fin 8 → Fin 3 → ℝ) (w p : ℝ) (v : Fin 24 → ℝ) :
    v ⬝ᵥ (term E k G w (pointOf E G u p) p).2.1 = 1 / 2 * w *
      (∑ i, bvec (grad9 G (vec24 u)) (grad9 G v) i * pressEntry (solidC (grad9 G (vec24 u))) i) := by
  simp only [term, pointOf]
  rw [dotProduct_smul, dot_transpose, Bmat_mulVec]
  rfl

/-- The state after `update`, the sums after `buildK`. -/
def tot (E : Energy) (k : ℝ) (pos : Fin 8 → Fin 3 → ℝ) (qs : List (QuadPt 3)) (u : Fin 8 → Fin 3 → ℝ) (p : ℝ) : Tot :=
  total E k pos qs (fun q => pointOf E (grads hexa pos q.xi) u p) p

theorem tot_map {A : Type} [AddCommMonoid A] (L : Tot →+ A) (E : Energy) (k : ℝ) (pos : Fin 8 → Fin 3 → ℝ)
    (qs : List (QuadPt 3)) (u : Fin 8 → Fin 3 → ℝ) (p : ℝ) :
    L (tot E k pos qs u p) = (qs.map (fun q => L (term E k (grads hexa pos q.xi) (q.w * (jac hexa pos q.xi).det)
      (pointOf E (grads hexa pos q.xi) u p) p))).sum := by
  unfold tot total
  rw [map_list_sum, List.map_map]
  rfl

def forceHom (v : Fin 24 → ℝ) : Tot →+ ℝ where
  toFun t := v ⬝ᵥ t.2.2.2.1
  map_zero' := by simp
  map_add' a b := by simp [dotProduct_add]

def stiffHom (v δ : Fin 24 → ℝ) : Tot →+ ℝ where
  toFun t := v ⬝ᵥ t.1.mulVec δ
  map_zero' := by simp
  map_add' a b := by simp [Matrix.add_mulVec, dotProduct_add]

def pressHom (v : Fin 24 → ℝ) : Tot →+ ℝ where
  toFun t := v ⬝ᵥ t.2.1
  map_zero' := by simp
  map_add' a b := by simp [dotProduct_add]

theorem listSum_lin {α : Type} (qs : List α) (f g : α → ℝ) (c : ℝ) :
    (qs.map (fun q => f q + c * g q)).sum = (qs.map f).sum + c * (qs.map g).sum := by
  induction qs with
  | nil => simp
  | cons q qs ih => simp only [List.map_cons, List.sum_cons, ih]; ring

theorem listSum_neg {α : Type} (qs : List α) (f : α → ℝ) : (qs.map (fun q => -f q)).sum = -(qs.map f).sum := by
  induction qs with
  | nil => simp
  | cons q qs ih => simp only [List.map_cons, List.sum_cons, ih]; ring

/-- The derivative of the forces. -/
theorem deriv_tot_Fu {E : Energy} (hE : E.Consistent) (k : ℝ) (pos : Fin 8 → Fin 3 → ℝ) (qs : List (QuadPt 3))
    (h : ∀ q ∈ qs, (jac hexa pos q.xi).det ≠ 0) (u δ : Fin 8 → Fin 3 → ℝ) (p π : ℝ)
    (hu : ∀ q ∈ qs, (jac hexa (pos + u) q.xi).det ≠ 0) (v : Fin 24 → ℝ) :
    HasDerivAt (fun s : ℝ => v ⬝ᵥ (tot E k pos qs (u + s • δ) (p + s * π)).2.2.2.1)
      (-(v ⬝ᵥ (tot E k pos qs u p).1.mulVec (vec24 δ) + π * (v ⬝ᵥ (tot E k pos qs u p).2.1))) 0 := by
  have e1 : ∀ s : ℝ, v ⬝ᵥ (tot E k pos qs (u + s • δ) (p + s * π)).2.2.2.1 = (qs.map (fun q =>
      -(1 / 2) * (q.w * (jac hexa pos q.xi).det) * force E (grad9 (grads hexa pos q.xi) (vec24 u) +
        s • grad9 (grads hexa pos q.xi) (vec24 δ)) (p + s * π) (grad9 (grads hexa pos q.xi) v))).sum := by
    intro s
    refine (tot_map (forceHom v) E k pos qs (u + s • δ) (p + s * π)).trans ?_
    congr 1
    refine List.map_congr_left fun q _ => ?_
    refine (term_Fu E k _ _ _ _ v).trans ?_
    rw [vec24_line, grad9_line]
  simp only [e1]
  have e2 : -(v ⬝ᵥ (tot E k pos qs u p).1.mulVec (vec24 δ) + π * (v ⬝ᵥ (tot E k pos qs u p).2.1)) =
      (qs.map (fun q => -(stiffHom v (vec24 δ) (term E k (grads hexa pos q.xi) (q.w * (jac hexa pos q.xi).det)
        (pointOf E (grads hexa pos q.xi) u p) p) + π * pressHom v (term E k (grads hexa pos q.xi)
        (q.w * (jac hexa pos q.xi).det) (pointOf E (grads hexa pos q.xi) u p) p)))).sum := by
    rw [listSum_neg, listSum_lin, ← tot_map, ← tot_map]
    rfl
  rw [e2]
  apply hasDerivAt_listSum
  intro q hq
  have hD := detP_disp pos u q.xi (h q hq) (hu q hq)
  have hd := deriv_force hE (grad9 (grads hexa pos q.xi) (vec24 u)) (grad9 (grads hexa pos q.xi) (vec24 δ))
    (grad9 (grads hexa pos q.xi) v) p π 0 (by simpa using hD)
  simp only [zero_smul, add_zero, zero_mul] at hd
  refine (hd.const_mul (-(1 / 2) * (q.w * (jac hexa pos q.xi).det))).congr_deriv ?_
  have a := term_K E k (grads hexa pos q.xi) u (q.w * (jac hexa pos q.xi).det) p v (vec24 δ)
  have b := term_Kup E k (grads hexa pos q.xi) u (q.w * (jac hexa pos q.xi).det) p v
  simp only [stiffHom, pressHom, AddMonoidHom.coe_mk, ZeroHom.coe_mk]
  rw [a, b]
  ring

def volHom : Tot →+ ℝ where
  toFun t := t.2.2.2.2
  map_zero' := rfl
  map_add' _ _ := rfl

def kppHom : Tot →+ ℝ where
  toFun t := t.2.2.1
  map_zero' := rfl
  map_add' _ _ := rfl

theorem deriv_tot_Fp (E : Energy) (k : ℝ) (pos : Fin 8 → Fin 3 → ℝ) (qs : List (QuadPt 3))
    (h : ∀ q ∈ qs, (jac hexa pos q.xi).det ≠ 0) (u δ : Fin 8 → Fin 3 → ℝ) (p π : ℝ)
    (hu : ∀ q ∈ qs, (jac hexa (pos + u) q.xi).det ≠ 0) :
    HasDerivAt (fun s : ℝ => (tot E k pos qs (u + s • δ) (p + s * π)).2.2.2.2)
      (-((tot E k pos qs u p).2.1 ⬝ᵥ vec24 δ + (tot E k pos qs u p).2.2.1 * π)) 0 := by
  have e1 : ∀ s : ℝ, (tot E k pos qs (u + s • δ) (p + s * π)).2.2.2.2 = (qs.map (fun q =>
      -(JC (solidC (grad9 (grads hexa pos q.xi) (vec24 u) + s • grad9 (grads hexa pos q.xi) (vec24 δ))) - 1 - (p + s * π) / k)
        * (q.w * (jac hexa pos q.xi).det))).sum := by
    intro s
    refine (tot_map volHom E k pos qs (u + s • δ) (p + s * π)).trans ?_
    congr 1
    refine List.map_congr_left fun q _ => ?_
    simp only [volHom, AddMonoidHom.coe_mk, ZeroHom.coe_mk, term, pointOf]
    rw [vec24_line, grad9_line]
  simp only [e1]
  have e2 : -((tot E k pos qs u p).2.1 ⬝ᵥ vec24 δ + (tot E k pos qs u p).2.2.1 * π) =
      (qs.map (fun q => -(pressHom (vec24 δ) (term E k (grads hexa pos q.xi) (q.w * (jac hexa pos q.xi).det)
        (pointOf E (grads hexa pos q.xi) u p) p) + π * kppHom (term E k (grads hexa pos q.xi)
        (q.w * (jac hexa pos q.xi).det) (pointOf E (grads hexa pos q.xi) u p) p)))).sum := by
    rw [listSum_neg, listSum_lin, ← tot_map, ← tot_map, dotProduct_comm, mul_comm _ π]
    rfl
  rw [e2]
  apply hasDerivAt_listSum
  intro q hq
  have hD := detP_disp pos u q.xi (h q hq) (hu q hq)
  have hd := deriv_volume (grad9 (grads hexa pos q.xi) (vec24 u)) (grad9 (grads hexa pos q.xi) (vec24 δ)) 0 (by simpa using hD)
  simp only [zero_smul, add_zero] at hd
  have hp : HasDerivAt (fun s : ℝ => (p + s * π) / k) (π / k) 0 := by
    have := ((((hasDerivAt_id (0 : ℝ)).mul_const π).const_add p)).div_const k
    simpa using this
  refine ((((hd.sub_const 1).fun_sub hp).fun_neg).mul_const (q.w * (jac hexa pos q.xi).det)).congr_deriv ?_
  have b := term_Kup E k (grads hexa pos q.xi) u (q.w * (jac hexa pos q.xi).det) p (vec24 δ)
  simp only [kppHom, pressHom, AddMonoidHom.coe_mk, ZeroHom.coe_mk]
  rw [b]
  simp only [term]
  ring

/-- `update` followed by `buildK`. -/
def solidStep (E : Energy) (k : ℝ) (g : Geom 3 8) (pts : List Point) (u : Fin 8 → Fin 3 → ℝ) (p : ℝ) : Res Sys81 := do
  let pts ← solidUpdate E g u p pts
  solidK E k g pts p

theorem solidStep_eq (E : Energy) (k : ℝ) {pos : Fin 8 → Fin 3 → ℝ} {g : Geom 3 8} (hg : Good hexa pos g)
    (pts : List Point) (hp : pts.length = nOfIntPoints hexa g) (u : Fin 8 → Fin 3 → ℝ) (p : ℝ) :
    solidStep E k g pts u p = .ok (enc (tot E k pos (hexa.table g.scheme) u p)) := by
  unfold solidStep
  rw [solidUpdate_eq E hg u p pts hp, Res.ok_bind, solidK_eq E k hg]
  rfl

theorem tot_symm (E : Energy) (k : ℝ) (pos : Fin 8 → Fin 3 → ℝ) (qs : List (QuadPt 3)) (u : Fin 8 → Fin 3 → ℝ) (p : ℝ) :
    (tot E k pos qs u p).1.IsSymm := by
  unfold tot total
  induction qs with
  | nil => simp [Matrix.IsSymm]
  | cons q qs ih =>
    rw [List.map_cons, List.sum_cons]
    refine Matrix.IsSymm.add ?_ ih
    simp only [term]
    refine Matrix.IsSymm.add (Matrix.IsSymm.smul ?_ _) (Matrix.IsSymm.smul ?_ _)
    · unfold Matrix.IsSymm
      rw [Matrix.transpose_mul, Matrix.transpose_mul, Matrix.transpose_transpose, (Dmat_symm E _ p).eq, Matrix.mul_assoc]
    · unfold Matrix.IsSymm
      rw [Matrix.transpose_mul, Matrix.transpose_mul, Matrix.transpose_transpose, (S9_symm _).eq, Matrix.mul_assoc]

/-- C67. The matrix SOLID81 assembles after `update` is the exact derivative of minus the forces it assembles, for every consistent
material, at every displacement for which the displaced element is not degenerate at the integration points. -/
theorem C67_tangent {E : Energy} (hE : E.Consistent) (k : ℝ) (o : Nat) (pos : Fin 8 → Fin 3 → ℝ)
    (h : ∀ q ∈ hexa.table (schemeIndex o), (jac hexa pos q.xi).det ≠ 0) :
    ∃ g, makeJacob hexa o pos = .ok g ∧
    ∃ (Kuu : (Fin 8 → Fin 3 → ℝ) → ℝ → Matrix (Fin 24) (Fin 24) ℝ) (Kup Fu : (Fin 8 → Fin 3 → ℝ) → ℝ → Fin 24 → ℝ)
      (Kpp Fp : (Fin 8 → Fin 3 → ℝ) → ℝ → ℝ),
      (∀ pts u p, pts.length = nOfIntPoints hexa g →
        solidStep E k g pts u p = .ok ⟨pack (Kuu u p), List.ofFn (Kup u p), Kpp u p, List.ofFn (Fu u p), Fp u p⟩) ∧
      (∀ u p, (Kuu u p).IsSymm) ∧
      ∀ u p δ π, (∀ q ∈ hexa.table (schemeIndex o), (jac hexa (pos + u) q.xi).det ≠ 0) →
        (∀ i, HasDerivAt (fun s : ℝ => Fu (u + s • δ) (p + s * π) i)
          (-((Kuu u p).mulVec (vec24 δ) i + Kup u p i * π)) 0) ∧
        HasDerivAt (fun s : ℝ => Fp (u + s • δ) (p + s * π)) (-(Kup u p ⬝ᵥ vec24 δ + Kpp u p * π)) 0 := by
  obtain ⟨g, h1, h2, h3⟩ := makeJacob_good h
  rw [← h2] at h
  refine ⟨g, h1, fun u p => (tot E k pos (hexa.table g.scheme) u p).1, fun u p => (tot E k pos (hexa.table g.scheme) u p).2.1,
    fun u p => (tot E k pos (hexa.table g.scheme) u p).2.2.2.1, fun u p => (tot E k pos (hexa.table g.scheme) u p).2.2.1,
    fun u p => (tot E k pos (hexa.table g.scheme) u p).2.2.2.2, fun pts u p hp => solidStep_eq E k h3 pts hp u p,
    fun u p => tot_symm E k pos _ u p, ?_⟩
  intro u p δ π hu
  rw [← h2] at hu
  refine ⟨?_, deriv_tot_Fp E k pos _ h u δ p π hu⟩
  intro i
  have := deriv_tot_Fu hE k pos _ h u δ p π hu (Pi.single i 1)
  simp only [single_dotProduct, one_mul] at this
  refine this.congr_deriv ?_
  ring

/-- C67. The forces are minus the derivatives of the potential `∑ w (W + p (J - 1) - p² / 2k)` of the element. -/
theorem C67_potential {E : Energy} (hE : E.Consistent) (k z : ℝ) (o : Nat) (pos : Fin 8 → Fin 3 → ℝ)
    (h : ∀ q ∈ hexa.table (schemeIndex o), (jac hexa pos q.xi).det ≠ 0) :
    ∃ g, makeJacob hexa o pos = .ok g ∧ ∃ (Fu : (Fin 8 → Fin 3 → ℝ) → ℝ → Fin 24 → ℝ) (Fp : (Fin 8 → Fin 3 → ℝ) → ℝ → ℝ),
      (∀ pts u p, pts.length = nOfIntPoints hexa g →
        ∃ s, solidStep E k g pts u p = .ok s ∧ s.Fu = List.ofFn (Fu u p) ∧ s.Fp = Fp u p) ∧
      ∀ (F : QuadPt 3 → (Fin 8 → Fin 3 → ℝ) → Mat3),
        (∀ q ∈ hexa.table (schemeIndex o), ∀ u, IsDefGrad hexa pos u q.xi (F q u)) →
        ∀ u p δ, (∀ q ∈ hexa.table (schemeIndex o), (F q u).det ≠ 0) →
          HasDerivAt (fun s : ℝ => ((hexa.table (schemeIndex o)).map (fun q => q.w * (jac hexa pos q.xi).det *
            (energy E p z ((F q (u + s • δ)).transpose * F q (u + s • δ)) - p ^ 2 / (2 * k)))).sum)
            (-(Fu u p ⬝ᵥ vec24 δ)) 0 ∧
          HasDerivAt (fun s : ℝ => ((hexa.table (schemeIndex o)).map (fun q => q.w * (jac hexa pos q.xi).det *
            (energy E s z ((F q u).transpose * F q u) - s ^ 2 / (2 * k)))).sum)
            (-Fp u p) p := by
  obtain ⟨g, h1, h2, h3⟩ := makeJacob_good h
  rw [← h2] at h ⊢
  refine ⟨g, h1, fun u p => (tot E k pos (hexa.table g.scheme) u p).2.2.2.1,
    fun u p => (tot E k pos (hexa.table g.scheme) u p).2.2.2.2,
    fun pts u p hp => ⟨_, solidStep_eq E k h3 pts hp u p, rfl, rfl⟩, ?_⟩
  intro F hF u p δ hu
  have eF : ∀ q ∈ hexa.table g.scheme, ∀ u, F q u = 1 + dispGrad hexa pos u q.xi :=
    fun q hq u => (defGrad_eq (h q hq)).mp (hF q hq u)
  have hD : ∀ q ∈ hexa.table g.scheme, 0 < detP (solidC (grad9 (grads hexa pos q.xi) (vec24 u))) := by
    intro q hq
    rw [solidC_disp, det_pack6 (isSymm_gram _), Matrix.det_mul, Matrix.det_transpose, ← eF q hq]
    exact mul_self_pos.mpr (hu q hq)
  constructor
  · have e2 : -((tot E k pos (hexa.table g.scheme) u p).2.2.2.1 ⬝ᵥ vec24 δ) = ((hexa.table g.scheme).map (fun q =>
        -(forceHom (vec24 δ) (term E k (grads hexa pos q.xi) (q.w * (jac hexa pos q.xi).det)
        (pointOf E (grads hexa pos q.xi) u p) p)))).sum := by
      rw [listSum_neg, ← tot_map, dotProduct_comm]
      rfl
    rw [e2]
    apply hasDerivAt_listSum
    intro q hq
    have hγ : ∀ i, HasDerivAt (fun s : ℝ => solidC (grad9 (grads hexa pos q.xi) (vec24 u) +
        s • grad9 (grads hexa pos q.xi) (vec24 δ)) i) _ 0 := fun i => deriv_solidC _ _ 0 i
    have hd := deriv_energy hγ (by simpa using hD q hq) hE p z
    rw [ddot_bvec] at hd
    simp only [zero_smul, add_zero] at hd
    have ev : ∀ᶠ s : ℝ in nhds 0, 0 < detP (solidC (grad9 (grads hexa pos q.xi) (vec24 u) +
        s • grad9 (grads hexa pos q.xi) (vec24 δ))) := eventually_pos hγ (by simpa using hD q hq)
    have h5 : HasDerivAt (fun s : ℝ => energy E p z ((F q (u + s • δ)).transpose * F q (u + s • δ)))
        ((∑ i, stressEntry E (solidC (grad9 (grads hexa pos q.xi) (vec24 u))) p i *
          bvec (grad9 (grads hexa pos q.xi) (vec24 u)) (grad9 (grads hexa pos q.xi) (vec24 δ)) i) / 2) 0 := by
      refine hd.congr_of_eventuallyEq ?_
      filter_upwards [ev] with s hs
      have e3 := solidC_disp pos (u + s • δ) q.xi
      rw [vec24_line, grad9_line] at e3
      rw [e3, det_pack6 (isSymm_gram _)] at hs
      rw [eF q hq, energy_eq E p z (isSymm_gram _) hs, e3]
    refine ((h5.sub_const (p ^ 2 / (2 * k))).const_mul _).congr_deriv ?_
    have a := term_Fu E k (grads hexa pos q.xi) u (q.w * (jac hexa pos q.xi).det) p (vec24 δ)
    simp only [forceHom, AddMonoidHom.coe_mk, ZeroHom.coe_mk]
    rw [a, force, Finset.sum_congr rfl (fun i _ => mul_comm _ _)]
    ring
  · have e2 : -((tot E k pos (hexa.table g.scheme) u p).2.2.2.2) = ((hexa.table g.scheme).map (fun q =>
        -(volHom (term E k (grads hexa pos q.xi) (q.w * (jac hexa pos q.xi).det)
        (pointOf E (grads hexa pos q.xi) u p) p)))).sum := by
      rw [listSum_neg, ← tot_map]
      rfl
    rw [e2]
    apply hasDerivAt_listSum
    intro q hq
    have hdet : 0 < ((F q u).transpose * F q u).det := by
      have := hD q hq
      rwa [solidC_disp, det_pack6 (isSymm_gram _), ← eF q hq] at this
    have e4 : ∀ s : ℝ, energy E s z ((F q u).transpose * F q u) = energy E 0 z ((F q u).transpose * F q u) +
        s * (JC (solidC (grad9 (grads hexa pos q.xi) (vec24 u))) - 1) := by
      intro s
      rw [energy_eq E s z (isSymm_gram _) hdet, energy_eq E 0 z (isSymm_gram _) hdet, solidC_disp, ← eF q hq]
      ring
    have e5 : (fun s : ℝ => q.w * (jac hexa pos q.xi).det * (energy E s z ((F q u).transpose * F q u) - s ^ 2 / (2 * k))) =
        fun s => q.w * (jac hexa pos q.xi).det * (energy E 0 z ((F q u).transpose * F q u) +
        s * (JC (solidC (grad9 (grads hexa pos q.xi) (vec24 u))) - 1) - s ^ 2 / (2 * k)) := by
      funext s; rw [e4 s]
    rw [e5]
    have h6 := (((hasDerivAt_id p).mul_const (JC (solidC (grad9 (grads hexa pos q.xi) (vec24 u))) - 1)).const_add
      (energy E 0 z ((F q u).transpose * F q u))).fun_sub (((hasDerivAt_id p).fun_pow 2).div_const (2 * k))
    refine (h6.const_mul (q.w * (jac hexa pos q.xi).det)).congr_deriv ?_
    simp only [volHom, AddMonoidHom.coe_mk, ZeroHom.coe_mk, term, pointOf, id]
    by_cases hk : k = 0
    · subst hk; simp; ring
    · field_simp; ring

/-- C67. The forces are in equilibrium: their sum over the nodes is zero in every direction, at every displacement and pressure. -/
theorem C67_balance (E : Energy) (k : ℝ) (o : Nat) (pos : Fin 8 → Fin 3 → ℝ)
    (h : ∀ q ∈ hexa.table (schemeIndex o), (jac hexa pos q.xi).det ≠ 0) :
    ∃ g, makeJacob hexa o pos = .ok g ∧ ∀ pts u p, pts.length = nOfIntPoints hexa g →
      ∃ s, ∃ Fu : Fin 24 → ℝ, solidStep E k g pts u p = .ok s ∧ s.Fu = List.ofFn Fu ∧
        ∀ c : Fin 3, ∑ a : Fin 8, Fu ⟨3 * a.val + c.val, by omega⟩ = 0 := by
  obtain ⟨g, h1, h2, h3⟩ := makeJacob_good h
  rw [← h2] at h
  refine ⟨g, h1, fun pts u p hp => ⟨_, (tot E k pos (hexa.table g.scheme) u p).2.2.2.1, solidStep_eq E k h3 pts hp u p, rfl, ?_⟩⟩
  intro c
  have hv : vec24 (fun _ i => if i = c then 1 else 0) ⬝ᵥ (tot E k pos (hexa.table g.scheme) u p).2.2.2.1 = 0 := by
    refine (tot_map (forceHom _) E k pos (hexa.table g.scheme) u p).trans ?_
    apply List.sum_eq_zero
    intro x hx
    rw [List.mem_map] at hx
    obtain ⟨q, hq, rfl⟩ := hx
    refine (term_Fu E k _ _ _ _ _).trans ?_
    have hs := (exact_grads C34_hexa pos q.xi (h q hq)).1
    have e0 : grad9 (grads hexa pos q.xi) (vec24 (fun _ i => if i = c then 1 else 0)) = 0 := by
      unfold grad9
      simp only [vec24_at, ← Finset.sum_mul, hs, zero_mul]
      funext r; fin_cases r <;> rfl
    rw [e0]
    unfold force
    have e1 : bvec (grad9 (grads hexa pos q.xi) (vec24 u)) 0 = 0 := by
      unfold bvec
      rw [Matrix.mulVec_zero, smul_zero, add_zero]
      funext r; fin_cases r <;> simp [lin6]
    simp [e1]
  rw [← hv, dotProduct]
  simp only [vec24]
  rw [Fin.sum_univ_eight]
  simp only [Fin.sum_univ_succ]
  fin_cases c <;> simp [Fin.succ, Fin.ext_iff] <;> simp only [add_assoc] <;> rfl

/-- C67. Without deformation (`FᵀF = 1` at every integration point, as after a rigid motion) and pressure there are no forces. -/
theorem C67_rigid (E : Energy) (k : ℝ) (o : Nat) (pos : Fin 8 → Fin 3 → ℝ)
    (h : ∀ q ∈ hexa.table (schemeIndex o), (jac hexa pos q.xi).det ≠ 0) :
    ∃ g, makeJacob hexa o pos = .ok g ∧ ∀ pts u, pts.length = nOfIntPoints hexa g →
      (∀ q ∈ hexa.table (schemeIndex o), ∀ F, IsDefGrad hexa pos u q.xi F → F.transpose * F = 1) →
      ∃ s, solidStep E k g pts u 0 = .ok s ∧ s.Fu = List.replicate 24 0 ∧ s.Fp = 0 := by
  obtain ⟨g, h1, h2, h3⟩ := makeJacob_good h
  rw [← h2] at h ⊢
  refine ⟨g, h1, fun pts u hp hF => ⟨_, solidStep_eq E k h3 pts hp u 0, ?_, ?_⟩⟩
  · have e : (tot E k pos (hexa.table g.scheme) u 0).2.2.2.1 = 0 := by
      funext i
      have : Pi.single i 1 ⬝ᵥ (tot E k pos (hexa.table g.scheme) u 0).2.2.2.1 = 0 := by
        refine (tot_map (forceHom _) E k pos (hexa.table g.scheme) u 0).trans ?_
        apply List.sum_eq_zero
        intro x hx
        rw [List.mem_map] at hx
        obtain ⟨q, hq, rfl⟩ := hx
        refine (term_Fu E k _ _ _ _ _).trans ?_
        have hC := hF q hq _ ((defGrad_eq (h q hq)).mpr rfl)
        unfold force
        rw [solidC_disp, hC]
        have hs := C47_identity E 0
        rw [stressOf_eq, zero_smul] at hs
        have hs' := congrArg pack6 (Res.ok.inj hs)
        rw [pack6_unpack6] at hs'
        rw [hs']
        have : pack6 (0 : Mat3) = 0 := by funext r; fin_cases r <;> rfl
        rw [this]
        simp
      rwa [single_dotProduct, one_mul] at this
    show List.ofFn _ = _
    rw [e]
    simp [List.ofFn_succ, List.replicate]
  · refine (tot_map volHom E k pos (hexa.table g.scheme) u 0).trans ?_
    apply List.sum_eq_zero
    intro x hx
    rw [List.mem_map] at hx
    obtain ⟨q, hq, rfl⟩ := hx
    have hC := hF q hq _ ((defGrad_eq (h q hq)).mpr rfl)
    simp only [volHom, AddMonoidHom.coe_mk, ZeroHom.coe_mk, term, pointOf]
    rw [solidC_disp, hC]
    have : JC (pack6 (1 : Mat3)) = 1 := by
      rw [JC_eq]; simp [detP, pack6]
    rw [this]
    simp

end Nla3d.Hyper
