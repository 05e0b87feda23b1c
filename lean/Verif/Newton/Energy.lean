import Verif.Newton.Group
import Verif.Hyper.Solid81
import Verif.Hyper.Plane41

/-!
# The potential energy of an element as a function of all its unknowns
-/

namespace Nla3d.Newton

open Nla3d.Storage Nla3d.Dof Nla3d.Iso Nla3d.Hyper Nla3d.Material

noncomputable section

/-! ## Specification -/

/-- The deformation gradient at a local point: the derivative of the displaced position by the position. -/
def defGrad {d nn : Nat} (S : Shape d nn) (pos u : Fin nn → Fin d → ℝ) (x : Fin d → ℝ) : Matrix (Fin d) (Fin d) ℝ :=
  ((jac S pos x)⁻¹ * jac S (pos + u) x).transpose

/-- The potential of a hexahedron: the energy stored in the material, the work of the pressure on the change of volume, and the
energy of compression. `z` is the argument of the energy function that the incompressible part does not depend on. -/
def solidPotential (E : Energy) (k z : ℝ) (o : Nat) (pos u : Fin 8 → Fin 3 → ℝ) (p : ℝ) : ℝ :=
  ((hexa.table (schemeIndex o)).map (fun q => q.w * (jac hexa pos q.xi).det *
    (energy E p z ((defGrad hexa pos u q.xi).transpose * defGrad hexa pos u q.xi) - p ^ 2 / (2 * k)))).sum

/-- The same for a plane element in plane strain. -/
def planePotential (E : Energy) (k z : ℝ) (o : Nat) (pos u : Fin 4 → Fin 2 → ℝ) (p : ℝ) : ℝ :=
  ((quad.table (schemeIndex o)).map (fun q => q.w * (jac quad pos q.xi).det *
    (energy E p z ((plane3 (defGrad quad pos u q.xi)).transpose * plane3 (defGrad quad pos u q.xi)) - p ^ 2 / (2 * k)))).sum

/-- Displacements of the nodes of a hexahedron. -/
def Hex.disp (num : Key → Nat) (u : Nat → ℝ) (e : Hex) : Fin 8 → Fin 3 → ℝ :=
  fun a c => u (num (.node, e.nodes a, (![.UX, .UY, .UZ] : Fin 3 → DofType) c))

/-- Displacements of the nodes of a plane element. -/
def Quad.disp (num : Key → Nat) (u : Nat → ℝ) (e : Quad) : Fin 4 → Fin 2 → ℝ :=
  fun a c => u (num (.node, e.nodes a, (![.UX, .UY] : Fin 2 → DofType) c))

/-- The potential of an element as a function of the unknowns of the model. -/
def El.potential (z : ℝ) (num : Key → Nat) (u : Nat → ℝ) : El → ℝ
  | .hex e => solidPotential e.E e.k z e.order e.pos (e.disp num u) (u (num (.elem, e.en, .HYDRO_PRESSURE)))
  | .plane e => planePotential e.E e.k z e.order e.pos (e.disp num u) (u (num (.elem, e.en, .HYDRO_PRESSURE)))

/-! ## Lemmas -/

theorem defGrad_isDefGrad {d nn : Nat} {S : Shape d nn} {pos u : Fin nn → Fin d → ℝ} {x : Fin d → ℝ} (h : (jac S pos x).det ≠ 0) :
    IsDefGrad S pos u x (defGrad S pos u x) := by
  unfold IsDefGrad defGrad
  rw [Matrix.transpose_transpose, ← Matrix.mul_assoc, Matrix.mul_nonsing_inv _ (isUnit_iff_ne_zero.mpr h), Matrix.one_mul]

theorem defGrad_det {d nn : Nat} {S : Shape d nn} {pos u : Fin nn → Fin d → ℝ} {x : Fin d → ℝ} (h : (jac S pos x).det ≠ 0)
    (hu : (jac S (pos + u) x).det ≠ 0) : (defGrad S pos u x).det ≠ 0 := by
  unfold defGrad
  rw [Matrix.det_transpose, Matrix.det_mul, Matrix.det_nonsing_inv, Ring.inverse_eq_inv']
  exact mul_ne_zero (inv_ne_zero h) hu

/-- A function that is a polynomial of degree two in its second argument has the sum of its partial derivatives as derivative. -/
theorem joint {f : ℝ → ℝ → ℝ} {c : ℝ} (hf : ∀ s p, f s p = f s 0 + p * (f s 1 - f s 0 + c) - p ^ 2 * c) {d : ℝ → ℝ}
    (hd : ∀ p, HasDerivAt (fun s => f s p) (d p) 0) {p dp : ℝ} (hp : HasDerivAt (fun q => f 0 q) dp p) (π : ℝ) :
    HasDerivAt (fun s => f s (p + s * π)) (d p + dp * π) 0 := by
  have e1 : d p = d 0 + p * (d 1 - d 0) := by
    have h1 : HasDerivAt (fun s => f s 0 + p * (f s 1 - f s 0 + c) - p ^ 2 * c) (d 0 + p * (d 1 - d 0)) 0 :=
      ((hd 0).fun_add ((((hd 1).fun_sub (hd 0)).add_const c).const_mul p)).sub_const _
    exact (hd p).unique (h1.congr_of_eventuallyEq (Filter.Eventually.of_forall fun s => hf s p))
  have e2 : dp = (f 0 1 - f 0 0 + c) - 2 * p * c := by
    have h1 : HasDerivAt (fun q : ℝ => f 0 0 + q * (f 0 1 - f 0 0 + c) - q ^ 2 * c) (1 * (f 0 1 - f 0 0 + c) - (2 * p ^ (2 - 1) * 1) * c) p :=
      (((hasDerivAt_id p).mul_const _).const_add _).fun_sub (((hasDerivAt_id p).fun_pow 2).mul_const c)
    rw [hp.unique (h1.congr_of_eventuallyEq (Filter.Eventually.of_forall fun q => hf 0 q))]
    ring
  have hl : HasDerivAt (fun s : ℝ => p + s * π) (1 * π) 0 := ((hasDerivAt_id (0 : ℝ)).mul_const π).const_add p
  have h2 := ((hd 0).fun_add (hl.fun_mul (((hd 1).fun_sub (hd 0)).add_const c))).fun_sub ((hl.fun_pow 2).mul_const c)
  refine (h2.congr_of_eventuallyEq (Filter.Eventually.of_forall fun s => hf s _)).congr_deriv ?_
  rw [e1, e2]
  simp
  ring

theorem energy_affine (E : Energy) (p z : ℝ) (C : Mat3) : energy E p z C = energy E 0 z C + p * (energy E 1 z C - energy E 0 z C) := by
  unfold energy
  ring

theorem sum_poly {α : Type} (l : List α) (w : α → ℝ) (f : α → ℝ → ℝ) (hf : ∀ x p, f x p = f x 0 + p * (f x 1 - f x 0)) (k p : ℝ) :
    (l.map (fun q => w q * (f q p - p ^ 2 / (2 * k)))).sum = (l.map (fun q => w q * (f q 0 - 0 ^ 2 / (2 * k)))).sum +
      p * ((l.map (fun q => w q * (f q 1 - 1 ^ 2 / (2 * k)))).sum - (l.map (fun q => w q * (f q 0 - 0 ^ 2 / (2 * k)))).sum +
        (l.map (fun q => w q / (2 * k))).sum) - p ^ 2 * (l.map (fun q => w q / (2 * k))).sum := by
  induction l with
  | nil => simp
  | cons x l ih =>
    simp only [List.map_cons, List.sum_cons]
    rw [ih, hf x p]
    ring

/-- The forces of SOLID81 are minus the derivative of the potential in every direction of displacements and pressure. -/
theorem solid_potential {E : Energy} (hE : E.Consistent) (k z : ℝ) (o : Nat) (pos : Fin 8 → Fin 3 → ℝ)
    (h : ∀ q ∈ hexa.table (schemeIndex o), (jac hexa pos q.xi).det ≠ 0) :
    ∃ g, makeJacob hexa o pos = .ok g ∧ ∃ (Fu : (Fin 8 → Fin 3 → ℝ) → ℝ → Fin 24 → ℝ) (Fp : (Fin 8 → Fin 3 → ℝ) → ℝ → ℝ),
      (∀ pts u p, pts.length = nOfIntPoints hexa g →
        ∃ s, solidStep E k g pts u p = .ok s ∧ s.Fu = List.ofFn (Fu u p) ∧ s.Fp = Fp u p) ∧
      ∀ u p δ π, (∀ q ∈ hexa.table (schemeIndex o), (jac hexa (pos + u) q.xi).det ≠ 0) →
        HasDerivAt (fun s : ℝ => solidPotential E k z o pos (u + s • δ) (p + s * π)) (-(Fu u p ⬝ᵥ vec24 δ + Fp u p * π)) 0 := by
  obtain ⟨g, h1, Fu, Fp, h2, h3⟩ := C67_potential hE k z o pos h
  refine ⟨g, h1, Fu, Fp, h2, ?_⟩
  intro u p δ π hu
  have h4 := fun p => h3 (fun q u => defGrad hexa pos u q.xi) (fun q hq u => defGrad_isDefGrad (h q hq)) u p δ
    (fun q hq => defGrad_det (h q hq) (hu q hq))
  refine (joint (f := fun s p => solidPotential E k z o pos (u + s • δ) p)
    (c := ((hexa.table (schemeIndex o)).map (fun q => q.w * (jac hexa pos q.xi).det / (2 * k))).sum) (d := fun p => -(Fu u p ⬝ᵥ vec24 δ)) (dp := -Fp u p)
    (fun s p => ?_) (fun p => (h4 p).1) ?_ π).congr_deriv (by ring)
  · exact sum_poly (hexa.table (schemeIndex o)) (fun q => q.w * (jac hexa pos q.xi).det)
      (fun q p => energy E p z ((defGrad hexa pos (u + s • δ) q.xi).transpose * defGrad hexa pos (u + s • δ) q.xi))
      (fun q p => energy_affine E p z _) k p
  · have := (h4 p).2
    simp only [zero_smul, add_zero]
    exact this

/-- The same of PLANE41. -/
theorem plane_potential {E : Energy} (hE : E.Consistent) (k z : ℝ) (o : Nat) (pos : Fin 4 → Fin 2 → ℝ)
    (h : ∀ q ∈ quad.table (schemeIndex o), (jac quad pos q.xi).det ≠ 0) :
    ∃ g, makeJacob quad o pos = .ok g ∧ ∃ (Ke : (Fin 4 → Fin 2 → ℝ) → ℝ → Matrix (Fin 9) (Fin 9) ℝ)
      (Fe : (Fin 4 → Fin 2 → ℝ) → ℝ → Fin 9 → ℝ),
      (∀ pts u p, pts.length = nOfIntPoints quad g → planeStep E k g pts u p = .ok (Ke u p, Fe u p)) ∧
      ∀ u p δ π, (∀ q ∈ quad.table (schemeIndex o), (jac quad (pos + u) q.xi).det ≠ 0) →
        HasDerivAt (fun s : ℝ => planePotential E k z o pos (u + s • δ) (p + s * π)) (-(Fe u p ⬝ᵥ vec9 δ π)) 0 := by
  obtain ⟨g, h1, Ke, Fe, h2, h3⟩ := C68_potential hE k z o pos h
  refine ⟨g, h1, Ke, Fe, h2, ?_⟩
  intro u p δ π hu
  have h4 := fun p => h3 (fun q u => defGrad quad pos u q.xi) (fun q hq u => defGrad_isDefGrad (h q hq)) u p δ
    (fun q hq => defGrad_det (h q hq) (hu q hq))
  have e9 : Fe u p ⬝ᵥ vec9 δ π = Fe u p ⬝ᵥ vec9 δ 0 + Fe u p 8 * π := by
    simp [dotProduct, Fin.sum_univ_castSucc, vec9]
  refine (joint (f := fun s p => planePotential E k z o pos (u + s • δ) p)
    (c := ((quad.table (schemeIndex o)).map (fun q => q.w * (jac quad pos q.xi).det / (2 * k))).sum) (d := fun p => -(Fe u p ⬝ᵥ vec9 δ 0)) (dp := -Fe u p 8)
    (fun s p => ?_) (fun p => (h4 p).1) ?_ π).congr_deriv (by rw [e9]; ring)
  · exact sum_poly (quad.table (schemeIndex o)) (fun q => q.w * (jac quad pos q.xi).det)
      (fun q p => energy E p z ((plane3 (defGrad quad pos (u + s • δ) q.xi)).transpose * plane3 (defGrad quad pos (u + s • δ) q.xi)))
      (fun q p => energy_affine E p z _) k p
  · have := (h4 p).2
    simp only [zero_smul, add_zero]
    exact this

end

end Nla3d.Newton
