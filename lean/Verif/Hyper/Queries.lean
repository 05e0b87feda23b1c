import Verif.Hyper.Solid81
import Verif.Hyper.Plane41
import Mathlib.Data.Real.StarOrdered

/-!
# C52, C69: the queries of the hyperelastic elements
-/

namespace Nla3d.Hyper

open Iso Dense Thermal Material
open Finset hiding ext
open scoped Matrix

noncomputable section

/-! ## Points -/

/-- The point `pt` of SOLID81 holds the deformation gradient `F` and the second Piola-Kirchhoff stress `S`. -/
structure Point.Holds (pt : Point) (F S : Mat3) : Prop where
  O : ∀ i j : Fin 3, pt.O ⟨3 * i.val + j.val, by omega⟩ = (F - 1) i j
  C : pt.C = pack6 (F.transpose * F)
  S : pt.S = pack6 S

theorem flat3 (M : Mat3) : flat M = [M 0 0, M 0 1, M 0 2, M 1 0, M 1 1, M 1 2, M 2 0, M 2 1, M 2 2] := by
  simp [flat, rectPairs, List.range_succ, ext]

theorem pack3 (M : Mat3) : pack M = List.ofFn (pack6 M) := by
  simp [pack, upperPairs, List.range_succ, ext, List.range'_succ, pack6, List.ofFn_succ]

theorem holds_F {pt : Point} {F S : Mat3} (h : pt.Holds F S) : solidF pt.O = flat F.transpose := by
  have g := h.O
  have h0 : pt.O 0 = (F - 1) 0 0 := g 0 0
  have h1 : pt.O 1 = (F - 1) 0 1 := g 0 1
  have h2 : pt.O 2 = (F - 1) 0 2 := g 0 2
  have h3 : pt.O 3 = (F - 1) 1 0 := g 1 0
  have h4 : pt.O 4 = (F - 1) 1 1 := g 1 1
  have h5 : pt.O 5 = (F - 1) 1 2 := g 1 2
  have h6 : pt.O 6 = (F - 1) 2 0 := g 2 0
  have h7 : pt.O 7 = (F - 1) 2 1 := g 2 1
  have h8 : pt.O 8 = (F - 1) 2 2 := g 2 2
  rw [flat3]
  simp [solidF, h0, h1, h2, h3, h4, h5, h6, h7, h8]

theorem posDef_gram {F : Mat3} (h : F.det ≠ 0) : (F.transpose * F).PosDef := by
  have := Matrix.PosDef.conjTranspose_mul_self F (fun x y hxy => by
    have hu : IsUnit F := (Matrix.isUnit_iff_isUnit_det F).mpr (isUnit_iff_ne_zero.mpr h)
    exact (Matrix.mulVec_injective_iff_isUnit.mpr hu) hxy)
  rwa [Matrix.conjTranspose_eq_transpose_of_trivial] at this

theorem JC_gram {F : Mat3} (h : 0 < F.det) : JC (pack6 (F.transpose * F)) = F.det := by
  rw [JC_eq, det_pack6 (isSymm_gram _), Matrix.det_mul, Matrix.det_transpose, Real.sqrt_mul_self h.le]

theorem push_inv {F : Mat3} (h : F.det ≠ 0) :
    F * unpack6 (invCC (pack6 (F.transpose * F)) (JC (pack6 (F.transpose * F)))) * F.transpose = 1 := by
  have hi := (C45_inv (posDef_gram h)).2
  set X := unpack6 (invCC (pack6 (F.transpose * F)) (JC (pack6 (F.transpose * F)))) with hX
  have hu : IsUnit F.det := isUnit_iff_ne_zero.mpr h
  have h1 : X * F.transpose * F = 1 := by rw [Matrix.mul_assoc]; exact hi
  have h2 : F * (X * F.transpose) = 1 := mul_eq_one_comm.mp h1
  rw [Matrix.mul_assoc]
  exact h2

theorem unpack6_add (v w : Fin 6 → ℝ) (c : ℝ) : unpack6 (fun i => v i + c * w i) = unpack6 v + c • unpack6 w := by
  ext i j; fin_cases i <;> fin_cases j <;> simp [unpack6]

theorem unpack6_symm (v : Fin 6 → ℝ) : (unpack6 v).IsSymm := by
  ext i j; fin_cases i <;> fin_cases j <;> rfl

theorem solidCouchy_eq {pts : List Point} {k : Nat} {pt : Point} {F S : Mat3} (hk : pts[k]? = some pt) (h : pt.Holds F S)
    (hS : S.IsSymm) (hF : 0 < F.det) (p scale : ℝ) (T : Mat3) :
    solidCouchy pts p k scale (pack T) =
      .ok (pack (T + scale • ((1 / F.det) • (F * S * F.transpose) + p • (1 : Mat3)))) := by
  unfold solidCouchy
  rw [Res.read_eq_ok.mpr hk, Res.ok_bind]
  simp only
  rw [holds_F h, h.C, h.S]
  have e : List.ofFn (fun i => pack6 S i + p * JC (pack6 (F.transpose * F)) *
      invCC (pack6 (F.transpose * F)) (JC (pack6 (F.transpose * F))) i) =
      pack (S + (p * F.det) • unpack6 (invCC (pack6 (F.transpose * F)) (JC (pack6 (F.transpose * F))))) := by
    rw [pack3]
    congr 1
    conv_rhs => rw [← unpack6_pack6 hS, ← unpack6_add, pack6_unpack6]
    rw [JC_gram hF]
  rw [e, matBTDBprod_eq _ (Matrix.IsSymm.add hS (Matrix.IsSymm.smul (unpack6_symm _) _)), Matrix.transpose_transpose, Matrix.mul_add,
    Matrix.add_mul, Matrix.mul_smul, Matrix.smul_mul, push_inv hF.ne', JC_gram hF]
  congr 3
  rw [smul_add, smul_add, smul_smul, smul_smul, smul_smul]
  congr 2
  · ring
  · field_simp

theorem pack3_inj {A B : Mat3} (h : pack A = pack B) : pack6 A = pack6 B := by
  rw [pack3, pack3] at h
  exact List.ofFn_injective h

/-- The queries with `GP_MEAN`: if the query at a point adds `scale • X`, the mean query adds the mean of the `X`. -/
theorem meanQuery_eq {d nn : Nat} {S : Shape d nn} {pos : Fin nn → Fin d → ℝ} {g : Geom d nn} (hg : Good S pos g)
    {α M : Type} [AddCommGroup M] [Module ℝ M] (e : M → α) (q : Nat → ℝ → α → Res α) (X : QuadPt d → M)
    (h : ∀ (k : Nat) (hk : k < (S.table g.scheme).length) (s : ℝ) (T : M),
      q k s (e T) = .ok (e (T + s • X (S.table g.scheme)[k]))) (scale : ℝ) (T : M) :
    meanQuery S g q scale (e T) = .ok (e (T + scale • ((S.table g.scheme).map (fun q => (q.w * (jac S pos q.xi).det /
      ((S.table g.scheme).map (fun q => q.w * (jac S pos q.xi).det)).sum) • X q)).sum)) := by
  unfold meanQuery
  rw [hg.volume, Res.ok_bind]
  have key := pointsLoop (S.table g.scheme) (fun x np => do
      let dWt ← intWeight S g np
      q np (dWt / ((S.table g.scheme).map (fun q => q.w * (jac S pos q.xi).det)).sum * scale) x) e
    (fun q => scale • ((q.w * (jac S pos q.xi).det /
      ((S.table g.scheme).map (fun q => q.w * (jac S pos q.xi).det)).sum) • X q)) (by
      intro k hk t
      rw [hg.intWeight hk, Res.ok_bind, h k hk, smul_smul, mul_comm scale]) T
  refine key.trans ?_
  congr 3
  rw [List.smul_sum, List.map_map]
  rfl

/-- The weighted mean of a quantity over the integration points of an element. -/
def mean {d nn : Nat} {M : Type} [AddCommGroup M] [Module ℝ M] (S : Shape d nn) (o : Nat) (pos : Fin nn → Fin d → ℝ)
    (X : QuadPt d → M) : M :=
  ((S.table (schemeIndex o)).map (fun q => (q.w * (jac S pos q.xi).det /
    ((S.table (schemeIndex o)).map (fun q => q.w * (jac S pos q.xi).det)).sum) • X q)).sum

/-- `mean` of a constant is the constant, if the volume is not zero. -/
theorem mean_const {d nn : Nat} {M : Type} [AddCommGroup M] [Module ℝ M] (S : Shape d nn) (o : Nat) (pos : Fin nn → Fin d → ℝ)
    (h : ((S.table (schemeIndex o)).map (fun q => q.w * (jac S pos q.xi).det)).sum ≠ 0) (x : M) :
    mean S o pos (fun _ => x) = x := by
  unfold mean
  generalize hV : ((S.table (schemeIndex o)).map (fun q => q.w * (jac S pos q.xi).det)).sum = V at h
  have e : ∀ qs : List (QuadPt d), (qs.map (fun q => (q.w * (jac S pos q.xi).det / V) • x)).sum =
      ((qs.map (fun q => q.w * (jac S pos q.xi).det)).sum / V) • x := by
    intro qs
    induction qs with
    | nil => simp
    | cons q qs ih => rw [List.map_cons, List.sum_cons, ih, List.map_cons, List.sum_cons, add_div, add_smul]
  rw [e, hV, div_self h, one_smul]

/-! ## SOLID81 -/

theorem pointOf_holds (E : Energy) (pos u : Fin 8 → Fin 3 → ℝ) (x : Fin 3 → ℝ) (p : ℝ) (h : (jac hexa pos x).det ≠ 0) {F : Mat3}
    (hF : IsDefGrad hexa pos u x F) :
    (pointOf E (grads hexa pos x) u p).Holds F (unpack6 (stressEntry E (pack6 (F.transpose * F)) p)) := by
  rw [defGrad_eq h] at hF
  subst hF
  refine ⟨?_, solidC_disp pos u x, ?_⟩
  · intro i j
    rw [show (pointOf E (grads hexa pos x) u p).O = grad9 (grads hexa pos x) (vec24 u) from rfl, grad9_disp, add_sub_cancel_left]
  · rw [pack6_unpack6, ← solidC_disp]
    rfl

/-- After `update` the element holds at every integration point the deformation gradient and the stress of the material. -/
theorem solid_points (E : Energy) (o : Nat) (pos : Fin 8 → Fin 3 → ℝ)
    (h : ∀ q ∈ hexa.table (schemeIndex o), (jac hexa pos q.xi).det ≠ 0) :
    ∃ g, makeJacob hexa o pos = .ok g ∧ g.scheme = schemeIndex o ∧ Good hexa pos g ∧
      ∀ (u : Fin 8 → Fin 3 → ℝ) (p : ℝ) (pts : List Point),
      pts.length = nOfIntPoints hexa g → ∃ pts', solidUpdate E g u p pts = .ok pts' ∧
        ∀ (k : Nat) (q : QuadPt 3) (F : Mat3), (hexa.table (schemeIndex o))[k]? = some q → IsDefGrad hexa pos u q.xi F →
          ∃ pt S, pts'[k]? = some pt ∧ stressOf E (F.transpose * F) p = .ok S ∧ S.IsSymm ∧ pt.Holds F S := by
  obtain ⟨g, h1, h2, h3⟩ := makeJacob_good h
  refine ⟨g, h1, h2, h3, fun u p pts hp => ⟨_, solidUpdate_eq E h3 u p pts hp, ?_⟩⟩
  intro k q F hq hF
  have hq' : q ∈ hexa.table (schemeIndex o) := List.mem_of_getElem? hq
  exact ⟨_, _, by rw [List.getElem?_map, h2, hq]; rfl, stressOf_eq _ _ _, unpack6_symm _,
    pointOf_holds E pos u q.xi p (h q hq') hF⟩

/-- C52. What `getTensor` of SOLID81 gives for `COUCHY` after an `update`: the push-forward of the stress, *plus the pressure* (which
the stress contains already), scaled, and averaged over the element for `GP_MEAN`. -/
theorem C52_solid (E : Energy) (o : Nat) (pos : Fin 8 → Fin 3 → ℝ)
    (h : ∀ q ∈ hexa.table (schemeIndex o), (jac hexa pos q.xi).det ≠ 0) :
    ∃ g, makeJacob hexa o pos = .ok g ∧ ∀ (u : Fin 8 → Fin 3 → ℝ) (p : ℝ) (pts : List Point) (F : QuadPt 3 → Mat3),
      pts.length = nOfIntPoints hexa g →
      (∀ q ∈ hexa.table (schemeIndex o), IsDefGrad hexa pos u q.xi (F q) ∧ 0 < (F q).det) →
      ∃ (S : QuadPt 3 → Mat3) (pts' : List Point), solidUpdate E g u p pts = .ok pts' ∧
        (∀ q ∈ hexa.table (schemeIndex o), stressOf E ((F q).transpose * F q) p = .ok (S q)) ∧
        (∀ (k : Nat) (q : QuadPt 3), (hexa.table (schemeIndex o))[k]? = some q → ∀ (scale : ℝ) (T : Mat3),
          solidCouchy pts' p k scale (pack T) =
            .ok (pack (T + scale • ((1 / (F q).det) • (F q * S q * (F q).transpose) + p • (1 : Mat3))))) ∧
        ∀ (scale : ℝ) (T : Mat3), meanQuery hexa g (solidCouchy pts' p) scale (pack T) =
          .ok (pack (T + scale • mean hexa o pos (fun q => (1 / (F q).det) • (F q * S q * (F q).transpose) + p • (1 : Mat3)))) := by
  obtain ⟨g, h1, h2, h3, h4⟩ := solid_points E o pos h
  refine ⟨g, h1, fun u p pts F hp hF => ?_⟩
  obtain ⟨pts', h5, h6⟩ := h4 u p pts hp
  have key : ∀ (k : Nat) (q : QuadPt 3), (hexa.table (schemeIndex o))[k]? = some q → ∀ (scale : ℝ) (T : Mat3),
      solidCouchy pts' p k scale (pack T) = .ok (pack (T + scale • ((1 / (F q).det) •
        (F q * unpack6 (stressEntry E (pack6 ((F q).transpose * F q)) p) * (F q).transpose) + p • (1 : Mat3)))) := by
    intro k q hq scale T
    obtain ⟨pt, S, a, b, c, d⟩ := h6 k q (F q) hq (hF q (List.mem_of_getElem? hq)).1
    rw [stressOf_eq] at b
    obtain rfl := Res.ok.inj b
    exact solidCouchy_eq a d c (hF q (List.mem_of_getElem? hq)).2 p scale T
  refine ⟨fun q => unpack6 (stressEntry E (pack6 ((F q).transpose * F q)) p), pts', h5, fun q _ => stressOf_eq _ _ _, key, ?_⟩
  intro scale T
  unfold mean
  rw [← h2] at key ⊢
  exact meanQuery_eq h3 pack (solidCouchy pts' p) _ (fun k hk s T => key k _ (List.getElem?_eq_getElem hk) s T) scale T

/-- C52, for SOLID81 in the states without pressure: the query is the push-forward of the stress. -/
theorem C52_solid_partial (E : Energy) (o : Nat) (pos : Fin 8 → Fin 3 → ℝ)
    (h : ∀ q ∈ hexa.table (schemeIndex o), (jac hexa pos q.xi).det ≠ 0) :
    ∃ g, makeJacob hexa o pos = .ok g ∧ ∀ (u : Fin 8 → Fin 3 → ℝ) (pts : List Point) (F : QuadPt 3 → Mat3),
      pts.length = nOfIntPoints hexa g →
      (∀ q ∈ hexa.table (schemeIndex o), IsDefGrad hexa pos u q.xi (F q) ∧ 0 < (F q).det) →
      ∃ (S : QuadPt 3 → Mat3) (pts' : List Point), solidUpdate E g u 0 pts = .ok pts' ∧
        (∀ q ∈ hexa.table (schemeIndex o), stressOf E ((F q).transpose * F q) 0 = .ok (S q)) ∧
        (∀ (k : Nat) (q : QuadPt 3), (hexa.table (schemeIndex o))[k]? = some q → ∀ (scale : ℝ) (T : Mat3),
          solidCouchy pts' 0 k scale (pack T) =
            .ok (pack (T + scale • ((1 / (F q).det) • (F q * S q * (F q).transpose))))) ∧
        ∀ (scale : ℝ) (T : Mat3), meanQuery hexa g (solidCouchy pts' 0) scale (pack T) =
          .ok (pack (T + scale • mean hexa o pos (fun q => (1 / (F q).det) • (F q * S q * (F q).transpose)))) := by
  obtain ⟨g, h1, h2⟩ := C52_solid E o pos h
  refine ⟨g, h1, fun u pts F hp hF => ?_⟩
  obtain ⟨S, pts', a, b, c, d⟩ := h2 u 0 pts F hp hF
  simp only [zero_smul, add_zero] at c d
  exact ⟨S, pts', a, b, c, d⟩

/-- C52 is violated by SOLID81 in every state with pressure: the query is not the push-forward of the stress. -/
theorem C52_solid_violated (E : Energy) (o : Nat) (pos : Fin 8 → Fin 3 → ℝ)
    (h : ∀ q ∈ hexa.table (schemeIndex o), (jac hexa pos q.xi).det ≠ 0) :
    ∃ g, makeJacob hexa o pos = .ok g ∧ ∀ (u : Fin 8 → Fin 3 → ℝ) (p : ℝ) (pts : List Point),
      p ≠ 0 → pts.length = nOfIntPoints hexa g → ∃ pts', solidUpdate E g u p pts = .ok pts' ∧
        ∀ (k : Nat) (q : QuadPt 3) (F S : Mat3), (hexa.table (schemeIndex o))[k]? = some q → IsDefGrad hexa pos u q.xi F →
          0 < F.det → stressOf E (F.transpose * F) p = .ok S → ∀ (scale : ℝ) (T : Mat3), scale ≠ 0 →
          solidCouchy pts' p k scale (pack T) ≠ .ok (pack (T + scale • ((1 / F.det) • (F * S * F.transpose)))) := by
  obtain ⟨g, h1, h2, h3, h4⟩ := solid_points E o pos h
  refine ⟨g, h1, fun u p pts hp0 hp => ?_⟩
  obtain ⟨pts', h5, h6⟩ := h4 u p pts hp
  refine ⟨pts', h5, ?_⟩
  intro k q F S hq hF hd hS scale T hs he
  obtain ⟨pt, S', a, b, c, d⟩ := h6 k q F hq hF
  rw [hS] at b
  obtain rfl := Res.ok.inj b
  rw [solidCouchy_eq a d c hd] at he
  have e := congrFun (pack3_inj (Res.ok.inj he)) 0
  simp [pack6, mul_add, hs, hp0] at e

/-- The hypotheses of the theorems about SOLID81 are met by a simple shear of the unit cube. -/
example : ∃ (pos u : Fin 8 → Fin 3 → ℝ) (F : QuadPt 3 → Mat3), (∀ q ∈ hexa.table (schemeIndex 2), (jac hexa pos q.xi).det ≠ 0) ∧
    (∀ q ∈ hexa.table (schemeIndex 2), IsDefGrad hexa pos u q.xi (F q) ∧ 0 < (F q).det) ∧
    (∀ q ∈ hexa.table (schemeIndex 2), (jac hexa (pos + u) q.xi).det ≠ 0) ∧ (neoHookean ![2, 1]).Consistent := by
  have e : (affine 1 0 hexaNodes + affine !![0, 1, 0; 0, 0, 0; 0, 0, 0] 0 hexaNodes : Fin 8 → Fin 3 → ℝ) =
      affine !![1, 1, 0; 0, 1, 0; 0, 0, 1] 0 hexaNodes := by
    funext a i
    simp only [affine, Pi.add_apply, Matrix.one_mulVec]
    fin_cases i <;> simp [Matrix.mulVec, dotProduct, Fin.sum_univ_three]
  refine ⟨affine 1 0 hexaNodes, affine !![0, 1, 0; 0, 0, 0; 0, 0, 0] 0 hexaNodes, fun _ => !![1, 1, 0; 0, 1, 0; 0, 0, 1],
    ?_, ?_, ?_, C46_neoHookean _⟩
  · intro q _
    rw [jac_affine C34_hexa _ _ _ (hexa_repr _)]
    simp
  · intro q _
    constructor
    · unfold IsDefGrad
      rw [e, jac_affine C34_hexa _ _ _ (hexa_repr _), jac_affine C34_hexa _ _ _ (hexa_repr _)]
      simp
    · simp [Matrix.det_fin_three]
  · intro q _
    rw [e, jac_affine C34_hexa _ _ _ (hexa_repr _)]
    simp [Matrix.det_fin_three]

/-! ## PLANE41 -/

/-- What PLANE41 holds after `update`. -/
theorem plane_points (E : Energy) (o : Nat) (pos : Fin 4 → Fin 2 → ℝ)
    (h : ∀ q ∈ quad.table (schemeIndex o), (jac quad pos q.xi).det ≠ 0) :
    ∃ g, makeJacob quad o pos = .ok g ∧ g.scheme = schemeIndex o ∧ Good quad pos g ∧
      ∀ (u : Fin 4 → Fin 2 → ℝ) (p : ℝ) (pts : List Point2),
      pts.length = nOfIntPoints quad g → ∃ pts', planeUpdate E g u p pts = .ok pts' ∧
        ∀ (k : Nat) (q : QuadPt 2) (F : Matrix (Fin 2) (Fin 2) ℝ), (quad.table (schemeIndex o))[k]? = some q →
          IsDefGrad quad pos u q.xi F → ∃ pt, pts'[k]? = some pt ∧ planeF pt.O = plane3 F ∧
            planeCVec pt.C = pack6 ((plane3 F).transpose * plane3 F) := by
  obtain ⟨g, h1, h2, h3⟩ := makeJacob_good h
  refine ⟨g, h1, h2, h3, fun u p pts hp => ⟨_, planeUpdate_eq E h3 u p pts hp, ?_⟩⟩
  intro k q F hq hF
  have hq' : q ∈ quad.table (schemeIndex o) := List.mem_of_getElem? hq
  rw [defGrad_eq (h q hq')] at hF
  subst hF
  refine ⟨_, by rw [List.getElem?_map, h2, hq]; rfl, ?_, ?_⟩
  · have g := grad4_disp pos u q.xi
    simp only [pointOf2]
    generalize grad4 (grads quad pos q.xi) (vec8 u) = w at g
    generalize dispGrad quad pos u q.xi = H at g
    have g00 : w 0 = H 0 0 := g 0 0
    have g01 : w 1 = H 0 1 := g 0 1
    have g10 : w 2 = H 1 0 := g 1 0
    have g11 : w 3 = H 1 1 := g 1 1
    ext i j
    fin_cases i <;> fin_cases j <;> simp [planeF, plane3, g00, g01, g10, g11]
  · rw [← planeC_disp, ← planeC_emb]
    rfl

theorem getS_zero (E : Energy) (C : Fin 6 → ℝ) (p : ℝ) :
    getS_UP E defaultComps C p (List.replicate 6 0) = .ok (List.ofFn (stressEntry E C p)) := by
  have : List.replicate 6 (0 : ℝ) = List.ofFn (0 : Fin 6 → ℝ) := by simp [List.ofFn_succ, List.replicate]
  rw [this, getS_solid]

theorem planeCouchy_eq (E : Energy) {pts : List Point2} {k : Nat} {pt : Point2} {F : Matrix (Fin 2) (Fin 2) ℝ}
    (hk : pts[k]? = some pt) (hO : planeF pt.O = plane3 F) (hC : planeCVec pt.C = pack6 ((plane3 F).transpose * plane3 F))
    (p scale : ℝ) (T : Mat3) : planeCouchy E pts p k scale (pack T) = .ok (pack (T + (1 / F.det) •
      ((plane3 F).transpose * unpack6 (stressEntry E (pack6 ((plane3 F).transpose * plane3 F)) p) * plane3 F))) := by
  unfold planeCouchy
  rw [Res.read_eq_ok.mpr hk, Res.ok_bind]
  simp only
  rw [hO, hC, getS_zero, Res.ok_bind, ← flat3]
  have e : List.ofFn (stressEntry E (pack6 ((plane3 F).transpose * plane3 F)) p) =
      pack (unpack6 (stressEntry E (pack6 ((plane3 F).transpose * plane3 F)) p)) := by
    rw [pack3, pack6_unpack6]
  rw [e, matBTDBprod_eq _ (unpack6_symm _)]
  congr 4
  rw [Matrix.det_fin_two]
  simp [plane3]

/-- C52. What `getTensor` of PLANE41 gives for `COUCHY`: `FᵀSF / J`, whatever the scale. -/
theorem C52_plane (E : Energy) (o : Nat) (pos : Fin 4 → Fin 2 → ℝ)
    (h : ∀ q ∈ quad.table (schemeIndex o), (jac quad pos q.xi).det ≠ 0) :
    ∃ g, makeJacob quad o pos = .ok g ∧ ∀ (u : Fin 4 → Fin 2 → ℝ) (p : ℝ) (pts : List Point2),
      pts.length = nOfIntPoints quad g → ∃ pts', planeUpdate E g u p pts = .ok pts' ∧
        ∀ (k : Nat) (q : QuadPt 2) (F : Matrix (Fin 2) (Fin 2) ℝ), (quad.table (schemeIndex o))[k]? = some q →
          IsDefGrad quad pos u q.xi F → ∃ S, stressOf E ((plane3 F).transpose * plane3 F) p = .ok S ∧
            ∀ (scale : ℝ) (T : Mat3), planeCouchy E pts' p k scale (pack T) =
              .ok (pack (T + (1 / F.det) • ((plane3 F).transpose * S * plane3 F))) := by
  obtain ⟨g, h1, h2, h3, h4⟩ := plane_points E o pos h
  refine ⟨g, h1, fun u p pts hp => ?_⟩
  obtain ⟨pts', h5, h6⟩ := h4 u p pts hp
  refine ⟨pts', h5, fun k q F hq hF => ⟨_, stressOf_eq _ _ _, fun scale T => ?_⟩⟩
  obtain ⟨pt, a, b, c⟩ := h6 k q F hq hF
  exact planeCouchy_eq E a b c p scale T

/-- C52, for PLANE41 when the deformation gradient is symmetric and the scale 1: the push-forward of the stress. -/
theorem C52_plane_partial (E : Energy) (o : Nat) (pos : Fin 4 → Fin 2 → ℝ)
    (h : ∀ q ∈ quad.table (schemeIndex o), (jac quad pos q.xi).det ≠ 0) :
    ∃ g, makeJacob quad o pos = .ok g ∧ ∀ (u : Fin 4 → Fin 2 → ℝ) (p : ℝ) (pts : List Point2),
      pts.length = nOfIntPoints quad g → ∃ pts', planeUpdate E g u p pts = .ok pts' ∧
        ∀ (k : Nat) (q : QuadPt 2) (F : Matrix (Fin 2) (Fin 2) ℝ), (quad.table (schemeIndex o))[k]? = some q →
          IsDefGrad quad pos u q.xi F → F.IsSymm → ∃ S, stressOf E ((plane3 F).transpose * plane3 F) p = .ok S ∧
            ∀ T : Mat3, planeCouchy E pts' p k 1 (pack T) =
              .ok (pack (T + (1 : ℝ) • ((1 / (plane3 F).det) • (plane3 F * S * (plane3 F).transpose)))) := by
  obtain ⟨g, h1, h2⟩ := C52_plane E o pos h
  refine ⟨g, h1, fun u p pts hp => ?_⟩
  obtain ⟨pts', h3, h4⟩ := h2 u p pts hp
  refine ⟨pts', h3, fun k q F hq hF hs => ?_⟩
  obtain ⟨S, h5, h6⟩ := h4 k q F hq hF
  refine ⟨S, h5, fun T => ?_⟩
  have e : (plane3 F).transpose = plane3 F := by
    have := hs.apply 0 1
    ext i j; fin_cases i <;> fin_cases j <;> simp [plane3, this]
  rw [h6, one_smul, det_plane3, e]

/-- C52 is violated by PLANE41: on an element in simple shear the query (at the first point, scale 1, from zero) is not `F S Fᵀ / J`. -/
theorem C52_plane_violated : ∃ (E : Energy) (pos u : Fin 4 → Fin 2 → ℝ) (p : ℝ) (F : Matrix (Fin 2) (Fin 2) ℝ)
    (g : Geom 2 4) (pts pts' : List Point2) (S : Mat3),
    E.Consistent ∧ makeJacob quad 2 pos = .ok g ∧ pts.length = nOfIntPoints quad g ∧ planeUpdate E g u p pts = .ok pts' ∧
    (∀ x, IsDefGrad quad pos u x F) ∧ stressOf E ((plane3 F).transpose * plane3 F) p = .ok S ∧
    planeCouchy E pts' p 0 1 (pack (0 : Mat3)) ≠ .ok (pack ((1 / (plane3 F).det) • (plane3 F * S * (plane3 F).transpose))) := by
  have e : (affine 1 0 quadNodes + affine !![0, 1; 0, 0] 0 quadNodes : Fin 4 → Fin 2 → ℝ) =
      affine !![1, 1; 0, 1] 0 quadNodes := by
    funext a i
    simp only [affine, Pi.add_apply, Matrix.one_mulVec]
    fin_cases i <;> simp [Matrix.mulVec, dotProduct, Fin.sum_univ_two]
  have hj : ∀ x, (jac quad (affine 1 0 quadNodes) x).det ≠ 0 := by
    intro x
    rw [jac_affine C34_quad _ _ _ (quad_repr _)]
    simp
  have hF : ∀ x, IsDefGrad quad (affine 1 0 quadNodes) (affine !![0, 1; 0, 0] 0 quadNodes) x !![1, 1; 0, 1] := by
    intro x
    unfold IsDefGrad
    rw [e, jac_affine C34_quad _ _ _ (quad_repr _), jac_affine C34_quad _ _ _ (quad_repr _)]
    simp
  obtain ⟨g, h1, h2⟩ := C52_plane (neoHookean ![2, 1]) 2 (affine 1 0 quadNodes) (fun q _ => hj q.xi)
  obtain ⟨pts', h3, h4⟩ := h2 (affine !![0, 1; 0, 0] 0 quadNodes) 1 (List.replicate (nOfIntPoints quad g) Point2.initial)
    List.length_replicate
  have hq : ∃ q, (quad.table (schemeIndex 2))[0]? = some q := ⟨_, rfl⟩
  obtain ⟨q, hq⟩ := hq
  obtain ⟨S, h5, h6⟩ := h4 0 q _ hq (hF _)
  refine ⟨_, _, _, _, _, g, _, pts', S, C46_neoHookean _, h1, List.length_replicate, h3, hF, h5, ?_⟩
  rw [h6]
  intro hc
  rw [stressOf_eq] at h5
  obtain rfl := Res.ok.inj h5
  have e2 := congrFun (pack3_inj (Res.ok.inj hc)) 0
  have hC : pack6 ((plane3 !![1, 1; 0, 1]).transpose * plane3 !![1, 1; 0, 1]) = ![1, 1, 0, 2, 0, 1] := by
    funext c
    fin_cases c <;> simp [pack6, plane3, Matrix.mul_apply, Fin.sum_univ_three] <;> norm_num
  have hJ : JC ![1, 1, 0, 2, 0, 1] = 1 := by
    rw [← hC, JC_gram] <;> rw [det_plane3, Matrix.det_fin_two] <;> simp
  rw [hC] at e2
  have s1 : stressEntry (neoHookean ![2, 1]) ![1, 1, 0, 2, 0, 1] 1 1 = 5 / 3 := by
    simp [stressEntry, ICC, hJ, neoHookean, arrA, arrB, invCC, matI]; norm_num
  have s3 : stressEntry (neoHookean ![2, 1]) ![1, 1, 0, 2, 0, 1] 1 3 = 1 / 3 := by
    simp [stressEntry, ICC, hJ, neoHookean, arrA, arrB, invCC, matI]; norm_num
  rw [det_plane3, Matrix.det_fin_two] at e2
  simp [pack6, unpack6, plane3, Matrix.mul_apply, Matrix.vecMul, dotProduct, Fin.sum_univ_three, s1, s3] at e2
  linarith

/-- C52 is violated by PLANE41 for another reason: the scale is ignored, so that the mean over the element is a sum over the points. -/
theorem C52_plane_violated_scale (E : Energy) (o : Nat) (pos : Fin 4 → Fin 2 → ℝ)
    (h : ∀ q ∈ quad.table (schemeIndex o), (jac quad pos q.xi).det ≠ 0) :
    ∃ g, makeJacob quad o pos = .ok g ∧ ∀ (u : Fin 4 → Fin 2 → ℝ) (p : ℝ) (pts : List Point2)
      (F : QuadPt 2 → Matrix (Fin 2) (Fin 2) ℝ), pts.length = nOfIntPoints quad g →
      (∀ q ∈ quad.table (schemeIndex o), IsDefGrad quad pos u q.xi (F q)) →
      ∃ (S : QuadPt 2 → Mat3) (pts' : List Point2), planeUpdate E g u p pts = .ok pts' ∧
        (∀ q ∈ quad.table (schemeIndex o), stressOf E ((plane3 (F q)).transpose * plane3 (F q)) p = .ok (S q)) ∧
        ∀ (scale : ℝ) (T : Mat3), meanQuery quad g (planeCouchy E pts' p) scale (pack T) =
          .ok (pack (T + ((quad.table (schemeIndex o)).map (fun q =>
            (1 / (F q).det) • ((plane3 (F q)).transpose * S q * plane3 (F q)))).sum)) := by
  obtain ⟨g, h1, h2, h3, h4⟩ := plane_points E o pos h
  refine ⟨g, h1, fun u p pts F hp hF => ?_⟩
  obtain ⟨pts', h5, h6⟩ := h4 u p pts hp
  refine ⟨fun q => unpack6 (stressEntry E (pack6 ((plane3 (F q)).transpose * plane3 (F q))) p), pts', h5,
    fun q _ => stressOf_eq _ _ _, fun scale T => ?_⟩
  rw [← h2] at h6 hF ⊢
  unfold meanQuery
  rw [h3.volume, Res.ok_bind]
  exact pointsLoop (quad.table g.scheme) (fun x np => do
      let dWt ← intWeight quad g np
      planeCouchy E pts' p np (dWt / ((quad.table g.scheme).map (fun q => q.w * (jac quad pos q.xi).det)).sum * scale) x) pack
    (fun q => (1 / (F q).det) • ((plane3 (F q)).transpose *
      unpack6 (stressEntry E (pack6 ((plane3 (F q)).transpose * plane3 (F q))) p) * plane3 (F q))) (by
      intro k hk t
      obtain ⟨pt, a, b, c⟩ := h6 k _ (F (quad.table g.scheme)[k]) (List.getElem?_eq_getElem hk) (hF _ (List.getElem_mem hk))
      rw [h3.intWeight hk, Res.ok_bind, planeCouchy_eq E a b c]) T

/-! ## C69 -/

theorem pack6_lin (T X : Mat3) (s : ℝ) (i : Fin 6) : pack6 (T + s • X) i = pack6 T i + pack6 X i * s := by
  fin_cases i <;> simp [pack6, mul_comm]

theorem pack6_E (T C : Mat3) (s : ℝ) : pack6 (T + s • ((1 / 2 : ℝ) • (C - 1))) =
    ![pack6 T 0 + (pack6 C 0 - 1) * (1 / 2) * s, pack6 T 1 + pack6 C 1 * (1 / 2) * s, pack6 T 2 + pack6 C 2 * (1 / 2) * s,
      pack6 T 3 + (pack6 C 3 - 1) * (1 / 2) * s, pack6 T 4 + pack6 C 4 * (1 / 2) * s,
      pack6 T 5 + (pack6 C 5 - 1) * (1 / 2) * s] := by
  funext i
  fin_cases i <;> simp [pack6] <;> ring

/-- C69. The `C` and `E` queries of SOLID81 after an `update` give `FᵀF` and the Green strain `(FᵀF - 1) / 2`, scaled, and averaged over
the element for `GP_MEAN`. -/
theorem C69_solid (E : Energy) (o : Nat) (pos : Fin 8 → Fin 3 → ℝ)
    (h : ∀ q ∈ hexa.table (schemeIndex o), (jac hexa pos q.xi).det ≠ 0) :
    ∃ g, makeJacob hexa o pos = .ok g ∧ ∀ (u : Fin 8 → Fin 3 → ℝ) (p : ℝ) (pts : List Point) (F : QuadPt 3 → Mat3),
      pts.length = nOfIntPoints hexa g → (∀ q ∈ hexa.table (schemeIndex o), IsDefGrad hexa pos u q.xi (F q)) →
      ∃ pts', solidUpdate E g u p pts = .ok pts' ∧
        (∀ (k : Nat) (q : QuadPt 3), (hexa.table (schemeIndex o))[k]? = some q → ∀ (scale : ℝ) (T : Mat3),
          solidCq pts' k scale (pack6 T) = .ok (pack6 (T + scale • ((F q).transpose * F q))) ∧
          solidEq pts' k scale (pack6 T) = .ok (pack6 (T + scale • ((1 / 2 : ℝ) • ((F q).transpose * F q - 1))))) ∧
        ∀ (scale : ℝ) (T : Mat3),
          meanQuery hexa g (solidCq pts') scale (pack6 T) =
            .ok (pack6 (T + scale • mean hexa o pos (fun q => (F q).transpose * F q))) ∧
          meanQuery hexa g (solidEq pts') scale (pack6 T) =
            .ok (pack6 (T + scale • mean hexa o pos (fun q => (1 / 2 : ℝ) • ((F q).transpose * F q - 1)))) := by
  obtain ⟨g, h1, h2, h3, h4⟩ := solid_points E o pos h
  refine ⟨g, h1, fun u p pts F hp hF => ?_⟩
  obtain ⟨pts', h5, h6⟩ := h4 u p pts hp
  have key : ∀ (k : Nat) (q : QuadPt 3), (hexa.table (schemeIndex o))[k]? = some q → ∀ (scale : ℝ) (T : Mat3),
      solidCq pts' k scale (pack6 T) = .ok (pack6 (T + scale • ((F q).transpose * F q))) ∧
      solidEq pts' k scale (pack6 T) = .ok (pack6 (T + scale • ((1 / 2 : ℝ) • ((F q).transpose * F q - 1)))) := by
    intro k q hq scale T
    obtain ⟨pt, S, a, b, c, d⟩ := h6 k q (F q) hq (hF q (List.mem_of_getElem? hq))
    unfold solidCq solidEq
    rw [Res.read_eq_ok.mpr a, Res.ok_bind, Res.ok_bind, d.C, pack6_E]
    exact ⟨congrArg Res.ok (funext fun i => (pack6_lin _ _ _ i).symm), rfl⟩
  refine ⟨pts', h5, key, ?_⟩
  intro scale T
  unfold mean
  rw [← h2] at key ⊢
  exact ⟨meanQuery_eq h3 pack6 (solidCq pts') _ (fun k hk s T => (key k _ (List.getElem?_eq_getElem hk) s T).1) scale T,
    meanQuery_eq h3 pack6 (solidEq pts') _ (fun k hk s T => (key k _ (List.getElem?_eq_getElem hk) s T).2) scale T⟩

/-- C69. The `C`, `E` and `PK2` queries of PLANE41 after an `update` give `FᵀF`, the Green strain and the stress of plane strain. -/
theorem C69_plane (E : Energy) (o : Nat) (pos : Fin 4 → Fin 2 → ℝ)
    (h : ∀ q ∈ quad.table (schemeIndex o), (jac quad pos q.xi).det ≠ 0) :
    ∃ g, makeJacob quad o pos = .ok g ∧ ∀ (u : Fin 4 → Fin 2 → ℝ) (p : ℝ) (pts : List Point2)
      (F : QuadPt 2 → Matrix (Fin 2) (Fin 2) ℝ), pts.length = nOfIntPoints quad g →
      (∀ q ∈ quad.table (schemeIndex o), IsDefGrad quad pos u q.xi (F q)) →
      ∃ (S : QuadPt 2 → Mat3) (pts' : List Point2), planeUpdate E g u p pts = .ok pts' ∧
        (∀ q ∈ quad.table (schemeIndex o), stressOf E ((plane3 (F q)).transpose * plane3 (F q)) p = .ok (S q)) ∧
        (∀ (k : Nat) (q : QuadPt 2), (quad.table (schemeIndex o))[k]? = some q → ∀ (scale : ℝ) (T : Mat3),
          planeCq pts' k scale (pack6 T) = .ok (pack6 (T + scale • ((plane3 (F q)).transpose * plane3 (F q)))) ∧
          planeEq pts' k scale (pack6 T) =
            .ok (pack6 (T + scale • ((1 / 2 : ℝ) • ((plane3 (F q)).transpose * plane3 (F q) - 1)))) ∧
          planePK2 E pts' p k scale (pack6 T) = .ok (pack6 (T + scale • S q))) ∧
        ∀ (scale : ℝ) (T : Mat3),
          meanQuery quad g (planeCq pts') scale (pack6 T) =
            .ok (pack6 (T + scale • mean quad o pos (fun q => (plane3 (F q)).transpose * plane3 (F q)))) ∧
          meanQuery quad g (planeEq pts') scale (pack6 T) = .ok (pack6 (T + scale • mean quad o pos (fun q =>
            (1 / 2 : ℝ) • ((plane3 (F q)).transpose * plane3 (F q) - 1)))) ∧
          meanQuery quad g (planePK2 E pts' p) scale (pack6 T) = .ok (pack6 (T + scale • mean quad o pos S)) := by
  obtain ⟨g, h1, h2, h3, h4⟩ := plane_points E o pos h
  refine ⟨g, h1, fun u p pts F hp hF => ?_⟩
  obtain ⟨pts', h5, h6⟩ := h4 u p pts hp
  have key : ∀ (k : Nat) (q : QuadPt 2), (quad.table (schemeIndex o))[k]? = some q → ∀ (scale : ℝ) (T : Mat3),
      planeCq pts' k scale (pack6 T) = .ok (pack6 (T + scale • ((plane3 (F q)).transpose * plane3 (F q)))) ∧
      planeEq pts' k scale (pack6 T) =
        .ok (pack6 (T + scale • ((1 / 2 : ℝ) • ((plane3 (F q)).transpose * plane3 (F q) - 1)))) ∧
      planePK2 E pts' p k scale (pack6 T) =
        .ok (pack6 (T + scale • unpack6 (stressEntry E (pack6 ((plane3 (F q)).transpose * plane3 (F q))) p))) := by
    intro k q hq scale T
    obtain ⟨pt, a, b, c⟩ := h6 k q (F q) hq (hF q (List.mem_of_getElem? hq))
    unfold planeCq planeEq planePK2
    rw [Res.read_eq_ok.mpr a, Res.ok_bind, Res.ok_bind, Res.ok_bind, c, pack6_E, getS_zero, Res.ok_bind, entries_ofFn]
    refine ⟨congrArg Res.ok (funext fun i => (pack6_lin _ _ _ i).symm), rfl, congrArg Res.ok (funext fun i => ?_)⟩
    rw [pack6_lin, pack6_unpack6]
  refine ⟨fun q => unpack6 (stressEntry E (pack6 ((plane3 (F q)).transpose * plane3 (F q))) p), pts', h5,
    fun q _ => stressOf_eq _ _ _, key, ?_⟩
  intro scale T
  unfold mean
  rw [← h2] at key ⊢
  exact ⟨meanQuery_eq h3 pack6 (planeCq pts') _ (fun k hk s T => (key k _ (List.getElem?_eq_getElem hk) s T).1) scale T,
    meanQuery_eq h3 pack6 (planeEq pts') _ (fun k hk s T => (key k _ (List.getElem?_eq_getElem hk) s T).2.1) scale T,
    meanQuery_eq h3 pack6 (planePK2 E pts' p) _ (fun k hk s T => (key k _ (List.getElem?_eq_getElem hk) s T).2.2) scale T⟩

/-- C69 is violated by the `PK2` query of SOLID81: in every state with pressure it adds the pressure part a second time. -/
theorem C69_solid_PK2_violated (E : Energy) (o : Nat) (pos : Fin 8 → Fin 3 → ℝ)
    (h : ∀ q ∈ hexa.table (schemeIndex o), (jac hexa pos q.xi).det ≠ 0) :
    ∃ g, makeJacob hexa o pos = .ok g ∧ ∀ (u : Fin 8 → Fin 3 → ℝ) (p : ℝ) (pts : List Point),
      pts.length = nOfIntPoints hexa g → ∃ pts', solidUpdate E g u p pts = .ok pts' ∧
        ∀ (k : Nat) (q : QuadPt 3) (F : Mat3), (hexa.table (schemeIndex o))[k]? = some q → IsDefGrad hexa pos u q.xi F →
          0 < F.det → ∃ S, stressOf E (F.transpose * F) p = .ok S ∧ ∀ (scale : ℝ) (T : Mat3),
            solidPK2 pts' p k scale (pack6 T) =
              .ok (pack6 (T + scale • (S + (p * F.det) • (F.transpose * F)⁻¹))) ∧
            (p ≠ 0 → scale ≠ 0 → solidPK2 pts' p k scale (pack6 T) ≠ .ok (pack6 (T + scale • S))) := by
  obtain ⟨g, h1, h2, h3, h4⟩ := solid_points E o pos h
  refine ⟨g, h1, fun u p pts hp => ?_⟩
  obtain ⟨pts', h5, h6⟩ := h4 u p pts hp
  refine ⟨pts', h5, fun k q F hq hF hd => ?_⟩
  obtain ⟨pt, S, a, b, c, d⟩ := h6 k q F hq hF
  refine ⟨S, b, fun scale T => ?_⟩
  have hi := (C45_inv (posDef_gram hd.ne')).1
  have hi' : unpack6 (invCC (pack6 (F.transpose * F)) (JC (pack6 (F.transpose * F)))) = (F.transpose * F)⁻¹ :=
    (Matrix.inv_eq_right_inv hi).symm
  have key : solidPK2 pts' p k scale (pack6 T) = .ok (pack6 (T + scale • (S + (p * F.det) • (F.transpose * F)⁻¹))) := by
    unfold solidPK2
    rw [Res.read_eq_ok.mpr a, Res.ok_bind]
    simp only
    rw [d.C, d.S, JC_gram hd]
    refine congrArg Res.ok (funext fun i => ?_)
    rw [pack6_lin, pack6_lin, ← hi', pack6_unpack6, JC_gram hd]
    ring
  refine ⟨key, fun hp hs he => ?_⟩
  rw [key] at he
  have e := Res.ok.inj he
  have hz : pack6 ((F.transpose * F)⁻¹) = 0 := by
    funext i
    have e1 := congrFun e i
    rw [pack6_lin, pack6_lin, pack6_lin] at e1
    have e2 : pack6 ((F.transpose * F)⁻¹) i * (p * F.det) * scale = 0 := by linarith
    have := hd.ne'
    simpa [hp, hs, this] using e2
  have hu : (F.transpose * F)⁻¹ = 0 := by
    rw [← hi'] at hz ⊢
    rw [pack6_unpack6] at hz
    rw [hz]
    ext i j; fin_cases i <;> fin_cases j <;> rfl
  rw [hi', hu, Matrix.mul_zero] at hi
  exact zero_ne_one hi

/-- C69. The volumetric energy query of SOLID81 gives `k (J - 1)² / 2`. -/
theorem C69_volumetric (E : Energy) (kb : ℝ) (o : Nat) (pos : Fin 8 → Fin 3 → ℝ)
    (h : ∀ q ∈ hexa.table (schemeIndex o), (jac hexa pos q.xi).det ≠ 0) :
    ∃ g, makeJacob hexa o pos = .ok g ∧ ∀ (u : Fin 8 → Fin 3 → ℝ) (p : ℝ) (pts : List Point) (F : QuadPt 3 → Mat3),
      pts.length = nOfIntPoints hexa g →
      (∀ q ∈ hexa.table (schemeIndex o), IsDefGrad hexa pos u q.xi (F q) ∧ 0 < (F q).det) →
      ∃ pts', solidUpdate E g u p pts = .ok pts' ∧
        (∀ (k : Nat) (q : QuadPt 3), (hexa.table (schemeIndex o))[k]? = some q → ∀ scale x : ℝ,
          solidWP kb pts' k scale x = .ok (x + scale * (kb * ((F q).det - 1) ^ 2 / 2))) ∧
        ∀ scale x : ℝ, meanQuery hexa g (solidWP kb pts') scale x =
          .ok (x + scale * mean hexa o pos (fun q => kb * ((F q).det - 1) ^ 2 / 2)) := by
  obtain ⟨g, h1, h2, h3, h4⟩ := solid_points E o pos h
  refine ⟨g, h1, fun u p pts F hp hF => ?_⟩
  obtain ⟨pts', h5, h6⟩ := h4 u p pts hp
  have key : ∀ (k : Nat) (q : QuadPt 3), (hexa.table (schemeIndex o))[k]? = some q → ∀ scale x : ℝ,
      solidWP kb pts' k scale x = .ok (x + scale * (kb * ((F q).det - 1) ^ 2 / 2)) := by
    intro k q hq scale x
    obtain ⟨pt, S, a, b, c, d⟩ := h6 k q (F q) hq (hF q (List.mem_of_getElem? hq)).1
    unfold solidWP
    rw [Res.read_eq_ok.mpr a, Res.ok_bind]
    simp only
    rw [d.C, JC_gram (hF q (List.mem_of_getElem? hq)).2]
    congr 1
    ring
  refine ⟨pts', h5, key, fun scale x => ?_⟩
  unfold mean
  rw [← h2] at key ⊢
  exact meanQuery_eq h3 id (solidWP kb pts') (fun q => kb * ((F q).det - 1) ^ 2 / 2)
    (fun k hk s T => key k _ (List.getElem?_eq_getElem hk) s T) scale x

/-- `IC_C` gives the invariants of any symmetric tensor. -/
theorem ICC_symm {M : Mat3} (hs : M.IsSymm) : ICC (pack6 M) = ![M.trace, (M.trace ^ 2 - (M * M).trace) / 2, √M.det] := by
  have h1 : M 1 0 = M 0 1 := hs.apply 0 1
  have h2 : M 2 0 = M 0 2 := hs.apply 0 2
  have h3 : M 2 1 = M 1 2 := hs.apply 1 2
  funext k
  fin_cases k
  · simp [ICC, pack6, Matrix.trace, Fin.sum_univ_three]
  · simp [ICC, pack6, Matrix.trace, Fin.sum_univ_three, Matrix.mul_apply, h1, h2, h3]
    ring
  · show JC (pack6 M) = √M.det
    rw [JC_eq, det_pack6 hs]

/-- C69. The query for the invariants of SOLID81 adds the invariants of `FᵀF`, scaled. -/
theorem C69_solid_invariants {pts : List Point} {k : Nat} {pt : Point} {F S : Mat3} (hk : pts[k]? = some pt) (h : pt.Holds F S)
    (scale : ℝ) (v : Fin 3 → ℝ) : solidIC pts k scale v = .ok (v + scale • ![(F.transpose * F).trace,
      ((F.transpose * F).trace ^ 2 - (F.transpose * F * (F.transpose * F)).trace) / 2, √(F.transpose * F).det]) := by
  unfold solidIC
  rw [Res.read_eq_ok.mpr hk, Res.ok_bind]
  simp only
  rw [h.C, ICC_symm (isSymm_gram F)]
  congr 1
  funext i
  fin_cases i <;> simp [mul_comm]

theorem solidWU_eq (E : Energy) {pts : List Point} {k : Nat} {pt : Point} {F S : Mat3} (hk : pts[k]? = some pt) (h : pt.Holds F S)
    (scale x : ℝ) : solidWU E pts k scale x = .ok (x + scale * E.W (F.transpose * F).trace
      (((F.transpose * F).trace ^ 2 - (F.transpose * F * (F.transpose * F)).trace) / 2) √(F.transpose * F).det) := by
  unfold solidWU
  rw [C69_solid_invariants hk h, Res.ok_bind]
  simp [mul_comm]

/-- C69. The energy query of SOLID81 gives `W` of the invariants of `FᵀF` themselves, not of its part of unit determinant; it is the
energy of the material (for `W` that does not depend on the third argument) when `det F = 1`. -/
theorem C69_energy_partial (E : Energy) (hW : ∀ a b c d, E.W a b c = E.W a b d) (o : Nat) (pos : Fin 8 → Fin 3 → ℝ)
    (h : ∀ q ∈ hexa.table (schemeIndex o), (jac hexa pos q.xi).det ≠ 0) :
    ∃ g, makeJacob hexa o pos = .ok g ∧ ∀ (u : Fin 8 → Fin 3 → ℝ) (p : ℝ) (pts : List Point),
      pts.length = nOfIntPoints hexa g → ∃ pts', solidUpdate E g u p pts = .ok pts' ∧
        ∀ (k : Nat) (q : QuadPt 3) (F : Mat3), (hexa.table (schemeIndex o))[k]? = some q → IsDefGrad hexa pos u q.xi F →
          F.det = 1 → ∀ scale x z : ℝ, solidWU E pts' k scale x = .ok (x + scale * energy E 0 z (F.transpose * F)) := by
  obtain ⟨g, h1, h2, h3, h4⟩ := solid_points E o pos h
  refine ⟨g, h1, fun u p pts hp => ?_⟩
  obtain ⟨pts', h5, h6⟩ := h4 u p pts hp
  refine ⟨pts', h5, fun k q F hq hF hd scale x z => ?_⟩
  obtain ⟨pt, S, a, b, c, d⟩ := h6 k q F hq hF
  rw [solidWU_eq E a d]
  have hdet : (F.transpose * F).det = 1 := by rw [Matrix.det_mul, Matrix.det_transpose, hd, mul_one]
  unfold energy
  rw [hdet]
  simp only [Real.sqrt_one, Real.one_rpow, mul_one, zero_mul, add_zero]
  rw [hW _ _ _ z]

/-- C69 is violated by the energy query: the unit cube blown up twice has no energy of shape change in the neo-Hookean material, but the
query gives `9/2 G`. -/
theorem C69_energy_violated (G K : ℝ) : ∃ (pos u : Fin 8 → Fin 3 → ℝ) (F : Mat3) (g : Geom 3 8) (pts pts' : List Point),
    makeJacob hexa 2 pos = .ok g ∧ pts.length = nOfIntPoints hexa g ∧
    solidUpdate (neoHookean ![G, K]) g u 0 pts = .ok pts' ∧ (∀ x, IsDefGrad hexa pos u x F) ∧ 0 < F.det ∧
    (∀ z, energy (neoHookean ![G, K]) 0 z (F.transpose * F) = 0) ∧ solidWU (neoHookean ![G, K]) pts' 0 1 0 = .ok (9 / 2 * G) := by
  have hj : ∀ x, (jac hexa (affine 1 0 hexaNodes) x).det ≠ 0 := by
    intro x
    rw [jac_affine C34_hexa _ _ _ (hexa_repr _)]
    simp
  have hF : ∀ x, IsDefGrad hexa (affine 1 0 hexaNodes) (affine 1 0 hexaNodes) x ((2 : ℝ) • (1 : Mat3)) := by
    intro x
    have e : (affine 1 0 hexaNodes + affine 1 0 hexaNodes : Fin 8 → Fin 3 → ℝ) = affine ((2 : ℝ) • (1 : Mat3)) 0 hexaNodes := by
      funext a i
      simp only [affine, Pi.add_apply, Matrix.one_mulVec, Matrix.smul_mulVec, Pi.smul_apply, Pi.zero_apply, smul_eq_mul]
      ring
    unfold IsDefGrad
    rw [e, jac_affine C34_hexa _ _ _ (hexa_repr _), jac_affine C34_hexa _ _ _ (hexa_repr _)]
    simp
  obtain ⟨g, h1, h2, h3, h4⟩ := solid_points (neoHookean ![G, K]) 2 (affine 1 0 hexaNodes) (fun q _ => hj q.xi)
  obtain ⟨pts', h5, h6⟩ := h4 (affine 1 0 hexaNodes) 0 (List.replicate (nOfIntPoints hexa g) Point.initial) List.length_replicate
  have hq : ∃ q, (hexa.table (schemeIndex 2))[0]? = some q := ⟨_, rfl⟩
  obtain ⟨q, hq⟩ := hq
  obtain ⟨pt, S, a, b, c, d⟩ := h6 0 q _ hq (hF _)
  have hdet : ((2 : ℝ) • (1 : Mat3)).det = 8 := by
    rw [Matrix.det_smul, Matrix.det_one]; norm_num
  have hg : (((2 : ℝ) • (1 : Mat3)).transpose * ((2 : ℝ) • (1 : Mat3))) = (4 : ℝ) • (1 : Mat3) := by
    rw [Matrix.transpose_smul, Matrix.transpose_one, Matrix.smul_mul, Matrix.one_mul, smul_smul]; norm_num
  refine ⟨_, _, _, g, _, pts', h1, List.length_replicate, h5, hF, by rw [hdet]; norm_num, ?_, ?_⟩
  · intro z
    rw [hg]
    have h64 : ((4 : ℝ) • (1 : Mat3)).det = 64 := by rw [Matrix.det_smul, Matrix.det_one]; norm_num
    have h8 : √(64 : ℝ) = 8 := by rw [show (64 : ℝ) = 8 ^ 2 by norm_num, Real.sqrt_sq (by norm_num)]
    have hp : (8 : ℝ) ^ (-2 / 3 : ℝ) = 1 / 4 := by
      rw [show (8 : ℝ) = 2 ^ (3 : ℝ) by norm_num, ← Real.rpow_mul (by norm_num)]
      norm_num
    unfold energy
    rw [h64, h8]
    dsimp only
    rw [hp]
    simp [neoHookean, Matrix.trace_smul, Matrix.trace_one]
    norm_num
  · rw [solidWU_eq _ a d, hg]
    congr 1
    simp [neoHookean, Matrix.trace_smul, Matrix.trace_one]
    ring

/-- C69 is violated by the invariants query of PLANE41: given the address of a single vector, as in
VtkProcessor.cpp:346, it writes past it. -/
theorem C69_invariants_violated (pts : List Point2) (gp : Nat) (h : gp < pts.length) (scale : ℝ) (v : Fin 3 → ℝ) :
    planeIC pts gp scale [v] = .ub := by
  unfold planeIC
  rw [Res.read_of_lt h]
  rfl

/-- The hypotheses of the theorems about PLANE41 are met by a simple shear of the unit square, whose gradient is not symmetric. -/
example : ∃ (pos u : Fin 4 → Fin 2 → ℝ) (F : QuadPt 2 → Matrix (Fin 2) (Fin 2) ℝ),
    (∀ q ∈ quad.table (schemeIndex 2), (jac quad pos q.xi).det ≠ 0) ∧
    (∀ q ∈ quad.table (schemeIndex 2), IsDefGrad quad pos u q.xi (F q) ∧ (F q).det ≠ 0) ∧
    (∀ q ∈ quad.table (schemeIndex 2), (jac quad (pos + u) q.xi).det ≠ 0) ∧ (mooneyRivlin ![2, 1, 5]).Consistent := by
  have e : (affine 1 0 quadNodes + affine !![0, 1; 0, 0] 0 quadNodes : Fin 4 → Fin 2 → ℝ) =
      affine !![1, 1; 0, 1] 0 quadNodes := by
    funext a i
    simp only [affine, Pi.add_apply, Matrix.one_mulVec]
    fin_cases i <;> simp [Matrix.mulVec, dotProduct, Fin.sum_univ_two]
  refine ⟨affine 1 0 quadNodes, affine !![0, 1; 0, 0] 0 quadNodes, fun _ => !![1, 1; 0, 1], ?_, ?_, ?_, C46_mooneyRivlin _⟩
  · intro q _
    rw [jac_affine C34_quad _ _ _ (quad_repr _)]
    simp
  · intro q _
    constructor
    · unfold IsDefGrad
      rw [e, jac_affine C34_quad _ _ _ (quad_repr _), jac_affine C34_quad _ _ _ (quad_repr _)]
      simp
    · simp [Matrix.det_fin_two]
  · intro q _
    rw [e, jac_affine C34_quad _ _ _ (quad_repr _)]
    simp [Matrix.det_fin_two]

end

end Nla3d.Hyper
