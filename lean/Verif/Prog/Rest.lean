import Verif.Prog.Spec

/-!
# The energy is stationary where nothing is strained

At a deformation gradient 1 and pressure 0 the energy per volume is stationary, whatever the material. So the energy of a model is
stationary at a translation of all its nodes.
-/

namespace Nla3d.Prog

open Nla3d.Dof Nla3d.Storage Nla3d.Iso Nla3d.Newton Nla3d.Labels
open Nla3d.Hyper (plane3)
open Nla3d.Rigid (transl)
open Nla3d.Main (Job)

noncomputable section

theorem poly_deriv (a b : ℝ) (c : ℝ → ℝ) (hc : ∃ c₀ c₁, ∀ s, c s = c₀ + c₁ * s) : HasDerivAt (fun s : ℝ => a + b * s + c s * s ^ 2) b 0 := by
  obtain ⟨c₀, c₁, h⟩ := hc
  have e : (fun s : ℝ => a + b * s + c s * s ^ 2) = fun s => a + b * s + (c₀ * s ^ 2 + c₁ * s ^ 3) := by
    funext s; rw [h]; ring
  rw [e]
  have h1 : HasDerivAt (fun s : ℝ => s) 1 0 := hasDerivAt_id 0
  have h2 := (((h1.const_mul b).const_add a).add (((h1.fun_pow 2).const_mul c₀).add ((h1.fun_pow 3).const_mul c₁)))
  refine h2.congr_deriv ?_
  norm_num

theorem trace_rest (G : Matrix (Fin 3) (Fin 3) ℝ) :
    HasDerivAt (fun s : ℝ => ((1 + s • G).transpose * (1 + s • G)).trace) (2 * G.trace) 0 := by
  have e : (fun s : ℝ => ((1 + s • G).transpose * (1 + s • G)).trace) =
      fun s => 3 + 2 * G.trace * s + (fun _ => (G.transpose * G).trace) s * s ^ 2 := by
    funext s
    simp [Matrix.trace, Matrix.mul_apply, Fin.sum_univ_three, Matrix.one_apply]
    ring
  rw [e]
  exact poly_deriv _ _ _ ⟨_, 0, fun _ => by ring⟩

theorem det_rest (G : Matrix (Fin 3) (Fin 3) ℝ) : HasDerivAt (fun s : ℝ => (1 + s • G).det) G.trace 0 := by
  have e : (fun s : ℝ => (1 + s • G).det) = fun s => 1 + G.trace * s +
      (fun s => (G 0 0 * G 1 1 + G 0 0 * G 2 2 + G 1 1 * G 2 2 - G 0 1 * G 1 0 - G 0 2 * G 2 0 - G 1 2 * G 2 1) + G.det * s) s * s ^ 2 := by
    funext s
    simp [Matrix.trace, Matrix.det_fin_three, Fin.sum_univ_three, Matrix.one_apply]
    ring
  rw [e]
  exact poly_deriv _ _ _ ⟨_, _, fun _ => rfl⟩

theorem square_rest (G : Matrix (Fin 3) (Fin 3) ℝ) :
    HasDerivAt (fun s : ℝ => (((1 + s • G).transpose * (1 + s • G)) * ((1 + s • G).transpose * (1 + s • G))).trace) (4 * G.trace) 0 := by
  set S := G + G.transpose with hS
  set Q := G.transpose * G with hQ
  have hC : ∀ s : ℝ, (1 + s • G).transpose * (1 + s • G) = 1 + s • S + (s ^ 2) • Q := by
    intro s
    rw [hS, hQ, Matrix.transpose_add, Matrix.transpose_one, Matrix.transpose_smul, Matrix.add_mul, Matrix.mul_add, Matrix.mul_add,
      Matrix.one_mul, Matrix.one_mul, Matrix.mul_one, Matrix.smul_mul, Matrix.mul_smul, smul_add, smul_smul, pow_two]
    abel
  have hSt : S.trace = 2 * G.trace := by rw [hS, Matrix.trace_add, Matrix.trace_transpose]; ring
  have e : ∀ s : ℝ, (((1 + s • G).transpose * (1 + s • G)) * ((1 + s • G).transpose * (1 + s • G))).trace =
      3 + 4 * G.trace * s + ((S * S).trace + 2 * Q.trace) * s ^ 2 + ((S * Q).trace + (Q * S).trace) * s ^ 3 + (Q * Q).trace * s ^ 4 := by
    intro s
    rw [hC s]
    simp only [Matrix.add_mul, Matrix.mul_add, Matrix.one_mul, Matrix.mul_one, Matrix.smul_mul, Matrix.mul_smul, Matrix.trace_add,
      Matrix.trace_smul, smul_eq_mul, Matrix.trace_one, Fintype.card_fin, hSt]
    push_cast
    ring
  rw [funext e]
  have h1 : HasDerivAt (fun s : ℝ => s) 1 0 := hasDerivAt_id 0
  have h2 := ((((h1.const_mul (4 * G.trace)).const_add 3).add ((h1.fun_pow 2).const_mul ((S * S).trace + 2 * Q.trace))).add
    ((h1.fun_pow 3).const_mul ((S * Q).trace + (Q * S).trace))).add ((h1.fun_pow 4).const_mul (Q * Q).trace)
  refine h2.congr_deriv ?_
  norm_num

/-- The energy per volume is stationary at rest. -/
theorem density_rest {m : String} {cs : List ℝ} {W : ℝ → ℝ → ℝ} {k : ℝ} (hW : MatLaw m cs W k) (G : Matrix (Fin 3) (Fin 3) ℝ) (p : ℝ) :
    HasDerivAt (fun s : ℝ => density W k (s * p) (1 + s • G)) 0 0 := by
  set F : ℝ → Matrix (Fin 3) (Fin 3) ℝ := fun s => 1 + s • G with hF
  have hF0 : F 0 = 1 := by simp [hF]
  set D : ℝ → ℝ := fun s => ((F s).transpose * F s).det with hD
  have hD0 : D 0 = 1 := by simp [hD, hF0]
  have hD1 : HasDerivAt D (2 * G.trace) 0 := by
    have e : D = fun s => (F s).det * (F s).det := by funext s; simp [hD, Matrix.det_mul, Matrix.det_transpose]
    rw [e]
    have h0 : (F 0).det = 1 := by rw [hF0, Matrix.det_one]
    refine ((det_rest G).fun_mul (det_rest G)).congr_deriv ?_
    simp only [hF] at h0
    rw [h0]; ring
  set J : ℝ → ℝ := fun s => √(D s) with hJ
  have hJ0 : J 0 = 1 := by simp [hJ, hD0]
  have hJ1 : HasDerivAt J G.trace 0 := by
    refine (hD1.sqrt (by rw [hD0]; norm_num)).congr_deriv ?_
    rw [hD0, Real.sqrt_one]; ring
  have hJr : ∀ r : ℝ, HasDerivAt (fun s => J s ^ r) (G.trace * r) 0 := by
    intro r
    refine (hJ1.rpow_const (p := r) (.inl (by rw [hJ0]; norm_num))).congr_deriv ?_
    rw [hJ0, Real.one_rpow]; ring
  have hI1 : HasDerivAt (fun s => ((F s).transpose * F s).trace * J s ^ (-2 / 3 : ℝ)) 0 0 := by
    refine ((trace_rest G).fun_mul (hJr (-2 / 3))).congr_deriv ?_
    simp only [hJ0, Real.one_rpow]
    simp only [zero_smul, add_zero, Matrix.transpose_one, Matrix.one_mul, Matrix.trace_one, Fintype.card_fin]
    push_cast; ring
  have hI2 : HasDerivAt (fun s => (((F s).transpose * F s).trace ^ 2 - ((F s).transpose * F s * ((F s).transpose * F s)).trace) / 2 *
      J s ^ (-4 / 3 : ℝ)) 0 0 := by
    refine (((((trace_rest G).fun_pow 2).fun_sub (square_rest G)).div_const 2).fun_mul (hJr (-4 / 3))).congr_deriv ?_
    simp only [hJ0, Real.one_rpow]
    simp only [hF0, zero_smul, add_zero, Matrix.transpose_one, Matrix.one_mul, Matrix.trace_one, Fintype.card_fin]
    push_cast; ring
  have hp : HasDerivAt (fun s : ℝ => s * p) p 0 := by simpa using (hasDerivAt_id (0 : ℝ)).mul_const p
  have hvol : HasDerivAt (fun s : ℝ => s * p * (J s - 1) - (s * p) ^ 2 / (2 * k)) 0 0 := by
    refine ((hp.fun_mul (hJ1.sub_const 1)).fun_sub ((hp.fun_pow 2).div_const (2 * k))).congr_deriv ?_
    rw [hJ0]; simp
  have key : HasDerivAt (fun s => W (((F s).transpose * F s).trace * J s ^ (-2 / 3 : ℝ))
      ((((F s).transpose * F s).trace ^ 2 - ((F s).transpose * F s * ((F s).transpose * F s)).trace) / 2 * J s ^ (-4 / 3 : ℝ))) 0 0 := by
    cases hW with
    | neoHookean g k => simpa using (hI1.sub_const 3).const_mul (g / 2)
    | mooneyRivlin c₁₀ c₀₁ k => simpa using ((hI1.sub_const 3).const_mul c₁₀).fun_add ((hI2.sub_const 3).const_mul c₀₁)
    | biderman c₁₀ c₂₀ c₃₀ c₀₁ k =>
      have h := (hI1.sub_const 3)
      simpa using (((h.const_mul c₁₀).fun_add ((h.fun_pow 2).const_mul c₂₀)).fun_add ((h.fun_pow 3).const_mul c₃₀)).fun_add
        ((hI2.sub_const 3).const_mul c₀₁)
  have := key.fun_add hvol
  rw [add_zero] at this
  refine this.congr_of_eventuallyEq (.of_forall fun s => ?_)
  simp only [density, hJ, hD, hF]
  ring

/-- The derivative of a sum. -/
theorem sum_deriv {α : Type*} (l : List α) (f : α → ℝ → ℝ) (g : α → ℝ) (h : ∀ a ∈ l, HasDerivAt (f a) (g a) 0) :
    HasDerivAt (fun s => (l.map (fun a => f a s)).sum) (l.map g).sum 0 := by
  induction l with
  | nil => simpa using hasDerivAt_const (0 : ℝ) (0 : ℝ)
  | cons a l ih =>
    simp only [List.map_cons, List.sum_cons]
    exact (h a (List.mem_cons_self ..)).fun_add (ih (fun b hb => h b (List.mem_cons_of_mem _ hb)))

theorem jac_add {d nn : Nat} (S : Shape d nn) (a b : Fin nn → Fin d → ℝ) (x : Fin d → ℝ) : jac S (a + b) x = jac S a x + jac S b x := by
  ext i j
  simp only [jac, Matrix.of_apply, Matrix.add_apply, Pi.add_apply, mul_add, Finset.sum_add_distrib]

theorem jac_smul {d nn : Nat} (S : Shape d nn) (s : ℝ) (a : Fin nn → Fin d → ℝ) (x : Fin d → ℝ) : jac S (s • a) x = s • jac S a x := by
  ext i j
  simp only [jac, Matrix.of_apply, Matrix.smul_apply, Pi.smul_apply, smul_eq_mul, Finset.mul_sum]
  exact Finset.sum_congr rfl fun _ _ => by ring

theorem jac_const {d nn : Nat} {S : Shape d nn} {nodes : Fin nn → Fin d → ℝ} (hS : IsLagrange S nodes) (c x : Fin d → ℝ) :
    jac S (fun _ => c) x = 0 := by
  ext i j
  rw [jac, Matrix.of_apply, ← Finset.sum_mul, hS.grad_sum, zero_mul, Matrix.zero_apply]

/-- The deformation gradient along a line from a translation. -/
theorem defGrad_rest {d nn : Nat} {S : Shape d nn} {nodes : Fin nn → Fin d → ℝ} (hS : IsLagrange S nodes) (pos v : Fin nn → Fin d → ℝ)
    (c x : Fin d → ℝ) (hdet : (jac S pos x).det ≠ 0) (s : ℝ) :
    defGrad S pos ((fun _ => c) + s • v) x = 1 + s • ((jac S pos x)⁻¹ * jac S v x).transpose := by
  unfold defGrad
  rw [jac_add, jac_add, jac_const hS, zero_add, jac_smul, Matrix.mul_add, Matrix.nonsing_inv_mul _ (isUnit_iff_ne_zero.2 hdet),
    Matrix.mul_smul, Matrix.transpose_add, Matrix.transpose_one, Matrix.transpose_smul]

/-- The nodes of all elements are moved by `c`, and there is no pressure. -/
structure Moved (j : Job ℝ) (c : Fin 3 → ℝ) (x : Vals) : Prop where
  disp : ∀ ns ∈ j.elems, ∀ n ∈ ns, ∀ i, transl i ∈ displ j.type → x (.node, n, transl i) = c i
  pressure : ∀ e, x (.elem, e, .HYDRO_PRESSURE) = 0

theorem disp_moved {j : Job ℝ} {c : Fin 3 → ℝ} {x : Vals} (hx : Moved j c x) (v : Vals) (s : ℝ) {ns : List Nat} (hns : ns ∈ j.elems)
    (ht : j.type = .SOLID81) (hl : ns.length = 8) :
    (nodeDisp (x + s • v) ns : Fin 8 → Fin 3 → ℝ) = (fun _ => c) + s • nodeDisp v ns := by
  funext a i
  have hm : ns.getD a 0 ∈ ns := by
    rw [List.getD_eq_getElem?_getD, List.getElem?_eq_getElem (by omega), Option.getD_some]
    exact List.getElem_mem ..
  have := hx.disp ns hns _ hm i (by rw [ht]; fin_cases i <;> simp [transl, displ])
  simpa [nodeDisp] using this

theorem flat_moved {j : Job ℝ} {c : Fin 3 → ℝ} {x : Vals} (hx : Moved j c x) (v : Vals) (s : ℝ) {ns : List Nat} (hns : ns ∈ j.elems)
    (ht : j.type = .PLANE41) (hl : ns.length = 4) :
    (flat (nodeDisp (x + s • v) ns) : Fin 4 → Fin 2 → ℝ) = (fun _ i => c i.castSucc) + s • flat (nodeDisp v ns) := by
  funext a i
  have hm : ns.getD a 0 ∈ ns := by
    rw [List.getD_eq_getElem?_getD, List.getElem?_eq_getElem (by omega), Option.getD_some]
    exact List.getElem_mem ..
  have := hx.disp ns hns _ hm i.castSucc (by rw [ht]; fin_cases i <;> simp [transl, displ])
  simpa [flat, nodeDisp] using this

/-- The displaced elements are as good as the given ones. -/
theorem sound_moved {o : Cmd.Options ℝ} {ref : List ℝ} {j : Job ℝ} (h : Runnable o ref j) {c : Fin 3 → ℝ} {x : Vals} (hx : Moved j c x) :
    Sound j x := by
  intro ns hns
  obtain ⟨nn, hnn, hlen⟩ := h.type
  have hs := h.sound ns hns
  unfold elementSound at hs ⊢
  cases ht : j.type <;> rw [ht] at hnn hs <;> simp [nodeCount] at hnn <;> subst hnn
  case SOLID81 =>
    intro q hq
    have e := disp_moved hx 0 0 hns ht (hlen ns hns)
    have e0 : (nodeDisp 0 ns : Fin 8 → Fin 3 → ℝ) = 0 := rfl
    have h1 := hs q hq
    rw [e0, add_zero] at h1
    rw [zero_smul, add_zero, zero_smul, add_zero] at e
    rw [e, jac_add, jac_const C34_hexa, add_zero]
    exact h1
  case PLANE41 =>
    intro q hq
    have e := flat_moved hx 0 0 hns ht (hlen ns hns)
    have e0 : (flat (nodeDisp 0 ns) : Fin 4 → Fin 2 → ℝ) = 0 := rfl
    have h1 := hs q hq
    rw [e0, add_zero] at h1
    rw [zero_smul, add_zero, zero_smul, add_zero] at e
    rw [e, jac_add, jac_const C34_quad, add_zero]
    exact h1

theorem plane3_rest (G : Matrix (Fin 2) (Fin 2) ℝ) (s : ℝ) :
    plane3 (1 + s • G) = 1 + s • !![G 0 0, G 0 1, 0; G 1 0, G 1 1, 0; 0, 0, 0] := by
  ext a b
  fin_cases a <;> fin_cases b <;> simp [plane3]

/-- The energy of a model is stationary at a translation. -/
theorem slope_moved {o : Cmd.Options ℝ} {ref : List ℝ} {j : Job ℝ} (h : Runnable o ref j) {W : ℝ → ℝ → ℝ} {k : ℝ}
    (hW : MatLaw o.material j.constants W k) {c : Fin 3 → ℝ} {x : Vals} (hx : Moved j c x) (v : Vals) : slope W k j x v = 0 := by
  obtain ⟨nn, hnn, hlen⟩ := h.type
  unfold slope storedEnergy
  refine HasDerivAt.deriv ?_
  have key := sum_deriv (j.elems.zipIdx 1) (fun e s => elementEnergy j.type W k j.pos e.1 (x + s • v) ((x + s • v) (.elem, e.2, .HYDRO_PRESSURE)))
    (fun _ => 0) (fun e he => ?_)
  · simpa using key
  have hns : e.1 ∈ j.elems := by
    obtain ⟨ns, i⟩ := e
    exact List.fst_mem_of_mem_zipIdx he
  have hs := h.sound e.1 hns
  have hp : ∀ s : ℝ, (x + s • v) (.elem, e.2, .HYDRO_PRESSURE) = s * v (.elem, e.2, .HYDRO_PRESSURE) := by
    intro s
    simp [hx.pressure]
  simp only [hp]
  generalize v (.elem, e.2, .HYDRO_PRESSURE) = p
  unfold elementEnergy
  unfold elementSound at hs
  cases ht : j.type <;> rw [ht] at hnn hs <;> simp [nodeCount] at hnn <;> subst hnn
  case SOLID81 =>
    have e0 : (nodeDisp 0 e.1 : Fin 8 → Fin 3 → ℝ) = 0 := rfl
    have := sum_deriv (hexa.table (schemeIndex 2)) (fun q s => q.w * (jac hexa (nodePos j.pos e.1) q.xi).det *
      density W k (s * p) (defGrad hexa (nodePos j.pos e.1) (nodeDisp (x + s • v) e.1) q.xi)) (fun _ => 0) (fun q hq => ?_)
    · simpa [hexEnergy] using this
    have hd := hs q hq
    rw [e0, add_zero] at hd
    have hr := (density_rest hW ((jac hexa (nodePos j.pos e.1) q.xi)⁻¹ * jac hexa (nodeDisp v e.1) q.xi).transpose p).const_mul
      (q.w * (jac hexa (nodePos j.pos e.1) q.xi).det)
    rw [mul_zero] at hr
    refine hr.congr_of_eventuallyEq (.of_forall fun s => ?_)
    dsimp only
    rw [disp_moved hx v s hns ht (hlen _ hns), defGrad_rest C34_hexa _ _ _ _ hd]
  case PLANE41 =>
    have e0 : (flat (nodeDisp 0 e.1) : Fin 4 → Fin 2 → ℝ) = 0 := rfl
    have := sum_deriv (quad.table (schemeIndex 2)) (fun q s => q.w * (jac quad (flat (nodePos j.pos e.1)) q.xi).det *
      density W k (s * p) (plane3 (defGrad quad (flat (nodePos j.pos e.1)) (flat (nodeDisp (x + s • v) e.1)) q.xi))) (fun _ => 0) (fun q hq => ?_)
    · simpa [quadEnergy] using this
    have hd := hs q hq
    rw [e0, add_zero] at hd
    set G := ((jac quad (flat (nodePos j.pos e.1)) q.xi)⁻¹ * jac quad (flat (nodeDisp v e.1)) q.xi).transpose with hG
    have hr := (density_rest hW !![G 0 0, G 0 1, 0; G 1 0, G 1 1, 0; 0, 0, 0] p).const_mul
      (q.w * (jac quad (flat (nodePos j.pos e.1)) q.xi).det)
    rw [mul_zero] at hr
    refine hr.congr_of_eventuallyEq (.of_forall fun s => ?_)
    dsimp only
    rw [flat_moved hx v s hns ht (hlen _ hns), defGrad_rest C34_quad _ _ _ _ hd, ← hG, plane3_rest]

end

end Nla3d.Prog
