import Verif.Struct.Heat
import Verif.Struct.Minimum

/-!
# C134 for heat conduction: the reported temperatures have the least energy

The functional of stationary heat conduction with sources, fluxes and films; integrals by the quadrature of the elements.
-/

namespace Nla3d.Struct

open Nla3d.Dof Nla3d.Block Nla3d.Sparse Nla3d.Storage Nla3d.Solver Finset
open scoped Matrix

/-! ## Specification -/

/-- Functional of an element: half the conductivity times the squared gradient, less source times temperature; half the film
coefficient times the squared difference to the surroundings, less flux times temperature. -/
noncomputable def HeatElem.functional (geo : Nat → Fin 3 → ℝ) (T : Key → ℝ) : HeatElem → ℝ
  | .quad n o k source => ((Iso.quad.table (Iso.schemeIndex o)).map fun q => q.w * (Iso.jac Iso.quad (plane geo n) q.xi).det *
      (k / 2 * ∑ i, (∑ a, Iso.grads Iso.quad (plane geo n) q.xi a i * temp T (n a)) ^ 2 -
        source * ∑ a, Iso.quad.formFunc q.xi a * temp T (n a))).sum
  | .line n o s => ((Iso.line.table (Iso.schemeIndex o)).map fun q => q.w * (Iso.lineJacob o fun a => geo (n a)).det *
      (s.pre.htc / 2 * (∑ a, Iso.line.formFunc q.xi a * (temp T (n a) - s.pre.etemp a)) ^ 2 -
        s.pre.flux * ∑ a, Iso.line.formFunc q.xi a * temp T (n a))).sum

/-- Films do not heat against the difference of temperature. -/
def HeatElem.Passive : HeatElem → Prop
  | .quad .. => True
  | .line _ _ s => 0 ≤ s.pre.htc

/-! ## Proofs -/

section scalar
variable {x : LinEl ℝ} {m : Nat} {n : Fin m → Nat} {M : Matrix (Fin m) (Fin m) ℝ} {F : Fin m → ℝ}

theorem Scalar.form (h : Scalar x n M F) (T : Key → ℝ) :
    ∑ a ∈ range x.n, ∑ c ∈ range x.n, T (localKey x.nodes x.dofs a) * x.Ke a c * T (localKey x.nodes x.dofs c) =
      (fun a => temp T (n a)) ⬝ᵥ (M *ᵥ fun a => temp T (n a)) := by
  rw [h.size, Finset.sum_range]
  simp only [Finset.sum_range, h.matrix, h.key]
  unfold dotProduct Matrix.mulVec dotProduct
  refine Finset.sum_congr rfl fun i _ => ?_
  rw [Finset.mul_sum]
  exact Finset.sum_congr rfl fun j _ => mul_assoc _ _ _

theorem Scalar.energy (h : Scalar x n M F) (T : Key → ℝ) :
    x.energy T = (fun a => temp T (n a)) ⬝ᵥ (M *ᵥ fun a => temp T (n a)) / 2 - (fun a => temp T (n a)) ⬝ᵥ F := by
  unfold LinEl.energy
  rw [h.form]
  congr 1
  rw [h.size, Finset.sum_range]
  simp only [h.load, h.key]
  rfl

end scalar

theorem side_table_pos (i : Fin 3) : ∀ q ∈ Iso.line.table i, (0 : ℝ) < q.w := by
  have h1 : ∀ q ∈ Iso.lineO1, (0 : ℝ) < q.w := by simp [Iso.lineO1]
  have h2 : ∀ q ∈ Iso.lineO2, (0 : ℝ) < q.w := by simp [Iso.lineO2]
  have h3 : ∀ q ∈ Iso.lineO3, (0 : ℝ) < q.w := by simp [Iso.lineO3]; norm_num
  fin_cases i
  · exact h1
  · exact h2
  · exact h3

theorem HeatElem.Built.energy {geo : Nat → Fin 3 → ℝ} {h : HeatElem} {x : LinEl ℝ} (hb : h.Built geo x) (hok : h.Sound geo) (hpas : h.Passive)
    (hs : ∀ a < x.n, ∀ b < x.n, x.Ke a b = x.Ke b a) :
    (∃ c, ∀ T, x.energy T = h.functional geo T - c) ∧
    ∀ T : Key → ℝ, 0 ≤ ∑ a ∈ range x.n, ∑ c ∈ range x.n, T (localKey x.nodes x.dofs a) * x.Ke a c * T (localKey x.nodes x.dofs c) := by
  cases h with
  | quad n o k source =>
    obtain ⟨h1, h2, g, F, f, h3, h4, h5, h6⟩ := hb
    obtain ⟨hj, hk⟩ := hok
    obtain ⟨g', e4, eo, e5⟩ := Iso.makeJacob_good (S := Iso.quad) (o := o) (pos := plane geo n) (fun q hq => (hj q hq).ne')
    rw [h3, Res.ok.injEq] at e4
    subst e4
    have e3 := Thermal.quadK_eq e5 k source
    rw [h4, Res.ok.injEq, Prod.mk.injEq, eo] at e3
    have hpsd : ((Iso.quad.table (Iso.schemeIndex o)).map (Thermal.condPt (plane geo n) k)).sum.PosSemidef := by
      apply Thermal.psd_sum
      intro q hq
      rw [Thermal.condPt_eq]
      apply Thermal.psd_transpose_mul
      exact mul_nonneg (mul_nonneg (Thermal.table_pos _ q hq).le (hj q hq).le) hk
    have hn : x.n = 4 := by unfold LinEl.n; rw [h1, h2]; rfl
    have hsc : Scalar x n ((Iso.quad.table (Iso.schemeIndex o)).map (Thermal.condPt (plane geo n) k)).sum
        ((Iso.quad.table (Iso.schemeIndex o)).map (Thermal.loadPt (plane geo n) source)).sum := by
      refine ⟨h1, h2, fun i j => matrix_of_pack hn hs (Thermal.isSymm_of_psd hpsd) e3.1.symm i j, fun i => ?_⟩
      unfold LinEl.load
      rw [h5, ← e3.2]
      exact h6 i
    refine ⟨⟨0, fun T => ?_⟩, fun T => ?_⟩
    · rw [hsc.energy, sub_zero]
      unfold HeatElem.functional
      simp only
      generalize Iso.quad.table (Iso.schemeIndex o) = qs
      induction qs with
      | nil => simp
      | cons q qs ih =>
        simp only [List.map_cons, List.sum_cons, Matrix.add_mulVec, dotProduct_add]
        rw [← ih, Thermal.condPt_eq, Matrix.smul_mulVec, dotProduct_smul, ← Matrix.mulVec_mulVec, Matrix.dotProduct_mulVec,
          Matrix.vecMul_transpose, smul_eq_mul]
        have q1 : (Thermal.B (plane geo n) q.xi *ᵥ fun a => temp T (n a)) ⬝ᵥ (Thermal.B (plane geo n) q.xi *ᵥ fun a => temp T (n a)) =
            ∑ i, (∑ a, Iso.grads Iso.quad (plane geo n) q.xi a i * temp T (n a)) ^ 2 := by
          unfold dotProduct
          exact Finset.sum_congr rfl fun i _ => (sq _).symm
        have q2 : (fun a => temp T (n a)) ⬝ᵥ Thermal.loadPt (plane geo n) source q =
            Thermal.wdet (plane geo n) q * (source * ∑ a, Iso.quad.formFunc q.xi a * temp T (n a)) := by
          unfold dotProduct Thermal.loadPt
          rw [Finset.mul_sum, Finset.mul_sum]
          exact Finset.sum_congr rfl fun a _ => by ring
        rw [q1, q2]
        unfold Thermal.wdet
        ring
    · rw [hsc.form]
      have := hpsd.dotProduct_mulVec_nonneg fun a => temp T (n a)
      rwa [star_trivial] at this
  | line n o s =>
    obtain ⟨h1, h2, f, h4, h5⟩ := hb
    have hd : 0 < (Iso.lineJacob o fun a => geo (n a)).det := by
      have := Iso.length_pos hok
      show 0 < Iso.length (fun i => geo (n 1) i - geo (n 0) i) * 0.5
      positivity
    have e3 := Thermal.surfaceK_eq hd s.pre
    rw [h4, Res.ok.injEq, Prod.mk.injEq] at e3
    have hn : x.n = 2 := by unfold LinEl.n; rw [h1, h2]; rfl
    have hh : 0 ≤ s.pre.htc := hpas
    have hsym : (((Iso.line.table (Iso.lineJacob o fun a => geo (n a)).scheme).map
        (Thermal.convPt s.pre.htc (Iso.lineJacob o fun a => geo (n a)).det)).sum).IsSymm := by
      apply Thermal.sum_induct (fun K : Matrix (Fin 2) (Fin 2) ℝ => K.IsSymm)
      · exact Matrix.isSymm_zero
      · intro a b ha hb; exact ha.add hb
      · intro q _; exact Thermal.convPt_symm _ _ q
    have hsc : Scalar x n ((Iso.line.table (Iso.lineJacob o fun a => geo (n a)).scheme).map
        (Thermal.convPt s.pre.htc (Iso.lineJacob o fun a => geo (n a)).det)).sum
        (((Iso.line.table (Iso.lineJacob o fun a => geo (n a)).scheme).map
          (Thermal.fluxPt s.pre.flux (Iso.lineJacob o fun a => geo (n a)).det)).sum +
        ((Iso.line.table (Iso.lineJacob o fun a => geo (n a)).scheme).map
          (Thermal.convPt s.pre.htc (Iso.lineJacob o fun a => geo (n a)).det)).sum *ᵥ s.pre.etemp) := by
      refine ⟨h1, h2, fun i j => matrix_of_pack hn hs hsym e3.1.symm i j, fun i => ?_⟩
      unfold LinEl.load
      rw [h5]
      have := congrArg (fun l => l[i.val]?) e3.2
      simp only [List.getElem?_ofFn, List.getElem?_map, List.getElem?_range i.2] at this
      rw [dif_pos i.2, Option.map_some, Option.some.injEq] at this
      exact this
    have hw : ∀ q ∈ Iso.line.table (Iso.lineJacob o fun a => geo (n a)).scheme, 0 < q.w := side_table_pos _
    have hquad : ∀ (q : Iso.QuadPt 1) (d : ℝ) (u v : Fin 2 → ℝ), u ⬝ᵥ (Thermal.convPt s.pre.htc d q *ᵥ v) =
        s.pre.htc * (q.w * d) * ((∑ a, Iso.line.formFunc q.xi a * u a) * ∑ a, Iso.line.formFunc q.xi a * v a) := by
      intro q d u v
      simp only [Fin.sum_univ_two, Matrix.mulVec, dotProduct, Thermal.convPt, Matrix.of_apply]
      ring
    refine ⟨⟨((Iso.line.table (Iso.schemeIndex o)).map fun q => q.w * (Iso.lineJacob o fun a => geo (n a)).det *
      (s.pre.htc / 2 * (∑ a, Iso.line.formFunc q.xi a * s.pre.etemp a) ^ 2)).sum, fun T => ?_⟩, fun T => ?_⟩
    · rw [hsc.energy]
      unfold HeatElem.functional
      show _ = ((Iso.line.table (Iso.lineJacob o fun a => geo (n a)).scheme).map _).sum -
        ((Iso.line.table (Iso.lineJacob o fun a => geo (n a)).scheme).map _).sum
      clear hsc hsym e3 h4 hw
      generalize Iso.line.table (Iso.lineJacob o fun a => geo (n a)).scheme = qs
      generalize (Iso.lineJacob o fun a => geo (n a)).det = d
      induction qs with
      | nil => simp
      | cons q qs ih =>
        simp only [List.map_cons, List.sum_cons, Matrix.add_mulVec, dotProduct_add] at ih ⊢
        rw [hquad, hquad]
        have q2 : (fun a => temp T (n a)) ⬝ᵥ Thermal.fluxPt s.pre.flux d q =
            q.w * d * (s.pre.flux * ∑ a, Iso.line.formFunc q.xi a * temp T (n a)) := by
          unfold dotProduct Thermal.fluxPt
          rw [Finset.mul_sum, Finset.mul_sum]
          exact Finset.sum_congr rfl fun a _ => by ring
        rw [q2]
        have q3 : ∑ a, Iso.line.formFunc q.xi a * (temp T (n a) - s.pre.etemp a) =
            ∑ a, Iso.line.formFunc q.xi a * temp T (n a) - ∑ a, Iso.line.formFunc q.xi a * s.pre.etemp a := by
          rw [← Finset.sum_sub_distrib]
          exact Finset.sum_congr rfl fun a _ => by ring
        rw [q3]
        linear_combination ih
    · rw [hsc.form]
      clear hsc hsym e3 h4
      generalize Iso.line.table (Iso.lineJacob o fun a => geo (n a)).scheme = qs at hw
      induction qs with
      | nil => simp
      | cons q qs ih =>
        simp only [List.map_cons, List.sum_cons, Matrix.add_mulVec, dotProduct_add]
        refine add_nonneg ?_ (ih fun q hq => hw q (by simp [hq]))
        rw [hquad]
        have := hw q (by simp)
        exact mul_nonneg (by positivity) (mul_self_nonneg _)

section
variable {E : Type} {S0 S' : Storage ℝ} {calls : List RegCall} {new : List (Mpc ℝ)} {loads fixs : List (Bc ℝ)} {els : List (LinEl ℝ)}
  {update : E → Storage ℝ → E} {eqs : EqSolver ℝ} {e e' : E}

/-- C134 for bodies of quadrilaterals with sources, fluxes and films: the reported temperatures minimise the functional of heat
conduction. -/
theorem C134_heat {geo : Nat → Fin 3 → ℝ} {hs : List HeatElem} (hl : LegalModel S0 calls new (fixKeys fixs))
    (hload : ∀ l ∈ loads, keyOf l ∈ regKeys calls) (hp : ∀ x ∈ els, Placed S0 calls x)
    (hels : List.Forall₂ (fun h x => h.Built geo x) hs els) (hok : ∀ h ∈ hs, h.Sound geo) (hpas : ∀ h ∈ hs, h.Passive) (he : Exact eqs)
    (h : linearSolve eqs (linear els update) loads fixs calls new S0 e = .ok (S', e')) :
    ∃ T r : Key → ℝ, Reported S' (regKeys calls) T r ∧ Possible S0 calls new fixs T ∧
      ∀ v, Possible S0 calls new fixs v →
        (hs.map fun b => b.functional geo T).sum - givenWork calls loads T ≤ (hs.map fun b => b.functional geo v).sum - givenWork calls loads v := by
  have key : (∃ c, ∀ w : Key → ℝ, (els.map fun x => x.energy w).sum = (hs.map fun b => b.functional geo w).sum - c) ∧
      ∀ x ∈ els, ∀ d : Key → ℝ, 0 ≤ ∑ a ∈ range x.n, ∑ b ∈ range x.n,
        d (localKey x.nodes x.dofs a) * x.Ke a b * d (localKey x.nodes x.dofs b) := by
    clear h
    induction hels with
    | nil => exact ⟨⟨0, fun w => by simp⟩, fun x hx => by cases hx⟩
    | @cons b x bs xs hx _ ih =>
      obtain ⟨⟨c, hc⟩, hpos⟩ := ih (fun y hy => hp y (by simp [hy])) (fun y hy => hok y (by simp [hy])) (fun y hy => hpas y (by simp [hy]))
      obtain ⟨⟨c1, h1⟩, h2⟩ := hx.energy (hok b (by simp)) (hpas b (by simp)) (hp x (by simp)).symm
      refine ⟨⟨c1 + c, fun w => ?_⟩, fun y hy d => ?_⟩
      · rw [List.map_cons, List.map_cons, List.sum_cons, List.sum_cons, hc, h1]
        ring
      · rcases List.mem_cons.1 hy with rfl | hy
        · exact h2 d
        · exact hpos y hy d
  obtain ⟨⟨c, hc⟩, hpos⟩ := key
  obtain ⟨u, r, h1, h2, h3⟩ := C134_elements hl hload hp he hpos h
  refine ⟨u, r, h1, h2, fun v hv => ?_⟩
  have := h3 v hv
  rw [hc, hc] at this
  linarith

end

/-- The plate with source 7, flux 3 and a film, heat 2 supplied at node 3: no temperature of that node gives a smaller value. -/
example : ∃ (S' : Storage ℝ) (T r : Key → ℝ), Reported S' (regKeys plateCalls) T r ∧ ∀ t,
    (HeatElem.quad ![1, 2, 3, 4] 1 5 7).functional plateGeo T + (HeatElem.line ![3, 4] 1 ⟨3, 10, ![20, 30]⟩).functional plateGeo T -
      givenWork plateCalls [⟨3, .TEMP, 2⟩] T ≤
    (HeatElem.quad ![1, 2, 3, 4] 1 5 7).functional plateGeo (fun k => if k = (.node, 3, .TEMP) then t else 1) +
      (HeatElem.line ![3, 4] 1 ⟨3, 10, ![20, 30]⟩).functional plateGeo (fun k => if k = (.node, 3, .TEMP) then t else 1) -
      givenWork plateCalls [⟨3, .TEMP, 2⟩] (fun k => if k = (.node, 3, .TEMP) then t else 1) := by
  have hs : (0 : ℝ) ≤ (⟨3, 10, ![20, 30]⟩ : Thermal.Surface).pre.htc := by simp [Thermal.Surface.pre]
  obtain ⟨S', e', h⟩ := plate_solved (k := 5) (by norm_num) 7 1 hs (loads := [⟨3, .TEMP, 2⟩]) (by simp [keyOf]; decide)
  obtain ⟨T, r, h1, _, h2⟩ := C134_heat (geo := plateGeo) (plate_legal 1) (by simp [keyOf]; decide) (plate_placed _ _ _)
    (.cons (plate_built 5 7) (.cons (side_built _) .nil)) (plate_sounds (by norm_num) 7 _) (by
      intro h hh
      simp only [List.mem_cons, List.not_mem_nil, or_false] at hh
      rcases hh with rfl | rfl
      exacts [trivial, hs]) gauss_exact h
  refine ⟨S', T, r, h1, fun t => ?_⟩
  have := h2 (fun k => if k = (.node, 3, .TEMP) then t else 1) ⟨fun k _ x hx => by
      obtain ⟨f, hf, hk, hv⟩ := lastFix_mem hx
      subst hk hv
      simp only [plateFixs, List.mem_cons, List.not_mem_nil, or_false] at hf
      rcases hf with rfl | rfl | rfl <;> simp [keyOf], fun m hm => by simp [plateStorage, Storage.fresh] at hm⟩
  simpa using this

end Nla3d.Struct
