import Verif.Trans.Heat

/-!
# C102: uniform temperature and decay
-/

noncomputable section

namespace Nla3d.Trans

open Nla3d.Dof Nla3d.Block Nla3d.Sparse Nla3d.Storage Nla3d.Solver Nla3d.Struct Finset
open scoped Matrix

variable {E : Type} {S0 : Storage ℝ} {calls : List RegCall} {new : List (Mpc ℝ)} {loads fixs : List (Bc ℝ)}
  {els caps : List (LinEl ℝ)} {update : E → Storage ℝ → E} {eqs : EqSolver ℝ} {e : E} {st : TSettings ℝ} {fuel : Nat}
  {seen : List (Nat × ℝ × TState E ℝ)} {last : Nat} {geo : Nat → Fin 3 → ℝ} {hs : List HeatElem} {bs : List Body}

/-! ## Uniform temperature -/

theorem idle_force {c : ℝ} (hels : List.Forall₂ (fun h x => h.Built geo x) hs els) (hok : ∀ h ∈ hs, h.Sound geo)
    (hidle : ∀ h ∈ hs, h.Idle c) (hp : ∀ x ∈ els, Placed S0 calls x) : ∀ x ∈ els, ∀ k, x.forceOn (fun _ => c) k = 0 := by
  induction hels with
  | nil => simp
  | @cons a x as xs hx _ ih =>
    intro y hy k
    rw [List.mem_cons] at hy
    rcases hy with rfl | hy
    · obtain ⟨m, n, M, F, e1, _, e3, _⟩ := hx.scalar (hok a (by simp)) (hp y (by simp)).symm
      have e4 := e3 c (hidle a (by simp))
      unfold LinEl.forceOn
      refine Finset.sum_eq_zero fun i hi => ?_
      have hi' : i < m := by rw [← e1.size]; exact Finset.mem_range.mp hi
      have : y.force (fun _ => c) i = 0 := by
        unfold LinEl.force
        rw [e1.size, Finset.sum_range]
        have hload := e1.load ⟨i, hi'⟩
        have hmat := fun j => e1.matrix ⟨i, hi'⟩ j
        simp only at hload hmat
        simp only [hload, hmat]
        have := congrFun e4 ⟨i, hi'⟩
        simp only [Matrix.mulVec, dotProduct] at this
        rw [this, sub_self]
      rw [this, ite_self]
    · exact ih (fun z hz => hok z (by simp [hz])) (fun z hz => hidle z (by simp [hz])) (fun z hz => hp z (by simp [hz])) y hy k

/-- **C102, uniform temperature.** Without loads and sources, in surroundings of the initial temperature, the reported temperatures stay
what they were. Prescribed temperatures are zero, so with them the initial temperature is zero, too. -/
theorem C102_uniform (hM : TransientModel S0 calls new [] fixs els caps st fuel)
    (hels : List.Forall₂ (fun h x => h.Built geo x) hs els) (hok : ∀ h ∈ hs, h.Sound geo) (hidle : ∀ h ∈ hs, h.Idle st.initValue)
    (hzero : fixs ≠ [] → st.initValue = 0) (hc1 : NotTiny (st.initValue / (st.alpha * stepOf st * stepOf st)))
    (hc2 : NotTiny (st.delta / (st.alpha * stepOf st) * st.initValue))
    (h : transientSolve Gauss.solveEquations (evolving els caps update) [] fixs st calls new S0 e fuel = some (.ok (seen, last))) :
    seen.length = st.n ∧ ∀ (i : Nat) (p : Nat × ℝ × TState E ℝ), seen[i]? = some p → ∀ m d, (Side.node, m, d) ∈ regKeys calls →
      Post.solution p.2.2.S .node m d = .ok st.initValue := by
  have := C102_unique (T' := fun _ _ => st.initValue) (V' := fun _ _ => 0) (A' := fun _ _ => 0) hM h ?_ ?_ ?_
  · exact ⟨this.steps, this.reported⟩
  · refine ⟨fun _ _ _ => rfl, fun _ _ => ⟨rfl, rfl⟩, ?_, ?_⟩
    · intro i _ k _ hf
      apply hzero
      rintro rfl
      simp [fixKeys] at hf
    · intro i _ k _
      unfold NewmarkU newmarkV
      constructor <;> ring
  · intro i _ k _ _
    rw [caps_zero, zero_add]
    have : (els.map fun x => x.forceOn (fun _ => st.initValue) k).sum = 0 := by
      refine List.sum_eq_zero fun y hy => ?_
      obtain ⟨x, hx, rfl⟩ := List.mem_map.mp hy
      exact idle_force hels hok hidle hM.placed x hx k
    rw [this]
    rfl
  · intro i _ k _ _
    simp only [zero_div, mul_zero, add_zero]
    exact ⟨hc1, hc2⟩

/-! ## Decay -/

/-- The form of the capacities. -/
def capForm (caps : List (LinEl ℝ)) (δ V : Key → ℝ) : ℝ := (caps.map fun x => capWork x δ V).sum

theorem capForm_sum (hc : ∀ x ∈ caps, Placed S0 calls x) (δ V : Key → ℝ) :
    ∑ k ∈ (regKeys calls).toFinset, δ k * (caps.map fun x => capOn x V k).sum = capForm caps δ V := by
  unfold capForm
  simp only [← List.sum_map_mul_left]
  rw [sum_list]
  exact congrArg List.sum (List.map_congr_left fun x hx => sum_capOn (fun a ha => localKey_reg (hc x hx).on ha) δ V)

/-- The form is the integral of the product. -/
theorem capForm_eq (hcaps : List.Forall₂ (fun b x => b.Built geo x) bs caps) (hokc : ∀ b ∈ bs, b.Sound geo)
    (hc : ∀ x ∈ caps, Placed S0 calls x) (δ V : Key → ℝ) :
    capForm caps δ V = (bs.map fun b => ((Iso.quad.table (Iso.schemeIndex b.o)).map fun q => q.w *
      (Iso.jac Iso.quad (plane geo b.n) q.xi).det * (b.rho * b.c * ((∑ a, Iso.quad.formFunc q.xi a * temp δ (b.n a)) *
        ∑ a, Iso.quad.formFunc q.xi a * temp V (b.n a)))).sum).sum := by
  unfold capForm
  induction hcaps with
  | nil => rfl
  | @cons b x bs xs hx _ ih =>
    simp only [List.map_cons, List.sum_cons]
    rw [ih (fun y hy => hokc y (by simp [hy])) (fun y hy => hc y (by simp [hy])), hx.work (hokc b (by simp)) (hc x (by simp)).symm]

theorem capForm_comm (hcaps : List.Forall₂ (fun b x => b.Built geo x) bs caps) (hokc : ∀ b ∈ bs, b.Sound geo)
    (hc : ∀ x ∈ caps, Placed S0 calls x) (u v : Key → ℝ) : capForm caps u v = capForm caps v u := by
  rw [capForm_eq hcaps hokc hc, capForm_eq hcaps hokc hc]
  refine congrArg List.sum (List.map_congr_left fun b _ => congrArg List.sum (List.map_congr_left fun q _ => ?_))
  ring

theorem capForm_square (hcaps : List.Forall₂ (fun b x => b.Built geo x) bs caps) (hokc : ∀ b ∈ bs, b.Sound geo)
    (hc : ∀ x ∈ caps, Placed S0 calls x) (v : Key → ℝ) : capForm caps v v = square geo bs v := by
  rw [capForm_eq hcaps hokc hc]
  unfold square Body.integral
  refine congrArg List.sum (List.map_congr_left fun b _ => congrArg List.sum (List.map_congr_left fun q _ => ?_))
  ring

theorem square_nonneg (hokc : ∀ b ∈ bs, b.Sound geo) (v : Key → ℝ) : 0 ≤ square geo bs v := by
  unfold square
  refine List.sum_nonneg fun y hy => ?_
  obtain ⟨b, hb, rfl⟩ := List.mem_map.mp hy
  unfold Body.integral
  refine List.sum_nonneg fun z hz => ?_
  obtain ⟨q, hq, rfl⟩ := List.mem_map.mp hz
  obtain ⟨h1, h2, h3⟩ := hokc b hb
  exact mul_nonneg (mul_nonneg (Thermal.table_pos _ q hq).le (h1 q hq).le) (mul_nonneg (mul_nonneg h2 h3) (sq_nonneg _))

theorem capWork_sub (x : LinEl ℝ) (δ u v : Key → ℝ) : capWork x δ (fun k => u k - v k) = capWork x δ u - capWork x δ v := by
  unfold capWork LinEl.work LinEl.force LinEl.load
  simp only [sub_zero, mul_sub, Finset.sum_sub_distrib]

theorem capWork_left (x : LinEl ℝ) (u v w : Key → ℝ) : capWork x (fun k => u k + v k) w = capWork x u w + capWork x v w := by
  unfold capWork LinEl.work
  simp only [add_mul, Finset.sum_add_distrib]

theorem capForm_sub (caps : List (LinEl ℝ)) (δ u v : Key → ℝ) : capForm caps δ (fun k => u k - v k) = capForm caps δ u - capForm caps δ v := by
  unfold capForm
  simp only [capWork_sub]
  exact sum_map_sub _ _ _

theorem capForm_left (caps : List (LinEl ℝ)) (u v w : Key → ℝ) : capForm caps (fun k => u k + v k) w = capForm caps u w + capForm caps v w := by
  unfold capForm
  simp only [capWork_left]
  exact List.sum_map_add

/-- Conduction takes heat from hot to cold. -/
theorem conduction (hels : List.Forall₂ (fun h x => h.Built geo x) hs els) (hok : ∀ h ∈ hs, h.Sound geo)
    (hquad : ∀ h ∈ hs, ∃ n o k, h = .quad n o k 0) (hp : ∀ x ∈ els, Placed S0 calls x) (u v : Key → ℝ) :
    0 ≤ ∑ k ∈ (regKeys calls).toFinset, (u k + v k) * ((els.map fun x => x.forceOn u k).sum + (els.map fun x => x.forceOn v k).sum) ∧
    0 ≤ ∑ k ∈ (regKeys calls).toFinset, u k * (els.map fun x => x.forceOn u k).sum := by
  have hw : ∀ δ w : Key → ℝ, ∑ k ∈ (regKeys calls).toFinset, δ k * (els.map fun x => x.forceOn w k).sum = (els.map fun x => x.work δ w).sum := by
    intro δ w
    simp only [← List.sum_map_mul_left]
    rw [sum_list]
    exact congrArg List.sum (List.map_congr_left fun x hx => work_forceOn (fun a ha => localKey_reg (hp x hx).on ha) δ w)
  have e1 : ∑ k ∈ (regKeys calls).toFinset, (u k + v k) * ((els.map fun x => x.forceOn u k).sum + (els.map fun x => x.forceOn v k).sum) =
      (els.map fun x => x.work (fun k => u k + v k) u + x.work (fun k => u k + v k) v).sum := by
    rw [List.sum_map_add, ← hw, ← hw, ← Finset.sum_add_distrib]
    exact Finset.sum_congr rfl fun k _ => mul_add _ _ _
  rw [e1, hw]
  clear hw e1
  induction hels with
  | nil => simp
  | @cons a x as xs hx _ ih =>
    obtain ⟨i1, i2⟩ := ih (fun y hy => hok y (by simp [hy])) (fun y hy => hquad y (by simp [hy])) (fun y hy => hp y (by simp [hy]))
    obtain ⟨m, n, M, F, e1, _, _, e4⟩ := hx.scalar (hok a (by simp)) (hp x (by simp)).symm
    obtain ⟨n', o, k, ha⟩ := hquad a (by simp)
    obtain ⟨e5, e6⟩ := e4 ⟨0, by rw [ha]; rfl⟩ ⟨n', o, k, 0, ha⟩
    have hpos : ∀ w : Key → ℝ, 0 ≤ (fun a => temp w (n a)) ⬝ᵥ (M *ᵥ fun a => temp w (n a)) := by
      intro w
      have := e5.dotProduct_mulVec_nonneg fun a => temp w (n a)
      rwa [star_trivial] at this
    simp only [List.map_cons, List.sum_cons]
    refine ⟨add_nonneg ?_ i1, add_nonneg ?_ i2⟩
    · rw [e1.work, e1.work, e6, sub_zero, sub_zero, ← dotProduct_add, ← Matrix.mulVec_add]
      exact hpos fun k => u k + v k
    · rw [e1.work, e6, sub_zero]
      exact hpos u

/-- **C102, decay.** Conduction only: no loads, sources and surfaces, prescribed temperatures zero. With the default `alpha = 1/4` the
integral of density times specific heat times the square of the temperature does not grow from one report to the next, whatever the
length of the step. -/
theorem C102_decay (hM : TransientModel S0 calls new [] fixs els caps st fuel) (he : Exact eqs) (ha : st.alpha = 1 / 4)
    (hels : List.Forall₂ (fun h x => h.Built geo x) hs els) (hok : ∀ h ∈ hs, h.Sound geo) (hquad : ∀ h ∈ hs, ∃ n o k, h = .quad n o k 0)
    (hcaps : List.Forall₂ (fun b x => b.Built geo x) bs caps) (hokc : ∀ b ∈ bs, b.Sound geo)
    (h : transientSolve eqs (evolving els caps update) [] fixs st calls new S0 e fuel = some (.ok (seen, last))) :
    ∃ T V A : Nat → Key → ℝ, Traced (regKeys calls) fixs st seen T V A ∧ (AllClear (regKeys calls) fixs st T V A →
      ∀ i < st.n, square geo bs (T (i + 1)) ≤ square geo bs (T i)) := by
  obtain ⟨T, V, A, h1, h2⟩ := C102_trapezoid_partial hM he ha h
  refine ⟨T, V, A, h1, fun hc i hi => ?_⟩
  have h3 := h2 hc
  have hdt : 0 < stepOf st := by
    have : (0 : ℝ) < st.n := by exact_mod_cast hM.steps
    exact div_pos (by linarith [hM.time]) this
  have hfix := h1.history.fixed
  have hl : ∀ k, loadsOn k ([] : List (Bc ℝ)) = 0 := fun _ => rfl
  have hT : ∀ v, capForm caps v v = square geo bs v := capForm_square hcaps hokc hM.placedCaps
  rcases Nat.eq_zero_or_pos i with rfl | i1
  · have h4 : ∑ k ∈ (regKeys calls).toFinset, (T 1 k * (caps.map fun x => capOn x (fun k => T 1 k - T 0 k) k).sum +
        stepOf st / 2 * (T 1 k * (els.map fun x => x.forceOn (T 1) k).sum)) = 0 := by
      refine Finset.sum_eq_zero fun k hk => ?_
      have hk := List.mem_toFinset.mp hk
      by_cases hf : k ∈ fixKeys fixs
      · rw [hfix 1 (by omega) k hk hf]; ring
      · have h5 := (h3 k hk hf).1
        unfold Implicit at h5
        rw [hl, mul_zero] at h5
        linear_combination T 1 k * h5
    rw [Finset.sum_add_distrib, capForm_sum hM.placedCaps, ← Finset.mul_sum, capForm_sub, hT] at h4
    have h6 := (conduction hels hok hquad hM.placed (T 1) (T 1)).2
    have h7 : 0 ≤ stepOf st / 2 * ∑ k ∈ (regKeys calls).toFinset, T 1 k * (els.map fun x => x.forceOn (T 1) k).sum :=
      mul_nonneg (by linarith) h6
    have h8 := square_nonneg hokc fun k => T 1 k - T 0 k
    rw [← hT, capForm_sub, capForm_comm hcaps hokc hM.placedCaps, capForm_comm hcaps hokc hM.placedCaps _ (T 0), capForm_sub, capForm_sub,
      capForm_comm hcaps hokc hM.placedCaps (T 0) (T 1), hT, hT] at h8
    simp only [zero_add]
    linarith
  · have h4 : ∑ k ∈ (regKeys calls).toFinset, ((T i k + T (i + 1) k) * (caps.map fun x => capOn x (fun k => T (i + 1) k - T i k) k).sum +
        stepOf st / 2 * ((T i k + T (i + 1) k) * ((els.map fun x => x.forceOn (T i) k).sum + (els.map fun x => x.forceOn (T (i + 1)) k).sum))) = 0 := by
      refine Finset.sum_eq_zero fun k hk => ?_
      have hk := List.mem_toFinset.mp hk
      by_cases hf : k ∈ fixKeys fixs
      · rw [hfix i (by omega) k hk hf, hfix (i + 1) (by omega) k hk hf]; ring
      · have h5 := (h3 k hk hf).2 i i1 hi
        unfold Trapezoid at h5
        rw [hl, mul_zero] at h5
        linear_combination (T i k + T (i + 1) k) * h5
    rw [Finset.sum_add_distrib, capForm_sum hM.placedCaps (fun k => T i k + T (i + 1) k), ← Finset.mul_sum, capForm_left, capForm_sub,
      capForm_sub, hT, hT, capForm_comm hcaps hokc hM.placedCaps (T i) (T (i + 1))] at h4
    have h7 : 0 ≤ stepOf st / 2 * ∑ k ∈ (regKeys calls).toFinset, (T i k + T (i + 1) k) *
        ((els.map fun x => x.forceOn (T i) k).sum + (els.map fun x => x.forceOn (T (i + 1)) k).sum) :=
      mul_nonneg (by linarith) (conduction hels hok hquad hM.placed (T i) (T (i + 1))).1
    linarith

end Nla3d.Trans
