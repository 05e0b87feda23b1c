import Verif.Struct.Sample
import Verif.Thermal.Props

/-!
# Heat conduction in a solved model

Quadrilaterals with sources (QUADTH), lines with flux and convection (SurfaceLINETH), tetrahedra (TETRA1).
-/

noncomputable section

namespace Nla3d.Struct

open Nla3d.Dof Nla3d.Block Nla3d.Sparse Nla3d.Storage Nla3d.Solver Finset
open scoped Matrix

/-! ## Specification -/

/-- The temperature of a node. -/
def temp (T : Key → ℝ) (n : Nat) : ℝ := T (.node, n, .TEMP)

/-- The positions of the nodes of a plane element. -/
def plane (geo : Nat → Fin 3 → ℝ) (n : Fin 4 → Nat) : Fin 4 → Fin 2 → ℝ := fun a i => geo (n a) i.castSucc

/-- A quadrilateral with conductivity and volume source, or a line with flux and convection; with the integration order. -/
inductive HeatElem where
  | quad (n : Fin 4 → Nat) (o : Nat) (k source : ℝ)
  | line (n : Fin 2 → Nat) (o : Nat) (s : Thermal.Surface)

/-- What the element hands over is what `buildK` computes. -/
def HeatElem.Built (geo : Nat → Fin 3 → ℝ) : HeatElem → LinEl ℝ → Prop
  | .quad n o k source, x => x.nodes = List.ofFn n ∧ x.dofs = [.TEMP] ∧ ∃ g F f,
      Iso.makeJacob Iso.quad o (plane geo n) = .ok g ∧ Thermal.quadK g k source = .ok ((packed 4).map fun p => x.Ke p.1 p.2, F) ∧
      x.Fe = some f ∧ ∀ a : Fin 4, f a = F a
  | .line n o s, x => x.nodes = List.ofFn n ∧ x.dofs = [.TEMP] ∧ ∃ f,
      Thermal.surfaceK (Iso.lineJacob o fun a => geo (n a)) s.pre = .ok ((packed 2).map fun p => x.Ke p.1 p.2, (List.range 2).map f) ∧
      x.Fe = some f

/-- Sound geometry; conductivity not negative. -/
def HeatElem.Sound (geo : Nat → Fin 3 → ℝ) : HeatElem → Prop
  | .quad n o k _ => (∀ q ∈ Iso.quad.table (Iso.schemeIndex o), 0 < (Iso.jac Iso.quad (plane geo n) q.xi).det) ∧ 0 ≤ k
  | .line n _ _ => geo (n 0) ≠ geo (n 1)

/-- The heat an element brings into the body at the temperatures `T`: source times volume; flux plus film coefficient times
the difference to the ambient temperature, integrated over the line by the quadrature of the element. -/
def HeatElem.Gain (geo : Nat → Fin 3 → ℝ) (T : Key → ℝ) : HeatElem → ℝ → Prop
  | .quad n o _ source, G => ∃ g V, Iso.makeJacob Iso.quad o (plane geo n) = .ok g ∧ Iso.volume Iso.quad g = .ok V ∧ G = source * V
  | .line n o s, G => G = ((Iso.line.table (Iso.schemeIndex o)).map fun q => q.w * (Iso.lineJacob o fun a => geo (n a)).det *
      (s.pre.flux + s.pre.htc * ∑ b, Iso.line.formFunc q.xi b * (s.pre.etemp b - temp T (n b)))).sum

/-- Nothing drives the element from the uniform temperature `c`. -/
def HeatElem.Idle (c : ℝ) : HeatElem → Prop
  | .quad _ _ _ source => source = 0
  | .line _ _ s => s.pre.flux = 0 ∧ ∀ b, s.pre.etemp b = c

/-! ## Elements with one temperature per node -/

/-- An element with the matrix `M` and the load `F`. -/
structure Scalar (x : LinEl ℝ) {m : Nat} (n : Fin m → Nat) (M : Matrix (Fin m) (Fin m) ℝ) (F : Fin m → ℝ) : Prop where
  nodes : x.nodes = List.ofFn n
  dofs : x.dofs = [.TEMP]
  matrix : ∀ i j : Fin m, x.Ke i j = M i j
  load : ∀ i : Fin m, x.load i = F i

section scalar
variable {x : LinEl ℝ} {m : Nat} {n : Fin m → Nat} {M : Matrix (Fin m) (Fin m) ℝ} {F : Fin m → ℝ}

theorem Scalar.size (h : Scalar x n M F) : x.n = m := by
  unfold LinEl.n
  rw [h.nodes, h.dofs, List.length_ofFn]
  simp

theorem Scalar.key (h : Scalar x n M F) (j : Fin m) : localKey x.nodes x.dofs j = (.node, n j, .TEMP) := by
  unfold localKey
  rw [h.nodes, h.dofs]
  refine Prod.ext rfl (Prod.ext ?_ ?_)
  · show (List.ofFn n).getD (j.val / 1) 0 = _
    rw [Nat.div_one, List.getD_eq_getElem?_getD, List.getElem?_ofFn, dif_pos j.2]
    rfl
  · show [DofType.TEMP].getD (j.val % 1) .UNDEFINED = _
    rw [Nat.mod_one]
    rfl

theorem Scalar.work (h : Scalar x n M F) (δ T : Key → ℝ) :
    x.work δ T = (fun a => temp δ (n a)) ⬝ᵥ (M *ᵥ (fun a => temp T (n a)) - F) := by
  unfold LinEl.work LinEl.force
  rw [h.size, Finset.sum_range]
  simp only [h.key, h.load, Finset.sum_range, h.matrix]
  rfl

theorem matrix_of_pack (hx : x.n = m) (hs : ∀ a < x.n, ∀ b < x.n, x.Ke a b = x.Ke b a) (hM : M.IsSymm)
    (h : Dense.pack M = (packed m).map fun p => x.Ke p.1 p.2) (i j : Fin m) : x.Ke i j = M i j := by
  have hup : ∀ i j : Fin m, i ≤ j → x.Ke i j = M i j := by
    intro i j hij
    have h2 : (packed m).map (fun p => Dense.ext M p.1 p.2) = (packed m).map fun p => x.Ke p.1 p.2 := h
    have h3 := List.map_inj_left.mp h2 (i.val, j.val) (mem_packed.mpr ⟨hij, j.2⟩)
    simp only [Dense.ext_fin] at h3
    exact h3.symm
  by_cases hij : i ≤ j
  · exact hup i j hij
  · rw [hs i (by omega) j (by omega), hup j i (by omega)]
    exact hM.apply i j

end scalar

/-- The matrix and load of the elements. -/
theorem HeatElem.Built.scalar {geo : Nat → Fin 3 → ℝ} {h : HeatElem} {x : LinEl ℝ} (hb : h.Built geo x) (hok : h.Sound geo)
    (hs : ∀ a < x.n, ∀ b < x.n, x.Ke a b = x.Ke b a) :
    ∃ (m : Nat) (n : Fin m → Nat) (M : Matrix (Fin m) (Fin m) ℝ) (F : Fin m → ℝ), Scalar x n M F ∧
      (∀ T : Key → ℝ, h.Gain geo T (-∑ a, (M *ᵥ (fun a => temp T (n a)) - F) a)) ∧
      (∀ c, h.Idle c → M *ᵥ (fun _ => c) = F) ∧ ((∃ c, h.Idle c) → (∃ n o k f, h = .quad n o k f) → M.PosSemidef ∧ F = 0) := by
  cases h with
  | quad n o k source =>
    obtain ⟨h1, h2, g, F, f, h3, h4, h5, h6⟩ := hb
    obtain ⟨hj, hk⟩ := hok
    obtain ⟨g', V, K, F', e1, e2, e3, hsym, hpsd, hu, _, hF⟩ := Thermal.C36_conductivity o (plane geo n) hj hk source
    rw [h3, Res.ok.injEq] at e1
    subst e1
    rw [h4, Res.ok.injEq, Prod.mk.injEq] at e3
    have hn : x.n = 4 := by unfold LinEl.n; rw [h1, h2]; rfl
    have hzero : source = 0 → F' = 0 := by
      intro h0
      obtain ⟨g', e4, _, e5⟩ := Iso.makeJacob_good (S := Iso.quad) (o := o) (pos := plane geo n) (fun q hq => (hj q hq).ne')
      rw [h3, Res.ok.injEq] at e4
      subst e4
      have := Thermal.quadK_eq e5 k source
      rw [h4, Res.ok.injEq, Prod.mk.injEq] at this
      rw [← e3.2, this.2]
      refine Thermal.sum_induct (fun F : Fin 4 → ℝ => F = 0) rfl (by rintro a b rfl rfl; simp) _ _ ?_
      intro q _
      funext a
      simp [Thermal.loadPt, h0]
    refine ⟨4, n, K, F', ⟨h1, h2, fun i j => matrix_of_pack hn hs hsym e3.1.symm i j, ?_⟩, ?_, ?_, ?_⟩
    · intro i
      unfold LinEl.load
      rw [h5, ← e3.2]
      exact h6 i
    · intro T
      refine ⟨g, V, h3, e2, ?_⟩
      have h7 : ∑ a, (K *ᵥ fun a => temp T (n a)) a = 0 := by
        have := hu 1
        have h8 : (fun _ => (1 : ℝ)) ⬝ᵥ (K *ᵥ fun a => temp T (n a)) = 0 := by
          rw [Matrix.dotProduct_mulVec, ← Matrix.mulVec_transpose, hsym.eq, this, zero_dotProduct]
        simpa [dotProduct] using h8
      simp only [Pi.sub_apply, Finset.sum_sub_distrib, h7, hF]
      ring
    · intro c hc
      rw [hu c, hzero hc]
    · rintro ⟨c, hc⟩ _
      exact ⟨hpsd, hzero hc⟩
  | line n o s =>
    obtain ⟨h1, h2, f, h4, h5⟩ := hb
    have hd : 0 < (Iso.lineJacob o fun a => geo (n a)).det := by
      have := Iso.length_pos hok
      show 0 < Iso.length (fun i => geo (n 1) i - geo (n 0) i) * 0.5
      positivity
    have e3 := Thermal.surfaceK_eq hd s.pre
    rw [h4, Res.ok.injEq, Prod.mk.injEq] at e3
    have hn : x.n = 2 := by unfold LinEl.n; rw [h1, h2]; rfl
    have hsym : (((Iso.line.table (Iso.lineJacob o fun a => geo (n a)).scheme).map
        (Thermal.convPt s.pre.htc (Iso.lineJacob o fun a => geo (n a)).det)).sum).IsSymm := by
      apply Thermal.sum_induct (fun K : Matrix (Fin 2) (Fin 2) ℝ => K.IsSymm)
      · exact Matrix.isSymm_zero
      · intro a b ha hb; exact ha.add hb
      · intro q _; exact Thermal.convPt_symm _ _ q
    refine ⟨2, n, _, ?_, ⟨h1, h2, fun i j => matrix_of_pack hn hs hsym e3.1.symm i j, ?_⟩, ?_, ?_, ?_⟩
    · exact ((Iso.line.table (Iso.lineJacob o fun a => geo (n a)).scheme).map
          (Thermal.fluxPt s.pre.flux (Iso.lineJacob o fun a => geo (n a)).det)).sum +
        ((Iso.line.table (Iso.lineJacob o fun a => geo (n a)).scheme).map
          (Thermal.convPt s.pre.htc (Iso.lineJacob o fun a => geo (n a)).det)).sum *ᵥ s.pre.etemp
    · intro i
      unfold LinEl.load
      rw [h5]
      have := congrArg (fun l => l[i.val]?) e3.2
      simp only [List.getElem?_ofFn, List.getElem?_map, List.getElem?_range i.2] at this
      rw [dif_pos i.2, Option.map_some, Option.some.injEq] at this
      exact this
    · intro T
      unfold HeatElem.Gain
      show _ = ((Iso.line.table (Iso.lineJacob o fun a => geo (n a)).scheme).map _).sum
      generalize Iso.line.table (Iso.lineJacob o fun a => geo (n a)).scheme = qs
      generalize (Iso.lineJacob o fun a => geo (n a)).det = d
      rw [add_comm, ← sub_sub, ← Matrix.mulVec_sub]
      induction qs with
      | nil => simp
      | cons q qs ih =>
        simp only [List.map_cons, List.sum_cons, Matrix.add_mulVec] at ih ⊢
        rw [← ih]
        have hone := Iso.C34_line.sum_one q.xi
        rw [Fin.sum_univ_two] at hone
        simp only [Fin.sum_univ_two, Pi.sub_apply, Pi.add_apply, Matrix.mulVec, dotProduct, Thermal.convPt, Thermal.fluxPt, Matrix.of_apply]
        have hN : Iso.line.formFunc q.xi 1 = 1 - Iso.line.formFunc q.xi 0 := by linarith
        rw [hN]
        ring

    · rintro c ⟨hf, he⟩
      have e1 : s.pre.etemp = fun _ => c := funext he
      rw [e1]
      refine (zero_add _).symm.trans (congrArg (· + _) (Eq.symm ?_))
      refine Thermal.sum_induct (fun F : Fin 2 → ℝ => F = 0) rfl (by rintro a b rfl rfl; simp) _ _ ?_
      intro q _
      funext a
      simp [Thermal.fluxPt, hf]
    · rintro _ ⟨_, _, _, _, h⟩
      simp at h

section
variable {E : Type} {S0 S' : Storage ℝ} {calls : List RegCall} {new : List (Mpc ℝ)} {loads fixs : List (Bc ℝ)}
  {els : List (LinEl ℝ)} {update : E → Storage ℝ → E} {eqs : EqSolver ℝ} {e e' : E}

/-- **C87, balance of heat.** The heat supplied at the DoFs (reported values: loads and reactions) and that gained by the elements
through sources and surfaces at the reported temperatures add up to zero. Constraint equations must admit uniform temperature
changes. -/
theorem C87_balance {geo : Nat → Fin 3 → ℝ} {hs : List HeatElem}
    (hl : LegalModel S0 calls new (fixKeys fixs)) (hload : ∀ l ∈ loads, keyOf l ∈ regKeys calls) (hp : ∀ x ∈ els, Placed S0 calls x)
    (hels : List.Forall₂ (fun h x => h.Built geo x) hs els) (hok : ∀ h ∈ hs, h.Sound geo)
    (hfix : ∀ f ∈ fixs, f.value = 0 ∨ (1 / 10 ^ 20 : ℝ) < |f.value|) (he : Exact eqs)
    (h : linearSolve eqs (linear els update) loads fixs calls new S0 e = .ok (S', e'))
    (hmpc : ∀ m ∈ S0.mpcs ++ new, (m.eq.map fun q => q.coef).sum = 0) :
    ∃ T r : Key → ℝ, Reported S' (regKeys calls) T r ∧ Meets S0 calls new loads fixs T r ∧
      ∃ G : List ℝ, List.Forall₂ (fun h g => h.Gain geo T g) hs G ∧ ∑ k ∈ (regKeys calls).toFinset, r k + G.sum = 0 := by
  obtain ⟨T, r, h1, h2, h3⟩ := C84_virtual_work hl hload hp hfix he h
  refine ⟨T, r, h1, h2, ?_⟩
  have hv := h3 (fun _ => 1) (fun m hm => by simpa using hmpc m hm)
  simp only [one_mul] at hv
  rw [hv]
  clear h h1 h2 h3 hload hv
  induction hels with
  | nil => exact ⟨[], .nil, by simp⟩
  | @cons a x as xs hx _ ih =>
    obtain ⟨G, g1, g2⟩ := ih (fun y hy => hp y (by simp [hy])) (fun y hy => hok y (by simp [hy]))
    obtain ⟨m, n, M, F, e1, e2, _⟩ := hx.scalar (hok a (by simp)) (hp x (by simp)).symm
    refine ⟨_ :: G, .cons (e2 T) g1, ?_⟩
    rw [List.map_cons, List.sum_cons, List.sum_cons, e1.work]
    have : (fun a => temp (fun _ => 1) (n a)) ⬝ᵥ (M *ᵥ (fun a => temp T (n a)) - F) = ∑ a, (M *ᵥ (fun a => temp T (n a)) - F) a := by
      simp [dotProduct, temp]
    rw [this]
    linarith

/-- **C87, uniform temperature.** Without loads and sources, in surroundings of temperature `c` and with `c` prescribed at
some nodes, the reported temperature is `c` everywhere and no heat flows. -/
theorem C87_uniform {geo : Nat → Fin 3 → ℝ} {hs : List HeatElem} {c : ℝ}
    (hl : LegalModel S0 calls new (fixKeys fixs)) (hp : ∀ x ∈ els, Placed S0 calls x)
    (hels : List.Forall₂ (fun h x => h.Built geo x) hs els) (hok : ∀ h ∈ hs, h.Sound geo) (hidle : ∀ h ∈ hs, h.Idle c)
    (hc : c = 0 ∨ (1 / 10 ^ 20 : ℝ) < |c|) (hfix : ∀ f ∈ fixs, f.value = c)
    (hmpc : ∀ m ∈ S0.mpcs ++ new, (m.eq.map fun q => q.coef * c).sum = m.b)
    (h : linearSolve Gauss.solveEquations (linear els update) [] fixs calls new S0 e = .ok (S', e')) :
    ∀ n d, (Side.node, n, d) ∈ regKeys calls → Post.solution S' .node n d = .ok c ∧ Post.reaction S' n d = .ok 0 := by
  have hmeets : Meets S0 calls new [] fixs (fun _ => c) (fun _ => 0) := by
    refine ⟨?_, ?_, hmpc⟩
    · intro k _ x hx
      obtain ⟨f, hf, _, e2⟩ := lastFix_mem hx
      rw [← e2, hfix f hf]
    · intro k _ _
      rfl
  have hforce : ∀ x ∈ els, ∀ k, x.forceOn (fun _ => c) k = 0 := by
    clear h
    induction hels with
    | nil => simp
    | @cons a x as xs hx _ ih =>
      intro y hy k
      rw [List.mem_cons] at hy
      rcases hy with rfl | hy
      · obtain ⟨m, n, M, F, e1, _, e3, _⟩ := hx.scalar (hok a (by simp)) (hp y (by simp)).symm
        have e4 := e3 c (hidle a (by simp))
        unfold LinEl.forceOn
        refine Finset.sum_eq_zero fun i hi => ?_
        have hi' : i < m := by rw [← e1.size]; exact Finset.mem_range.mp hi
        have : y.force (fun _ => c) i = 0 := by
          unfold LinEl.force
          rw [e1.size, Finset.sum_range]
          have hload := e1.load ⟨i, hi'⟩
          have hmat := fun j => e1.matrix ⟨i, hi'⟩ j
          simp only at hload hmat
          simp only [hload, hmat]
          have := congrFun e4 ⟨i, hi'⟩
          simp only [Matrix.mulVec, dotProduct] at this
          rw [this, sub_self]
        rw [this, ite_self]
      · exact ih (fun z hz => hp z (by simp [hz])) (fun z hz => hok z (by simp [hz])) (fun z hz => hidle z (by simp [hz])) y hy k
  have hbal : Balanced calls els (S0.mpcs ++ new) (List.replicate (S0.mpcs ++ new).length 0) (fun _ => c) (fun _ => 0) := by
    intro k _
    have e1 : (els.map fun x => x.forceOn (fun _ => c) k).sum = 0 := by
      refine List.sum_eq_zero fun y hy => ?_
      obtain ⟨x, hx, rfl⟩ := List.mem_map.mp hy
      exact hforce x hx k
    have e2 : conForce (S0.mpcs ++ new) (List.replicate (S0.mpcs ++ new).length 0) k = 0 := by
      unfold conForce
      refine List.sum_eq_zero fun y hy => ?_
      obtain ⟨p, hp', rfl⟩ := List.mem_map.mp hy
      rw [List.eq_of_mem_replicate (List.of_mem_zip hp').2, zero_mul]
    rw [e1, e2, add_zero]
  obtain ⟨u, r, h1, _, h2⟩ := C85_unique hl (by simp) hp (fun f hf => by rw [hfix f hf]; exact hc) h (by simp) hmeets hbal
  intro n d hk
  obtain ⟨e1, e2⟩ := h2 _ hk
  rw [h1.solution n d hk, h1.reaction n d hk, e1, e2]
  exact ⟨rfl, rfl⟩

/-- **C87, heat flows from hot to cold.** In quadrilaterals without sources the supplied heat times temperature is not negative:
with one heated node and the others at zero or free, the heated node does not get colder. -/
theorem C87_direction {geo : Nat → Fin 3 → ℝ} {hs : List HeatElem}
    (hl : LegalModel S0 calls new (fixKeys fixs)) (hload : ∀ l ∈ loads, keyOf l ∈ regKeys calls) (hp : ∀ x ∈ els, Placed S0 calls x)
    (hels : List.Forall₂ (fun h x => h.Built geo x) hs els) (hok : ∀ h ∈ hs, h.Sound geo)
    (hquad : ∀ h ∈ hs, ∃ n o k, h = .quad n o k 0)
    (hfix : ∀ f ∈ fixs, f.value = 0 ∨ (1 / 10 ^ 20 : ℝ) < |f.value|) (he : Exact eqs)
    (h : linearSolve eqs (linear els update) loads fixs calls new S0 e = .ok (S', e')) (hb : ∀ m ∈ S0.mpcs ++ new, m.b = 0) :
    ∃ T r : Key → ℝ, Reported S' (regKeys calls) T r ∧ Meets S0 calls new loads fixs T r ∧
      0 ≤ ∑ k ∈ (regKeys calls).toFinset, T k * r k := by
  obtain ⟨T, r, h1, h2, h3⟩ := C84_virtual_work hl hload hp hfix he h
  refine ⟨T, r, h1, h2, ?_⟩
  rw [h3 T fun m hm => by rw [h2.constraints m hm, hb m hm]]
  clear h h1 h2 h3 hload
  induction hels with
  | nil => simp
  | @cons a x as xs hx _ ih =>
    rw [List.map_cons, List.sum_cons]
    refine add_nonneg ?_ (ih (fun y hy => hp y (by simp [hy])) (fun y hy => hok y (by simp [hy])) (fun y hy => hquad y (by simp [hy])))
    obtain ⟨m, n, M, F, e1, _, _, e4⟩ := hx.scalar (hok a (by simp)) (hp x (by simp)).symm
    obtain ⟨n', o, k, ha⟩ := hquad a (by simp)
    obtain ⟨e5, e6⟩ := e4 ⟨0, by rw [ha]; rfl⟩ ⟨n', o, k, 0, ha⟩
    rw [e1.work, e6, sub_zero]
    have := e5.dotProduct_mulVec_nonneg fun a => temp T (n a)
    rwa [star_trivial] at this

/-! ## Tetrahedra -/

/-- An element of type TETRA1 with conductivity `k`: the matrix handed over is the one `buildK` computes. -/
structure HeatTetra (geo : Nat → Fin 3 → ℝ) (n : Fin 4 → Nat) (k : ℝ) (x : LinEl ℝ) : Prop where
  nodes : x.nodes = List.ofFn n
  dofs : x.dofs = [.TEMP]
  built : ∃ vol, Tetra.buildK1 (fun a => geo (n a)) k = .ok (vol, (packed 4).map fun p => x.Ke p.1 p.2)
  noLoad : x.Fe = none

theorem HeatTetra.scalar {geo : Nat → Fin 3 → ℝ} {n : Fin 4 → Nat} {k : ℝ} {x : LinEl ℝ} (h : HeatTetra geo n k x)
    (hd : 0 < (Tetra.matS fun a => geo (n a)).det) (hk : 0 ≤ k) (hs : ∀ a < x.n, ∀ b < x.n, x.Ke a b = x.Ke b a) :
    ∃ M : Matrix (Fin 4) (Fin 4) ℝ, Scalar x n M 0 ∧ (∀ T : ℝ, M *ᵥ (fun _ => T) = 0) ∧ (-M).PosSemidef := by
  obtain ⟨vol, h1⟩ := h.built
  obtain ⟨vol', K, e1, e2, e3, e4⟩ := Tetra.C40_partial hd hk
  rw [h1, Res.ok.injEq, Prod.mk.injEq] at e1
  have hn : x.n = 4 := by unfold LinEl.n; rw [h.nodes, h.dofs]; rfl
  refine ⟨K, ⟨h.nodes, h.dofs, fun i j => matrix_of_pack hn hs e2 e1.2.symm i j, ?_⟩, e3, e4⟩
  intro i
  unfold LinEl.load
  rw [h.noLoad]
  rfl

/-- C87 for tetrahedra, the part that holds: the supplied heat adds up to zero. Missing: the direction, see
`C87_tetra_violated`. -/
theorem C87_tetra_partial {geo : Nat → Fin 3 → ℝ}
    (hl : LegalModel S0 calls new (fixKeys fixs)) (hload : ∀ l ∈ loads, keyOf l ∈ regKeys calls) (hp : ∀ x ∈ els, Placed S0 calls x)
    (hels : ∀ x ∈ els, ∃ n k, HeatTetra geo n k x ∧ 0 < (Tetra.matS fun a => geo (n a)).det ∧ 0 ≤ k)
    (hfix : ∀ f ∈ fixs, f.value = 0 ∨ (1 / 10 ^ 20 : ℝ) < |f.value|) (he : Exact eqs)
    (h : linearSolve eqs (linear els update) loads fixs calls new S0 e = .ok (S', e'))
    (hmpc : ∀ m ∈ S0.mpcs ++ new, (m.eq.map fun q => q.coef).sum = 0) :
    ∃ T r : Key → ℝ, Reported S' (regKeys calls) T r ∧ Meets S0 calls new loads fixs T r ∧
      ∑ k ∈ (regKeys calls).toFinset, r k = 0 := by
  obtain ⟨T, r, h1, h2, h3⟩ := C84_virtual_work hl hload hp hfix he h
  refine ⟨T, r, h1, h2, ?_⟩
  have hv := h3 (fun _ => 1) (fun m hm => by simpa using hmpc m hm)
  simp only [one_mul] at hv
  rw [hv]
  refine List.sum_eq_zero fun y hy => ?_
  obtain ⟨x, hx, rfl⟩ := List.mem_map.mp hy
  obtain ⟨n, k, a1, a2, a3⟩ := hels x hx
  obtain ⟨M, b1, b2, b3⟩ := a1.scalar a2 a3 (hp x hx).symm
  rw [b1.work, sub_zero]
  show (fun _ => (1 : ℝ)) ⬝ᵥ _ = 0
  have hsym : M.IsSymm := by
    have := b3.isHermitian
    unfold Matrix.IsHermitian at this
    rw [Matrix.conjTranspose_eq_transpose_of_trivial, Matrix.transpose_neg, neg_inj] at this
    exact this
  rw [Matrix.dotProduct_mulVec, ← Matrix.mulVec_transpose, hsym.eq, b2, zero_dotProduct]

/-- **C87 is violated for tetrahedra**: in every solved model of TETRA1 elements heat flows from cold to hot. -/
theorem C87_tetra_violated {geo : Nat → Fin 3 → ℝ}
    (hl : LegalModel S0 calls new (fixKeys fixs)) (hload : ∀ l ∈ loads, keyOf l ∈ regKeys calls) (hp : ∀ x ∈ els, Placed S0 calls x)
    (hels : ∀ x ∈ els, ∃ n k, HeatTetra geo n k x ∧ 0 < (Tetra.matS fun a => geo (n a)).det ∧ 0 ≤ k)
    (hfix : ∀ f ∈ fixs, f.value = 0 ∨ (1 / 10 ^ 20 : ℝ) < |f.value|) (he : Exact eqs)
    (h : linearSolve eqs (linear els update) loads fixs calls new S0 e = .ok (S', e')) (hb : ∀ m ∈ S0.mpcs ++ new, m.b = 0) :
    ∃ T r : Key → ℝ, Reported S' (regKeys calls) T r ∧ Meets S0 calls new loads fixs T r ∧
      ∑ k ∈ (regKeys calls).toFinset, T k * r k ≤ 0 := by
  obtain ⟨T, r, h1, h2, h3⟩ := C84_virtual_work hl hload hp hfix he h
  refine ⟨T, r, h1, h2, ?_⟩
  rw [h3 T fun m hm => by rw [h2.constraints m hm, hb m hm]]
  refine (List.sum_le_card_nsmul _ 0 fun y hy => ?_).trans_eq (smul_zero _)
  obtain ⟨x, hx, rfl⟩ := List.mem_map.mp hy
  obtain ⟨n, k, a1, a2, a3⟩ := hels x hx
  obtain ⟨M, b1, b2, b3⟩ := a1.scalar a2 a3 (hp x hx).symm
  rw [b1.work, sub_zero]
  have := b3.dotProduct_mulVec_nonneg fun a => temp T (n a)
  rw [star_trivial, Matrix.neg_mulVec, dotProduct_neg] at this
  linarith

end

/-! ## A heated tetrahedron gets colder -/

/-- What `buildK` hands over for a tetrahedron. -/
def tetra1El (geo : Nat → Fin 3 → ℝ) (n : Fin 4 → Nat) (k : ℝ) : LinEl ℝ where
  nodes := List.ofFn n
  dofs := [.TEMP]
  Ke i j := Dense.ext (Tetra.cond1 (fun a => geo (n a)) k) i j

def coldEl : LinEl ℝ := tetra1El corner ![1, 2, 3, 4] 6

def coldCalls : List RegCall := [(.node, 1, [.TEMP]), (.node, 2, [.TEMP]), (.node, 3, [.TEMP]), (.node, 4, [.TEMP])]

def coldFixs : List (Bc ℝ) := [⟨1, .TEMP, 0⟩, ⟨3, .TEMP, 0⟩, ⟨4, .TEMP, 0⟩]

theorem cold_el : HeatTetra corner ![1, 2, 3, 4] 6 coldEl :=
  ⟨rfl, rfl, ⟨_, Tetra.buildK1_eq (by rw [corner_det]; norm_num) 6⟩, rfl⟩

theorem cond1_symm (pos : Fin 4 → Fin 3 → ℝ) (k : ℝ) : (Tetra.cond1 pos k).IsSymm := by
  unfold Tetra.cond1 Matrix.IsSymm
  rw [Matrix.transpose_smul, Matrix.transpose_mul, Matrix.transpose_transpose]

theorem cold_symm (i j : Nat) : coldEl.Ke i j = coldEl.Ke j i := by
  show Dense.ext _ i j = Dense.ext _ j i
  unfold Dense.ext
  by_cases h : i < 4 ∧ j < 4
  · rw [dif_pos h, dif_pos h.symm]
    exact congrFun (congrFun (cond1_symm _ _).eq _) _
  · rw [dif_neg h, dif_neg fun c => h c.symm]

theorem cold_legal : LegalModel cornerStorage coldCalls [] (fixKeys coldFixs) := by
  have hk : fixKeys coldFixs = [(.node, 1, .TEMP), (.node, 3, .TEMP), (.node, 4, .TEMP)] := rfl
  rw [hk]
  refine ⟨⟨?_, ?_, ?_, ?_, ?_, rfl⟩, ?_, ?_, ?_⟩
  · unfold LegalReg; decide
  · decide
  · decide
  · decide
  · intro m hm; simp [cornerStorage, Storage.fresh] at hm
  · unfold MeshOk; decide
  · intro m hm; simp [cornerStorage, Storage.fresh] at hm
  · decide

theorem cold_placed : ∀ x ∈ [coldEl], Placed cornerStorage coldCalls x := by
  intro x hx
  rw [List.mem_singleton] at hx
  subst hx
  exact ⟨⟨⟨1, rfl⟩, by decide, by decide⟩, by decide, fun i _ j _ => cold_symm i j⟩

theorem cold_force (T : Key → ℝ) (h1 : temp T 1 = 0) (h3 : temp T 3 = 0) (h4 : temp T 4 = 0) :
    coldEl.forceOn T (.node, 2, .TEMP) = -temp T 2 := by
  have hd : (Tetra.matS fun a => corner (![1, 2, 3, 4] a)).det ≠ 0 := by rw [corner_det]; norm_num
  have hs : Scalar coldEl ![1, 2, 3, 4] (Tetra.cond1 (fun a => corner (![1, 2, 3, 4] a)) 6) 0 :=
    ⟨rfl, rfl, fun i j => matrix_of_pack (m := 4) rfl (fun i _ j _ => cold_symm i j) (cond1_symm _ _) rfl i j, fun _ => rfl⟩
  rw [← work_single, hs.work, sub_zero]
  have e1 : (fun a => temp T (![1, 2, 3, 4] a)) = fun a => (0 : ℝ) + ∑ j, (![temp T 2, 0, 0] : Fin 3 → ℝ) j * corner (![1, 2, 3, 4] a) j := by
    funext a
    fin_cases a <;> simp [corner, Fin.sum_univ_three, h1, h3, h4]
  have e2 : (fun a => temp (fun k => if k = (Side.node, 2, DofType.TEMP) then (1 : ℝ) else 0) (![1, 2, 3, 4] a)) =
      fun a => (0 : ℝ) + ∑ j, (![1, 0, 0] : Fin 3 → ℝ) j * corner (![1, 2, 3, 4] a) j := by
    funext a
    fin_cases a <;> simp [corner, Fin.sum_univ_three, temp]
  rw [e1, e2]
  unfold Tetra.cond1
  rw [Matrix.smul_mulVec, dotProduct_smul, ← Matrix.mulVec_mulVec, Tetra.gradMat_affine hd 0 ![temp T 2, 0, 0], Matrix.dotProduct_mulVec,
    Matrix.vecMul_transpose, Tetra.gradMat_affine hd 0 ![1, 0, 0], corner_det]
  simp [dotProduct, Fin.sum_univ_three]

/-- **C87 is violated, a case.** A tetrahedron, three nodes kept at temperature zero, heat 5 supplied at the fourth: the
reported temperature of that node is -5. -/
theorem C87_tetra_cold : ∃ S' e', linearSolve Gauss.solveEquations (linear [coldEl] (fun _ _ => ()))
      [⟨2, .TEMP, 5⟩] coldFixs coldCalls [] cornerStorage () = .ok (S', e') ∧ Post.solution S' .node 2 .TEMP = .ok (-5) := by
  obtain ⟨S', e', h⟩ := one_free (k0 := (.node, 2, .TEMP)) (loads := [⟨2, .TEMP, 5⟩]) (els := [coldEl]) (update := fun _ _ => ()) (e := ())
    cold_legal rfl (by simp [keyOf]; decide) cold_placed (by decide) (by decide) (by decide) (by decide) (by
      simp only [List.map_cons, List.map_nil, List.sum_cons, List.sum_nil, add_zero]
      rw [cold_force _ (by simp [temp]) (by simp [temp]) (by simp [temp]), cold_force _ rfl rfl rfl]
      simp [temp]
      norm_num)
  refine ⟨S', e', h, ?_⟩
  obtain ⟨T, r, l, h1, h2, _, h4⟩ := C83_equilibrium cold_legal (by simp [keyOf]; decide) cold_placed (by
    intro f hf
    simp only [coldFixs, List.mem_cons, List.not_mem_nil, or_false] at hf
    rcases hf with rfl | rfl | rfl <;> simp) gauss_exact h
  have h5 := h4 (.node, 2, .TEMP) (by decide)
  rw [h2.applied (.node, 2, .TEMP) (by decide) (by decide)] at h5
  simp only [List.map_cons, List.map_nil, List.sum_cons, List.sum_nil, add_zero] at h5
  rw [cold_force T (h2.prescribed (.node, 1, .TEMP) (by decide) 0 rfl) (h2.prescribed (.node, 3, .TEMP) (by decide) 0 rfl)
    (h2.prescribed (.node, 4, .TEMP) (by decide) 0 rfl)] at h5
  simp [conForce, cornerStorage, Storage.fresh, loadsOn, keyOf] at h5
  rw [h1.solution 2 .TEMP (by decide), Res.ok.injEq]
  show temp T 2 = -5
  linarith

/-! ## A plate with convection on one side -/

/-- A square plate. -/
def plateGeo : Nat → Fin 3 → ℝ
  | 1 => ![-1, -1, 0]
  | 2 => ![1, -1, 0]
  | 3 => ![1, 1, 0]
  | _ => ![-1, 1, 0]

def plateK (k : ℝ) : Matrix (Fin 4) (Fin 4) ℝ := ((Iso.quad.table 0).map (Thermal.condPt (plane plateGeo ![1, 2, 3, 4]) k)).sum
def plateF (f : ℝ) : Fin 4 → ℝ := ((Iso.quad.table 0).map (Thermal.loadPt (plane plateGeo ![1, 2, 3, 4]) f)).sum
def sideK (s : Thermal.Surface) : Matrix (Fin 2) (Fin 2) ℝ :=
  ((Iso.line.table 0).map (Thermal.convPt s.pre.htc (Iso.lineJacob 1 fun a => plateGeo (![3, 4] a)).det)).sum
def sideF (s : Thermal.Surface) : Fin 2 → ℝ :=
  ((Iso.line.table 0).map (Thermal.fluxPt s.pre.flux (Iso.lineJacob 1 fun a => plateGeo (![3, 4] a)).det)).sum + sideK s *ᵥ s.pre.etemp

/-- What `buildK` hands over. -/
def plateEl (k f : ℝ) : LinEl ℝ where
  nodes := [1, 2, 3, 4]
  dofs := [.TEMP]
  Ke i j := Dense.ext (plateK k) i j
  Fe := some fun i => plateF f (Fin.ofNat 4 i)

def sideEl (s : Thermal.Surface) : LinEl ℝ where
  nodes := [3, 4]
  dofs := [.TEMP]
  Ke i j := Dense.ext (sideK s) i j
  Fe := some fun i => sideF s (Fin.ofNat 2 i)

theorem plate_jac (q : Fin 2 → ℝ) : Iso.jac Iso.quad (plane plateGeo ![1, 2, 3, 4]) q = 1 := by
  ext i j
  fin_cases i <;> fin_cases j <;> simp [Iso.jac, Iso.quad, plane, plateGeo, Fin.sum_univ_succ] <;> ring

theorem plate_built (k f : ℝ) : (HeatElem.quad ![1, 2, 3, 4] 1 k f).Built plateGeo (plateEl k f) := by
  obtain ⟨g, h1, h2, h3⟩ := Iso.makeJacob_good (S := Iso.quad) (o := 1) (pos := plane plateGeo ![1, 2, 3, 4])
    (fun q _ => by rw [plate_jac]; simp)
  refine ⟨rfl, rfl, g, plateF f, _, h1, ?_, rfl, ?_⟩
  · have := Thermal.quadK_eq h3 k f
    rw [h2] at this
    exact this
  · intro a
    show plateF f (Fin.ofNat 4 a.val) = _
    congr 1
    fin_cases a <;> rfl

theorem plate_sound {k f : ℝ} (hk : 0 ≤ k) : (HeatElem.quad ![1, 2, 3, 4] 1 k f).Sound plateGeo :=
  ⟨fun q _ => by rw [plate_jac]; simp, hk⟩

theorem side_sound (s : Thermal.Surface) : (HeatElem.line ![3, 4] 1 s).Sound plateGeo := by
  intro h
  have := congrFun h 0
  norm_num [plateGeo] at this

theorem side_det : (Iso.lineJacob 1 fun a => plateGeo (![3, 4] a)).det = 1 := by
  show Iso.length _ * 0.5 = 1
  unfold Iso.length
  rw [show Real.sqrt _ = 2 from (by
    rw [Real.sqrt_eq_iff_mul_self_eq_of_pos (by norm_num)]
    simp [plateGeo]
    norm_num)]
  norm_num

theorem side_built (s : Thermal.Surface) : (HeatElem.line ![3, 4] 1 s).Built plateGeo (sideEl s) := by
  refine ⟨rfl, rfl, _, ?_, rfl⟩
  have := Thermal.surfaceK_eq (g := Iso.lineJacob 1 fun a => plateGeo (![3, 4] a)) (by rw [side_det]; norm_num) s.pre
  rw [this]
  refine congrArg Res.ok (Prod.ext rfl ?_)
  show List.ofFn (sideF s) = _
  simp [List.range_succ]

theorem plate_symm (k f : ℝ) (i j : Nat) : (plateEl k f).Ke i j = (plateEl k f).Ke j i := by
  show Dense.ext _ i j = Dense.ext _ j i
  have hsym : (plateK k).IsSymm := by
    apply Thermal.sum_induct (fun K : Matrix (Fin 4) (Fin 4) ℝ => K.IsSymm)
    · exact Matrix.isSymm_zero
    · intro a b ha hb; exact ha.add hb
    · intro q _
      rw [Thermal.condPt_eq]
      unfold Matrix.IsSymm
      rw [Matrix.transpose_smul, Matrix.transpose_mul, Matrix.transpose_transpose]
  unfold Dense.ext
  by_cases h : i < 4 ∧ j < 4
  · rw [dif_pos h, dif_pos h.symm]
    exact congrFun (congrFun hsym.eq _) _
  · rw [dif_neg h, dif_neg fun c => h c.symm]

theorem side_symm (s : Thermal.Surface) (i j : Nat) : (sideEl s).Ke i j = (sideEl s).Ke j i := by
  show Dense.ext _ i j = Dense.ext _ j i
  have hsym : (sideK s).IsSymm := by
    apply Thermal.sum_induct (fun K : Matrix (Fin 2) (Fin 2) ℝ => K.IsSymm)
    · exact Matrix.isSymm_zero
    · intro a b ha hb; exact ha.add hb
    · intro q _; exact Thermal.convPt_symm _ _ q
  unfold Dense.ext
  by_cases h : i < 2 ∧ j < 2
  · rw [dif_pos h, dif_pos h.symm]
    exact congrFun (congrFun hsym.eq _) _
  · rw [dif_neg h, dif_neg fun c => h c.symm]

/-- Plate and side. -/
def plateStorage : Storage ℝ := Storage.fresh 4 [[1, 2, 3, 4], [3, 4]] [] false

def plateCalls : List RegCall := [(.node, 1, [.TEMP]), (.node, 2, [.TEMP]), (.node, 3, [.TEMP]), (.node, 4, [.TEMP]),
  (.node, 3, [.TEMP]), (.node, 4, [.TEMP])]

/-- All but node 3 at temperature `c`. -/
def plateFixs (c : ℝ) : List (Bc ℝ) := [⟨1, .TEMP, c⟩, ⟨2, .TEMP, c⟩, ⟨4, .TEMP, c⟩]

theorem plate_legal (c : ℝ) : LegalModel plateStorage plateCalls [] (fixKeys (plateFixs c)) := by
  have hk : fixKeys (plateFixs c) = [(.node, 1, .TEMP), (.node, 2, .TEMP), (.node, 4, .TEMP)] := rfl
  rw [hk]
  refine ⟨⟨?_, ?_, ?_, ?_, ?_, rfl⟩, ?_, ?_, ?_⟩
  · unfold LegalReg; decide
  · decide
  · decide
  · decide
  · intro m hm; simp [plateStorage, Storage.fresh] at hm
  · unfold MeshOk; decide
  · intro m hm; simp [plateStorage, Storage.fresh] at hm
  · decide

theorem plate_placed (k f : ℝ) (s : Thermal.Surface) : ∀ x ∈ [plateEl k f, sideEl s], Placed plateStorage plateCalls x := by
  intro x hx
  simp only [List.mem_cons, List.not_mem_nil, or_false] at hx
  rcases hx with rfl | rfl
  · exact ⟨⟨⟨1, rfl⟩, by show ∀ n ∈ [1, 2, 3, 4], ∀ t ∈ [DofType.TEMP], _; decide, by show [DofType.TEMP].Nodup; decide⟩,
      by show [1, 2, 3, 4].Nodup; decide, fun i _ j _ => plate_symm k f i j⟩
  · exact ⟨⟨⟨2, rfl⟩, by show ∀ n ∈ [3, 4], ∀ t ∈ [DofType.TEMP], _; decide, by show [DofType.TEMP].Nodup; decide⟩,
      by show [3, 4].Nodup; decide, fun i _ j _ => side_symm s i j⟩

/-- Stiffness of an element at a DoF. -/
theorem stiff_diff (x : LinEl ℝ) (k0 : Key) : x.forceOn (fun k => if k = k0 then 1 else 0) k0 - x.forceOn (fun _ => 0) k0 =
    ∑ a ∈ range x.n, if localKey x.nodes x.dofs a = k0 then
      ∑ b ∈ range x.n, x.Ke a b * (if localKey x.nodes x.dofs b = k0 then 1 else 0) else 0 := by
  unfold LinEl.forceOn LinEl.force
  rw [← Finset.sum_sub_distrib]
  refine Finset.sum_congr rfl fun a _ => ?_
  split <;> simp

theorem plate_diff (k f : ℝ) : (plateEl k f).forceOn (fun k => if k = (Side.node, 3, DofType.TEMP) then 1 else 0) (.node, 3, .TEMP) -
    (plateEl k f).forceOn (fun _ => 0) (.node, 3, .TEMP) = k / 2 := by
  rw [stiff_diff]
  have hn : (plateEl k f).n = 4 := rfl
  rw [hn]
  simp only [Finset.sum_range_succ, Finset.sum_range_zero]
  simp [plateEl, localKey]
  show Dense.ext (plateK k) 2 2 = _
  unfold Dense.ext
  rw [dif_pos (by norm_num)]
  simp [plateK, Iso.quad, Iso.quadO1]
  rw [Thermal.condPt_eq]
  simp [Thermal.wdet, plate_jac, Matrix.mul_apply, Thermal.B, Iso.grads, Fin.sum_univ_two]
  simp [Iso.quad]
  ring

theorem side_diff (s : Thermal.Surface) : (sideEl s).forceOn (fun k => if k = (Side.node, 3, DofType.TEMP) then 1 else 0) (.node, 3, .TEMP) -
    (sideEl s).forceOn (fun _ => 0) (.node, 3, .TEMP) = s.pre.htc / 2 := by
  rw [stiff_diff]
  have hn : (sideEl s).n = 2 := rfl
  rw [hn]
  simp only [Finset.sum_range_succ, Finset.sum_range_zero]
  simp [sideEl, localKey]
  show Dense.ext (sideK s) 0 0 = _
  unfold Dense.ext
  rw [dif_pos (by norm_num)]
  simp [sideK, Iso.line, Iso.lineO1, side_det, Thermal.convPt]
  ring

theorem plate_fixKeys (c : ℝ) : fixKeys (plateFixs c) = [(.node, 1, .TEMP), (.node, 2, .TEMP), (.node, 4, .TEMP)] := rfl

/-- The plate is solved. -/
theorem plate_solved {k : ℝ} (hk : 1 ≤ k) (f c : ℝ) {s : Thermal.Surface} (hs : 0 ≤ s.pre.htc) {loads : List (Bc ℝ)}
    (hl : ∀ l ∈ loads, keyOf l ∈ regKeys plateCalls) :
    ∃ S' e', linearSolve Gauss.solveEquations (linear [plateEl k f, sideEl s] (fun _ _ => ())) loads
      (plateFixs c) plateCalls [] plateStorage () = .ok (S', e') := by
  refine one_free (k0 := (.node, 3, .TEMP)) (plate_legal c) rfl hl (plate_placed k f s) (by decide)
    (by rw [plate_fixKeys]; decide) (by rw [plate_fixKeys]; decide) (by decide) ?_
  simp only [List.map_cons, List.map_nil, List.sum_cons, List.sum_nil, add_zero]
  rw [add_sub_add_comm, plate_diff, side_diff, abs_of_nonneg (by linarith)]
  have : (1 / 10 ^ 20 : ℝ) ≤ 1 / 2 := by norm_num
  linarith

theorem plate_sounds {k : ℝ} (hk : 0 ≤ k) (f : ℝ) (s : Thermal.Surface) :
    ∀ h ∈ [HeatElem.quad ![1, 2, 3, 4] 1 k f, .line ![3, 4] 1 s], h.Sound plateGeo := by
  intro h hh
  simp only [List.mem_cons, List.not_mem_nil, or_false] at hh
  rcases hh with rfl | rfl
  exacts [plate_sound hk, side_sound _]

/-- C87: the plate with source 7 per area, flux 3 and convection, heat 2 supplied at node 3. -/
example : ∃ (S' : Storage ℝ) (T r : Key → ℝ) (g1 g2 : ℝ), Reported S' (regKeys plateCalls) T r ∧
    (HeatElem.quad ![1, 2, 3, 4] 1 5 7).Gain plateGeo T g1 ∧ (HeatElem.line ![3, 4] 1 ⟨3, 10, ![20, 30]⟩).Gain plateGeo T g2 ∧
    ∑ k ∈ (regKeys plateCalls).toFinset, r k + (g1 + g2) = 0 := by
  have hs : (0 : ℝ) ≤ (⟨3, 10, ![20, 30]⟩ : Thermal.Surface).pre.htc := by simp [Thermal.Surface.pre]
  obtain ⟨S', e', h⟩ := plate_solved (k := 5) (by norm_num) 7 1 hs (loads := [⟨3, .TEMP, 2⟩]) (by simp [keyOf]; decide)
  obtain ⟨T, r, h1, _, G, h3, h4⟩ := C87_balance (geo := plateGeo) (plate_legal 1) (by simp [keyOf]; decide) (plate_placed _ _ _)
    (.cons (plate_built 5 7) (.cons (side_built _) .nil)) (plate_sounds (by norm_num) 7 _) (by
      intro f hf
      simp only [plateFixs, List.mem_cons, List.not_mem_nil, or_false] at hf
      rcases hf with rfl | rfl | rfl <;> norm_num) gauss_exact h (by simp [plateStorage, Storage.fresh])
  cases h3 with
  | cons a1 b1 => cases b1 with
    | cons a2 b2 => cases b2 with
      | nil => exact ⟨S', T, r, _, _, h1, a1, a2, by simpa using h4⟩

/-- C87: in surroundings of 20 the plate is at 20. -/
example : ∃ S' : Storage ℝ, Post.solution S' .node 3 .TEMP = .ok 20 ∧ Post.reaction S' 1 .TEMP = .ok 0 := by
  have hpre : (⟨0, 10, ![20, 20]⟩ : Thermal.Surface).pre = ⟨0, 10, ![20, 20]⟩ := by
    simp [Thermal.Surface.pre]
  have hs : (0 : ℝ) ≤ (⟨0, 10, ![20, 20]⟩ : Thermal.Surface).pre.htc := by rw [hpre]; norm_num
  obtain ⟨S', e', h⟩ := plate_solved (k := 5) (by norm_num) 0 20 hs (loads := []) (by simp)
  have := C87_uniform (geo := plateGeo) (c := 20) (plate_legal 20) (plate_placed _ _ _)
    (.cons (plate_built 5 0) (.cons (side_built _) .nil)) (plate_sounds (by norm_num) 0 _) (by
      intro h hh
      simp only [List.mem_cons, List.not_mem_nil, or_false] at hh
      rcases hh with rfl | rfl
      · exact rfl
      · refine ⟨by rw [hpre], fun b => ?_⟩
        rw [hpre]
        fin_cases b <;> rfl) (by norm_num) (by simp [plateFixs]) (by simp [plateStorage, Storage.fresh]) h
  exact ⟨S', (this 3 .TEMP (by decide)).1, (this 1 .TEMP (by decide)).2⟩

/-- C87: the plate alone, heated at node 3. -/
example : ∃ (S' : Storage ℝ) (T r : Key → ℝ), Reported S' (regKeys plateCalls) T r ∧
    Meets plateStorage plateCalls [] [⟨3, .TEMP, 2⟩] (plateFixs 0) T r ∧ 0 ≤ ∑ k ∈ (regKeys plateCalls).toFinset, T k * r k := by
  obtain ⟨S', e', h⟩ := one_free (k0 := (.node, 3, .TEMP)) (loads := [⟨3, .TEMP, 2⟩]) (els := [plateEl 5 0]) (update := fun _ _ => ()) (e := ())
    (plate_legal 0) rfl (by simp [keyOf]; decide) (fun x hx => plate_placed 5 0 ⟨0, 0, 0⟩ x (by simp at hx; simp [hx])) (by decide)
    (by rw [plate_fixKeys]; decide) (by rw [plate_fixKeys]; decide) (by decide) (by
      simp only [List.map_cons, List.map_nil, List.sum_cons, List.sum_nil, add_zero]
      rw [plate_diff]
      norm_num)
  obtain ⟨T, r, h1, h2, h3⟩ := C87_direction (geo := plateGeo) (plate_legal 0) (by simp [keyOf]; decide)
    (fun x hx => plate_placed 5 0 ⟨0, 0, 0⟩ x (by simp at hx; simp [hx])) (.cons (plate_built 5 0) .nil)
    (fun h hh => plate_sounds (k := 5) (by norm_num) 0 ⟨0, 0, 0⟩ h (by simp at hh; simp [hh])) (by simp) (by simp [plateFixs]) gauss_exact h
    (by simp [plateStorage, Storage.fresh])
  exact ⟨S', T, r, h1, h2, h3⟩

end Nla3d.Struct
