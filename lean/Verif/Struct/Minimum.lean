import Verif.Struct.Physics
import Verif.Solver.Minimum
import Verif.Struct.Sample

/-!
# C134 for structures: the reported displacements have the least potential energy

`u` are the values `getNodeDofSolution` reports after `LinearFESolver::solve`.
-/

namespace Nla3d.Struct

open Nla3d.Dof Nla3d.Block Nla3d.Sparse Nla3d.Storage Nla3d.Solver Finset
open scoped Matrix

/-! ## Specification -/

/-- Energy of an element: strain energy less the work of its own loads. -/
noncomputable def LinEl.energy (x : LinEl ℝ) (w : Key → ℝ) : ℝ :=
  (∑ a ∈ range x.n, ∑ b ∈ range x.n, w (localKey x.nodes x.dofs a) * x.Ke a b * w (localKey x.nodes x.dofs b)) / 2 -
    ∑ a ∈ range x.n, w (localKey x.nodes x.dofs a) * x.load a

/-- Work of the given loads. -/
noncomputable def givenWork (calls : List RegCall) (loads : List (Bc ℝ)) (w : Key → ℝ) : ℝ :=
  ∑ k ∈ (regKeys calls).toFinset, w k * loadsOn k loads

/-- Displacements with the prescribed values that satisfy the constraint equations. -/
structure Possible (S0 : Storage ℝ) (calls : List RegCall) (new : List (Mpc ℝ)) (fixs : List (Bc ℝ)) (v : Key → ℝ) : Prop where
  prescribed : ∀ k ∈ regKeys calls, ∀ x, lastFix k fixs = some x → v k = x
  constraints : ∀ m ∈ S0.mpcs ++ new, (m.eq.map fun t => t.coef * v (.node, t.node, t.dof)).sum = m.b

/-- A tetrahedron: nodes, material, temperature and initial strains. -/
structure Tet where
  n : Fin 4 → Nat
  e : Tetra.Elem0

/-- The gradient of the linear field with the given values at the corners of a tetrahedron. -/
noncomputable def Tet.gradient (geo : Nat → Fin 3 → ℝ) (b : Tet) (w : Key → ℝ) : Matrix (Fin 3) (Fin 3) ℝ :=
  Matrix.of fun i j => ((Tetra.matS fun a => geo (b.n a))⁻¹ *ᵥ fun a => nodal w (b.n a) i) j.succ

/-- Elastic energy of a tetrahedron: half its volume times stress times elastic strain, the strain less the initial one. -/
noncomputable def Tet.elastic (geo : Nat → Fin 3 → ℝ) (b : Tet) (w : Key → ℝ) : ℝ :=
  (Tetra.matS fun a => geo (b.n a)).det / 6 / 2 * ((Tetra.symGrad (b.gradient geo w) - strains0 b.e) ⬝ᵥ
    Tetra.hooke (Tetra.lameLam b.e.E b.e.my) (Tetra.lameMu b.e.E b.e.my) (Tetra.symGrad (b.gradient geo w) - strains0 b.e))

/-! ## Algebra -/

theorem energy_expand (x : LinEl ℝ) (hs : ∀ a < x.n, ∀ b < x.n, x.Ke a b = x.Ke b a) (u v : Key → ℝ) :
    x.energy v = x.energy u + x.work (fun k => v k - u k) u +
      (∑ a ∈ range x.n, ∑ b ∈ range x.n, (v (localKey x.nodes x.dofs a) - u (localKey x.nodes x.dofs a)) * x.Ke a b *
        (v (localKey x.nodes x.dofs b) - u (localKey x.nodes x.dofs b))) / 2 := by
  set V := fun a => v (localKey x.nodes x.dofs a) with hV
  set U := fun a => u (localKey x.nodes x.dofs a) with hU
  have hsw : ∑ a ∈ range x.n, ∑ b ∈ range x.n, U a * x.Ke a b * (V b - U b) =
      ∑ a ∈ range x.n, ∑ b ∈ range x.n, (V a - U a) * x.Ke a b * U b := by
    rw [Finset.sum_comm]
    refine Finset.sum_congr rfl fun a ha => Finset.sum_congr rfl fun b hb => ?_
    rw [Finset.mem_range] at ha hb
    rw [hs b hb a ha]
    ring
  have hw : x.work (fun k => v k - u k) u = ∑ a ∈ range x.n, ∑ b ∈ range x.n, (V a - U a) * x.Ke a b * U b -
      ∑ a ∈ range x.n, (V a - U a) * x.load a := by
    unfold LinEl.work LinEl.force
    rw [← Finset.sum_sub_distrib]
    refine Finset.sum_congr rfl fun a _ => ?_
    rw [mul_sub, Finset.mul_sum]
    congr 1
    exact Finset.sum_congr rfl fun b _ => by simp only [hV, hU]; ring
  have hq : ∑ a ∈ range x.n, ∑ b ∈ range x.n, V a * x.Ke a b * V b = ∑ a ∈ range x.n, ∑ b ∈ range x.n, U a * x.Ke a b * U b +
      ∑ a ∈ range x.n, ∑ b ∈ range x.n, U a * x.Ke a b * (V b - U b) + ∑ a ∈ range x.n, ∑ b ∈ range x.n, (V a - U a) * x.Ke a b * U b +
      ∑ a ∈ range x.n, ∑ b ∈ range x.n, (V a - U a) * x.Ke a b * (V b - U b) := by
    simp only [← Finset.sum_add_distrib]
    exact Finset.sum_congr rfl fun a _ => Finset.sum_congr rfl fun b _ => by ring
  have hl : ∑ a ∈ range x.n, V a * x.load a = ∑ a ∈ range x.n, U a * x.load a + ∑ a ∈ range x.n, (V a - U a) * x.load a := by
    rw [← Finset.sum_add_distrib]
    exact Finset.sum_congr rfl fun a _ => by ring
  unfold LinEl.energy
  show (∑ a ∈ range x.n, ∑ b ∈ range x.n, V a * x.Ke a b * V b) / 2 - ∑ a ∈ range x.n, V a * x.load a =
    (∑ a ∈ range x.n, ∑ b ∈ range x.n, U a * x.Ke a b * U b) / 2 - ∑ a ∈ range x.n, U a * x.load a + _ +
      (∑ a ∈ range x.n, ∑ b ∈ range x.n, (V a - U a) * x.Ke a b * (V b - U b)) / 2
  rw [hw, hq, hsw, hl]
  ring

section
variable {E : Type} {S0 S' : Storage ℝ} {calls : List RegCall} {new : List (Mpc ℝ)} {loads fixs : List (Bc ℝ)} {els : List (LinEl ℝ)}
  {update : E → Storage ℝ → E} {eqs : EqSolver ℝ} {e e' : E}

/-- Virtual work of motions that keep the fixed DoFs, whatever the prescribed values. -/
theorem virtual_work_free (hl : LegalModel S0 calls new (fixKeys fixs)) (hload : ∀ l ∈ loads, keyOf l ∈ regKeys calls)
    (hp : ∀ x ∈ els, Placed S0 calls x) (he : Exact eqs)
    (h : linearSolve eqs (linear els update) loads fixs calls new S0 e = .ok (S', e')) :
    ∃ u r : Key → ℝ, Reported S' (regKeys calls) u r ∧ Meets S0 calls new loads fixs u r ∧
      ∀ δ : Key → ℝ, (∀ m ∈ S0.mpcs ++ new, (m.eq.map fun t => t.coef * δ (.node, t.node, t.dof)).sum = 0) →
        (∀ k ∈ regKeys calls, k ∈ fixKeys fixs → δ k = 0) →
        ∑ k ∈ (regKeys calls).toFinset, δ k * r k = (els.map fun x => x.work δ u).sum := by
  have hprob := linear_problem (E := E) (update := update) hl hload hp
  rcases linear_solve hprob he e with ⟨hf, _⟩ | ⟨S1, num, h1, h2, ⟨hf, _⟩ | ⟨S2, e2, h3, ha, hm, k, f, _, _, hk2, hf2, hrow, _, _⟩⟩
  · rw [h] at hf; cases hf
  · rw [h] at hf; cases hf
  have e12 := Res.ok.inj (h.symm.trans h3)
  have e1 : S' = S2 := congrArg Prod.fst e12
  subst e1
  obtain ⟨A, hb⟩ := base_of_prepare hl h1 h2
  have hm' : S'.mpcs = S1.mpcs := hm
  obtain ⟨hr1, hr2⟩ := reported hl hb ha hm'
  refine ⟨_, _, hr1, hr2, fun δ hδ h0 => ?_⟩
  set u : Key → ℝ := fun k => comp S'.vecU (num k) with hu
  set l := S1.mpcs.map fun m => comp S'.vecU m.eqNum with hll
  have hbal : ∀ q ∈ regKeys calls, q ∉ fixKeys fixs →
      (els.map fun x => x.forceOn u q).sum + conForce (S0.mpcs ++ new) l q = comp S'.vecR (num q) := by
    intro q hq hqf
    have hrg := hb.range hq
    have hfree := hb.freeRange hq hqf
    have h4 := row_eq hb h2 hp update e (comp S'.vecU) hq
    have h5 := hrow (num q) hfree.1 (by omega)
    have h6 : rowMul k (comp S'.vecU) (S1.nDofs + S1.nMpc) (num q) =
        rowMul (Assembled (linear els update) e S1 num 0) (comp S'.vecU) (S1.nDofs + S1.nMpc) (num q) := by
      unfold rowMul
      simp only [hk2]
    rw [h6, hf2] at h5
    rw [h5, add_sub_cancel_left] at h4
    rw [h4, conForce_eq (comp S'.vecU) q _ _ hb.prep.ready.terms]
  have h7 := virtual_work (r := fun q => (els.map fun x => x.forceOn u q).sum + conForce (S0.mpcs ++ new) l q) hp hl.terms
    (fun _ _ => rfl) δ
  have h8 : conWork (S0.mpcs ++ new) l δ = 0 := by
    unfold conWork
    refine List.sum_eq_zero fun x hx => ?_
    obtain ⟨p, hp', rfl⟩ := List.mem_map.mp hx
    rw [hδ p.1 (List.of_mem_zip hp').1, mul_zero]
  rw [h8, add_zero] at h7
  rw [← h7]
  refine Finset.sum_congr rfl fun q hq => ?_
  have hq := List.mem_toFinset.1 hq
  by_cases hqf : q ∈ fixKeys fixs
  · rw [h0 q hq hqf, zero_mul, zero_mul]
  · rw [hbal q hq hqf]

/-- C134 for models of linear elements with positive semidefinite matrices: no possible
displacements have less energy than the reported ones. -/
theorem C134_elements (hl : LegalModel S0 calls new (fixKeys fixs)) (hload : ∀ l ∈ loads, keyOf l ∈ regKeys calls)
    (hp : ∀ x ∈ els, Placed S0 calls x) (he : Exact eqs)
    (hpos : ∀ x ∈ els, ∀ d : Key → ℝ, 0 ≤ ∑ a ∈ range x.n, ∑ b ∈ range x.n,
      d (localKey x.nodes x.dofs a) * x.Ke a b * d (localKey x.nodes x.dofs b))
    (h : linearSolve eqs (linear els update) loads fixs calls new S0 e = .ok (S', e')) :
    ∃ u r : Key → ℝ, Reported S' (regKeys calls) u r ∧ Possible S0 calls new fixs u ∧
      ∀ v, Possible S0 calls new fixs v →
        (els.map fun x => x.energy u).sum - givenWork calls loads u ≤ (els.map fun x => x.energy v).sum - givenWork calls loads v := by
  obtain ⟨u, r, h1, h2, h3⟩ := virtual_work_free hl hload hp he h
  refine ⟨u, r, h1, ⟨h2.prescribed, h2.constraints⟩, fun v hv => ?_⟩
  have hvw := h3 (fun k => v k - u k) (fun m hm => by
    simp only [mul_sub]
    rw [sum_map_sub', hv.constraints m hm, h2.constraints m hm, sub_self]) (fun k hk hf => by
    obtain ⟨x, hx⟩ := Option.isSome_iff_exists.mp (lastFix_isSome.mpr hf)
    show v k - u k = 0
    rw [hv.prescribed k hk x hx, h2.prescribed k hk x hx, sub_self])
  have hg : ∑ k ∈ (regKeys calls).toFinset, (v k - u k) * r k = givenWork calls loads v - givenWork calls loads u := by
    unfold givenWork
    rw [← Finset.sum_sub_distrib]
    refine Finset.sum_congr rfl fun k hk => ?_
    have hk := List.mem_toFinset.1 hk
    by_cases hf : k ∈ fixKeys fixs
    · obtain ⟨x, hx⟩ := Option.isSome_iff_exists.mp (lastFix_isSome.mpr hf)
      rw [hv.prescribed k hk x hx, h2.prescribed k hk x hx]
      ring
    · rw [h2.applied k hk hf]
      ring
  have hsum : (els.map fun x => x.energy u).sum + (els.map fun x => x.work (fun k => v k - u k) u).sum ≤ (els.map fun x => x.energy v).sum := by
    clear h h1 h2 h3 hvw hg
    induction els with
    | nil => simp
    | cons x xs ih =>
      have ih := ih (fun y hy => hp y (by simp [hy])) (fun y hy => hpos y (by simp [hy]))
      simp only [List.map_cons, List.sum_cons]
      have := energy_expand x (hp x (by simp)).symm u v
      have hq := hpos x (by simp) (fun k => v k - u k)
      linarith
  linarith

/-- The matrix of a bar: its energy. -/
theorem TrussEl.energy {geo : Nat → Fin 3 → ℝ} {b : Bar} {x : LinEl ℝ} (hx : TrussEl geo b.n b.E b.A x) (hlen : geo (b.n 0) ≠ geo (b.n 1))
    (hs : ∀ a < x.n, ∀ c < x.n, x.Ke a c = x.Ke c a) (w : Key → ℝ) :
    x.energy w = b.E * b.A / Bars.length (geo (b.n 1) - geo (b.n 0)) *
        Bars.elongation (fun a => geo (b.n a)) (fun a => nodal w (b.n a)) ^ 2 / 2 ∧
    ∑ a ∈ range x.n, ∑ c ∈ range x.n, w (localKey x.nodes x.dofs a) * x.Ke a c * w (localKey x.nodes x.dofs c) =
      b.E * b.A / Bars.length (geo (b.n 1) - geo (b.n 0)) * Bars.elongation (fun a => geo (b.n a)) (fun a => nodal w (b.n a)) ^ 2 := by
  have h0 : ∀ a, x.load a = 0 := fun a => by unfold LinEl.load; rw [hx.noLoad]
  have hq : ∑ a ∈ range x.n, ∑ c ∈ range x.n, w (localKey x.nodes x.dofs a) * x.Ke a c * w (localKey x.nodes x.dofs c) = x.work w w := by
    unfold LinEl.work LinEl.force
    refine Finset.sum_congr rfl fun a _ => ?_
    rw [h0, sub_zero, Finset.mul_sum]
    exact Finset.sum_congr rfl fun c _ => by ring
  have hw : x.work w w = b.E * b.A / Bars.length (geo (b.n 1) - geo (b.n 0)) *
        Bars.elongation (fun a => geo (b.n a)) (fun a => nodal w (b.n a)) ^ 2 := by
    obtain ⟨Ke, k1, k2⟩ := hx.solid hs
    obtain ⟨Ke', k3, _, k4, _⟩ := Bars.C42_stiffness (pos := fun a => geo (b.n a)) hlen b.E b.A
    rw [k1, Option.some.injEq] at k3
    subst k3
    rw [k2.work, sub_zero, vecOf_two, k4]
  refine ⟨?_, hq.trans hw⟩
  unfold LinEl.energy
  rw [hq, hw]
  simp only [h0, mul_zero, Finset.sum_const_zero, sub_zero]

/-- C134 for trusses: with `E A ≥ 0` the reported displacements minimise half the sum of
`E A / L` times the squared elongations of the bars, less the work of the given loads. -/
theorem C134_truss {geo : Nat → Fin 3 → ℝ} {bars : List Bar} (hl : LegalModel S0 calls new (fixKeys fixs))
    (hload : ∀ l ∈ loads, keyOf l ∈ regKeys calls) (hp : ∀ x ∈ els, Placed S0 calls x) (ht : Truss geo bars els)
    (hEA : ∀ b ∈ bars, 0 ≤ b.E * b.A) (he : Exact eqs)
    (h : linearSolve eqs (linear els update) loads fixs calls new S0 e = .ok (S', e')) :
    ∃ u r : Key → ℝ, Reported S' (regKeys calls) u r ∧ Possible S0 calls new fixs u ∧
      ∀ v, Possible S0 calls new fixs v →
        (bars.map fun b => b.E * b.A / Bars.length (geo (b.n 1) - geo (b.n 0)) *
          Bars.elongation (fun a => geo (b.n a)) (fun a => nodal u (b.n a)) ^ 2 / 2).sum - givenWork calls loads u ≤
        (bars.map fun b => b.E * b.A / Bars.length (geo (b.n 1) - geo (b.n 0)) *
          Bars.elongation (fun a => geo (b.n a)) (fun a => nodal v (b.n a)) ^ 2 / 2).sum - givenWork calls loads v := by
  obtain ⟨hfa, hlen⟩ := ht
  have key : ∀ w : Key → ℝ, (els.map fun x => x.energy w).sum = (bars.map fun b => b.E * b.A / Bars.length (geo (b.n 1) - geo (b.n 0)) *
      Bars.elongation (fun a => geo (b.n a)) (fun a => nodal w (b.n a)) ^ 2 / 2).sum := by
    intro w
    clear h hEA
    induction hfa with
    | nil => rfl
    | @cons b x bs xs hx _ ih =>
      rw [List.map_cons, List.map_cons, List.sum_cons, List.sum_cons, ih (fun y hy => hp y (by simp [hy])) (fun y hy => hlen y (by simp [hy])),
        (hx.energy (hlen b (by simp)) (hp x (by simp)).symm w).1]
  have hpos : ∀ x ∈ els, ∀ d : Key → ℝ, 0 ≤ ∑ a ∈ range x.n, ∑ b ∈ range x.n,
      d (localKey x.nodes x.dofs a) * x.Ke a b * d (localKey x.nodes x.dofs b) := by
    clear h key
    induction hfa with
    | nil => intro x hx; cases hx
    | @cons b x bs xs hx _ ih =>
      intro y hy d
      rcases List.mem_cons.1 hy with rfl | hy
      · rw [(hx.energy (hlen b (by simp)) (hp y (by simp)).symm d).2]
        exact mul_nonneg (div_nonneg (hEA b (by simp)) (Bars.length_nonneg _)) (sq_nonneg _)
      · exact ih (fun y hy => hp y (by simp [hy])) (fun y hy => hEA y (by simp [hy])) (fun y hy => hlen y (by simp [hy])) y hy d
  obtain ⟨u, r, h1, h2, h3⟩ := C134_elements hl hload hp he hpos h
  refine ⟨u, r, h1, h2, fun v hv => ?_⟩
  rw [← key, ← key]
  exact h3 v hv

/-- The field with these values at the corners is the linear one of this gradient. -/
theorem Tet.gradient_spec {geo : Nat → Fin 3 → ℝ} {b : Tet} (hd : (Tetra.matS fun a => geo (b.n a)).det ≠ 0) (w : Key → ℝ) :
    ∃ t, (fun a => nodal w (b.n a)) = Tetra.affineField (fun a => geo (b.n a)) t (b.gradient geo w) := by
  refine ⟨fun i => ((Tetra.matS fun a => geo (b.n a))⁻¹ *ᵥ fun a => nodal w (b.n a) i) 0, ?_⟩
  funext a i
  have h : (Tetra.matS fun a => geo (b.n a)) *ᵥ ((Tetra.matS fun a => geo (b.n a))⁻¹ *ᵥ fun a => nodal w (b.n a) i) =
      fun a => nodal w (b.n a) i := by
    rw [Matrix.mulVec_mulVec, Matrix.mul_nonsing_inv _ (isUnit_iff_ne_zero.mpr hd), Matrix.one_mulVec]
  have ha := congrFun h a
  generalize hg : (Tetra.matS fun a => geo (b.n a))⁻¹ *ᵥ (fun a => nodal w (b.n a) i) = g at ha
  have hH : ∀ j, b.gradient geo w i j = g j.succ := fun j => by unfold Tet.gradient; rw [Matrix.of_apply, hg]
  unfold Tetra.affineField
  simp only [hH, hg]
  rw [← ha]
  fin_cases a <;> simp [Tetra.matS, Matrix.mulVec, dotProduct, Fin.sum_univ_succ] <;> ring

theorem quadForm_sub {m : Nat} {C : Matrix (Fin m) (Fin m) ℝ} (hC : C.transpose = C) (s t : Fin m → ℝ) :
    (s - t) ⬝ᵥ (C *ᵥ (s - t)) = s ⬝ᵥ (C *ᵥ s) - 2 * (s ⬝ᵥ (C *ᵥ t)) + t ⬝ᵥ (C *ᵥ t) := by
  have h : t ⬝ᵥ (C *ᵥ s) = s ⬝ᵥ (C *ᵥ t) := by
    rw [Matrix.dotProduct_mulVec, ← Matrix.mulVec_transpose, hC, dotProduct_comm]
  rw [Matrix.mulVec_sub, sub_dotProduct, dotProduct_sub, dotProduct_sub, h]
  ring

theorem TetraEl.energy {geo : Nat → Fin 3 → ℝ} {b : Tet} {x : LinEl ℝ} (hx : TetraEl geo b.n b.e x)
    (hd : 0 < (Tetra.matS fun a => geo (b.n a)).det) (ha : Tetra.Admissible b.e) (hs : ∀ a < x.n, ∀ c < x.n, x.Ke a c = x.Ke c a) :
    (∃ c, ∀ w, x.energy w = b.elastic geo w - c) ∧
    ∀ w : Key → ℝ, 0 ≤ ∑ a ∈ range x.n, ∑ c ∈ range x.n, w (localKey x.nodes x.dofs a) * x.Ke a c * w (localKey x.nodes x.dofs c) := by
  have hsol := hx.solid hd.ne' (Or.inr (Tetra.elast_regular ha.E ha.lo ha.hi)) hs
  have h1 : 1 + b.e.my ≠ 0 := by have := ha.lo; intro h; linarith
  have h2 : 1 - 2 * b.e.my ≠ 0 := by have := ha.hi; intro h; linarith
  have hq : ∀ w : Key → ℝ, ∑ a ∈ range x.n, ∑ c ∈ range x.n, w (localKey x.nodes x.dofs a) * x.Ke a c * w (localKey x.nodes x.dofs c) =
      Tetra.vec12 (fun a => nodal w (b.n a)) ⬝ᵥ (Tetra.stiff0 (fun a => geo (b.n a)) b.e.E b.e.my *ᵥ Tetra.vec12 (fun a => nodal w (b.n a))) := by
    intro w
    rw [hsol.size, Finset.sum_range]
    simp only [Finset.sum_range, hsol.matrix, hsol.value]
    unfold dotProduct Matrix.mulVec dotProduct
    refine Finset.sum_congr rfl fun i _ => ?_
    rw [Finset.mul_sum]
    exact Finset.sum_congr rfl fun j _ => mul_assoc _ _ _
  have hF : ∀ w : Key → ℝ, ∑ a ∈ range x.n, w (localKey x.nodes x.dofs a) * x.load a =
      Tetra.vec12 (fun a => nodal w (b.n a)) ⬝ᵥ Tetra.load0 (fun a => geo (b.n a)) b.e.E b.e.my (strains0 b.e) := by
    intro w
    rw [hsol.size, Finset.sum_range]
    simp only [hsol.load, hsol.value]
    rfl
  have hst : ∀ w : Key → ℝ, Tetra.strainMat (Tetra.G fun a => geo (b.n a)) *ᵥ Tetra.vec12 (fun a => nodal w (b.n a)) =
      Tetra.symGrad (b.gradient geo w) := by
    intro w
    obtain ⟨t, ht⟩ := Tet.gradient_spec hd.ne' w
    rw [ht]
    exact Tetra.strain_affine hd.ne' _ _
  have hq2 : ∀ w : Key → ℝ, Tetra.vec12 (fun a => nodal w (b.n a)) ⬝ᵥ
      (Tetra.stiff0 (fun a => geo (b.n a)) b.e.E b.e.my *ᵥ Tetra.vec12 (fun a => nodal w (b.n a))) =
      (Tetra.matS fun a => geo (b.n a)).det / 6 * (Tetra.symGrad (b.gradient geo w) ⬝ᵥ
        (Tetra.elast b.e.E b.e.my *ᵥ Tetra.symGrad (b.gradient geo w))) := by
    intro w
    unfold Tetra.stiff0
    rw [Matrix.smul_mulVec, dotProduct_smul, ← Matrix.mulVec_mulVec, ← Matrix.mulVec_mulVec, hst, Matrix.dotProduct_mulVec,
      Matrix.vecMul_transpose, hst, smul_eq_mul]
  have hF2 : ∀ w : Key → ℝ, Tetra.vec12 (fun a => nodal w (b.n a)) ⬝ᵥ Tetra.load0 (fun a => geo (b.n a)) b.e.E b.e.my (strains0 b.e) =
      (Tetra.matS fun a => geo (b.n a)).det / 6 * (Tetra.symGrad (b.gradient geo w) ⬝ᵥ (Tetra.elast b.e.E b.e.my *ᵥ strains0 b.e)) := by
    intro w
    unfold Tetra.load0
    rw [dotProduct_smul, ← Matrix.mulVec_mulVec, Matrix.dotProduct_mulVec, Matrix.vecMul_transpose, hst, smul_eq_mul]
  refine ⟨⟨(Tetra.matS fun a => geo (b.n a)).det / 6 / 2 * (strains0 b.e ⬝ᵥ (Tetra.elast b.e.E b.e.my *ᵥ strains0 b.e)), fun w => ?_⟩,
    fun w => ?_⟩
  · unfold LinEl.energy Tet.elastic
    rw [hq, hF, hq2, hF2, ← Tetra.elast_hooke h1 h2, quadForm_sub (Tetra.elast_symm _ _)]
    ring
  · rw [hq, hq2]
    refine mul_nonneg (by positivity) ?_
    have := (Tetra.elast_psd ha.E.le ha.lo ha.hi).dotProduct_mulVec_nonneg (Tetra.symGrad (b.gradient geo w))
    rwa [star_trivial] at this

/-- C134 for tetrahedra, also heated ones or with initial strains: the reported
displacements minimise the elastic energy less the work of the given loads. -/
theorem C134_tetra {geo : Nat → Fin 3 → ℝ} {bs : List Tet} (hl : LegalModel S0 calls new (fixKeys fixs))
    (hload : ∀ l ∈ loads, keyOf l ∈ regKeys calls) (hp : ∀ x ∈ els, Placed S0 calls x)
    (ht : List.Forall₂ (fun (b : Tet) x => TetraEl geo b.n b.e x) bs els)
    (hd : ∀ b ∈ bs, 0 < (Tetra.matS fun a => geo (b.n a)).det) (ha : ∀ b ∈ bs, Tetra.Admissible b.e)
    (he : Exact eqs)
    (h : linearSolve eqs (linear els update) loads fixs calls new S0 e = .ok (S', e')) :
    ∃ u r : Key → ℝ, Reported S' (regKeys calls) u r ∧ Possible S0 calls new fixs u ∧
      ∀ v, Possible S0 calls new fixs v →
        (bs.map fun b => b.elastic geo u).sum - givenWork calls loads u ≤ (bs.map fun b => b.elastic geo v).sum - givenWork calls loads v := by
  have key : (∃ c, ∀ w : Key → ℝ, (els.map fun x => x.energy w).sum = (bs.map fun b => b.elastic geo w).sum - c) ∧
      ∀ x ∈ els, ∀ d : Key → ℝ, 0 ≤ ∑ a ∈ range x.n, ∑ b ∈ range x.n,
        d (localKey x.nodes x.dofs a) * x.Ke a b * d (localKey x.nodes x.dofs b) := by
    clear h
    induction ht with
    | nil => exact ⟨⟨0, fun w => by simp⟩, fun x hx => by cases hx⟩
    | @cons b x bs xs hx _ ih =>
      obtain ⟨⟨c, hc⟩, hpos⟩ := ih (fun y hy => hp y (by simp [hy])) (fun y hy => hd y (by simp [hy])) (fun y hy => ha y (by simp [hy]))
      obtain ⟨⟨c1, h1⟩, h2⟩ := hx.energy (hd b (by simp)) (ha b (by simp)) (hp x (by simp)).symm
      refine ⟨⟨c1 + c, fun w => ?_⟩, fun y hy d => ?_⟩
      · rw [List.map_cons, List.map_cons, List.sum_cons, List.sum_cons, hc, h1]
        ring
      · rcases List.mem_cons.1 hy with rfl | hy
        · exact h2 d
        · exact hpos y hy d
  obtain ⟨⟨c, hc⟩, hpos⟩ := key
  obtain ⟨u, r, h1, h2, h3⟩ := C134_elements hl hload hp he hpos h
  refine ⟨u, r, h1, h2, fun v hv => ?_⟩
  have := h3 v hv
  rw [hc, hc] at this
  linarith

end

/-! ## A concrete case -/

/-- Displacements of the two bars with node 3 moved by `t`. -/
def tripodMove (t : ℝ) (k : Key) : ℝ :=
  if k = (.node, 2, .UY) then 2 else if k = (.node, 3, .UX) then t else 0

theorem tripodMove_possible (t : ℝ) : Possible tripodStorage tripodCalls [] tripodFixs (tripodMove t) := by
  refine ⟨fun k _ x hx => ?_, fun m hm => by simp [tripodStorage, Storage.fresh] at hm⟩
  obtain ⟨f, hf, hk, hv⟩ := lastFix_mem hx
  subst hk hv
  simp only [tripodFixs, List.mem_cons, List.not_mem_nil, or_false] at hf
  rcases hf with rfl | rfl | rfl | rfl | rfl | rfl | rfl | rfl <;> simp [tripodMove, keyOf]

/-- The two bars loaded by 7 with a moved support: no movement of node 3 has less energy than the reported displacements. -/
example : ∃ (S' : Storage ℝ) (u r : Key → ℝ), Reported S' (regKeys tripodCalls) u r ∧ ∀ t,
    (tripodBars.map fun b => b.E * b.A / Bars.length (tripod (b.n 1) - tripod (b.n 0)) *
      Bars.elongation (fun a => tripod (b.n a)) (fun a => nodal u (b.n a)) ^ 2 / 2).sum - givenWork tripodCalls [⟨3, .UX, 7⟩] u ≤
    (tripodBars.map fun b => b.E * b.A / Bars.length (tripod (b.n 1) - tripod (b.n 0)) *
      Bars.elongation (fun a => tripod (b.n a)) (fun a => nodal (tripodMove t) (b.n a)) ^ 2 / 2).sum -
        givenWork tripodCalls [⟨3, .UX, 7⟩] (tripodMove t) := by
  obtain ⟨S', e', h⟩ := tripod_solved 7
  obtain ⟨u, r, h1, _, h2⟩ := C134_truss tripod_legal (tripod_loads 7) tripod_placed tripod_truss (by
    intro b hb
    simp only [tripodBars, List.mem_cons, List.not_mem_nil, or_false] at hb
    rcases hb with rfl | rfl <;> norm_num) gauss_exact h
  exact ⟨S', u, r, h1, fun t => h2 _ (tripodMove_possible t)⟩

/-- The heated tetrahedron: no movement of its second node has less energy than the reported displacements. -/
example : ∃ (S' : Storage ℝ) (u r : Key → ℝ), Reported S' (regKeys cornerCalls) u r ∧ ∀ s,
    Tet.elastic corner ⟨![1, 2, 3, 4], heated⟩ u ≤ Tet.elastic corner ⟨![1, 2, 3, 4], heated⟩
      (fun k => if k = (.node, 2, .UX) then s else affine corner 0 (Tetra.expansion (1 / 20) 60) k) := by
  obtain ⟨S', e', h⟩ := corner_solved
  obtain ⟨u, r, h1, _, h2⟩ := C134_tetra (geo := corner) (bs := [⟨![1, 2, 3, 4], heated⟩]) corner_legal (by simp) corner_placed
    (List.Forall₂.cons corner_tetra .nil) (by
      intro b hb
      rw [List.mem_singleton] at hb
      subst hb
      rw [corner_det]
      norm_num) (by
      intro b hb
      rw [List.mem_singleton] at hb
      subst hb
      exact heated_admissible) gauss_exact h
  refine ⟨S', u, r, h1, fun s => ?_⟩
  have := h2 (fun k => if k = (.node, 2, .UX) then s else affine corner 0 (Tetra.expansion (1 / 20) 60) k)
    ⟨fun k _ x hx => by
      obtain ⟨f, hf, hk, hv⟩ := lastFix_mem hx
      subst hk hv
      simp only [cornerFixs, List.mem_cons, List.not_mem_nil, or_false] at hf
      rcases hf with rfl | rfl | rfl | rfl | rfl | rfl | rfl | rfl | rfl | rfl | rfl <;>
        norm_num [keyOf, affine, corner, Tetra.expansion, Matrix.smul_mulVec, Matrix.one_mulVec] <;>
        first | rfl | (intro c; cases c) | (rw [if_neg (by decide)]; exact mul_zero _),
     fun m hm => by simp [cornerStorage, Storage.fresh] at hm⟩
  simpa [givenWork, loadsOn] using this

end Nla3d.Struct
