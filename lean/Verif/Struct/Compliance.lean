import Verif.Struct.Minimum

/-!
# C136: a stiffer structure is not more compliant

Two solutions of `LinearFESolver::solve` under the same loads are compared.
-/

namespace Nla3d.Struct

open Nla3d.Dof Nla3d.Block Nla3d.Sparse Nla3d.Storage Nla3d.Solver Finset
open scoped Matrix

/-! ## Specification -/

/-- Strain energy of a bar. -/
noncomputable def Bar.strainEnergy (geo : Nat → Fin 3 → ℝ) (w : Key → ℝ) (b : Bar) : ℝ :=
  b.E * b.A / Bars.length (geo (b.n 1) - geo (b.n 0)) * Bars.elongation (fun a => geo (b.n a)) (fun a => nodal w (b.n a)) ^ 2 / 2

/-- The bars of the first truss, some of them perhaps stiffer, and perhaps further ones. -/
def Stiffer (bars bars' : List Bar) : Prop :=
  ∃ same extra, bars' = same ++ extra ∧ List.Forall₂ (fun b b' : Bar => b'.n = b.n ∧ b.E * b.A ≤ b'.E * b'.A) bars same

/-- The tetrahedra of the first solid, some of them perhaps with a larger Young's modulus, and perhaps further ones. -/
def StifferSolid (bs bs' : List Tet) : Prop :=
  ∃ same extra, bs' = same ++ extra ∧ List.Forall₂ (fun b b' : Tet => b'.n = b.n ∧ b'.e.my = b.e.my ∧ b.e.E ≤ b'.e.E) bs same

/-! ## Proofs -/

theorem elongation_smul (geo : Nat → Fin 3 → ℝ) (n : Fin 2 → Nat) (w : Key → ℝ) (t : ℝ) :
    Bars.elongation (fun a => geo (n a)) (fun a => nodal (fun k => t * w k) (n a)) =
      t * Bars.elongation (fun a => geo (n a)) (fun a => nodal w (n a)) := by
  simp only [Bars.elongation, Bars.dot, nodal, Pi.sub_apply, Fin.sum_univ_succ]
  ring

theorem strainEnergy_smul (geo : Nat → Fin 3 → ℝ) (w : Key → ℝ) (t : ℝ) (bars : List Bar) :
    (bars.map (Bar.strainEnergy geo fun k => t * w k)).sum = t ^ 2 * (bars.map (Bar.strainEnergy geo w)).sum := by
  rw [← List.sum_map_mul_left]
  refine congrArg List.sum (List.map_congr_left fun b _ => ?_)
  unfold Bar.strainEnergy
  rw [elongation_smul]
  ring

theorem strainEnergy_nonneg {geo : Nat → Fin 3 → ℝ} {b : Bar} (h : 0 ≤ b.E * b.A) (w : Key → ℝ) : 0 ≤ b.strainEnergy geo w := by
  unfold Bar.strainEnergy
  have := Bars.length_nonneg (geo (b.n 1) - geo (b.n 0))
  positivity

theorem Stiffer.energy {geo : Nat → Fin 3 → ℝ} {bars bars' : List Bar} (h : Stiffer bars bars') (hEA : ∀ b ∈ bars', 0 ≤ b.E * b.A)
    (w : Key → ℝ) : (bars.map (Bar.strainEnergy geo w)).sum ≤ (bars'.map (Bar.strainEnergy geo w)).sum := by
  obtain ⟨same, extra, rfl, hf⟩ := h
  rw [List.map_append, List.sum_append]
  have h1 : 0 ≤ (extra.map (Bar.strainEnergy geo w)).sum := by
    refine List.sum_nonneg fun y hy => ?_
    obtain ⟨b, hb, rfl⟩ := List.mem_map.mp hy
    exact strainEnergy_nonneg (hEA b (by simp [hb])) w
  have h2 : (bars.map (Bar.strainEnergy geo w)).sum ≤ (same.map (Bar.strainEnergy geo w)).sum := by
    clear hEA h1
    induction hf with
    | nil => simp
    | @cons b b' bs bs' hb _ ih =>
      rw [List.map_cons, List.map_cons, List.sum_cons, List.sum_cons]
      refine add_le_add ?_ ih
      unfold Bar.strainEnergy
      rw [hb.1]
      have := Bars.length_nonneg (geo (b.n 1) - geo (b.n 0))
      have h3 := hb.2
      gcongr
  linarith

theorem givenWork_smul (calls : List RegCall) (loads : List (Bc ℝ)) (w : Key → ℝ) (t : ℝ) :
    givenWork calls loads (fun k => t * w k) = t * givenWork calls loads w := by
  unfold givenWork
  rw [Finset.mul_sum]
  exact Finset.sum_congr rfl fun k _ => by ring

/-- A quadratic with its minimum at one. -/
theorem half_at_minimum {Q W : ℝ} (hQ : 0 ≤ Q) (h : ∀ t : ℝ, Q - W ≤ t ^ 2 * Q - t * W) : W = 2 * Q := by
  by_contra hne
  have hD : 0 < (2 * Q - W) ^ 2 := by
    have : 2 * Q - W ≠ 0 := fun c => hne (by linarith)
    positivity
  have h1 := h (1 - (2 * Q - W) / (Q + 1))
  have hq : 0 < Q + 1 := by linarith
  have h2 : (1 - (2 * Q - W) / (Q + 1)) ^ 2 * Q - (1 - (2 * Q - W) / (Q + 1)) * W - (Q - W) =
      -((2 * Q - W) ^ 2 / (Q + 1) ^ 2) := by
    field_simp
    ring
  have h3 : 0 < (2 * Q - W) ^ 2 / (Q + 1) ^ 2 := by positivity
  linarith

theorem Possible.smul {S0 : Storage ℝ} {calls : List RegCall} {new : List (Mpc ℝ)} {fixs : List (Bc ℝ)} {u : Key → ℝ}
    (h : Possible S0 calls new fixs u) (hz : ∀ f ∈ fixs, f.value = 0) (hb : ∀ m ∈ S0.mpcs ++ new, m.b = 0) (t : ℝ) :
    Possible S0 calls new fixs fun k => t * u k := by
  refine ⟨fun k hk x hx => ?_, fun m hm => ?_⟩
  · obtain ⟨f, hf, _, hv⟩ := lastFix_mem hx
    rw [h.prescribed k hk x hx, ← hv, hz f hf, mul_zero]
  · have := h.constraints m hm
    rw [hb m hm] at this ⊢
    rw [← mul_zero t, ← this, ← List.sum_map_mul_left]
    exact congrArg List.sum (List.map_congr_left fun q _ => by ring)

theorem loadsOn_other {calls : List RegCall} {loads : List (Bc ℝ)} (h : ∀ l ∈ loads, keyOf l ∈ regKeys calls) {k : Key}
    (hk : k ∉ regKeys calls) : loadsOn k loads = 0 := by
  unfold loadsOn
  rw [List.filter_eq_nil_iff.mpr]
  · rfl
  · intro l hl
    simp only [decide_eq_true_eq]
    rintro rfl
    exact hk (h l hl)

theorem Tet.gradient_smul (geo : Nat → Fin 3 → ℝ) (b : Tet) (w : Key → ℝ) (t : ℝ) :
    b.gradient geo (fun k => t * w k) = t • b.gradient geo w := by
  ext i j
  unfold Tet.gradient
  rw [Matrix.smul_apply, Matrix.of_apply, Matrix.of_apply]
  have : (fun a => nodal (fun k => t * w k) (b.n a) i) = t • fun a => nodal w (b.n a) i := rfl
  rw [this, Matrix.mulVec_smul]
  rfl

/-- The elastic energy without initial strains. -/
theorem Tet.elastic_free {geo : Nat → Fin 3 → ℝ} {b : Tet} (h0 : strains0 b.e = 0) (w : Key → ℝ) :
    b.elastic geo w = b.e.E * ((Tetra.matS fun a => geo (b.n a)).det / 6 / 2 * (Tetra.symGrad (b.gradient geo w) ⬝ᵥ
      Tetra.hooke (Tetra.lameLam 1 b.e.my) (Tetra.lameMu 1 b.e.my) (Tetra.symGrad (b.gradient geo w)))) := by
  unfold Tet.elastic
  have e1 : Tetra.lameLam b.e.E b.e.my = b.e.E * Tetra.lameLam 1 b.e.my := by unfold Tetra.lameLam; ring
  have e2 : Tetra.lameMu b.e.E b.e.my = b.e.E * Tetra.lameMu 1 b.e.my := by unfold Tetra.lameMu; ring
  rw [h0, sub_zero, e1, e2]
  generalize Tetra.lameLam 1 b.e.my = l
  generalize Tetra.lameMu 1 b.e.my = m
  generalize Tetra.symGrad (b.gradient geo w) = s
  have e3 : Tetra.hooke (b.e.E * l) (b.e.E * m) s = b.e.E • Tetra.hooke l m s := by
    funext i
    fin_cases i <;> simp [Tetra.hooke] <;> ring
  rw [e3, dotProduct_smul, smul_eq_mul]
  ring

theorem Tet.elastic_smul {geo : Nat → Fin 3 → ℝ} {b : Tet} (h0 : strains0 b.e = 0) (w : Key → ℝ) (t : ℝ) :
    b.elastic geo (fun k => t * w k) = t ^ 2 * b.elastic geo w := by
  rw [Tet.elastic_free h0, Tet.elastic_free h0, Tet.gradient_smul]
  have e1 : Tetra.symGrad (t • b.gradient geo w) = t • Tetra.symGrad (b.gradient geo w) := by
    funext i
    fin_cases i <;> simp [Tetra.symGrad] <;> ring
  rw [e1]
  generalize Tetra.lameLam 1 b.e.my = l
  generalize Tetra.lameMu 1 b.e.my = m
  generalize Tetra.symGrad (b.gradient geo w) = s
  have e2 : Tetra.hooke l m (t • s) = t • Tetra.hooke l m s := by
    funext i
    fin_cases i <;> simp [Tetra.hooke] <;> ring
  rw [e2, dotProduct_smul, smul_dotProduct, smul_eq_mul, smul_eq_mul]
  ring

theorem Tet.form_nonneg {geo : Nat → Fin 3 → ℝ} {b : Tet} (hd : 0 < (Tetra.matS fun a => geo (b.n a)).det) (ha : Tetra.Admissible b.e)
    (w : Key → ℝ) : 0 ≤ (Tetra.matS fun a => geo (b.n a)).det / 6 / 2 * (Tetra.symGrad (b.gradient geo w) ⬝ᵥ
      Tetra.hooke (Tetra.lameLam 1 b.e.my) (Tetra.lameMu 1 b.e.my) (Tetra.symGrad (b.gradient geo w))) := by
  have h1 : 1 + b.e.my ≠ 0 := by have := ha.lo; intro h; linarith
  have h2 : 1 - 2 * b.e.my ≠ 0 := by have := ha.hi; intro h; linarith
  rw [← Tetra.elast_hooke h1 h2]
  refine mul_nonneg (by positivity) ?_
  have := (Tetra.elast_psd (E := 1) (by norm_num) ha.lo ha.hi).dotProduct_mulVec_nonneg (Tetra.symGrad (b.gradient geo w))
  rwa [star_trivial] at this

theorem Tet.elastic_nonneg {geo : Nat → Fin 3 → ℝ} {b : Tet} (hd : 0 < (Tetra.matS fun a => geo (b.n a)).det) (ha : Tetra.Admissible b.e)
    (h0 : strains0 b.e = 0) (w : Key → ℝ) : 0 ≤ b.elastic geo w := by
  rw [Tet.elastic_free h0]
  exact mul_nonneg ha.E.le (Tet.form_nonneg hd ha w)

theorem StifferSolid.energy {geo : Nat → Fin 3 → ℝ} {bs bs' : List Tet} (h : StifferSolid bs bs')
    (hd' : ∀ b ∈ bs', 0 < (Tetra.matS fun a => geo (b.n a)).det) (ha' : ∀ b ∈ bs', Tetra.Admissible b.e)
    (h0 : ∀ b ∈ bs, strains0 b.e = 0) (h0' : ∀ b ∈ bs', strains0 b.e = 0) (w : Key → ℝ) :
    (bs.map fun b => b.elastic geo w).sum ≤ (bs'.map fun b => b.elastic geo w).sum := by
  obtain ⟨same, extra, rfl, hf⟩ := h
  rw [List.map_append, List.sum_append]
  have h1 : 0 ≤ (extra.map fun b => b.elastic geo w).sum := by
    refine List.sum_nonneg fun y hy => ?_
    obtain ⟨b, hb, rfl⟩ := List.mem_map.mp hy
    exact Tet.elastic_nonneg (hd' b (by simp [hb])) (ha' b (by simp [hb])) (h0' b (by simp [hb])) w
  have h2 : (bs.map fun b => b.elastic geo w).sum ≤ (same.map fun b => b.elastic geo w).sum := by
    have hd2 : ∀ b ∈ same, 0 < (Tetra.matS fun a => geo (b.n a)).det := fun b hb => hd' b (by simp [hb])
    have ha2 : ∀ b ∈ same, Tetra.Admissible b.e := fun b hb => ha' b (by simp [hb])
    have h02 : ∀ b ∈ same, strains0 b.e = 0 := fun b hb => h0' b (by simp [hb])
    clear h1 hd' ha' h0'
    induction hf with
    | nil => simp
    | @cons b b' bs bs' hb _ ih =>
      rw [List.map_cons, List.map_cons, List.sum_cons, List.sum_cons]
      refine add_le_add ?_ (ih (fun y hy => h0 y (by simp [hy])) (fun y hy => hd2 y (by simp [hy])) (fun y hy => ha2 y (by simp [hy]))
        (fun y hy => h02 y (by simp [hy])))
      have hn := Tet.form_nonneg (hd2 b' (by simp)) (ha2 b' (by simp)) w
      rw [Tet.elastic_free (h0 b (by simp)), Tet.elastic_free (h02 b' (by simp))]
      have hg : b'.gradient geo w = b.gradient geo w := by unfold Tet.gradient; rw [hb.1]
      rw [hg, hb.1, hb.2.1] at hn ⊢
      exact mul_le_mul_of_nonneg_right hb.2.2 hn
  linarith

section
variable {E : Type} {S0 S0' S1 S1' : Storage ℝ} {calls calls' : List RegCall} {new new' : List (Mpc ℝ)} {loads fixs fixs' : List (Bc ℝ)}
  {els els' : List (LinEl ℝ)} {update update' : E → Storage ℝ → E} {eqs : EqSolver ℝ} {e e' e1 e1' : E}

/-- Clapeyron: the loads do twice the strain energy. -/
theorem C136_work {geo : Nat → Fin 3 → ℝ} {bars : List Bar} (hl : LegalModel S0 calls new (fixKeys fixs))
    (hload : ∀ l ∈ loads, keyOf l ∈ regKeys calls) (hp : ∀ x ∈ els, Placed S0 calls x) (ht : Truss geo bars els)
    (hEA : ∀ b ∈ bars, 0 ≤ b.E * b.A) (hz : ∀ f ∈ fixs, f.value = 0) (hb : ∀ m ∈ S0.mpcs ++ new, m.b = 0) (he : Exact eqs)
    (h : linearSolve eqs (linear els update) loads fixs calls new S0 e = .ok (S1, e1)) :
    ∃ u r : Key → ℝ, Reported S1 (regKeys calls) u r ∧ Possible S0 calls new fixs u ∧
      givenWork calls loads u = 2 * (bars.map (Bar.strainEnergy geo u)).sum ∧
      ∀ v, Possible S0 calls new fixs v → (bars.map (Bar.strainEnergy geo u)).sum - givenWork calls loads u ≤
        (bars.map (Bar.strainEnergy geo v)).sum - givenWork calls loads v := by
  obtain ⟨u, r, h1, h2, h3⟩ := C134_truss hl hload hp ht hEA he h
  refine ⟨u, r, h1, h2, half_at_minimum ?_ fun t => ?_, h3⟩
  · refine List.sum_nonneg fun y hy => ?_
    obtain ⟨b, hb, rfl⟩ := List.mem_map.mp hy
    exact strainEnergy_nonneg (hEA b hb) u
  · rw [← strainEnergy_smul, ← givenWork_smul]
    exact h3 _ (h2.smul hz hb t)

/-- Comparison of two models that minimise their energies. -/
theorem less_work {Q Q' : (Key → ℝ) → ℝ} {u u' : Key → ℝ} (hload : ∀ l ∈ loads, keyOf l ∈ regKeys calls)
    (hz : ∀ f ∈ fixs, f.value = 0) (hz' : ∀ f ∈ fixs', f.value = 0)
    (hreg : regKeys calls ⊆ regKeys calls') (hfix : fixKeys fixs ⊆ fixKeys fixs') (hmpc : S0.mpcs ++ new ⊆ S0'.mpcs ++ new')
    (hQ : ∀ w, Q w ≤ Q' w) (a3 : givenWork calls loads u = 2 * Q u)
    (a4 : ∀ v, Possible S0 calls new fixs v → Q u - givenWork calls loads u ≤ Q v - givenWork calls loads v)
    (b2 : Possible S0' calls' new' fixs' u') (b3 : givenWork calls' loads u' = 2 * Q' u') :
    givenWork calls loads u' ≤ givenWork calls loads u := by
  have hW : givenWork calls' loads u' = givenWork calls loads u' := by
    unfold givenWork
    symm
    refine Finset.sum_subset (fun k hk => ?_) fun k _ hk => ?_
    · rw [List.mem_toFinset] at hk ⊢
      exact hreg hk
    · rw [List.mem_toFinset] at hk
      rw [loadsOn_other hload hk, mul_zero]
  have hposs : Possible S0 calls new fixs u' := by
    refine ⟨fun k hk x hx => ?_, fun m hm => b2.constraints m (hmpc hm)⟩
    obtain ⟨f, hf, hkf, hv⟩ := lastFix_mem hx
    have : k ∈ fixKeys fixs' := hfix (lastFix_isSome.mp (by rw [hx]; rfl))
    obtain ⟨y, hy⟩ := Option.isSome_iff_exists.mp (lastFix_isSome.mpr this)
    obtain ⟨g, hg, _, hgv⟩ := lastFix_mem hy
    rw [b2.prescribed k (hreg hk) y hy, ← hgv, ← hv, hz f hf, hz' g hg]
  have c1 := a4 u' hposs
  have c2 := hQ u'
  linarith

/-- **C136.** Two trusses under the same loads, both on rigid supports (zero values, homogeneous constraint equations). The second
has all bars of the first, none of them softer, and all its supports and constraint equations; it may have more of each, and more
nodes. The loads do not more work on the displacements reported for the second. -/
theorem C136_stiffer {geo : Nat → Fin 3 → ℝ} {bars bars' : List Bar} (hl : LegalModel S0 calls new (fixKeys fixs))
    (hl' : LegalModel S0' calls' new' (fixKeys fixs'))
    (hload : ∀ l ∈ loads, keyOf l ∈ regKeys calls) (hp : ∀ x ∈ els, Placed S0 calls x) (hp' : ∀ x ∈ els', Placed S0' calls' x)
    (ht : Truss geo bars els) (ht' : Truss geo bars' els') (hEA : ∀ b ∈ bars, 0 ≤ b.E * b.A) (hEA' : ∀ b ∈ bars', 0 ≤ b.E * b.A)
    (hz : ∀ f ∈ fixs, f.value = 0) (hz' : ∀ f ∈ fixs', f.value = 0)
    (hb : ∀ m ∈ S0.mpcs ++ new, m.b = 0) (hb' : ∀ m ∈ S0'.mpcs ++ new', m.b = 0) (he : Exact eqs)
    (hst : Stiffer bars bars') (hreg : regKeys calls ⊆ regKeys calls') (hfix : fixKeys fixs ⊆ fixKeys fixs')
    (hmpc : S0.mpcs ++ new ⊆ S0'.mpcs ++ new')
    (h : linearSolve eqs (linear els update) loads fixs calls new S0 e = .ok (S1, e1))
    (h' : linearSolve eqs (linear els' update') loads fixs' calls' new' S0' e' = .ok (S1', e1')) :
    ∃ u r u' r' : Key → ℝ, Reported S1 (regKeys calls) u r ∧ Reported S1' (regKeys calls') u' r' ∧
      givenWork calls loads u' ≤ givenWork calls loads u := by
  obtain ⟨u, r, a1, a2, a3, a4⟩ := C136_work hl hload hp ht hEA hz hb he h
  obtain ⟨u', r', b1, b2, b3, _⟩ := C136_work hl' (fun l m => hreg (hload l m)) hp' ht' hEA' hz' hb' he h'
  exact ⟨u, r, u', r', a1, b1, less_work hload hz hz' hreg hfix hmpc (hst.energy (geo := geo) hEA') a3 a4 b2 b3⟩

/-- C136 with one load: its point of application does not move further in its direction. -/
theorem C136_point {geo : Nat → Fin 3 → ℝ} {bars bars' : List Bar} {l : Bc ℝ} (hl : LegalModel S0 calls new (fixKeys fixs))
    (hl' : LegalModel S0' calls' new' (fixKeys fixs'))
    (hload : keyOf l ∈ regKeys calls) (hp : ∀ x ∈ els, Placed S0 calls x) (hp' : ∀ x ∈ els', Placed S0' calls' x)
    (ht : Truss geo bars els) (ht' : Truss geo bars' els') (hEA : ∀ b ∈ bars, 0 ≤ b.E * b.A) (hEA' : ∀ b ∈ bars', 0 ≤ b.E * b.A)
    (hz : ∀ f ∈ fixs, f.value = 0) (hz' : ∀ f ∈ fixs', f.value = 0)
    (hb : ∀ m ∈ S0.mpcs ++ new, m.b = 0) (hb' : ∀ m ∈ S0'.mpcs ++ new', m.b = 0) (he : Exact eqs)
    (hst : Stiffer bars bars') (hreg : regKeys calls ⊆ regKeys calls') (hfix : fixKeys fixs ⊆ fixKeys fixs')
    (hmpc : S0.mpcs ++ new ⊆ S0'.mpcs ++ new')
    (h : linearSolve eqs (linear els update) [l] fixs calls new S0 e = .ok (S1, e1))
    (h' : linearSolve eqs (linear els' update') [l] fixs' calls' new' S0' e' = .ok (S1', e1')) :
    ∃ d d', Post.solution S1 .node l.node l.dof = .ok d ∧ Post.solution S1' .node l.node l.dof = .ok d' ∧ l.value * d' ≤ l.value * d := by
  obtain ⟨u, r, u', r', h1, h2, h3⟩ := C136_stiffer hl hl' (by simpa using hload) hp hp' ht ht' hEA hEA' hz hz' hb hb' he hst hreg hfix hmpc h h'
  have hW : ∀ w, givenWork calls [l] w = l.value * w (keyOf l) := by
    intro w
    unfold givenWork
    rw [Finset.sum_eq_single (keyOf l)]
    · simp [loadsOn, mul_comm]
    · intro k _ hk
      have : loadsOn k [l] = 0 := by simp [loadsOn, Ne.symm hk]
      rw [this, mul_zero]
    · intro hk
      exact absurd (List.mem_toFinset.mpr hload) hk
  rw [hW, hW] at h3
  exact ⟨_, _, h1.solution _ _ hload, h2.solution _ _ (hreg hload), h3⟩

/-- Clapeyron for tetrahedra without initial strains. -/
theorem C136_solid_work {geo : Nat → Fin 3 → ℝ} {bs : List Tet} (hl : LegalModel S0 calls new (fixKeys fixs))
    (hload : ∀ l ∈ loads, keyOf l ∈ regKeys calls) (hp : ∀ x ∈ els, Placed S0 calls x)
    (ht : List.Forall₂ (fun (b : Tet) x => TetraEl geo b.n b.e x) bs els)
    (hd : ∀ b ∈ bs, 0 < (Tetra.matS fun a => geo (b.n a)).det) (ha : ∀ b ∈ bs, Tetra.Admissible b.e) (h0 : ∀ b ∈ bs, strains0 b.e = 0)
    (hz : ∀ f ∈ fixs, f.value = 0) (hb : ∀ m ∈ S0.mpcs ++ new, m.b = 0) (he : Exact eqs)
    (h : linearSolve eqs (linear els update) loads fixs calls new S0 e = .ok (S1, e1)) :
    ∃ u r : Key → ℝ, Reported S1 (regKeys calls) u r ∧ Possible S0 calls new fixs u ∧
      givenWork calls loads u = 2 * (bs.map fun b => b.elastic geo u).sum ∧
      ∀ v, Possible S0 calls new fixs v → (bs.map fun b => b.elastic geo u).sum - givenWork calls loads u ≤
        (bs.map fun b => b.elastic geo v).sum - givenWork calls loads v := by
  obtain ⟨u, r, h1, h2, h3⟩ := C134_tetra hl hload hp ht hd ha he h
  refine ⟨u, r, h1, h2, half_at_minimum ?_ fun t => ?_, h3⟩
  · refine List.sum_nonneg fun y hy => ?_
    obtain ⟨b, hb, rfl⟩ := List.mem_map.mp hy
    exact Tet.elastic_nonneg (hd b hb) (ha b hb) (h0 b hb) u
  · have hs : t ^ 2 * (bs.map fun b => b.elastic geo u).sum = (bs.map fun b => b.elastic geo fun k => t * u k).sum := by
      rw [← List.sum_map_mul_left]
      exact congrArg List.sum (List.map_congr_left fun b hb => (Tet.elastic_smul (h0 b hb) u t).symm)
    rw [hs, ← givenWork_smul]
    exact h3 _ (h2.smul hz hb t)

/-- C136 for solids of tetrahedra without initial strains: Young's moduli may be raised, tetrahedra, nodes, supports and constraint
equations added. -/
theorem C136_solid {geo : Nat → Fin 3 → ℝ} {bs bs' : List Tet} (hl : LegalModel S0 calls new (fixKeys fixs))
    (hl' : LegalModel S0' calls' new' (fixKeys fixs'))
    (hload : ∀ l ∈ loads, keyOf l ∈ regKeys calls) (hp : ∀ x ∈ els, Placed S0 calls x) (hp' : ∀ x ∈ els', Placed S0' calls' x)
    (ht : List.Forall₂ (fun (b : Tet) x => TetraEl geo b.n b.e x) bs els)
    (ht' : List.Forall₂ (fun (b : Tet) x => TetraEl geo b.n b.e x) bs' els')
    (hd : ∀ b ∈ bs, 0 < (Tetra.matS fun a => geo (b.n a)).det) (hd' : ∀ b ∈ bs', 0 < (Tetra.matS fun a => geo (b.n a)).det)
    (ha : ∀ b ∈ bs, Tetra.Admissible b.e) (ha' : ∀ b ∈ bs', Tetra.Admissible b.e)
    (h0 : ∀ b ∈ bs, strains0 b.e = 0) (h0' : ∀ b ∈ bs', strains0 b.e = 0)
    (hz : ∀ f ∈ fixs, f.value = 0) (hz' : ∀ f ∈ fixs', f.value = 0)
    (hb : ∀ m ∈ S0.mpcs ++ new, m.b = 0) (hb' : ∀ m ∈ S0'.mpcs ++ new', m.b = 0) (he : Exact eqs)
    (hst : StifferSolid bs bs') (hreg : regKeys calls ⊆ regKeys calls') (hfix : fixKeys fixs ⊆ fixKeys fixs')
    (hmpc : S0.mpcs ++ new ⊆ S0'.mpcs ++ new')
    (h : linearSolve eqs (linear els update) loads fixs calls new S0 e = .ok (S1, e1))
    (h' : linearSolve eqs (linear els' update') loads fixs' calls' new' S0' e' = .ok (S1', e1')) :
    ∃ u r u' r' : Key → ℝ, Reported S1 (regKeys calls) u r ∧ Reported S1' (regKeys calls') u' r' ∧
      givenWork calls loads u' ≤ givenWork calls loads u := by
  obtain ⟨u, r, a1, a2, a3, a4⟩ := C136_solid_work hl hload hp ht hd ha h0 hz hb he h
  obtain ⟨u', r', b1, b2, b3, _⟩ := C136_solid_work hl' (fun l m => hreg (hload l m)) hp' ht' hd' ha' h0' hz' hb' he h'
  exact ⟨u, r, u', r', a1, b1, less_work hload hz hz' hreg hfix hmpc (hst.energy hd' ha' h0 h0') a3 a4 b2 b3⟩

end

/-! ## A concrete case: the two bars of the sample on rigid supports, the first of them with any modulus -/

noncomputable def pairBars (q : ℝ) : List Bar := [⟨![1, 3], q, 2⟩, ⟨![2, 3], 10, 2⟩]

def pairFixs : List (Bc ℝ) := tripodFixs.map fun f => { f with value := 0 }

theorem pair_truss (q : ℝ) : Truss tripod (pairBars q) ((pairBars q).map (Bar.el tripod)) := by
  have hne : ∀ b ∈ pairBars q, tripod (b.n 0) ≠ tripod (b.n 1) := by
    intro b hb h
    have := congrFun h 0
    simp only [pairBars, List.mem_cons, List.not_mem_nil, or_false] at hb
    rcases hb with rfl | rfl <;> simp [tripod] at this
  exact ⟨List.forall₂_map_right_iff.mpr (List.forall₂_same.mpr fun b hb => Bar.el_truss (hne b hb)), hne⟩

theorem pair_placed (q : ℝ) : ∀ x ∈ (pairBars q).map (Bar.el tripod), Placed tripodStorage tripodCalls x := by
  intro x hx
  obtain ⟨b, hb, rfl⟩ := List.mem_map.mp hx
  refine ⟨?_, ?_, fun i _ j _ => Bar.el_symm ((pair_truss q).length b hb) i j⟩
  · simp only [pairBars, List.mem_cons, List.not_mem_nil, or_false] at hb
    rcases hb with rfl | rfl
    · exact ⟨⟨1, rfl⟩, show ∀ n ∈ [1, 3], ∀ t ∈ [DofType.UX, .UY, .UZ], (Side.node, n, t) ∈ regKeys tripodCalls by decide,
        show [DofType.UX, .UY, .UZ].Nodup by decide⟩
    · exact ⟨⟨2, rfl⟩, by decide, by decide⟩
  · simp only [pairBars, List.mem_cons, List.not_mem_nil, or_false] at hb
    rcases hb with rfl | rfl <;> simp [Bar.el]

theorem pair_legal : LegalModel tripodStorage tripodCalls [] (fixKeys pairFixs) := tripod_legal

theorem pair_force (q : ℝ) (u : Key → ℝ) (b : Bar) (hb : b ∈ pairBars q) :
    (b.el tripod).forceOn u (.node, 3, .UX) = 8 / 25 * b.E *
      (Bars.dot (nodal u (b.n 1) - nodal u (b.n 0)) (tripod (b.n 1) - tripod (b.n 0)) / 5) := by
  have hne := (pair_truss q).length b hb
  have h := (Bar.el_truss hne).forceOn (fun i _ j _ => Bar.el_symm hne i j) hne u
    (Bars.C42_stress (pos := fun a => tripod (b.n a)) hne b.E (fun a => nodal u (b.n a))) 3 0
  refine Eq.trans h ?_
  unfold Bar.dir Bars.unit Bars.elongation
  have hL : Bars.length (tripod (b.n 1) - tripod (b.n 0)) = 5 := by
    simp only [pairBars, List.mem_cons, List.not_mem_nil, or_false] at hb
    rcases hb with rfl | rfl
    · exact tripod_length ⟨![1, 3], 10, 2⟩ (by simp [tripodBars])
    · exact tripod_length ⟨![2, 3], 10, 2⟩ (by simp [tripodBars])
  simp only [pairBars, List.mem_cons, List.not_mem_nil, or_false] at hb
  rcases hb with rfl | rfl <;> dsimp only at hL ⊢ <;> rw [hL] <;> simp [Bar.sign, tripod] <;> ring

theorem pair_solved {q : ℝ} (hq : 0 ≤ q) (F : ℝ) : ∃ S' e', linearSolve Gauss.solveEquations
    (linear ((pairBars q).map (Bar.el tripod)) (fun _ _ => ())) [⟨3, .UX, F⟩] pairFixs tripodCalls [] tripodStorage () = .ok (S', e') := by
  refine one_free (k0 := (.node, 3, .UX)) pair_legal rfl (by simp [keyOf]; decide) (pair_placed q) (by decide)
    (show _ ∉ fixKeys tripodFixs by decide) (show ∀ k ∈ _, _ → k ∈ fixKeys tripodFixs by decide) (by decide) ?_
  have h : ∀ u : Key → ℝ, (((pairBars q).map (Bar.el tripod)).map fun x => x.forceOn u (.node, 3, .UX)).sum = ((pairBars q).map fun b =>
      8 / 25 * b.E * (Bars.dot (nodal u (b.n 1) - nodal u (b.n 0)) (tripod (b.n 1) - tripod (b.n 0)) / 5)).sum := by
    intro u
    rw [List.map_map]
    exact congrArg List.sum (List.map_congr_left fun b hb => pair_force q u b hb)
  rw [h, h]
  refine le_trans ?_ (le_abs_self _)
  simp [pairBars, tripod, nodal, axis, Bars.dot]
  nlinarith

/-- C136: with a stiffer first bar the joint moves not further. -/
example {q q' : ℝ} (h0 : 0 ≤ q) (hq : q ≤ q') : ∃ (S1 S1' : Storage ℝ) (d d' : ℝ),
    (∃ e, linearSolve Gauss.solveEquations (linear ((pairBars q).map (Bar.el tripod)) (fun _ _ => ())) [⟨3, .UX, 7⟩] pairFixs tripodCalls []
      tripodStorage () = .ok (S1, e)) ∧
    (∃ e, linearSolve Gauss.solveEquations (linear ((pairBars q').map (Bar.el tripod)) (fun _ _ => ())) [⟨3, .UX, 7⟩] pairFixs tripodCalls []
      tripodStorage () = .ok (S1', e)) ∧
    Post.solution S1 .node 3 .UX = .ok d ∧ Post.solution S1' .node 3 .UX = .ok d' ∧ d' ≤ d := by
  obtain ⟨S1, e1, h1⟩ := pair_solved h0 7
  obtain ⟨S1', e1', h1'⟩ := pair_solved (h0.trans hq) 7
  have hpos : ∀ {q : ℝ}, 0 ≤ q → ∀ b ∈ pairBars q, 0 ≤ b.E * b.A := by
    intro q h b hb
    simp only [pairBars, List.mem_cons, List.not_mem_nil, or_false] at hb
    rcases hb with rfl | rfl
    · show 0 ≤ q * 2
      linarith
    · norm_num
  have hz : ∀ f ∈ pairFixs, f.value = 0 := by
    intro f hf
    obtain ⟨g, _, rfl⟩ := List.mem_map.mp hf
    rfl
  have hm : ∀ m ∈ tripodStorage.mpcs ++ [], m.b = 0 := by intro m hm; simp [tripodStorage, Storage.fresh] at hm
  obtain ⟨d, d', a, b, c⟩ := C136_point (l := ⟨3, .UX, 7⟩) pair_legal pair_legal (by simp [keyOf]; decide) (pair_placed q) (pair_placed q')
    (pair_truss q) (pair_truss q') (hpos h0) (hpos (h0.trans hq)) hz hz hm hm gauss_exact
    ⟨pairBars q', [], by simp, .cons ⟨rfl, by show q * 2 ≤ q' * 2; linarith⟩ (.cons ⟨rfl, le_refl _⟩ .nil)⟩
    (fun _ h => h) (fun _ h => h) (fun _ h => h) h1 h1'
  exact ⟨S1, S1', d, d', ⟨_, h1⟩, ⟨_, h1'⟩, a, b, by simp only at c; linarith⟩

/-! ## A concrete case: the tetrahedron of the sample without temperature, on rigid supports, with any modulus -/

noncomputable def firm (q : ℝ) : Tetra.Elem0 := Tetra.fresh q (1 / 4) 0 0

/-- What `buildK` hands over for it. -/
noncomputable def firmEl (q : ℝ) : LinEl ℝ := { tetraEl corner ![1, 2, 3, 4] (firm q) with Fe := none }

def firmFixs : List (Bc ℝ) := cornerFixs.map fun f => { f with value := 0 }

theorem firm_admissible {q : ℝ} (hq : 0 < q) : Tetra.Admissible (firm q) := by
  refine ⟨hq, ?_, ?_⟩ <;> norm_num [firm, Tetra.fresh]

theorem firm_tetra {q : ℝ} (hq : 0 < q) : TetraEl corner ![1, 2, 3, 4] (firm q) (firmEl q) := by
  refine ⟨rfl, rfl, ?_⟩
  have ha := firm_admissible hq
  have h := Tetra.buildK0_eq (pos := fun a => corner (![1, 2, 3, 4] a)) (by rw [corner_det]; norm_num) (firm q)
    (Or.inr (Tetra.elast_regular ha.E ha.lo ha.hi))
  rw [if_neg (by simp [firm, Tetra.fresh])] at h
  rw [h]
  exact ⟨_, rfl⟩

theorem firm_strains (q : ℝ) : strains0 (firm q) = 0 := by
  unfold strains0 Tetra.addThermal Tetra.initial
  rw [if_neg (by simp [firm, Tetra.fresh]), if_pos (by simp [firm, Tetra.fresh])]
  rfl

theorem firm_legal : LegalModel cornerStorage cornerCalls [] (fixKeys firmFixs) := corner_legal

theorem firm_placed (q : ℝ) : ∀ x ∈ [firmEl q], Placed cornerStorage cornerCalls x := by
  intro x hx
  rw [List.mem_singleton] at hx
  subst hx
  exact ⟨⟨⟨1, rfl⟩, show ∀ n ∈ [1, 2, 3, 4], ∀ t ∈ [DofType.UX, .UY, .UZ], (Side.node, n, t) ∈ regKeys cornerCalls by decide,
    show [DofType.UX, .UY, .UZ].Nodup by decide⟩, show [1, 2, 3, 4].Nodup by decide, fun i _ j _ => tetraEl_symm _ _ _ i j⟩

theorem firm_solved {q : ℝ} (hq : 1 ≤ q) (F : ℝ) : ∃ S' e', linearSolve Gauss.solveEquations (linear [firmEl q] (fun _ _ => ()))
    [⟨2, .UX, F⟩] firmFixs cornerCalls [] cornerStorage () = .ok (S', e') := by
  refine one_free (k0 := (.node, 2, .UX)) firm_legal rfl (by simp [keyOf]; decide) (firm_placed q) (by decide)
    (show _ ∉ fixKeys cornerFixs by decide) (show ∀ k ∈ _, _ → k ∈ fixKeys cornerFixs by decide) (by decide) ?_
  have hd : (Tetra.matS fun a => corner (![1, 2, 3, 4] a)).det ≠ 0 := by rw [corner_det]; norm_num
  have hs := (firm_tetra (by linarith : 0 < q)).solid hd (Or.inl rfl) (fun i _ j _ => tetraEl_symm _ _ _ i j)
  simp only [List.map_cons, List.map_nil, List.sum_cons, List.sum_nil, add_zero, ← work_single]
  rw [hs.work, hs.work, ← dotProduct_sub, sub_sub_sub_cancel_right, ← Matrix.mulVec_sub]
  have e1 : (vecOf fun a => nodal (fun _ => (0 : ℝ)) (![1, 2, 3, 4] a) : Fin (4 * 3) → ℝ) = 0 := rfl
  have e2 : (vecOf fun a => nodal (fun k => if k = (Side.node, 2, DofType.UX) then (1 : ℝ) else 0) (![1, 2, 3, 4] a) : Fin (4 * 3) → ℝ) =
      Tetra.vec12 (Tetra.affineField (fun a => corner (![1, 2, 3, 4] a)) 0 (Matrix.single 0 0 1)) := by
    rw [vecOf_four]
    congr 1
    funext a i
    fin_cases a <;> fin_cases i <;> simp [nodal, axis, Tetra.affineField, corner, Matrix.single, Fin.sum_univ_three]
  rw [e1, e2, sub_zero]
  unfold Tetra.stiff0
  rw [Matrix.smul_mulVec, dotProduct_smul, ← Matrix.mulVec_mulVec, ← Matrix.mulVec_mulVec, Tetra.strain_affine hd,
    Matrix.dotProduct_mulVec, Matrix.vecMul_transpose, Tetra.strain_affine hd,
    Tetra.elast_hooke (by norm_num [firm, Tetra.fresh]) (by norm_num [firm, Tetra.fresh]), corner_det]
  refine le_trans ?_ (le_abs_self _)
  simp [Tetra.symGrad, Tetra.hooke, firm, Tetra.fresh, Matrix.single, dotProduct, Fin.sum_univ_succ, Tetra.lameLam, Tetra.lameMu]
  norm_num
  nlinarith

/-- C136: the loaded corner of a stiffer tetrahedron moves not further. -/
example {q q' : ℝ} (h1 : 1 ≤ q) (hq : q ≤ q') : ∃ (S1 S1' : Storage ℝ) (u r u' r' : Key → ℝ),
    Reported S1 (regKeys cornerCalls) u r ∧ Reported S1' (regKeys cornerCalls) u' r' ∧
      givenWork cornerCalls [⟨2, .UX, 7⟩] u' ≤ givenWork cornerCalls [⟨2, .UX, 7⟩] u := by
  obtain ⟨S1, e1, a⟩ := firm_solved h1 7
  obtain ⟨S1', e1', a'⟩ := firm_solved (h1.trans hq) 7
  have hd : ∀ q, ∀ b ∈ [(⟨![1, 2, 3, 4], firm q⟩ : Tet)], 0 < (Tetra.matS fun a => corner (b.n a)).det := by
    intro q b hb
    rw [List.mem_singleton] at hb
    subst hb
    rw [corner_det]
    norm_num
  have ha : ∀ q : ℝ, 1 ≤ q → ∀ b ∈ [(⟨![1, 2, 3, 4], firm q⟩ : Tet)], Tetra.Admissible b.e := by
    intro q h b hb
    rw [List.mem_singleton] at hb
    subst hb
    exact firm_admissible (by linarith)
  have h0 : ∀ q : ℝ, ∀ b ∈ [(⟨![1, 2, 3, 4], firm q⟩ : Tet)], strains0 b.e = 0 := by
    intro q b hb
    rw [List.mem_singleton] at hb
    subst hb
    exact firm_strains q
  have hz : ∀ f ∈ firmFixs, f.value = 0 := by
    intro f hf
    obtain ⟨g, _, rfl⟩ := List.mem_map.mp hf
    rfl
  have hm : ∀ m ∈ cornerStorage.mpcs ++ [], m.b = 0 := by intro m hm; simp [cornerStorage, Storage.fresh] at hm
  obtain ⟨u, r, u', r', b⟩ := C136_solid (geo := corner) firm_legal firm_legal (by simp [keyOf]; decide) (firm_placed q) (firm_placed q')
    (.cons (firm_tetra (by linarith)) .nil) (.cons (firm_tetra (by linarith)) .nil) (hd q) (hd q') (ha q h1) (ha q' (h1.trans hq))
    (h0 q) (h0 q') hz hz hm hm gauss_exact ⟨[⟨![1, 2, 3, 4], firm q'⟩], [], rfl, .cons ⟨rfl, rfl, hq⟩ .nil⟩ (fun _ h => h) (fun _ h => h) (fun _ h => h) a a'
  exact ⟨S1, S1', u, r, u', r', b⟩

end Nla3d.Struct
