import Verif.Struct.Solids

/-!
# C83-C85 for structures of bars and tetrahedra
-/

noncomputable section

namespace Nla3d.Struct

open Nla3d.Dof Nla3d.Block Nla3d.Sparse Nla3d.Storage Nla3d.Solver Finset
open scoped Matrix

/-- A bar of non-zero length or a tetrahedron of non-zero volume with an admissible material, with any initial stresses,
strains and temperatures. -/
inductive Mech (geo : Nat → Fin 3 → ℝ) (x : LinEl ℝ) : Prop
  | truss (n : Fin 2 → Nat) (E A : ℝ) (h : TrussEl geo n E A x) (hne : geo (n 0) ≠ geo (n 1))
  | tetra (n : Fin 4 → Nat) (e : Tetra.Elem0) (h : TetraEl geo n e x) (hd : (Tetra.matS fun a => geo (n a)).det ≠ 0)
      (ha : Tetra.Admissible e)

attribute [local irreducible] Tetra.stiff0 Tetra.load0 Tetra.elast Tetra.matS

theorem symGrad_skew {W : Matrix (Fin 3) (Fin 3) ℝ} (hW : Wᵀ = -W) : Tetra.symGrad W = 0 := by
  have w : ∀ i j, W j i = -W i j := fun i j => congrFun (congrFun hW i) j
  have d : ∀ i, W i i = 0 := fun i => by have := w i i; linarith
  funext r
  fin_cases r <;> simp [Tetra.symGrad, d, w 0 1, w 0 2, w 1 2]

theorem tetra_values (geo : Nat → Fin 3 → ℝ) (n : Fin 4 → Nat) (t : Fin 3 → ℝ) (H : Matrix (Fin 3) (Fin 3) ℝ) :
    (vecOf (fun a => nodal (affine geo t H) (n a)) : Fin 12 → ℝ) = Tetra.vec12 (Tetra.affineField (fun a => geo (n a)) t H) := by
  rw [vecOf_four]
  refine congrArg Tetra.vec12 ?_
  funext a i
  rw [nodal_affine]
  rfl

theorem symm_move {m : Nat} {M : Matrix (Fin m) (Fin m) ℝ} (h : M.IsSymm) (v w : Fin m → ℝ) : v ⬝ᵥ (M *ᵥ w) = (M *ᵥ v) ⬝ᵥ w := by
  rw [Matrix.dotProduct_mulVec, ← Matrix.mulVec_transpose, h.eq]

/-- Element forces do no work on rigid motions. -/
theorem Mech.rigid {geo : Nat → Fin 3 → ℝ} {x : LinEl ℝ} (h : Mech geo x) (hs : ∀ a < x.n, ∀ b < x.n, x.Ke a b = x.Ke b a)
    (t : Fin 3 → ℝ) {W : Matrix (Fin 3) (Fin 3) ℝ} (hW : Wᵀ = -W) (u : Key → ℝ) : x.work (affine geo t W) u = 0 := by
  cases h with
  | truss n E A h hne =>
    obtain ⟨Ke, h1, h2⟩ := h.solid hs
    obtain ⟨Ke', h3, h4, _, h5, _⟩ := Bars.C42_stiffness (pos := fun a => geo (n a)) hne E A
    rw [h1, Option.some.injEq] at h3
    subst h3
    rw [h2.work, sub_zero, symm_move h4, vecOf_two, h5, zero_dotProduct]
    have := Bars.C42_rigid (fun a => geo (n a)) t W hW
    simp only [nodal_affine]
    exact this
  | tetra n e h hd ha =>
    have h2 := h.solid hd (Or.inr (Tetra.elast_regular ha.E ha.lo ha.hi)) hs
    have hz := Tetra.strain_affine hd t W
    rw [symGrad_skew hW] at hz
    rw [h2.work, dotProduct_sub, symm_move (Tetra.stiff0_symm _ _ _), tetra_values]
    have e1 : Tetra.stiff0 (fun a => geo (n a)) e.E e.my *ᵥ Tetra.vec12 (Tetra.affineField (fun a => geo (n a)) t W) = 0 := by
      unfold Tetra.stiff0
      rw [Matrix.smul_mulVec, ← Matrix.mulVec_mulVec, hz, Matrix.mulVec_zero, smul_zero]
    have e2 : Tetra.vec12 (Tetra.affineField (fun a => geo (n a)) t W) ⬝ᵥ Tetra.load0 (fun a => geo (n a)) e.E e.my (strains0 e) = 0 := by
      unfold Tetra.load0
      rw [dotProduct_smul, ← Matrix.mulVec_mulVec, Matrix.dotProduct_mulVec, Matrix.vecMul_transpose, hz, zero_dotProduct, smul_zero]
    rw [e1, zero_dotProduct, e2, sub_zero]

section
variable {E : Type} {S0 S' : Storage ℝ} {calls : List RegCall} {new : List (Mpc ℝ)} {loads fixs : List (Bc ℝ)}
  {els : List (LinEl ℝ)} {update : E → Storage ℝ → E} {eqs : EqSolver ℝ} {e e' : E}

/-- **C84, balance of forces and moments.** In a solved structure of bars and tetrahedra the reported loads and reactions do no
work on rigid motions that obey the homogeneous constraint equations. With translations and rotations: their resultant force and
moment vanish. -/
theorem C84_balance {geo : Nat → Fin 3 → ℝ}
    (hl : LegalModel S0 calls new (fixKeys fixs)) (hload : ∀ l ∈ loads, keyOf l ∈ regKeys calls) (hp : ∀ x ∈ els, Placed S0 calls x)
    (hm : ∀ x ∈ els, Mech geo x)
    (hfix : ∀ f ∈ fixs, f.value = 0 ∨ (1 / 10 ^ 20 : ℝ) < |f.value|) (he : Exact eqs)
    (h : linearSolve eqs (linear els update) loads fixs calls new S0 e = .ok (S', e')) :
    ∃ u r : Key → ℝ, Reported S' (regKeys calls) u r ∧ Meets S0 calls new loads fixs u r ∧
      ∀ (t : Fin 3 → ℝ) (W : Matrix (Fin 3) (Fin 3) ℝ), Wᵀ = -W →
        (∀ m ∈ S0.mpcs ++ new, (m.eq.map fun q => q.coef * affine geo t W (.node, q.node, q.dof)).sum = 0) →
        ∑ k ∈ (regKeys calls).toFinset, affine geo t W k * r k = 0 := by
  obtain ⟨u, r, h1, h2, h3⟩ := C84_virtual_work hl hload hp hfix he h
  refine ⟨u, r, h1, h2, fun t W hW hc => ?_⟩
  rw [h3 _ hc]
  refine List.sum_eq_zero fun y hy => ?_
  obtain ⟨x, hx, rfl⟩ := List.mem_map.mp hy
  exact (hm x hx).rigid (hp x hx).symm t hW u

/-- The resultants, when there are no constraint equations and all DoFs are displacements of the nodes `ns`. -/
theorem C84_resultants {geo : Nat → Fin 3 → ℝ}
    (hl : LegalModel S0 calls new (fixKeys fixs)) (hload : ∀ l ∈ loads, keyOf l ∈ regKeys calls) (hp : ∀ x ∈ els, Placed S0 calls x)
    (hm : ∀ x ∈ els, Mech geo x)
    (hfix : ∀ f ∈ fixs, f.value = 0 ∨ (1 / 10 ^ 20 : ℝ) < |f.value|) (he : Exact eqs)
    (h : linearSolve eqs (linear els update) loads fixs calls new S0 e = .ok (S', e'))
    (hmpc : S0.mpcs ++ new = []) {ns : Finset Nat} (hreg : ∀ k, k ∈ regKeys calls ↔ ∃ n ∈ ns, ∃ i, k = (.node, n, axis i)) :
    ∃ R : Nat → Fin 3 → ℝ, (∀ n ∈ ns, ∀ i, Post.reaction S' n (axis i) = .ok (R n i)) ∧
      ∑ n ∈ ns, R n = 0 ∧ ∑ n ∈ ns, Bars.cross (geo n) (R n) = 0 := by
  obtain ⟨u, r, h1, _, h3⟩ := C84_balance hl hload hp hm hfix he h
  have hinj : Function.Injective axis := by
    intro p q; fin_cases p <;> fin_cases q <;> simp [axis]
  have hset : (regKeys calls).toFinset = (ns ×ˢ (Finset.univ : Finset (Fin 3))).image fun p => (Side.node, p.1, axis p.2) := by
    ext k
    simp only [List.mem_toFinset, hreg, Finset.mem_image, Finset.mem_product, Finset.mem_univ, and_true, Prod.exists]
    constructor
    · rintro ⟨n, hn, i, rfl⟩; exact ⟨n, i, hn, rfl⟩
    · rintro ⟨n, i, hn, rfl⟩; exact ⟨n, hn, i, rfl⟩
  have hsum : ∀ (t : Fin 3 → ℝ) (W : Matrix (Fin 3) (Fin 3) ℝ), Wᵀ = -W →
      ∑ n ∈ ns, (t + W *ᵥ geo n) ⬝ᵥ nodal r n = 0 := by
    intro t W hW
    have := h3 t W hW (by rw [hmpc]; simp)
    rw [hset, Finset.sum_image (by
      rintro ⟨n, i⟩ _ ⟨n', i'⟩ _ hh
      simp only [Prod.mk.injEq, true_and] at hh
      exact Prod.ext hh.1 (hinj hh.2)), Finset.sum_product] at this
    rw [← this]
    refine Finset.sum_congr rfl fun n _ => ?_
    rw [← nodal_affine]
    rfl
  refine ⟨nodal r, fun n hn i => h1.reaction n (axis i) ((hreg _).mpr ⟨n, hn, i, rfl⟩), ?_, ?_⟩
  · funext i
    have := hsum (Pi.single i 1) 0 (by simp)
    simp only [Matrix.zero_mulVec, add_zero, single_dotProduct, one_mul] at this
    rw [Finset.sum_apply]
    exact this
  · have hrot : ∀ (p q : Fin 3), p ≠ q → ∑ n ∈ ns, (geo n p * nodal r n q - geo n q * nodal r n p) = 0 := by
      intro p q hpq
      have := hsum 0 (Matrix.single q p 1 - Matrix.single p q 1) (by
        rw [Matrix.transpose_sub, Matrix.transpose_single, Matrix.transpose_single, neg_sub])
      rw [← this]
      refine Finset.sum_congr rfl fun n _ => ?_
      rw [zero_add, Matrix.sub_mulVec, sub_dotProduct]
      simp [Matrix.single_mulVec, dotProduct, Function.update_apply, Finset.sum_ite_eq']
    funext i
    rw [Finset.sum_apply]
    fin_cases i
    · exact hrot 1 2 (by decide)
    · exact hrot 2 0 (by decide)
    · exact hrot 0 1 (by decide)

end

/-! ## Trusses -/

/-- A bar: its nodes, elastic modulus and cross section. -/
structure Bar where
  n : Fin 2 → Nat
  E : ℝ
  A : ℝ

/-- The elements of a truss are the bars `bars`, in order. -/
structure Truss (geo : Nat → Fin 3 → ℝ) (bars : List Bar) (els : List (LinEl ℝ)) : Prop where
  els : List.Forall₂ (fun b x => TrussEl geo b.n b.E b.A x) bars els
  length : ∀ b ∈ bars, geo (b.n 0) ≠ geo (b.n 1)

/-- Unit vector from the first node of a bar to the second. -/
def Bar.dir (geo : Nat → Fin 3 → ℝ) (b : Bar) : Fin 3 → ℝ := Bars.unit (geo (b.n 1) - geo (b.n 0))

/-- The sign of the force a bar in tension exerts on a node along `dir`: the node must pull it with `+1` at its second end. -/
def Bar.sign (b : Bar) (k : Nat) : ℝ := (if b.n 1 = k then 1 else 0) - (if b.n 0 = k then 1 else 0)

theorem TrussEl.forceOn {geo : Nat → Fin 3 → ℝ} {b : Bar} {x : LinEl ℝ} (h : TrussEl geo b.n b.E b.A x)
    (hs : ∀ a < x.n, ∀ b < x.n, x.Ke a b = x.Ke b a) (hne : geo (b.n 0) ≠ geo (b.n 1)) (u : Key → ℝ) {s : ℝ}
    (hS : Bars.trussS (fun a => geo (b.n a)) b.E (fun a => nodal u (b.n a)) = some s) (k : Nat) (i : Fin 3) :
    x.forceOn u (.node, k, axis i) = b.A * s * b.sign k * b.dir geo i := by
  obtain ⟨Ke, h1, h2⟩ := h.solid hs
  rw [Bars.C42_stress (pos := fun a => geo (b.n a)) hne, Option.some.injEq] at hS
  have h3 := truss_mulVec (pos := fun a => geo (b.n a)) hne h1 (fun a => nodal u (b.n a))
  rw [h2.forceOn, Fin.sum_univ_two, vecOf_two, sub_zero, h3, ← hS]
  unfold Bar.sign Bar.dir
  generalize Bars.unit (geo (b.n 1) - geo (b.n 0)) = w
  generalize Bars.length (geo (b.n 1) - geo (b.n 0)) = L
  generalize (Bars.elongation (fun a => geo (b.n a)) fun a => nodal u (b.n a)) = q
  fin_cases i <;> by_cases c0 : b.n 0 = k <;> by_cases c1 : b.n 1 = k <;> simp [c0, c1, Bars.vec6, -mul_eq_mul_right_iff] <;> ring

section
variable {E : Type} {S0 S' : Storage ℝ} {calls : List RegCall} {new : List (Mpc ℝ)} {loads fixs : List (Bc ℝ)}
  {els : List (LinEl ℝ)} {update : E → Storage ℝ → E} {eqs : EqSolver ℝ} {e e' : E}

/-- **C83, equilibrium of the joints of a truss.** After a successful solution the forces of the bars at each joint - cross section
times the stress that `update` reports, along the bar - add up to the applied load plus reaction (plus constraint forces). -/
theorem C83_joints {geo : Nat → Fin 3 → ℝ} {bars : List Bar}
    (hl : LegalModel S0 calls new (fixKeys fixs)) (hload : ∀ l ∈ loads, keyOf l ∈ regKeys calls) (hp : ∀ x ∈ els, Placed S0 calls x)
    (ht : Truss geo bars els) (hfix : ∀ f ∈ fixs, f.value = 0 ∨ (1 / 10 ^ 20 : ℝ) < |f.value|) (he : Exact eqs)
    (h : linearSolve eqs (linear els update) loads fixs calls new S0 e = .ok (S', e')) :
    ∃ (u r : Key → ℝ) (l : List ℝ) (s : Bar → ℝ), Reported S' (regKeys calls) u r ∧ Meets S0 calls new loads fixs u r ∧
      l.length = (S0.mpcs ++ new).length ∧
      (∀ b ∈ bars, Bars.trussS (fun a => geo (b.n a)) b.E (fun a => nodal u (b.n a)) = some (s b)) ∧
      ∀ n i, (Side.node, n, axis i) ∈ regKeys calls →
        (bars.map fun b => b.A * s b * b.sign n * b.dir geo i).sum + conForce (S0.mpcs ++ new) l (.node, n, axis i) =
          r (.node, n, axis i) := by
  obtain ⟨u, r, l, h1, h2, h3, h4⟩ := C83_equilibrium hl hload hp hfix he h
  refine ⟨u, r, l, fun b => b.E * (Bars.elongation (fun a => geo (b.n a)) (fun a => nodal u (b.n a)) /
    Bars.length (geo (b.n 1) - geo (b.n 0))), h1, h2, h3, ?_, ?_⟩
  · intro b hb
    exact Bars.C42_stress (pos := fun a => geo (b.n a)) (ht.length b hb) _ _
  · intro n i hk
    rw [← h4 _ hk]
    refine congrArg (· + _) (congrArg List.sum ?_)
    obtain ⟨hfa, hlen⟩ := ht
    clear h h1 h2 h3 h4 hload
    induction hfa with
    | nil => rfl
    | @cons b x bs xs hx _ ih =>
      rw [List.map_cons, List.map_cons, ih (fun y hy => hp y (by simp [hy])) (fun y hy => hlen y (by simp [hy]))]
      congr 1
      exact (hx.forceOn (hp x (by simp)).symm (hlen b (by simp)) u
        (Bars.C42_stress (pos := fun a => geo (b.n a)) (hlen b (by simp)) _ _) n i).symm

/-- **C84, energy of a truss** (Clapeyron). Without prescribed right-hand sides of constraint equations the work of loads and
reactions on the displacements is the sum of `E A / L` times the squared elongation of the bars; for non-negative `E A` it is
not negative. -/
theorem C84_energy {geo : Nat → Fin 3 → ℝ} {bars : List Bar}
    (hl : LegalModel S0 calls new (fixKeys fixs)) (hload : ∀ l ∈ loads, keyOf l ∈ regKeys calls) (hp : ∀ x ∈ els, Placed S0 calls x)
    (ht : Truss geo bars els) (hfix : ∀ f ∈ fixs, f.value = 0 ∨ (1 / 10 ^ 20 : ℝ) < |f.value|) (he : Exact eqs)
    (h : linearSolve eqs (linear els update) loads fixs calls new S0 e = .ok (S', e')) (hb : ∀ m ∈ S0.mpcs ++ new, m.b = 0) :
    ∃ u r : Key → ℝ, Reported S' (regKeys calls) u r ∧ Meets S0 calls new loads fixs u r ∧
      ∑ k ∈ (regKeys calls).toFinset, u k * r k = (bars.map fun b => b.E * b.A / Bars.length (geo (b.n 1) - geo (b.n 0)) *
        Bars.elongation (fun a => geo (b.n a)) (fun a => nodal u (b.n a)) ^ 2).sum ∧
      ((∀ b ∈ bars, 0 ≤ b.E * b.A) → 0 ≤ ∑ k ∈ (regKeys calls).toFinset, u k * r k) := by
  obtain ⟨u, r, h1, h2, h3⟩ := C84_virtual_work hl hload hp hfix he h
  have heq : ∑ k ∈ (regKeys calls).toFinset, u k * r k = (bars.map fun b => b.E * b.A / Bars.length (geo (b.n 1) - geo (b.n 0)) *
        Bars.elongation (fun a => geo (b.n a)) (fun a => nodal u (b.n a)) ^ 2).sum := by
    rw [h3 u fun m hm => by rw [h2.constraints m hm, hb m hm]]
    refine congrArg List.sum ?_
    obtain ⟨hfa, hlen⟩ := ht
    clear h h1 h2 h3 hload
    induction hfa with
    | nil => rfl
    | @cons b x bs xs hx _ ih =>
      rw [List.map_cons, List.map_cons, ih (fun y hy => hp y (by simp [hy])) (fun y hy => hlen y (by simp [hy]))]
      congr 1
      obtain ⟨Ke, k1, k2⟩ := hx.solid (hp x (by simp)).symm
      obtain ⟨Ke', k3, _, k4, _⟩ := Bars.C42_stiffness (pos := fun a => geo (b.n a)) (hlen b (by simp)) b.E b.A
      rw [k1, Option.some.injEq] at k3
      subst k3
      rw [k2.work, sub_zero, vecOf_two, k4]
  refine ⟨u, r, h1, h2, heq, fun hpos => ?_⟩
  rw [heq]
  refine List.sum_nonneg fun y hy => ?_
  obtain ⟨b, hbm, rfl⟩ := List.mem_map.mp hy
  exact mul_nonneg (div_nonneg (hpos b hbm) (Bars.length_nonneg _)) (sq_nonneg _)

/-! ## Free expansion and rigid motion -/

/-- Elements without forces in the field `t + H x`: bars that keep their length, tetrahedra whose initial strains are those of
the field. -/
inductive Free (geo : Nat → Fin 3 → ℝ) (H : Matrix (Fin 3) (Fin 3) ℝ) (x : LinEl ℝ) : Prop
  | truss (n : Fin 2 → Nat) (E A : ℝ) (h : TrussEl geo n E A x) (hne : geo (n 0) ≠ geo (n 1))
      (hH : Bars.dot (H *ᵥ (geo (n 1) - geo (n 0))) (geo (n 1) - geo (n 0)) = 0)
  | tetra (n : Fin 4 → Nat) (e : Tetra.Elem0) (h : TetraEl geo n e x) (hd : (Tetra.matS fun a => geo (n a)).det ≠ 0)
      (ha : Tetra.Admissible e) (hH : strains0 e = Tetra.symGrad H)

theorem Free.force {geo : Nat → Fin 3 → ℝ} {H : Matrix (Fin 3) (Fin 3) ℝ} {x : LinEl ℝ} (h : Free geo H x)
    (hs : ∀ a < x.n, ∀ b < x.n, x.Ke a b = x.Ke b a) (t : Fin 3 → ℝ) {a : Nat} (ha : a < x.n) : x.force (affine geo t H) a = 0 := by
  cases h with
  | truss n E A h hne hH =>
    obtain ⟨Ke, h1, h2⟩ := h.solid hs
    obtain ⟨Ke', h3, _, _, h5, _⟩ := Bars.C42_stiffness (pos := fun a => geo (n a)) hne E A
    rw [h1, Option.some.injEq] at h3
    subst h3
    rw [h2.size] at ha
    have := h2.force (affine geo t H) ⟨a, ha⟩
    rw [vecOf_two, h5 _ (by
      unfold Bars.elongation
      rw [div_eq_zero_iff]
      left
      rw [← hH, Matrix.mulVec_sub]
      simp only [nodal_affine]
      congr 1
      funext i
      simp only [Pi.sub_apply, Pi.add_apply]
      ring)] at this
    rw [this]
    simp
  | tetra n e h hd ha' hH =>
    have h2 := h.solid hd (Or.inr (Tetra.elast_regular ha'.E ha'.lo ha'.hi)) hs
    rw [h2.size] at ha
    have := h2.force (affine geo t H) ⟨a, ha⟩
    rw [tetra_values, hH] at this
    rw [this, sub_eq_zero]
    refine congrFun ?_ _
    unfold Tetra.stiff0 Tetra.load0
    rw [Matrix.smul_mulVec, ← Matrix.mulVec_mulVec, Tetra.strain_affine hd]

/-- **C85, free expansion.** If no loads are applied, the prescribed values and constraint equations agree with a field
`t + H x`, and all elements are free of forces in that field, then a successful solution reports exactly that field, and no
reactions. -/
theorem C85_free {geo : Nat → Fin 3 → ℝ} {t : Fin 3 → ℝ} {H : Matrix (Fin 3) (Fin 3) ℝ}
    (hl : LegalModel S0 calls new (fixKeys fixs)) (hp : ∀ x ∈ els, Placed S0 calls x) (hfree : ∀ x ∈ els, Free geo H x)
    (hfix : ∀ f ∈ fixs, f.value = 0 ∨ (1 / 10 ^ 20 : ℝ) < |f.value|)
    (hval : ∀ f ∈ fixs, f.value = affine geo t H (keyOf f))
    (hmpc : ∀ m ∈ S0.mpcs ++ new, (m.eq.map fun q => q.coef * affine geo t H (.node, q.node, q.dof)).sum = m.b)
    (h : linearSolve Gauss.solveEquations (linear els update) [] fixs calls new S0 e = .ok (S', e')) :
    ∀ n d, (Side.node, n, d) ∈ regKeys calls →
      Post.solution S' .node n d = .ok (affine geo t H (.node, n, d)) ∧ Post.reaction S' n d = .ok 0 := by
  have hmeets : Meets S0 calls new [] fixs (affine geo t H) (fun _ => 0) := by
    refine ⟨?_, ?_, hmpc⟩
    · intro k _ x hx
      obtain ⟨f, hf, e1, e2⟩ := lastFix_mem hx
      rw [← e2, hval f hf, e1]
    · intro k _ _
      rfl
  have hbal : Balanced calls els (S0.mpcs ++ new) (List.replicate (S0.mpcs ++ new).length 0) (affine geo t H) (fun _ => 0) := by
    intro k _
    have e1 : (els.map fun x => x.forceOn (affine geo t H) k).sum = 0 := by
      refine List.sum_eq_zero fun y hy => ?_
      obtain ⟨x, hx, rfl⟩ := List.mem_map.mp hy
      unfold LinEl.forceOn
      refine Finset.sum_eq_zero fun a ha => ?_
      rw [(hfree x hx).force (hp x hx).symm t (Finset.mem_range.mp ha), ite_self]
    have e2 : conForce (S0.mpcs ++ new) (List.replicate (S0.mpcs ++ new).length 0) k = 0 := by
      unfold conForce
      refine List.sum_eq_zero fun y hy => ?_
      obtain ⟨p, hp', rfl⟩ := List.mem_map.mp hy
      rw [List.eq_of_mem_replicate (List.of_mem_zip hp').2, zero_mul]
    rw [e1, e2, add_zero]
  obtain ⟨u, r, h1, _, h2⟩ := C85_unique hl (by simp) hp hfix h (by simp) hmeets hbal
  intro n d hk
  obtain ⟨e1, e2⟩ := h2 _ hk
  rw [h1.solution n d hk, h1.reaction n d hk, e1, e2]
  exact ⟨rfl, rfl⟩

/-- **C85, rigid motion.** Supports moved by a rigid motion, no loads, no initial strains: the structure follows, without reactions. -/
theorem C85_rigid {geo : Nat → Fin 3 → ℝ} {t : Fin 3 → ℝ} {W : Matrix (Fin 3) (Fin 3) ℝ} (hW : Wᵀ = -W)
    (hl : LegalModel S0 calls new (fixKeys fixs)) (hp : ∀ x ∈ els, Placed S0 calls x) (hm : ∀ x ∈ els, Mech geo x)
    (hno : ∀ x ∈ els, ∀ n e, TetraEl geo n e x → strains0 e = 0)
    (hfix : ∀ f ∈ fixs, f.value = 0 ∨ (1 / 10 ^ 20 : ℝ) < |f.value|)
    (hval : ∀ f ∈ fixs, f.value = affine geo t W (keyOf f))
    (hmpc : ∀ m ∈ S0.mpcs ++ new, (m.eq.map fun q => q.coef * affine geo t W (.node, q.node, q.dof)).sum = m.b)
    (h : linearSolve Gauss.solveEquations (linear els update) [] fixs calls new S0 e = .ok (S', e')) :
    ∀ n d, (Side.node, n, d) ∈ regKeys calls →
      Post.solution S' .node n d = .ok (affine geo t W (.node, n, d)) ∧ Post.reaction S' n d = .ok 0 := by
  refine C85_free hl hp (fun x hx => ?_) hfix hval hmpc h
  cases hm x hx with
  | truss n E A h hne =>
    refine .truss n E A h hne ?_
    have w : ∀ i j, W j i = -W i j := fun i j => congrFun (congrFun hW i) j
    have d : ∀ i, W i i = 0 := fun i => by have := w i i; linarith
    simp only [Bars.dot, Matrix.mulVec, dotProduct, Fin.sum_univ_three, d, w 0 1, w 0 2, w 1 2]
    ring
  | tetra n e h hd ha => exact .tetra n e h hd ha (by rw [hno x hx n e h, symGrad_skew hW])

theorem strains0_heated {e : Tetra.Elem0} (hs : e.stress = 0) (hs' : e.strains = 0) (ha : e.alpha ≠ 0) (hT : e.T ≠ 0) :
    strains0 e = Tetra.symGrad (Tetra.expansion e.alpha e.T) := by
  unfold strains0 Tetra.addThermal Tetra.initial
  rw [if_pos ⟨ha, hT⟩, if_pos hs, hs']
  funext i
  fin_cases i <;> simp [Tetra.symGrad, Tetra.expansion]

/-- **C85, free thermal expansion.** Unloaded tetrahedra of any admissible materials with the same expansion `alpha T`, on supports
that do not hinder it: the reported displacements are `t + alpha T x`, the reported reactions zero. -/
theorem C85_thermal {geo : Nat → Fin 3 → ℝ} {t : Fin 3 → ℝ} {alpha T : ℝ} (ha : alpha ≠ 0) (hT : T ≠ 0)
    (hl : LegalModel S0 calls new (fixKeys fixs)) (hp : ∀ x ∈ els, Placed S0 calls x)
    (hels : ∀ x ∈ els, ∃ n E my, TetraEl geo n (Tetra.fresh E my alpha T) x ∧ (Tetra.matS fun a => geo (n a)).det ≠ 0 ∧
      Tetra.Admissible (Tetra.fresh E my alpha T))
    (hfix : ∀ f ∈ fixs, f.value = 0 ∨ (1 / 10 ^ 20 : ℝ) < |f.value|)
    (hval : ∀ f ∈ fixs, f.value = affine geo t (Tetra.expansion alpha T) (keyOf f))
    (hmpc : ∀ m ∈ S0.mpcs ++ new, (m.eq.map fun q => q.coef * affine geo t (Tetra.expansion alpha T) (.node, q.node, q.dof)).sum = m.b)
    (h : linearSolve Gauss.solveEquations (linear els update) [] fixs calls new S0 e = .ok (S', e')) :
    ∀ n i, (Side.node, n, axis i) ∈ regKeys calls →
      Post.solution S' .node n (axis i) = .ok (t i + alpha * T * geo n i) ∧ Post.reaction S' n (axis i) = .ok 0 := by
  intro n i hk
  have := C85_free hl hp (fun x hx => by
    obtain ⟨n, E, my, h1, h2, h3⟩ := hels x hx
    exact .tetra n _ h1 h2 h3 (strains0_heated rfl rfl ha hT)) hfix hval hmpc h n (axis i) hk
  have e1 : affine geo t (Tetra.expansion alpha T) (.node, n, axis i) = t i + alpha * T * geo n i := by
    have := congrFun (nodal_affine geo t (Tetra.expansion alpha T) n) i
    refine this.trans ?_
    simp [Tetra.expansion, Matrix.smul_mulVec]
  rwa [e1] at this

end

end Nla3d.Struct
