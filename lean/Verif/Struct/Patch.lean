import Verif.Struct.Heat
import Verif.Iso.Quadrature

/-!
# C88: the patch test

A mesh of tetrahedra whose free nodes lie inside the mesh and whose other nodes are prescribed by a linear field: the solved model
reports the linear field at every node.
-/

noncomputable section

namespace Nla3d.Struct

open Nla3d.Dof Nla3d.Block Nla3d.Sparse Nla3d.Storage Nla3d.Solver Finset
open scoped Matrix

/-! ## Specification -/

/-- The face opposite to a node of a tetrahedron. -/
def face : Fin 4 → Fin 3 → Fin 4 := ![![1, 3, 2], ![0, 2, 3], ![0, 3, 1], ![0, 1, 2]]

/-- The directed edges of the faces opposite to the node `k`, for all tetrahedra that have it. -/
def rim (ts : List (Fin 4 → Nat)) (k : Nat) : List (Nat × Nat) :=
  ts.flatMap fun n => (List.finRange 4).flatMap fun a =>
    if n a = k then (List.finRange 3).map fun i => (n (face a i), n (face a (i + 1))) else []

/-- The faces opposite to the node `k` form a closed surface: every edge is passed as often in one direction as in the other. -/
def Inner (ts : List (Fin 4 → Nat)) (k : Nat) : Prop := ∀ p q, (rim ts k).count (p, q) = (rim ts k).count (q, p)

/-- A tetrahedron of an admissible material that has the stress `σ` when the displacement gradient is `H`. -/
def Stressed (geo : Nat → Fin 3 → ℝ) (H : Matrix (Fin 3) (Fin 3) ℝ) (σ : Fin 6 → ℝ) (n : Fin 4 → Nat) (x : LinEl ℝ) : Prop :=
  ∃ e, TetraEl geo n e x ∧ (Tetra.matS fun a => geo (n a)).det ≠ 0 ∧ Tetra.Admissible e ∧
    Tetra.hooke (Tetra.lameLam e.E e.my) (Tetra.lameMu e.E e.my) (Tetra.symGrad H - strains0 e) = σ

/-! ## Closed surfaces -/

/-- Twice the area vector of the face opposite to a node. -/
def normal (pos : Fin 4 → Fin 3 → ℝ) (a : Fin 4) : Fin 3 → ℝ := ∑ i : Fin 3, Bars.cross (pos (face a i)) (pos (face a (i + 1)))

theorem det_G {pos : Fin 4 → Fin 3 → ℝ} (h : (Tetra.matS pos).det ≠ 0) (a : Fin 4) (i : Fin 3) :
    (Tetra.matS pos).det * Tetra.G pos a i = normal pos a i := by
  unfold Tetra.G normal
  fin_cases i <;> fin_cases a <;>
    simp [mul_div_cancel₀ _ h, Tetra.coefB, Tetra.coefC, Tetra.coefD, Fin.sum_univ_three, face, Bars.cross] <;> ring

theorem cross_anti (v w : Fin 3 → ℝ) : Bars.cross v w = -Bars.cross w v := by
  funext i
  fin_cases i <;> simp [Bars.cross] <;> ring

/-- The area vectors of the faces around an inner node add up to zero. -/
theorem inner_closed {ts : List (Fin 4 → Nat)} {k : Nat} (h : Inner ts k) (geo : Nat → Fin 3 → ℝ) :
    (ts.map fun n => ∑ a, if n a = k then normal (fun a => geo (n a)) a else 0).sum = 0 := by
  have e1 : (ts.map fun n => ∑ a, if n a = k then normal (fun a => geo (n a)) a else 0).sum =
      ((rim ts k).map fun e => Bars.cross (geo e.1) (geo e.2)).sum := by
    unfold rim
    clear h
    induction ts with
    | nil => rfl
    | cons n ts ih =>
      rw [List.map_cons, List.sum_cons, ih, List.flatMap_cons, List.map_append, List.sum_append]
      congr 1
      have : ∀ a : Fin 4, (if n a = k then normal (fun a => geo (n a)) a else 0) =
          ((if n a = k then (List.finRange 3).map fun i => (n (face a i), n (face a (i + 1))) else []).map
            fun e => Bars.cross (geo e.1) (geo e.2)).sum := by
        intro a
        split
        · simp [normal, List.finRange_succ, Fin.sum_univ_three, add_assoc]
        · rfl
      have gen : ∀ f : Fin 4 → List (Nat × Nat), ∑ a, ((f a).map fun e => Bars.cross (geo e.1) (geo e.2)).sum =
          (((List.finRange 4).flatMap f).map fun e => Bars.cross (geo e.1) (geo e.2)).sum := by
        intro f
        simp [List.finRange_succ, Fin.sum_univ_four, add_assoc]
      rw [← gen]
      exact Finset.sum_congr rfl fun a _ => this a
  have hperm : ((rim ts k).map Prod.swap).Perm (rim ts k) := by
    rw [List.perm_iff_count]
    rintro ⟨p, q⟩
    have := List.count_map_of_injective (rim ts k) Prod.swap Prod.swap_injective (q, p)
    rw [Prod.swap_prod_mk] at this
    rw [this, h q p]
  have e2 := (hperm.map fun e => Bars.cross (geo e.1) (geo e.2)).sum_eq
  have e3 : (((rim ts k).map Prod.swap).map fun e => Bars.cross (geo e.1) (geo e.2)).sum =
      -((rim ts k).map fun e => Bars.cross (geo e.1) (geo e.2)).sum := by
    generalize rim ts k = l
    induction l with
    | nil => simp
    | cons e l ih =>
      simp only [List.map_cons, List.sum_cons, neg_add, ih]
      rw [cross_anti]
      rfl
  rw [e1]
  rw [e3] at e2
  funext i
  have := congrFun e2 i
  simp only [Pi.neg_apply] at this
  rw [Pi.zero_apply]
  linarith

/-! ## Forces of a uniform stress -/

/-- The component `i` of the force per area on a face with the normal `g`. -/
def traction (σ : Fin 6 → ℝ) (g : Fin 3 → ℝ) (i : Fin 3) : ℝ := ∑ r, Tetra.strainOp g r i * σ r

theorem traction_add (σ : Fin 6 → ℝ) (g h : Fin 3 → ℝ) (i : Fin 3) : traction σ (g + h) i = traction σ g i + traction σ h i := by
  unfold traction
  fin_cases i <;> simp [Fin.sum_univ_succ, Tetra.strainOp] <;> ring

theorem traction_smul (σ : Fin 6 → ℝ) (c : ℝ) (g : Fin 3 → ℝ) (i : Fin 3) : traction σ (c • g) i = c * traction σ g i := by
  unfold traction
  fin_cases i <;> simp [Fin.sum_univ_succ, Tetra.strainOp] <;> ring

theorem traction_zero (σ : Fin 6 → ℝ) (i : Fin 3) : traction σ 0 i = 0 := by
  have := traction_smul σ 0 0 i
  rwa [zero_smul, zero_mul] at this

theorem traction_sum {ι : Type} (σ : Fin 6 → ℝ) (s : Finset ι) (g : ι → Fin 3 → ℝ) (i : Fin 3) :
    traction σ (∑ a ∈ s, g a) i = ∑ a ∈ s, traction σ (g a) i := by
  classical
  induction s using Finset.induction_on with
  | empty => exact traction_zero σ i
  | insert a s ha ih => rw [Finset.sum_insert ha, Finset.sum_insert ha, traction_add, ih]

attribute [local irreducible] Tetra.stiff0 Tetra.load0 Tetra.elast Tetra.matS

theorem stressed_force {geo : Nat → Fin 3 → ℝ} {H : Matrix (Fin 3) (Fin 3) ℝ} {σ : Fin 6 → ℝ} {n : Fin 4 → Nat} {x : LinEl ℝ}
    (h : Stressed geo H σ n x) (hs : ∀ a < x.n, ∀ b < x.n, x.Ke a b = x.Ke b a) (t : Fin 3 → ℝ) (k : Nat) (i : Fin 3) :
    x.forceOn (affine geo t H) (.node, k, axis i) =
      traction σ (∑ a, if n a = k then normal (fun a => geo (n a)) a else 0) i / 6 := by
  obtain ⟨e, h1, h2, h3, h4⟩ := h
  have hS := h1.solid h2 (Or.inr (Tetra.elast_regular h3.E h3.lo h3.hi)) hs
  have a1 : 1 + e.my ≠ 0 := by have := h3.lo; intro h; linarith
  have a2 : 1 - 2 * e.my ≠ 0 := by have := h3.hi; intro h; linarith
  rw [hS.forceOn, traction_sum, Finset.sum_div]
  refine Finset.sum_congr rfl fun a _ => ?_
  split
  swap
  · rw [traction_zero, zero_div]
  rw [tetra_values]
  have e1 : Tetra.stiff0 (fun a => geo (n a)) e.E e.my *ᵥ Tetra.vec12 (Tetra.affineField (fun a => geo (n a)) t H) -
      Tetra.load0 (fun a => geo (n a)) e.E e.my (strains0 e) =
      ((Tetra.matS fun a => geo (n a)).det / 6) • ((Tetra.strainMat (Tetra.G fun a => geo (n a)))ᵀ *ᵥ σ) := by
    unfold Tetra.stiff0 Tetra.load0
    rw [Matrix.smul_mulVec, ← Matrix.mulVec_mulVec, Tetra.strain_affine h2, ← smul_sub, ← Matrix.mulVec_sub, ← Matrix.mulVec_mulVec,
      Tetra.elast_hooke a1 a2, h4]
  rw [e1, ← funext (det_G h2 a), show (fun i => (Tetra.matS fun a => geo (n a)).det * Tetra.G (fun a => geo (n a)) a i) =
    (Tetra.matS fun a => geo (n a)).det • Tetra.G (fun a => geo (n a)) a from rfl, traction_smul]
  show _ / 6 * (∑ r, Tetra.strainMat (Tetra.G fun a => geo (n a)) r ⟨a.val * 3 + i.val, by omega⟩ * σ r) = _
  have e2 : ∀ r, Tetra.strainMat (Tetra.G fun a => geo (n a)) r ⟨a.val * 3 + i.val, by omega⟩ =
      Tetra.strainOp (Tetra.G (fun a => geo (n a)) a) r i := by
    intro r
    show Tetra.strainOp (Tetra.G _ ⟨(a.val * 3 + i.val) / 3, _⟩) r ⟨(a.val * 3 + i.val) % 3, _⟩ = _
    have e3 : (⟨(a.val * 3 + i.val) / 3, by omega⟩ : Fin 4) = a := Fin.ext (by show (a.val * 3 + i.val) / 3 = _; omega)
    have e4 : (⟨(a.val * 3 + i.val) % 3, Nat.mod_lt _ (by norm_num)⟩ : Fin 3) = i := Fin.ext (by show (a.val * 3 + i.val) % 3 = _; omega)
    rw [e3, e4]
  simp only [e2]
  unfold traction
  ring

theorem stressed_sum {geo : Nat → Fin 3 → ℝ} {H : Matrix (Fin 3) (Fin 3) ℝ} {σ : Fin 6 → ℝ} {ts : List (Fin 4 → Nat)}
    {els : List (LinEl ℝ)} (h : List.Forall₂ (Stressed geo H σ) ts els)
    (hs : ∀ x ∈ els, ∀ a < x.n, ∀ b < x.n, x.Ke a b = x.Ke b a) (t : Fin 3 → ℝ) (k : Nat) (i : Fin 3) :
    (els.map fun x => x.forceOn (affine geo t H) (.node, k, axis i)).sum =
      traction σ (ts.map fun n => ∑ a, if n a = k then normal (fun a => geo (n a)) a else 0).sum i / 6 := by
  induction h with
  | nil => simp [traction_zero]
  | cons h1 _ ih =>
    rw [List.map_cons, List.sum_cons, List.map_cons, List.sum_cons, traction_add, add_div,
      stressed_force h1 (hs _ List.mem_cons_self), ih fun x hx => hs x (List.mem_cons_of_mem _ hx)]

section
variable {E : Type} {S0 S' : Storage ℝ} {calls : List RegCall} {new : List (Mpc ℝ)} {fixs : List (Bc ℝ)}
  {els : List (LinEl ℝ)} {update : E → Storage ℝ → E} {e e' : E}

/-- A field with the prescribed values under which the elements exert no forces on the free DoFs is the reported one. -/
theorem solved_field {u : Key → ℝ} (hl : LegalModel S0 calls new (fixKeys fixs)) (hp : ∀ x ∈ els, Placed S0 calls x)
    (hfree : ∀ k ∈ regKeys calls, k ∉ fixKeys fixs → (els.map fun x => x.forceOn u k).sum = 0)
    (hfix : ∀ f ∈ fixs, f.value = 0 ∨ (1 / 10 ^ 20 : ℝ) < |f.value|) (hval : ∀ f ∈ fixs, f.value = u (keyOf f))
    (hmpc : ∀ m ∈ S0.mpcs ++ new, (m.eq.map fun q => q.coef * u (.node, q.node, q.dof)).sum = m.b)
    (h : linearSolve Gauss.solveEquations (linear els update) [] fixs calls new S0 e = .ok (S', e')) :
    ∀ n d, (Side.node, n, d) ∈ regKeys calls → Post.solution S' .node n d = .ok (u (.node, n, d)) := by
  have hmeets : Meets S0 calls new [] fixs u (fun k => (els.map fun x => x.forceOn u k).sum) := by
    refine ⟨?_, fun k hk hf => hfree k hk hf, hmpc⟩
    intro k _ x hx
    obtain ⟨f, hf, e1, e2⟩ := lastFix_mem hx
    rw [← e2, hval f hf, e1]
  have hbal : Balanced calls els (S0.mpcs ++ new) (List.replicate (S0.mpcs ++ new).length 0) u
      (fun k => (els.map fun x => x.forceOn u k).sum) := by
    intro k _
    have e2 : conForce (S0.mpcs ++ new) (List.replicate (S0.mpcs ++ new).length 0) k = 0 := by
      unfold conForce
      refine List.sum_eq_zero fun y hy => ?_
      obtain ⟨p, hp', rfl⟩ := List.mem_map.mp hy
      rw [List.eq_of_mem_replicate (List.of_mem_zip hp').2, zero_mul]
    rw [e2, add_zero]
  obtain ⟨v, r, h1, _, h2⟩ := C85_unique hl (by simp) hp hfix h (by simp) hmeets hbal
  intro n d hk
  rw [h1.solution n d hk, (h2 _ hk).1]

/-- **C88, patch test.** Tetrahedra in which the displacement gradient `H` gives the same stress, any mesh: when every free DoF
belongs to a node inside the mesh and the prescribed values are those of the field `t + H x`, the reported displacements are
`t + H x` at every node. -/
theorem C88_patch {geo : Nat → Fin 3 → ℝ} {t : Fin 3 → ℝ} {H : Matrix (Fin 3) (Fin 3) ℝ} {σ : Fin 6 → ℝ} {ts : List (Fin 4 → Nat)}
    (hl : LegalModel S0 calls new (fixKeys fixs)) (hp : ∀ x ∈ els, Placed S0 calls x)
    (hels : List.Forall₂ (Stressed geo H σ) ts els)
    (hin : ∀ k ∈ regKeys calls, k ∉ fixKeys fixs → ∃ n i, k = (.node, n, axis i) ∧ Inner ts n)
    (hfix : ∀ f ∈ fixs, f.value = 0 ∨ (1 / 10 ^ 20 : ℝ) < |f.value|)
    (hval : ∀ f ∈ fixs, f.value = affine geo t H (keyOf f))
    (hmpc : ∀ m ∈ S0.mpcs ++ new, (m.eq.map fun q => q.coef * affine geo t H (.node, q.node, q.dof)).sum = m.b)
    (h : linearSolve Gauss.solveEquations (linear els update) [] fixs calls new S0 e = .ok (S', e')) :
    ∀ n i, (Side.node, n, axis i) ∈ regKeys calls → Post.solution S' .node n (axis i) = .ok (t i + (H *ᵥ geo n) i) := by
  intro n i hk
  rw [solved_field hl hp (fun k hk hf => ?_) hfix hval hmpc h n _ hk]
  · exact congrArg Res.ok (congrFun (nodal_affine geo t H n) i)
  · obtain ⟨n, i, rfl, hi⟩ := hin k hk hf
    rw [stressed_sum hels (fun x hx => (hp x hx).symm), inner_closed hi, traction_zero, zero_div]

/-- C88, the strains and stresses computed from the reported displacements are uniform. -/
theorem C88_stress {geo : Nat → Fin 3 → ℝ} {t : Fin 3 → ℝ} {H : Matrix (Fin 3) (Fin 3) ℝ} {σ : Fin 6 → ℝ} {ts : List (Fin 4 → Nat)}
    (hl : LegalModel S0 calls new (fixKeys fixs)) (hp : ∀ x ∈ els, Placed S0 calls x)
    (hels : List.Forall₂ (Stressed geo H σ) ts els)
    (hin : ∀ k ∈ regKeys calls, k ∉ fixKeys fixs → ∃ n i, k = (.node, n, axis i) ∧ Inner ts n)
    (hfix : ∀ f ∈ fixs, f.value = 0 ∨ (1 / 10 ^ 20 : ℝ) < |f.value|)
    (hval : ∀ f ∈ fixs, f.value = affine geo t H (keyOf f))
    (hmpc : ∀ m ∈ S0.mpcs ++ new, (m.eq.map fun q => q.coef * affine geo t H (.node, q.node, q.dof)).sum = m.b)
    (h : linearSolve Gauss.solveEquations (linear els update) [] fixs calls new S0 e = .ok (S', e'))
    {x : LinEl ℝ} (hx : x ∈ els) {n : Fin 4 → Nat} {m : Tetra.Elem0} (hm : TetraEl geo n m x)
    (hd : (Tetra.matS fun a => geo (n a)).det ≠ 0) (ha : Tetra.Admissible m) :
    ∃ U m1 K F m2, (∀ a i, Post.solution S' .node (n a) (axis i) = .ok (U a i)) ∧
      Tetra.buildK0 (fun a => geo (n a)) m = .ok (m1, K, F) ∧ Tetra.update0 (fun a => geo (n a)) U m1 = .ok m2 ∧
      m2.strains = Tetra.symGrad H ∧ m2.stress = Tetra.hooke (Tetra.lameLam m.E m.my) (Tetra.lameMu m.E m.my) (Tetra.symGrad H) := by
  obtain ⟨m1, K, F, m2, h1, h2, h3, h4⟩ := Tetra.C38_strain hd ha t H
  refine ⟨_, m1, K, F, m2, ?_, h1, h2, h3, h4⟩
  intro a i
  have hk : (Side.node, n a, axis i) ∈ regKeys calls := by
    have hS := hm.solid hd (Or.inr (Tetra.elast_regular ha.E ha.lo ha.hi)) (hp x hx).symm
    have e1 : a.val * 3 + i.val < 12 := by omega
    have := localKey_reg (hp x hx).on (show a.val * 3 + i.val < x.n by rw [hS.size]; exact e1)
    have e2 := hS.key ⟨a.val * 3 + i.val, e1⟩
    have e3 : (⟨(a.val * 3 + i.val) / 3, by omega⟩ : Fin 4) = a := Fin.ext (by show (a.val * 3 + i.val) / 3 = _; omega)
    have e4 : (⟨(a.val * 3 + i.val) % 3, Nat.mod_lt _ (by norm_num)⟩ : Fin 3) = i := Fin.ext (by show (a.val * 3 + i.val) % 3 = _; omega)
    simp only [e3, e4] at e2
    rwa [e2] at this
  exact C88_patch hl hp hels hin hfix hval hmpc h (n a) i hk

end

/-! ## Heat -/

/-- The temperature `c + b x`. -/
def linearT (geo : Nat → Fin 3 → ℝ) (c : ℝ) (b : Fin 3 → ℝ) : Key → ℝ
  | (.node, n, .TEMP) => c + ∑ j, b j * geo n j
  | _ => 0

theorem Scalar.forceOn {x : LinEl ℝ} {m : Nat} {n : Fin m → Nat} {M : Matrix (Fin m) (Fin m) ℝ} {F : Fin m → ℝ} (h : Scalar x n M F)
    (T : Key → ℝ) (k : Nat) :
    x.forceOn T (.node, k, .TEMP) = ∑ a : Fin m, if n a = k then (M *ᵥ (fun a => temp T (n a)) - F) a else 0 := by
  unfold LinEl.forceOn LinEl.force
  rw [h.size, Finset.sum_range]
  refine Finset.sum_congr rfl fun a _ => ?_
  simp only [h.key, h.load, Finset.sum_range, h.matrix, Prod.mk.injEq, true_and, and_true]
  rfl

/-- A tetrahedron TETRA1 of the conductivity `k` that is not degenerate. -/
def Conducts (geo : Nat → Fin 3 → ℝ) (k : ℝ) (n : Fin 4 → Nat) (x : LinEl ℝ) : Prop :=
  HeatTetra geo n k x ∧ (Tetra.matS fun a => geo (n a)).det ≠ 0

theorem conducts_force {geo : Nat → Fin 3 → ℝ} {k : ℝ} {n : Fin 4 → Nat} {x : LinEl ℝ} (h : Conducts geo k n x)
    (hs : ∀ a < x.n, ∀ b < x.n, x.Ke a b = x.Ke b a) (c : ℝ) (b : Fin 3 → ℝ) (m : Nat) :
    x.forceOn (linearT geo c b) (.node, m, .TEMP) =
      -(k / 6) * (b ⬝ᵥ ∑ a, if n a = m then normal (fun a => geo (n a)) a else 0) := by
  obtain ⟨h1, h2⟩ := h
  obtain ⟨vol, hb⟩ := h1.built
  rw [Tetra.buildK1_eq h2, Res.ok.injEq, Prod.mk.injEq] at hb
  have hn : x.n = 4 := by unfold LinEl.n; rw [h1.nodes, h1.dofs]; rfl
  have hsym : (Tetra.cond1 (fun a => geo (n a)) k).IsSymm := by
    unfold Tetra.cond1 Matrix.IsSymm
    rw [Matrix.transpose_smul, Matrix.transpose_mul, Matrix.transpose_transpose]
  have hS : Scalar x n (Tetra.cond1 (fun a => geo (n a)) k) 0 := by
    refine ⟨h1.nodes, h1.dofs, fun i j => matrix_of_pack hn hs hsym hb.2 i j, fun i => ?_⟩
    unfold LinEl.load
    rw [h1.noLoad]
    rfl
  rw [hS.forceOn, dotProduct_sum, Finset.mul_sum]
  refine Finset.sum_congr rfl fun a _ => ?_
  split
  swap
  · rw [dotProduct_zero, mul_zero]
  have e1 : Tetra.cond1 (fun a => geo (n a)) k *ᵥ (fun a => temp (linearT geo c b) (n a)) =
      (-(k * ((Tetra.matS fun a => geo (n a)).det / 6))) • ((Tetra.gradMat fun a => geo (n a))ᵀ *ᵥ b) := by
    unfold Tetra.cond1
    rw [Matrix.smul_mulVec, ← Matrix.mulVec_mulVec]
    congr 2
    exact Tetra.gradMat_affine h2 c b
  rw [e1, sub_zero]
  show -(k * (_ / 6)) * (∑ i, Tetra.G (fun a => geo (n a)) a i * b i) = _
  unfold dotProduct
  simp only [← det_G h2 a, Finset.mul_sum]
  refine Finset.sum_congr rfl fun i _ => ?_
  ring

theorem conducts_sum {geo : Nat → Fin 3 → ℝ} {k : ℝ} {ts : List (Fin 4 → Nat)} {els : List (LinEl ℝ)}
    (h : List.Forall₂ (Conducts geo k) ts els) (hs : ∀ x ∈ els, ∀ a < x.n, ∀ b < x.n, x.Ke a b = x.Ke b a) (c : ℝ) (b : Fin 3 → ℝ)
    (m : Nat) :
    (els.map fun x => x.forceOn (linearT geo c b) (.node, m, .TEMP)).sum =
      -(k / 6) * (b ⬝ᵥ (ts.map fun n => ∑ a, if n a = m then normal (fun a => geo (n a)) a else 0).sum) := by
  induction h with
  | nil => simp
  | cons h1 _ ih =>
    rw [List.map_cons, List.sum_cons, List.map_cons, List.sum_cons, dotProduct_add, mul_add,
      conducts_force h1 (hs _ List.mem_cons_self), ih fun x hx => hs x (List.mem_cons_of_mem _ hx)]

section
variable {E : Type} {S0 S' : Storage ℝ} {calls : List RegCall} {new : List (Mpc ℝ)} {fixs : List (Bc ℝ)}
  {els : List (LinEl ℝ)} {update : E → Storage ℝ → E} {e e' : E}

/-- **C88, heat.** Tetrahedra TETRA1 of the same conductivity: when every free temperature belongs to a node inside the mesh and
the prescribed temperatures are those of the field `c + b x`, the reported temperatures are `c + b x` at every node. -/
theorem C88_heat {geo : Nat → Fin 3 → ℝ} {c k : ℝ} {b : Fin 3 → ℝ} {ts : List (Fin 4 → Nat)}
    (hl : LegalModel S0 calls new (fixKeys fixs)) (hp : ∀ x ∈ els, Placed S0 calls x)
    (hels : List.Forall₂ (Conducts geo k) ts els)
    (hin : ∀ k ∈ regKeys calls, k ∉ fixKeys fixs → ∃ n, k = (.node, n, .TEMP) ∧ Inner ts n)
    (hfix : ∀ f ∈ fixs, f.value = 0 ∨ (1 / 10 ^ 20 : ℝ) < |f.value|)
    (hval : ∀ f ∈ fixs, f.value = linearT geo c b (keyOf f))
    (hmpc : ∀ m ∈ S0.mpcs ++ new, (m.eq.map fun q => q.coef * linearT geo c b (.node, q.node, q.dof)).sum = m.b)
    (h : linearSolve Gauss.solveEquations (linear els update) [] fixs calls new S0 e = .ok (S', e')) :
    ∀ n, (Side.node, n, .TEMP) ∈ regKeys calls → Post.solution S' .node n .TEMP = .ok (c + ∑ j, b j * geo n j) := by
  intro n hk
  rw [solved_field hl hp (fun k hk hf => ?_) hfix hval hmpc h n _ hk]
  · rfl
  · obtain ⟨n, rfl, hi⟩ := hin k hk hf
    rw [conducts_sum hels (fun x hx => (hp x hx).symm), inner_closed hi, dotProduct_zero, mul_zero]

end

/-! ## Quadrilaterals -/

/-- The next and the previous neighbours of the node `k` in the quadrilaterals that have it. -/
def neighbours (qs : List (Fin 4 → Nat)) (k : Nat) (s : Fin 4) : List Nat :=
  qs.flatMap fun n => (List.finRange 4).flatMap fun a => if n a = k then [n (a + s)] else []

/-- The quadrilaterals around the node `k` close up: every neighbour is as often the next as the previous one. -/
def InnerPlane (qs : List (Fin 4 → Nat)) (k : Nat) : Prop :=
  ∀ p, (neighbours qs k 1).count p = (neighbours qs k 3).count p

theorem inner_plane {qs : List (Fin 4 → Nat)} {k : Nat} (h : InnerPlane qs k) (f : Nat → ℝ) :
    (qs.map fun n => ∑ a, if n a = k then f (n (a + 1)) - f (n (a + 3)) else 0).sum = 0 := by
  have e1 : ∀ s, (qs.map fun n => ∑ a, if n a = k then f (n (a + s)) else 0).sum = ((neighbours qs k s).map f).sum := by
    intro s
    unfold neighbours
    clear h
    induction qs with
    | nil => rfl
    | cons n qs ih =>
      rw [List.map_cons, List.sum_cons, ih, List.flatMap_cons, List.map_append, List.sum_append]
      congr 1
      have gen : ∀ g : Fin 4 → List Nat, ∑ a, ((g a).map f).sum = (((List.finRange 4).flatMap g).map f).sum := by
        intro g
        simp [List.finRange_succ, Fin.sum_univ_four, add_assoc]
      rw [← gen]
      refine Finset.sum_congr rfl fun a _ => ?_
      split <;> simp
  have e2 : (qs.map fun n => ∑ a, if n a = k then f (n (a + 1)) - f (n (a + 3)) else 0).sum =
      (qs.map fun n => ∑ a, if n a = k then f (n (a + 1)) else 0).sum - (qs.map fun n => ∑ a, if n a = k then f (n (a + 3)) else 0).sum := by
    have e3 : ∀ n : Fin 4 → Nat, (∑ a, if n a = k then f (n (a + 1)) - f (n (a + 3)) else 0) =
        (∑ a, if n a = k then f (n (a + 1)) else 0) - ∑ a, if n a = k then f (n (a + 3)) else 0 := by
      intro n
      rw [← Finset.sum_sub_distrib]
      refine Finset.sum_congr rfl fun a _ => ?_
      split <;> simp
    clear h e1
    induction qs with
    | nil => simp
    | cons n qs ih =>
      simp only [List.map_cons, List.sum_cons]
      rw [ih, e3]
      ring
  rw [e2, e1, e1, ((List.perm_iff_count.mpr h).map f).sum_eq, sub_self]

/-- The gradients of the shape functions, integrated over the element, are half the edges between the neighbours of the node,
turned by a right angle; up to the sum of the weights of the table. -/
theorem det_grads (pos : Fin 4 → Fin 2 → ℝ) (a : Fin 4) :
    (∃ b c : ℝ, ∀ x, (Iso.jac Iso.quad pos x).det ≠ 0 → (Iso.jac Iso.quad pos x).det * Iso.grads Iso.quad pos x a 0 =
      (pos (a + 1) 1 - pos (a + 3) 1) / 8 + b * x 0 + c * x 1) ∧
    (∃ b c : ℝ, ∀ x, (Iso.jac Iso.quad pos x).det ≠ 0 → (Iso.jac Iso.quad pos x).det * Iso.grads Iso.quad pos x a 1 =
      -(pos (a + 1) 0 - pos (a + 3) 0) / 8 + b * x 0 + c * x 1) := by
  have key : ∀ x i, (Iso.jac Iso.quad pos x).det ≠ 0 → (Iso.jac Iso.quad pos x).det * Iso.grads Iso.quad pos x a i =
      ∑ j, (Iso.jac Iso.quad pos x).adjugate i j * Iso.quad.formFuncDeriv x a j := by
    intro x i h
    unfold Iso.grads
    rw [Finset.mul_sum]
    refine Finset.sum_congr rfl fun j _ => ?_
    rw [Matrix.inv_def, Ring.inverse_eq_inv', Matrix.smul_apply, smul_eq_mul, mul_assoc, mul_inv_cancel_left₀ h]
  constructor
  · refine ⟨∑ j, (Iso.jac Iso.quad pos ![1, 0]).adjugate 0 j * Iso.quad.formFuncDeriv ![1, 0] a j -
        ∑ j, (Iso.jac Iso.quad pos ![0, 0]).adjugate 0 j * Iso.quad.formFuncDeriv ![0, 0] a j,
      ∑ j, (Iso.jac Iso.quad pos ![0, 1]).adjugate 0 j * Iso.quad.formFuncDeriv ![0, 1] a j -
        ∑ j, (Iso.jac Iso.quad pos ![0, 0]).adjugate 0 j * Iso.quad.formFuncDeriv ![0, 0] a j, fun x h => ?_⟩
    rw [key x 0 h]
    fin_cases a <;> simp [Matrix.adjugate_fin_two, Iso.jac, Iso.quad, Fin.sum_univ_four] <;> ring
  · refine ⟨∑ j, (Iso.jac Iso.quad pos ![1, 0]).adjugate 1 j * Iso.quad.formFuncDeriv ![1, 0] a j -
        ∑ j, (Iso.jac Iso.quad pos ![0, 0]).adjugate 1 j * Iso.quad.formFuncDeriv ![0, 0] a j,
      ∑ j, (Iso.jac Iso.quad pos ![0, 1]).adjugate 1 j * Iso.quad.formFuncDeriv ![0, 1] a j -
        ∑ j, (Iso.jac Iso.quad pos ![0, 0]).adjugate 1 j * Iso.quad.formFuncDeriv ![0, 0] a j, fun x h => ?_⟩
    rw [key x 1 h]
    fin_cases a <;> simp [Matrix.adjugate_fin_two, Iso.jac, Iso.quad, Fin.sum_univ_four] <;> ring

/-- A quadrilateral QUADTH of the order `o` and the conductivity `k` without source. -/
def Plate (geo : Nat → Fin 3 → ℝ) (o : Nat) (k : ℝ) (n : Fin 4 → Nat) (x : LinEl ℝ) : Prop :=
  (HeatElem.quad n o k 0).Built geo x ∧ (HeatElem.quad n o k 0).Sound geo

theorem plate_force {geo : Nat → Fin 3 → ℝ} {o : Nat} {k : ℝ} {n : Fin 4 → Nat} {x : LinEl ℝ} (h : Plate geo o k n x)
    (hs : ∀ a < x.n, ∀ b < x.n, x.Ke a b = x.Ke b a) (c : ℝ) {b : Fin 3 → ℝ} (hb : b 2 = 0) (m : Nat) :
    x.forceOn (linearT geo c b) (.node, m, .TEMP) = k * Iso.weights Iso.quad o / 8 *
      (∑ a, if n a = m then (b 0 * geo (n (a + 1)) 1 - b 1 * geo (n (a + 1)) 0) -
        (b 0 * geo (n (a + 3)) 1 - b 1 * geo (n (a + 3)) 0) else 0) := by
  obtain ⟨⟨h1, h2, g, F, f, h3, h4, h5, h6⟩, hj, hk⟩ := h
  obtain ⟨g', e1, e2, e3⟩ := Iso.makeJacob_good (S := Iso.quad) (o := o) (pos := plane geo n) (fun q hq => (hj q hq).ne')
  rw [h3, Res.ok.injEq] at e1
  subst e1
  have hq := Thermal.quadK_eq e3 k 0
  rw [h4, Res.ok.injEq, Prod.mk.injEq, e2] at hq
  have hn : x.n = 4 := by unfold LinEl.n; rw [h1, h2]; rfl
  have hF : F = 0 := by
    rw [hq.2]
    refine Thermal.sum_induct (fun F : Fin 4 → ℝ => F = 0) rfl (by rintro a b rfl rfl; simp) _ _ ?_
    intro q _
    funext a
    simp [Thermal.loadPt]
  have hsym : ((Iso.quad.table (Iso.schemeIndex o)).map (Thermal.condPt (plane geo n) k)).sum.IsSymm := by
    refine Thermal.sum_induct (fun M : Matrix (Fin 4) (Fin 4) ℝ => M.IsSymm) Matrix.isSymm_zero (fun _ _ => Matrix.IsSymm.add) _ _ ?_
    intro q _
    rw [Thermal.condPt_eq]
    unfold Matrix.IsSymm
    rw [Matrix.transpose_smul, Matrix.transpose_mul, Matrix.transpose_transpose]
  have hS : Scalar x n ((Iso.quad.table (Iso.schemeIndex o)).map (Thermal.condPt (plane geo n) k)).sum 0 := by
    refine ⟨h1, h2, fun i j => matrix_of_pack hn hs hsym hq.1.symm i j, fun i => ?_⟩
    unfold LinEl.load
    rw [h5, ← hF]
    exact h6 i
  rw [hS.forceOn, Finset.mul_sum]
  refine Finset.sum_congr rfl fun a _ => ?_
  split
  swap
  · rw [mul_zero]
  rw [sub_zero, Thermal.sum_hom (fun M : Matrix (Fin 4) (Fin 4) ℝ => (M *ᵥ fun a => temp (linearT geo c b) (n a)) a) (by simp)
    (by intro M N; rw [Matrix.add_mulVec]; rfl)]
  obtain ⟨⟨p, q, hpq⟩, ⟨r, s, hrs⟩⟩ := det_grads (plane geo n) a
  have e4 : ∀ y ∈ Iso.quad.table (Iso.schemeIndex o),
      (Thermal.condPt (plane geo n) k y *ᵥ fun a => temp (linearT geo c b) (n a)) a =
        y.w * (k / 8 * ((b 0 * geo (n (a + 1)) 1 - b 1 * geo (n (a + 1)) 0) - (b 0 * geo (n (a + 3)) 1 - b 1 * geo (n (a + 3)) 0)) +
          (k * (b 0 * p + b 1 * r)) * y.xi 0 + (k * (b 0 * q + b 1 * s)) * y.xi 1) := by
    intro y hy
    have hy := (hj y hy).ne'
    have e5 : (fun a => temp (linearT geo c b) (n a)) = fun a => c + ∑ j, (![b 0, b 1] : Fin 2 → ℝ) j * plane geo n a j := by
      funext a
      show c + ∑ j, b j * geo (n a) j = _
      rw [Fin.sum_univ_three, Fin.sum_univ_two, hb]
      simp [plane]
    have e6 := hpq _ hy
    have e7 := hrs _ hy
    rw [Thermal.condPt_eq, Matrix.smul_mulVec, ← Matrix.mulVec_mulVec, e5, Thermal.B_mulVec_affine hy]
    show Thermal.wdet _ y * k * (∑ i, Iso.grads Iso.quad (plane geo n) y.xi a i * (![b 0, b 1] : Fin 2 → ℝ) i) = _
    unfold Thermal.wdet
    rw [Fin.sum_univ_two]
    have p0 : ∀ d, plane geo n d 0 = geo (n d) 0 := fun _ => rfl
    have p1 : ∀ d, plane geo n d 1 = geo (n d) 1 := fun _ => rfl
    rw [p1, p1] at e6
    rw [p0, p0] at e7
    simp only [Matrix.cons_val_zero, Matrix.cons_val_one]
    linear_combination (y.w * k * b 0) * e6 + (y.w * k * b 1) * e7
  have e8 := Iso.gauss_linear o (k / 8 * ((b 0 * geo (n (a + 1)) 1 - b 1 * geo (n (a + 1)) 0) -
    (b 0 * geo (n (a + 3)) 1 - b 1 * geo (n (a + 3)) 0))) (k * (b 0 * p + b 1 * r)) (k * (b 0 * q + b 1 * s))
  unfold Iso.gauss at e8
  rw [List.map_congr_left e4, e8]
  ring

theorem plate_sum {geo : Nat → Fin 3 → ℝ} {o : Nat} {k : ℝ} {qs : List (Fin 4 → Nat)} {els : List (LinEl ℝ)}
    (h : List.Forall₂ (Plate geo o k) qs els) (hs : ∀ x ∈ els, ∀ a < x.n, ∀ b < x.n, x.Ke a b = x.Ke b a) (c : ℝ) {b : Fin 3 → ℝ}
    (hb : b 2 = 0) (m : Nat) :
    (els.map fun x => x.forceOn (linearT geo c b) (.node, m, .TEMP)).sum = k * Iso.weights Iso.quad o / 8 *
      (qs.map fun n => ∑ a, if n a = m then (b 0 * geo (n (a + 1)) 1 - b 1 * geo (n (a + 1)) 0) -
        (b 0 * geo (n (a + 3)) 1 - b 1 * geo (n (a + 3)) 0) else 0).sum := by
  induction h with
  | nil => simp
  | cons h1 _ ih =>
    rw [List.map_cons, List.sum_cons, List.map_cons, List.sum_cons, mul_add,
      plate_force h1 (hs _ List.mem_cons_self) c hb, ih fun x hx => hs x (List.mem_cons_of_mem _ hx)]

/-- **C88, plates.** Quadrilaterals QUADTH of any shape, of the same conductivity and the same integration order, without sources:
when every free temperature belongs to a node inside the mesh and the prescribed temperatures are those of the field `c + b x`, the
reported temperatures are `c + b x` at every node. -/
theorem C88_plate {E : Type} {S0 S' : Storage ℝ} {calls : List RegCall} {new : List (Mpc ℝ)} {fixs : List (Bc ℝ)}
    {els : List (LinEl ℝ)} {update : E → Storage ℝ → E} {e e' : E} {geo : Nat → Fin 3 → ℝ} {c k : ℝ} {b : Fin 3 → ℝ} (hb : b 2 = 0)
    {o : Nat} {qs : List (Fin 4 → Nat)}
    (hl : LegalModel S0 calls new (fixKeys fixs)) (hp : ∀ x ∈ els, Placed S0 calls x)
    (hels : List.Forall₂ (Plate geo o k) qs els)
    (hin : ∀ k ∈ regKeys calls, k ∉ fixKeys fixs → ∃ n, k = (.node, n, .TEMP) ∧ InnerPlane qs n)
    (hfix : ∀ f ∈ fixs, f.value = 0 ∨ (1 / 10 ^ 20 : ℝ) < |f.value|)
    (hval : ∀ f ∈ fixs, f.value = linearT geo c b (keyOf f))
    (hmpc : ∀ m ∈ S0.mpcs ++ new, (m.eq.map fun q => q.coef * linearT geo c b (.node, q.node, q.dof)).sum = m.b)
    (h : linearSolve Gauss.solveEquations (linear els update) [] fixs calls new S0 e = .ok (S', e')) :
    ∀ n, (Side.node, n, .TEMP) ∈ regKeys calls → Post.solution S' .node n .TEMP = .ok (c + ∑ j, b j * geo n j) := by
  intro n hk
  rw [solved_field hl hp (fun k hk hf => ?_) hfix hval hmpc h n _ hk]
  · rfl
  · obtain ⟨n, rfl, hi⟩ := hin k hk hf
    rw [plate_sum hels (fun x hx => (hp x hx).symm) c hb, inner_plane hi fun p => b 0 * geo p 1 - b 1 * geo p 0, mul_zero]

end Nla3d.Struct
