import Verif.Struct.Heat
import Verif.Tri.Props

/-!
# C96: plates of linear triangles

Models of elements TRIANGLE4: balance of the reported loads and reactions, rigid motions, and plates under a uniform stress. `geo`
gives the two coordinates of each node that the element reads.
-/

noncomputable section

namespace Nla3d.Struct

open Nla3d.Dof Nla3d.Block Nla3d.Sparse Nla3d.Storage Nla3d.Solver Finset
open scoped Matrix

/-! ## Specification -/

/-- The DoFs of a triangle. -/
def axis2 : Fin 2 → DofType := ![.UX, .UY]

/-- The displacement of a node in the plane. -/
def nodal2 (u : Key → ℝ) (n : Nat) : Fin 2 → ℝ := fun i => u (.node, n, axis2 i)

/-- An element of type TRIANGLE4 with the members `e`: the matrix handed over is that computed by `buildK`. -/
structure TriEl (geo : Nat → Fin 2 → ℝ) (n : Fin 3 → Nat) (e : Tri.Elem) (x : LinEl ℝ) : Prop where
  nodes : x.nodes = [n 0, n 1, n 2]
  dofs : x.dofs = [.UX, .UY]
  built : ∃ e1, Tri.buildK (fun a => geo (n a)) e = .ok (e1, (packed 6).map fun p => x.Ke p.1 p.2)
  noLoad : x.Fe = none

/-- The field `t + H x`. -/
def field2 (geo : Nat → Fin 2 → ℝ) (t : Fin 2 → ℝ) (H : Matrix (Fin 2) (Fin 2) ℝ) : Key → ℝ
  | (.node, n, .UX) => t 0 + (H *ᵥ geo n) 0
  | (.node, n, .UY) => t 1 + (H *ᵥ geo n) 1
  | _ => 0

/-- The edges of a triangle, passed in the order of its nodes. -/
def edges (n : Fin 3 → Nat) : List (Nat × Nat) := [(n 0, n 1), (n 1, n 2), (n 2, n 0)]

/-- The directed edges `bnd` are the boundary of the mesh: what remains when edges passed in both directions are dropped. -/
def Boundary (ts : List (Fin 3 → Nat)) (bnd : List (Nat × Nat)) : Prop :=
  ∀ p q, (ts.flatMap edges).count (p, q) + bnd.count (q, p) = (ts.flatMap edges).count (q, p) + bnd.count (p, q)

/-- The force of the stress XX, YY, XY on the edge from `p` to `q` of a body of unit thickness that lies to its left. -/
def edgeForce (σ : Fin 3 → ℝ) (p q : Fin 2 → ℝ) : Fin 2 → ℝ :=
  ![σ 0 * (q 1 - p 1) - σ 2 * (q 0 - p 0), σ 2 * (q 1 - p 1) - σ 1 * (q 0 - p 0)]

/-- The load at a node when the stress acts on the edges `bnd`: the ends of an edge take half of its force each. -/
def nodeLoad (geo : Nat → Fin 2 → ℝ) (σ : Fin 3 → ℝ) (bnd : List (Nat × Nat)) (k : Nat) (i : Fin 2) : ℝ :=
  (bnd.map fun e => ((if e.1 = k then 1 else 0) + (if e.2 = k then 1 else 0)) * (edgeForce σ (geo e.1) (geo e.2) i / 2)).sum

/-- The triangle `n` with the matrix `C` of `makeC` has the stress `σ` when the displacement gradient is `H`. -/
def Strained (geo : Nat → Fin 2 → ℝ) (H : Matrix (Fin 2) (Fin 2) ℝ) (σ : Fin 3 → ℝ) (n : Fin 3 → Nat) (x : LinEl ℝ) : Prop :=
  ∃ e, TriEl geo n e x ∧ (Tri.matS fun a => geo (n a)).det ≠ 0 ∧ ∃ C : Matrix (Fin 3) (Fin 3) ℝ, C.IsSymm ∧
    Tri.makeC e.E e.my e.state = .ok (Dense.pack C) ∧ C *ᵥ Tri.symGrad H = σ

/-! ## Lemmas -/

theorem nodal2_field (geo : Nat → Fin 2 → ℝ) (t : Fin 2 → ℝ) (H : Matrix (Fin 2) (Fin 2) ℝ) (n : Nat) :
    nodal2 (field2 geo t H) n = t + H *ᵥ geo n := by
  funext i
  fin_cases i <;> rfl

theorem axis2_inj : Function.Injective axis2 := by
  intro p q; fin_cases p <;> fin_cases q <;> simp [axis2]

theorem tri_values (geo : Nat → Fin 2 → ℝ) (n : Fin 3 → Nat) (t : Fin 2 → ℝ) (H : Matrix (Fin 2) (Fin 2) ℝ) :
    Tri.vec6 (fun a => nodal2 (field2 geo t H) (n a)) = Tri.vec6 (Tri.affineField (fun a => geo (n a)) t H) := by
  refine congrArg Tri.vec6 ?_
  funext a i
  rw [nodal2_field]
  rfl

theorem stiff_symm (pos : Fin 3 → Fin 2 → ℝ) (E my : ℝ) (s : Tri.PlaneState) : (Tri.stiff pos E my s).IsSymm := by
  unfold Tri.stiff Matrix.IsSymm
  rw [Matrix.transpose_smul, Matrix.transpose_mul, Matrix.transpose_mul, Matrix.transpose_transpose, Tri.elast_symm, Matrix.mul_assoc]

section tri
variable {geo : Nat → Fin 2 → ℝ} {n : Fin 3 → Nat} {e : Tri.Elem} {x : LinEl ℝ}

theorem TriEl.size (h : TriEl geo n e x) : x.n = 6 := by
  unfold LinEl.n; rw [h.nodes, h.dofs]; rfl

theorem TriEl.matrix (h : TriEl geo n e x) (hd : (Tri.matS fun a => geo (n a)).det ≠ 0)
    (hs : ∀ a < x.n, ∀ b < x.n, x.Ke a b = x.Ke b a) (i j : Fin 6) :
    x.Ke i j = Tri.stiff (fun a => geo (n a)) e.E e.my e.state i j := by
  obtain ⟨e1, h1⟩ := h.built
  rw [Tri.buildK_eq hd, Res.ok.injEq, Prod.mk.injEq] at h1
  exact matrix_of_pack h.size hs (stiff_symm _ _ _ _) h1.2 i j

theorem TriEl.key (h : TriEl geo n e x) (j : Fin 6) :
    localKey x.nodes x.dofs j = (.node, n ⟨j.val / 2, by omega⟩, axis2 ⟨j.val % 2, by omega⟩) := by
  unfold localKey
  rw [h.nodes, h.dofs]
  fin_cases j <;> rfl

theorem TriEl.value (h : TriEl geo n e x) (u : Key → ℝ) (j : Fin 6) :
    u (localKey x.nodes x.dofs j) = Tri.vec6 (fun a => nodal2 u (n a)) j := by
  rw [h.key]; rfl

theorem TriEl.force (h : TriEl geo n e x) (hd : (Tri.matS fun a => geo (n a)).det ≠ 0)
    (hs : ∀ a < x.n, ∀ b < x.n, x.Ke a b = x.Ke b a) (u : Key → ℝ) (i : Fin 6) :
    x.force u i = (Tri.stiff (fun a => geo (n a)) e.E e.my e.state *ᵥ Tri.vec6 (fun a => nodal2 u (n a))) i := by
  unfold LinEl.force LinEl.load
  rw [h.noLoad, h.size, Finset.sum_range]
  simp only [h.matrix hd hs, h.value]
  exact sub_zero _

theorem TriEl.work (h : TriEl geo n e x) (hd : (Tri.matS fun a => geo (n a)).det ≠ 0)
    (hs : ∀ a < x.n, ∀ b < x.n, x.Ke a b = x.Ke b a) (δ u : Key → ℝ) :
    x.work δ u = Tri.vec6 (fun a => nodal2 δ (n a)) ⬝ᵥ
      (Tri.stiff (fun a => geo (n a)) e.E e.my e.state *ᵥ Tri.vec6 (fun a => nodal2 u (n a))) := by
  unfold LinEl.work
  rw [h.size, Finset.sum_range]
  simp only [h.force hd hs, h.value]
  rfl

theorem TriEl.forceOn (h : TriEl geo n e x) (hd : (Tri.matS fun a => geo (n a)).det ≠ 0)
    (hs : ∀ a < x.n, ∀ b < x.n, x.Ke a b = x.Ke b a) (u : Key → ℝ) (k : Nat) (i : Fin 2) :
    x.forceOn u (.node, k, axis2 i) = ∑ a : Fin 3, if n a = k then
      (Tri.stiff (fun a => geo (n a)) e.E e.my e.state *ᵥ Tri.vec6 (fun a => nodal2 u (n a))) ⟨a.val * 2 + i.val, by omega⟩ else 0 := by
  unfold LinEl.forceOn
  rw [h.size, Finset.sum_range]
  simp only [h.key, h.force hd hs]
  generalize Tri.stiff (fun a => geo (n a)) e.E e.my e.state *ᵥ Tri.vec6 (fun a => nodal2 u (n a)) = v
  simp only [Fin.sum_univ_succ, Prod.mk.injEq, true_and]
  fin_cases i <;> simp [axis2] <;> ring_nf <;> rfl

/-- No work is done on rigid motions. -/
theorem TriEl.rigid (h : TriEl geo n e x) (hd : (Tri.matS fun a => geo (n a)).det ≠ 0)
    (hs : ∀ a < x.n, ∀ b < x.n, x.Ke a b = x.Ke b a) (t : Fin 2 → ℝ) {W : Matrix (Fin 2) (Fin 2) ℝ} (hW : Wᵀ = -W) (u : Key → ℝ) :
    x.work (field2 geo t W) u = 0 := by
  have w : ∀ i j, W j i = -W i j := fun i j => congrFun (congrFun hW i) j
  have hz : Tri.symGrad W = 0 := by
    have d : ∀ i, W i i = 0 := fun i => by have := w i i; linarith
    funext r
    fin_cases r <;> simp [Tri.symGrad, d, w 0 1]
  rw [h.work hd hs, symm_move (stiff_symm _ _ _ _), tri_values]
  unfold Tri.stiff
  rw [Matrix.smul_mulVec, ← Matrix.mulVec_mulVec, Tri.strain_affine hd, hz, Matrix.mulVec_zero, smul_zero, zero_dotProduct]

end tri

/-- Forces of a uniform stress: the edges of the triangle. -/
theorem strained_force {geo : Nat → Fin 2 → ℝ} {H : Matrix (Fin 2) (Fin 2) ℝ} {σ : Fin 3 → ℝ} {n : Fin 3 → Nat} {x : LinEl ℝ}
    (h : Strained geo H σ n x) (hs : ∀ a < x.n, ∀ b < x.n, x.Ke a b = x.Ke b a) (t : Fin 2 → ℝ) (k : Nat) (i : Fin 2) :
    x.forceOn (field2 geo t H) (.node, k, axis2 i) = nodeLoad geo σ (edges n) k i := by
  obtain ⟨e, h1, h2, C, h3, h4, h5⟩ := h
  have hC : Tri.elast e.E e.my e.state = C := by
    rw [Tri.makeC_eq, Res.ok.injEq] at h4
    exact Tri.pack_inj (Tri.elast_symm _ _ _) h3 h4
  have e1 : Tri.stiff (fun a => geo (n a)) e.E e.my e.state *ᵥ Tri.vec6 (Tri.affineField (fun a => geo (n a)) t H) =
      ((Tri.matS fun a => geo (n a)).det / 2) • ((Tri.strainMat (Tri.G fun a => geo (n a)))ᵀ *ᵥ σ) := by
    unfold Tri.stiff
    rw [Matrix.smul_mulVec, ← Matrix.mulVec_mulVec, Tri.strain_affine h2, ← Matrix.mulVec_mulVec, hC, h5]
  rw [h1.forceOn h2 hs, tri_values, e1]
  generalize hD : (Tri.matS fun a => geo (n a)).det = D at h2
  have c : ∀ y s : ℝ, D / 2 * (y / D * s) = y / 2 * s := by intro y s; field_simp
  have key : ∀ a : Fin 3, ((D / 2) • ((Tri.strainMat (Tri.G fun a => geo (n a)))ᵀ *ᵥ σ)) ⟨a.val * 2 + i.val, by omega⟩ =
      edgeForce σ (geo (n (a + 2))) (geo (n (a + 1))) i / 2 := by
    intro a
    fin_cases a <;> fin_cases i <;>
      simp [Matrix.mulVec, dotProduct, Fin.sum_univ_three, Tri.strainMat, Tri.strainOp, Tri.G, hD, edgeForce, mul_add, c] <;> ring
  simp only [key]
  unfold nodeLoad edges
  simp only [Fin.sum_univ_three, List.map_cons, List.map_nil, List.sum_cons, List.sum_nil]
  fin_cases i <;> by_cases c0 : n 0 = k <;> by_cases c1 : n 1 = k <;> by_cases c2 : n 2 = k <;>
    simp [c0, c1, c2, edgeForce] <;> ring

theorem edgeForce_swap (σ : Fin 3 → ℝ) (p q : Fin 2 → ℝ) (i : Fin 2) : edgeForce σ q p i = -edgeForce σ p q i := by
  fin_cases i <;> simp [edgeForce] <;> ring

theorem nodeLoad_append (geo : Nat → Fin 2 → ℝ) (σ : Fin 3 → ℝ) (l l' : List (Nat × Nat)) (k : Nat) (i : Fin 2) :
    nodeLoad geo σ (l ++ l') k i = nodeLoad geo σ l k i + nodeLoad geo σ l' k i := by
  unfold nodeLoad
  rw [List.map_append, List.sum_append]

theorem nodeLoad_swap (geo : Nat → Fin 2 → ℝ) (σ : Fin 3 → ℝ) (l : List (Nat × Nat)) (k : Nat) (i : Fin 2) :
    nodeLoad geo σ (l.map Prod.swap) k i = -nodeLoad geo σ l k i := by
  unfold nodeLoad
  induction l with
  | nil => simp
  | cons e l ih =>
    simp only [List.map_cons, List.sum_cons, Prod.fst_swap, Prod.snd_swap]
    rw [ih, edgeForce_swap]
    ring

theorem nodeLoad_perm (geo : Nat → Fin 2 → ℝ) (σ : Fin 3 → ℝ) {l l' : List (Nat × Nat)} (h : l.Perm l') (k : Nat) (i : Fin 2) :
    nodeLoad geo σ l k i = nodeLoad geo σ l' k i := (h.map _).sum_eq

/-- The edges inside do not count. -/
theorem nodeLoad_boundary {ts : List (Fin 3 → Nat)} {bnd : List (Nat × Nat)} (h : Boundary ts bnd) (geo : Nat → Fin 2 → ℝ)
    (σ : Fin 3 → ℝ) (k : Nat) (i : Fin 2) : nodeLoad geo σ (ts.flatMap edges) k i = nodeLoad geo σ bnd k i := by
  have hperm : (ts.flatMap edges ++ bnd.map Prod.swap).Perm ((ts.flatMap edges).map Prod.swap ++ bnd) := by
    rw [List.perm_iff_count]
    rintro ⟨p, q⟩
    have e1 := List.count_map_of_injective bnd Prod.swap Prod.swap_injective (q, p)
    have e2 := List.count_map_of_injective (ts.flatMap edges) Prod.swap Prod.swap_injective (q, p)
    rw [Prod.swap_prod_mk] at e1 e2
    rw [List.count_append, List.count_append, e1, e2, h p q]
  have := nodeLoad_perm geo σ hperm k i
  rw [nodeLoad_append, nodeLoad_append, nodeLoad_swap, nodeLoad_swap] at this
  linarith

theorem strained_sum {geo : Nat → Fin 2 → ℝ} {H : Matrix (Fin 2) (Fin 2) ℝ} {σ : Fin 3 → ℝ} {ts : List (Fin 3 → Nat)}
    {els : List (LinEl ℝ)} (h : List.Forall₂ (Strained geo H σ) ts els)
    (hs : ∀ x ∈ els, ∀ a < x.n, ∀ b < x.n, x.Ke a b = x.Ke b a) (t : Fin 2 → ℝ) (k : Nat) (i : Fin 2) :
    (els.map fun x => x.forceOn (field2 geo t H) (.node, k, axis2 i)).sum = nodeLoad geo σ (ts.flatMap edges) k i := by
  induction h with
  | nil => rfl
  | cons h1 _ ih =>
    rw [List.map_cons, List.sum_cons, List.flatMap_cons, nodeLoad_append, strained_force h1 (hs _ List.mem_cons_self),
      ih fun x hx => hs x (List.mem_cons_of_mem _ hx)]

/-! ## Theorems -/

section
variable {E : Type} {S0 S' : Storage ℝ} {calls : List RegCall} {new : List (Mpc ℝ)} {loads fixs : List (Bc ℝ)}
  {els : List (LinEl ℝ)} {update : E → Storage ℝ → E} {eqs : EqSolver ℝ} {e e' : E}

/-- **C96, balance.** In a solved plate of triangles, without constraint equations, the resultant force and moment of the reported
loads and reactions vanish. -/
theorem C96_resultants {geo : Nat → Fin 2 → ℝ}
    (hl : LegalModel S0 calls new (fixKeys fixs)) (hload : ∀ l ∈ loads, keyOf l ∈ regKeys calls) (hp : ∀ x ∈ els, Placed S0 calls x)
    (hm : ∀ x ∈ els, ∃ n m, TriEl geo n m x ∧ (Tri.matS fun a => geo (n a)).det ≠ 0)
    (hfix : ∀ f ∈ fixs, f.value = 0 ∨ (1 / 10 ^ 20 : ℝ) < |f.value|) (he : Exact eqs)
    (h : linearSolve eqs (linear els update) loads fixs calls new S0 e = .ok (S', e'))
    (hmpc : S0.mpcs ++ new = []) {ns : Finset Nat} (hreg : ∀ k, k ∈ regKeys calls ↔ ∃ n ∈ ns, ∃ i, k = (.node, n, axis2 i)) :
    ∃ R : Nat → Fin 2 → ℝ, (∀ n ∈ ns, ∀ i, Post.reaction S' n (axis2 i) = .ok (R n i)) ∧
      ∑ n ∈ ns, R n = 0 ∧ ∑ n ∈ ns, (geo n 0 * R n 1 - geo n 1 * R n 0) = 0 := by
  obtain ⟨u, r, h1, _, h3⟩ := C84_virtual_work hl hload hp hfix he h
  have hset : (regKeys calls).toFinset = (ns ×ˢ (Finset.univ : Finset (Fin 2))).image fun p => (Side.node, p.1, axis2 p.2) := by
    ext k
    simp only [List.mem_toFinset, hreg, Finset.mem_image, Finset.mem_product, Finset.mem_univ, and_true, Prod.exists]
    constructor
    · rintro ⟨n, hn, i, rfl⟩; exact ⟨n, i, hn, rfl⟩
    · rintro ⟨n, i, hn, rfl⟩; exact ⟨n, hn, i, rfl⟩
  have hsum : ∀ (t : Fin 2 → ℝ) (W : Matrix (Fin 2) (Fin 2) ℝ), Wᵀ = -W → ∑ n ∈ ns, (t + W *ᵥ geo n) ⬝ᵥ nodal2 r n = 0 := by
    intro t W hW
    have hzero : ∑ k ∈ (regKeys calls).toFinset, field2 geo t W k * r k = 0 := by
      rw [h3 _ (by rw [hmpc]; simp)]
      refine List.sum_eq_zero fun y hy => ?_
      obtain ⟨x, hx, rfl⟩ := List.mem_map.mp hy
      obtain ⟨n, m, a1, a2⟩ := hm x hx
      exact a1.rigid a2 (hp x hx).symm t hW u
    rw [hset, Finset.sum_image (by
      rintro ⟨n, i⟩ _ ⟨n', i'⟩ _ hh
      simp only [Prod.mk.injEq, true_and] at hh
      exact Prod.ext hh.1 (axis2_inj hh.2)), Finset.sum_product] at hzero
    rw [← hzero]
    refine Finset.sum_congr rfl fun n _ => ?_
    rw [← nodal2_field]
    rfl
  refine ⟨nodal2 r, fun n hn i => h1.reaction n (axis2 i) ((hreg _).mpr ⟨n, hn, i, rfl⟩), ?_, ?_⟩
  · funext i
    have := hsum (Pi.single i 1) 0 (by simp)
    simp only [Matrix.zero_mulVec, add_zero, single_dotProduct, one_mul] at this
    rw [Finset.sum_apply]
    exact this
  · have := hsum 0 !![0, -1; 1, 0] (by ext i j; fin_cases i <;> fin_cases j <;> simp)
    rw [← this]
    refine Finset.sum_congr rfl fun n _ => ?_
    simp [Matrix.mulVec, dotProduct, Fin.sum_univ_two]
    ring

/-- **C96, uniform stress.** A mesh of triangles in which the displacement gradient `H` gives the same stress `σ`, loaded at the
free DoFs by `σ` on the boundary of the mesh, with prescribed values of the field `t + H x`: the reported displacements are
`t + H x`, the reported reactions the forces of `σ` on the boundary. -/
theorem C96_uniform {geo : Nat → Fin 2 → ℝ} {t : Fin 2 → ℝ} {H : Matrix (Fin 2) (Fin 2) ℝ} {σ : Fin 3 → ℝ} {ts : List (Fin 3 → Nat)}
    {bnd : List (Nat × Nat)} (hl : LegalModel S0 calls new (fixKeys fixs)) (hload : ∀ l ∈ loads, keyOf l ∈ regKeys calls)
    (hp : ∀ x ∈ els, Placed S0 calls x) (hels : List.Forall₂ (Strained geo H σ) ts els) (hbnd : Boundary ts bnd)
    (hreg : ∀ k ∈ regKeys calls, ∃ n i, k = (.node, n, axis2 i))
    (hσ : ∀ n i, (Side.node, n, axis2 i) ∈ regKeys calls → (Side.node, n, axis2 i) ∉ fixKeys fixs →
      loadsOn (.node, n, axis2 i) loads = nodeLoad geo σ bnd n i)
    (hfix : ∀ f ∈ fixs, f.value = 0 ∨ (1 / 10 ^ 20 : ℝ) < |f.value|) (hval : ∀ f ∈ fixs, f.value = field2 geo t H (keyOf f))
    (hmpc : ∀ m ∈ S0.mpcs ++ new, (m.eq.map fun q => q.coef * field2 geo t H (.node, q.node, q.dof)).sum = m.b)
    (h : linearSolve Gauss.solveEquations (linear els update) loads fixs calls new S0 e = .ok (S', e')) :
    ∀ n i, (Side.node, n, axis2 i) ∈ regKeys calls →
      Post.solution S' .node n (axis2 i) = .ok (t i + (H *ᵥ geo n) i) ∧
      Post.reaction S' n (axis2 i) = .ok (nodeLoad geo σ bnd n i) := by
  have hF : ∀ n i, (els.map fun x => x.forceOn (field2 geo t H) (.node, n, axis2 i)).sum = nodeLoad geo σ bnd n i := by
    intro n i
    rw [strained_sum hels (fun x hx => (hp x hx).symm), nodeLoad_boundary hbnd]
  have hmeets : Meets S0 calls new loads fixs (field2 geo t H) (fun k => (els.map fun x => x.forceOn (field2 geo t H) k).sum) := by
    refine ⟨?_, ?_, hmpc⟩
    · intro k _ x hx
      obtain ⟨f, hf, e1, e2⟩ := lastFix_mem hx
      rw [← e2, hval f hf, e1]
    · intro k hk hf
      obtain ⟨n, i, rfl⟩ := hreg k hk
      rw [hσ n i hk hf]
      exact hF n i
  have hbal : Balanced calls els (S0.mpcs ++ new) (List.replicate (S0.mpcs ++ new).length 0) (field2 geo t H)
      (fun k => (els.map fun x => x.forceOn (field2 geo t H) k).sum) := by
    intro k _
    have e2 : conForce (S0.mpcs ++ new) (List.replicate (S0.mpcs ++ new).length 0) k = 0 := by
      unfold conForce
      refine List.sum_eq_zero fun y hy => ?_
      obtain ⟨p, hp', rfl⟩ := List.mem_map.mp hy
      rw [List.eq_of_mem_replicate (List.of_mem_zip hp').2, zero_mul]
    rw [e2, add_zero]
  obtain ⟨u, r, h1, _, h2⟩ := C85_unique hl hload hp hfix h (by simp) hmeets hbal
  intro n i hk
  obtain ⟨e1, e2⟩ := h2 _ hk
  rw [h1.solution n _ hk, h1.reaction n _ hk, e1, e2]
  refine ⟨congrArg Res.ok (congrFun (nodal2_field geo t H n) i), congrArg Res.ok (hF n i)⟩

/-- C96, the strains and stresses: `update` of an element as constructed, on the reported displacements. -/
theorem C96_stress {geo : Nat → Fin 2 → ℝ} {t : Fin 2 → ℝ} {H : Matrix (Fin 2) (Fin 2) ℝ} {x : LinEl ℝ} {n : Fin 3 → Nat} {Y my : ℝ}
    {s : Tri.PlaneState} (hx : Placed S0 calls x) (hm : TriEl geo n (Tri.fresh Y my s) x) (hd : (Tri.matS fun a => geo (n a)).det ≠ 0)
    (h : ∀ n i, (Side.node, n, axis2 i) ∈ regKeys calls → Post.solution S' .node n (axis2 i) = .ok (t i + (H *ᵥ geo n) i)) :
    ∃ U m1 K m2 C, (∀ a i, Post.solution S' .node (n a) (axis2 i) = .ok (U a i)) ∧
      Tri.buildK (fun a => geo (n a)) (Tri.fresh Y my s) = .ok (m1, K) ∧ Tri.update (fun a => geo (n a)) U m1 = .ok m2 ∧
      m2.strains = List.ofFn (Tri.symGrad H) ∧ Tri.makeC Y my s = .ok (Dense.pack C) ∧ C.IsSymm ∧
      m2.stress = List.ofFn (C *ᵥ Tri.symGrad H) := by
  obtain ⟨m1, K, m2, C, h1, h2, h3, h4, h5, h6⟩ := Tri.C41_strain hd Y my s t H
  refine ⟨_, m1, K, m2, C, ?_, h1, h2, h3, h4, h5, h6⟩
  intro a i
  refine h (n a) i ?_
  have e1 : a.val * 2 + i.val < 6 := by omega
  have := localKey_reg hx.on (show a.val * 2 + i.val < x.n by rw [hm.size]; exact e1)
  have e2 := hm.key ⟨a.val * 2 + i.val, e1⟩
  have e3 : (⟨(a.val * 2 + i.val) / 2, by omega⟩ : Fin 3) = a := Fin.ext (by show (a.val * 2 + i.val) / 2 = _; omega)
  have e4 : (⟨(a.val * 2 + i.val) % 2, by omega⟩ : Fin 2) = i := Fin.ext (by show (a.val * 2 + i.val) % 2 = _; omega)
  simp only [e3, e4] at e2
  rwa [e2] at this

/-- A triangle of the material `Y`, `my` in the state `s` that is not degenerate. -/
def Sheet (geo : Nat → Fin 2 → ℝ) (s : Tri.PlaneState) (Y my : ℝ) (n : Fin 3 → Nat) (x : LinEl ℝ) : Prop :=
  TriEl geo n (Tri.fresh Y my s) x ∧ (Tri.matS fun a => geo (n a)).det ≠ 0

/-- **C96, Hooke's law in plane strain.** A body in plane strain loaded by the stress `σ` on its boundary: the reported displacements
are `t + H x` for the gradient `H` whose strains are those of the stress `σ` by Hooke's law. -/
theorem C96_plane_strain {geo : Nat → Fin 2 → ℝ} {t : Fin 2 → ℝ} {H : Matrix (Fin 2) (Fin 2) ℝ} {σ : Fin 3 → ℝ} {Y my : ℝ}
    {ts : List (Fin 3 → Nat)} {bnd : List (Nat × Nat)} (hY : 0 < Y) (h1 : -1 < my) (h2 : my < 1 / 2)
    (hH : Tri.symGrad H = Tri.compliance Y my .strain *ᵥ σ)
    (hl : LegalModel S0 calls new (fixKeys fixs)) (hload : ∀ l ∈ loads, keyOf l ∈ regKeys calls)
    (hp : ∀ x ∈ els, Placed S0 calls x) (hels : List.Forall₂ (Sheet geo .strain Y my) ts els) (hbnd : Boundary ts bnd)
    (hreg : ∀ k ∈ regKeys calls, ∃ n i, k = (.node, n, axis2 i))
    (hσ : ∀ n i, (Side.node, n, axis2 i) ∈ regKeys calls → (Side.node, n, axis2 i) ∉ fixKeys fixs →
      loadsOn (.node, n, axis2 i) loads = nodeLoad geo σ bnd n i)
    (hfix : ∀ f ∈ fixs, f.value = 0 ∨ (1 / 10 ^ 20 : ℝ) < |f.value|) (hval : ∀ f ∈ fixs, f.value = field2 geo t H (keyOf f))
    (hmpc : ∀ m ∈ S0.mpcs ++ new, (m.eq.map fun q => q.coef * field2 geo t H (.node, q.node, q.dof)).sum = m.b)
    (h : linearSolve Gauss.solveEquations (linear els update) loads fixs calls new S0 e = .ok (S', e')) :
    ∀ n i, (Side.node, n, axis2 i) ∈ regKeys calls →
      Post.solution S' .node n (axis2 i) = .ok (t i + (H *ᵥ geo n) i) ∧
      Post.reaction S' n (axis2 i) = .ok (nodeLoad geo σ bnd n i) := by
  obtain ⟨C, c1, c2, c3⟩ := Tri.C41_plane_strain hY h1 h2
  refine C96_uniform hl hload hp (hels.imp fun n x hx => ⟨_, hx.1, hx.2, C, c2, c1, ?_⟩) hbnd hreg hσ hfix hval hmpc h
  rw [hH, Matrix.mulVec_mulVec, c3, Matrix.one_mulVec]

/-- **C96 fails in plane stress.** A plate in plane stress loaded by the stress `σ` on its boundary: the strains of the reported
displacements are those of Hooke's law divided by `(1 - my^2)^2`. -/
theorem C96_plane_stress_violated {geo : Nat → Fin 2 → ℝ} {t : Fin 2 → ℝ} {H : Matrix (Fin 2) (Fin 2) ℝ} {σ : Fin 3 → ℝ} {Y my : ℝ}
    {ts : List (Fin 3 → Nat)} {bnd : List (Nat × Nat)} (hY : 0 < Y) (h1 : -1 < my) (h2 : my < 1 / 2)
    (hH : (1 - my ^ 2) ^ 2 • Tri.symGrad H = Tri.compliance Y my .stress *ᵥ σ)
    (hl : LegalModel S0 calls new (fixKeys fixs)) (hload : ∀ l ∈ loads, keyOf l ∈ regKeys calls)
    (hp : ∀ x ∈ els, Placed S0 calls x) (hels : List.Forall₂ (Sheet geo .stress Y my) ts els) (hbnd : Boundary ts bnd)
    (hreg : ∀ k ∈ regKeys calls, ∃ n i, k = (.node, n, axis2 i))
    (hσ : ∀ n i, (Side.node, n, axis2 i) ∈ regKeys calls → (Side.node, n, axis2 i) ∉ fixKeys fixs →
      loadsOn (.node, n, axis2 i) loads = nodeLoad geo σ bnd n i)
    (hfix : ∀ f ∈ fixs, f.value = 0 ∨ (1 / 10 ^ 20 : ℝ) < |f.value|) (hval : ∀ f ∈ fixs, f.value = field2 geo t H (keyOf f))
    (hmpc : ∀ m ∈ S0.mpcs ++ new, (m.eq.map fun q => q.coef * field2 geo t H (.node, q.node, q.dof)).sum = m.b)
    (h : linearSolve Gauss.solveEquations (linear els update) loads fixs calls new S0 e = .ok (S', e')) :
    (∀ n i, (Side.node, n, axis2 i) ∈ regKeys calls →
      Post.solution S' .node n (axis2 i) = .ok (t i + (H *ᵥ geo n) i) ∧
      Post.reaction S' n (axis2 i) = .ok (nodeLoad geo σ bnd n i)) ∧
    (my ≠ 0 → σ ≠ 0 → Tri.symGrad H ≠ Tri.compliance Y my .stress *ᵥ σ) := by
  have hm : my ^ 2 < 1 := by nlinarith
  have hc : (1 - my ^ 2) ^ 2 ≠ 0 := by
    have : 1 - my ^ 2 ≠ 0 := by intro h; linarith
    exact pow_ne_zero _ this
  have hp' : Tri.elast Y my .stress * Tri.compliance Y my .stress = ((1 - my ^ 2) ^ 2) • (1 : Matrix (Fin 3) (Fin 3) ℝ) := by
    ext i j
    fin_cases i <;> fin_cases j <;>
      simp [Tri.elast, Tri.compliance, Matrix.mul_apply, Fin.sum_univ_three] <;> field_simp <;> ring
  have hel : Tri.elast Y my .stress *ᵥ Tri.symGrad H = σ := by
    have e1 : Tri.elast Y my .stress *ᵥ ((1 - my ^ 2) ^ 2 • Tri.symGrad H) = (1 - my ^ 2) ^ 2 • σ := by
      rw [hH, Matrix.mulVec_mulVec, hp', Matrix.smul_mulVec, Matrix.one_mulVec]
    rw [Matrix.mulVec_smul] at e1
    exact smul_right_injective _ hc e1
  refine ⟨C96_uniform hl hload hp (hels.imp fun n x hx => ⟨_, hx.1, hx.2, _, Tri.elast_symm _ _ _, Tri.makeC_eq _ _ _, hel⟩) hbnd hreg
    hσ hfix hval hmpc h, fun hmy hs hcon => ?_⟩
  have e2 : Tri.symGrad H = 0 := by
    rw [← hcon] at hH
    have e3 : ((1 - my ^ 2) ^ 2 - 1) • Tri.symGrad H = 0 := by rw [sub_smul, hH, one_smul, sub_self]
    have e4 : (1 - my ^ 2) ^ 2 - 1 ≠ 0 := by
      have hpos : 0 < my ^ 2 := by positivity
      intro h
      nlinarith
    exact (smul_eq_zero.mp e3).resolve_left e4
  exact hs (by rw [← hel, e2, Matrix.mulVec_zero])

end

end Nla3d.Struct
