import Verif.Struct.Rows
import Verif.Post.Props

/-!
# C83, C84: equilibrium and virtual work in a solved model of linear elements

`u` and `r` are the values `getNodeDofSolution` and `getReaction` report after `LinearFESolver::solve`.
-/

namespace Nla3d.Struct

open Nla3d.Dof Nla3d.Block Nla3d.Sparse Nla3d.Storage Nla3d.Solver Finset

variable {K : Type}

/-- Force of constraint equations on the DoF `k`, one multiplier for each equation. -/
def conForce [CommRing K] (ms : List (Mpc K)) (l : List K) (k : Key) : K :=
  ((ms.zip l).map fun p => p.2 * (p.1.eq.map fun t => if (Side.node, t.node, t.dof) = k then t.coef else 0).sum).sum

/-- What the storage reports for the DoFs of nodes. -/
structure Reported [Zero K] (S : Storage K) (regs : List Key) (u r : Key → K) : Prop where
  solution : ∀ n t, (Side.node, n, t) ∈ regs → Post.solution S .node n t = .ok (u (.node, n, t))
  reaction : ∀ n t, (Side.node, n, t) ∈ regs → Post.reaction S n t = .ok (r (.node, n, t))

/-- Kinematics and loads: prescribed values, constraint equations, applied loads at free DoFs. -/
structure Meets [CommRing K] (S0 : Storage K) (calls : List RegCall) (new : List (Mpc K)) (loads fixs : List (Bc K)) (u r : Key → K) :
    Prop where
  prescribed : ∀ k ∈ regKeys calls, ∀ x, lastFix k fixs = some x → u k = x
  applied : ∀ k ∈ regKeys calls, k ∉ fixKeys fixs → r k = loadsOn k loads
  constraints : ∀ m ∈ S0.mpcs ++ new, (m.eq.map fun t => t.coef * u (.node, t.node, t.dof)).sum = m.b

theorem conForce_eq [CommRing K] (v : Nat → K) (k : Key) : ∀ (ms ms' : List (Mpc K)),
    ms'.map (fun m => (m.eq, m.b)) = ms.map (fun m => (m.eq, m.b)) →
    mpcForce ms' v k = conForce ms (ms'.map fun m => v m.eqNum) k := by
  intro ms
  induction ms with
  | nil => intro ms' h; rw [List.map_nil, List.map_eq_nil_iff] at h; subst h; simp [mpcForce, conForce]
  | cons m ms ih =>
    intro ms' h
    cases ms' with
    | nil => simp at h
    | cons m' ms' =>
      rw [List.map_cons, List.map_cons, List.cons.injEq] at h
      have := ih ms' h.2
      unfold mpcForce conForce at *
      rw [List.map_cons, List.sum_cons, this, List.map_cons, List.zip_cons_cons, List.map_cons, List.sum_cons]
      congr 1
      have he : m'.eq = m.eq := congrArg Prod.fst h.1
      simp only [he]
      rw [← List.sum_map_mul_left]
      refine congrArg List.sum (List.map_congr_left fun t _ => ?_)
      split
      · exact mul_comm _ _
      · rw [mul_zero]

section
variable [Field K] [LinearOrder K] [IsStrictOrderedRing K]

/-- The solved model. -/
theorem solved_model {E : Type} {S0 S' : Storage K} {calls : List RegCall} {new : List (Mpc K)} {loads fixs : List (Bc K)}
    {els : List (LinEl K)} {update : E → Storage K → E} {eqs : EqSolver K} {e e' : E}
    (hl : LegalModel S0 calls new (fixKeys fixs)) (hload : ∀ l ∈ loads, keyOf l ∈ regKeys calls) (hp : ∀ x ∈ els, Placed S0 calls x)
    (hfix : ∀ f ∈ fixs, f.value = 0 ∨ (1 / 10 ^ 20 : K) < |f.value|) (he : Exact eqs)
    (h : linearSolve eqs (linear els update) loads fixs calls new S0 e = .ok (S', e')) :
    ∃ S1 num A, S0.prepare calls new (fixKeys fixs) = .ok S1 ∧
      (∀ k ∈ regKeys calls, S1.eqNumber k.1 k.2.1 k.2.2 = .ok (num k)) ∧ Base S0 S1 calls new fixs num A ∧
      Answer S1 S' (regKeys calls) num loads fixs ∧ S'.mpcs = S1.mpcs ∧
      (∀ i, 0 < i → i ≤ S1.nDofs + S1.nMpc → rowMul (Assembled (linear els update) e S1 num 0) (comp S'.vecU) (S1.nDofs + S1.nMpc) i =
        AssembledLoad (linear els update) e S1 i + comp S'.vecR i) ∧
      Succeeds eqs (S1.nUnknown + S1.nMpc) (fun i j => Assembled (linear els update) e S1 num 0 (S1.nConstr + (i + 1)) (S1.nConstr + (j + 1))) := by
  have hprob := linear_problem (E := E) (update := update) hl hload hp
  rcases C18_linear_solve hprob he e with ⟨hf, _⟩ | ⟨S1, num, h1, h2, ⟨hf, _⟩ | ⟨S'', e'', h3, h4, h5, _, _, _, _, _, _, _, _, hsuc⟩⟩
  · rw [h] at hf; simp at hf
  · rw [h] at hf; simp at hf
  rcases C18_full_system_partial hprob hfix he e with ⟨hf, _⟩ | ⟨S1', num', g1, g2, ⟨hf, _⟩ | ⟨T, e2, g3, g4, kk, f, _, _, g5, g6, g7⟩⟩
  · rw [h] at hf; simp at hf
  · rw [h] at hf; simp at hf
  rw [h, Res.ok.injEq, Prod.mk.injEq] at h3 g3
  obtain ⟨rfl, rfl⟩ := h3
  obtain ⟨rfl, rfl⟩ := g3
  rw [h1, Res.ok.injEq] at g1
  subst g1
  obtain ⟨A, hb⟩ := base_of_prepare hl h1 h2
  refine ⟨S1, num, A, h1, h2, hb, h4, h5, ?_, hsuc⟩
  have hnum : ∀ k ∈ regKeys calls, num' k = num k := by
    intro k hk
    have a := g2 k hk
    rw [h2 k hk, Res.ok.injEq] at a
    exact a.symm
  have hA : ∀ i j, Assembled (linear els update) e S1 num' 0 i j = Assembled (linear els update) e S1 num 0 i j := by
    intro i j
    unfold Assembled asmM
    have : S1.mpcs.flatMap (mpcContribs num') = S1.mpcs.flatMap (mpcContribs num) := by
      apply List.flatMap_congr
      intro m hm
      unfold mpcContribs
      refine List.map_congr_left fun t ht => ?_
      rw [hnum _ ((hb.prep.ready.isSome _).mp ((hb.prep.pre.terms m hm).2 t ht))]
    simp only [linear, this]
  intro i i1 i2
  rw [← g6, ← g7 i i1 i2]
  unfold rowMul
  simp only [← hA, g5]

theorem reported {S0 S1 S' : Storage K} {calls : List RegCall} {new : List (Mpc K)} {loads fixs : List (Bc K)} {num : Key → Nat}
    {A : Side → Spec} (hl : LegalModel S0 calls new (fixKeys fixs)) (hb : Base S0 S1 calls new fixs num A)
    (ha : Answer S1 S' (regKeys calls) num loads fixs) (hm : S'.mpcs = S1.mpcs) :
    Reported S' (regKeys calls) (fun k => comp S'.vecU (num k)) (fun k => comp S'.vecR (num k)) ∧
    Meets S0 calls new loads fixs (fun k => comp S'.vecU (num k)) (fun k => comp S'.vecR (num k)) := by
  have hlen : S'.vecU.length = S1.nDofs + S1.nMpc ∧ S'.vecR.length = S1.nDofs + S1.nMpc := ha.sizes.2.2.2
  have hrow : ∀ s n t e c, A s n t = some (e, c) → (s, n, t) ∈ regKeys calls ∧ num (s, n, t) = e ∧ 0 < e ∧ e ≤ S1.nDofs := by
    intro s n t e c hA
    have hk : (s, n, t) ∈ regKeys calls := (hb.prep.ready.isSome (s, n, t)).mp (by
      show (A s n t).isSome = true
      rw [hA]; rfl)
    have h1 := hb.range hk
    have h2 : num (s, n, t) = e := by
      rw [hb.agree _ hk]
      unfold Storage.num at'
      rw [hA]; rfl
    rw [h2] at h1
    exact ⟨hk, h2, h1⟩
  have hsim : SimS S' A := hb.prep.ready.sim.congr (by rw [ha.alike]) (by rw [ha.alike]) (by rw [ha.alike]) (by rw [ha.alike])
  have hs : Post.Solved S' A := ⟨hsim, fun s n t e c hA => by have := hrow s n t e c hA; omega,
    fun s n t e c hA => by have := hrow s n t e c hA; omega⟩
  have hval : ∀ (v : List K) n t, (Side.node, n, t) ∈ regKeys calls → Post.rowOf (A .node) v n t = comp v (num (.node, n, t)) := by
    intro v n t hk
    have hi := hb.some hk
    obtain ⟨⟨e, c⟩, hA⟩ := Option.isSome_iff_exists.mp hi
    have hA' : A .node n t = some (e, c) := hA
    unfold Post.rowOf
    rw [hA', (hrow _ _ _ _ _ hA').2.1]
    rfl
  refine ⟨⟨?_, ?_⟩, ha.prescribed, ha.applied, ?_⟩
  · intro n t hk
    rw [Post.solution_eq hs (show (A .node n t).isSome from hb.some hk), hval _ _ _ hk]
  · intro n t hk
    have hn : 0 < n ∧ n ≤ S'.nNodes := by
      have : 0 < n ∧ n ≤ S0.nNodes := by
        obtain ⟨ts, hc, _⟩ := mem_regKeys.mp hk
        exact hl.setup.reg _ hc
      have h2 : S'.nNodes = S1.nNodes := by rw [ha.alike]
      rw [h2, hb.prep.ready.mesh.nNodes]
      exact this
    rw [Post.reaction_eq hs hn, hval _ _ _ hk]
  · intro m hmem
    have ht := hb.prep.ready.terms
    have : (m.eq, m.b) ∈ S1.mpcs.map (fun m => (m.eq, m.b)) := by
      rw [ht]; exact List.mem_map.mpr ⟨m, hmem, rfl⟩
    obtain ⟨m1, h1, h2⟩ := List.mem_map.mp this
    rw [Prod.mk.injEq] at h2
    have := ha.mpcs m1 (by rw [hm]; exact h1)
    rw [h2.1, h2.2] at this
    exact this

/-- **C83.** After a successful linear solution the reported displacements meet the prescribed values and the constraint
equations, and every DoF is in balance: the forces of the elements and of the constraint equations on it add up to the
reported reaction, which is the applied load if the DoF is not fixed. -/
theorem C83_equilibrium {E : Type} {S0 S' : Storage K} {calls : List RegCall} {new : List (Mpc K)} {loads fixs : List (Bc K)}
    {els : List (LinEl K)} {update : E → Storage K → E} {eqs : EqSolver K} {e e' : E}
    (hl : LegalModel S0 calls new (fixKeys fixs)) (hload : ∀ l ∈ loads, keyOf l ∈ regKeys calls) (hp : ∀ x ∈ els, Placed S0 calls x)
    (hfix : ∀ f ∈ fixs, f.value = 0 ∨ (1 / 10 ^ 20 : K) < |f.value|) (he : Exact eqs)
    (h : linearSolve eqs (linear els update) loads fixs calls new S0 e = .ok (S', e')) :
    ∃ (u r : Key → K) (l : List K), Reported S' (regKeys calls) u r ∧ Meets S0 calls new loads fixs u r ∧
      l.length = (S0.mpcs ++ new).length ∧
      ∀ k ∈ regKeys calls, (els.map fun x => x.forceOn u k).sum + conForce (S0.mpcs ++ new) l k = r k := by
  obtain ⟨S1, num, A, h1, h2, hb, ha, hm, hrow, _⟩ := solved_model hl hload hp hfix he h
  obtain ⟨hr1, hr2⟩ := reported hl hb ha hm
  refine ⟨_, _, S1.mpcs.map fun m => comp S'.vecU m.eqNum, hr1, hr2, ?_, ?_⟩
  · have := congrArg List.length hb.prep.ready.terms
    simpa using this
  · intro k hk
    have := hb.range hk
    have h3 := row_eq hb h2 hp update e (comp S'.vecU) hk
    rw [hrow _ this.1 (by omega), add_sub_cancel_left] at h3
    rw [h3, conForce_eq (comp S'.vecU) k _ _ hb.prep.ready.terms]

end

/-! ## Virtual work -/

/-- Virtual work of an element for displacements `u`. -/
def LinEl.work [CommRing K] (x : LinEl K) (δ u : Key → K) : K := ∑ a ∈ range x.n, δ (localKey x.nodes x.dofs a) * x.force u a

/-- Virtual work of the constraint equations. -/
def conWork [CommRing K] (ms : List (Mpc K)) (l : List K) (δ : Key → K) : K :=
  ((ms.zip l).map fun p => p.2 * (p.1.eq.map fun t => t.coef * δ (.node, t.node, t.dof)).sum).sum

theorem sum_list [CommRing K] {β : Type} (s : Finset Key) (f : β → Key → K) : ∀ l : List β,
    ∑ k ∈ s, (l.map fun x => f x k).sum = (l.map fun x => ∑ k ∈ s, f x k).sum := by
  intro l
  induction l with
  | nil => simp
  | cons x l ih => simp only [List.map_cons, List.sum_cons, Finset.sum_add_distrib, ih]

theorem work_forceOn [CommRing K] {x : LinEl K} {regs : List Key} (h : ∀ a < x.n, localKey x.nodes x.dofs a ∈ regs) (δ u : Key → K) :
    ∑ k ∈ regs.toFinset, δ k * x.forceOn u k = x.work δ u := by
  unfold LinEl.forceOn LinEl.work
  simp only [Finset.mul_sum]
  rw [Finset.sum_comm]
  refine Finset.sum_congr rfl fun a ha => ?_
  rw [Finset.sum_eq_single (localKey x.nodes x.dofs a)]
  · rw [if_pos rfl]
  · intro k _ hk
    rw [if_neg (Ne.symm hk), mul_zero]
  · intro hn
    exact absurd (List.mem_toFinset.mpr (h a (Finset.mem_range.mp ha))) hn

theorem work_conForce [CommRing K] {ms : List (Mpc K)} {regs : List Key}
    (h : ∀ m ∈ ms, ∀ t ∈ m.eq, (Side.node, t.node, t.dof) ∈ regs) (l : List K) (δ : Key → K) :
    ∑ k ∈ regs.toFinset, δ k * conForce ms l k = conWork ms l δ := by
  unfold conForce conWork
  simp only [← List.sum_map_mul_left]
  rw [sum_list]
  refine congrArg List.sum (List.map_congr_left fun p hp => ?_)
  have hm := h p.1 (List.of_mem_zip hp).1
  generalize p.2 = c
  revert hm
  induction p.1.eq with
  | nil => intro _; simp
  | cons t ts ih =>
    intro hm
    simp only [List.map_cons, List.sum_cons, mul_add, Finset.sum_add_distrib]
    rw [ih fun t' ht' => hm t' (by simp [ht'])]
    congr 1
    rw [Finset.sum_eq_single (Side.node, t.node, t.dof)]
    · rw [if_pos rfl]; ring
    · intro k _ hk
      rw [if_neg (Ne.symm hk), mul_zero, mul_zero]
    · intro hn
      exact absurd (List.mem_toFinset.mpr (hm t (by simp))) hn

/-- Balance of every DoF implies the principle of virtual work. -/
theorem virtual_work [CommRing K] {S0 : Storage K} {calls : List RegCall} {ms : List (Mpc K)} {els : List (LinEl K)}
    (hp : ∀ x ∈ els, Placed S0 calls x) (hm : ∀ m ∈ ms, ∀ t ∈ m.eq, (Side.node, t.node, t.dof) ∈ regKeys calls) {u r : Key → K} {l : List K}
    (h : ∀ k ∈ regKeys calls, (els.map fun x => x.forceOn u k).sum + conForce ms l k = r k) (δ : Key → K) :
    ∑ k ∈ (regKeys calls).toFinset, δ k * r k = (els.map fun x => x.work δ u).sum + conWork ms l δ := by
  have : ∑ k ∈ (regKeys calls).toFinset, δ k * r k = ∑ k ∈ (regKeys calls).toFinset,
      ((els.map fun x => δ k * x.forceOn u k).sum + δ k * conForce ms l k) := by
    refine Finset.sum_congr rfl fun k hk => ?_
    rw [← h k (List.mem_toFinset.mp hk), mul_add, List.sum_map_mul_left]
  rw [this, Finset.sum_add_distrib, sum_list, work_conForce hm]
  refine congrArg (· + _) (congrArg List.sum (List.map_congr_left fun x hx => ?_))
  exact work_forceOn (fun a ha => localKey_reg (hp x hx).on ha) δ u

/-- **C84.** In a solved model, for every virtual displacement `δ` of the DoFs: the work of the reported loads and reactions is
the work of the element forces plus that of the constraint forces; the latter vanishes if `δ` obeys the homogeneous constraint
equations. -/
theorem C84_virtual_work [Field K] [LinearOrder K] [IsStrictOrderedRing K] {E : Type} {S0 S' : Storage K} {calls : List RegCall}
    {new : List (Mpc K)} {loads fixs : List (Bc K)} {els : List (LinEl K)} {update : E → Storage K → E} {eqs : EqSolver K} {e e' : E}
    (hl : LegalModel S0 calls new (fixKeys fixs)) (hload : ∀ l ∈ loads, keyOf l ∈ regKeys calls) (hp : ∀ x ∈ els, Placed S0 calls x)
    (hfix : ∀ f ∈ fixs, f.value = 0 ∨ (1 / 10 ^ 20 : K) < |f.value|) (he : Exact eqs)
    (h : linearSolve eqs (linear els update) loads fixs calls new S0 e = .ok (S', e')) :
    ∃ u r : Key → K, Reported S' (regKeys calls) u r ∧ Meets S0 calls new loads fixs u r ∧
      ∀ δ : Key → K, (∀ m ∈ S0.mpcs ++ new, (m.eq.map fun t => t.coef * δ (.node, t.node, t.dof)).sum = 0) →
        ∑ k ∈ (regKeys calls).toFinset, δ k * r k = (els.map fun x => x.work δ u).sum := by
  obtain ⟨u, r, l, h1, h2, _, h3⟩ := C83_equilibrium hl hload hp hfix he h
  refine ⟨u, r, h1, h2, fun δ hδ => ?_⟩
  rw [virtual_work hp hl.terms h3 δ, add_eq_left]
  unfold conWork
  refine List.sum_eq_zero fun x hx => ?_
  obtain ⟨p, hp', rfl⟩ := List.mem_map.mp hx
  rw [hδ p.1 (List.of_mem_zip hp').1, mul_zero]

end Nla3d.Struct
