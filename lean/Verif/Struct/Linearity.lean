import Verif.Struct.Unique

/-!
# C86: superposition and reciprocity

Models whose elements have no load vectors and whose constraint equations have zero right-hand sides.
-/

namespace Nla3d.Struct

open Nla3d.Dof Nla3d.Block Nla3d.Sparse Nla3d.Storage Nla3d.Solver Finset

variable {K : Type}

/-- No loads of elements, homogeneous constraint equations. -/
structure Homogeneous [CommRing K] (els : List (LinEl K)) (ms : List (Mpc K)) : Prop where
  loads : ∀ x ∈ els, ∀ a < x.n, x.load a = 0
  rhs : ∀ m ∈ ms, m.b = 0

section
variable [CommRing K]

theorem force_comb {x : LinEl K} (hx : ∀ a < x.n, x.load a = 0) (c d : K) (u v : Key → K) {a : Nat} (ha : a < x.n) :
    x.force (fun k => c * u k + d * v k) a = c * x.force u a + d * x.force v a := by
  unfold LinEl.force
  rw [hx a ha, sub_zero, sub_zero, sub_zero, Finset.mul_sum, Finset.mul_sum, ← Finset.sum_add_distrib]
  exact Finset.sum_congr rfl fun b _ => by ring

theorem forceOn_comb {x : LinEl K} (hx : ∀ a < x.n, x.load a = 0) (c d : K) (u v : Key → K) (k : Key) :
    x.forceOn (fun k => c * u k + d * v k) k = c * x.forceOn u k + d * x.forceOn v k := by
  unfold LinEl.forceOn
  rw [Finset.mul_sum, Finset.mul_sum, ← Finset.sum_add_distrib]
  refine Finset.sum_congr rfl fun a ha => ?_
  split
  · exact force_comb hx c d u v (Finset.mem_range.mp ha)
  · ring

theorem sum_forceOn_comb (c d : K) (u v : Key → K) (k : Key) : ∀ els : List (LinEl K), (∀ x ∈ els, ∀ a < x.n, x.load a = 0) →
    (els.map fun x => x.forceOn (fun k => c * u k + d * v k) k).sum =
      c * (els.map fun x => x.forceOn u k).sum + d * (els.map fun x => x.forceOn v k).sum := by
  intro els
  induction els with
  | nil => intro _; simp
  | cons x els ih =>
    intro h
    rw [List.map_cons, List.sum_cons, List.map_cons, List.sum_cons, List.map_cons, List.sum_cons, ih fun y hy => h y (by simp [hy]),
      forceOn_comb (h x (by simp))]
    ring

/-- Combination of multipliers. -/
def comb (c d : K) (l l' : List K) : List K := List.zipWith (fun x y => c * x + d * y) l l'

theorem conForce_comb (c d : K) (k : Key) : ∀ (ms : List (Mpc K)) (l l' : List K), l.length = ms.length → l'.length = ms.length →
    conForce ms (comb c d l l') k = c * conForce ms l k + d * conForce ms l' k := by
  intro ms
  induction ms with
  | nil => intro l l' _ _; simp [conForce]
  | cons m ms ih =>
    intro l l' h1 h2
    cases l with
    | nil => simp at h1
    | cons x l =>
      cases l' with
      | nil => simp at h2
      | cons y l' =>
        have := ih l l' (by simpa using h1) (by simpa using h2)
        unfold conForce comb at *
        rw [List.zipWith_cons_cons, List.zip_cons_cons, List.map_cons, List.sum_cons, this]
        simp only [List.zip_cons_cons, List.map_cons, List.sum_cons]
        ring

theorem comb_length (c d : K) {l l' : List K} (h : l.length = l'.length) : (comb c d l l').length = l.length := by
  unfold comb
  rw [List.length_zipWith, h, Nat.min_self]

theorem work_symm {x : LinEl K} (hx : ∀ a < x.n, x.load a = 0) (hs : ∀ a < x.n, ∀ b < x.n, x.Ke a b = x.Ke b a) (u v : Key → K) :
    x.work u v = x.work v u := by
  have : ∀ u v : Key → K, x.work u v = ∑ a ∈ range x.n, ∑ b ∈ range x.n,
      x.Ke a b * (u (localKey x.nodes x.dofs a) * v (localKey x.nodes x.dofs b)) := by
    intro u v
    unfold LinEl.work LinEl.force
    refine Finset.sum_congr rfl fun a ha => ?_
    rw [hx a (Finset.mem_range.mp ha), sub_zero, Finset.mul_sum]
    exact Finset.sum_congr rfl fun b _ => by ring
  rw [this, this, Finset.sum_comm]
  refine Finset.sum_congr rfl fun a ha => Finset.sum_congr rfl fun b hb => ?_
  rw [hs b (Finset.mem_range.mp hb) a (Finset.mem_range.mp ha)]
  ring

end

section
variable [Field K] [LinearOrder K] [IsStrictOrderedRing K]

/-- The solution of a problem: what is reported after a successful run of `LinearFESolver` with the Gauss solver. -/
structure SolvedBy (els : List (LinEl K)) (S0 : Storage K) (calls : List RegCall) (new : List (Mpc K)) (loads fixs : List (Bc K))
    (u r : Key → K) : Prop where
  legal : LegalModel S0 calls new (fixKeys fixs)
  loadsReg : ∀ l ∈ loads, keyOf l ∈ regKeys calls
  values : ∀ f ∈ fixs, f.value = 0 ∨ (1 / 10 ^ 20 : K) < |f.value|
  run : ∃ (E : Type) (update : E → Storage K → E) (e e' : E) (S' : Storage K),
    linearSolve Gauss.solveEquations (linear els update) loads fixs calls new S0 e = .ok (S', e') ∧
    Reported S' (regKeys calls) u r
  nodes : ∀ k ∈ regKeys calls, k.1 = Side.node

theorem Reported.unique {S : Storage K} {regs : List Key} {u r u' r' : Key → K} (h : Reported S regs u r) (h' : Reported S regs u' r') :
    ∀ k ∈ regs, k.1 = Side.node → u k = u' k ∧ r k = r' k := by
  rintro ⟨s, n, t⟩ hk hs
  obtain rfl : s = .node := hs
  have a := h.solution n t hk
  have b := h.reaction n t hk
  rw [h'.solution n t hk, Res.ok.injEq] at a
  rw [h'.reaction n t hk, Res.ok.injEq] at b
  exact ⟨a.symm, b.symm⟩

/-- What C83 gives, for the reported values. -/
theorem SolvedBy.balance {els : List (LinEl K)} {S0 : Storage K} {calls : List RegCall} {new : List (Mpc K)} {loads fixs : List (Bc K)}
    {u r : Key → K} (h : SolvedBy els S0 calls new loads fixs u r) (hp : ∀ x ∈ els, Placed S0 calls x) :
    ∃ l, l.length = (S0.mpcs ++ new).length ∧ Meets S0 calls new loads fixs u r ∧ Balanced calls els (S0.mpcs ++ new) l u r := by
  obtain ⟨E, update, e, e', S', hrun, hrep⟩ := h.run
  obtain ⟨u1, r1, l, h1, h2, h3, h4⟩ := C83_equilibrium h.legal h.loadsReg hp h.values gauss_exact hrun
  have heq : ∀ k ∈ regKeys calls, u k = u1 k ∧ r k = r1 k := fun k hk => hrep.unique h1 k hk (h.nodes k hk)
  refine ⟨l, h3, ⟨?_, ?_, ?_⟩, ?_⟩
  · intro k hk x hx
    rw [(heq k hk).1, h2.prescribed k hk x hx]
  · intro k hk hf
    rw [(heq k hk).2, h2.applied k hk hf]
  · intro m hm
    rw [← h2.constraints m hm]
    refine congrArg List.sum (List.map_congr_left fun t ht => ?_)
    rw [(heq _ (h.legal.terms m hm t ht)).1]
  · intro k hk
    rw [(heq k hk).2, ← h4 k hk, sum_forceOn_congr hp fun k hk => (heq k hk).1]

/-- **C85** for the reported values. -/
theorem SolvedBy.unique {els : List (LinEl K)} {S0 : Storage K} {calls : List RegCall} {new : List (Mpc K)} {loads fixs : List (Bc K)}
    {u r : Key → K} (h : SolvedBy els S0 calls new loads fixs u r) (hp : ∀ x ∈ els, Placed S0 calls x) {u' r' : Key → K} {l' : List K}
    (hlen : l'.length = (S0.mpcs ++ new).length) (hmeets : Meets S0 calls new loads fixs u' r')
    (hbal : Balanced calls els (S0.mpcs ++ new) l' u' r') : ∀ k ∈ regKeys calls, u k = u' k ∧ r k = r' k := by
  obtain ⟨E, update, e, e', S', hrun, hrep⟩ := h.run
  obtain ⟨u1, r1, h1, _, h3⟩ := C85_unique h.legal h.loadsReg hp h.values hrun hlen hmeets hbal
  intro k hk
  have := hrep.unique h1 k hk (h.nodes k hk)
  rw [this.1, this.2]
  exact h3 k hk

/-- **C86, superposition.** Three solutions of the same model with the same fixed DoFs. If the loads and prescribed values of
the third are `c` times those of the first plus `d` times those of the second, so are the displacements and reactions. -/
theorem C86_superposition {els : List (LinEl K)} {S0 : Storage K} {calls : List RegCall} {new : List (Mpc K)}
    {loads1 fixs1 loads2 fixs2 loads3 fixs3 : List (Bc K)} {u1 r1 u2 r2 u3 r3 : Key → K}
    (hp : ∀ x ∈ els, Placed S0 calls x) (hh : Homogeneous els (S0.mpcs ++ new))
    (h1 : SolvedBy els S0 calls new loads1 fixs1 u1 r1) (h2 : SolvedBy els S0 calls new loads2 fixs2 u2 r2)
    (h3 : SolvedBy els S0 calls new loads3 fixs3 u3 r3) (c d : K)
    (hk1 : ∀ k, k ∈ fixKeys fixs1 ↔ k ∈ fixKeys fixs3) (hk2 : ∀ k, k ∈ fixKeys fixs2 ↔ k ∈ fixKeys fixs3)
    (hload : ∀ k, loadsOn k loads3 = c * loadsOn k loads1 + d * loadsOn k loads2)
    (hval : ∀ k x y, lastFix k fixs1 = some x → lastFix k fixs2 = some y → lastFix k fixs3 = some (c * x + d * y)) :
    ∀ k ∈ regKeys calls, u3 k = c * u1 k + d * u2 k ∧ r3 k = c * r1 k + d * r2 k := by
  obtain ⟨l1, a1, m1, b1⟩ := h1.balance hp
  obtain ⟨l2, a2, m2, b2⟩ := h2.balance hp
  refine h3.unique hp (u' := fun k => c * u1 k + d * u2 k) (r' := fun k => c * r1 k + d * r2 k) (l' := comb c d l1 l2)
    (by rw [comb_length c d (by rw [a1, a2]), a1]) ⟨?_, ?_, ?_⟩ ?_
  · intro k hk x hx
    have hmem : k ∈ fixKeys fixs3 := lastFix_isSome.mp (by rw [hx]; rfl)
    obtain ⟨x1, e1⟩ := Option.isSome_iff_exists.mp (lastFix_isSome.mpr ((hk1 k).mpr hmem))
    obtain ⟨x2, e2⟩ := Option.isSome_iff_exists.mp (lastFix_isSome.mpr ((hk2 k).mpr hmem))
    have := hval k x1 x2 e1 e2
    rw [hx, Option.some.injEq] at this
    rw [m1.prescribed k hk x1 e1, m2.prescribed k hk x2 e2, this]
  · intro k hk hf
    rw [m1.applied k hk (fun hh => hf ((hk1 k).mp hh)), m2.applied k hk (fun hh => hf ((hk2 k).mp hh)), hload]
  · intro m hm
    have e1 := m1.constraints m hm
    have e2 := m2.constraints m hm
    rw [hh.rhs m hm] at *
    have : (m.eq.map fun t => t.coef * (c * u1 (.node, t.node, t.dof) + d * u2 (.node, t.node, t.dof))).sum =
        c * (m.eq.map fun t => t.coef * u1 (.node, t.node, t.dof)).sum + d * (m.eq.map fun t => t.coef * u2 (.node, t.node, t.dof)).sum := by
      rw [← List.sum_map_mul_left, ← List.sum_map_mul_left, ← List.sum_map_add]
      exact congrArg List.sum (List.map_congr_left fun t _ => by ring)
    rw [this, e1, e2]
    ring
  · intro k hk
    show _ = c * r1 k + d * r2 k
    rw [sum_forceOn_comb c d u1 u2 k els hh.loads, conForce_comb c d k _ _ _ a1 a2, ← b1 k hk, ← b2 k hk]
    ring

/-- **C86, reciprocity** (Betti). Two solutions of the same model, with any loads and prescribed values: the loads and reactions
of the first do the same work on the displacements of the second as those of the second on the displacements of the first. -/
theorem C86_reciprocity {els : List (LinEl K)} {S0 : Storage K} {calls : List RegCall} {new : List (Mpc K)}
    {loads1 fixs1 loads2 fixs2 : List (Bc K)} {u1 r1 u2 r2 : Key → K}
    (hp : ∀ x ∈ els, Placed S0 calls x) (hh : Homogeneous els (S0.mpcs ++ new))
    (h1 : SolvedBy els S0 calls new loads1 fixs1 u1 r1) (h2 : SolvedBy els S0 calls new loads2 fixs2 u2 r2) :
    ∑ k ∈ (regKeys calls).toFinset, u2 k * r1 k = ∑ k ∈ (regKeys calls).toFinset, u1 k * r2 k := by
  obtain ⟨l1, a1, m1, b1⟩ := h1.balance hp
  obtain ⟨l2, a2, m2, b2⟩ := h2.balance hp
  have hz : ∀ {u : Key → K} {l : List K}, (∀ m ∈ S0.mpcs ++ new, (m.eq.map fun t => t.coef * u (.node, t.node, t.dof)).sum = m.b) →
      conWork (S0.mpcs ++ new) l u = 0 := by
    intro u l hu
    unfold conWork
    refine List.sum_eq_zero fun x hx => ?_
    obtain ⟨p, hp', rfl⟩ := List.mem_map.mp hx
    have hmem := (List.of_mem_zip hp').1
    rw [hu p.1 hmem, hh.rhs p.1 hmem, mul_zero]
  rw [virtual_work hp h1.legal.terms b1 u2, virtual_work hp h2.legal.terms b2 u1, hz m2.constraints, hz m1.constraints]
  refine congrArg (· + 0) (congrArg List.sum (List.map_congr_left fun x hx => ?_))
  exact work_symm (hh.loads x hx) (hp x hx).symm u2 u1

end

end Nla3d.Struct
