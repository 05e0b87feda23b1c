import Verif.Struct.Lemmas

/-!
# The rows of the assembled system are the balances of the DoFs
-/

namespace Nla3d.Struct

open Nla3d.Dof Nla3d.Block Nla3d.Sparse Nla3d.Storage Nla3d.Solver Finset

variable {K : Type}

section rows
variable [CommRing K]

/-- A sum over components that has one non-zero term. -/
theorem sum_pick {N p : Nat} (hp : 0 < p ∧ p ≤ N) (f : Nat → K) : (∑ j ∈ range N, if p = j + 1 then f (j + 1) else 0) = f p := by
  rw [Finset.sum_eq_single (p - 1)]
  · rw [if_pos (by omega), Nat.sub_add_cancel hp.1]
  · intro j _ hj
    rw [if_neg (by omega)]
  · intro h
    rw [Finset.mem_range] at h
    omega

theorem row_scatter {m N : Nat} {eq : Nat → Nat} (Ke : Nat → Nat → K) (v : Nat → K) (h : ∀ a < m, 0 < eq a ∧ eq a ≤ N) (i : Nat) :
    ∑ j ∈ range N, (∑ a ∈ range m, ∑ b ∈ range m, if eq a = i ∧ eq b = j + 1 then Ke a b else 0) * v (j + 1) =
      ∑ a ∈ range m, if eq a = i then ∑ b ∈ range m, Ke a b * v (eq b) else 0 := by
  simp only [Finset.sum_mul]
  rw [Finset.sum_comm]
  refine Finset.sum_congr rfl fun a _ => ?_
  rw [Finset.sum_comm]
  by_cases hi : eq a = i
  · rw [if_pos hi]
    refine Finset.sum_congr rfl fun b hb => ?_
    rw [← sum_pick (h b (Finset.mem_range.mp hb)) fun j => Ke a b * v j]
    refine Finset.sum_congr rfl fun j _ => ?_
    by_cases hj : eq b = j + 1 <;> simp [hi, hj]
  · rw [if_neg hi]
    refine Finset.sum_eq_zero fun b _ => Finset.sum_eq_zero fun j _ => ?_
    rw [if_neg (fun hh => hi hh.1), zero_mul]

/-- The row of the constraints. -/
theorem row_mpcs {num : Key → Nat} {regs : List Key} {n N : Nat} (v : Nat → K) {k : Key} (hk : k ∈ regs)
    (hinj : ∀ k ∈ regs, ∀ k' ∈ regs, num k = num k' → k = k') (hr : ∀ k ∈ regs, 0 < num k ∧ num k ≤ n) (hnN : n ≤ N) :
    ∀ ms : List (Mpc K), (∀ m ∈ ms, (n < m.eqNum ∧ m.eqNum ≤ N) ∧ ∀ t ∈ m.eq, (Side.node, t.node, t.dof) ∈ regs) →
    ∑ j ∈ range N, matSum 0 (num k) (j + 1) (ms.flatMap (mpcContribs num)) * v (j + 1) = mpcForce ms v k := by
  intro ms
  induction ms with
  | nil => intro _; simp [matSum, mpcForce]
  | cons m ms ih =>
    intro h
    have ih' := ih fun m' hm' => h m' (by simp [hm'])
    simp only [List.flatMap_cons, matSum_append, add_mul, Finset.sum_add_distrib]
    rw [ih']
    unfold mpcForce
    rw [List.map_cons, List.sum_cons]
    congr 1
    obtain ⟨hm, ht⟩ := h m (by simp)
    unfold mpcContribs
    have hkr := hr k hk
    generalize m.eqNum = p at hm
    revert ht
    induction m.eq with
    | nil => intro _; simp [matSum]
    | cons t ts ih2 =>
      intro ht
      rw [List.map_cons, List.map_cons, List.sum_cons]
      simp only [matSum, add_mul, Finset.sum_add_distrib]
      rw [ih2 fun t' ht' => ht t' (by simp [ht'])]
      congr 1
      have htr := ht t (by simp)
      by_cases he : (Side.node, t.node, t.dof) = k
      · rw [if_pos he, he, ← sum_pick (p := p) (N := N) (by omega) fun j => t.coef * v j]
        refine Finset.sum_congr rfl fun j _ => ?_
        by_cases hj : p = j + 1
        · rw [if_pos hj, if_pos ⟨rfl, Or.inr ⟨hj, rfl⟩⟩]
        · rw [if_neg hj, if_neg, zero_mul]
          rintro ⟨_, ⟨h1, _⟩ | ⟨h1, _⟩⟩ <;> omega
      · rw [if_neg he]
        refine Finset.sum_eq_zero fun j _ => ?_
        rw [if_neg, zero_mul]
        rintro ⟨_, ⟨h1, _⟩ | ⟨_, h2⟩⟩
        · omega
        · exact he (hinj _ htr _ hk h2)

theorem matSum_elem_load {x : LinEl K} {eq : Nat → Nat} (hinj : ∀ a < x.n, ∀ b < x.n, eq a = eq b → a = b)
    (hsym : ∀ a < x.n, ∀ b < x.n, x.Ke a b = x.Ke b a) (i j : Nat) :
    matSum 0 i j (elemContribs .K eq x.Ke x.n ++ loadAdds eq x.Fe x.n) =
      ∑ a ∈ range x.n, ∑ b ∈ range x.n, if eq a = i ∧ eq b = j then x.Ke a b else 0 := by
  rw [matSum_append, matSum_scatter (q := 0) hinj hsym rfl]
  unfold loadAdds
  cases x.Fe with
  | none => simp [matSum]
  | some f => simp [matSum_load]

theorem loadSum_elem_load {x : LinEl K} {eq : Nat → Nat} (i : Nat) :
    loadSum i (elemContribs .K eq x.Ke x.n ++ loadAdds eq x.Fe x.n) = ∑ a ∈ range x.n, if eq a = i then x.load a else 0 := by
  rw [loadSum_append, loadSum_elem, zero_add]
  unfold LinEl.load loadAdds
  cases x.Fe with
  | none => simp [loadSum]
  | some f => exact loadSum_load _ _ _ _

end rows

variable [Field K]

/-- The row of a DoF in the assembled matrix. -/
theorem row_eq {E : Type} {S0 S1 : Storage K} {calls : List RegCall} {new : List (Mpc K)} {fixs : List (Bc K)} {num : Key → Nat}
    {A : Side → Spec} (hb : Base S0 S1 calls new fixs num A)
    (hn : ∀ k ∈ regKeys calls, S1.eqNumber k.1 k.2.1 k.2.2 = .ok (num k))
    {els : List (LinEl K)} (hp : ∀ x ∈ els, Placed S0 calls x) (update : E → Storage K → E) (e : E) (v : Nat → K) {k : Key}
    (hk : k ∈ regKeys calls) :
    rowMul (Assembled (linear els update) e S1 num 0) v (S1.nDofs + S1.nMpc) (num k) - AssembledLoad (linear els update) e S1 (num k) =
      (els.map fun x => x.forceOn (fun k => v (num k)) k).sum + mpcForce S1.mpcs v k := by
  have hM : ∀ i j, Assembled (linear els update) e S1 num 0 i j =
      matSum 0 i j (els.flatMap (LinEl.adds S1)) + matSum 0 i j (S1.mpcs.flatMap (mpcContribs num)) := by
    intro i j
    unfold Assembled asmM linear
    cases S1.transient <;> simp [matSum_append, matSum]
  have hmp : ∀ m ∈ S1.mpcs, (S1.nDofs < m.eqNum ∧ m.eqNum ≤ S1.nDofs + S1.nMpc) ∧
      ∀ t ∈ m.eq, (Side.node, t.node, t.dof) ∈ regKeys calls := fun m hm =>
    ⟨⟨(hb.prep.pre.eqNum m hm).1, (hb.prep.pre.eqNum m hm).2⟩, fun t ht => (hb.prep.ready.isSome _).mp ((hb.prep.pre.terms m hm).2 t ht)⟩
  have hrange := hb.range hk
  have hV : AssembledLoad (linear els update) e S1 (num k) = loadSum (num k) (els.flatMap (LinEl.adds S1)) := by
    unfold AssembledLoad asmV linear
    rw [mpcLoad_other fun m hm => by have := (hmp m hm).1; omega]
    cases S1.transient <;> simp [loadSum]
  unfold rowMul
  simp only [hM, add_mul, Finset.sum_add_distrib]
  rw [row_mpcs v hk hb.inj (fun k hk => hb.range hk) (Nat.le_add_right _ _) S1.mpcs hmp, hV, add_sub_right_comm]
  congr 1
  clear hM hV
  induction els with
  | nil => simp [matSum, loadSum]
  | cons x els ih =>
    have ih' := ih fun y hy => hp y (by simp [hy])
    have hx := hp x (by simp)
    simp only [List.flatMap_cons, matSum_append, loadSum_append, add_mul, Finset.sum_add_distrib, List.map_cons, List.sum_cons]
    rw [← ih', add_sub_add_comm]
    congr 1
    rw [adds_num hx hn (S := S1) (fun _ _ => rfl)]
    have hloc : ∀ a < x.n, localKey x.nodes x.dofs a ∈ regKeys calls := fun a ha => localKey_reg hx.on ha
    have hinj : ∀ a < x.n, ∀ b < x.n, eqOf num x.nodes x.dofs a = eqOf num x.nodes x.dofs b → a = b := fun a ha b hb' he =>
      localKey_inj hx.distinct hx.on.dofsNodup ha hb' (hb.inj _ (hloc a ha) _ (hloc b hb') he)
    rw [loadSum_elem_load]
    simp only [matSum_elem_load hinj hx.symm]
    rw [row_scatter (N := S1.nDofs + S1.nMpc) (eq := eqOf num x.nodes x.dofs) x.Ke v (fun a ha => by
      have := hb.range (hloc a ha); unfold eqOf; omega) (num k), ← Finset.sum_sub_distrib]
    unfold LinEl.forceOn LinEl.force
    refine Finset.sum_congr rfl fun a ha => ?_
    have hiff : eqOf num x.nodes x.dofs a = num k ↔ localKey x.nodes x.dofs a = k :=
      ⟨fun h => hb.inj _ (hloc a (Finset.mem_range.mp ha)) _ hk h, fun h => by unfold eqOf; rw [h]⟩
    by_cases h : localKey x.nodes x.dofs a = k
    · rw [if_pos (hiff.mpr h), if_pos (hiff.mpr h), if_pos h]
      rfl
    · rw [if_neg (fun h' => h (hiff.mp h')), if_neg (fun h' => h (hiff.mp h')), if_neg h, sub_zero]

end Nla3d.Struct
