import Verif.Struct.Unique
import Verif.Struct.Linearity
import Verif.Gauss.Near

/-!
# Which linear models are solved

`LinearFESolver` with the Gauss solver stops on some models. The reasons in terms of the model: a direction that meets (nearly) no
resistance. Models that resist every direction are solved, models with a mechanism are not.
-/

namespace Nla3d.Struct

open Nla3d.Dof Nla3d.Block Nla3d.Sparse Nla3d.Storage Nla3d.Solver Finset

variable {K : Type}

/-! ## Specification -/

/-- Forces of the elements on the DoF `k` against the displacements `w`, without the forces that act in the undeformed state. -/
def resistance [CommRing K] (els : List (LinEl K)) (w : Key → K) (k : Key) : K :=
  (els.map fun x => x.forceOn w k).sum - (els.map fun x => x.forceOn (fun _ => 0) k).sum

/-- The free DoFs. -/
def freeKeys (calls : List RegCall) (fixs : List (Bc K)) : Finset Key := (regKeys calls).toFinset \ (fixKeys fixs).toFinset

/-- Displacements of the free DoFs and multipliers of the constraint equations. -/
structure Direction [Zero K] (calls : List RegCall) (fixs : List (Bc K)) (ms : List (Mpc K)) (w : Key → K) (l : List K) : Prop where
  fixed : ∀ k, k ∉ freeKeys calls fixs → w k = 0
  length : l.length = ms.length

/-- A direction, one of its entries 1, that meets forces below `1e-20` only. -/
structure Soft [Field K] [LinearOrder K] (els : List (LinEl K)) (calls : List RegCall) (fixs : List (Bc K)) (ms : List (Mpc K)) (w : Key → K)
    (l : List K) : Prop extends Direction calls fixs ms w l where
  one : (∃ k ∈ freeKeys calls fixs, w k = 1) ∨ 1 ∈ l
  forces : ∀ k ∈ freeKeys calls fixs, |resistance els w k + conForce ms l k| < 1 / 10 ^ 20
  constraints : ∀ m ∈ ms, |(m.eq.map fun t => t.coef * w (.node, t.node, t.dof)).sum| < 1 / 10 ^ 20

/-- A mechanism: displacements of the free DoFs, not all zero at the nodes, that obey the constraint equations and meet no force. -/
structure Mechanism [CommRing K] (els : List (LinEl K)) (calls : List RegCall) (fixs : List (Bc K)) (ms : List (Mpc K)) (w : Key → K) :
    Prop where
  fixed : ∀ k, k ∉ freeKeys calls fixs → w k = 0
  moves : ∃ n t, w (.node, n, t) ≠ 0
  forces : ∀ k ∈ regKeys calls, resistance els w k = 0
  constraints : ∀ m ∈ ms, (m.eq.map fun t => t.coef * w (.node, t.node, t.dof)).sum = 0

/-! ## Lemmas -/

theorem mem_freeKeys {calls : List RegCall} {fixs : List (Bc K)} {k : Key} :
    k ∈ freeKeys calls fixs ↔ k ∈ regKeys calls ∧ k ∉ fixKeys fixs := by
  unfold freeKeys
  rw [Finset.mem_sdiff, List.mem_toFinset, List.mem_toFinset]

section
variable [Field K] [LinearOrder K] [IsStrictOrderedRing K]
variable {E : Type} {S0 S' : Storage K} {calls : List RegCall} {new : List (Mpc K)} {loads fixs : List (Bc K)} {els : List (LinEl K)}
  {update : E → Storage K → E} {e e' : E}

theorem gauss_near {n : Nat} {a : Nat → Nat → K} (h : Stops (Gauss.solveEquations : EqSolver K) n a) :
    1000 ≤ n ∨ ∃ w, Gauss.NearNull n a w := by
  obtain ⟨B, rhs, guess, hn, hv, hr, hg, hf⟩ := h
  subst hn
  exact Gauss.C20_stops (b := fun i => rhs.getD i 0) hv ⟨hr, fun i hi => by rw [getElem?_of_getD (by rw [hr]; exact hi)]⟩ hg hf

omit [LinearOrder K] [IsStrictOrderedRing K] in
theorem rowMul_zero (M : Nat → Nat → K) (N i : Nat) : rowMul M (fun _ => 0) N i = 0 := by
  unfold rowMul
  simp

/-- **C109, why a linear solution stops.** `LinearFESolver` with the Gauss solver stops only if the preparation does, if there are
1000 equations or more, or if some direction meets forces below `1e-20` only. -/
theorem C109_stops (hl : LegalModel S0 calls new (fixKeys fixs)) (hload : ∀ l ∈ loads, keyOf l ∈ regKeys calls)
    (hp : ∀ x ∈ els, Placed S0 calls x)
    (h : linearSolve Gauss.solveEquations (linear els update) loads fixs calls new S0 e = .fatal) :
    S0.prepare calls new (fixKeys fixs) = .fatal ∨ 1000 ≤ (freeKeys calls fixs).card + (S0.mpcs ++ new).length ∨
    ∃ w l, Soft els calls fixs (S0.mpcs ++ new) w l := by
  classical
  have hprob := linear_problem (E := E) (update := update) hl hload hp
  rcases linear_solve hprob gauss_exact e with ⟨_, hf⟩ | ⟨S1, num, hprep, hnum, ⟨_, hstop⟩ | ⟨S', e', h1, _⟩⟩
  · exact Or.inl hf
  · right
    obtain ⟨A, hb⟩ := base_of_prepare hl hprep hnum
    have hdofs := hb.prep.pre.dofs
    have c1 : S1.nConstr = (fixKeys fixs).toFinset.card := hb.prep.ready.nConstr
    have c2 : S1.nDofs = (regKeys calls).toFinset.card := hb.prep.ready.nDofs
    have c4 : S1.mpcs.length = (S0.mpcs ++ new).length := by
      have := congrArg List.length hb.prep.ready.terms
      simpa using this
    have c5 : S1.nMpc = (S0.mpcs ++ new).length := c4
    have hcard : (freeKeys calls fixs).card = S1.nUnknown := by
      unfold freeKeys
      rw [Finset.card_sdiff_of_subset (fun k hk => by
        rw [List.mem_toFinset] at hk ⊢
        exact hl.setup.cons k hk)]
      omega
    rcases gauss_near hstop with h1000 | ⟨w, ⟨i0, hi0, hw1⟩, hw⟩
    · left; omega
    right
    let v : Nat → K := fun i => if S1.nConstr < i then w (i - S1.nConstr - 1) else 0
    have hv : ∀ i, v i = if S1.nConstr < i then w (i - S1.nConstr - 1) else 0 := fun _ => rfl
    have hrow : ∀ i, S1.nConstr < i → i ≤ S1.nDofs + S1.nMpc →
        |rowMul (Assembled (linear els update) e S1 num 0) v (S1.nDofs + S1.nMpc) i| < 1 / 10 ^ 20 := by
      intro i i1 i2
      have h2 := hw (i - S1.nConstr - 1) (by omega)
      have hN : S1.nDofs + S1.nMpc = S1.nConstr + (S1.nUnknown + S1.nMpc) := by omega
      have hi : S1.nConstr + (i - S1.nConstr - 1 + 1) = i := by omega
      unfold rowMul
      rw [hN, Finset.sum_range_add (n := S1.nConstr), Finset.sum_eq_zero (s := range S1.nConstr) fun j hj => by
        rw [hv, if_neg (by have := Finset.mem_range.mp hj; omega), mul_zero], zero_add]
      simp only [hi] at h2
      have : ∀ j ∈ range (S1.nUnknown + S1.nMpc), Assembled (linear els update) e S1 num 0 i (S1.nConstr + j + 1) * v (S1.nConstr + j + 1) =
          Assembled (linear els update) e S1 num 0 i (S1.nConstr + (j + 1)) * w j := by
        intro j _
        rw [hv, if_pos (by omega), show S1.nConstr + j + 1 - S1.nConstr - 1 = j by omega, Nat.add_assoc]
      rw [Finset.sum_congr rfl this]
      exact h2
    let W : Key → K := fun k => if k ∈ freeKeys calls fixs then v (num k) else 0
    have hW : ∀ k ∈ regKeys calls, v (num k) = W k := by
      intro k hk
      show _ = if _ then _ else _
      by_cases c : k ∈ freeKeys calls fixs
      · rw [if_pos c]
      · rw [if_neg c, hv, if_neg]
        have hkf : k ∈ fixKeys fixs := by
          by_contra hh
          exact c (mem_freeKeys.mpr ⟨hk, hh⟩)
        have := hb.fixRange hkf
        omega
    refine ⟨W, S1.mpcs.map fun m => v m.eqNum, ⟨fun k hk => if_neg hk, by rw [List.length_map, c4]⟩, ?_, ?_, ?_⟩
    · by_cases hi : S1.nConstr + (i0 + 1) ≤ S1.nDofs
      · left
        obtain ⟨k, hk, hf, he⟩ := num_onto hb (i := S1.nConstr + (i0 + 1)) (by omega) hi
        refine ⟨k, mem_freeKeys.mpr ⟨hk, hf⟩, ?_⟩
        rw [← hW k hk, he, hv, if_pos (by omega), show S1.nConstr + (i0 + 1) - S1.nConstr - 1 = i0 by omega, hw1]
      · right
        have hmem : S1.nConstr + (i0 + 1) ∈ S1.mpcs.map Mpc.eqNum := by
          rw [hb.prep.ready.eqNums, List.mem_range'_1]
          omega
        obtain ⟨m, hm, he⟩ := List.mem_map.mp hmem
        refine List.mem_map.mpr ⟨m, hm, ?_⟩
        rw [he, hv, if_pos (by omega), show S1.nConstr + (i0 + 1) - S1.nConstr - 1 = i0 by omega, hw1]
    · intro k hk
      obtain ⟨hk, hf⟩ := mem_freeKeys.mp hk
      have hr := hb.freeRange hk hf
      have r1 := row_eq hb hnum hp update e v hk
      have r2 := row_eq hb hnum hp update e (fun _ => 0) hk
      have hz : mpcForce S1.mpcs (fun _ => (0 : K)) k = 0 := by
        unfold mpcForce
        refine List.sum_eq_zero fun x hx => ?_
        obtain ⟨m, _, rfl⟩ := List.mem_map.mp hx
        refine List.sum_eq_zero fun y hy => ?_
        obtain ⟨t, _, rfl⟩ := List.mem_map.mp hy
        simp
      rw [rowMul_zero, hz, zero_sub, add_zero] at r2
      rw [conForce_eq v k _ _ hb.prep.ready.terms, sum_forceOn_congr hp (v := W) hW] at r1
      have := hrow (num k) (by omega) (by omega)
      unfold resistance
      rw [← r2]
      convert this using 2
      linear_combination (-1 : K) * r1
    · intro m hm
      have hterm : (m.eq, m.b) ∈ S1.mpcs.map (fun m => (m.eq, m.b)) := by
        rw [hb.prep.ready.terms]; exact List.mem_map.mpr ⟨m, hm, rfl⟩
      obtain ⟨m1, hm1, he1⟩ := List.mem_map.mp hterm
      rw [Prod.mk.injEq] at he1
      have hmem : m1.eqNum ∈ S1.mpcs.map Mpc.eqNum := List.mem_map.mpr ⟨m1, hm1, rfl⟩
      rw [hb.prep.ready.eqNums, List.mem_range'_1] at hmem
      have := hrow m1.eqNum (by omega) (by omega)
      rw [con_row hb hprep hnum hprob e hm1, he1.1] at this
      convert this using 2
      refine congrArg List.sum (List.map_congr_left fun t ht => ?_)
      rw [hW _ (hl.terms m hm t ht)]
  · rw [h1] at h
    simp at h

/-- The resistance along the displacements. -/
theorem resistance_work (hp : ∀ x ∈ els, Placed S0 calls x) {w : Key → K} (hw : ∀ k, k ∉ freeKeys calls fixs → w k = 0) (u : Key → K) :
    ∑ k ∈ freeKeys calls fixs, w k * resistance els u k = (els.map fun x => x.work w u - x.work w (fun _ => 0)).sum := by
  have hsub : freeKeys calls fixs ⊆ (regKeys calls).toFinset := Finset.sdiff_subset
  rw [Finset.sum_subset hsub fun k _ hk => by rw [hw k hk, zero_mul]]
  unfold resistance
  simp only [mul_sub, Finset.sum_sub_distrib, ← List.sum_map_mul_left]
  rw [sum_list, sum_list]
  clear hw hsub
  induction els with
  | nil => simp
  | cons x xs ih =>
    rw [List.map_cons, List.map_cons, List.map_cons, List.sum_cons, List.sum_cons, List.sum_cons, ← ih fun y hy => hp y (by simp [hy]),
      work_forceOn (fun a ha => localKey_reg (hp x (by simp)).on ha), work_forceOn (fun a ha => localKey_reg (hp x (by simp)).on ha)]
    ring

/-- **C109, stiff models are solved.** A model without constraint equations, with fewer than 1000 free DoFs, whose elements resist every
displacement of the free DoFs with an entry 1 by work of at least `1e-20` times the sum of the displacements, is solved. -/
theorem C109_stiff (hl : LegalModel S0 calls new (fixKeys fixs)) (hload : ∀ l ∈ loads, keyOf l ∈ regKeys calls)
    (hp : ∀ x ∈ els, Placed S0 calls x) (hm : S0.mpcs ++ new = []) (hprep : S0.prepare calls new (fixKeys fixs) ≠ .fatal)
    (hn : (freeKeys calls fixs).card < 1000)
    (hst : ∀ w : Key → K, (∀ k, k ∉ freeKeys calls fixs → w k = 0) → (∃ k ∈ freeKeys calls fixs, w k = 1) →
      1 / 10 ^ 20 * ∑ k ∈ freeKeys calls fixs, |w k| ≤ (els.map fun x => x.work w w - x.work w (fun _ => 0)).sum) :
    ∃ S' e', linearSolve Gauss.solveEquations (linear els update) loads fixs calls new S0 e = .ok (S', e') := by
  have hprob := linear_problem (E := E) (update := update) hl hload hp
  have hfatal : linearSolve Gauss.solveEquations (linear els update) loads fixs calls new S0 e ≠ .fatal := by
    intro h
    rcases C109_stops hl hload hp h with h | h | ⟨w, l, hs⟩
    · exact hprep h
    · rw [hm] at h
      simp at h
      omega
    · have hl0 : l = [] := by
        have := hs.length
        rw [hm] at this
        exact List.length_eq_zero_iff.mp this
      have hone : ∃ k ∈ freeKeys calls fixs, w k = 1 := by
        rcases hs.one with h | h
        · exact h
        · rw [hl0] at h; simp at h
      have h1 := hst w hs.fixed hone
      rw [← resistance_work hp hs.fixed w, Finset.mul_sum] at h1
      obtain ⟨k0, hk0, hw0⟩ := hone
      have hforce : ∀ k ∈ freeKeys calls fixs, |resistance els w k| < 1 / 10 ^ 20 := by
        intro k hk
        have := hs.forces k hk
        rw [hm] at this
        simpa [conForce] using this
      refine absurd h1 (not_le.mpr (Finset.sum_lt_sum (fun k hk => ?_) ⟨k0, hk0, ?_⟩))
      · calc w k * resistance els w k ≤ |w k * resistance els w k| := le_abs_self _
          _ = |resistance els w k| * |w k| := by rw [abs_mul, mul_comm]
          _ ≤ _ := mul_le_mul_of_nonneg_right (hforce k hk).le (abs_nonneg _)
      · rw [hw0, one_mul, abs_one, mul_one]
        exact lt_of_le_of_lt (le_abs_self _) (hforce k0 hk0)
  rcases linear_solve hprob gauss_exact e with ⟨hf, _⟩ | ⟨S1, num, _, _, ⟨hf, _⟩ | ⟨S', e', h1, _⟩⟩
  · exact absurd hf hfatal
  · exact absurd hf hfatal
  · exact ⟨S', e', h1⟩

omit [LinearOrder K] [IsStrictOrderedRing K] in
theorem force_add (x : LinEl K) (u w : Key → K) (k : Key) :
    x.forceOn (fun k => u k + w k) k = x.forceOn u k + (x.forceOn w k - x.forceOn (fun _ => 0) k) := by
  unfold LinEl.forceOn LinEl.force
  rw [← Finset.sum_sub_distrib, ← Finset.sum_add_distrib]
  refine Finset.sum_congr rfl fun a _ => ?_
  split
  · simp only [mul_add, Finset.sum_add_distrib, mul_zero, Finset.sum_const_zero]
    ring
  · ring

omit [LinearOrder K] [IsStrictOrderedRing K] in
theorem resistance_eq (els : List (LinEl K)) (w : Key → K) (k : Key) :
    (els.map fun x => x.forceOn w k - x.forceOn (fun _ => 0) k).sum = resistance els w k := by
  unfold resistance
  induction els with
  | nil => simp
  | cons x xs ih => simp only [List.map_cons, List.sum_cons, ih]; ring

/-- **C109, mechanisms are refused.** A model with a mechanism is not solved, whatever the loads are. -/
theorem C109_mechanism (hl : LegalModel S0 calls new (fixKeys fixs)) (hload : ∀ l ∈ loads, keyOf l ∈ regKeys calls)
    (hp : ∀ x ∈ els, Placed S0 calls x) (hfix : ∀ f ∈ fixs, f.value = 0 ∨ (1 / 10 ^ 20 : K) < |f.value|)
    {w : Key → K} (hw : Mechanism els calls fixs (S0.mpcs ++ new) w) :
    linearSolve Gauss.solveEquations (linear els update) loads fixs calls new S0 e = .fatal := by
  have hprob := linear_problem (E := E) (update := update) hl hload hp
  rcases linear_solve hprob gauss_exact e with ⟨hf, _⟩ | ⟨S1, num, _, _, ⟨hf, _⟩ | ⟨S', e', h1, _⟩⟩
  · exact hf
  · exact hf
  exfalso
  obtain ⟨u, r, l, a1, a2, a3, a4⟩ := C83_equilibrium hl hload hp hfix gauss_exact h1
  have key : ∀ u' : Key → K, Meets S0 calls new loads fixs u' r → Balanced calls els (S0.mpcs ++ new) l u' r →
      ∀ n t, (Side.node, n, t) ∈ regKeys calls → Post.solution S' .node n t = .ok (u' (.node, n, t)) := by
    intro u' b1 b2 n t hk
    obtain ⟨u2, r2, c1, _, c3⟩ := C85_unique hl hload hp hfix h1 a3 b1 b2
    rw [c1.solution n t hk, (c3 _ hk).1]
  have k2 := key (fun k => u k + w k) ⟨fun k hk x hx => ?_, a2.applied, fun m hm => ?_⟩ fun k hk => ?_
  · obtain ⟨n, t, hne⟩ := hw.moves
    have hk : (Side.node, n, t) ∈ regKeys calls := by
      by_contra hh
      exact hne (hw.fixed _ fun c => hh (mem_freeKeys.mp c).1)
    have h2 := k2 n t hk
    rw [a1.solution n t hk, Res.ok.injEq, left_eq_add] at h2
    exact hne h2
  · show u k + w k = x
    rw [a2.prescribed k hk x hx, hw.fixed k fun c => (mem_freeKeys.mp c).2 (lastFix_isSome.mp (by rw [hx]; rfl)), add_zero]
  · simp only [mul_add]
    rw [List.sum_map_add, a2.constraints m hm, hw.constraints m hm, add_zero]
  · show (els.map fun x => x.forceOn (fun k => u k + w k) k).sum + _ = _
    simp only [force_add]
    rw [List.sum_map_add, ← a4 k hk]
    rw [resistance_eq, hw.forces k hk, add_zero]

end

end Nla3d.Struct
