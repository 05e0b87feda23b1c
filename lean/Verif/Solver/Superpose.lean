import Verif.Solver.Minimum

/-!
# C135: superposition of linear solutions

Source: `LinearFESolver::solve`, src/lib/FESolver.cpp:336-396. The model is that of C18.
-/

set_option linter.unusedSectionVars false

namespace Nla3d.Solver

open Nla3d.Dof Nla3d.Block Nla3d.Sparse Nla3d.Storage Nla3d.TimeCtl Finset

variable {K : Type} [Field K] [LinearOrder K] [IsStrictOrderedRing K]

/-! ## Specification -/

/-- The equation solver delivers results for regular matrices only. -/
def Regular (eqs : EqSolver K) : Prop :=
  ∀ n a, Succeeds eqs n a → ∀ z : Nat → K, (∀ i < n, ∑ j ∈ range n, a i j * z j = 0) → ∀ i < n, z i = 0

/-- One load case: loads and prescribed values. -/
structure Case (K : Type) where
  loads : List (Bc K)
  fixs : List (Bc K)

/-- Loads and prescribed values of case `c` are `p` times those of `a` plus `q` times those of `b`. -/
structure Combines (regs : List Key) (p q : K) (a b c : Case K) : Prop where
  loads : ∀ k ∈ regs, loadsOn k c.loads = p * loadsOn k a.loads + q * loadsOn k b.loads
  fixs : ∀ k ∈ regs, ∀ x y, lastFix k a.fixs = some x → lastFix k b.fixs = some y → lastFix k c.fixs = some (p * x + q * y)
  keysA : fixKeys a.fixs = fixKeys c.fixs
  keysB : fixKeys b.fixs = fixKeys c.fixs

/-! ## Proof -/

theorem gauss_regular : Regular (Gauss.solveEquations (K := K)) := by
  intro n a hs z hz
  obtain ⟨B, rhs, guess, X, hn, hv, hr, hg, hok⟩ := hs
  subst hn
  have hb : Gauss.RepV B.si.nRows rhs (fun i => rhs.getD i 0) := by
    refine ⟨hr, fun i hi => ?_⟩
    rw [List.getD_eq_getElem?_getD, List.getElem?_eq_getElem (by omega)]
    rfl
  rcases Gauss.C20_solveEquations hv hb hg with g | ⟨_, _, _, _, _, _, hdet⟩
  · rw [hok] at g; cases g
  · have := Matrix.eq_zero_of_mulVec_eq_zero hdet (v := fun j : Fin B.si.nRows => z j) (by
      funext i
      have h := hz i i.isLt
      rw [Finset.sum_range] at h
      exact h)
    intro i hi
    exact congrFun this ⟨i, hi⟩

/-- What is used of a linear solution, for a given preparation. -/
theorem linear_facts {E : Type} {S0 S1 : Storage K} {calls : List RegCall} {new : List (Mpc K)} {loads fixs : List (Bc K)}
    {el : Elems E K} (h : Problem S0 calls new loads fixs el) {eqs : EqSolver K} (he : Exact eqs) {e : E}
    {S' : Storage K} {e' : E} (hs : linearSolve eqs el loads fixs calls new S0 e = .ok (S', e'))
    (hprep : S0.prepare calls new (fixKeys fixs) = .ok S1) {num : Key → Nat}
    (hnum : ∀ k ∈ regKeys calls, S1.eqNumber k.1 k.2.1 k.2.2 = .ok (num k)) :
    (∀ k ∈ regKeys calls, ∀ x, lastFix k fixs = some x → comp S'.vecU (num k) = x) ∧
    (∀ k ∈ regKeys calls, k ∉ fixKeys fixs → comp S'.vecR (num k) = loadsOn k loads) ∧
    (∀ i, S1.nDofs < i → i ≤ S1.nDofs + S1.nMpc → comp S'.vecR i = 0) ∧
    (∀ i, S1.nConstr < i → i ≤ S1.nDofs + S1.nMpc →
      rowMul (Assembled el e S1 num 0) (comp S'.vecU) (S1.nDofs + S1.nMpc) i = AssembledLoad el e S1 i + comp S'.vecR i) ∧
    Succeeds eqs (S1.nUnknown + S1.nMpc) (fun i j => Assembled el e S1 num 0 (S1.nConstr + (i + 1)) (S1.nConstr + (j + 1))) := by
  rcases linear_solve h he e with ⟨hf, _⟩ | ⟨S2, num', hprep', hnum', ⟨hf, _⟩ | ⟨T, e2, h1, ha, _, k, f, _, _, hk2, hf2, hrow, _, hsu⟩⟩
  · rw [hs] at hf; cases hf
  · rw [hs] at hf; cases hf
  have eT : S' = T := congrArg Prod.fst (Res.ok.inj (hs.symm.trans h1))
  have e2 : S2 = S1 := Res.ok.inj (hprep'.symm.trans hprep)
  subst eT e2
  obtain ⟨A, hb⟩ := base_of_prepare h.legal hprep hnum
  have hnn : ∀ k ∈ regKeys calls, num' k = num k := fun k hk => Res.ok.inj ((hnum' k hk).symm.trans (hnum k hk))
  have hb' : Base S0 S2 calls new fixs num' A := ⟨hb.prep, fun k hk => (hnn k hk).trans (hb.agree k hk), hb.fixes, hb.U, hb.R⟩
  have hsh : SameShape S2.mpcs (el.upd e S2 S2.mpcs) := (h.elems S2 num hprep hnum e S2 rfl).2.2 _
  have hkk : ∀ i j, Assembled el e S2 num' 0 i j = Assembled el e S2 num 0 i j := fun i j =>
    (asmM_congr hb' hsh 0 i j).symm.trans (asmM_congr hb hsh 0 i j)
  refine ⟨fun k hk x hx => ?_, fun k hk hx => ?_, ha.noLoad, fun i i1 i2 => ?_, ?_⟩
  · rw [← hnn k hk]; exact ha.prescribed k hk x hx
  · rw [← hnn k hk]; exact ha.applied k hk hx
  · have := hrow i i1 i2
    rw [hf2] at this
    rw [← this]
    unfold rowMul
    refine Finset.sum_congr rfl fun j _ => ?_
    rw [hk2, hkk]
  · simpa only [hkk] using hsu

/-! ## C135 -/

/-- C135: if loads and prescribed values of a case are a combination of those of two others, and the factors add up to one or elements and
constraint equations give no loads, then its displacements and multipliers are the same combination of theirs. -/
theorem C135_superposition {E : Type} {S0 S1 : Storage K} {calls : List RegCall} {new : List (Mpc K)} {el : Elems E K} {a b c : Case K}
    {p q : K} (hc : Combines (regKeys calls) p q a b c) (ha : Problem S0 calls new a.loads a.fixs el)
    (hb : Problem S0 calls new b.loads b.fixs el) (hcp : Problem S0 calls new c.loads c.fixs el) {eqs : EqSolver K} (he : Exact eqs)
    (hreg : Regular eqs) {e ea eb ec : E} {Sa Sb Sc : Storage K} (sa : linearSolve eqs el a.loads a.fixs calls new S0 e = .ok (Sa, ea))
    (sb : linearSolve eqs el b.loads b.fixs calls new S0 e = .ok (Sb, eb))
    (sc : linearSolve eqs el c.loads c.fixs calls new S0 e = .ok (Sc, ec))
    (hprep : S0.prepare calls new (fixKeys c.fixs) = .ok S1)
    (hone : p + q = 1 ∨ ∀ i, S1.nConstr < i → AssembledLoad el e S1 i = 0) :
    ∀ i, 0 < i → i ≤ S1.nDofs + S1.nMpc → comp Sc.vecU i = p * comp Sa.vecU i + q * comp Sb.vecU i := by
  rcases linear_solve hcp he e with ⟨hf, _⟩ | ⟨S2, num, hprep2, hnum, _⟩
  · rw [sc] at hf; cases hf
  obtain rfl : S2 = S1 := Res.ok.inj (hprep2.symm.trans hprep)
  obtain ⟨A, hbase⟩ := base_of_prepare hcp.legal hprep hnum
  have hd := hbase.prep.pre.dofs
  obtain ⟨a1, a2, a3, a4, -⟩ := linear_facts ha he sa (by rw [hc.keysA]; exact hprep) hnum
  obtain ⟨b1, b2, b3, b4, -⟩ := linear_facts hb he sb (by rw [hc.keysB]; exact hprep) hnum
  obtain ⟨c1, c2, c3, c4, c5⟩ := linear_facts hcp he sc hprep hnum
  have z0 : ∀ i, 0 < i → i ≤ S2.nConstr → comp Sc.vecU i = p * comp Sa.vecU i + q * comp Sb.vecU i := by
    intro i i1 i2
    obtain ⟨key, k1, k2, rfl⟩ := hbase.fixOf i1 i2
    obtain ⟨x, hx⟩ := Option.isSome_iff_exists.mp (lastFix_isSome.mpr (hc.keysA ▸ k1))
    obtain ⟨y, hy⟩ := Option.isSome_iff_exists.mp (lastFix_isSome.mpr (hc.keysB ▸ k1))
    rw [a1 key k2 x hx, b1 key k2 y hy, c1 key k2 _ (hc.fixs key k2 x y hx hy)]
  have rR : ∀ i, S2.nConstr < i → i ≤ S2.nDofs + S2.nMpc → comp Sc.vecR i = p * comp Sa.vecR i + q * comp Sb.vecR i := by
    intro i i1 i2
    by_cases h2 : i ≤ S2.nDofs
    · obtain ⟨k, k1, k2, rfl⟩ := hbase.freeOf i1 h2
      rw [a2 k k1 (by rw [hc.keysA]; exact k2), b2 k k1 (by rw [hc.keysB]; exact k2), c2 k k1 k2, hc.loads k k1]
    · rw [a3 i (by omega) i2, b3 i (by omega) i2, c3 i (by omega) i2]
      ring
  set N := S2.nDofs + S2.nMpc with hN
  set z : Nat → K := fun i => comp Sc.vecU i - (p * comp Sa.vecU i + q * comp Sb.vecU i) with hz
  have rz : ∀ i, S2.nConstr < i → i ≤ N → rowMul (Assembled el e S2 num 0) z N i = 0 := by
    intro i i1 i2
    have e1 : rowMul (Assembled el e S2 num 0) z N i = rowMul (Assembled el e S2 num 0) (comp Sc.vecU) N i -
        (p * rowMul (Assembled el e S2 num 0) (comp Sa.vecU) N i + q * rowMul (Assembled el e S2 num 0) (comp Sb.vecU) N i) := by
      unfold rowMul
      rw [Finset.mul_sum, Finset.mul_sum, ← Finset.sum_add_distrib, ← Finset.sum_sub_distrib]
      refine Finset.sum_congr rfl fun j _ => ?_
      simp only [hz]
      ring
    rw [e1, a4 i i1 i2, b4 i i1 i2, c4 i i1 i2, rR i i1 i2]
    rcases hone with h1 | h1
    · have : q = 1 - p := by rw [← h1]; ring
      rw [this]
      ring
    · rw [h1 i i1]
      ring
  have hzero := hreg _ _ c5 (fun j => z (S2.nConstr + (j + 1))) (by
    intro i hi
    have := rz (S2.nConstr + (i + 1)) (by omega) (by omega)
    unfold rowMul at this
    rw [show N = S2.nConstr + (S2.nUnknown + S2.nMpc) by omega, Finset.sum_range_add, Finset.sum_eq_zero, zero_add] at this
    · exact this
    · intro j hj
      rw [Finset.mem_range] at hj
      have : z (j + 1) = 0 := sub_eq_zero.2 (z0 (j + 1) (by omega) (by omega))
      rw [this, mul_zero])
  intro i i1 i2
  by_cases hi : i ≤ S2.nConstr
  · exact z0 i i1 hi
  · have := hzero (i - S2.nConstr - 1) (by omega)
    rw [show S2.nConstr + (i - S2.nConstr - 1 + 1) = i by omega] at this
    exact sub_eq_zero.1 this

/-- C135: in particular a solution is determined by the sums of the loads on each DoF and the prescribed values: neither the order of the
loads matters nor whether a load is given at once or in parts. -/
theorem C135_unique {E : Type} {S0 S1 : Storage K} {calls : List RegCall} {new : List (Mpc K)} {el : Elems E K} {a c : Case K}
    (hl : ∀ k ∈ regKeys calls, loadsOn k c.loads = loadsOn k a.loads) (hf : ∀ k ∈ regKeys calls, lastFix k c.fixs = lastFix k a.fixs)
    (hk : fixKeys a.fixs = fixKeys c.fixs) (ha : Problem S0 calls new a.loads a.fixs el) (hcp : Problem S0 calls new c.loads c.fixs el)
    {eqs : EqSolver K} (he : Exact eqs) (hreg : Regular eqs) {e ea ec : E} {Sa Sc : Storage K}
    (sa : linearSolve eqs el a.loads a.fixs calls new S0 e = .ok (Sa, ea))
    (sc : linearSolve eqs el c.loads c.fixs calls new S0 e = .ok (Sc, ec)) (hprep : S0.prepare calls new (fixKeys c.fixs) = .ok S1) :
    ∀ i, 0 < i → i ≤ S1.nDofs + S1.nMpc → comp Sc.vecU i = comp Sa.vecU i := by
  intro i i1 i2
  have := C135_superposition (p := 1) (q := 0) (a := a) (b := a) (c := c)
    ⟨fun k hk => by rw [hl k hk]; ring, fun k hk x y hx hy => by rw [hf k hk, hx]; simp, hk, hk⟩ ha ha hcp he hreg sa sa sc hprep
    (.inl (by ring)) i i1 i2
  rw [this]
  ring

/-- Three load cases of the spring: 2 times the first and 3 times the second make the third. -/
example : ∃ (Sa Sb Sc S1 : Storage ℚ), bar.prepare barCalls [] (fixKeys [(⟨1, .UX, 5⟩ : Bc ℚ)]) = .ok S1 ∧ S1.nDofs + S1.nMpc = 2 ∧
    linearSolve Gauss.solveEquations spring [⟨2, .UX, 5⟩] [⟨1, .UX, 1⟩] barCalls [] bar () = .ok (Sa, ()) ∧
    linearSolve Gauss.solveEquations spring [⟨2, .UX, 1⟩] [⟨1, .UX, 1⟩] barCalls [] bar () = .ok (Sb, ()) ∧
    linearSolve Gauss.solveEquations spring [⟨2, .UX, 6⟩, ⟨2, .UX, 7⟩] [⟨1, .UX, 5⟩] barCalls [] bar () = .ok (Sc, ()) ∧
    comp Sc.vecU 2 = 2 * comp Sa.vecU 2 + 3 * comp Sb.vecU 2 := by
  obtain ⟨_, _, Sa, _, _, sa⟩ := bar_solved [⟨2, .UX, 5⟩] (by decide) 1
  obtain ⟨_, _, Sb, _, _, sb⟩ := bar_solved [⟨2, .UX, 1⟩] (by decide) 1
  obtain ⟨S1, num, Sc, hprep, hnum, sc⟩ := bar_solved [⟨2, .UX, 6⟩, ⟨2, .UX, 7⟩] (by decide) 5
  obtain ⟨c1, c2, c3, c4, n1, n2, _, _, c7, c8⟩ := bar_prepared hprep hnum
  refine ⟨Sa, Sb, Sc, S1, hprep, by rw [c3, c4], sa, sb, sc, ?_⟩
  refine C135_superposition (a := ⟨[⟨2, .UX, 5⟩], [⟨1, .UX, 1⟩]⟩) (b := ⟨[⟨2, .UX, 1⟩], [⟨1, .UX, 1⟩]⟩)
    (c := ⟨[⟨2, .UX, 6⟩, ⟨2, .UX, 7⟩], [⟨1, .UX, 5⟩]⟩) ⟨?_, ?_, rfl, rfl⟩ (bar_problem _ (by decide) 1) (bar_problem _ (by decide) 1)
    (bar_problem _ (by decide) 5) gauss_exact gauss_regular sa sb sc hprep (.inr fun i _ => c8 i) 2 (by omega) (by omega)
  · intro k hk
    have : k = (.node, 1, .UX) ∨ k = (.node, 2, .UX) := by simpa [barCalls, regKeys] using hk
    rcases this with rfl | rfl <;> simp [loadsOn, keyOf] <;> norm_num
  · intro k hk x y hx hy
    have : k = (.node, 1, .UX) ∨ k = (.node, 2, .UX) := by simpa [barCalls, regKeys] using hk
    rcases this with rfl | rfl
    · simp [lastFix, keyOf] at hx hy ⊢
      rw [← hx, ← hy]
      norm_num
    · simp [lastFix, keyOf] at hx

end Nla3d.Solver
