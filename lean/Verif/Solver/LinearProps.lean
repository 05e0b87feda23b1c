import Verif.Solver.Linear
import Verif.Gauss.Props
import Mathlib.Tactic.IntervalCases
import Mathlib.Algebra.BigOperators.Intervals

/-!
# C18, C19: theorems about the linear solver
-/

set_option linter.unusedSectionVars false

namespace Nla3d.Solver

open Nla3d.Dof Nla3d.Block Nla3d.Sparse Nla3d.Storage Nla3d.TimeCtl Finset

variable {K : Type} [Field K] [LinearOrder K] [IsStrictOrderedRing K]

/-- The shipped Gauss solver delivers exact solutions or stops. -/
theorem gauss_exact : Exact (Gauss.solveEquations : EqSolver K) := by
  intro B rhs guess n a hn hv hr hg
  subst hn
  have hb : Gauss.RepV B.si.nRows rhs (fun i => rhs.getD i 0) := ⟨hr, fun i hi => by
    rw [getElem?_of_getD (by rw [hr]; exact hi)]⟩
  rcases Gauss.C20_solveEquations hv hb hg with h | ⟨_, X, x, h1, h2, h3, _⟩
  · exact Or.inl h
  · refine Or.inr ⟨X, h1, h2.1, ?_⟩
    intro i hi
    refine Eq.trans ?_ (h3 i hi)
    apply Finset.sum_congr rfl
    intro j hj
    rw [getD_of_getElem? (h2.2 j (Finset.mem_range.mp hj))]

/-- A matrix on which the Gauss solver stops has, after eliminating some first columns, no usable pivot (or at least 1000
rows). -/
theorem gauss_stops {n : Nat} {a : Nat → Nat → K} (h : Stops (Gauss.solveEquations : EqSolver K) n a) :
    1000 ≤ n ∨ ∃ i a', i < n ∧ Gauss.Reach n a i a' ∧ ∀ q, i ≤ q → q < n → |a' q i| < Gauss.eps := by
  obtain ⟨B, rhs, guess, hn, hv, hr, hg, hf⟩ := h
  subst hn
  by_cases h1000 : B.si.nRows < 1000
  · right
    have hb : Gauss.RepV B.si.nRows rhs (fun i => rhs.getD i 0) := ⟨hr, fun i hi => by
      rw [getElem?_of_getD (by rw [hr]; exact hi)]⟩
    obtain ⟨A, f1, f2⟩ := Gauss.fill_spec hv
    rw [← Gauss.C20_failure_iff f2 hb hg]
    unfold Gauss.solveEquations at hf
    rw [decide_eq_true h1000] at hf
    simp only [Res.check_true, Res.ok_bind, f1] at hf
    rcases Gauss.C20_gauss f2 hb hg with ⟨X, x, g1, _⟩ | g
    · rw [g1] at hf; simp at hf
    · exact g
  · left; omega

/-- A matrix on which the Gauss solver succeeds is regular. -/
theorem gauss_succeeds {n : Nat} {a : Nat → Nat → K} (h : Succeeds (Gauss.solveEquations : EqSolver K) n a) :
    (Matrix.of fun (i j : Fin n) => a i j).det ≠ 0 := by
  obtain ⟨B, rhs, guess, X, hn, hv, hr, hg, hf⟩ := h
  subst hn
  have hb : Gauss.RepV B.si.nRows rhs (fun i => rhs.getD i 0) := ⟨hr, fun i hi => by
    rw [getElem?_of_getD (by rw [hr]; exact hi)]⟩
  rcases Gauss.C20_solveEquations hv hb hg with g | ⟨_, _, _, _, _, _, g⟩
  · rw [hf] at g; simp at g
  · exact g

/-! ## C18 -/

/-- **C18, with the one deviation of the code.** On every problem and for every exact equation solver,
`LinearFESolver::solve` either stops - only when the preparation stops or the equation solver stops on the reduced
matrix - or delivers: prescribed values at fixed DoFs, applied loads in the unknown rows of `R`, zero in the MPC rows of `R`,
every MPC satisfied, and `K*U = F + R` in all unknown and MPC rows. In the constrained rows `K*U = F + R` holds with
constrained components of `U` not larger than `1e-20` replaced by zero. `K` and `F` are what the storage holds afterwards,
which are the sums of the element and MPC contributions. The equation solver succeeded on the reduced matrix. -/
theorem C18_linear_solve {E : Type} {S0 : Storage K} {calls : List RegCall} {new : List (Mpc K)} {loads fixs : List (Bc K)}
    {el : Elems E K} (h : Problem S0 calls new loads fixs el) {eqs : EqSolver K} (he : Exact eqs) (e : E) :
    (linearSolve eqs el loads fixs calls new S0 e = .fatal ∧ S0.prepare calls new (fixKeys fixs) = .fatal) ∨
    ∃ S1 num, S0.prepare calls new (fixKeys fixs) = .ok S1 ∧
      (∀ k ∈ regKeys calls, S1.eqNumber k.1 k.2.1 k.2.2 = .ok (num k)) ∧
      ((linearSolve eqs el loads fixs calls new S0 e = .fatal ∧ Stops eqs (S1.nUnknown + S1.nMpc) (fun i j =>
        Assembled el e S1 num 0 (S1.nConstr + (i + 1)) (S1.nConstr + (j + 1)))) ∨
      ∃ S' e', linearSolve eqs el loads fixs calls new S0 e = .ok (S', e') ∧
      Answer S1 S' (regKeys calls) num loads fixs ∧ S'.mpcs = el.upd e S1 S1.mpcs ∧
      ∃ k f, StiffIs S' k ∧ LoadIs S' f ∧
        (∀ i j, k i j = Assembled el e S1 num 0 i j) ∧ (∀ i, f i = AssembledLoad el e S1 i) ∧
        (∀ i, S1.nConstr < i → i ≤ S1.nDofs + S1.nMpc →
          rowMul k (comp S'.vecU) (S1.nDofs + S1.nMpc) i = f i + comp S'.vecR i) ∧
        (∀ i, 0 < i → i ≤ S1.nConstr →
          rowMul k (fun j => if j ≤ S1.nConstr then kept (comp S'.vecU j) else comp S'.vecU j) (S1.nDofs + S1.nMpc) i =
            f i + comp S'.vecR i) ∧
        Succeeds eqs (S1.nUnknown + S1.nMpc) (fun i j => Assembled el e S1 num 0 (S1.nConstr + (i + 1)) (S1.nConstr + (j + 1)))) :=
  linear_solve h he e

/-- **C18** for prescribed values that are zero or larger than `1e-20`: the full system `K*U = F + R` holds in every row.
Missing from the full statement: smaller prescribed values, for which it is false (`C18_tiny_value_violated`). -/
theorem C18_full_system_partial {E : Type} {S0 : Storage K} {calls : List RegCall} {new : List (Mpc K)} {loads fixs : List (Bc K)}
    {el : Elems E K} (h : Problem S0 calls new loads fixs el)
    (hfix : ∀ f ∈ fixs, f.value = 0 ∨ (1 / 10 ^ 20 : K) < |f.value|) {eqs : EqSolver K} (he : Exact eqs) (e : E) :
    (linearSolve eqs el loads fixs calls new S0 e = .fatal ∧ S0.prepare calls new (fixKeys fixs) = .fatal) ∨
    ∃ S1 num, S0.prepare calls new (fixKeys fixs) = .ok S1 ∧
      (∀ k ∈ regKeys calls, S1.eqNumber k.1 k.2.1 k.2.2 = .ok (num k)) ∧
      ((linearSolve eqs el loads fixs calls new S0 e = .fatal ∧ Stops eqs (S1.nUnknown + S1.nMpc) (fun i j =>
        Assembled el e S1 num 0 (S1.nConstr + (i + 1)) (S1.nConstr + (j + 1)))) ∨
      ∃ S' e', linearSolve eqs el loads fixs calls new S0 e = .ok (S', e') ∧
      Answer S1 S' (regKeys calls) num loads fixs ∧
      ∃ k f, StiffIs S' k ∧ LoadIs S' f ∧
        (∀ i j, k i j = Assembled el e S1 num 0 i j) ∧ (∀ i, f i = AssembledLoad el e S1 i) ∧
        ∀ i, 0 < i → i ≤ S1.nDofs + S1.nMpc →
          rowMul k (comp S'.vecU) (S1.nDofs + S1.nMpc) i = f i + comp S'.vecR i) := by
  rcases linear_solve h he e with hf | ⟨S1, num, hprep, hnum, hrest⟩
  · exact Or.inl hf
  refine Or.inr ⟨S1, num, hprep, hnum, ?_⟩
  rcases hrest with hf | ⟨S', e', h1, h2, _, k, f, h3, h4, h5, h6, h7, h8, _⟩
  · exact Or.inl hf
  refine Or.inr ⟨S', e', h1, h2, k, f, h3, h4, h5, h6, ?_⟩
  obtain ⟨A, hb⟩ := base_of_prepare h.legal hprep hnum
  intro i i1 i2
  by_cases hi : i ≤ S1.nConstr
  · rw [← h8 i i1 hi]
    unfold rowMul
    apply Finset.sum_congr rfl
    intro j _
    congr 1
    beta_reduce
    by_cases hj : j + 1 ≤ S1.nConstr
    · rw [if_pos hj]
      obtain ⟨key, k1, k2, k3⟩ := hb.fixOf (i := j + 1) (by omega) hj
      obtain ⟨x, hx⟩ := Option.isSome_iff_exists.mp (lastFix_isSome.mpr k1)
      have := h2.prescribed key k2 x hx
      rw [k3] at this
      rw [this]
      obtain ⟨fb, f1, _, f3⟩ := lastFix_mem hx
      unfold kept
      rcases hfix fb f1 with h0 | h0
      · rw [f3] at h0; simp [h0]
      · rw [f3] at h0; rw [if_pos h0]
    · rw [if_neg hj]
  · exact h7 i (by omega) i2

/-! ### A bar of two nodes -/

/-- Two nodes, one element. -/
def barOf (t : Bool) : Storage ℚ := Storage.fresh 2 [[1, 2]] [] t

/-- The bar for static solutions. -/
abbrev bar : Storage ℚ := barOf false

/-- Registrations of the bar. -/
def barCalls : List RegCall := [(.node, 1, [.UX]), (.node, 2, [.UX])]

/-- A spring of stiffness 1 between the two nodes. -/
def spring : Elems Unit ℚ where
  build _ S := match S.eqNumber .node 1 .UX, S.eqNumber .node 2 .UX with
    | .ok i, .ok j => [.mat .K i i 1, .mat .K i j (-1), .mat .K j j 1]
    | _, _ => []
  upd _ _ ms := ms
  cm _ _ := []
  update _ _ := ()

theorem Alike.eqNumber {S1 S : Storage ℚ} (h : Alike S1 S) (a : Side) (n : Nat) (t : DofType) :
    S.eqNumber a n t = S1.eqNumber a n t := by
  rw [h]; cases a <;> rfl

theorem bar_problem {t : Bool} (loads : List (Bc ℚ)) (hl : ∀ l ∈ loads, keyOf l ∈ regKeys barCalls) (x : ℚ) :
    Problem (barOf t) barCalls [] loads [⟨1, .UX, x⟩] spring := by
  have hk : fixKeys [(⟨1, .UX, x⟩ : Bc ℚ)] = [(.node, 1, .UX)] := rfl
  have hleg : LegalModel (barOf t) barCalls [] (fixKeys [(⟨1, .UX, x⟩ : Bc ℚ)]) := by
    rw [hk]
    refine ⟨⟨?_, ?_, ?_, ?_, ?_, rfl⟩, ?_, ?_, ?_⟩
    · unfold LegalReg; cases t <;> decide
    · decide
    · decide
    · decide
    · intro m hm; simp [barOf, Storage.fresh] at hm
    · unfold MeshOk; cases t <;> decide
    · intro m hm; simp [barOf, Storage.fresh] at hm
    · cases t <;> decide
  refine ⟨hleg, hl, ?_⟩
  intro S1 num hp hn e S hS
  obtain ⟨A, hpr⟩ := prepared hleg hp
  have hel : S1.elements = [[1, 2]] := hpr.ready.mesh.elements
  have n1 := hn (.node, 1, .UX) (by decide)
  have n2 := hn (.node, 2, .UX) (by decide)
  simp only at n1 n2
  have hbuild : spring.build e S = [.mat .K (num (.node, 1, .UX)) (num (.node, 1, .UX)) 1,
      .mat .K (num (.node, 1, .UX)) (num (.node, 2, .UX)) (-1),
      .mat .K (num (.node, 2, .UX)) (num (.node, 2, .UX)) 1] := by
    simp only [spring, hS.eqNumber, n1, n2]
  have at1 : Attached S1.elements 1 (.node, 1, .UX) := by rw [hel]; simp [Attached, elNodes]
  have at2 : Attached S1.elements 1 (.node, 2, .UX) := by rw [hel]; simp [Attached, elNodes]
  refine ⟨?_, ?_, fun ms => rfl⟩
  · rw [hbuild]
    intro c hc
    simp only [List.mem_cons, List.not_mem_nil, or_false] at hc
    rcases hc with rfl | rfl | rfl
    · exact ⟨Or.inl rfl, 1, _, _, by decide, by decide, at1, at1, rfl, rfl⟩
    · exact ⟨Or.inl rfl, 1, _, _, by decide, by decide, at1, at2, rfl, rfl⟩
    · exact ⟨Or.inl rfl, 1, _, _, by decide, by decide, at2, at2, rfl, rfl⟩
  · intro c hc; simp [spring] at hc

/-- The prepared bar. -/
theorem bar_prepared {t : Bool} {x : ℚ} {S1 : Storage ℚ} {num : Key → Nat}
    (hp : (barOf t).prepare barCalls [] (fixKeys [(⟨1, .UX, x⟩ : Bc ℚ)]) = .ok S1)
    (hn : ∀ k ∈ regKeys barCalls, S1.eqNumber k.1 k.2.1 k.2.2 = .ok (num k)) :
    S1.nConstr = 1 ∧ S1.nUnknown = 1 ∧ S1.nDofs = 2 ∧ S1.nMpc = 0 ∧ num (.node, 1, .UX) = 1 ∧ num (.node, 2, .UX) = 2 ∧
    S1.transient = t ∧ S1.mpcs = [] ∧
    (∀ i j, Assembled spring () S1 num 0 i j = (if Same i j 1 1 then 1 else 0) + ((if Same i j 1 2 then -1 else 0) +
      (if Same i j 2 2 then 1 else 0))) ∧ ∀ i, AssembledLoad spring () S1 i = 0 := by
  have hprob := bar_problem (t := t) [] (by simp) x
  obtain ⟨A, hb⟩ := base_of_prepare hprob.legal hp hn
  have c1 : S1.nConstr = 1 := hb.prep.ready.nConstr
  have c2 : S1.nDofs = 2 := hb.prep.ready.nDofs.trans (by decide)
  have c3 := hb.prep.pre.dofs
  have hm : S1.mpcs = [] := by
    have := hb.prep.ready.nMpc
    unfold Storage.nMpc at this
    exact List.length_eq_zero_iff.mp (this.trans rfl)
  have ht : S1.transient = t := hb.prep.ready.mesh.transient
  have r1 := hb.fixRange (k := (.node, 1, .UX)) (by simp [fixKeys])
  have r2 := hb.freeRange (k := (.node, 2, .UX)) (by decide) (by simp [fixKeys])
  have n1 := hn (.node, 1, .UX) (by decide)
  have n2 := hn (.node, 2, .UX) (by decide)
  simp only at n1 n2
  have e1 : num (.node, 1, .UX) = 1 := by omega
  have e2 : num (.node, 2, .UX) = 2 := by omega
  rw [e1] at n1
  rw [e2] at n2
  refine ⟨c1, by omega, c2, by unfold Storage.nMpc; rw [hm]; rfl, e1, e2, ht, hm, ?_, ?_⟩
  · intro i j
    cases t <;> simp [Assembled, asmM, ht, hm, spring, n1, n2, matSum, Which.idx]
  · intro i
    cases t <;> simp [AssembledLoad, asmV, ht, hm, spring, n1, n2, mpcLoad, loadSum]

/-- The bar is solved by the shipped solver. -/
theorem bar_solved (loads : List (Bc ℚ)) (hl : ∀ l ∈ loads, keyOf l ∈ regKeys barCalls) (x : ℚ) :
    ∃ (S1 : Storage ℚ) (num : Key → Nat) (S' : Storage ℚ), bar.prepare barCalls [] (fixKeys [(⟨1, .UX, x⟩ : Bc ℚ)]) = .ok S1 ∧
      (∀ k ∈ regKeys barCalls, S1.eqNumber k.1 k.2.1 k.2.2 = .ok (num k)) ∧
      linearSolve Gauss.solveEquations spring loads [⟨1, .UX, x⟩] barCalls [] bar () = .ok (S', ()) := by
  rcases linear_solve (bar_problem loads hl x) gauss_exact () with ⟨_, hf⟩ | ⟨S1, num, hprep, hnum, ⟨_, hst⟩ | ⟨S', e', h1, _⟩⟩
  · exfalso
    obtain ⟨S1, num, h1, _⟩ := prepare_small (bar_problem (t := false) loads hl x).legal
      (show [(Side.node, 1, DofType.UX)].toFinset.card < (regKeys barCalls).toFinset.card by decide) (by decide)
    rw [hf] at h1
    simp at h1
  · exfalso
    obtain ⟨c1, c2, c3, c4, _, _, _, _, c7, _⟩ := bar_prepared hprep hnum
    rw [c2, c4] at hst
    rcases gauss_stops hst with h | ⟨i, a', hi, hr, hq⟩
    · omega
    · have : i = 0 := by omega
      subst this
      cases hr
      have := hq 0 (le_refl 0) (by omega)
      beta_reduce at this
      rw [c7, c1] at this
      simp [Same, Gauss.eps] at this
      norm_num at this
  · exact ⟨S1, num, S', hprep, hnum, h1⟩

/-- **C18 is violated for tiny prescribed values.** A spring between two nodes, one of them moved by `1e-21`: after the
solution row 1 of `K*U = F + R` does not hold (the body moves rigidly, yet a reaction is reported). -/
theorem C18_tiny_value_violated :
    ∃ (S' : Storage ℚ) (k : Nat → Nat → ℚ) (f : Nat → ℚ),
      Problem bar barCalls [] [] [⟨1, .UX, 1 / 10 ^ 21⟩] spring ∧
      linearSolve Gauss.solveEquations spring [] [⟨1, .UX, 1 / 10 ^ 21⟩] barCalls [] bar () = .ok (S', ()) ∧
      StiffIs S' k ∧ LoadIs S' f ∧ S'.nDofs + S'.nMpc = 2 ∧ rowMul k (comp S'.vecU) 2 1 ≠ f 1 + comp S'.vecR 1 := by
  have hprob := bar_problem (t := false) [] (by simp) (1 / 10 ^ 21)
  obtain ⟨_, _, S'', _, _, hs⟩ := bar_solved [] (by simp) (1 / 10 ^ 21)
  rcases linear_solve hprob gauss_exact () with ⟨hf, _⟩ | ⟨S1, num, hprep, hnum, ⟨hf, _⟩ | ⟨S', e', h1, h2, _, k, f, h3, h4, h5, h6, h7, h8, _⟩⟩
  · rw [hs] at hf; simp at hf
  · rw [hs] at hf; simp at hf
  · obtain ⟨c1, c2, c3, c4, n1, n2, _, _, c7, c8⟩ := bar_prepared hprep hnum
    refine ⟨S', k, f, hprob, h1, h3, h4, by rw [h2.sizes.2.1, h2.sizes.2.2.1, c3, c4], ?_⟩
    have hrow := h8 1 (by omega) (by omega)
    rw [c1, c3, c4] at hrow
    have hu : comp S'.vecU 1 = 1 / 10 ^ 21 := by
      have := h2.prescribed (.node, 1, .UX) (by decide) (1 / 10 ^ 21) rfl
      rw [n1] at this
      exact this
    rw [← hrow]
    unfold rowMul
    simp only [Finset.sum_range_succ, Finset.sum_range_zero, h5, c7, hu]
    simp [Same, kept, abs_of_pos]
    norm_num

example : ∃ (S1 : Storage ℚ) (num : Key → Nat) (S' : Storage ℚ), bar.prepare barCalls [] (fixKeys [(⟨1, .UX, 3⟩ : Bc ℚ)]) = .ok S1 ∧
      (∀ k ∈ regKeys barCalls, S1.eqNumber k.1 k.2.1 k.2.2 = .ok (num k)) ∧
      linearSolve Gauss.solveEquations spring [⟨2, .UX, 5⟩, ⟨2, .UX, 2⟩] [⟨1, .UX, 3⟩] barCalls [] bar () = .ok (S', ()) :=
  bar_solved _ (by decide) 3

/-- A session, loads and a twice fixed DoF for C19. -/
example : ∃ (S1 : Storage ℚ) (num : Key → Nat) (S' : Storage ℚ),
    Session demo demoCalls [] (fixKeys [(⟨3, .UX, 1⟩ : Bc ℚ), ⟨1, .UY, 2⟩, ⟨3, .UX, 7⟩]) S1 num S1 ∧
    applyBC S1 [⟨2, .UX, 5⟩, ⟨2, .UX, 6⟩] [⟨3, .UX, 1⟩, ⟨1, .UY, 2⟩, ⟨3, .UX, 7⟩] (1 / 2) = .ok S' ∧
    comp S'.vecU (num (.node, 3, .UX)) = 7 / 2 ∧
    comp S'.vecR (num (.node, 2, .UX)) = comp S1.vecR (num (.node, 2, .UX)) + 11 / 2 := by
  obtain ⟨S1, num, h⟩ := demo_session
  have h' : Session demo demoCalls [] (fixKeys [(⟨3, .UX, 1⟩ : Bc ℚ), ⟨1, .UY, 2⟩, ⟨3, .UX, 7⟩]) S1 num S1 := h
  obtain ⟨A, hb⟩ := base_of_prepare h'.legal h'.prep h'.numbers
  obtain ⟨S', e1, _, _, _, e2, _, e3, _⟩ := C19_boundary_conditions h' (loads := [⟨2, .UX, 5⟩, ⟨2, .UX, 6⟩]) (by decide)
    S1.vecU S1.vecR (by rw [hb.U, List.length_replicate]) (by rw [hb.R, List.length_replicate]) (1 / 2)
  refine ⟨S1, num, S', h', e1, ?_, ?_⟩
  · rw [e3 _ (by decide) 7 rfl]; norm_num
  · rw [e2 _ (by decide)]
    congr 1
    simp [loadsOn, keyOf]
    norm_num

end Nla3d.Solver
