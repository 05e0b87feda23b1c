import Verif.Solver.NonlinearProps

/-!
# C93: constraint equations in nonlinear solutions
-/

set_option linter.unusedSectionVars false

namespace Nla3d.Solver

open Nla3d.Dof Nla3d.Block Nla3d.Sparse Nla3d.Storage Nla3d.TimeCtl Finset

variable {K : Type} [Field K] [LinearOrder K]

/-! ## Specification -/

/-- Left-hand side of a constraint equation for the solution `u`. -/
def lhs (num : Key → Nat) (eq : List (MpcTerm K)) (u : List K) : K :=
  (eq.map (fun t => t.coef * comp u (num (.node, t.node, t.dof)))).sum

/-- The equation with terms `eq` and right-hand side `b` is among the MPCs. -/
def Among (eq : List (MpcTerm K)) (b : K) (ms : List (Mpc K)) : Prop := ∃ m ∈ ms, m.eq = eq ∧ m.b = b

/-- The equation does not belong to a collection that rewrites it. -/
def Constant {E : Type} (el : Elems E K) (eq : List (MpcTerm K)) (b : K) : Prop :=
  ∀ e S ms, Among eq b ms → Among eq b (el.upd e S ms)

section
variable {E : Type} {S0 S1 : Storage K} {calls : List RegCall} {new : List (Mpc K)} {loads fixs : List (Bc K)}
    {num : Key → Nat} {el : Elems E K} {eqs : EqSolver K} {eq : List (MpcTerm K)} {b : K}

theorem lhs_add {u v w : List K} (h : ∀ t ∈ eq, comp w (num (.node, t.node, t.dof)) =
    comp u (num (.node, t.node, t.dof)) + comp v (num (.node, t.node, t.dof))) : lhs num eq w = lhs num eq u + lhs num eq v := by
  induction eq with
  | nil => simp [lhs]
  | cons t ts ih =>
    have := ih (fun t' ht' => h t' (by simp [ht']))
    unfold lhs at this ⊢
    simp only [List.map_cons, List.sum_cons]
    rw [this, h t (by simp)]
    ring

/-- **C93, what the code does.** In every state of a nonlinear solution the left-hand side of a constant constraint equation is
the right-hand side times the number of iterations made so far (over all load steps). -/
theorem C93_law (h : Problem S0 calls new loads fixs el) (he : Exact eqs)
    (hp : S0.prepare calls new (fixKeys fixs) = .ok S1) (hn : ∀ k ∈ regKeys calls, S1.eqNumber k.1 k.2.1 k.2.2 = .ok (num k))
    (hm : Among eq b (S0.mpcs ++ new)) (hc : Constant el eq b) {e : E} {s : NState E K}
    (hs : Reached eqs el loads fixs S1 e s) :
    lhs num eq s.S.vecU = (s.trace.length : K) * b := by
  obtain ⟨A, hb⟩ := base_of_prepare h.legal hp hn
  have hterms : ∀ t ∈ eq, (Side.node, t.node, t.dof) ∈ regKeys calls := by
    obtain ⟨m, h1, rfl, _⟩ := hm
    exact h.legal.terms m h1
  have h1 : Among eq b S1.mpcs := by
    obtain ⟨m, h1, h2, h3⟩ := hm
    have : (eq, b) ∈ S1.mpcs.map (fun m => (m.eq, m.b)) := by
      rw [hb.prep.ready.terms]
      exact List.mem_map.mpr ⟨m, h1, by rw [h2, h3]⟩
    obtain ⟨m', g1, g2⟩ := List.mem_map.mp this
    exact ⟨m', g1, congrArg Prod.fst g2, congrArg Prod.snd g2⟩
  have key : Among eq b s.S.mpcs ∧ lhs num eq s.S.vecU = (s.trace.length : K) * b := by
    induction hs with
    | start tc =>
      refine ⟨h1, ?_⟩
      show lhs num eq S1.vecU = ((0 : Nat) : K) * b
      rw [hb.U, Nat.cast_zero, zero_mul]
      unfold lhs
      rw [List.sum_eq_zero]
      intro x hx
      obtain ⟨t, _, rfl⟩ := List.mem_map.mp hx
      unfold comp
      rw [getD_replicate, mul_zero]
    | time tc _ ih => exact ih
    | @iter s s' hr hit ih =>
      obtain ⟨hbk, hor⟩ := C21_iteration h he hp hn hr
      rcases hor with ⟨hf, _⟩ | ⟨s'', g1, hbk', hsv⟩
      · rw [hit] at hf; simp at hf
      rw [hit, Res.ok.injEq] at g1
      subst g1
      have hin : Among eq b s'.S.mpcs := by rw [hsv.mpcs]; exact hc _ _ _ ih.1
      refine ⟨hin, ?_⟩
      have hδ : lhs num eq s'.deltaU = b := by
        obtain ⟨m, m1, m2, m3⟩ := hin
        have := hsv.mpcRows m m1
        rw [m2, m3] at this
        exact this
      rw [lhs_add (u := s.S.vecU) (v := s'.deltaU), ih.2, hδ, hsv.trace, List.length_append]
      · push_cast
        simp only [List.length_singleton]
        push_cast
        ring
      · intro t ht
        have hr := hb.range (hterms t ht)
        rw [hbk'.sums _ hr.1 hr.2, hbk.sums _ hr.1 hr.2, hsv.trace, total_append]
  exact key.2

/-- **C93.** Constraint equations with right-hand side 0 hold in every state of a nonlinear solution, and every constant
constraint equation holds after the first iteration. Missing: an equation with another right-hand side holds at the end, which is
false (`C93_fails`, `C93_violated`). -/
theorem C93_partial (h : Problem S0 calls new loads fixs el) (he : Exact eqs)
    (hp : S0.prepare calls new (fixKeys fixs) = .ok S1) (hn : ∀ k ∈ regKeys calls, S1.eqNumber k.1 k.2.1 k.2.2 = .ok (num k))
    (hm : Among eq b (S0.mpcs ++ new)) (hc : Constant el eq b) {e : E} {s : NState E K}
    (hs : Reached eqs el loads fixs S1 e s) (hb : b = 0 ∨ s.trace.length = 1) : lhs num eq s.S.vecU = b := by
  rw [C93_law h he hp hn hm hc hs]
  rcases hb with rfl | h1
  · simp
  · rw [h1]; simp

theorem traceOf_length (τ : Nat → K) {st : Settings K} : ∀ (bs : List (List (List K))) (i : Nat), (∀ ds ∈ bs, StepLog st S1 ds) →
    bs.length ≤ (traceOf τ i bs).length := by
  intro bs
  induction bs with
  | nil => intro i _; simp
  | cons ds bs ih =>
    intro i h
    have h1 := ih (i + 1) (fun x hx => h x (by simp [hx]))
    obtain ⟨⟨d, hd, _⟩, _⟩ := h ds (by simp)
    have h2 : 0 < ds.length := by
      rw [List.length_pos_iff]; intro h0; rw [h0] at hd; simp at hd
    unfold traceOf
    rw [List.length_append, List.length_map, List.length_cons]
    omega

/-- **C93 fails for every model.** Whenever a nonlinear solution with two or more load steps ends without an error, every constant
constraint equation with a right-hand side other than 0 is not satisfied by the solution: its left-hand side is the right-hand
side times the total number of iterations. -/
theorem C93_fails [IsStrictOrderedRing K] (h : Problem S0 calls new loads fixs el) (he : Exact eqs) {st : Settings K}
    (hit : st.nIter < 65536) (hsteps : 2 ≤ st.nSteps) {tend : K} (hend : 0 < tend) {e : E} {inner fuel : Nat}
    (hin : max 1 st.nIter ≤ inner) (hfuel : st.nSteps < fuel) (hm : Among eq b (S0.mpcs ++ new)) (hc : Constant el eq b)
    (hb : b ≠ 0) (hp : S0.prepare calls new (fixKeys fixs) = .ok S1)
    (hn : ∀ k ∈ regKeys calls, S1.eqNumber k.1 k.2.1 k.2.2 = .ok (num k)) {s : NState E K} {seen : List Nat}
    (hok : nonlinearSolve eqs el loads fixs st (TimeControl.fresh.setEndTime tend) calls new S0 e inner fuel = some (.ok (s, seen))) :
    lhs num eq s.S.vecU = (s.trace.length : K) * b ∧ 2 ≤ s.trace.length ∧ lhs num eq s.S.vecU ≠ b := by
  rcases C21_solution h he hit (by omega) hend e hin hfuel with ⟨hf, _⟩ | ⟨S1', num', s', bs, g1, _, g3, g4, g5, g6, g7, _⟩
  · rw [hok] at hf; simp at hf
  rw [hp, Res.ok.injEq] at g1
  subst g1
  rw [hok, Option.some.injEq, Res.ok.injEq, Prod.mk.injEq] at g3
  obtain ⟨rfl, _⟩ := g3
  have hlaw := C93_law h he hp hn hm hc g4
  have hlen : 2 ≤ s.trace.length := by
    have := traceOf_length (fun i => ((i : K) + 1) / st.nSteps) bs 0 g7
    rw [← g6, g5] at this
    omega
  refine ⟨hlaw, hlen, ?_⟩
  rw [hlaw]
  intro h1
  have h2 : ((s.trace.length : K) - 1) * b = 0 := by rw [sub_mul, h1, one_mul, sub_self]
  rcases mul_eq_zero.mp h2 with h3 | h3
  · have : (s.trace.length : K) = (1 : Nat) := by rw [Nat.cast_one]; exact sub_eq_zero.mp h3
    have := Nat.cast_injective this
    omega
  · exact hb h3

end

/-! ## A bar with a constraint equation -/

/-- `UX` of node 2 is to be `1`. -/
def tie : Mpc ℚ := ⟨[⟨2, .UX, 1⟩], 1, 0⟩

/-- The bar with the constraint. -/
def tiedBar : Storage ℚ := { bar with mpcs := [tie] }

/-- Two load steps of one iteration. -/
def tiedSettings : Settings ℚ := ⟨1, 2, 100⟩

theorem tied_problem : Problem tiedBar barCalls [] [] [⟨1, .UX, 0⟩] spring := by
  have hk : fixKeys [(⟨1, .UX, 0⟩ : Bc ℚ)] = [(.node, 1, .UX)] := rfl
  have hleg : LegalModel tiedBar barCalls [] (fixKeys [(⟨1, .UX, 0⟩ : Bc ℚ)]) := by
    rw [hk]
    refine ⟨⟨?_, ?_, ?_, ?_, ?_, rfl⟩, ?_, ?_, ?_⟩
    · unfold LegalReg; decide
    · decide
    · decide
    · decide
    · intro m hm
      simp [tiedBar, tie] at hm
      rw [hm]; simp
    · unfold MeshOk; decide
    · intro m hm t ht
      simp [tiedBar, tie] at hm
      rw [hm] at ht
      simp at ht
      rw [ht]; decide
    · decide
  refine ⟨hleg, by simp, ?_⟩
  intro S1 num hp hn e S hS
  obtain ⟨A, hpr⟩ := prepared hleg hp
  have hel : S1.elements = [[1, 2]] := hpr.ready.mesh.elements
  have n1 := hn (.node, 1, .UX) (by decide)
  have n2 := hn (.node, 2, .UX) (by decide)
  simp only at n1 n2
  have hbuild : spring.build e S = [.mat .K (num (.node, 1, .UX)) (num (.node, 1, .UX)) 1,
      .mat .K (num (.node, 1, .UX)) (num (.node, 2, .UX)) (-1),
      .mat .K (num (.node, 2, .UX)) (num (.node, 2, .UX)) 1] := by
    simp only [spring, hS.eqNumber, n1, n2]
  have at1 : Attached S1.elements 1 (.node, 1, .UX) := by rw [hel]; simp [Attached, elNodes]
  have at2 : Attached S1.elements 1 (.node, 2, .UX) := by rw [hel]; simp [Attached, elNodes]
  refine ⟨?_, ?_, fun ms => rfl⟩
  · rw [hbuild]
    intro c hc
    simp only [List.mem_cons, List.not_mem_nil, or_false] at hc
    rcases hc with rfl | rfl | rfl
    · exact ⟨Or.inl rfl, 1, _, _, by decide, by decide, at1, at1, rfl, rfl⟩
    · exact ⟨Or.inl rfl, 1, _, _, by decide, by decide, at1, at2, rfl, rfl⟩
    · exact ⟨Or.inl rfl, 1, _, _, by decide, by decide, at2, at2, rfl, rfl⟩
  · intro c hc; simp [spring] at hc

theorem tied_constant : Constant spring tie.eq tie.b := fun _ _ _ h => h

/-- **C93 is violated.** A spring held at node 1; the equation `UX = 1` at node 2; two load steps. The solution ends without an
error with `UX = 2` at node 2. -/
theorem C93_violated : ∃ (S1 : Storage ℚ) (num : Key → Nat) (s : NState Unit ℚ) (seen : List Nat),
    tiedBar.prepare barCalls [] (fixKeys [(⟨1, .UX, 0⟩ : Bc ℚ)]) = .ok S1 ∧
    (∀ k ∈ regKeys barCalls, S1.eqNumber k.1 k.2.1 k.2.2 = .ok (num k)) ∧
    nonlinearSolve Gauss.solveEquations spring [] [⟨1, .UX, 0⟩] tiedSettings (TimeControl.fresh.setEndTime 7) barCalls [] tiedBar ()
      1 3 = some (.ok (s, seen)) ∧
    comp s.S.vecU (num (.node, 2, .UX)) = 2 := by
  have hprob := tied_problem
  obtain ⟨S1, num, hp, hn⟩ := prepare_small hprob.legal
    (show [(Side.node, 1, DofType.UX)].toFinset.card < (regKeys barCalls).toFinset.card by decide) (by decide)
  obtain ⟨A, hb⟩ := base_of_prepare hprob.legal hp hn
  have c1 : S1.nConstr = 1 := hb.prep.ready.nConstr
  have c3 : S1.nDofs = 2 := hb.prep.ready.nDofs.trans (by decide)
  have cs := hb.prep.pre.dofs
  have c2 : S1.nUnknown = 1 := by omega
  have ht : S1.transient = false := hb.prep.ready.mesh.transient
  have hlenm : S1.mpcs.length = 1 := by
    have := congrArg List.length hb.prep.ready.terms
    simpa [tiedBar] using this
  have c4 : S1.nMpc = 1 := hlenm
  have r1 := hb.fixRange (k := (.node, 1, .UX)) (by simp [fixKeys])
  have r2 := hb.freeRange (k := (.node, 2, .UX)) (by decide) (by simp [fixKeys])
  have n1 : num (.node, 1, .UX) = 1 := by omega
  have n2 : num (.node, 2, .UX) = 2 := by omega
  have e1 := hn (.node, 1, .UX) (by decide)
  have e2 := hn (.node, 2, .UX) (by decide)
  rw [n1] at e1
  rw [n2] at e2
  simp only at e1 e2
  have hm1 : S1.mpcs = [⟨[⟨2, .UX, 1⟩], 1, 3⟩] := by
    obtain ⟨m, hm⟩ := List.length_eq_one_iff.mp hlenm
    have t1 := hb.prep.ready.terms
    have t2 := hb.prep.ready.eqNums
    rw [hm] at t1 t2 ⊢
    obtain ⟨q1, q2, q3⟩ := m
    simp [tiedBar, tie, c3] at t1 t2
    rw [t1.1, t1.2, t2]
  have hshape : ∀ s : NState Unit ℚ, Reached Gauss.solveEquations spring [] [⟨1, .UX, 0⟩] S1 () s → s.S.mpcs = S1.mpcs := by
    intro s hs
    induction hs with
    | start tc => rfl
    | time tc _ ih => exact ih
    | @iter s s' hr hit ih =>
      obtain ⟨_, hor⟩ := C21_iteration hprob gauss_exact hp hn hr
      rcases hor with ⟨hf, _⟩ | ⟨s'', g1, _, hsv⟩
      · rw [hit] at hf; simp at hf
      · rw [hit, Res.ok.injEq] at g1
        subst g1
        rw [hsv.mpcs]
        exact ih
  have hmat : ∀ (S : Storage ℚ), Alike S1 S → ∀ i j, asmM S1.transient num (spring.build () (zeroR S)) S1.mpcs
      (spring.cm () (zeroR S)) 0 i j = (if Same i j 1 1 then 1 else 0) + ((if Same i j 1 2 then -1 else 0) +
      ((if Same i j 2 2 then 1 else 0) + (if Same i j 3 2 then 1 else 0))) := by
    intro S hS i j
    have hz : Alike S1 (zeroR S) := by
      unfold Alike at hS ⊢
      unfold zeroR
      rw [hS]
    simp only [spring, hz.eqNumber, e1, e2]
    simp [asmM, ht, matSum, Which.idx, hm1, mpcContribs, n2]
  -- the equation solver does not stop
  have hgo : ∀ s, Reached Gauss.solveEquations spring [] [⟨1, .UX, 0⟩] S1 () s →
      iteration Gauss.solveEquations spring [] [⟨1, .UX, 0⟩] s ≠ .fatal := by
    intro s hr hfat
    obtain ⟨hbk, hor⟩ := C21_iteration hprob gauss_exact hp hn hr
    rcases hor with ⟨_, hst⟩ | ⟨s', h1, _⟩
    · have hm : spring.upd s.e (zeroR s.S) s.S.mpcs = S1.mpcs := hshape s hr
      rw [c2, c4, hm] at hst
      rcases gauss_stops hst with h | ⟨i, a', hi, hrc, hq⟩
      · omega
      · have ha : ∀ i j, asmM S1.transient num (spring.build s.e (zeroR s.S)) S1.mpcs (spring.cm s.e (zeroR s.S)) 0
            (S1.nConstr + (i + 1)) (S1.nConstr + (j + 1)) = (if i = 0 ∧ j = 0 then 1 else 0) +
            (if (i = 0 ∧ j = 1) ∨ (i = 1 ∧ j = 0) then 1 else 0) := by
          intro i j
          refine (hmat _ hbk.alike _ _).trans ?_
          rw [c1, if_neg (show ¬ Same (1 + (i + 1)) (1 + (j + 1)) 1 1 by unfold Same; omega),
            if_neg (show ¬ Same (1 + (i + 1)) (1 + (j + 1)) 1 2 by unfold Same; omega), zero_add, zero_add]
          congr 1
          · by_cases hh : i = 0 ∧ j = 0
            · rw [if_pos hh]; exact if_pos (by unfold Same; omega)
            · rw [if_neg hh]; exact if_neg (by unfold Same; omega)
          · by_cases hh : (i = 0 ∧ j = 1) ∨ (i = 1 ∧ j = 0)
            · rw [if_pos hh]; exact if_pos (by unfold Same; omega)
            · rw [if_neg hh]; exact if_neg (by unfold Same; omega)
        have h10 : ∀ x : ℚ, 1 ≤ |x| → ¬ |x| < Gauss.eps := by
          intro x hx hlt
          have : (Gauss.eps : ℚ) < 1 := by unfold Gauss.eps; norm_num
          linarith
        interval_cases i
        · cases hrc
          have := hq 0 (le_refl 0) (by omega)
          beta_reduce at this
          rw [ha] at this
          exact h10 _ (by norm_num) this
        · cases hrc with
          | step hr0 _ hstep =>
            cases hr0
            obtain ⟨p, hP, _, hv⟩ := hstep
            have := hq 1 (le_refl 1) (by omega)
            rw [hv 1 (by omega) 1 (by omega)] at this
            have hp2 := hP.lt
            rw [if_neg (by omega)] at this
            simp only [ha] at this
            have : ∃ x : ℚ, 1 ≤ |x| ∧ |x| < Gauss.eps := by
              refine ⟨_, ?_, this⟩
              have : p = 0 ∨ p = 1 := by omega
              rcases this with rfl | rfl <;> simp [Gauss.sw]
            obtain ⟨x, x1, x2⟩ := this
            exact h10 x x1 x2
    · rw [hfat] at h1; simp at h1
  -- every iteration is accepted
  have hacc : ∀ s s2, Reached Gauss.solveEquations spring [] [⟨1, .UX, 0⟩] S1 () s →
      iteration Gauss.solveEquations spring [] [⟨1, .UX, 0⟩] s = .ok s2 → Accepted tiedSettings.cc S1 s2.deltaU := by
    intro s s2 hr h2
    obtain ⟨hbk, hor⟩ := C21_iteration hprob gauss_exact hp hn hr
    rcases hor with ⟨hf, _⟩ | ⟨s', h1, hbk', hs'⟩
    · rw [h2] at hf; simp at hf
    rw [h2, Res.ok.injEq] at h1
    subst h1
    have hm2 : s2.S.mpcs = S1.mpcs := hshape s2 (.iter hr h2)
    have hrow := hs'.mpcRows ⟨[⟨2, .UX, 1⟩], 1, 3⟩ (by rw [hm2, hm1]; simp)
    simp [n2] at hrow
    have hseg : unknowns S1 s2.deltaU = [comp s2.deltaU 2] := by
      unfold unknowns seg comp
      rw [c1, c2]
      have hlen := hbk'.sizes.2.2
      rw [c3, c4] at hlen
      match hq : s2.deltaU, hlen with
      | [a, b, c], _ => simp
    unfold Accepted meanAbs
    rw [hseg, hrow]
    norm_num [tiedSettings]
  rcases C21_solution hprob gauss_exact (st := tiedSettings) (by decide) (by decide) (show (0 : ℚ) < 7 by norm_num) ()
      (inner := 1) (fuel := 3) (by decide) (by decide) with
    ⟨_, hf | ⟨S1', i, s, hp', hi, hr, htm, n, s1, ha, hfail⟩⟩ | ⟨S1', num', s, bs, hp', hn', hok, hr, hbs, htr, hlog, _⟩
  · rw [hf] at hp; simp at hp
  · exfalso
    rw [hp, Res.ok.injEq] at hp'
    subst hp'
    have : ∀ n s1, Again Gauss.solveEquations spring [] [⟨1, .UX, 0⟩] tiedSettings S1 s n s1 → s1 = s := by
      intro n s1 ha
      induction ha with
      | zero => rfl
      | succ _ h1 h2 ih =>
        subst ih
        exact absurd (hacc _ _ hr h1) h2
    have := this n s1 ha
    subst this
    rcases hfail with hfat | ⟨s2, h1, h2, _⟩
    · exact hgo _ hr hfat
    · exact h2 (hacc _ _ hr h1)
  · rw [hp, Res.ok.injEq] at hp'
    subst hp'
    refine ⟨S1, num, s, _, hp, hn, hok, ?_⟩
    have hlaw := C93_law hprob gauss_exact hp hn (eq := tie.eq) (b := tie.b) ⟨tie, by simp [tiedBar], rfl, rfl⟩ tied_constant hr
    have hlen : s.trace.length = 2 := by
      rw [htr]
      have : ∀ ds ∈ bs, ds.length = 1 := by
        intro ds hds
        obtain ⟨⟨d, hd, _⟩, _, h3⟩ := hlog ds hds
        have h2 : 0 < ds.length := by
          rw [List.length_pos_iff]; intro h0; rw [h0] at hd; simp at hd
        have h3 : ds.length ≤ 1 := h3
        omega
      have hbs2 : bs.length = 2 := hbs
      match bs, hbs2 with
      | [d1, d2], _ => simp [traceOf, this]
    rw [hlen] at hlaw
    simpa [lhs, tie] using hlaw

/-- The hypotheses of `C93_fails` are met by the same bar. -/
example : Problem tiedBar barCalls [] [] [⟨1, .UX, 0⟩] spring ∧ Among tie.eq tie.b (tiedBar.mpcs ++ []) ∧
    Constant spring tie.eq tie.b ∧ tie.b ≠ 0 ∧ 2 ≤ tiedSettings.nSteps :=
  ⟨tied_problem, ⟨tie, by simp [tiedBar], rfl, rfl⟩, tied_constant, by norm_num [tie], by decide⟩

end Nla3d.Solver
