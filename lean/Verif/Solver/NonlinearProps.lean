import Verif.Solver.Nonlinear
import Verif.Solver.LinearProps
import Mathlib.Tactic.FieldSimp
import Mathlib.Tactic.Positivity

/-!
# C21, C22: the nonlinear solver
-/

set_option linter.unusedSectionVars false

namespace Nla3d.Solver

open Nla3d.Dof Nla3d.Block Nla3d.Sparse Nla3d.Storage Nla3d.TimeCtl Finset

variable {K : Type} [Field K] [LinearOrder K]

/-! ## Specification -/

/-- Mean absolute value. -/
def meanAbs (d : List K) : K := (d.map (fun x => |x|)).sum / d.length

/-- The increments of the unknown DoFs in an increment vector. -/
def unknowns (S1 : Storage K) (d : List K) : List K := seg d S1.nConstr S1.nUnknown

/-- The acceptance test of the code: the mean absolute increment, divided by `cc`, is below `cc`. -/
def Accepted (cc : K) (S1 : Storage K) (d : List K) : Prop := meanAbs (unknowns S1 d) / cc < cc

theorem criteria_eq (cc : K) (d : List K) : criteria cc d = meanAbs d / cc := by
  have : ∀ (l : List K) (a : K), l.foldl (fun s x => s + |x|) a = a + (l.map (fun x => |x|)).sum := by
    intro l
    induction l with
    | nil => intro a; simp
    | cons x l ih => intro a; simp [ih, add_assoc]
  unfold criteria meanAbs
  rw [this, zero_add]

/-- States of a nonlinear solution that started with the prepared storage `S1`: start, any change of the time, completed
iterations. -/
inductive Reached {E : Type} (eqs : EqSolver K) (el : Elems E K) (loads fixs : List (Bc K)) (S1 : Storage K) (e : E) :
    NState E K → Prop
  | start (tc : TimeControl K) : Reached eqs el loads fixs S1 e ⟨S1, e, List.replicate S1.nConstr 0,
      List.replicate (S1.nConstr + S1.nUnknown + S1.nMpc) 0, tc, []⟩
  | time {s : NState E K} (tc : TimeControl K) : Reached eqs el loads fixs S1 e s → Reached eqs el loads fixs S1 e { s with tc := tc }
  | iter {s s' : NState E K} : Reached eqs el loads fixs S1 e s → iteration eqs el loads fixs s = .ok s' →
      Reached eqs el loads fixs S1 e s'

/-- The increments of a load step: at least one, at most `max 1 nIter`, the last one accepted, no other one. -/
def StepLog (st : Settings K) (S1 : Storage K) (ds : List (List K)) : Prop :=
  (∃ d, ds.getLast? = some d ∧ Accepted st.cc S1 d) ∧ (∀ d ∈ ds.dropLast, ¬ Accepted st.cc S1 d) ∧
    ds.length ≤ max 1 st.nIter

/-- The trace of load steps `i, i + 1, ..`; every iteration of step `k` happens at time `τ k`. -/
def traceOf (τ : Nat → K) : Nat → List (List (List K)) → List (K × List K)
  | _, [] => []
  | i, ds :: bs => ds.map (fun d => (τ i, d)) ++ traceOf τ (i + 1) bs

/-! ## One iteration -/

section
variable {E : Type} {S0 S1 : Storage K} {calls : List RegCall} {new : List (Mpc K)} {loads fixs : List (Bc K)}
    {num' : Key → Nat} {A : Side → Spec} {el : Elems E K} {eqs : EqSolver K}

theorem Books.tc {s : NState E K} {regs : List Key} (h : Books S1 regs num' fixs s) (tc : TimeControl K) :
    Books S1 regs num' fixs { s with tc := tc } :=
  ⟨h.alike, h.sizes, h.sums, h.fixed, h.mult, h.prev⟩

theorem getD_replicate (n i : Nat) : (List.replicate n (0 : K)).getD i 0 = 0 := by
  rw [List.getD_eq_getElem?_getD, List.getElem?_replicate]
  split <;> rfl

theorem books_start (hb : Base S0 S1 calls new fixs num' A) (e : E) (tc : TimeControl K) :
    Books S1 (regKeys calls) num' fixs ⟨S1, e, List.replicate S1.nConstr 0,
      List.replicate (S1.nConstr + S1.nUnknown + S1.nMpc) 0, tc, []⟩ := by
  have hd := hb.prep.pre.dofs
  refine ⟨rfl, ⟨?_, ?_, ?_⟩, ?_, ?_, ?_, ?_⟩
  · show S1.vecU.length = _; rw [hb.U, List.length_replicate]
  · show S1.vecR.length = _; rw [hb.R, List.length_replicate]
  · show (List.replicate _ _).length = _; rw [List.length_replicate, hd]
  · intro i _ _
    show comp S1.vecU i = 0
    rw [hb.U]; exact getD_replicate _ _
  · intro k _ x _
    show comp S1.vecU _ = 0 * x
    rw [hb.U, zero_mul]; exact getD_replicate _ _
  · intro i _ _
    show comp S1.vecU i = 0
    rw [hb.U]; exact getD_replicate _ _
  · show List.replicate S1.nConstr 0 = seg S1.vecU 0 S1.nConstr
    unfold seg
    rw [hb.U, List.drop_zero, List.take_replicate, min_eq_left (by omega)]

theorem reached_inv (hb : Base S0 S1 calls new fixs num' A) (hloads : ∀ l ∈ loads, keyOf l ∈ regKeys calls)
    (hel : LegalElems el S1 (regKeys calls) num') (he : Exact eqs) {e : E} {s : NState E K}
    (h : Reached eqs el loads fixs S1 e s) : Running S1 A s.S ∧ Books S1 (regKeys calls) num' fixs s := by
  induction h with
  | start tc => exact ⟨⟨_, _, _, _, hb.run⟩, books_start hb e tc⟩
  | time tc _ ih => exact ⟨ih.1, ih.2.tc tc⟩
  | iter _ hit ih =>
    rcases iteration_ok hb hloads hel he ih.1 ih.2 with ⟨hf, _⟩ | ⟨s'', h1, h2, h3, _, _⟩
    · rw [hit] at hf; simp at hf
    · rw [hit, Res.ok.injEq] at h1
      subst h1
      exact ⟨h2, h3⟩

/-- **C21, every iteration.** In any state of a nonlinear solution, an iteration stops (only if the equation solver stops on
the reduced tangent matrix), or completes with the books in order - every DoF is the sum of its increments, constrained DoFs
have the prescribed value at the current normalised time, multipliers are the last ones - and its increments solve the
tangent system assembled from the state before, with the applied loads scaled by the current normalised time. -/
theorem C21_iteration (h : Problem S0 calls new loads fixs el) (he : Exact eqs)
    (hp : S0.prepare calls new (fixKeys fixs) = .ok S1) (hn : ∀ k ∈ regKeys calls, S1.eqNumber k.1 k.2.1 k.2.2 = .ok (num' k))
    {e : E} {s : NState E K} (hs : Reached eqs el loads fixs S1 e s) :
    Books S1 (regKeys calls) num' fixs s ∧
    ((iteration eqs el loads fixs s = .fatal ∧ Stops eqs (S1.nUnknown + S1.nMpc) (fun i j =>
      asmM S1.transient num' (el.build s.e (zeroR s.S)) (el.upd s.e (zeroR s.S) s.S.mpcs) (el.cm s.e (zeroR s.S)) 0
        (S1.nConstr + (i + 1)) (S1.nConstr + (j + 1)))) ∨
    ∃ s', iteration eqs el loads fixs s = .ok s' ∧ Books S1 (regKeys calls) num' fixs s' ∧
      Solved el S1 (regKeys calls) num' loads fixs s s') := by
  obtain ⟨A, hb⟩ := base_of_prepare h.legal hp hn
  have hel := h.elems S1 num' hp hn
  obtain ⟨h1, h2⟩ := reached_inv hb h.loads hel he hs
  refine ⟨h2, ?_⟩
  rcases iteration_ok hb h.loads hel he h1 h2 with hf | ⟨s', g1, _, g3, g4, _⟩
  · exact Or.inl hf
  · exact Or.inr ⟨s', g1, g3, g4⟩

/-- An iteration that completes has solved a system with the reduced tangent matrix. -/
theorem iteration_succeeds (h : Problem S0 calls new loads fixs el) (he : Exact eqs)
    (hp : S0.prepare calls new (fixKeys fixs) = .ok S1) (hn : ∀ k ∈ regKeys calls, S1.eqNumber k.1 k.2.1 k.2.2 = .ok (num' k))
    {e : E} {s s' : NState E K} (hs : Reached eqs el loads fixs S1 e s) (hit : iteration eqs el loads fixs s = .ok s') :
    Succeeds eqs (S1.nUnknown + S1.nMpc) (fun i j =>
      asmM S1.transient num' (el.build s.e (zeroR s.S)) (el.upd s.e (zeroR s.S) s.S.mpcs) (el.cm s.e (zeroR s.S)) 0
        (S1.nConstr + (i + 1)) (S1.nConstr + (j + 1))) := by
  obtain ⟨A, hb⟩ := base_of_prepare h.legal hp hn
  have hel := h.elems S1 num' hp hn
  obtain ⟨h1, h2⟩ := reached_inv hb h.loads hel he hs
  rcases iteration_ok hb h.loads hel he h1 h2 with ⟨hf, _⟩ | ⟨_, _, _, _, _, g5⟩
  · rw [hit] at hf; simp at hf
  · exact g5

/-! ## A load step -/

/-- `n` iterations after each of which the loop continued. -/
inductive Again (eqs : EqSolver K) (el : Elems E K) (loads fixs : List (Bc K)) (st : Settings K) (S1 : Storage K)
    (s : NState E K) : Nat → NState E K → Prop
  | zero : Again eqs el loads fixs st S1 s 0 s
  | succ {n : Nat} {s1 s2 : NState E K} : Again eqs el loads fixs st S1 s n s1 → iteration eqs el loads fixs s1 = .ok s2 →
      ¬ Accepted st.cc S1 s2.deltaU → Again eqs el loads fixs st S1 s (n + 1) s2

/-- Why a load step that starts in state `s` (with `c` equilibrium steps made) stops the program: the equation solver stopped,
the increments exploded, or too many iterations. -/
def StepFails (eqs : EqSolver K) (el : Elems E K) (loads fixs : List (Bc K)) (st : Settings K) (S1 : Storage K)
    (s : NState E K) (c : Nat) : Prop :=
  ∃ n s1, Again eqs el loads fixs st S1 s n s1 ∧
    (iteration eqs el loads fixs s1 = .fatal ∨ ∃ s2, iteration eqs el loads fixs s1 = .ok s2 ∧
      ¬ Accepted st.cc S1 s2.deltaU ∧
      (10 ^ 6 < meanAbs (unknowns S1 s2.deltaU) / st.cc ∨ st.nIter ≤ c + n + 1))

theorem Again.cons {st : Settings K} {s s1 : NState E K} (h1 : iteration eqs el loads fixs s = .ok s1)
    (h2 : ¬ Accepted st.cc S1 s1.deltaU) {n : Nat} {s2 : NState E K} (h : Again eqs el loads fixs st S1 s1 n s2) :
    Again eqs el loads fixs st S1 s (n + 1) s2 := by
  induction h with
  | zero => exact .succ .zero h1 h2
  | succ _ a b ih => exact .succ ih a b

theorem judge_spec {st : Settings K} {s : NState E K} (h : Alike S1 s.S) :
    (judge st s = .converged ↔ Accepted st.cc S1 s.deltaU) ∧
    (judge st s = .diverged → 10 ^ 6 < meanAbs (unknowns S1 s.deltaU) / st.cc) ∧
    (judge st s = .giveUp → st.nIter ≤ s.tc.curEq) ∧ (judge st s = .again → s.tc.curEq < st.nIter) := by
  have c1 : s.S.nConstr = S1.nConstr := by rw [h]
  have c2 : s.S.nUnknown = S1.nUnknown := by rw [h]
  unfold judge Accepted unknowns
  rw [c1, c2, criteria_eq]
  simp only
  split
  · rename_i h1; simp [h1]
  · rename_i h1
    split
    · rename_i h2; simp [h1, h2]
    · split
      · rename_i h3; simp [h1, h3]
      · rename_i h3; simp [h1]; omega

theorem loadStep_ok (hb : Base S0 S1 calls new fixs num' A) (hloads : ∀ l ∈ loads, keyOf l ∈ regKeys calls)
    (hel : LegalElems el S1 (regKeys calls) num') (he : Exact eqs) {st : Settings K} (hit : st.nIter < 65536) {e : E} :
    ∀ (fuel : Nat) (s : NState E K), Reached eqs el loads fixs S1 e s → s.tc.curEq < max 1 st.nIter →
    max 1 st.nIter ≤ s.tc.curEq + fuel →
    (loadStep eqs el loads fixs st fuel s = some .fatal ∧ StepFails eqs el loads fixs st S1 s s.tc.curEq) ∨
    ∃ (s' : NState E K) (ds : List (List K)), loadStep eqs el loads fixs st fuel s = some (.ok s') ∧ Reached eqs el loads fixs S1 e s' ∧
      s'.trace = s.trace ++ ds.map (fun d => (s.tc.normalized, d)) ∧ s'.tc = equilibrium s.tc ds.length ∧
      s.tc.curEq + ds.length ≤ max 1 st.nIter ∧
      (∃ d, ds.getLast? = some d ∧ Accepted st.cc S1 d) ∧ (∀ d ∈ ds.dropLast, ¬ Accepted st.cc S1 d) := by
  intro fuel
  induction fuel with
  | zero => intro s _ h1 h2; omega
  | succ fuel ih =>
    intro s hs h1 h2
    obtain ⟨i1, i2⟩ := reached_inv hb hloads hel he hs
    rcases iteration_ok hb hloads hel he i1 i2 with ⟨hf, _⟩ | ⟨s1, g1, g2, g3, g4, _⟩
    · left
      refine ⟨by unfold loadStep; rw [hf], 0, s, .zero, Or.inl hf⟩
    obtain ⟨j1, j2, j3, j4⟩ := judge_spec (st := st) g3.alike
    have hcur : s1.tc.curEq = s.tc.curEq + 1 := by
      rw [g4.tc]
      show u16 (s.tc.curEq + 1) = _
      unfold u16; omega
    have hnorm : s1.tc.normalized = s.tc.normalized := by rw [g4.tc]; rfl
    have htr := g4.trace
    rw [hnorm] at htr
    cases hj : judge st s1 with
    | converged =>
      right
      refine ⟨s1, [s1.deltaU], by unfold loadStep; rw [g1]; simp only [hj], .iter hs g1, ?_, ?_, ?_, ?_, ?_⟩
      · rw [htr]; rfl
      · rw [g4.tc]; rfl
      · simp; omega
      · exact ⟨_, rfl, j1.mp hj⟩
      · simp
    | diverged =>
      left
      refine ⟨by unfold loadStep; rw [g1]; simp only [hj], 0, s, .zero, Or.inr ⟨s1, g1, ?_, Or.inl (j2 hj)⟩⟩
      intro ha; rw [j1.mpr ha] at hj; simp at hj
    | giveUp =>
      left
      refine ⟨by unfold loadStep; rw [g1]; simp only [hj], 0, s, .zero, Or.inr ⟨s1, g1, ?_, Or.inr ?_⟩⟩
      · intro ha; rw [j1.mpr ha] at hj; simp at hj
      · have := j3 hj; omega
    | again =>
      have hna : ¬ Accepted st.cc S1 s1.deltaU := by intro ha; rw [j1.mpr ha] at hj; simp at hj
      have hlt := j4 hj
      have hstep : loadStep eqs el loads fixs st (fuel + 1) s = loadStep eqs el loads fixs st fuel s1 := by
        conv_lhs => unfold loadStep
        rw [g1]; simp only [hj]
      rw [hstep]
      rcases ih s1 (.iter hs g1) (by omega) (by omega) with ⟨f1, n, s2, f2, f3⟩ | ⟨s', ds, f1, f2, f3, f4, f5, f6, f7⟩
      · left
        refine ⟨f1, n + 1, s2, f2.cons g1 hna, ?_⟩
        rcases f3 with f3 | ⟨s3, a1, a2, a3⟩
        · exact Or.inl f3
        · refine Or.inr ⟨s3, a1, a2, ?_⟩
          rcases a3 with a3 | a3
          · exact Or.inl a3
          · right; omega
      · right
        have hne : ds ≠ [] := by
          intro h0; obtain ⟨d, hd, _⟩ := f6; rw [h0] at hd; simp at hd
        refine ⟨s', s1.deltaU :: ds, f1, f2, ?_, ?_, ?_, ?_, ?_⟩
        · rw [f3, htr, hnorm]; simp
        · rw [f4, g4.tc]; rfl
        · simp; omega
        · obtain ⟨d, hd, ha⟩ := f6
          refine ⟨d, ?_, ha⟩
          rw [List.getLast?_cons, hd]; rfl
        · intro d hd
          rw [List.dropLast_cons_of_ne_nil hne] at hd
          rcases List.mem_cons.mp hd with rfl | hd
          · exact hna
          · exact f7 d hd

/-- **C21, a load step.** Started after `nextStep` (no equilibrium step taken yet), the inner loop always ends within
`max 1 numberOfIterations` iterations. It ends the program only if the equation solver stopped, an iteration diverged, or
`numberOfIterations` iterations did not suffice; otherwise the step has at least one iteration, all at the same time, of
which the last and no other passes the acceptance test. -/
theorem C21_load_step (h : Problem S0 calls new loads fixs el) (he : Exact eqs)
    (hp : S0.prepare calls new (fixKeys fixs) = .ok S1) {st : Settings K} (hit : st.nIter < 65536)
    {e : E} {s : NState E K} (hs : Reached eqs el loads fixs S1 e s) (hc : s.tc.curEq = 0) {fuel : Nat}
    (hf : max 1 st.nIter ≤ fuel) :
    (loadStep eqs el loads fixs st fuel s = some .fatal ∧ StepFails eqs el loads fixs st S1 s 0) ∨
    ∃ (s' : NState E K) (ds : List (List K)), loadStep eqs el loads fixs st fuel s = some (.ok s') ∧ Reached eqs el loads fixs S1 e s' ∧
      s'.trace = s.trace ++ ds.map (fun d => (s.tc.normalized, d)) ∧ s'.tc = equilibrium s.tc ds.length ∧
      StepLog st S1 ds := by
  obtain ⟨S1', num', A, q1, q2, hb⟩ : ∃ S1 num' A, S0.prepare calls new (fixKeys fixs) = .ok S1 ∧
      (∀ k ∈ regKeys calls, S1.eqNumber k.1 k.2.1 k.2.2 = .ok (num' k)) ∧ Base S0 S1 calls new fixs num' A := by
    rcases prepare_or_fatal h.legal with hf | hr
    · rw [hp] at hf; simp at hf
    · exact hr
  rw [hp, Res.ok.injEq] at q1
  subst q1
  rcases loadStep_ok hb h.loads (h.elems S1 num' hp q2) he hit fuel s hs (by rw [hc]; omega) (by omega) with
    ⟨f1, n, s1, f2, f3⟩ | ⟨s', ds, f1, f2, f3, f4, f5, f6, f7⟩
  · left
    rw [hc] at f3
    exact ⟨f1, n, s1, f2, f3⟩
  · right
    exact ⟨s', ds, f1, f2, f3, f4, f6, f7, by omega⟩

end

/-! ## The whole solution -/

section
variable [IsStrictOrderedRing K] {E : Type} {S0 S1 : Storage K} {calls : List RegCall} {new : List (Mpc K)} {loads fixs : List (Bc K)}
    {num' : Key → Nat} {A : Side → Spec} {el : Elems E K} {eqs : EqSolver K}

theorem choose_exact {t d e : K} {m : Nat} (hd : 0 < d) (he : e = t + ((m : K) + 1) * d) : TimeCtl.choose t e d = d := by
  unfold TimeCtl.choose
  by_cases h1 : e ≤ t + d
  · rw [if_pos h1]
    have : (m : K) * d ≤ 0 := by rw [he] at h1; linarith
    have : (0 : K) ≤ (m : K) * d := by positivity
    have : (m : K) * d = 0 := le_antisymm ‹_› ‹_›
    rw [he]; linarith
  · rw [if_neg h1]
    by_cases h2 : e ≤ t + 2 * d
    · rw [if_pos h2]
      have hm0 : m ≠ 0 := by
        intro h0; subst h0; apply h1; rw [he]; simp
      have hm1 : (1 : K) ≤ (m : K) := by exact_mod_cast Nat.one_le_iff_ne_zero.mpr hm0
      have h3 : ((m : K) + 1) * d ≤ 2 * d := by rw [he] at h2; linarith
      have h4 : (m : K) + 1 ≤ 2 := le_of_mul_le_mul_right h3 hd
      have : (m : K) = 1 := le_antisymm (by linarith) hm1
      rw [he, this]; linarith
    · rw [if_neg h2]

theorem traceOf_cons (τ : Nat → K) (i : Nat) (ds : List (List K)) (bs : List (List (List K))) :
    traceOf τ i (ds :: bs) = ds.map (fun d => (τ i, d)) ++ traceOf τ (i + 1) bs := rfl

theorem loadSteps_ok (hb : Base S0 S1 calls new fixs num' A) (hloads : ∀ l ∈ loads, keyOf l ∈ regKeys calls)
    (hel : LegalElems el S1 (regKeys calls) num') (he : Exact eqs) {st : Settings K} (hit : st.nIter < 65536) {e : E}
    {inner : Nat} (hin : max 1 st.nIter ≤ inner) {d : K} (hd : 0 < d) {n : Nat} :
    ∀ (m j fuel : Nat) (s : NState E K) (seen : List Nat), j + m = n → m < fuel → Reached eqs el loads fixs S1 e s →
    s.tc.endTime = (n : K) * d → s.tc.startTime = 0 → s.tc.time = (j : K) * d → s.tc.record.converged.length = j →
    (loadSteps eqs el loads fixs st d inner fuel s seen = some .fatal ∧ ∃ i s1, i < n ∧ Reached eqs el loads fixs S1 e s1 ∧
      s1.tc.normalized = ((i : K) + 1) / n ∧ StepFails eqs el loads fixs st S1 s1 0) ∨
    ∃ (s' : NState E K) (bs : List (List (List K))), loadSteps eqs el loads fixs st d inner fuel s seen =
        some (.ok (s', seen ++ (List.range' (j + 1) m).map u16)) ∧ Reached eqs el loads fixs S1 e s' ∧ bs.length = m ∧
      s'.trace = s.trace ++ traceOf (fun i => ((i : K) + 1) / n) j bs ∧ (∀ ds ∈ bs, StepLog st S1 ds) ∧
      s'.tc.converged.length = n := by
  intro m
  induction m with
  | zero =>
    intro j fuel s seen hj hfuel hs h1 h2 h3 h4
    right
    obtain ⟨fuel, rfl⟩ : ∃ f, fuel = f + 1 := ⟨fuel - 1, by omega⟩
    have hns : s.tc.nextStep d = .ok (false, s.tc.record) := by
      obtain ⟨r1, r2, _⟩ := record_fields s.tc
      unfold TimeControl.nextStep
      simp only
      rw [if_pos]
      rw [r1, r2, h1, h3]
      simp at hj
      rw [hj]
    refine ⟨{ s with tc := s.tc.record }, [], ?_, .time _ hs, rfl, by simp [traceOf], by simp, h4.trans (by omega)⟩
    unfold loadSteps
    rw [hns]
    simp
  | succ m ih =>
    intro j fuel s seen hj hfuel hs h1 h2 h3 h4
    obtain ⟨fuel, rfl⟩ : ∃ f, fuel = f + 1 := ⟨fuel - 1, by omega⟩
    have hn : (n : K) = j + ((m : K) + 1) := by rw [← hj]; push_cast; ring
    have hlt : s.tc.time < s.tc.endTime := by
      rw [h1, h3, hn]
      have : (0 : K) < ((m : K) + 1) * d := by positivity
      linarith
    have hch : TimeCtl.choose s.tc.time s.tc.endTime d = d := choose_exact (m := m) hd (by rw [h1, h3, hn]; ring)
    obtain ⟨r1, r2, r3⟩ := record_fields s.tc
    have hns : s.tc.nextStep d = .ok (true, advance s.tc d) := by
      unfold TimeControl.nextStep advance
      simp only
      rw [r1, r2, if_neg (not_le.mpr hlt), hch, if_pos hd]
    have ht1 : (advance s.tc d).time = ((j : K) + 1) * d := by
      show s.tc.time + TimeCtl.choose s.tc.time s.tc.endTime d = _
      rw [hch, h3]; ring
    have hnorm : (advance s.tc d).normalized = ((j : K) + 1) / n := by
      unfold TimeControl.normalized
      rw [ht1]
      show (_ - s.tc.record.startTime) / (s.tc.record.endTime - s.tc.record.startTime) = _
      rw [r1, r3, h1, h2, sub_zero, sub_zero, mul_div_mul_right _ _ (ne_of_gt hd)]
    rcases loadStep_ok hb hloads hel he hit inner { s with tc := advance s.tc d } (.time _ hs)
        (show 0 < max 1 st.nIter by omega) (show max 1 st.nIter ≤ 0 + inner by omega) with
      ⟨f1, hfail⟩ | ⟨s', ds, f1, f2, f3, f4, f5, f6, f7⟩
    · left
      refine ⟨?_, j, { s with tc := advance s.tc d }, by omega, .time _ hs, hnorm, hfail⟩
      unfold loadSteps
      rw [hns]
      simp only [f1]
    · have hds : 0 < ds.length := by
        rw [List.length_pos_iff]
        intro h0; obtain ⟨x, hx, _⟩ := f6; rw [h0] at hx; simp at hx
      have hf5 : ds.length ≤ max 1 st.nIter := by
        have : (0 : Nat) + ds.length ≤ max 1 st.nIter := f5
        omega
      obtain ⟨c1, e1, e2, e3, e4, e5, e6, e7⟩ := round_true hd hlt hds (show ds.length < 65536 by omega)
      rw [hns, Res.ok.injEq, Prod.mk.injEq] at e1
      obtain ⟨_, rfl⟩ := e1
      have f4' : s'.tc = equilibrium (advance s.tc d) ds.length := f4
      have hcs : s'.tc.currentStep = u16 (j + 1) := by
        obtain ⟨_, _, _, _, q5, _⟩ := equilibrium_spec ds.length (advance s.tc d) rfl
        unfold TimeControl.currentStep
        rw [f4', q5]
        show u16 (s.tc.record.converged.length + 1) = _
        rw [h4]
      have hstep : loadSteps eqs el loads fixs st d inner (fuel + 1) s seen =
          loadSteps eqs el loads fixs st d inner fuel s' (seen ++ [u16 (j + 1)]) := by
        conv_lhs => unfold loadSteps
        rw [hns]
        simp only [f1, hcs]
      rw [hstep]
      rcases ih (j + 1) fuel s' (seen ++ [u16 (j + 1)]) (by omega) (by omega) f2 (by rw [f4', e4, h1]) (by rw [f4', e5, h2])
          (by rw [f4', e3, ht1]; push_cast; ring)
          (by rw [f4', e6, List.length_append, h4]; rfl) with g | ⟨s'', bs, g1, g2, g3, g4, g5, g6⟩
      · exact Or.inl g
      · right
        refine ⟨s'', ds :: bs, ?_, g2, by simp [g3], ?_, ?_, g6⟩
        · rw [g1, List.range'_succ]; simp
        · rw [g4, f3, traceOf_cons]
          have : { s with tc := advance s.tc d }.tc.normalized = ((j : K) + 1) / n := hnorm
          simp only [this, List.append_assoc]
        · intro x hx
          rcases List.mem_cons.mp hx with rfl | hx
          · exact ⟨f6, f7, hf5⟩
          · exact g5 x hx

theorem lastTime_traceOf (τ : Nat → K) (st : Settings K) : ∀ (bs : List (List (List K))) (i : Nat) (tr : List (K × List K)),
    (∀ ds ∈ bs, StepLog st S1 ds) → bs ≠ [] → lastTime (tr ++ traceOf τ i bs) = τ (i + bs.length - 1) := by
  intro bs
  induction bs with
  | nil => intro _ _ _ h; exact absurd rfl h
  | cons ds bs ih =>
    intro i tr h _
    rw [traceOf_cons, ← List.append_assoc]
    by_cases hb : bs = []
    · subst hb
      obtain ⟨⟨d, hd, _⟩, _⟩ := h ds (by simp)
      have : traceOf τ (i + 1) [] = [] := rfl
      rw [this, List.append_nil]
      obtain ⟨l, rfl⟩ := List.getLast?_eq_some_iff.mp hd
      rw [List.map_append, List.map_cons, List.map_nil, ← List.append_assoc, lastTime_append]
      simp
    · rw [ih (i + 1) _ (fun x hx => h x (by simp [hx])) hb]
      congr 1
      rw [List.length_cons]; omega

/-- **C21, the whole solution.** With a default start time, end time `e > 0` and `n ≥ 1` load steps, `NonlinearFESolver::solve`
ends (loops bounded by `n` and `max 1 numberOfIterations`). Either the program is stopped (the preparation failed, or a load
step did for one of the reasons in `StepFails`), or exactly `n` load steps were
made, load step `k` at normalised time `k / n` with at least one and at most `max 1 numberOfIterations` iterations of which
the last and only the last was accepted, the post processors saw the steps `1..n` (counted in `uint16`), every DoF is the sum
of its increments, and the fixed DoFs hold the full prescribed values. -/
theorem C21_solution (h : Problem S0 calls new loads fixs el) (he : Exact eqs) {st : Settings K} (hit : st.nIter < 65536)
    (hn : 0 < st.nSteps) {tend : K} (hend : 0 < tend) (e : E) {inner fuel : Nat} (hin : max 1 st.nIter ≤ inner)
    (hfuel : st.nSteps < fuel) :
    (nonlinearSolve eqs el loads fixs st (TimeControl.fresh.setEndTime tend) calls new S0 e inner fuel = some .fatal ∧
      (S0.prepare calls new (fixKeys fixs) = .fatal ∨ ∃ S1 i s, S0.prepare calls new (fixKeys fixs) = .ok S1 ∧
        i < st.nSteps ∧ Reached eqs el loads fixs S1 e s ∧ s.tc.normalized = ((i : K) + 1) / st.nSteps ∧
        StepFails eqs el loads fixs st S1 s 0)) ∨
    ∃ (S1 : Storage K) (num : Key → Nat) (s : NState E K) (bs : List (List (List K))),
      S0.prepare calls new (fixKeys fixs) = .ok S1 ∧
      (∀ k ∈ regKeys calls, S1.eqNumber k.1 k.2.1 k.2.2 = .ok (num k)) ∧
      nonlinearSolve eqs el loads fixs st (TimeControl.fresh.setEndTime tend) calls new S0 e inner fuel =
        some (.ok (s, (List.range' 1 st.nSteps).map u16)) ∧
      Reached eqs el loads fixs S1 e s ∧
      bs.length = st.nSteps ∧ s.trace = traceOf (fun i => ((i : K) + 1) / st.nSteps) 0 bs ∧
      (∀ ds ∈ bs, StepLog st S1 ds) ∧
      (∀ k ∈ regKeys calls, comp s.S.vecU (num k) = total s.trace (num k)) ∧
      (∀ k ∈ regKeys calls, ∀ x, lastFix k fixs = some x → comp s.S.vecU (num k) = x) := by
  rcases prepare_or_fatal h.legal with hf | ⟨S1, num', A, hprep, hnum, hb⟩
  · left; exact ⟨by unfold nonlinearSolve; rw [hf], Or.inl hf⟩
  have hel := h.elems S1 num' hprep hnum
  have hnK : (0 : K) < st.nSteps := by exact_mod_cast hn
  have hd : (0 : K) < tend / st.nSteps := by positivity
  have hlen : (TimeControl.fresh.setEndTime tend : TimeControl K).record.converged.length = 0 := by
    simp [TimeControl.record, TimeControl.fresh, TimeControl.setEndTime]
  have hun : nonlinearSolve eqs el loads fixs st (TimeControl.fresh.setEndTime tend) calls new S0 e inner fuel =
      loadSteps eqs el loads fixs st (tend / st.nSteps) inner fuel
        ⟨S1, e, List.replicate S1.nConstr 0, List.replicate (S1.nConstr + S1.nUnknown + S1.nMpc) 0,
          TimeControl.fresh.setEndTime tend, []⟩ [] := by
    unfold nonlinearSolve
    rw [hprep]
    simp only
    have : ((TimeControl.fresh.setEndTime tend : TimeControl K).endTime -
        (TimeControl.fresh.setEndTime tend : TimeControl K).startTime) = tend := by
      show tend - 0 = tend
      rw [sub_zero]
    rw [this]
  rw [hun]
  rcases loadSteps_ok (n := st.nSteps) hb h.loads hel he hit hin hd st.nSteps 0 fuel _ [] (by omega) hfuel (.start _)
      (show tend = _ by field_simp) rfl (show (0 : K) = _ by simp) hlen with
    ⟨g, i, s, g'⟩ | ⟨s, bs, g1, g2, g3, g4, g5, _⟩
  · exact Or.inl ⟨g, Or.inr ⟨S1, i, s, hprep, g'⟩⟩
  · right
    obtain ⟨_, hbk⟩ := reached_inv hb h.loads hel he g2
    rw [List.nil_append] at g4
    refine ⟨S1, num', s, bs, hprep, hnum, Eq.trans g1 (by rw [List.nil_append]), g2, g3, g4, g5, ?_, ?_⟩
    · intro k hk
      have := hb.range hk
      exact hbk.sums _ this.1 this.2
    · intro k hk x hx
      rw [hbk.fixed k hk x hx, g4]
      have := lastTime_traceOf (S1 := S1) (fun i => ((i : K) + 1) / st.nSteps) st bs 0 [] g5
        (by intro h0; rw [h0] at g3; simp at g3; omega)
      rw [List.nil_append] at this
      rw [this, g3, Nat.zero_add]
      have : ((st.nSteps - 1 : Nat) : K) + 1 = st.nSteps := by
        have : st.nSteps - 1 + 1 = st.nSteps := by omega
        exact_mod_cast this
      rw [this, div_self (ne_of_gt hnK), one_mul]

/-- After a whole solution the time control has recorded every load step, so its current step number is one past the last
one. -/
theorem nonlinear_ends (h : Problem S0 calls new loads fixs el) (he : Exact eqs) {st : Settings K} (hit : st.nIter < 65536)
    (hn : 0 < st.nSteps) {tend : K} (hend : 0 < tend) (e : E) {inner fuel : Nat} (hin : max 1 st.nIter ≤ inner)
    (hfuel : st.nSteps < fuel) {s : NState E K} {seen : List Nat}
    (hrun : nonlinearSolve eqs el loads fixs st (TimeControl.fresh.setEndTime tend) calls new S0 e inner fuel =
      some (.ok (s, seen))) :
    seen = (List.range' 1 st.nSteps).map u16 ∧ s.tc.currentStep = u16 (st.nSteps + 1) := by
  rcases prepare_or_fatal h.legal with hf | ⟨S1, num', A, hprep, hnum, hb⟩
  · unfold nonlinearSolve at hrun; rw [hf] at hrun; simp at hrun
  have hel := h.elems S1 num' hprep hnum
  have hnK : (0 : K) < st.nSteps := by exact_mod_cast hn
  have hd : (0 : K) < tend / st.nSteps := by positivity
  have hlen : (TimeControl.fresh.setEndTime tend : TimeControl K).record.converged.length = 0 := by
    simp [TimeControl.record, TimeControl.fresh, TimeControl.setEndTime]
  have hun : nonlinearSolve eqs el loads fixs st (TimeControl.fresh.setEndTime tend) calls new S0 e inner fuel =
      loadSteps eqs el loads fixs st (tend / st.nSteps) inner fuel
        ⟨S1, e, List.replicate S1.nConstr 0, List.replicate (S1.nConstr + S1.nUnknown + S1.nMpc) 0,
          TimeControl.fresh.setEndTime tend, []⟩ [] := by
    unfold nonlinearSolve
    rw [hprep]
    simp only
    have : ((TimeControl.fresh.setEndTime tend : TimeControl K).endTime -
        (TimeControl.fresh.setEndTime tend : TimeControl K).startTime) = tend := by
      show tend - 0 = tend
      rw [sub_zero]
    rw [this]
  rw [hun] at hrun
  rcases loadSteps_ok (e := e) (n := st.nSteps) hb h.loads hel he hit hin hd st.nSteps 0 fuel _ [] (by omega) hfuel (.start _)
      (show tend = _ by field_simp) rfl (show (0 : K) = _ by simp) hlen with
    ⟨g, _⟩ | ⟨s, bs, g1, _, _, _, _, g6⟩
  · have g := hrun.symm.trans g; simp at g
  · have g1 := hrun.symm.trans g1
    simp only [List.nil_append, Option.some.injEq, Res.ok.injEq, Prod.mk.injEq] at g1
    obtain ⟨rfl, rfl⟩ := g1
    refine ⟨by simp, ?_⟩
    unfold TimeControl.currentStep
    rw [g6]

/-! ## C22 -/

/-- **C22, what the code does.** For a positive setting, an iteration is accepted exactly when the mean absolute increment
of the unknown DoFs is below the *square* of `convergenceCriteria`. -/
theorem C22_accepted_iff {st : Settings K} {s : NState E K} (h : Alike S1 s.S) (hcc : 0 < st.cc) :
    judge st s = .converged ↔ meanAbs (unknowns S1 s.deltaU) < st.cc * st.cc := by
  rw [(judge_spec h).1]
  unfold Accepted
  rw [div_lt_iff₀ hcc]

/-- **C22 is violated.** For every setting in `(0, 1)` there is an increment with mean absolute value below the setting which
is not accepted, for every number of unknown DoFs. -/
theorem C22_violated {st : Settings K} (h0 : 0 < st.cc) (h1 : st.cc < 1) (S : Storage K) (hu : 0 < S.nUnknown) (e : E)
    (tc : TimeControl K) :
    ∃ deltaU : List K, deltaU.length = S.nConstr + S.nUnknown ∧ meanAbs (unknowns S deltaU) < st.cc ∧
      judge st ⟨S, e, [], deltaU, tc, []⟩ ≠ .converged := by
  have hm : ∀ (n : Nat), 0 < n → ∀ a : K, 0 ≤ a → meanAbs (List.replicate n a) = a := by
    intro n hn a ha
    unfold meanAbs
    rw [List.map_replicate, List.sum_replicate, List.length_replicate, abs_of_nonneg ha, nsmul_eq_mul]
    have : (0 : K) < n := by exact_mod_cast hn
    field_simp
  have hseg : unknowns S (List.replicate (S.nConstr + S.nUnknown) (st.cc * st.cc)) = List.replicate S.nUnknown (st.cc * st.cc) := by
    unfold unknowns seg
    rw [List.drop_replicate, List.take_replicate]
    congr 1
    omega
  refine ⟨List.replicate (S.nConstr + S.nUnknown) (st.cc * st.cc), List.length_replicate .., ?_, ?_⟩
  · rw [hseg, hm _ hu _ (by positivity)]
    nlinarith
  · intro hc
    rw [C22_accepted_iff (S1 := S) (show Alike S S from rfl) h0] at hc
    rw [show unknowns S (NState.deltaU ⟨S, e, [], List.replicate (S.nConstr + S.nUnknown) (st.cc * st.cc), tc, []⟩) = _ from hseg,
      hm _ hu _ (by positivity)] at hc
    exact lt_irrefl _ hc

/-- **C22, the half that holds** for settings not above 1: an accepted increment has mean absolute value below the setting.
Missing: increments below the setting are accepted, which is false (`C22_violated`); for settings above 1 also this half
fails. -/
theorem C22_accepted_partial {st : Settings K} {s : NState E K} (h : Alike S1 s.S) (hcc : 0 < st.cc) (h1 : st.cc ≤ 1)
    (ha : judge st s = .converged) : meanAbs (unknowns S1 s.deltaU) < st.cc := by
  rw [C22_accepted_iff h hcc] at ha
  nlinarith

end

/-! ## Examples -/

/-- A soft criterion, three load steps of at most two iterations. -/
def barSettings : Settings ℚ := ⟨2, 3, 100⟩

example : Problem bar barCalls [] [⟨2, .UX, 5⟩, ⟨2, .UX, 2⟩] [⟨1, .UX, 3⟩] spring := bar_problem _ (by decide) 3

/-- The bar under a load is solved in three load steps. -/
theorem bar_three : ∃ s, nonlinearSolve Gauss.solveEquations spring [⟨2, .UX, 5⟩] [⟨1, .UX, 0⟩] barSettings
    (TimeControl.fresh.setEndTime 7) barCalls [] bar () 2 4 = some (.ok (s, [1, 2, 3])) := by
  have hprob := bar_problem (t := false) [⟨2, .UX, 5⟩] (by decide) 0
  rcases C21_solution hprob gauss_exact (st := barSettings) (by decide) (by decide) (show (0 : ℚ) < 7 by norm_num) ()
      (inner := 2) (fuel := 4) (by decide) (by decide) with ⟨_, hf | ⟨S1, i, s, hp, hi, hr, ht, n, s1, ha, hfail⟩⟩ | ⟨_, _, s, _, _, _, h, _⟩
  · exfalso
    obtain ⟨S1, num, h1, _⟩ := prepare_small hprob.legal
      (show [(Side.node, 1, DofType.UX)].toFinset.card < (regKeys barCalls).toFinset.card by decide) (by decide)
    rw [hf] at h1
    simp at h1
  · exfalso
    rcases prepare_or_fatal hprob.legal with hf | ⟨S1', num, A, hprep, hnum, hb⟩
    · rw [hp] at hf; simp at hf
    rw [hp, Res.ok.injEq] at hprep
    subst hprep
    obtain ⟨c1, c2, c3, c4, n1, n2, c5, c6, _, _⟩ := bar_prepared hp hnum
    have e1 := hnum (.node, 1, .UX) (by decide)
    have e2 := hnum (.node, 2, .UX) (by decide)
    rw [n1] at e1
    rw [n2] at e2
    simp only at e1 e2
    -- the assembled matrix does not depend on the state
    have hmat : ∀ (S : Storage ℚ), Alike S1 S → ∀ i j, asmM S1.transient num (spring.build () (zeroR S)) []
        (spring.cm () (zeroR S)) 0 i j = (if Same i j 1 1 then 1 else 0) + ((if Same i j 1 2 then -1 else 0) +
        (if Same i j 2 2 then 1 else 0)) := by
      intro S hS i j
      have hz : Alike S1 (zeroR S) := by
        unfold Alike at hS ⊢
        unfold zeroR
        rw [hS]
      simp only [spring, hz.eqNumber, e1, e2]
      simp [asmM, c5, matSum, Which.idx]
    have hvec : ∀ (S : Storage ℚ), Alike S1 S → ∀ i, asmV S1.transient (spring.build () (zeroR S)) []
        (spring.cm () (zeroR S)) i = 0 := by
      intro S hS i
      have hz : Alike S1 (zeroR S) := by
        unfold Alike at hS ⊢
        unfold zeroR
        rw [hS]
      simp only [spring, hz.eqNumber, e1, e2]
      simp [asmV, c5, mpcLoad, loadSum]
    have hshape : ∀ s : NState Unit ℚ, Reached Gauss.solveEquations spring [⟨2, .UX, 5⟩] [⟨1, .UX, 0⟩] S1 () s → s.S.mpcs = [] := by
      intro s hs
      obtain ⟨⟨M, v, u, r, hrun⟩, _⟩ := reached_inv hb hprob.loads (hprob.elems S1 num hp hnum) gauss_exact hs
      have := hrun.nMpc
      rw [c4] at this
      exact List.length_eq_zero_iff.mp this
    -- the first iteration is accepted
    have key : ∀ s2, iteration Gauss.solveEquations spring [⟨2, .UX, 5⟩] [⟨1, .UX, 0⟩] s = .ok s2 →
        Accepted barSettings.cc S1 s2.deltaU := by
      intro s2 h2
      obtain ⟨hbk, hor⟩ := C21_iteration hprob gauss_exact hp hnum hr
      rcases hor with ⟨hf, _⟩ | ⟨s', h1, hbk', hs'⟩
      · rw [h2] at hf; simp at hf
      rw [h2, Res.ok.injEq] at h1
      subst h1
      have hm2 : s2.S.mpcs = [] := hshape s2 (.iter hr h2)
      obtain ⟨k, f, _, _, hk, hfv, hrow, _⟩ := hs'.system
      rw [hm2] at hk hfv
      have h3 := hrow 2 (by omega) (by omega)
      have hl := hs'.loads (.node, 2, .UX) (by decide) (by decide)
      rw [n2, hs'.tc, normalized_next, ht] at hl
      have hd1 : comp s2.deltaU 1 = 0 := by
        have k1 := hbk.sums 1 (by omega) (by omega)
        have k2 := hbk'.sums 1 (by omega) (by omega)
        have k3 := hbk.fixed (.node, 1, .UX) (by decide) 0 rfl
        have k4 := hbk'.fixed (.node, 1, .UX) (by decide) 0 rfl
        rw [n1] at k3 k4
        rw [hs'.trace, total_append, ← k1, k4, k3] at k2
        linarith
      rw [hfv, hvec _ hbk.alike, hl, c3, c4] at h3
      unfold rowMul at h3
      simp only [Finset.sum_range_succ, Finset.sum_range_zero, hk, hmat _ hbk.alike, hd1] at h3
      simp [Same, loadsOn, keyOf] at h3
      have hseg : unknowns S1 s2.deltaU = [comp s2.deltaU 2] := by
        unfold unknowns seg comp
        rw [c1, c2]
        have hlen := hbk'.sizes.2.2
        rw [c3, c4] at hlen
        match hq : s2.deltaU, hlen with
        | [a, b], _ => simp
      unfold Accepted meanAbs
      rw [hseg, h3]
      have hi' : (i : ℚ) + 1 ≤ 3 := by
        have : i + 1 ≤ 3 := hi
        exact_mod_cast this
      have hi0 : (0 : ℚ) ≤ (i : ℚ) := by positivity
      simp only [List.map_cons, List.map_nil, List.sum_cons, List.sum_nil, List.length_singleton, barSettings]
      rw [abs_of_nonneg (by positivity)]
      norm_num
      linarith
    have hn0 : n = 0 ∧ s1 = s := by
      have : ∀ n s1, Again Gauss.solveEquations spring [⟨2, .UX, 5⟩] [⟨1, .UX, 0⟩] barSettings S1 s n s1 → n = 0 ∧ s1 = s := by
        intro n s1 ha
        induction ha with
        | zero => exact ⟨rfl, rfl⟩
        | succ _ h1 h2 ih =>
          obtain ⟨_, rfl⟩ := ih
          exact absurd (key _ h1) h2
      exact this n s1 ha
    obtain ⟨rfl, rfl⟩ := hn0
    rcases hfail with hfat | ⟨s2, h1, h2, _⟩
    · obtain ⟨hbk, hor⟩ := C21_iteration hprob gauss_exact hp hnum hr
      rcases hor with ⟨_, hst⟩ | ⟨s', h1, _⟩
      · have hm : spring.upd s1.e (zeroR s1.S) s1.S.mpcs = [] := hshape s1 hr
        rw [c2, c4, hm] at hst
        rcases gauss_stops hst with h | ⟨i, a', hi, hrc, hq⟩
        · omega
        · have : i = 0 := by omega
          subst this
          cases hrc
          have := hq 0 (le_refl 0) (by omega)
          beta_reduce at this
          rw [hmat _ hbk.alike, c1] at this
          simp [Same, Gauss.eps] at this
          norm_num at this
      · rw [hfat] at h1; simp at h1
    · exact h2 (key _ h1)
  · exact ⟨s, h⟩

end Nla3d.Solver
