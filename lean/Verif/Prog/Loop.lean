import Verif.Prog.Model
import Verif.Solver.NonlinearProps
import Verif.Post.Props

/-!
# The load steps and the reaction processor
-/

set_option linter.unusedSectionVars false

namespace Nla3d.Prog

open Nla3d.Dof Nla3d.Block Nla3d.Sparse Nla3d.Storage Nla3d.TimeCtl
open Nla3d.Solver hiding Solved
open Nla3d.Post (Proc runSteps Exist)

variable {K : Type} [Field K] [LinearOrder K] {E : Type} {S0 S1 : Storage K} {calls : List RegCall} {new : List (Mpc K)}
  {loads fixs : List (Bc K)} {num' : Key → Nat} {A : Side → Spec} {el : Elems E K} {eqs : EqSolver K}

/-- The calls of `process` for consecutive steps, of a processor if there is one. -/
def runOpt (k : Nat) (Ss : List (Storage K)) : Option (Proc K) → Res (Option (Proc K))
  | none => .ok none
  | some P => do
    let P ← runSteps k Ss P
    .ok (some P)

theorem runOpt_nil (k : Nat) (P : Option (Proc K)) : runOpt k [] P = .ok P := by
  cases P <;> rfl

theorem runOpt_cons {S : Storage K} {k : Nat} {P P1 P2 : Option (Proc K)} {Ss : List (Storage K)} (h1 : processStep S k P = .ok P1)
    (h2 : runOpt (k + 1) Ss P1 = .ok P2) : runOpt k (S :: Ss) P = .ok P2 := by
  cases P with
  | none =>
    simp only [processStep, Res.ok.injEq] at h1
    subst h1
    simpa [runOpt] using h2
  | some P =>
    simp only [processStep] at h1
    obtain ⟨Q, q1, q2⟩ := Res.bind_eq_ok.mp h1
    rw [Res.ok.injEq] at q2
    subst q2
    simp only [runOpt] at h2 ⊢
    obtain ⟨R, r1, r2⟩ := Res.bind_eq_ok.mp h2
    unfold runSteps
    rw [q1, Res.ok_bind, r1, Res.ok_bind, r2]

/-- The calls of `obs` for consecutive steps. -/
def runObs {σ : Type} (obs : Nat → NState E K → σ → Res σ) : Nat → List (NState E K) → σ → Res σ
  | _, [], P => .ok P
  | k, s :: L, P => do
    let P ← obs k s P
    runObs obs (k + 1) L P

/-- Iterations from a state up to the first one that is accepted; the list has the states after them. -/
inductive Iters (eqs : EqSolver K) (el : Elems E K) (loads fixs : List (Bc K)) (st : Settings K) (S1 : Storage K) :
    NState E K → List (NState E K) → Prop
  | last {s s' : NState E K} : iteration eqs el loads fixs s = .ok s' → Accepted st.cc S1 s'.deltaU →
      Iters eqs el loads fixs st S1 s [s']
  | more {s s' : NState E K} {l : List (NState E K)} : iteration eqs el loads fixs s = .ok s' → ¬ Accepted st.cc S1 s'.deltaU →
      Iters eqs el loads fixs st S1 s' l → Iters eqs el loads fixs st S1 s (s' :: l)

/-- Load steps `j, j + 1, ..` of `n`; the list has the states at their ends. -/
inductive Steps (eqs : EqSolver K) (el : Elems E K) (loads fixs : List (Bc K)) (st : Settings K) (S1 : Storage K) (n : Nat) :
    Nat → NState E K → List (NState E K) → Prop
  | done {j : Nat} {s : NState E K} : Steps eqs el loads fixs st S1 n j s []
  | step {j : Nat} {s s' : NState E K} {tc : TimeControl K} {l L : List (NState E K)} : tc.normalized = ((j : K) + 1) / n →
      Iters eqs el loads fixs st S1 { s with tc := tc } l → l.length ≤ max 1 st.nIter → l.getLast? = some s' →
      Steps eqs el loads fixs st S1 n (j + 1) s' L → Steps eqs el loads fixs st S1 n j s (s' :: L)

/-- The iterations of a load step. -/
theorem loadStep_iters (hb : Base S0 S1 calls new fixs num' A) (hloads : ∀ l ∈ loads, keyOf l ∈ regKeys calls)
    (hel : LegalElems el S1 (regKeys calls) num') (he : Exact eqs) {st : Settings K} {e : E} :
    ∀ (fuel : Nat) (s s' : NState E K), Reached eqs el loads fixs S1 e s → loadStep eqs el loads fixs st fuel s = some (.ok s') →
    ∃ l, Iters eqs el loads fixs st S1 s l ∧ l.getLast? = some s' ∧ s'.trace.length = s.trace.length + l.length := by
  intro fuel
  induction fuel with
  | zero => intro s s' _ h; simp [loadStep] at h
  | succ fuel ih =>
    intro s s' hs h
    unfold loadStep at h
    obtain ⟨i1, i2⟩ := reached_inv hb hloads hel he hs
    rcases iteration_ok hb hloads hel he i1 i2 with ⟨hf, _⟩ | ⟨s1, g1, _, g3, g4, _⟩
    · rw [hf] at h; simp at h
    rw [g1] at h
    have htr : s1.trace.length = s.trace.length + 1 := by rw [g4.trace]; simp
    cases hj : judge st s1 with
    | converged =>
      simp only [hj, Option.some.injEq, Res.ok.injEq] at h
      subst h
      exact ⟨[s1], .last g1 ((judge_spec g3.alike).1.mp hj), rfl, htr⟩
    | diverged => simp [hj] at h
    | giveUp => simp [hj] at h
    | again =>
      simp only [hj] at h
      obtain ⟨l, a1, a2, a3⟩ := ih s1 s' (.iter hs g1) h
      have hne : l ≠ [] := by intro h0; rw [h0] at a2; simp at a2
      refine ⟨s1 :: l, .more g1 (fun hacc => ?_) a1, ?_, ?_⟩
      · rw [← (judge_spec (st := st) g3.alike).1, hj] at hacc
        simp at hacc
      · obtain ⟨x, l', rfl⟩ := List.exists_cons_of_ne_nil hne
        rw [List.getLast?_cons_cons]
        exact a2
      · rw [a3, htr, List.length_cons]
        omega

/-- The loop over the load steps with processors that do not fail: either it stops in a load step, or it ends after the right
number of steps, in the same state as without the processors, which have seen the states at the ends of the load steps. -/
theorem stepLoop_ok [IsStrictOrderedRing K] (hb : Base S0 S1 calls new fixs num' A) (hloads : ∀ l ∈ loads, keyOf l ∈ regKeys calls)
    (hel : LegalElems el S1 (regKeys calls) num') (he : Exact eqs) {st : Settings K} (hit : st.nIter < 65536) {e : E}
    {inner : Nat} (hin : max 1 st.nIter ≤ inner) {d : K} (hd : 0 < d) {n : Nat} (hn16 : n < 65536) {σ : Type}
    {obs : Nat → NState E K → σ → Res σ} {Good : σ → Prop}
    (hgood : ∀ s, Reached eqs el loads fixs S1 e s → ∀ k P, Good P → ∃ P', obs k s P = .ok P' ∧ Good P') :
    ∀ (m j fuel : Nat) (s : NState E K) (P : σ), Good P → j + m = n → m < fuel → Reached eqs el loads fixs S1 e s →
    s.tc.endTime = (n : K) * d → s.tc.startTime = 0 → s.tc.time = (j : K) * d → s.tc.record.converged.length = j →
    (stepLoop eqs el loads fixs st d obs inner fuel s P = some .fatal ∧ ∃ (L : List (NState E K)) (tc : TimeControl K), L.length < m ∧
      (∀ s ∈ L, Reached eqs el loads fixs S1 e s) ∧ Steps eqs el loads fixs st S1 n j s L ∧
      tc.normalized = (((j + L.length : Nat) : K) + 1) / n ∧
      StepFails eqs el loads fixs st S1 { L.getLast?.getD s with tc := tc } 0) ∨
    ∃ (s' : NState E K) (P' : σ) (L : List (NState E K)),
      stepLoop eqs el loads fixs st d obs inner fuel s P = some (.ok (s', P')) ∧
      (∀ seen, ∃ seen', loadSteps eqs el loads fixs st d inner fuel s seen = some (.ok (s', seen'))) ∧
      runObs obs (j + 1) L P = .ok P' ∧ L.length = m ∧ (∀ s ∈ L, Reached eqs el loads fixs S1 e s) ∧
      Steps eqs el loads fixs st S1 n j s L := by
  intro m
  induction m with
  | zero =>
    intro j fuel s P _ hj hfuel hs h1 h2 h3 h4
    right
    obtain ⟨fuel, rfl⟩ : ∃ f, fuel = f + 1 := ⟨fuel - 1, by omega⟩
    have hns : s.tc.nextStep d = .ok (false, s.tc.record) := by
      obtain ⟨r1, r2, _⟩ := record_fields s.tc
      unfold TimeControl.nextStep
      simp only
      rw [if_pos]
      rw [r1, r2, h1, h3]
      simp at hj
      rw [hj]
    refine ⟨{ s with tc := s.tc.record }, P, [], ?_, fun seen => ⟨seen, ?_⟩, rfl, rfl, by simp, .done⟩
    · unfold stepLoop
      rw [hns]
    · unfold loadSteps
      rw [hns]
  | succ m ih =>
    intro j fuel s P hP hj hfuel hs h1 h2 h3 h4
    obtain ⟨fuel, rfl⟩ : ∃ f, fuel = f + 1 := ⟨fuel - 1, by omega⟩
    have hn : (n : K) = j + ((m : K) + 1) := by rw [← hj]; push_cast; ring
    have hlt : s.tc.time < s.tc.endTime := by
      rw [h1, h3, hn]
      have : (0 : K) < ((m : K) + 1) * d := by positivity
      linarith
    have hch : TimeCtl.choose s.tc.time s.tc.endTime d = d := choose_exact (m := m) hd (by rw [h1, h3, hn]; ring)
    obtain ⟨r1, r2, r3⟩ := record_fields s.tc
    have hns : s.tc.nextStep d = .ok (true, advance s.tc d) := by
      unfold TimeControl.nextStep advance
      simp only
      rw [r1, r2, if_neg (not_le.mpr hlt), hch, if_pos hd]
    have ht1 : (advance s.tc d).time = ((j : K) + 1) * d := by
      show s.tc.time + TimeCtl.choose s.tc.time s.tc.endTime d = _
      rw [hch, h3]; ring
    have hnorm : (advance s.tc d).normalized = ((j : K) + 1) / n := by
      unfold TimeControl.normalized
      rw [ht1]
      show (_ - s.tc.record.startTime) / (s.tc.record.endTime - s.tc.record.startTime) = _
      rw [r1, r3, h1, h2, sub_zero, sub_zero, mul_div_mul_right _ _ (ne_of_gt hd)]
    rcases loadStep_ok hb hloads hel he hit inner { s with tc := advance s.tc d } (.time _ hs)
        (show 0 < max 1 st.nIter by omega) (show max 1 st.nIter ≤ 0 + inner by omega) with
      ⟨f1, hfail⟩ | ⟨s', ds, f1, f2, f3, f4, f5, f6, f7⟩
    · left
      refine ⟨?_, [], advance s.tc d, by simp, by simp, .done, hnorm, hfail⟩
      unfold stepLoop
      rw [hns]
      simp only [f1]
    · have hds : 0 < ds.length := by
        rw [List.length_pos_iff]
        intro h0; obtain ⟨x, hx, _⟩ := f6; rw [h0] at hx; simp at hx
      have hf5 : ds.length ≤ max 1 st.nIter := by
        have : (0 : Nat) + ds.length ≤ max 1 st.nIter := f5
        omega
      obtain ⟨c1, e1, e2, e3, e4, e5, e6, e7⟩ := round_true hd hlt hds (show ds.length < 65536 by omega)
      rw [hns, Res.ok.injEq, Prod.mk.injEq] at e1
      obtain ⟨_, rfl⟩ := e1
      have f4' : s'.tc = equilibrium (advance s.tc d) ds.length := f4
      have hcs : s'.tc.currentStep = j + 1 := by
        obtain ⟨_, _, _, _, q5, _⟩ := equilibrium_spec ds.length (advance s.tc d) rfl
        unfold TimeControl.currentStep
        rw [f4', q5]
        show u16 (s.tc.record.converged.length + 1) = _
        rw [h4]
        unfold u16
        omega
      obtain ⟨l, l1, l2, l3⟩ := loadStep_iters hb hloads hel he _ _ _ (.time _ hs) f1
      have hlen : l.length = ds.length := by
        rw [f3, List.length_append, List.length_map] at l3
        omega
      obtain ⟨P1, p1, p2⟩ := hgood s' f2 (j + 1) P hP
      have hstep : stepLoop eqs el loads fixs st d obs inner (fuel + 1) s P = stepLoop eqs el loads fixs st d obs inner fuel s' P1 := by
        conv_lhs => unfold stepLoop
        rw [hns]
        simp only [f1, hcs, p1]
      have hload : ∀ seen, loadSteps eqs el loads fixs st d inner (fuel + 1) s seen =
          loadSteps eqs el loads fixs st d inner fuel s' (seen ++ [j + 1]) := by
        intro seen
        conv_lhs => unfold loadSteps
        rw [hns]
        simp only [f1, hcs]
      rw [hstep]
      rcases ih (j + 1) fuel s' P1 p2 (by omega) (by omega) f2 (by rw [f4', e4, h1]) (by rw [f4', e5, h2])
          (by rw [f4', e3, ht1]; push_cast; ring)
          (by rw [f4', e6, List.length_append, h4]; rfl) with g | ⟨s'', P'', L, g1, g2, g3, g4, g5, g6⟩
      · obtain ⟨k1, L, tc, k2, k3, k4, k5, k6⟩ := g
        refine Or.inl ⟨k1, s' :: L, tc, by simp; omega, ?_, .step hnorm l1 (by omega) l2 k4, ?_, ?_⟩
        · intro x hx
          rcases List.mem_cons.mp hx with rfl | hx
          · exact f2
          · exact k3 x hx
        · rw [k5, List.length_cons, show j + 1 + L.length = j + (L.length + 1) by omega]
        · rw [List.getLast?_cons, Option.getD_some]
          exact k6
      · right
        refine ⟨s'', P'', s' :: L, g1, fun seen => ?_, by unfold runObs; rw [p1, Res.ok_bind, g3], by simp [g4], ?_, .step hnorm l1 (by omega) l2 g6⟩
        · obtain ⟨seen', q⟩ := g2 (seen ++ [j + 1])
          exact ⟨seen', (hload seen).trans q⟩
        · intro x hx
          rcases List.mem_cons.mp hx with rfl | hx
          · exact f2
          · exact g5 x hx

/-- The states of a solution are those in which reactions can be read. -/
theorem solved_reached (hb : Base S0 S1 calls new fixs num' A) (hloads : ∀ l ∈ loads, keyOf l ∈ regKeys calls)
    (hel : LegalElems el S1 (regKeys calls) num') (he : Exact eqs) {e : E} {s : NState E K} (hs : Reached eqs el loads fixs S1 e s) :
    Post.Solved s.S A ∧ s.S.nNodes = S0.nNodes := by
  obtain ⟨_, hk⟩ := reached_inv hb hloads hel he hs
  have hrow : ∀ s n t e c, A s n t = some (e, c) → 0 < e ∧ e ≤ S1.nDofs := by
    intro s n t e c ha
    have hr : (s, n, t) ∈ regKeys calls := (hb.prep.ready.isSome (s, n, t)).mp (by
      show (A s n t).isSome = true
      rw [ha]; rfl)
    have h1 := hb.prep.ready.num_range hr
    have h2 : Storage.num A (s, n, t) = e := by
      unfold Storage.num at'
      rw [ha]; rfl
    rw [h2] at h1
    omega
  have hal := hk.alike
  refine ⟨⟨?_, ?_, ?_⟩, ?_⟩
  · rw [hal]
    exact hb.prep.ready.sim.congr rfl rfl rfl rfl
  · intro a n t q c ha
    have := hrow a n t q c ha
    have := hk.sizes.1
    omega
  · intro a n t q c ha
    have := hrow a n t q c ha
    have := hk.sizes.2.1
    omega
  · rw [hal]
    exact hb.prep.ready.mesh.nNodes

/-- A processor whose `process` does not fail: its nodes exist and it has a history for each DoF. -/
def Good (N : Nat) : Option (Proc K) → Prop
  | none => True
  | some P => (∀ n ∈ P.nodes, 0 < n ∧ n ≤ N) ∧ ∃ g, P.sums = P.dofs.map g

theorem good_process (hb : Base S0 S1 calls new fixs num' A) (hloads : ∀ l ∈ loads, keyOf l ∈ regKeys calls)
    (hel : LegalElems el S1 (regKeys calls) num') (he : Exact eqs) {e : E} :
    ∀ s, Reached eqs el loads fixs S1 e s → ∀ k P, Good S0.nNodes P → ∃ P', processStep s.S k P = .ok P' ∧ Good S0.nNodes P' := by
  intro s hs k P hP
  obtain ⟨h1, h2⟩ := solved_reached hb hloads hel he hs
  cases P with
  | none => exact ⟨none, rfl, trivial⟩
  | some P =>
    obtain ⟨h3, g, h4⟩ := hP
    have h5 := Post.runSteps_eq [s.S] k P g (fun S hS => by
      rw [List.mem_singleton] at hS
      subst hS
      exact ⟨h1, fun n hn => by rw [h2]; exact h3 n hn⟩) h4
    unfold runSteps runSteps at h5
    obtain ⟨Q, q1, q2⟩ := Res.bind_eq_ok.mp h5
    rw [Res.ok.injEq] at q2
    refine ⟨some Q, by simp only [processStep, q1, Res.ok_bind], ?_⟩
    rw [q2]
    exact ⟨h3, _, rfl⟩

end Nla3d.Prog
