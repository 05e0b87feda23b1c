import Verif.Solver.NonlinearProps

/-!
# Load steps that keep to a path
-/

set_option linter.unusedSectionVars false

namespace Nla3d.Solver

open Nla3d.Dof Nla3d.Block Nla3d.Sparse Nla3d.Storage Nla3d.TimeCtl Finset

variable {K : Type} [Field K] [LinearOrder K] [IsStrictOrderedRing K] {E : Type} {S0 S1 : Storage K} {calls : List RegCall}
    {new : List (Mpc K)} {loads fixs : List (Bc K)} {num' : Key → Nat} {A : Side → Spec} {el : Elems E K} {eqs : EqSolver K}

/-- If load step `j + 1` takes every state with `Inv j` to one with `Inv (j + 1)` unless the program stops because of `Q`, the load
steps end with `Inv n` unless the program stops because of `Q`. -/
theorem loadSteps_follow (hb : Base S0 S1 calls new fixs num' A) (hloads : ∀ l ∈ loads, keyOf l ∈ regKeys calls)
    (hel : LegalElems el S1 (regKeys calls) num') (he : Exact eqs) {st : Settings K} (hit : st.nIter < 65536) {e : E}
    {inner : Nat} (hin : max 1 st.nIter ≤ inner) {d : K} (hd : 0 < d) {n : Nat} {Inv : Nat → Storage K → Prop} {Q : Prop}
    (hstep : ∀ j < n, ∀ s, Reached eqs el loads fixs S1 e s → Inv j s.S → s.tc.curEq = 0 → s.tc.normalized = ((j : K) + 1) / n →
      (loadStep eqs el loads fixs st inner s = some .fatal ∧ Q) ∨
      ∃ s', loadStep eqs el loads fixs st inner s = some (.ok s') ∧ Inv (j + 1) s'.S) :
    ∀ (m j fuel : Nat) (s : NState E K) (seen : List Nat), j + m = n → m < fuel → Reached eqs el loads fixs S1 e s →
    s.tc.endTime = (n : K) * d → s.tc.startTime = 0 → s.tc.time = (j : K) * d → s.tc.record.converged.length = j → Inv j s.S →
    (loadSteps eqs el loads fixs st d inner fuel s seen = some .fatal ∧ Q) ∨
    ∃ s' : NState E K, loadSteps eqs el loads fixs st d inner fuel s seen =
        some (.ok (s', seen ++ (List.range' (j + 1) m).map u16)) ∧ Reached eqs el loads fixs S1 e s' ∧ Inv n s'.S := by
  intro m
  induction m with
  | zero =>
    intro j fuel s seen hj hfuel hs h1 h2 h3 h4 hI
    right
    obtain ⟨fuel, rfl⟩ : ∃ f, fuel = f + 1 := ⟨fuel - 1, by omega⟩
    have hns : s.tc.nextStep d = .ok (false, s.tc.record) := by
      obtain ⟨r1, r2, _⟩ := record_fields s.tc
      unfold TimeControl.nextStep
      simp only
      rw [if_pos]
      rw [r1, r2, h1, h3]
      simp at hj
      rw [hj]
    refine ⟨{ s with tc := s.tc.record }, ?_, .time _ hs, ?_⟩
    · unfold loadSteps
      rw [hns]
      simp
    · rw [add_zero] at hj
      subst hj
      exact hI
  | succ m ih =>
    intro j fuel s seen hj hfuel hs h1 h2 h3 h4 hI
    obtain ⟨fuel, rfl⟩ : ∃ f, fuel = f + 1 := ⟨fuel - 1, by omega⟩
    have hn : (n : K) = j + ((m : K) + 1) := by rw [← hj]; push_cast; ring
    have hlt : s.tc.time < s.tc.endTime := by
      rw [h1, h3, hn]
      have : (0 : K) < ((m : K) + 1) * d := by positivity
      linarith
    have hch : TimeCtl.choose s.tc.time s.tc.endTime d = d := choose_exact (m := m) hd (by rw [h1, h3, hn]; ring)
    obtain ⟨r1, r2, r3⟩ := record_fields s.tc
    have hns : s.tc.nextStep d = .ok (true, advance s.tc d) := by
      unfold TimeControl.nextStep advance
      simp only
      rw [r1, r2, if_neg (not_le.mpr hlt), hch, if_pos hd]
    have ht1 : (advance s.tc d).time = ((j : K) + 1) * d := by
      show s.tc.time + TimeCtl.choose s.tc.time s.tc.endTime d = _
      rw [hch, h3]; ring
    have hnorm : (advance s.tc d).normalized = ((j : K) + 1) / n := by
      unfold TimeControl.normalized
      rw [ht1]
      show (_ - s.tc.record.startTime) / (s.tc.record.endTime - s.tc.record.startTime) = _
      rw [r1, r3, h1, h2, sub_zero, sub_zero, mul_div_mul_right _ _ (ne_of_gt hd)]
    rcases hstep j (by omega) { s with tc := advance s.tc d } (.time _ hs) hI rfl hnorm with ⟨f1, hq⟩ | ⟨s', f1, hI'⟩
    · left
      refine ⟨?_, hq⟩
      unfold loadSteps
      rw [hns]
      simp only [f1]
    rcases loadStep_ok hb hloads hel he hit inner { s with tc := advance s.tc d } (.time _ hs)
        (show 0 < max 1 st.nIter by omega) (show max 1 st.nIter ≤ 0 + inner by omega) with
      ⟨f0, _⟩ | ⟨s2, ds, f0, f2, f3, f4, f5, f6, f7⟩
    · rw [f1] at f0; simp at f0
    · rw [f1, Option.some.injEq, Res.ok.injEq] at f0
      subst f0
      have hds : 0 < ds.length := by
        rw [List.length_pos_iff]
        intro h0; obtain ⟨x, hx, _⟩ := f6; rw [h0] at hx; simp at hx
      have hf5 : ds.length ≤ max 1 st.nIter := by
        have : (0 : Nat) + ds.length ≤ max 1 st.nIter := f5
        omega
      obtain ⟨c1, e1, e2, e3, e4, e5, e6, e7⟩ := round_true hd hlt hds (show ds.length < 65536 by omega)
      rw [hns, Res.ok.injEq, Prod.mk.injEq] at e1
      obtain ⟨_, rfl⟩ := e1
      have f4' : s'.tc = equilibrium (advance s.tc d) ds.length := f4
      have hcs : s'.tc.currentStep = u16 (j + 1) := by
        obtain ⟨_, _, _, _, q5, _⟩ := equilibrium_spec ds.length (advance s.tc d) rfl
        unfold TimeControl.currentStep
        rw [f4', q5]
        show u16 (s.tc.record.converged.length + 1) = _
        rw [h4]
      have hone : loadSteps eqs el loads fixs st d inner (fuel + 1) s seen =
          loadSteps eqs el loads fixs st d inner fuel s' (seen ++ [u16 (j + 1)]) := by
        conv_lhs => unfold loadSteps
        rw [hns]
        simp only [f1, hcs]
      rw [hone]
      rcases ih (j + 1) fuel s' (seen ++ [u16 (j + 1)]) (by omega) (by omega) f2 (by rw [f4', e4, h1]) (by rw [f4', e5, h2])
          (by rw [f4', e3, ht1]; push_cast; ring)
          (by rw [f4', e6, List.length_append, h4]; rfl) hI' with g | ⟨s'', g1, g2, g3⟩
      · exact Or.inl g
      · right
        refine ⟨s'', ?_, g2, g3⟩
        rw [g1, List.range'_succ]; simp

/-- The same for a whole nonlinear solution. -/
theorem solution_follow (h : Problem S0 calls new loads fixs el) (he : Exact eqs)
    (hp : S0.prepare calls new (fixKeys fixs) = .ok S1) (hn : ∀ k ∈ regKeys calls, S1.eqNumber k.1 k.2.1 k.2.2 = .ok (num' k))
    {st : Settings K} (hit : st.nIter < 65536) (h0 : 0 < st.nSteps) {tend : K} (hend : 0 < tend) (e : E) {inner fuel : Nat}
    (hin : max 1 st.nIter ≤ inner) (hfuel : st.nSteps < fuel) {Inv : Nat → Storage K → Prop} {Q : Prop} (hI : Inv 0 S1)
    (hstep : ∀ j < st.nSteps, ∀ s, Reached eqs el loads fixs S1 e s → Inv j s.S → s.tc.curEq = 0 →
      s.tc.normalized = ((j : K) + 1) / st.nSteps →
      (loadStep eqs el loads fixs st inner s = some .fatal ∧ Q) ∨
      ∃ s', loadStep eqs el loads fixs st inner s = some (.ok s') ∧ Inv (j + 1) s'.S) :
    (nonlinearSolve eqs el loads fixs st (TimeControl.fresh.setEndTime tend) calls new S0 e inner fuel = some .fatal ∧ Q) ∨
    ∃ s, nonlinearSolve eqs el loads fixs st (TimeControl.fresh.setEndTime tend) calls new S0 e inner fuel =
        some (.ok (s, (List.range' 1 st.nSteps).map u16)) ∧ Reached eqs el loads fixs S1 e s ∧ Inv st.nSteps s.S := by
  obtain ⟨A, hb⟩ := base_of_prepare h.legal hp hn
  have hel := h.elems S1 num' hp hn
  have hnK : (0 : K) < st.nSteps := by exact_mod_cast h0
  have hd : (0 : K) < tend / st.nSteps := by positivity
  have hlen : (TimeControl.fresh.setEndTime tend : TimeControl K).record.converged.length = 0 := by
    simp [TimeControl.record, TimeControl.fresh, TimeControl.setEndTime]
  have hun : nonlinearSolve eqs el loads fixs st (TimeControl.fresh.setEndTime tend) calls new S0 e inner fuel =
      loadSteps eqs el loads fixs st (tend / st.nSteps) inner fuel
        ⟨S1, e, List.replicate S1.nConstr 0, List.replicate (S1.nConstr + S1.nUnknown + S1.nMpc) 0,
          TimeControl.fresh.setEndTime tend, []⟩ [] := by
    unfold nonlinearSolve
    rw [hp]
    simp only
    have : ((TimeControl.fresh.setEndTime tend : TimeControl K).endTime -
        (TimeControl.fresh.setEndTime tend : TimeControl K).startTime) = tend := by
      show tend - 0 = tend
      rw [sub_zero]
    rw [this]
  rw [hun]
  rcases loadSteps_follow (n := st.nSteps) hb h.loads hel he hit hin hd hstep st.nSteps 0 fuel _ [] (by omega) hfuel (.start _)
      (show tend = _ by field_simp) rfl (show (0 : K) = _ by simp) hlen hI with g | ⟨s, g1, g2, g3⟩
  · exact Or.inl g
  · exact Or.inr ⟨s, Eq.trans g1 (by rw [List.nil_append]), g2, g3⟩

end Nla3d.Solver
