import Verif.TimeCtl.Props
import Mathlib.Algebra.BigOperators.Group.List.Basic

/-!
# C98: what the time control reports during the equilibrium iterations
-/

namespace Nla3d.TimeCtl

variable {K : Type} [Field K] [LinearOrder K] [IsStrictOrderedRing K]

/-- The values of `f` after each of `k` equilibrium steps. -/
def watch (f : TimeControl K → K) (c : TimeControl K) : Nat → List K
  | 0 => []
  | k + 1 => f c.nextEquilibriumStep :: watch f c.nextEquilibriumStep k

/-- The values of `f` in all equilibrium steps of `rounds`. -/
def watchRounds (f : TimeControl K → K) (delta : K) (its : Nat → Nat) : Nat → Nat → TimeControl K → Res (List K)
  | 0, _, _ => .ok []
  | n + 1, i, c => do
    let r ← c.nextStep delta
    if r.1 then
      let q ← watchRounds f delta its n (i + 1) (equilibrium r.2 (its i))
      .ok (watch f r.2 (its i) ++ q)
    else .ok []

omit [IsStrictOrderedRing K] in
/-- Only the first of the iterations sees the increment. -/
theorem watch_later (f : TimeControl K → K) (hf : ∀ c : TimeControl K, c.curEq ≠ 1 → f c = 0) :
    ∀ (k : Nat) (c : TimeControl K), 0 < c.curEq → c.curEq + k < 65536 → watch f c k = List.replicate k 0 := by
  intro k
  induction k with
  | zero => intro c _ _; rfl
  | succ k ih =>
    intro c h1 h2
    have hc : c.nextEquilibriumStep.curEq = c.curEq + 1 := by
      simp only [TimeControl.nextEquilibriumStep, u16]; omega
    rw [watch, ih _ (by omega) (by omega), hf _ (by omega), List.replicate_succ]

omit [IsStrictOrderedRing K] in
theorem watch_first (f : TimeControl K → K) (hf : ∀ c : TimeControl K, c.curEq ≠ 1 → f c = 0) {c : TimeControl K} (h0 : c.curEq = 0)
    {k : Nat} (hk : 0 < k) (hk' : k < 65536) : watch f c k = f c.nextEquilibriumStep :: List.replicate (k - 1) 0 := by
  obtain ⟨k, rfl⟩ : ∃ m, k = m + 1 := ⟨k - 1, by omega⟩
  have hc : c.nextEquilibriumStep.curEq = 1 := by
    simp only [TimeControl.nextEquilibriumStep, u16, h0]
  rw [watch, watch_later f hf _ _ (by omega) (by omega)]
  rfl

omit [Field K] [LinearOrder K] [IsStrictOrderedRing K] in
theorem equilibrium_total (k : Nat) : ∀ c : TimeControl K, c.totalEq = u16 c.totalEq →
    (equilibrium c k).totalEq = u16 (c.totalEq + k) := by
  induction k with
  | zero => intro c h; exact h
  | succ k ih =>
    intro c h
    show (equilibrium c.nextEquilibriumStep k).totalEq = _
    rw [ih _ (by simp only [TimeControl.nextEquilibriumStep, u16, Nat.mod_mod])]
    simp only [TimeControl.nextEquilibriumStep, u16]
    omega

/-- The rounds from any state: sums of the reported increments, and the counters. -/
theorem watched {delta : K} (hd : 0 < delta) (its : Nat → Nat) (hits : ∀ i, 0 < its i ∧ its i < 65536) :
    ∀ (n i : Nat) (c : TimeControl K), c.totalEq = u16 c.totalEq →
    ∃ ts fin c' l l', rounds delta its n i c = .ok (ts, fin, c') ∧
      watchRounds TimeControl.currentDelta delta its n i c = .ok l ∧ l.sum = c'.time - c.time ∧
      watchRounds TimeControl.normalizedDelta delta its n i c = .ok l' ∧ l'.sum = (c'.time - c.time) / (c.endTime - c.startTime) ∧
      c'.endTime = c.endTime ∧ c'.startTime = c.startTime ∧
      c'.totalEq = u16 (c.totalEq + ((List.range' i ts.length).map its).sum) ∧
      (fin = true → c'.converged = c.record.converged ++ ts) := by
  intro n
  induction n with
  | zero =>
    intro i c ht
    exact ⟨[], false, c, [], [], rfl, rfl, by simp, rfl, by simp, rfl, rfl, by simpa using ht, by simp⟩
  | succ n ih =>
    intro i c ht
    obtain ⟨r1, r2, r3⟩ := record_fields c
    have rt : c.record.totalEq = c.totalEq := by unfold TimeControl.record; split <;> rfl
    by_cases hend : c.endTime ≤ c.time
    · have hstep : c.nextStep delta = .ok (false, c.record) := by
        unfold TimeControl.nextStep
        simp only [r1, r2]
        rw [if_pos hend]
      refine ⟨[], true, c.record, [], [], ?_, ?_, by simp [r2], ?_, by simp [r2], r1, r3, ?_, ?_⟩
      · simp only [rounds, hstep, Res.ok_bind, Bool.false_eq_true, if_false]
      · simp only [watchRounds, hstep, Res.ok_bind, Bool.false_eq_true, if_false]
      · simp only [watchRounds, hstep, Res.ok_bind, Bool.false_eq_true, if_false]
      · rw [rt]; simpa using ht
      · simp
    · have hlt := not_le.mp hend
      have hstep : c.nextStep delta = .ok (true, advance c delta) := by
        unfold TimeControl.nextStep
        simp only [r1, r2]
        rw [if_neg hend, if_pos (choose_pos hd hlt)]
        simp only [advance, r1]
      obtain ⟨c1, e1, e2, e3, e4, e5, e6, _⟩ := round_true (c := c) hd hlt (hits i).1 (hits i).2
      rw [hstep, Res.ok.injEq, Prod.mk.injEq] at e1
      obtain ⟨_, rfl⟩ := e1
      have hat : (advance c delta).totalEq = c.totalEq := rt
      have htot := equilibrium_total (its i) (advance c delta) (by rw [hat]; exact ht)
      rw [hat] at htot
      obtain ⟨ts, fin, c', l, l', h1, h2, h3, h4, h5, h6, h7, h8, h9⟩ :=
        ih (i + 1) (equilibrium (advance c delta) (its i)) (by rw [htot]; simp only [u16, Nat.mod_mod])
      rw [e3, e2] at h3 h5
      rw [e4, e5] at h5
      have hw : ∀ f : TimeControl K → K, (∀ c : TimeControl K, c.curEq ≠ 1 → f c = 0) →
          (watch f (advance c delta) (its i)).sum = f (advance c delta).nextEquilibriumStep := by
        intro f hf
        rw [watch_first f hf rfl (hits i).1 (hits i).2]
        simp
      have hcur : (advance c delta).nextEquilibriumStep.curEq = 1 := rfl
      refine ⟨(advance c delta).time :: ts, fin, c', watch TimeControl.currentDelta (advance c delta) (its i) ++ l,
        watch TimeControl.normalizedDelta (advance c delta) (its i) ++ l', ?_, ?_, ?_, ?_, ?_, h6.trans e4, h7.trans e5, ?_, ?_⟩
      · rw [rounds, hstep]
        simp only [Res.ok_bind, if_true]
        rw [h1]; rfl
      · rw [watchRounds, hstep]
        simp only [Res.ok_bind, if_true]
        rw [h2]; rfl
      · rw [List.sum_append, hw TimeControl.currentDelta (fun c hc => if_neg hc), h3]
        unfold TimeControl.currentDelta
        rw [if_pos hcur]
        show choose c.time c.endTime delta + _ = _
        ring
      · rw [watchRounds, hstep]
        simp only [Res.ok_bind, if_true]
        rw [h4]; rfl
      · rw [List.sum_append, hw TimeControl.normalizedDelta (fun c hc => if_neg hc), h5]
        unfold TimeControl.normalizedDelta
        rw [if_pos hcur]
        show choose c.time c.endTime delta / (c.record.endTime - c.record.startTime) + _ = _
        rw [r1, r3, ← add_div]
        congr 1
        ring
      · rw [h8, htot, List.length_cons, List.range'_succ, List.map_cons, List.sum_cons]
        simp only [u16]
        omega
      · intro hfin
        rw [h9 hfin, e6, List.append_assoc]
        rfl

/-- **C98.** However many load steps have been made from the start, with any numbers (1 to 65535) of equilibrium iterations: the
increments of time reported in the iterations add up to the current time, the normalised ones to the normalised time; the counters
give the numbers of all iterations and, at the end, of converged steps (modulo 65536). -/
theorem C98_increments {delta e : K} (hd : 0 < delta) (its : Nat → Nat) (hits : ∀ i, 0 < its i ∧ its i < 65536) (n : Nat) :
    ∃ ts fin c l l', rounds delta its n 0 (TimeControl.fresh.setEndTime e) = .ok (ts, fin, c) ∧
      watchRounds TimeControl.currentDelta delta its n 0 (TimeControl.fresh.setEndTime e) = .ok l ∧ l.sum = c.time ∧
      watchRounds TimeControl.normalizedDelta delta its n 0 (TimeControl.fresh.setEndTime e) = .ok l' ∧ l'.sum = c.normalized ∧
      c.totalEq = u16 ((List.range ts.length).map its).sum ∧ (fin = true → c.nConverged = u16 ts.length) := by
  obtain ⟨ts, fin, c, l, l', h1, h2, h3, h4, h5, h6, h7, h8, h9⟩ := watched hd its hits n 0 (TimeControl.fresh.setEndTime e) rfl
  refine ⟨ts, fin, c, l, l', h1, h2, ?_, h4, ?_, ?_, ?_⟩
  · rw [h3]
    show c.time - 0 = _
    rw [sub_zero]
  · rw [h5]
    unfold TimeControl.normalized
    rw [h6, h7]
    rfl
  · rw [h8, List.range_eq_range', show (TimeControl.fresh.setEndTime e : TimeControl K).totalEq = 0 from rfl, Nat.zero_add]
  · intro hf
    unfold TimeControl.nConverged
    rw [h9 hf]
    rfl

/-- C98 at the end of a run: the increments add up to the end time, the normalised increments to one. -/
theorem C98_total [Archimedean K] {delta e : K} (hd : 0 < delta) (he : 0 < e) (its : Nat → Nat)
    (hits : ∀ i, 0 < its i ∧ its i < 65536) : ∃ N, ∀ n, N < n → ∃ ts c l l',
      rounds delta its n 0 (TimeControl.fresh.setEndTime e) = .ok (ts, true, c) ∧ ts.length = N ∧
      watchRounds TimeControl.currentDelta delta its n 0 (TimeControl.fresh.setEndTime e) = .ok l ∧ l.sum = e ∧
      watchRounds TimeControl.normalizedDelta delta its n 0 (TimeControl.fresh.setEndTime e) = .ok l' ∧ l'.sum = 1 ∧
      c.nConverged = u16 N ∧ c.totalEq = u16 ((List.range N).map its).sum := by
  obtain ⟨ts, _, _, _, _, _, h6⟩ := C23_time_steps hd he its hits
  refine ⟨ts.length, fun n hn => ?_⟩
  obtain ⟨c', q1, _, _, q4⟩ := h6 n hn
  obtain ⟨ts', fin, c, l, l', h1, h2, h3, h4, h5, h7, h8⟩ := C98_increments (e := e) hd its hits n
  rw [q1, Res.ok.injEq, Prod.mk.injEq, Prod.mk.injEq] at h1
  obtain ⟨rfl, rfl, rfl⟩ := h1
  refine ⟨ts, c', l, l', q1, rfl, h2, h3.trans q4, h4, ?_, h8 rfl, h7⟩
  obtain ⟨_, _, c2, _, _, g1, _, _, _, _, g6, g7, _⟩ := watched hd its hits n 0 (TimeControl.fresh.setEndTime e) rfl
  rw [q1, Res.ok.injEq, Prod.mk.injEq, Prod.mk.injEq] at g1
  obtain ⟨_, _, rfl⟩ := g1
  rw [h5]
  unfold TimeControl.normalized
  rw [q4, g6, g7]
  show (e - 0) / (e - 0) = 1
  rw [sub_zero, div_self he.ne']

/-- Three steps of one, two and three iterations to the time 5/2. -/
example : watchRounds TimeControl.currentDelta (1 : ℚ) (fun i => i + 1) 4 0 (TimeControl.fresh.setEndTime (5 / 2)) =
    .ok [1, 3 / 4, 0, 3 / 4, 0, 0] := by
  norm_num [watchRounds, watch, equilibrium, TimeControl.nextStep, TimeControl.record, choose, TimeControl.setEndTime, TimeControl.fresh,
    TimeControl.nextEquilibriumStep, TimeControl.currentDelta, u16]

end Nla3d.TimeCtl
