import Verif.TimeCtl.Model
import Mathlib.Algebra.Order.Archimedean.Basic
import Mathlib.Data.Rat.Floor
import Mathlib.Tactic.Linarith
import Mathlib.Tactic.Ring
import Mathlib.Tactic.FieldSimp
import Mathlib.Tactic.Positivity

/-!
# C23, C24: time stepping
-/

namespace Nla3d.TimeCtl

variable {K : Type} [Field K] [LinearOrder K] [IsStrictOrderedRing K]

/-! ## The way solvers drive the time control -/

/-- `k` equilibrium steps in a row. -/
def equilibrium (c : TimeControl K) : Nat → TimeControl K
  | 0 => c
  | k + 1 => equilibrium c.nextEquilibriumStep k

/-- At most `n` rounds of `nextStep(delta)` followed, when it returns true, by `its i` equilibrium steps, where `i` counts
the rounds. Result: the times visited, whether `nextStep` returned false, and the final state. -/
def rounds (delta : K) (its : Nat → Nat) : Nat → Nat → TimeControl K → Res (List K × Bool × TimeControl K)
  | 0, _, c => .ok ([], false, c)
  | n + 1, i, c => do
    let r ← c.nextStep delta
    if r.1 then
      let q ← rounds delta its n (i + 1) (equilibrium r.2 (its i))
      .ok (r.2.time :: q.1, q.2)
    else .ok ([], true, r.2)

omit [Field K] [LinearOrder K] [IsStrictOrderedRing K] in
theorem equilibrium_spec (k : Nat) : ∀ c : TimeControl K, c.curEq = u16 c.curEq →
    (equilibrium c k).curEq = u16 (c.curEq + k) ∧ (equilibrium c k).time = c.time ∧
    (equilibrium c k).endTime = c.endTime ∧ (equilibrium c k).startTime = c.startTime ∧
    (equilibrium c k).converged = c.converged ∧ (equilibrium c k).eqSteps = c.eqSteps := by
  induction k with
  | zero => intro c h; exact ⟨h, rfl, rfl, rfl, rfl, rfl⟩
  | succ k ih =>
    intro c h
    obtain ⟨h1, h2, h3, h4, h5, h6⟩ := ih c.nextEquilibriumStep (by
      simp only [TimeControl.nextEquilibriumStep, u16, Nat.mod_mod])
    refine ⟨?_, h2, h3, h4, h5, h6⟩
    show (equilibrium c.nextEquilibriumStep k).curEq = _
    rw [h1]
    simp only [TimeControl.nextEquilibriumStep, u16]
    omega

/-- Consecutive differences of `t :: ts` satisfy `P`. -/
def Diffs (P : K → Prop) : K → List K → Prop
  | _, [] => True
  | t, s :: ts => P (s - t) ∧ Diffs P s ts

theorem choose_pos {t e d : K} (hd : 0 < d) (h : t < e) : 0 < choose t e d := by
  unfold choose
  split
  · linarith
  · split
    · linarith
    · exact hd

theorem choose_le {t e d : K} : choose t e d ≤ d := by
  unfold choose
  split
  · linarith
  · split
    · linarith
    · exact le_refl d

omit [Field K] [LinearOrder K] [IsStrictOrderedRing K] in
theorem record_fields (c : TimeControl K) : c.record.endTime = c.endTime ∧ c.record.time = c.time ∧
    c.record.startTime = c.startTime := by
  unfold TimeControl.record
  split <;> exact ⟨rfl, rfl, rfl⟩

/-- The state after a `nextStep` that returns true. -/
def advance (c : TimeControl K) (d : K) : TimeControl K :=
  { c.record with delta := choose c.time c.endTime d, time := c.time + choose c.time c.endTime d, curEq := 0 }

/-- One round that returns true. -/
theorem round_true {c : TimeControl K} {d : K} {k : Nat} (hd : 0 < d) (h : c.time < c.endTime) (hk : 0 < k)
    (hk' : k < 65536) :
    ∃ c1, c.nextStep d = .ok (true, c1) ∧ c1.time = c.time + choose c.time c.endTime d ∧
      (equilibrium c1 k).time = c1.time ∧ (equilibrium c1 k).endTime = c.endTime ∧
      (equilibrium c1 k).startTime = c.startTime ∧
      (equilibrium c1 k).record.converged = c.record.converged ++ [c1.time] ∧
      (equilibrium c1 k).record.eqSteps = c.record.eqSteps ++ [k] := by
  obtain ⟨r1, r2, r3⟩ := record_fields c
  have hp := choose_pos hd h
  refine ⟨advance c d, ?_, rfl, ?_⟩
  · unfold TimeControl.nextStep
    simp only [r1, r2]
    rw [if_neg (not_le.mpr h), if_pos hp]
    simp only [advance, r1]
  · obtain ⟨h1, h2, h3, h4, h5, h6⟩ := equilibrium_spec k (advance c d) rfl
    have hz : (advance c d).curEq = 0 := rfl
    rw [hz, Nat.zero_add] at h1
    have hcur : 0 < (equilibrium (advance c d) k).curEq := by
      rw [h1]; simp only [u16]; omega
    refine ⟨h2, h3.trans r1, h4.trans r3, ?_, ?_⟩
    · unfold TimeControl.record
      rw [if_pos hcur]
      show _ ++ [_] = _
      rw [h5, h2]
      rfl
    · unfold TimeControl.record
      rw [if_pos hcur]
      show _ ++ [_] = _
      rw [h6, h1]
      simp only [u16]
      rw [Nat.mod_eq_of_lt hk']
      rfl

/-- The whole run from a state with `m` as a bound for the number of steps needed. -/
theorem run (d e : K) (hd : 0 < d) (its : Nat → Nat) (hits : ∀ i, 0 < its i ∧ its i < 65536) :
    ∀ (m i : Nat) (c : TimeControl K), c.endTime = e → c.time < e → e - c.time ≤ m * d →
    ∃ ts : List K, ts ≠ [] ∧ ts.getLast? = some e ∧ Diffs (fun x => 0 < x ∧ x ≤ d) c.time ts ∧
      (d / 2 < e - c.time → Diffs (fun x => d / 2 < x) c.time ts) ∧
      (∀ n, n ≤ ts.length → ∃ c', rounds d its n i c = .ok (ts.take n, false, c') ∧
        c'.startTime = c.startTime ∧ c'.endTime = e) ∧
      (∀ n, ts.length < n → ∃ c', rounds d its n i c = .ok (ts, true, c') ∧
        c'.converged = c.record.converged ++ ts ∧
        c'.eqSteps = c.record.eqSteps ++ (List.range' i ts.length).map its ∧ c'.time = e ∧
        c'.startTime = c.startTime ∧ c'.endTime = e) := by
  intro m
  induction m with
  | zero =>
    intro i c _ h2 h3
    simp only [Nat.cast_zero, zero_mul] at h3
    linarith
  | succ m ih =>
    intro i c h1 h2 h3
    obtain ⟨c1, e1, e2, e3, e4, e5, e6, e7⟩ := round_true (c := c) hd (by rw [h1]; exact h2) (hits i).1 (hits i).2
    rw [h1] at e2 e4
    have hle : choose c.time e d ≤ d := choose_le
    have hpos : 0 < choose c.time e d := choose_pos hd h2
    rw [Nat.cast_add, Nat.cast_one, add_mul, one_mul] at h3
    by_cases hlast : e ≤ c.time + d
    · -- the final step
      have hc : choose c.time e d = e - c.time := by unfold choose; rw [if_pos hlast]
      have ht : c1.time = e := by rw [e2, hc]; ring
      have hstop : ∀ k : Nat, ∃ c', rounds d its (k + 1) (i + 1) (equilibrium c1 (its i)) = .ok ([], true, c') ∧
          c' = (equilibrium c1 (its i)).record := by
        intro k
        refine ⟨_, ?_, rfl⟩
        obtain ⟨r1, r2, _⟩ := record_fields (equilibrium c1 (its i))
        have : (equilibrium c1 (its i)).nextStep d = .ok (false, (equilibrium c1 (its i)).record) := by
          unfold TimeControl.nextStep
          simp only
          rw [if_pos (by rw [r1, r2, e3, e4, ht])]
        simp only [rounds, this, Res.ok_bind, Bool.false_eq_true, if_false]
      refine ⟨[e], by simp, rfl, ⟨⟨by linarith, by linarith⟩, trivial⟩, fun hh => ⟨hh, trivial⟩, ?_, ?_⟩
      · intro n hn
        match n, hn with
        | 0, _ => exact ⟨c, rfl, rfl, h1⟩
        | 1, _ =>
          refine ⟨equilibrium c1 (its i), ?_, e5, e4⟩
          simp only [rounds, e1, Res.ok_bind, if_true]
          rw [ht]; rfl
      · intro n hn
        match n, hn with
        | n + 2, _ =>
          obtain ⟨c', s1, s2⟩ := hstop n
          obtain ⟨r1, r2, r3⟩ := record_fields (equilibrium c1 (its i))
          refine ⟨c', ?_, ?_, ?_, ?_, ?_, ?_⟩
          · rw [rounds, e1]
            simp only [Res.ok_bind, if_true]
            rw [s1, ht]; rfl
          · rw [s2, e6, ht]
          · rw [s2, e7]; rfl
          · rw [s2, r2, e3, ht]
          · rw [s2, r3, e5]
          · rw [s2, r1, e4]
    · -- more steps follow
      have hlast' := not_le.mp hlast
      have hlt : c1.time < e := by
        rw [e2]; linarith
      have hrem : e - c1.time ≤ m * d ∧ d / 2 < e - c1.time ∧ d / 2 < choose c.time e d := by
        rw [e2]
        by_cases h2d : e ≤ c.time + 2 * d
        · have hc : choose c.time e d = (e - c.time) / 2 := by unfold choose; rw [if_neg hlast, if_pos h2d]
          rw [hc]
          have hm : (1 : K) ≤ m := by
            rcases Nat.eq_zero_or_pos m with rfl | hm
            · simp only [Nat.cast_zero, zero_mul] at h3; linarith
            · exact_mod_cast hm
          have : d ≤ m * d := by nlinarith
          refine ⟨by linarith, by linarith, by linarith⟩
        · have hc : choose c.time e d = d := by unfold choose; rw [if_neg hlast, if_neg h2d]
          have h2d' := not_le.mp h2d
          rw [hc]
          refine ⟨by linarith, by linarith, by linarith⟩
      obtain ⟨ts, t1, t3, t4, t5, t6, t7⟩ := ih (i + 1) (equilibrium c1 (its i)) e4 (by rw [e3]; exact hlt)
        (by rw [e3]; exact hrem.1)
      rw [e3] at t4 t5
      have hd1 : c1.time - c.time = choose c.time e d := by rw [e2]; ring
      refine ⟨c1.time :: ts, by simp, ?_, ?_, ?_, ?_, ?_⟩
      · rw [List.getLast?_cons, t3]; rfl
      · exact ⟨by rw [hd1]; exact ⟨hpos, hle⟩, t4⟩
      · intro _
        exact ⟨by rw [hd1]; exact hrem.2.2, t5 hrem.2.1⟩
      · intro n hn
        match n with
        | 0 => exact ⟨c, rfl, rfl, h1⟩
        | n + 1 =>
          obtain ⟨c', q1, q2, q3⟩ := t6 n (by simp only [List.length_cons] at hn; omega)
          refine ⟨c', ?_, q2.trans e5, q3⟩
          rw [rounds, e1]
          simp only [Res.ok_bind, if_true]
          rw [q1]; rfl
      · intro n hn
        match n with
        | 0 => simp at hn
        | n + 1 =>
          obtain ⟨c', q1, q2, q3, q4, q5, q6⟩ := t7 n (by simp only [List.length_cons] at hn; omega)
          refine ⟨c', ?_, ?_, ?_, q4, q5.trans e5, q6⟩
          · rw [rounds, e1]
            simp only [Res.ok_bind, if_true]
            rw [q1]; rfl
          · rw [q2, e6, List.append_assoc]; rfl
          · rw [q3, e7, List.append_assoc]
            rfl

/-- **C23.** With `delta > 0` and end time `e > 0` (start time 0), whatever numbers (1 to 65535) of equilibrium steps are
made in the load steps: there is a finite nonempty list `ts` of times such that as long as at most `ts.length` rounds are
made every `nextStep` returns true and the visited times are the first entries of `ts`, and any further round returns
false, with exactly `ts` recorded as converged times and the iteration counts recorded beside them. The times start
after 0, increase strictly by at most `delta`, end exactly at `e`; every increment exceeds `delta/2` unless the end time
is at most `delta/2` (a single step). -/
theorem C23_time_steps [Archimedean K] {delta e : K} (hd : 0 < delta) (he : 0 < e) (its : Nat → Nat)
    (hits : ∀ i, 0 < its i ∧ its i < 65536) :
    ∃ ts : List K, ts ≠ [] ∧ ts.getLast? = some e ∧ Diffs (fun x => 0 < x ∧ x ≤ delta) 0 ts ∧
      (delta / 2 < e → Diffs (fun x => delta / 2 < x) 0 ts) ∧
      (∀ n, n ≤ ts.length → ∃ c', rounds delta its n 0 (TimeControl.fresh.setEndTime e) = .ok (ts.take n, false, c')) ∧
      (∀ n, ts.length < n → ∃ c', rounds delta its n 0 (TimeControl.fresh.setEndTime e) = .ok (ts, true, c') ∧
        c'.converged = ts ∧ c'.eqSteps = (List.range ts.length).map its ∧ c'.time = e) := by
  obtain ⟨m, hm⟩ := Archimedean.arch e hd
  rw [nsmul_eq_mul] at hm
  obtain ⟨ts, h1, h3, h4, h5, h6, h7⟩ := run delta e hd its hits m 0 (TimeControl.fresh.setEndTime e) rfl he
    (by show e - 0 ≤ _; rw [sub_zero]; exact hm)
  refine ⟨ts, h1, h3, h4, ?_, ?_, ?_⟩
  · intro hh
    exact h5 (by show _ < e - 0; rw [sub_zero]; exact hh)
  · intro n hn
    obtain ⟨c', q, _⟩ := h6 n hn
    exact ⟨c', q⟩
  · intro n hn
    obtain ⟨c', q1, q2, q3, q4, _⟩ := h7 n hn
    refine ⟨c', q1, q2, ?_, q4⟩
    rw [q3, List.range_eq_range']; rfl

theorem Diffs.mono {P : K → Prop} (hP : ∀ x, P x → 0 < x) : ∀ {t : K} {ts : List K}, Diffs P t ts →
    ts.Pairwise (· < ·) ∧ ∀ s ∈ ts, t < s := by
  intro t ts
  induction ts generalizing t with
  | nil => intro _; exact ⟨List.Pairwise.nil, by simp⟩
  | cons s ts ih =>
    intro h
    obtain ⟨h1, h2⟩ := ih h.2
    have := hP _ h.1
    have hts : t < s := by linarith
    refine ⟨List.Pairwise.cons h2 h1, ?_⟩
    intro x hx
    rcases List.mem_cons.mp hx with rfl | hx
    · exact hts
    · exact lt_trans hts (h2 x hx)

omit [Field K] [IsStrictOrderedRing K] in
theorem mem_le_last {ts : List K} (h : ts.Pairwise (· < ·)) {e : K} (he : ts.getLast? = some e) :
    ∀ s ∈ ts, s ≤ e := by
  intro s hs
  obtain ⟨l, rfl⟩ := List.getLast?_eq_some_iff.mp he
  rw [List.pairwise_append] at h
  rcases List.mem_append.mp hs with h1 | h1
  · exact le_of_lt (h.2.2 s h1 e (by simp))
  · rw [List.mem_singleton] at h1; rw [h1]

/-- **C23, in terms of single times.** All visited times are in `(0, e]`, strictly increasing. -/
theorem C23_increasing_within [Archimedean K] {delta e : K} (hd : 0 < delta) (he : 0 < e) (its : Nat → Nat)
    (hits : ∀ i, 0 < its i ∧ its i < 65536) (n : Nat) :
    ∃ ts fin c', rounds delta its n 0 (TimeControl.fresh.setEndTime e) = .ok (ts, fin, c') ∧
      ts.Pairwise (· < ·) ∧ (∀ t ∈ ts, 0 < t ∧ t ≤ e) ∧ (fin = true → e ∈ ts) := by
  obtain ⟨ts, h1, h2, h3, _, h5, h6⟩ := C23_time_steps hd he its hits
  obtain ⟨p1, p2⟩ := h3.mono (fun x hx => hx.1)
  have p3 := mem_le_last p1 h2
  by_cases hn : n ≤ ts.length
  · obtain ⟨c', q⟩ := h5 n hn
    exact ⟨_, _, c', q, p1.sublist (List.take_sublist n ts),
      fun t ht => ⟨p2 t (List.mem_of_mem_take ht), p3 t (List.mem_of_mem_take ht)⟩, by simp⟩
  · obtain ⟨c', q, _⟩ := h6 n (by omega)
    exact ⟨_, _, c', q, p1, fun t ht => ⟨p2 t ht, p3 t ht⟩, fun _ => List.mem_of_getLast? h2⟩

theorem run_exact (d e : K) (hd : 0 < d) (its : Nat → Nat) (hits : ∀ i, 0 < its i ∧ its i < 65536) :
    ∀ (m i : Nat) (c : TimeControl K), c.endTime = e → e = c.time + (m : K) * d →
    ∃ c', rounds d its (m + 1) i c = .ok ((List.range m).map (fun (k : Nat) => c.time + ((k : K) + 1) * d), true, c') := by
  intro m
  induction m with
  | zero =>
    intro i c h1 h2
    obtain ⟨r1, r2, _⟩ := record_fields c
    simp only [Nat.cast_zero, zero_mul, add_zero] at h2
    refine ⟨c.record, ?_⟩
    have : c.nextStep d = .ok (false, c.record) := by
      unfold TimeControl.nextStep
      simp only
      rw [if_pos (by rw [r1, r2, h1, h2])]
    simp only [rounds, this, Res.ok_bind, Bool.false_eq_true, if_false]
    rfl
  | succ m ih =>
    intro i c h1 h2
    rw [Nat.cast_add, Nat.cast_one, add_mul, one_mul] at h2
    have hmd : (0 : K) ≤ m * d := mul_nonneg (Nat.cast_nonneg m) hd.le
    obtain ⟨c1, e1, e2, e3, e4, _⟩ := round_true (c := c) hd (by rw [h1, h2]; linarith) (hits i).1 (hits i).2
    have hc : choose c.time c.endTime d = d := by
      rw [h1, h2]
      unfold choose
      rcases Nat.lt_or_ge m 1 with hm | hm
      · have : m = 0 := by omega
        subst this
        simp only [Nat.cast_zero, zero_mul, zero_add]
        rw [if_pos (le_refl _)]; ring
      · rcases Nat.lt_or_ge m 2 with hm2 | hm2
        · have : m = 1 := by omega
          subst this
          simp only [Nat.cast_one, one_mul]
          rw [if_neg (by linarith), if_pos (by linarith)]; ring
        · have : (2 : K) ≤ m := by exact_mod_cast hm2
          have : 2 * d ≤ m * d := by nlinarith
          rw [if_neg (by linarith), if_neg (by linarith)]
    rw [hc] at e2
    obtain ⟨c', q⟩ := ih (i + 1) (equilibrium c1 (its i)) (e4.trans h1) (by rw [e3, e2, h2]; ring)
    refine ⟨c', ?_⟩
    rw [rounds, e1]
    simp only [Res.ok_bind, if_true]
    rw [q, e3, e2]
    simp only [Res.ok_bind]
    congr 2
    rw [List.range_succ_eq_map, List.map_cons, List.map_map]
    congr 1
    · simp only [Nat.cast_zero, zero_add, one_mul]
    · apply List.map_congr_left
      intro k _
      simp only [Function.comp, Nat.succ_eq_add_one, Nat.cast_add, Nat.cast_one]
      ring

/-- **C23, `delta = end/n`.** Exactly `n` steps are made, at the times `delta, 2 delta, …, n delta = e`. -/
theorem C23_exact_count {e : K} (he : 0 < e) {n : Nat} (hn : 0 < n) (its : Nat → Nat)
    (hits : ∀ i, 0 < its i ∧ its i < 65536) :
    ∃ c', rounds (e / n) its (n + 1) 0 (TimeControl.fresh.setEndTime e) =
      .ok ((List.range n).map (fun (k : Nat) => ((k : K) + 1) * (e / n)), true, c') := by
  have hn' : (0 : K) < n := by exact_mod_cast hn
  obtain ⟨c', h⟩ := run_exact (e / n) e (by positivity) its hits n 0 (TimeControl.fresh.setEndTime e) rfl (by
    show e = 0 + _
    field_simp
    ring)
  refine ⟨c', ?_⟩
  rw [h]
  congr 2
  apply List.map_congr_left
  intro k _
  show (0 : K) + _ = _
  rw [zero_add]

example : (0 : ℚ) < 3/10 ∧ (0 : ℚ) < 1 ∧ (∀ i : Nat, 0 < i + 1 - i ∧ i + 1 - i < 65536) := by
  refine ⟨by norm_num, by norm_num, fun i => by omega⟩

/-- A run with a halved next to last step: 0.3 of 1 gives 0.3, 0.6, 0.8, 1. -/
example : ∃ c', rounds (3/10 : ℚ) (fun _ => 1) 5 0 TimeControl.fresh = .ok ([3/10, 3/5, 4/5, 1], true, c') := by
  refine ⟨?_, ?_⟩
  rotate_left
  · simp only [rounds, TimeControl.nextStep, TimeControl.record, TimeControl.fresh, choose, equilibrium,
      TimeControl.nextEquilibriumStep, u16]
    norm_num
    rfl

omit [IsStrictOrderedRing K] in
/-- **C23, after the end.** Calling `nextStep` again after it returned false records the end time a second time. -/
theorem C23_call_after_end (c : TimeControl K) (d : K) (h : c.endTime ≤ c.time) (hk : 0 < c.curEq) :
    ∃ c1 c2, c.nextStep d = .ok (false, c1) ∧ c1.nextStep d = .ok (false, c2) ∧
      c2.converged = c.converged ++ [c.time, c.time] := by
  have hr : c.record = { c with eqSteps := c.eqSteps ++ [c.curEq], converged := c.converged ++ [c.time] } := by
    unfold TimeControl.record; rw [if_pos hk]
  refine ⟨c.record, c.record.record, ?_, ?_, ?_⟩
  · obtain ⟨r1, r2, _⟩ := record_fields c
    unfold TimeControl.nextStep
    simp only
    rw [if_pos (by rw [r1, r2]; exact h)]
  · obtain ⟨r1, r2, _⟩ := record_fields c
    obtain ⟨q1, q2, _⟩ := record_fields c.record
    unfold TimeControl.nextStep
    simp only
    rw [if_pos (by rw [q1, q2, r1, r2]; exact h)]
  · rw [hr]
    unfold TimeControl.record
    rw [if_pos (show 0 < ({ c with eqSteps := c.eqSteps ++ [c.curEq], converged := c.converged ++ [c.time] } :
      TimeControl K).curEq from hk)]
    simp

example : ∃ c : TimeControl ℚ, c.endTime ≤ c.time ∧ 0 < c.curEq := ⟨⟨[], [], 1, 1, 1, 1, 0, 1⟩, by norm_num⟩

/-! ## C24 -/

/-- **C24 is violated: the start time does not shift the steps.** The visited times do not depend on it. -/
theorem C24_start_ignored {delta e s : K} (hd : 0 < delta) (its : Nat → Nat)
    (hits : ∀ i, 0 < its i ∧ its i < 65536) (n : Nat) :
    ∃ ts fin c1 c2, rounds delta its n 0 (TimeControl.fresh.setEndTime e) = .ok (ts, fin, c1) ∧
      rounds delta its n 0 ((TimeControl.fresh.setStartTime s).setEndTime e) = .ok (ts, fin, c2) := by
  have key : ∀ (n i : Nat) (c c' : TimeControl K), c.time = c'.time → c.endTime = c'.endTime →
      (∃ ts fin c1 c2, rounds delta its n i c = .ok (ts, fin, c1) ∧ rounds delta its n i c' = .ok (ts, fin, c2)) := by
    intro n
    induction n with
    | zero => intro i c c' _ _; exact ⟨[], false, c, c', rfl, rfl⟩
    | succ n ih =>
      intro i c c' h1 h2
      by_cases h : c.time < c.endTime
      · obtain ⟨a, a1, a2, a3, a4, _⟩ := round_true (d := delta) hd h (hits i).1 (hits i).2
        obtain ⟨b, b1, b2, b3, b4, _⟩ := round_true (c := c') (d := delta) hd (by rw [← h1, ← h2]; exact h) (hits i).1
          (hits i).2
        have hab : a.time = b.time := by rw [a2, b2, h1, h2]
        obtain ⟨ts, fin, c1, c2, q1, q2⟩ := ih (i + 1) (equilibrium a (its i)) (equilibrium b (its i))
          (by rw [a3, b3, hab]) (by rw [a4, b4, h2])
        refine ⟨a.time :: ts, fin, c1, c2, ?_, ?_⟩
        · rw [rounds, a1]
          simp only [Res.ok_bind, if_true]
          rw [q1]; rfl
        · rw [rounds, b1]
          simp only [Res.ok_bind, if_true]
          rw [q2, hab]; rfl
      · have stop : ∀ c : TimeControl K, c.endTime ≤ c.time → rounds delta its (n + 1) i c = .ok ([], true, c.record) := by
          intro c hc
          obtain ⟨r1, r2, _⟩ := record_fields c
          have : c.nextStep delta = .ok (false, c.record) := by
            unfold TimeControl.nextStep
            simp only
            rw [if_pos (by rw [r1, r2]; exact hc)]
          simp only [rounds, this, Res.ok_bind, Bool.false_eq_true, if_false]
        exact ⟨[], true, _, _, stop c (not_lt.mp h), stop c' (by rw [← h1, ← h2]; exact not_lt.mp h)⟩
  exact key n 0 _ _ rfl rfl

/-- **C24 is violated.** With a start time `s ≥ delta` the first `nextStep(delta)` leads to a time not after `s`, so the
normalised time is not in `(0, 1]`. -/
theorem C24_first_step_before_start_violated {delta e s : K} (hd : 0 < delta) (hs : delta ≤ s) (hse : s < e) :
    ∃ c, ((TimeControl.fresh.setStartTime s).setEndTime e).nextStep delta = .ok (true, c) ∧ c.time ≤ s ∧
      ¬ 0 < c.normalized := by
  obtain ⟨c, h1, h2, h3, h4, h5, _⟩ := round_true (c := (TimeControl.fresh.setStartTime s).setEndTime e) hd
    (show (0 : K) < e by linarith) (k := 1) (by omega) (by omega)
  have hle : c.time ≤ s := by
    rw [h2]
    have := choose_le (t := ((TimeControl.fresh.setStartTime s).setEndTime e).time)
      (e := ((TimeControl.fresh.setStartTime s).setEndTime e).endTime) (d := delta)
    have h0 : ((TimeControl.fresh.setStartTime s).setEndTime e).time = (0 : K) := rfl
    rw [h0] at this ⊢
    linarith
  refine ⟨c, h1, hle, ?_⟩
  have e1 : c.startTime = s := h5
  have e2 : c.endTime = e := h4
  unfold TimeControl.normalized
  rw [e1, e2, not_lt]
  apply div_nonpos_of_nonpos_of_nonneg <;> linarith

example : (0 : ℚ) < 1/10 ∧ (1/10 : ℚ) ≤ 1 ∧ (1 : ℚ) < 2 := by norm_num

/-- What holds of C24: with start time 0 (the default) the normalised time of every visited step is in `(0, 1]`.
Missing: any other start time. -/
theorem C24_partial [Archimedean K] {delta e : K} (hd : 0 < delta) (he : 0 < e) (its : Nat → Nat)
    (hits : ∀ i, 0 < its i ∧ its i < 65536) (n : Nat) :
    ∃ ts fin c', rounds delta its n 0 ((TimeControl.fresh.setStartTime 0).setEndTime e) = .ok (ts, fin, c') ∧
      ∀ t ∈ ts, 0 < ({ c' with time := t } : TimeControl K).normalized ∧
        ({ c' with time := t } : TimeControl K).normalized ≤ 1 := by
  obtain ⟨m, hm⟩ := Archimedean.arch e hd
  rw [nsmul_eq_mul] at hm
  obtain ⟨ts, h1, h3, h4, h5, h6, h7⟩ := run delta e hd its hits m 0
    ((TimeControl.fresh.setStartTime 0).setEndTime e) rfl he (by show e - 0 ≤ _; rw [sub_zero]; exact hm)
  obtain ⟨p1, p2⟩ := h4.mono (fun x hx => hx.1)
  have p3 := mem_le_last p1 h3
  have fin : ∀ (c' : TimeControl K) (t : K), c'.startTime = 0 → c'.endTime = e → 0 < t → t ≤ e →
      0 < ({ c' with time := t } : TimeControl K).normalized ∧ ({ c' with time := t } : TimeControl K).normalized ≤ 1 := by
    intro c' t a1 a2 a3 a4
    unfold TimeControl.normalized
    simp only [a1, a2, sub_zero]
    exact ⟨by positivity, (div_le_one he).mpr a4⟩
  by_cases hn : n ≤ ts.length
  · obtain ⟨c', q1, q2, q3⟩ := h6 n hn
    refine ⟨_, _, c', q1, fun t ht => fin c' t q2 q3 (p2 t (List.mem_of_mem_take ht)) (p3 t (List.mem_of_mem_take ht))⟩
  · obtain ⟨c', q1, _, _, _, q2, q3⟩ := h7 n (by omega)
    exact ⟨_, _, c', q1, fun t ht => fin c' t q2 q3 (p2 t ht) (p3 t ht)⟩

end Nla3d.TimeCtl
