import Verif.Rigid.Small
import Mathlib.Analysis.Complex.Trigonometric

/-!
# C99: prescribed rotations

The convergence test looks at the increments of the unknowns only. With a prescribed rotation of the master node a solution can end
after its first iteration, when the slave node is where the linearised motion takes it.
-/

namespace Nla3d.Rigid

open Nla3d.Dof Nla3d.Block Nla3d.Sparse Nla3d.Storage Nla3d.TimeCtl Nla3d.Solver
open scoped Matrix

noncomputable section

theorem norm_z : norm3 ![0, 0, 1] = 1 := by simp [norm3]

theorem sin_one_bound : Real.sin 1 ≤ 9 / 10 := by
  have h := Real.sin_bound (x := 1) (by norm_num)
  have := (abs_le.mp h).2
  norm_num at this
  linarith

/-- **C99, negation for prescribed rotations.** The lever, whose master node is moved by -3 and turned by 1: for every number of
iterations and every criterion up to 1/100 the solution ends without an error, and the slave node is farther from its place than
the bound of `C99_solution` says. Only the hypothesis on the rotations is not met. -/
theorem C99_prescribed_violated {cc : ℝ} (h0 : 0 < cc) (h1 : cc ≤ 1 / 100) (nIter inner fuel : Nat) :
    ∃ (S1 : Storage ℝ) (num : Key → Nat) (s : NState Unit ℝ) (seen : List Nat),
      leverS.prepare leverCalls (made lever) (fixKeys (leverFix (-3) 1)) = .ok S1 ∧
      (∀ k ∈ regKeys leverCalls, S1.eqNumber k.1 k.2.1 k.2.2 = .ok (num k)) ∧
      nonlinearSolve Gauss.solveEquations leverE [⟨2, .UY, 5⟩] (leverFix (-3) 1) ⟨nIter, 1, cc⟩ (TimeControl.fresh.setEndTime 1)
        leverCalls (made lever) leverS () (inner + 1) (fuel + 2) = some (.ok (s, seen)) ∧
      (1e-9 + 54 * (cc * cc * S1.nUnknown)) * arm leverPos 1 2 < |offset leverPos 1 2 (values num s.S) 1| := by
  have hprob := lever_problem (-3) 1
  obtain ⟨S1, num, hp, hn⟩ := prepare_small hprob.legal (by rw [lever_keys]; decide) (by rw [lever_made]; decide)
  obtain ⟨A, hbase⟩ := base_of_prepare hprob.legal hp hn
  obtain ⟨c1, c2, c3, c4, ht, n7, hfix, _⟩ := lever_sizes hp hn
  -- the first load step
  let tc0 : TimeControl ℝ := TimeControl.fresh.setEndTime 1
  obtain ⟨r1, r2, r3⟩ := record_fields tc0
  have hch : TimeCtl.choose tc0.time tc0.endTime 1 = 1 :=
    choose_exact (m := 0) one_pos (by simp [tc0, TimeControl.setEndTime, TimeControl.fresh])
  have hns : tc0.nextStep 1 = .ok (true, advance tc0 1) := by
    unfold TimeControl.nextStep advance
    simp only
    rw [r1, r2, if_neg (by simp [tc0, TimeControl.setEndTime, TimeControl.fresh]), hch, if_pos one_pos]
  have htime : (advance tc0 1).time = 1 := by
    show tc0.time + TimeCtl.choose tc0.time tc0.endTime 1 = _
    rw [hch]
    simp [tc0, TimeControl.setEndTime, TimeControl.fresh]
  have hnorm : (advance tc0 1).normalized = 1 := by
    unfold TimeControl.normalized
    rw [htime]
    show (_ - tc0.record.startTime) / (tc0.record.endTime - tc0.record.startTime) = _
    rw [r1, r3]
    simp [tc0, TimeControl.setEndTime, TimeControl.fresh]
  have hr0 := Reached.start (eqs := Gauss.solveEquations) (el := leverE) (loads := [⟨2, .UY, 5⟩]) (fixs := leverFix (-3) 1) (S1 := S1)
    (e := ()) (advance tc0 1)
  obtain ⟨s1, i1⟩ := lever_go hp hn hr0
  have hr1 := Reached.iter hr0 i1
  obtain ⟨_, hor⟩ := C21_iteration hprob gauss_exact hp hn hr0
  rcases hor with ⟨hf, _⟩ | ⟨s'', g1, hbk, hsv⟩
  · rw [i1] at hf; simp at hf
  rw [i1, Res.ok.injEq] at g1
  subst g1
  have hl : lastTime s1.trace = 1 := by
    rw [hsv.trace, lastTime_append, hsv.tc]
    exact hnorm
  have f : ∀ d x, (Side.node, 1, d) ∈ regKeys leverCalls → lastFix (.node, 1, d) (leverFix (-3) 1) = some x →
      values num s1.S 1 d = x := by
    intro d x hk hx
    unfold values
    rw [hbk.fixed _ hk x hx, hl, one_mul]
  have hz : ∀ n d, values num S1 n d = 0 := by
    intro n d
    unfold values
    rw [hbase.U]
    unfold comp
    exact getD_replicate _ _
  obtain ⟨⟨b, q, hrow⟩, hst⟩ := row hprob gauss_exact lever_bodies hp hn hr0 i1 (r := lever) (by simp) (n := 2) (by simp [lever])
    (i := 1) (by simp [lever, transl])
  have hst' : ∀ k d, (Side.node, k, d) ∈ regKeys leverCalls → steps num s1 k d = values num s1.S k d := by
    intro k d hk
    have := hst k d hk
    rw [this]
    show _ = values num S1 k d + _
    rw [hz, zero_add]
  have hth1 : theta (values num s1.S) 1 = ![0, 0, 1] := by
    funext k
    fin_cases k
    · exact f .ROTX 0 (by decide) (by simp [lastFix, leverFix, keyOf])
    · exact f .ROTY 0 (by decide) (by simp [lastFix, leverFix, keyOf])
    · exact f .ROTZ 1 (by decide) (by simp [lastFix, leverFix, keyOf])
  have hthv : theta (steps num s1) 1 = ![0, 0, 1] := by
    rw [← hth1]
    unfold theta
    rw [hst' 1 .ROTX (by decide), hst' 1 .ROTY (by decide), hst' 1 .ROTZ (by decide)]
  have hth0 : theta (values num S1) 1 = 0 := by
    funext k
    fin_cases k <;> exact hz _ _
  have hu : steps num s1 2 .UY = 0 := by
    have h := offset_after hrow
    have hz1 : (values num S1 + steps num s1) 2 (transl 1) = steps num s1 2 .UY := by
      show values num S1 2 (transl 1) + steps num s1 2 (transl 1) = _
      rw [hz, zero_add]; rfl
    have hz2 : (values num S1 + steps num s1) 1 (transl 1) = -3 := by
      show values num S1 1 (transl 1) + steps num s1 1 (transl 1) = _
      rw [hz, zero_add]
      exact (hst' 1 .UY (by decide)).trans (f .UY (-3) (by decide) (by simp [lastFix, leverFix, keyOf]))
    have hta : theta (values num S1 + steps num s1) 1 = theta (values num S1) 1 + theta (steps num s1) 1 := by
      have := theta_add (values num S1) (steps num s1) 1 1
      simpa using this
    have h2 : offset leverPos 1 2 (values num S1 + steps num s1) 1 = _ := h
    rw [offset_rodM, hz1, hz2, hta] at h2
    have hR : ∀ j, rot 0 1 j = delta 1 j := by
      intro j
      rw [rot_eq, rodMat_apply]
      simp [norm3, crossM]
    have hC : ∀ j, ∑ l, cDeriv 0 1 j l * (![0, 0, 1] : Fin 3 → ℝ) l = leviCivita 1 2 j := by
      intro j
      simp [cDeriv, Fin.sum_univ_three, norm3, consts_small (show (0 : ℝ) < 1.0e-3 by norm_num)]
    have h3 : theta (values num S1) lever.master = 0 := hth0
    have h4 : theta (steps num s1) lever.master = ![0, 0, 1] := hthv
    simp only [h3, h4, hth0, hthv, hR, hC, Fin.sum_univ_three] at h2
    simp [leverPos, delta, leviCivita, lever] at h2
    linarith
  have hv2 : values num s1.S 2 .UY = 0 := by rw [← hst' 2 .UY (by decide), hu]
  have hacc : Accepted cc S1 s1.deltaU := by
    have hd0 : comp s1.deltaU 7 = 0 := by
      unfold steps at hu
      rw [n7] at hu
      exact hu
    have hlen := hbk.sizes.2.2
    rw [c3, c4] at hlen
    have hseg : unknowns S1 s1.deltaU = [comp s1.deltaU 7] := by
      unfold unknowns seg comp
      rw [c1, c2]
      match hq : s1.deltaU, hlen with
      | [_, _, _, _, _, _, a, b], _ => simp
    unfold Accepted meanAbs
    rw [hseg, hd0]
    simpa using h0
  have hj : judge (⟨nIter, 1, cc⟩ : Settings ℝ) s1 = .converged := (judge_spec hbk.alike).1.mpr hacc
  have htc : s1.tc.nextStep 1 = .ok (false, s1.tc.record) := by
    obtain ⟨q1, q2, _⟩ := record_fields s1.tc
    unfold TimeControl.nextStep
    simp only
    rw [if_pos]
    rw [q1, q2, hsv.tc]
    show tc0.record.endTime ≤ (advance tc0 1).time
    rw [htime, r1]
    simp [tc0, TimeControl.setEndTime, TimeControl.fresh]
  refine ⟨S1, num, { s1 with tc := s1.tc.record }, [] ++ [s1.tc.currentStep], hp, hn, ?_, ?_⟩
  · unfold nonlinearSolve
    rw [hp]
    have hd : (tc0.endTime - tc0.startTime) / ((1 : Nat) : ℝ) = 1 := by simp [tc0, TimeControl.setEndTime, TimeControl.fresh]
    simp only
    change loadSteps _ _ _ _ _ ((tc0.endTime - tc0.startTime) / ((1 : Nat) : ℝ)) _ _ ⟨S1, (), _, _, tc0, []⟩ [] = _
    rw [hd]
    unfold loadSteps
    simp only [hns]
    unfold loadStep
    have i1' := i1
    simp only [i1', hj]
    unfold loadSteps
    simp only [htc]
  · show _ < |offset leverPos 1 2 (values num s1.S) 1|
    rw [offset_rodM, hth1]
    have e1 : values num s1.S 2 (transl 1) = 0 := hv2
    have e2 : values num s1.S 1 (transl 1) = -3 := f .UY (-3) (by decide) (by simp [lastFix, leverFix, keyOf])
    have e3 : rodM ![0, 0, 1] 1 0 = Real.sin 1 := by
      rw [rodM_eq, norm_z]
      simp [delta, crossM, leviCivita]
    rw [e1, e2, c2]
    simp only [Fin.sum_univ_three, e3]
    have hs := sin_one_bound
    have ha : arm leverPos 1 2 = 3 := by
      simp [arm, leverPos, Fin.sum_univ_three]
    rw [ha]
    have hcc : cc * cc ≤ 1 / 100 * (1 / 100) := mul_le_mul h1 h1 h0.le (by norm_num)
    have hval : (0 - -3 + (leverPos 2 1 - leverPos 1 1) - (Real.sin 1 * (leverPos 2 0 - leverPos 1 0) +
        rodM ![0, 0, 1] 1 1 * (leverPos 2 1 - leverPos 1 1) + rodM ![0, 0, 1] 1 2 * (leverPos 2 2 - leverPos 1 2))) =
        3 - 3 * Real.sin 1 := by
      simp [leverPos]
      ring
    rw [hval, abs_of_pos (by linarith)]
    push_cast
    linarith

end

end Nla3d.Rigid
