import Verif.Rigid.Example

/-!
# C99: small angles

Between 0 and `1e-3` the code uses the first terms of series. There the iterations are not Newton steps on the rigid-body condition.
-/

namespace Nla3d.Rigid

open Nla3d.Dof Nla3d.Block Nla3d.Sparse Nla3d.Storage Nla3d.TimeCtl Nla3d.Solver
open scoped Matrix

noncomputable section

/-- What the matrix of the code is off, for a vector perpendicular to the axis. -/
theorem small_off {th a : Fin 3 → ℝ} (h : norm3 th < 1.0e-3) (hp : th ⬝ᵥ a = 0) (i : Fin 3) :
    ∑ j, (rot th i j - rodM th i j) * a j = (1 - Real.sin (norm3 th) / norm3 th) * (th ⨯₃ a) i := by
  have hq : th 0 * a 0 + th 1 * a 1 + th 2 * a 2 = 0 := by
    simpa [dotProduct, Fin.sum_univ_three] using hp
  have hr : ∀ j, rot th i j - rodM th i j = (1 - Real.sin (norm3 th) / norm3 th) * crossM th i j +
      (1 / 2 - (1 - Real.cos (norm3 th)) / (norm3 th * norm3 th)) * th i * th j := by
    intro j
    rw [rot_eq, rodMat_apply, rodM_eq, consts_small h]
    simp only [Matrix.cons_val_zero, Matrix.cons_val_one]
    norm_num
    ring
  have hx : (th ⨯₃ a) i = ∑ j, crossM th i j * a j := by
    rw [cross_apply, Fin.sum_univ_three]
    fin_cases i <;> simp [crossM, leviCivita] <;> ring
  rw [hx]
  simp only [hr, Fin.sum_univ_three]
  linear_combination (1 / 2 - (1 - Real.cos (norm3 th)) / (norm3 th * norm3 th)) * th i * hq

theorem sinc_lt {t : ℝ} (h : 0 < t) : 0 < 1 - Real.sin t / t := by
  have := Real.sin_lt h
  rw [sub_pos, div_lt_one h]
  exact this

section
variable {E : Type} {S0 S1 : Storage ℝ} {calls : List RegCall} {new : List (Mpc ℝ)} {loads fixs : List (Bc ℝ)}
    {num : Key → Nat} {el : Elems E ℝ} {eqs : EqSolver ℝ} {bodies : List RigidBody} {pos : Nat → Fin 3 → ℝ}

/-- **C99, negation for small angles.** An iteration of any model that starts with the master node turned by an angle between 0 and
`1e-3` and does not change the turn is not a step of Newton's method for a slave node on an arm perpendicular to the axis, in the
directions in which the node moves with the turn; the node ends off the place where the rigid motion takes it. -/
theorem C99_newton_violated (h : Problem S0 calls new loads fixs el) (he : Exact eqs) (hb : HasBodies S0 new el bodies pos)
    (hp : S0.prepare calls new (fixKeys fixs) = .ok S1) (hn : ∀ k ∈ regKeys calls, S1.eqNumber k.1 k.2.1 k.2.2 = .ok (num k))
    {e : E} {s s' : NState E ℝ} (hs : Reached eqs el loads fixs S1 e s) (hit : iteration eqs el loads fixs s = .ok s')
    {r : RigidBody} (hr : r ∈ bodies) {n : Nat} (hsl : n ∈ r.slaves) {i : Fin 3} (hi : transl i ∈ r.dofs)
    (h0 : 0 < norm3 (theta (values num s.S) r.master)) (h1 : norm3 (theta (values num s.S) r.master) < 1.0e-3)
    (hv : theta (steps num s') r.master = 0) (hperp : theta (values num s.S) r.master ⬝ᵥ (pos n - pos r.master) = 0)
    (hc : (theta (values num s.S) r.master ⨯₃ (pos n - pos r.master)) i ≠ 0) :
    ¬ HasDerivAt (fun τ : ℝ => offset pos r.master n (values num s.S + τ • steps num s') i)
        (-offset pos r.master n (values num s.S) i) 0 ∧
      offset pos r.master n (values num s'.S) i ≠ 0 := by
  obtain ⟨⟨b, q, g1⟩, g2⟩ := row h he hb hp hn hs hit hr hsl hi
  have hoff : offset pos r.master n (values num s.S + steps num s') i ≠ 0 := by
    rw [offset_after g1, hv]
    have := small_off (a := pos n - pos r.master) h1 hperp i
    simp only [Pi.sub_apply] at this
    simp only [Pi.zero_apply, mul_zero, Finset.sum_const_zero, add_zero]
    rw [this]
    exact mul_ne_zero (sinc_lt h0).ne' hc
  refine ⟨fun hd => hoff ?_, ?_⟩
  · have hlin : ∀ τ : ℝ, offset pos r.master n (values num s.S + τ • steps num s') i =
        offset pos r.master n (values num s.S) i + τ * (steps num s' n (transl i) - steps num s' r.master (transl i)) := by
      intro τ
      rw [offset_rodM, offset_rodM, theta_add, hv, smul_zero, add_zero]
      simp only [Pi.add_apply, Pi.smul_apply, smul_eq_mul]
      ring
    have hd2 : HasDerivAt (fun τ : ℝ => offset pos r.master n (values num s.S + τ • steps num s') i)
        (steps num s' n (transl i) - steps num s' r.master (transl i)) 0 := by
      simp only [hlin]
      simpa using ((hasDerivAt_id (0 : ℝ)).mul_const (steps num s' n (transl i) - steps num s' r.master (transl i))).const_add
        (offset pos r.master n (values num s.S) i)
    have := hd.unique hd2
    have h1 := hlin 1
    rw [one_smul, one_mul] at h1
    rw [h1, ← this]
    ring
  · rw [offset_reg h hb hr hsl hi (u := values num s'.S) (v := values num s.S + steps num s') g2]
    exact hoff

end

/-- A model that meets the hypotheses: the lever, turned by any angle between 0 and `1e-3`, in the second iteration. -/
theorem C99_lever_violated {y z : ℝ} (h0 : 0 < z) (h1 : z < 1.0e-3) :
    ∃ (S1 : Storage ℝ) (num : Key → Nat) (s s' : NState Unit ℝ),
      leverS.prepare leverCalls (made lever) (fixKeys (leverFix y z)) = .ok S1 ∧
      (∀ k ∈ regKeys leverCalls, S1.eqNumber k.1 k.2.1 k.2.2 = .ok (num k)) ∧
      Reached Gauss.solveEquations leverE [⟨2, .UY, 5⟩] (leverFix y z) S1 () s ∧
      iteration Gauss.solveEquations leverE [⟨2, .UY, 5⟩] (leverFix y z) s = .ok s' ∧
      ¬ HasDerivAt (fun τ : ℝ => offset leverPos 1 2 (values num s.S + τ • steps num s') 1) (-offset leverPos 1 2 (values num s.S) 1) 0 ∧
      offset leverPos 1 2 (values num s'.S) 1 ≠ 0 := by
  have hprob := lever_problem y z
  obtain ⟨S1, num, hp, hn⟩ := prepare_small hprob.legal (by rw [lever_keys]; decide) (by rw [lever_made]; decide)
  -- the time control after `nextStep`, with one load step from 0 to 1
  have hr0 := Reached.start (eqs := Gauss.solveEquations) (el := leverE) (loads := [⟨2, .UY, 5⟩]) (fixs := leverFix y z) (S1 := S1)
    (e := ()) (⟨[], [], 0, 0, 1, 1, 0, 1⟩ : TimeControl ℝ)
  obtain ⟨s1, i1⟩ := lever_go hp hn hr0
  have hr1 := Reached.iter hr0 i1
  obtain ⟨s2, i2⟩ := lever_go hp hn hr1
  have step : ∀ {s s' : NState Unit ℝ}, Reached Gauss.solveEquations leverE [⟨2, .UY, 5⟩] (leverFix y z) S1 () s →
      iteration Gauss.solveEquations leverE [⟨2, .UY, 5⟩] (leverFix y z) s = .ok s' → s.tc.normalized = 1 →
      s'.tc.normalized = 1 ∧ theta (values num s'.S) 1 = ![0, 0, z] := by
    intro s s' hr hit ht
    obtain ⟨_, hor⟩ := C21_iteration hprob gauss_exact hp hn hr
    rcases hor with ⟨hf, _⟩ | ⟨s'', g1, hbk, hsv⟩
    · rw [hit] at hf; simp at hf
    rw [hit, Res.ok.injEq] at g1
    subst g1
    have hn1 : s'.tc.normalized = 1 := by
      rw [hsv.tc]
      exact ht
    have hl : lastTime s'.trace = 1 := by rw [hsv.trace, lastTime_append, hn1]
    refine ⟨hn1, ?_⟩
    have f : ∀ d x, (Side.node, 1, d) ∈ regKeys leverCalls → lastFix (.node, 1, d) (leverFix y z) = some x → values num s'.S 1 d = x := by
      intro d x hk hx
      unfold values
      rw [hbk.fixed _ hk x hx, hl, one_mul]
    funext k
    fin_cases k
    · exact f .ROTX 0 (by decide) (by simp [lastFix, leverFix, keyOf])
    · exact f .ROTY 0 (by decide) (by simp [lastFix, leverFix, keyOf])
    · exact f .ROTZ z (by decide) (by simp [lastFix, leverFix, keyOf])
  have t0 : ((⟨[], [], 0, 0, 1, 1, 0, 1⟩ : TimeControl ℝ)).normalized = 1 := by norm_num [TimeControl.normalized]
  obtain ⟨a1, a2⟩ := step hr0 i1 t0
  obtain ⟨_, b2⟩ := step hr1 i2 a1
  have hst := (row hprob gauss_exact lever_bodies hp hn hr1 i2 (r := lever) (by simp) (n := 2) (by simp [lever]) (i := 1)
    (by simp [lever, transl])).2
  have hv : theta (steps num s2) 1 = 0 := by
    have key : theta (values num s2.S) 1 = theta (values num s1.S) 1 + theta (steps num s2) 1 := by
      unfold theta
      rw [hst 1 .ROTX (by decide), hst 1 .ROTY (by decide), hst 1 .ROTZ (by decide)]
      simp
    rw [a2, b2] at key
    exact left_eq_add.mp key
  have hnorm : norm3 ![0, 0, z] = z := by
    simp [norm3, Real.sqrt_mul_self h0.le]
  refine ⟨S1, num, s1, s2, hp, hn, hr1, i2, ?_⟩
  refine C99_newton_violated hprob gauss_exact lever_bodies hp hn hr1 i2 (r := lever) (by simp) (n := 2) (by simp [lever]) (i := 1)
    (by simp [lever, transl]) ?_ ?_ hv ?_ ?_
  · show 0 < norm3 (theta (values num s1.S) 1)
    rw [a2, hnorm]; exact h0
  · show norm3 (theta (values num s1.S) 1) < _
    rw [a2, hnorm]; exact h1
  · show theta (values num s1.S) 1 ⬝ᵥ _ = 0
    rw [a2]
    simp [dotProduct, Fin.sum_univ_three, leverPos, lever]
  · show (theta (values num s1.S) 1 ⨯₃ _) 1 ≠ 0
    rw [a2, cross_apply]
    simp [leverPos, lever, h0.ne']

end

end Nla3d.Rigid
