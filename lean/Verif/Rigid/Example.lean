import Verif.Rigid.Solve

/-!
# A rigid body that meets the hypotheses of C99
-/

namespace Nla3d.Rigid

open Nla3d.Dof Nla3d.Block Nla3d.Sparse Nla3d.Storage Nla3d.TimeCtl Nla3d.Solver

noncomputable section

/-- Node 2 follows node 1 in the direction of `UY`. -/
def lever : RigidBody := ⟨1, [2], [.UY], []⟩

/-- Two nodes, one element. -/
def leverS : Storage ℝ := Storage.fresh 2 [[1, 2]] [] false

def leverCalls : List RegCall := [(.node, 1, [.UX, .UY, .UZ, .ROTX, .ROTY, .ROTZ]), (.node, 2, [.UY])]

/-- Node 2 is at a distance of 3 from node 1. -/
def leverPos : Nat → Fin 3 → ℝ := fun n => if n = 2 then ![3, 0, 0] else 0

/-- Elements without stiffness; the equations of the body are updated. -/
def leverE : Elems Unit ℝ := ⟨fun _ _ => [], fun _ => updRigid [lever] leverPos 0, fun _ _ => [], fun e _ => e⟩

/-- Node 1 is held with a displacement of `y` and a rotation of `z`. -/
def leverFix (y z : ℝ) : List (Bc ℝ) :=
  [⟨1, .UX, 0⟩, ⟨1, .UY, y⟩, ⟨1, .UZ, 0⟩, ⟨1, .ROTX, 0⟩, ⟨1, .ROTY, 0⟩, ⟨1, .ROTZ, z⟩]

def leverSt : Settings ℝ := ⟨1, 1, 2⟩

theorem lever_made : made lever = [withRot 1 2 .UY 0 0 0] := by
  unfold made
  rfl

theorem lever_keys (y z : ℝ) : fixKeys (leverFix y z) = [(.node, 1, .UX), (.node, 1, .UY), (.node, 1, .UZ), (.node, 1, .ROTX),
    (.node, 1, .ROTY), (.node, 1, .ROTZ)] := rfl

theorem lever_problem (y z : ℝ) : Problem leverS leverCalls (made lever) [⟨2, .UY, 5⟩] (leverFix y z) leverE := by
  have hleg : LegalModel leverS leverCalls (made lever) (fixKeys (leverFix y z)) := by
    rw [lever_keys, lever_made]
    refine ⟨⟨?_, ?_, ?_, ?_, ?_, rfl⟩, ?_, ?_, ?_⟩
    · unfold LegalReg; decide
    · decide
    · decide
    · decide
    · intro m hm
      simp [leverS, Storage.fresh] at hm
      rw [hm]; simp [withRot]
    · unfold MeshOk; decide
    · intro m hm t ht
      simp [leverS, Storage.fresh] at hm
      rw [hm] at ht
      simp [withRot] at ht
      rcases ht with rfl | rfl | rfl | rfl | rfl <;> decide
    · decide
  refine ⟨hleg, by simp [keyOf]; decide, ?_⟩
  intro S1 num hp hn e S hS
  exact ⟨fun c hc => by simp [leverE] at hc, fun c hc => by simp [leverE] at hc, fun ms => updRigid_shape _ _ _ _ _⟩

theorem lever_bodies : HasBodies leverS (made lever) leverE [lever] leverPos := by
  refine ⟨?_, by simp, fun _ _ _ => rfl⟩
  intro r hr
  simp at hr
  subst hr
  exact ⟨by decide, fun t ht => ⟨1, by simpa [lever, transl] using ht⟩⟩

section
variable {y z : ℝ} {S1 : Storage ℝ} {num : Key → Nat}

/-- Sizes and equation numbers. -/
theorem lever_sizes (hp : leverS.prepare leverCalls (made lever) (fixKeys (leverFix y z)) = .ok S1)
    (hn : ∀ k ∈ regKeys leverCalls, S1.eqNumber k.1 k.2.1 k.2.2 = .ok (num k)) : S1.nConstr = 6 ∧ S1.nUnknown = 1 ∧ S1.nDofs = 7 ∧
      S1.nMpc = 1 ∧ S1.transient = false ∧ num (.node, 2, .UY) = 7 ∧
      (∀ k ∈ fixKeys (leverFix y z), 0 < num k ∧ num k ≤ 6) ∧ S1.mpcs = [withRot 1 2 .UY 0 0 8] := by
  have hl := (lever_problem y z).legal
  obtain ⟨A, hb⟩ := base_of_prepare hl hp hn
  have c1 : S1.nConstr = 6 := hb.prep.ready.nConstr.trans (by rw [lever_keys]; decide)
  have c3 : S1.nDofs = 7 := hb.prep.ready.nDofs.trans (by decide)
  have cs := hb.prep.pre.dofs
  have c2 : S1.nUnknown = 1 := by omega
  have ht : S1.transient = false := hb.prep.ready.mesh.transient
  have hlenm : S1.mpcs.length = 1 := by
    have := congrArg List.length hb.prep.ready.terms
    simpa [leverS, Storage.fresh, lever_made] using this
  have r2 := hb.freeRange (k := (.node, 2, .UY)) (by decide) (by rw [lever_keys]; decide)
  refine ⟨c1, c2, c3, hlenm, ht, by omega, ?_, ?_⟩
  · intro k hk
    have := hb.fixRange hk
    omega
  · obtain ⟨m, hm⟩ := List.length_eq_one_iff.mp hlenm
    have t1 := hb.prep.ready.terms
    have t2 := hb.prep.ready.eqNums
    rw [hm] at t1 t2 ⊢
    obtain ⟨q1, q2, q3⟩ := m
    simp [leverS, Storage.fresh, lever_made, c3] at t1 t2
    rw [t1.1, t1.2, t2]
    rfl

/-- The equation in each state. -/
theorem lever_form (hp : leverS.prepare leverCalls (made lever) (fixKeys (leverFix y z)) = .ok S1)
    (hn : ∀ k ∈ regKeys leverCalls, S1.eqNumber k.1 k.2.1 k.2.2 = .ok (num k)) {s : NState Unit ℝ}
    (hs : Reached Gauss.solveEquations leverE [⟨2, .UY, 5⟩] (leverFix y z) S1 () s) :
    ∃ a b, s.S.mpcs = [withRot 1 2 .UY a b 8] ∧ ∃ a b, leverE.upd s.e (zeroR s.S) s.S.mpcs = [withRot 1 2 .UY a b 8] := by
  have next : ∀ (s : NState Unit ℝ), (∃ a b, s.S.mpcs = [withRot 1 2 .UY a b 8]) →
      ∃ a b, leverE.upd s.e (zeroR s.S) s.S.mpcs = [withRot 1 2 .UY a b 8] := by
    rintro s ⟨a, b, hab⟩
    have hsh := updRigid_shape [lever] leverPos 0 (zeroR s.S) s.S.mpcs
    have hheld : Held [lever] s.S.mpcs := by
      refine held_congr _ ([withRot 1 2 .UY a b 0]) _ (by rw [hab]; rfl) ⟨⟨rfl, ?_⟩, trivial⟩
      intro n d s t h1 h2
      have hn : n = 0 := by
        have := (List.getElem?_eq_some_iff.mp h1).1
        simp [lever] at this; exact this
      have hd : d = 0 := by
        have := (List.getElem?_eq_some_iff.mp h2).1
        simp [lever] at this; exact this
      subst hn hd
      simp [lever] at h1 h2
      subst h1 h2
      exact ⟨a, b, 0, rfl⟩
    obtain ⟨q, hq⟩ := (updBodies_held [lever] lever_bodies.ok _ hheld (solOf (zeroR s.S)) leverPos).2 lever (by simp) 2
      (by simp [lever]) 1 (by simp [lever, transl])
    have hu : leverE.upd s.e (zeroR s.S) s.S.mpcs = updBodies (solOf (zeroR s.S)) leverPos [lever] s.S.mpcs := by
      show updRigid _ _ _ _ _ = _
      unfold updRigid
      simp
    rw [hu]
    have hlen : (updBodies (solOf (zeroR s.S)) leverPos [lever] s.S.mpcs).length = 1 := by
      rw [(updBodies_shape _ _ _ _).length, hab]; rfl
    obtain ⟨m, hm⟩ := List.length_eq_one_iff.mp hlen
    have h8 := updBodies_shape (solOf (zeroR s.S)) leverPos [lever] s.S.mpcs
    unfold SameShape at h8
    rw [hm, hab] at h8
    rw [hm] at hq ⊢
    simp at hq
    subst hq
    simp [mpcShape, withRot] at h8
    exact ⟨_, _, by rw [h8.1]; rfl⟩
  have key : ∃ a b, s.S.mpcs = [withRot 1 2 .UY a b 8] := by
    induction hs with
    | start tc => exact ⟨0, 0, (lever_sizes hp hn).2.2.2.2.2.2.2⟩
    | time tc _ ih => exact ih
    | @iter s s' hr hit ih =>
      obtain ⟨_, hor⟩ := C21_iteration (lever_problem y z) gauss_exact hp hn hr
      rcases hor with ⟨hf, _⟩ | ⟨s'', g1, _, hsv⟩
      · rw [hit] at hf; simp at hf
      · rw [hit, Res.ok.injEq] at g1
        subst g1
        rw [hsv.mpcs]
        exact next s ih
  obtain ⟨a, b, hab⟩ := key
  exact ⟨a, b, hab, next s ⟨a, b, hab⟩⟩

/-- The equation solver never stops. -/
theorem lever_go (hp : leverS.prepare leverCalls (made lever) (fixKeys (leverFix y z)) = .ok S1)
    (hn : ∀ k ∈ regKeys leverCalls, S1.eqNumber k.1 k.2.1 k.2.2 = .ok (num k)) {s : NState Unit ℝ}
    (hs : Reached Gauss.solveEquations leverE [⟨2, .UY, 5⟩] (leverFix y z) S1 () s) :
    ∃ s', iteration Gauss.solveEquations leverE [⟨2, .UY, 5⟩] (leverFix y z) s = .ok s' := by
  obtain ⟨c1, c2, c3, c4, ht, n7, hfix, _⟩ := lever_sizes hp hn
  obtain ⟨_, _, _, a, b, hm⟩ := lever_form hp hn hs
  obtain ⟨hbk, hor⟩ := C21_iteration (lever_problem y z) gauss_exact hp hn hs
  rcases hor with ⟨_, hst⟩ | ⟨s', h1, _⟩
  · exfalso
    have f1 := hfix (.node, 1, .UY) (by rw [lever_keys]; decide)
    have f2 := hfix (.node, 1, .ROTX) (by rw [lever_keys]; decide)
    have f3 := hfix (.node, 1, .ROTY) (by rw [lever_keys]; decide)
    have f4 := hfix (.node, 1, .ROTZ) (by rw [lever_keys]; decide)
    rw [c2, c4, hm] at hst
    have ha : ∀ i j, asmM S1.transient num (leverE.build s.e (zeroR s.S)) [withRot 1 2 .UY a b 8] (leverE.cm s.e (zeroR s.S)) 0
        (S1.nConstr + (i + 1)) (S1.nConstr + (j + 1)) = if (i = 0 ∧ j = 1) ∨ (i = 1 ∧ j = 0) then 1 else 0 := by
      intro i j
      rw [c1]
      simp only [leverE, asmM, ht]
      simp [matSum, Which.idx, mpcContribs, withRot, n7]
      have hno : ∀ k, 0 < k → k ≤ 6 → ¬ Same (6 + (i + 1)) (6 + (j + 1)) 8 k := by
        intro k h1 h2; unfold Same; omega
      rw [if_neg (hno _ f1.1 f1.2), if_neg (hno _ f2.1 f2.2), if_neg (hno _ f3.1 f3.2), if_neg (hno _ f4.1 f4.2)]
      by_cases hh : (i = 0 ∧ j = 1) ∨ (i = 1 ∧ j = 0)
      · rw [if_pos hh, if_pos (show Same (6 + (i + 1)) (6 + (j + 1)) 8 7 by unfold Same; omega)]; simp
      · rw [if_neg hh, if_neg (show ¬ Same (6 + (i + 1)) (6 + (j + 1)) 8 7 by unfold Same; omega)]; simp
    have h10 : ∀ x : ℝ, 1 ≤ |x| → ¬ |x| < Gauss.eps := by
      intro x hx hlt
      have : (Gauss.eps : ℝ) < 1 := by unfold Gauss.eps; norm_num
      linarith
    rcases gauss_stops hst with h | ⟨i, a', hi, hrc, hq⟩
    · omega
    interval_cases i
    · cases hrc
      have := hq 1 (by omega) (by omega)
      beta_reduce at this
      rw [ha] at this
      exact h10 _ (by norm_num) this
    · cases hrc with
      | step hr0 _ hstep =>
        cases hr0
        obtain ⟨p, hP, hrest, hv⟩ := hstep
        have := hq 1 (le_refl 1) (by omega)
        rw [hv 1 (by omega) 1 (by omega)] at this
        have hp2 := hP.lt
        rw [if_neg (by omega)] at this
        simp only [ha] at this hrest
        have hp1 : p = 0 ∨ p = 1 := by omega
        have heps : (0 : ℝ) < Gauss.eps := by unfold Gauss.eps; norm_num
        rcases hp1 with rfl | rfl
        · simp at hrest
          linarith
        · simp [Gauss.sw] at this
          exact h10 1 (by norm_num) (by simpa using this)
  · exact ⟨s', h1⟩

end

/-- The hypotheses of `C99_newton_partial` and `C99_close` are met by an iteration in which the master node is rotated. -/
example : ∃ (S1 : Storage ℝ) (num : Key → Nat) (s s' : NState Unit ℝ), Problem leverS leverCalls (made lever) [⟨2, .UY, 5⟩]
      (leverFix 1 2) leverE ∧ Exact (Gauss.solveEquations (K := ℝ)) ∧ HasBodies leverS (made lever) leverE [lever] leverPos ∧
    leverS.prepare leverCalls (made lever) (fixKeys (leverFix 1 2)) = .ok S1 ∧
    (∀ k ∈ regKeys leverCalls, S1.eqNumber k.1 k.2.1 k.2.2 = .ok (num k)) ∧
    Reached Gauss.solveEquations leverE [⟨2, .UY, 5⟩] (leverFix 1 2) S1 () s ∧
    iteration Gauss.solveEquations leverE [⟨2, .UY, 5⟩] (leverFix 1 2) s = .ok s' ∧ 2 ∈ lever.slaves ∧ transl 1 ∈ lever.dofs ∧
    Plain (theta (values num s.S) lever.master) := by
  obtain ⟨S1, num, hp, hn⟩ := prepare_small (lever_problem 1 2).legal (by rw [lever_keys]; decide) (by rw [lever_made]; decide)
  have hr := Reached.start (eqs := Gauss.solveEquations) (el := leverE) (loads := [⟨2, .UY, 5⟩]) (fixs := leverFix 1 2) (S1 := S1)
    (e := ()) TimeControl.fresh
  obtain ⟨s', h⟩ := lever_go hp hn hr
  refine ⟨S1, num, _, s', lever_problem 1 2, gauss_exact, lever_bodies, hp, hn, hr, h, by simp [lever], by simp [lever, transl], ?_⟩
  left
  obtain ⟨A, hb⟩ := base_of_prepare (lever_problem 1 2).legal hp hn
  have h0 : ∀ k, comp S1.vecU k = 0 := by
    intro k
    rw [hb.U]
    unfold comp
    exact getD_replicate _ _
  have : theta (values num S1) lever.master = 0 := by
    funext k
    fin_cases k <;> simp [theta, values, h0]
  show norm3 (theta (values num S1) lever.master) = 0
  rw [this]
  simp [norm3]

/-- The hypotheses of `C99_solution` are met: a solution that ends without an error. -/
example : ∃ (S1 : Storage ℝ) (num : Key → Nat) (s : NState Unit ℝ) (seen : List Nat),
    leverS.prepare leverCalls (made lever) (fixKeys (leverFix 0 0)) = .ok S1 ∧
    (∀ k ∈ regKeys leverCalls, S1.eqNumber k.1 k.2.1 k.2.2 = .ok (num k)) ∧ FreeRot (leverFix 0 0) lever.master ∧
    nonlinearSolve Gauss.solveEquations leverE [⟨2, .UY, 5⟩] (leverFix 0 0) leverSt (TimeControl.fresh.setEndTime 7) leverCalls
      (made lever) leverS () 2 2 = some (.ok (s, seen)) := by
  have hprob := lever_problem 0 0
  obtain ⟨S1, num, hp, hn⟩ := prepare_small hprob.legal (by rw [lever_keys]; decide) (by rw [lever_made]; decide)
  obtain ⟨A, hbase⟩ := base_of_prepare hprob.legal hp hn
  obtain ⟨c1, c2, c3, c4, ht, n7, hfix, _⟩ := lever_sizes hp hn
  -- all displacements and rotations are zero in all states
  have hfix0 : ∀ (s : NState Unit ℝ), Reached Gauss.solveEquations leverE [⟨2, .UY, 5⟩] (leverFix 0 0) S1 () s →
      ∀ d ∈ [DofType.UY, .ROTX, .ROTY, .ROTZ], values num s.S 1 d = 0 := by
    intro s hr d hd
    obtain ⟨hbk, _⟩ := C21_iteration hprob gauss_exact hp hn hr
    simp only [List.mem_cons, List.not_mem_nil, or_false] at hd
    unfold values
    rcases hd with rfl | rfl | rfl | rfl <;>
      rw [hbk.fixed _ (by decide) 0 (by simp [lastFix, leverFix, keyOf]), mul_zero]
  have hth : ∀ (s : NState Unit ℝ), Reached Gauss.solveEquations leverE [⟨2, .UY, 5⟩] (leverFix 0 0) S1 () s →
      theta (values num s.S) lever.master = 0 := by
    intro s hr
    have h0 := hfix0 s hr
    funext k
    fin_cases k
    · exact h0 .ROTX (by simp)
    · exact h0 .ROTY (by simp)
    · exact h0 .ROTZ (by simp)
  have hoff : ∀ (s s' : NState Unit ℝ), Reached Gauss.solveEquations leverE [⟨2, .UY, 5⟩] (leverFix 0 0) S1 () s →
      iteration Gauss.solveEquations leverE [⟨2, .UY, 5⟩] (leverFix 0 0) s = .ok s' → values num s'.S 2 .UY = 0 := by
    intro s s' hr hit
    have hr' := Reached.iter hr hit
    have hst := (row hprob gauss_exact lever_bodies hp hn hr hit (r := lever) (by simp) (n := 2) (by simp [lever]) (i := 1)
      (by simp [lever, transl])).2
    have h0 : theta (steps num s') lever.master = 0 := by
      have a0 := hfix0 s hr
      have a1 := hfix0 s' hr'
      have hd : ∀ d ∈ [DofType.UY, .ROTX, .ROTY, .ROTZ], steps num s' 1 d = 0 := by
        intro d hd
        have := hst 1 d (by
          simp only [List.mem_cons, List.not_mem_nil, or_false] at hd
          rcases hd with rfl | rfl | rfl | rfl <;> decide)
        rw [a0 d hd, a1 d hd] at this
        linarith
      funext k
      fin_cases k
      · exact hd .ROTX (by simp)
      · exact hd .ROTY (by simp)
      · exact hd .ROTZ (by simp)
    have := C99_exact hprob gauss_exact lever_bodies hp hn hr hit (r := lever) (by simp) (n := 2) (by simp [lever]) (i := 1)
      (by simp [lever, transl]) (Or.inl (by rw [hth s hr]; simp [norm3])) h0
    rw [offset_rodM, hth s' hr'] at this
    have hR : ∀ j, rodM 0 1 j = delta 1 j := by
      intro j
      rw [rodM_eq]
      simp [norm3, crossM]
    simp only [hR, Fin.sum_univ_three] at this
    have h2 : values num s'.S lever.master (transl 1) = 0 := hfix0 s' hr' .UY (by simp)
    rw [h2] at this
    simpa [leverPos, delta, transl, lever] using this
  have hacc : ∀ (s s2 : NState Unit ℝ), Reached Gauss.solveEquations leverE [⟨2, .UY, 5⟩] (leverFix 0 0) S1 () s →
      values num s.S 2 .UY = 0 → iteration Gauss.solveEquations leverE [⟨2, .UY, 5⟩] (leverFix 0 0) s = .ok s2 →
      Accepted leverSt.cc S1 s2.deltaU := by
    intro s s2 hr h0 h2
    have hst := (row hprob gauss_exact lever_bodies hp hn hr h2 (r := lever) (by simp) (n := 2) (by simp [lever]) (i := 1)
      (by simp [lever, transl])).2
    have hd := hst 2 .UY (by decide)
    rw [h0, hoff s s2 hr h2] at hd
    have hd0 : comp s2.deltaU 7 = 0 := by
      have : steps num s2 2 .UY = 0 := by linarith
      unfold steps at this
      rw [n7] at this
      exact this
    obtain ⟨hbk, _⟩ := C21_iteration hprob gauss_exact hp hn (Reached.iter hr h2)
    have hlen := hbk.sizes.2.2
    rw [c3, c4] at hlen
    have hseg : unknowns S1 s2.deltaU = [comp s2.deltaU 7] := by
      unfold unknowns seg comp
      rw [c1, c2]
      match hq : s2.deltaU, hlen with
      | [_, _, _, _, _, _, a, b], _ => simp
    unfold Accepted meanAbs
    rw [hseg, hd0]
    norm_num [leverSt]
  have hall : ∀ (s : NState Unit ℝ), Reached Gauss.solveEquations leverE [⟨2, .UY, 5⟩] (leverFix 0 0) S1 () s →
      values num s.S 2 .UY = 0 := by
    intro s hr
    induction hr with
    | start tc =>
      show comp S1.vecU _ = 0
      rw [hbase.U]
      unfold comp
      exact getD_replicate _ _
    | time tc _ ih => exact ih
    | iter hr hit _ => exact hoff _ _ hr hit
  rcases C21_solution hprob gauss_exact (st := leverSt) (by simp [leverSt]) (by simp [leverSt]) (show (0 : ℝ) < 7 by norm_num) ()
      (inner := 2) (fuel := 2) (by simp [leverSt]) (by simp [leverSt]) with
    ⟨_, hf | ⟨S1', i, s, hp', hi, hr, htm, n, s1, ha, hfail⟩⟩ | ⟨S1', num', s, bs, hp', hn', hok, _⟩
  · rw [hf] at hp; simp at hp
  · exfalso
    rw [hp, Res.ok.injEq] at hp'
    subst hp'
    have : ∀ n s1, Again Gauss.solveEquations leverE [⟨2, .UY, 5⟩] (leverFix 0 0) leverSt S1 s n s1 → s1 = s := by
      intro n s1 ha
      induction ha with
      | zero => rfl
      | succ _ h1 h2 ih =>
        subst ih
        exact absurd (hacc _ _ hr (hall _ hr) h1) h2
    have := this n s1 ha
    subst this
    rcases hfail with hfat | ⟨s2, h1, h2, _⟩
    · obtain ⟨s2, h2⟩ := lever_go hp hn hr
      rw [hfat] at h2; simp at h2
    · exact h2 (hacc _ _ hr (hall _ hr) h1)
  · rw [hp, Res.ok.injEq] at hp'
    subst hp'
    refine ⟨S1, num, s, _, hp, hn, ?_, hok⟩
    intro d hd
    right
    simp only [List.mem_cons, List.not_mem_nil, or_false] at hd
    rcases hd with rfl | rfl | rfl <;> simp [lastFix, leverFix, keyOf, lever]

end

end Nla3d.Rigid
