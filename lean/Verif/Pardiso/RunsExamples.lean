import Verif.Pardiso.RunsProps
import Verif.Pardiso.Examples

/-!
# C112: examples
-/

namespace Nla3d.Pardiso

open Nla3d.Dof Nla3d.Block Nla3d.Sparse Nla3d.Storage Nla3d.Solver Nla3d.TimeCtl Finset

/-- The settings of the nonlinear examples: two load steps, at most five iterations. -/
def two : Settings ℚ := ⟨5, 2, 1 / 1000⟩

/-- The first load step of a solution to the time 1. -/
theorem two_starts : ∃ tc', ((TimeControl.fresh : TimeControl ℚ).setEndTime 1).nextStep (1 / 2) = .ok (true, tc') := by
  unfold TimeControl.nextStep
  simp only
  rw [if_neg (by norm_num [TimeControl.setEndTime, TimeControl.fresh, TimeControl.record]),
    if_pos (by norm_num [TimeControl.setEndTime, TimeControl.fresh, TimeControl.record, TimeCtl.choose])]
  exact ⟨_, rfl⟩

/-- The bar in two load steps with one object. -/
example (x : ℚ) (inner fuel : Nat) : dropObj (nonlinearSolveO ideal spring [⟨2, .UX, 10⟩] [⟨1, .UX, x⟩] two
      ((TimeControl.fresh : TimeControl ℚ).setEndTime 1) barCalls [] Obj.valued bar () inner fuel) =
    nonlinearSolve (eqs ideal) spring [⟨2, .UX, 10⟩] [⟨1, .UX, x⟩] two ((TimeControl.fresh : TimeControl ℚ).setEndTime 1) barCalls []
      bar () inner fuel :=
  (C112_nonlinear_partial (bar_problem (t := false) [(⟨2, .UX, 10⟩ : Bc ℚ)] (by decide) x) ideal_exact (bar_complete x) _ _ rfl () inner fuel).1

/-- The bar in four time steps with one object. -/
example (x : ℚ) {fuel : Nat} (hf : 0 < fuel) : dropObj (transientSolveO ideal spring [⟨2, .UX, 10⟩] [⟨1, .UX, x⟩]
      ⟨4, 1 / 4, 1 / 2, 0, 1, 0⟩ barCalls [] Obj.valued bar () fuel) =
    transientSolve (eqs ideal) spring [⟨2, .UX, 10⟩] [⟨1, .UX, x⟩] ⟨4, 1 / 4, 1 / 2, 0, 1, 0⟩ barCalls [] bar () fuel :=
  (C112_transient_partial (S0 := bar) (bar_problem (t := true) [(⟨2, .UX, 10⟩ : Bc ℚ)] (by decide) x) ideal_exact (bar_complete x)
    (by norm_num) rfl () hf).1

/-- The bar with a constraint equation: the first load step leaves the contract of the library. -/
example (L : Lib ℚ) (x : ℚ) : nonlinearSolveO L spring [] [⟨1, .UX, x⟩] two ((TimeControl.fresh : TimeControl ℚ).setEndTime 1) barCalls []
    Obj.valued tied () 6 3 = some .ub := by
  obtain ⟨tc', ht⟩ := two_starts
  have hc : ¬ Complete tied.elements (tied.mpcs ++ []) (regKeys barCalls) (fixKeys [(⟨1, .UX, x⟩ : Bc ℚ)]) := by
    rintro ⟨h, _⟩
    simp [tiedOf, Storage.fresh] at h
  rcases C112_nonlinear_violated (tied_problem (t := false) x) L hc (st := two) (tc := (TimeControl.fresh : TimeControl ℚ).setEndTime 1) (tc' := tc')
      (by rw [← ht]; congr 1; norm_num [two, TimeControl.setEndTime, TimeControl.fresh]) (o := Obj.valued) rfl () (inner := 6) (fuel := 3) (by omega) (by omega) with
    ⟨_, hf⟩ | ⟨h, _⟩
  · exfalso
    obtain ⟨S1, h1⟩ := (C14_prepare_outcome (tied_problem (t := false) x).legal).2 ⟨(.node, 2, .UX), by decide, by simp [fixKeys, keyOf]⟩ (by decide)
    rw [hf] at h1
    cases h1
  · exact h

/-- The same in time. -/
example (L : Lib ℚ) (x : ℚ) (fuel : Nat) : transientSolveO L spring [] [⟨1, .UX, x⟩] ⟨4, 1 / 4, 1 / 2, 0, 1, 0⟩ barCalls [] Obj.valued tied ()
    fuel = some .ub := by
  have hprob := tied_problem (t := true) x
  have hc : ¬ Complete tied.elements (tied.mpcs ++ []) (regKeys barCalls) (fixKeys [(⟨1, .UX, x⟩ : Bc ℚ)]) := by
    rintro ⟨h, _⟩
    simp [tiedOf, Storage.fresh] at h
  rcases C112_transient_violated (S0 := tied) hprob L hc ⟨4, 1 / 4, 1 / 2, 0, 1, 0⟩ (o := Obj.valued) rfl () fuel with ⟨_, hf⟩ | ⟨h, _⟩
  · exfalso
    obtain ⟨S1, h1⟩ := (C14_prepare_outcome hprob.legal).2 ⟨(.node, 2, .UX), by decide, by simp [fixKeys, keyOf]⟩ (by decide)
    have : ({ tied with transient := true } : Storage ℚ) = tiedOf true := rfl
    rw [this, h1] at hf
    cases hf
  · exact h

end Nla3d.Pardiso
