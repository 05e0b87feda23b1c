import Verif.Struct.Nonlinear
import Verif.Struct.Sample

/-!
# C95: a truss in the nonlinear solver
-/

noncomputable section

namespace Nla3d.Struct

open Nla3d.Dof Nla3d.Block Nla3d.Storage Nla3d.Solver Nla3d.TimeCtl Finset
open Nla3d.Sparse hiding total

/-- The supports of the truss, none of them moved. -/
def tripodRest : List (Bc ℝ) := tripodFixs.map fun f => { f with value := 0 }

theorem tripodRest_legal : LegalModel tripodStorage tripodCalls [] (fixKeys tripodRest) := by
  have : fixKeys tripodRest = fixKeys tripodFixs := fixKeys_zero _
  rw [this]
  exact tripod_legal

theorem tripod_joint (u : Key → ℝ) : ((tripodBars.map (Bar.el tripod)).map fun x => x.forceOn u (.node, 3, .UX)).sum =
    (tripodBars.map fun b => 16 / 5 * (Bars.dot (nodal u (b.n 1) - nodal u (b.n 0)) (tripod (b.n 1) - tripod (b.n 0)) / 5)).sum := by
  rw [List.map_map]
  exact congrArg List.sum (List.map_congr_left fun b hb => tripod_force u b hb)

/-- The truss is solved for every load and all movements of the supports that are zero or not tiny. -/
theorem tripod_run (loads fixs : List (Bc ℝ)) (hload : ∀ l ∈ loads, keyOf l ∈ regKeys tripodCalls)
    (hk : fixKeys fixs = fixKeys tripodFixs) (hv : ∀ f ∈ fixs, f.value = 0 ∨ (1 / 10 ^ 20 : ℝ) < |f.value|) :
    ∃ u r, SolvedBy (tripodBars.map (Bar.el tripod)) tripodStorage tripodCalls [] loads fixs u r := by
  have hl : LegalModel tripodStorage tripodCalls [] (fixKeys fixs) := by rw [hk]; exact tripod_legal
  obtain ⟨S', e', h⟩ := one_free (e := ()) (update := fun _ _ => ()) (k0 := (.node, 3, .UX)) (loads := loads) hl rfl hload tripod_placed (by decide)
    (by rw [hk]; decide) (by rw [hk]; decide) (by decide) (by
      rw [tripod_joint, tripod_joint]
      simp [tripodBars, tripod, nodal, axis, Bars.dot]
      norm_num)
  obtain ⟨u, r, l, hr, _⟩ := C83_equilibrium hl hload tripod_placed hv gauss_exact h
  exact ⟨u, r, hl, hload, hv, ⟨Unit, fun _ _ => (), (), e', S', h, hr⟩, by decide⟩

/-- Displacement of the joint. -/
theorem tripod_answer {F : ℝ} {u r : Key → ℝ}
    (h : SolvedBy (tripodBars.map (Bar.el tripod)) tripodStorage tripodCalls [] [⟨3, .UX, F⟩] tripodRest u r) :
    u (.node, 3, .UX) = 25 * F / 128 ∧ ∀ k ∈ regKeys tripodCalls, k ≠ (.node, 3, .UX) → u k = 0 := by
  obtain ⟨l, h1, h2, h3⟩ := h.balance tripod_placed
  have hk : fixKeys tripodRest = fixKeys tripodFixs := fixKeys_zero _
  have hz : ∀ k ∈ regKeys tripodCalls, k ≠ (.node, 3, .UX) → u k = 0 := by
    intro k hk' hne
    have : k ∈ fixKeys tripodRest := by
      rw [hk]; revert k; decide
    obtain ⟨x, hx⟩ := Option.isSome_iff_exists.mp (lastFix_isSome.mpr this)
    rw [h2.prescribed k hk' x hx, lastFix_zero k tripodFixs hx]
  refine ⟨?_, hz⟩
  have hb := h3 (.node, 3, .UX) (by decide)
  have hl0 : l = [] := List.length_eq_zero_iff.mp (by rw [h1]; rfl)
  rw [tripod_joint, hl0, h2.applied _ (by decide) (by rw [hk]; decide)] at hb
  have z : ∀ n t, (Side.node, n, t) ∈ regKeys tripodCalls → (Side.node, n, t) ≠ (.node, 3, .UX) → u (.node, n, t) = 0 :=
    fun n t h1 h2 => hz _ h1 h2
  simp [tripodBars, tripod, nodal, axis, Bars.dot, conForce, loadsOn, keyOf, z 1 .UX (by decide) (by decide), z 1 .UY (by decide) (by decide),
    z 1 .UZ (by decide) (by decide), z 2 .UX (by decide) (by decide), z 2 .UY (by decide) (by decide), z 2 .UZ (by decide) (by decide),
    z 3 .UY (by decide) (by decide), z 3 .UZ (by decide) (by decide)] at hb
  linarith

/-- Three load steps of up to ten iterations, convergence criterion `1`. -/
def tripodSettings : Settings ℝ := ⟨10, 3, 1⟩

/-- **C95 is violated.** The truss with a load of 2 at the joint. The linear solver moves the joint by 25/64; the nonlinear solver
with three load steps ends without an error and moves it by twice that. -/
theorem C95_violated : ∃ (u r : Key → ℝ) (S1 : Storage ℝ) (num : Key → Nat) (s : NState Unit ℝ) (seen : List Nat),
    SolvedBy (tripodBars.map (Bar.el tripod)) tripodStorage tripodCalls [] [⟨3, .UX, 2⟩] tripodRest u r ∧
    u (.node, 3, .UX) = 25 / 64 ∧
    tripodStorage.prepare tripodCalls [] (fixKeys tripodRest) = .ok S1 ∧
    (∀ k ∈ regKeys tripodCalls, S1.eqNumber k.1 k.2.1 k.2.2 = .ok (num k)) ∧
    nonlinearSolve Gauss.solveEquations (linear (tripodBars.map (Bar.el tripod)) (fun _ _ => ())) [⟨3, .UX, 2⟩] tripodRest tripodSettings
      (TimeControl.fresh.setEndTime 1) tripodCalls [] tripodStorage () 10 4 = some (.ok (s, seen)) ∧
    comp s.S.vecU (num (.node, 3, .UX)) = 25 / 32 := by
  have hload : ∀ l ∈ [(⟨3, .UX, 2⟩ : Bc ℝ)], keyOf l ∈ regKeys tripodCalls := by simp [keyOf]; decide
  have hzero : ∀ f ∈ tripodRest, f.value = 0 := by
    intro f hf
    obtain ⟨g, _, rfl⟩ := List.mem_map.mp hf
    rfl
  obtain ⟨u, r, hu⟩ := tripod_run [⟨3, .UX, 2⟩] tripodRest hload (fixKeys_zero _) fun f hf => Or.inl (hzero f hf)
  obtain ⟨h1, h2⟩ := tripod_answer hu
  obtain ⟨S1, num, s, seen, g1, g2, g3⟩ := C95_ends (E := Unit) (update := fun _ _ => ()) tripod_placed hu hzero tripod_homogeneous
    (st := tripodSettings) (by decide) (by decide) (by norm_num [tripodSettings]) (by
      intro k hk
      by_cases c : k = (.node, 3, .UX)
      · rw [c, h1]; norm_num [tripodSettings, abs_of_pos]
      · rw [h2 k hk c]; norm_num [tripodSettings]) (tend := 1) (by norm_num) () (inner := 10) (fuel := 4) (by decide) (by decide)
  refine ⟨u, r, S1, num, s, seen, hu, by rw [h1]; norm_num, g1, g2, g3, ?_⟩
  obtain ⟨_, h3⟩ := C95_stall tripodRest_legal hload tripod_placed gauss_exact (by decide) (by decide) (by norm_num) (by decide) (by decide)
    g1 g2 g3 hu hzero tripod_homogeneous
  rw [h3 _ (by decide), h1]
  norm_num [tripodSettings]

/-- The parts of the solution of the truss with a load and a moved support: the hypotheses of `C95_solution` and `C95_fails`. -/
example : ∃ uX uL u r : Key → ℝ,
    Parts (tripodBars.map (Bar.el tripod)) tripodStorage tripodCalls [] [⟨3, .UX, 2⟩] tripodFixs uX uL ∧
    SolvedBy (tripodBars.map (Bar.el tripod)) tripodStorage tripodCalls [] [⟨3, .UX, 2⟩] tripodFixs u r ∧
    Homogeneous (tripodBars.map (Bar.el tripod)) (tripodStorage.mpcs ++ []) ∧ uL (.node, 3, .UX) ≠ 0 := by
  have hload : ∀ l ∈ [(⟨3, .UX, 2⟩ : Bc ℝ)], keyOf l ∈ regKeys tripodCalls := by simp [keyOf]; decide
  have hv : ∀ f ∈ tripodFixs, f.value = 0 ∨ (1 / 10 ^ 20 : ℝ) < |f.value| := by
    intro f hf
    simp only [tripodFixs, List.mem_cons, List.not_mem_nil, or_false] at hf
    rcases hf with rfl | rfl | rfl | rfl | rfl | rfl | rfl | rfl <;> norm_num
  have hzero : ∀ f ∈ tripodRest, f.value = 0 := by
    intro f hf
    obtain ⟨g, _, rfl⟩ := List.mem_map.mp hf
    rfl
  obtain ⟨uX, rX, hX⟩ := tripod_run [] tripodFixs (by simp) rfl hv
  obtain ⟨uL, rL, hL⟩ := tripod_run [⟨3, .UX, 2⟩] tripodRest hload (fixKeys_zero _) fun f hf => Or.inl (hzero f hf)
  obtain ⟨u, r, hu⟩ := tripod_run [⟨3, .UX, 2⟩] tripodFixs hload rfl hv
  refine ⟨uX, uL, u, r, ⟨⟨rX, hX⟩, ⟨rL, hL⟩⟩, hu, tripod_homogeneous, ?_⟩
  rw [(tripod_answer hL).1]
  norm_num

/-- The hypotheses of `C95_partial` and its conclusion: with one load step the nonlinear solver makes a single iteration and moves the
joint as the linear solver does. -/
example : ∃ (u r : Key → ℝ) (S1 : Storage ℝ) (num : Key → Nat) (s : NState Unit ℝ) (seen : List Nat),
    SolvedBy (tripodBars.map (Bar.el tripod)) tripodStorage tripodCalls [] [⟨3, .UX, 2⟩] tripodRest u r ∧
    nonlinearSolve Gauss.solveEquations (linear (tripodBars.map (Bar.el tripod)) (fun _ _ => ())) [⟨3, .UX, 2⟩] tripodRest ⟨10, 1, 1⟩
      (TimeControl.fresh.setEndTime 1) tripodCalls [] tripodStorage () 10 2 = some (.ok (s, seen)) ∧
    s.trace.length = 1 ∧ comp s.S.vecU (num (.node, 3, .UX)) = u (.node, 3, .UX) ∧ u (.node, 3, .UX) = 25 / 64 := by
  have hload : ∀ l ∈ [(⟨3, .UX, 2⟩ : Bc ℝ)], keyOf l ∈ regKeys tripodCalls := by simp [keyOf]; decide
  have hzero : ∀ f ∈ tripodRest, f.value = 0 := by
    intro f hf
    obtain ⟨g, _, rfl⟩ := List.mem_map.mp hf
    rfl
  obtain ⟨u, r, hu⟩ := tripod_run [⟨3, .UX, 2⟩] tripodRest hload (fixKeys_zero _) fun f hf => Or.inl (hzero f hf)
  obtain ⟨h1, h2⟩ := tripod_answer hu
  obtain ⟨S1, num, s, seen, g1, g2, g3⟩ := C95_ends (E := Unit) (update := fun _ _ => ()) tripod_placed hu hzero tripod_homogeneous
    (st := ⟨10, 1, 1⟩) (by decide) (by decide) (by norm_num) (by
      intro k hk
      by_cases c : k = (.node, 3, .UX)
      · rw [c, h1]; norm_num [abs_of_pos]
      · rw [h2 k hk c]; norm_num) (tend := 1) (by norm_num) () (inner := 10) (fuel := 2) (by decide) (by decide)
  obtain ⟨h3, _⟩ := C95_stall tripodRest_legal hload tripod_placed gauss_exact (by decide) (by decide) (by norm_num) (by decide) (by decide)
    g1 g2 g3 hu hzero tripod_homogeneous
  refine ⟨u, r, S1, num, s, seen, hu, g3, h3, ?_, by rw [h1]; norm_num⟩
  exact C95_partial tripodRest_legal hload tripod_placed gauss_exact (by decide) (by decide) (by norm_num) (by decide) (by decide)
    g1 g2 g3 hu (Or.inr h3) _ (by decide)

end Nla3d.Struct
