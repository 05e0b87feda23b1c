import Verif.Pardiso.Props

/-!
# C108: examples
-/

namespace Nla3d.Pardiso

open Nla3d.Dof Nla3d.Block Nla3d.Sparse Nla3d.Storage Nla3d.Solver Finset

/-! ## Libraries that meet the contract -/

open Classical in
/-- A library that solves every system that has a solution. -/
noncomputable def ideal : Lib ℚ where
  symbolic _ _ := true
  numeric _ _ _ := true
  backsub _ p a rhs :=
    if h : ∃ X : List ℚ, X.length = p.n ∧ ∀ i < p.n, ∑ j ∈ range p.n, p.entry a i j * X.getD j 0 = rhs.getD i 0 then
      some h.choose else none

theorem ideal_exact : ideal.Exact := by
  intro m p a rhs X _ _ _ h
  unfold ideal at h
  simp only at h
  split at h
  · rename_i hex
    rw [Option.some.injEq] at h
    rw [← h]
    exact hex.choose_spec
  · cases h

/-- A library that delivers the right-hand side for everything; enough for the protocol. -/
def echo : Lib ℚ := ⟨fun _ _ => true, fun _ _ _ => true, fun _ _ _ rhs => some rhs⟩

theorem echo_fine (m : Int) (p : Pattern) : ¬ Fails echo m p := by
  rintro (h | ⟨_, h⟩ | ⟨_, _, h⟩) <;> cases h

/-! ## Histories -/

/-- A full matrix of two equations. -/
def full (x : ℚ) : SpMat ℚ := ⟨⟨2, 2, 2, 3, [1, 2, 2], [1, 3, 4], true⟩, some [x, 1, 2]⟩

/-- A diagonal matrix of two equations. -/
def diagonal : SpMat ℚ := ⟨⟨2, 2, 2, 2, [1, 2], [1, 2, 3], true⟩, some [1, 1]⟩

theorem full_csr (x : ℚ) : Csr (full x).si [[1, 2], [2]] := by
  refine ⟨rfl, rfl, ?_, ?_, rfl, rfl, rfl⟩
  · decide
  · show ∀ r ∈ [[1, 2], [2]], ∀ c ∈ r, 0 < c ∧ c ≤ 2
    decide

theorem diagonal_csr : Csr diagonal.si [[1], [2]] := by
  refine ⟨rfl, rfl, ?_, ?_, rfl, rfl, rfl⟩
  · decide
  · show ∀ r ∈ [[1], [2]], ∀ c ∈ r, 0 < c ∧ c ≤ 2
    decide

theorem full_legal : (patternOf (full 5)).Legal := by
  refine (legal_iff (full_csr 5) rfl (by decide) ?_).mpr ?_ <;> decide

theorem full_has (x : ℚ) : Has (patternOf (full 5)) (full x) [x, 1, 2] := ⟨rfl, rfl, rfl, rfl, rfl, rfl⟩

theorem diagonal_has : Has (patternOf diagonal) diagonal [1, 1] := ⟨rfl, rfl, rfl, rfl, rfl, rfl⟩

/-- The calls of a nonlinear solution with two iterations followed by those of a transient one with two steps, other values each time. -/
def sample : List (Call ℚ) :=
  [.symmetric true, .positive false, .solve (full 5) [1, 2], .solve (full 7) [3, 4], .symmetric true, .positive false,
   .factorize (full 9), .substitute (full 9) [5, 6], .substitute (full 9) [7, 8]]

theorem sample_proper : Proper (patternOf (full 5)) none sample :=
  .symmetric (.positive _ (.solve (full_has 5) rfl (.solve (full_has 7) rfl (.symmetric (.positive _ (.factorize (full_has 9)
    (.substitute (full_has 9) rfl (.substitute (full_has 9) rfl (.nil _)))))))))

example : ∃ Xs, life echo Obj.valued sample = .ok Xs ∧ Xs.length = 4 ∧ typeOf true sample = -2 := by
  obtain ⟨Xs, h1, h2⟩ := C108_completes echo full_legal sample_proper (echo_fine _ _)
  exact ⟨Xs, h1, h2, rfl⟩

/-- Two structures of the same size, one solver object. -/
example : life echo Obj.valued [.solve (full 5) [1, 2], .solve diagonal [3, 4]] = .ub :=
  C108_structure_violated echo full_legal (full_has 5) diagonal_has rfl (by decide) rfl (echo_fine _ _)

example : life echo Obj.valued [.substitute (full 5) [1, 2]] = .ub := C108_substitute_first_violated echo (full_has 5)

/-! ## Models -/

/-- The bar of two nodes can be given to PARDISO. -/
theorem bar_complete (x : ℚ) : Complete bar.elements (bar.mpcs ++ []) (regKeys barCalls) (fixKeys [(⟨1, .UX, x⟩ : Bc ℚ)]) := by
  refine ⟨rfl, ?_⟩
  intro k hk _
  refine ⟨1, ?_⟩
  have : k = (.node, 1, .UX) ∨ k = (.node, 2, .UX) := by
    have h : regKeys barCalls = [(.node, 1, .UX), (.node, 2, .UX)] := rfl
    rw [h] at hk
    simpa using hk
  rcases this with rfl | rfl <;> simp [Attached, elNodes, bar, barOf, Storage.fresh]

example (x : ℚ) : linearSolve (eqs ideal) spring [⟨2, .UX, 10⟩] [⟨1, .UX, x⟩] barCalls [] bar () ≠ .ub := by
  have hprob := bar_problem (t := false) [(⟨2, .UX, 10⟩ : Bc ℚ)] (by decide) x
  rcases C108_linear hprob ideal_exact (bar_complete x) () with ⟨h, _⟩ | ⟨_, _, _, _, _, _, h, _⟩ <;> rw [h] <;> simp

/-- The bar with a constraint equation for its free end: `u2 = 3`. -/
def tiedOf (t : Bool) : Storage ℚ := Storage.fresh 2 [[1, 2]] [⟨[⟨2, .UX, 1⟩], 3, 0⟩] t

/-- The tied bar for static solutions. -/
abbrev tied : Storage ℚ := tiedOf false

theorem tied_problem {t : Bool} (x : ℚ) : Problem (tiedOf t) barCalls [] [] [⟨1, .UX, x⟩] spring := by
  have hk : fixKeys [(⟨1, .UX, x⟩ : Bc ℚ)] = [(.node, 1, .UX)] := rfl
  have hleg : LegalModel (tiedOf t) barCalls [] (fixKeys [(⟨1, .UX, x⟩ : Bc ℚ)]) := by
    rw [hk]
    refine ⟨⟨?_, ?_, ?_, ?_, ?_, rfl⟩, ?_, ?_, ?_⟩
    · unfold LegalReg; cases t <;> decide
    · decide
    · decide
    · decide
    · intro m hm
      simp only [tiedOf, Storage.fresh, List.append_nil, List.mem_singleton] at hm
      subst hm; simp
    · unfold MeshOk; cases t <;> decide
    · intro m hm c ht
      simp only [tiedOf, Storage.fresh, List.append_nil, List.mem_singleton] at hm
      subst hm
      simp only [List.mem_singleton] at ht
      subst ht; decide
    · cases t <;> decide
  refine ⟨hleg, by simp, ?_⟩
  intro S1 num hp hn e S hS
  obtain ⟨A, hpr⟩ := prepared hleg hp
  have hel : S1.elements = [[1, 2]] := hpr.ready.mesh.elements
  have n1 := hn (.node, 1, .UX) (by decide)
  have n2 := hn (.node, 2, .UX) (by decide)
  simp only at n1 n2
  have hbuild : spring.build e S = [.mat .K (num (.node, 1, .UX)) (num (.node, 1, .UX)) 1,
      .mat .K (num (.node, 1, .UX)) (num (.node, 2, .UX)) (-1),
      .mat .K (num (.node, 2, .UX)) (num (.node, 2, .UX)) 1] := by
    simp only [spring, hS.eqNumber, n1, n2]
  have at1 : Attached S1.elements 1 (.node, 1, .UX) := by rw [hel]; simp [Attached, elNodes]
  have at2 : Attached S1.elements 1 (.node, 2, .UX) := by rw [hel]; simp [Attached, elNodes]
  refine ⟨?_, ?_, fun ms => rfl⟩
  · rw [hbuild]
    intro c hc
    simp only [List.mem_cons, List.not_mem_nil, or_false] at hc
    rcases hc with rfl | rfl | rfl
    · exact ⟨Or.inl rfl, 1, _, _, by decide, by decide, at1, at1, rfl, rfl⟩
    · exact ⟨Or.inl rfl, 1, _, _, by decide, by decide, at1, at2, rfl, rfl⟩
    · exact ⟨Or.inl rfl, 1, _, _, by decide, by decide, at2, at2, rfl, rfl⟩
  · intro c hc; simp [spring] at hc

/-- The model of three nodes with a constraint equation. -/
example : ∃ (S : Storage ℚ) (F : Family ℚ) (B : SpMat ℚ), matOf S = .ok F ∧ blockMat F 0 2 2 = .ok B ∧ ¬ (patternOf B).Legal := by
  obtain ⟨S1, num, h⟩ := demo_session
  obtain ⟨F, B, h1, h2, h3⟩ := C108_mpc_violated h (by simp [demo, Storage.fresh])
  exact ⟨S1, F, B, h1, h2, h3⟩

/-- Whatever the library does inside its contract, the bar with the constraint equation is outside of it. -/
example (L : Lib ℚ) (x : ℚ) : linearSolve (eqs L) spring [] [⟨1, .UX, x⟩] barCalls [] tied () = .ub := by
  have hprob := tied_problem (t := false) x
  have hc : ¬ Complete tied.elements (tied.mpcs ++ []) (regKeys barCalls) (fixKeys [(⟨1, .UX, x⟩ : Bc ℚ)]) := by
    rintro ⟨h, _⟩
    simp [tiedOf, Storage.fresh] at h
  rcases C108_linear_violated hprob L hc () with ⟨_, hf⟩ | ⟨h, _⟩
  · exfalso
    obtain ⟨S1, h1⟩ := (C14_prepare_outcome hprob.legal).2 ⟨(.node, 2, .UX), by decide, by simp [fixKeys, keyOf]⟩ (by decide)
    rw [hf] at h1
    cases h1
  · exact h

end Nla3d.Pardiso
