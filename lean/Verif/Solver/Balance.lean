import Verif.Solver.EnergyProps
import Verif.Solver.LinearProps

/-!
# C132, C133: reactions balance the loads, and reciprocity of linear solutions

Source: `LinearFESolver::solve`, src/lib/FESolver.cpp:336-396. The model is that of C18.
-/

set_option linter.unusedSectionVars false

namespace Nla3d.Solver

open Nla3d.Dof Nla3d.Block Nla3d.Sparse Nla3d.Storage Nla3d.TimeCtl Finset

variable {K : Type} [Field K] [LinearOrder K] [IsStrictOrderedRing K]

/-! ## Specification -/

/-- The work of given loads on a motion of the DoFs. -/
def loadWork (num : Key → Nat) (loads : List (Bc K)) (w : Nat → K) : K := (loads.map fun l => l.value * w (num (keyOf l))).sum

/-- A motion under which no force arises, e.g. a rigid one of a body that is not held by springs or constraint equations. -/
def Free (k : Nat → Nat → K) (N : Nat) (w : Nat → K) : Prop := ∀ i, 0 < i → i ≤ N → rowMul k w N i = 0

/-- Reactions `R` at the first `c` equations, given loads and the loads `f` of elements and constraint equations are in balance. -/
def Balance (num : Key → Nat) (loads : List (Bc K)) (f R : Nat → K) (c N : Nat) (w : Nat → K) : Prop :=
  power c R w + loadWork num loads w + power N f w = 0

/-! ## Sums -/

theorem power_add (N : Nat) (f g w : Nat → K) : power N (fun i => f i + g i) w = power N f w + power N g w := by
  unfold power
  rw [← Finset.sum_add_distrib]
  exact Finset.sum_congr rfl fun i _ => by ring

theorem power_congr {N : Nat} {f g w : Nat → K} (h : ∀ i, 0 < i → i ≤ N → f i * w i = g i * w i) : power N f w = power N g w := by
  unfold power
  refine Finset.sum_congr rfl fun i hi => ?_
  rw [Finset.mem_range] at hi
  exact h _ (by omega) (by omega)

/-- The loads row by row do the work of the list of loads. -/
theorem power_loadTotal (nm : Bc K → Nat) (N : Nat) (w : Nat → K) : ∀ loads : List (Bc K), (∀ l ∈ loads, 0 < nm l ∧ nm l ≤ N) →
    power N (fun i => loadTotal nm i loads) w = (loads.map fun l => l.value * w (nm l)).sum
  | [], _ => by simp [power, loadTotal]
  | l :: ls, h => by
    have h1 := h l (by simp)
    have ih := power_loadTotal nm N w ls fun x hx => h x (by simp [hx])
    simp only [loadTotal]
    rw [power_add, ih, List.map_cons, List.sum_cons]
    congr 1
    unfold power
    rw [Finset.sum_eq_single (nm l - 1)]
    · beta_reduce
      rw [Nat.sub_add_cancel h1.1, if_pos rfl]
    · intro i _ hne
      beta_reduce
      rw [if_neg (by omega), zero_mul]
    · intro hni
      exact absurd (Finset.mem_range.2 (by omega)) hni

theorem assembled_symm {E : Type} (el : Elems E K) (e : E) (S1 : Storage K) (num : Key → Nat) (q i j : Nat) :
    Assembled el e S1 num q i j = Assembled el e S1 num q j i := by
  unfold Assembled asmM
  simp only [matSum_symm q i j]

/-- Each other equation of a DoF belongs to a DoF that is not fixed. -/
theorem Base.freeOf {S0 S1 : Storage K} {calls : List RegCall} {new : List (Mpc K)} {fixs : List (Bc K)} {num' : Key → Nat}
    {A : Side → Spec} (h : Base S0 S1 calls new fixs num' A) {i : Nat} (h1 : S1.nConstr < i) (h2 : i ≤ S1.nDofs) :
    ∃ k ∈ regKeys calls, k ∉ fixKeys fixs ∧ num' k = i := by
  have hd := h.prep.pre.dofs
  obtain ⟨k, hk, he⟩ := h.prep.ready.unk.surjOn (Set.mem_Ico.mpr ⟨by omega, by omega⟩ : i ∈ Set.Ico (S1.nConstr + 1) (S1.nDofs + 1))
  exact ⟨k, hk.1, hk.2, by rw [h.agree _ hk.1]; exact he⟩

/-- The work of the vector `R` of a solution: reactions in the constrained rows, given loads in the others. -/
theorem power_R {S0 S1 S' : Storage K} {calls : List RegCall} {new : List (Mpc K)} {loads fixs : List (Bc K)} {num' : Key → Nat}
    {A : Side → Spec} (hb : Base S0 S1 calls new fixs num' A) (ha : Answer S1 S' (regKeys calls) num' loads fixs)
    (hl : ∀ l ∈ loads, keyOf l ∈ regKeys calls) (w : Nat → K) :
    power (S1.nDofs + S1.nMpc) (comp S'.vecR) w = power S1.nConstr (comp S'.vecR) w +
      loadWork num' (loads.filter fun l => keyOf l ∉ fixKeys fixs) w := by
  have hd := hb.prep.pre.dofs
  set free := loads.filter fun l => keyOf l ∉ fixKeys fixs with hfree
  have hin : ∀ l ∈ free, keyOf l ∈ regKeys calls ∧ keyOf l ∉ fixKeys fixs := by
    intro l hl'
    rw [hfree, List.mem_filter] at hl'
    exact ⟨hl l hl'.1, by simpa using hl'.2⟩
  have hw : loadWork num' free w = power (S1.nDofs + S1.nMpc) (fun i => loadTotal (fun b => num' (keyOf b)) i free) w := by
    rw [power_loadTotal]
    · rfl
    · intro l hl'
      have := hb.range (hin l hl').1
      omega
  rw [hw]
  have hc : power S1.nConstr (comp S'.vecR) w = power (S1.nDofs + S1.nMpc) (fun i => if i ≤ S1.nConstr then comp S'.vecR i else 0) w := by
    unfold power
    have hle : S1.nConstr ≤ S1.nDofs + S1.nMpc := by omega
    obtain ⟨d, hd'⟩ := Nat.exists_eq_add_of_le hle
    rw [hd', Finset.sum_range_add]
    have : ∑ x ∈ range d, (if S1.nConstr + x + 1 ≤ S1.nConstr then comp S'.vecR (S1.nConstr + x + 1) else 0) * w (S1.nConstr + x + 1) = 0 :=
      Finset.sum_eq_zero fun x _ => by rw [if_neg (by omega), zero_mul]
    rw [this, add_zero]
    refine Finset.sum_congr rfl fun x hx => ?_
    rw [Finset.mem_range] at hx
    beta_reduce
    rw [if_pos (by omega)]
  rw [hc, ← power_add]
  refine power_congr fun i i1 i2 => ?_
  congr 1
  by_cases h1 : i ≤ S1.nConstr
  · rw [if_pos h1, loadTotal_none, add_zero]
    intro l hl' he
    have := hb.freeRange (hin l hl').1 (hin l hl').2
    omega
  · rw [if_neg h1, zero_add]
    by_cases h2 : i ≤ S1.nDofs
    · obtain ⟨k, k1, k2, rfl⟩ := hb.freeOf (by omega) h2
      rw [ha.applied k k1 k2, loadTotal_eq hb.inj k1 free fun l hl' => (hin l hl').1]
      unfold loadsOn
      congr 2
      rw [hfree, List.filter_filter]
      refine List.filter_congr fun l _ => ?_
      by_cases hk : keyOf l = k
      · simp [hk, k2]
      · simp [hk]
    · rw [ha.noLoad i (by omega) i2, loadTotal_none]
      intro l hl' he
      have := hb.range (hin l hl').1
      omega

/-- Loads at DoFs that do not move do no work. -/
theorem loadWork_free {nm : Key → Nat} {cs : List Key} {w : Nat → K} (hw : ∀ k ∈ cs, w (nm k) = 0) : ∀ ls : List (Bc K),
    loadWork nm (ls.filter fun l => keyOf l ∉ cs) w = loadWork nm ls w
  | [] => rfl
  | l :: ls => by
    have ih := loadWork_free hw ls
    unfold loadWork at ih ⊢
    rw [List.map_cons, List.sum_cons, ← ih]
    by_cases h : keyOf l ∈ cs
    · rw [List.filter_cons_of_neg (by simpa using h), hw _ h, mul_zero, zero_add]
    · rw [List.filter_cons_of_pos (by simpa using h), List.map_cons, List.sum_cons]

/-! ## C132 -/

/-- C132, with the deviation of the code: for prescribed values that are zero or larger than `1e-20`, after every linear solution the
reported reactions, the given loads that are not at fixed DoFs and the loads of elements and constraint equations are in balance for
every free motion. -/
theorem C132_reported {E : Type} {S0 : Storage K} {calls : List RegCall} {new : List (Mpc K)} {loads fixs : List (Bc K)}
    {el : Elems E K} (h : Problem S0 calls new loads fixs el)
    (hfix : ∀ f ∈ fixs, f.value = 0 ∨ (1 / 10 ^ 20 : K) < |f.value|) {eqs : EqSolver K} (he : Exact eqs) (e : E)
    {S' : Storage K} {e' : E} (hs : linearSolve eqs el loads fixs calls new S0 e = .ok (S', e')) :
    ∃ S1 num, S0.prepare calls new (fixKeys fixs) = .ok S1 ∧
      (∀ k ∈ regKeys calls, S1.eqNumber k.1 k.2.1 k.2.2 = .ok (num k)) ∧
      ∃ k f, StiffIs S' k ∧ LoadIs S' f ∧ (∀ i j, k i j = Assembled el e S1 num 0 i j) ∧ (∀ i, f i = AssembledLoad el e S1 i) ∧
        ∀ w, Free k (S1.nDofs + S1.nMpc) w →
        Balance num (loads.filter fun l => keyOf l ∉ fixKeys fixs) f (comp S'.vecR) S1.nConstr (S1.nDofs + S1.nMpc) w := by
  rcases C18_full_system_partial h hfix he e with ⟨hf, _⟩ | ⟨S1, num, hprep, hnum, ⟨hf, _⟩ | ⟨S2, e2, h1, ha, k, f, hk, hf, hk2, hf2, hrow⟩⟩
  · rw [hs] at hf; cases hf
  · rw [hs] at hf; cases hf
  · have e12 := Res.ok.inj (hs.symm.trans h1)
    have e1 : S' = S2 := congrArg Prod.fst e12
    subst e1
    refine ⟨S1, num, hprep, hnum, k, f, hk, hf, hk2, hf2, fun w hw => ?_⟩
    obtain ⟨A, hb⟩ := base_of_prepare h.legal hprep hnum
    have hsym : ∀ i j, k i j = k j i := fun i j => by rw [hk2, hk2, assembled_symm]
    have h0 : power (S1.nDofs + S1.nMpc) (fun i => f i + comp S'.vecR i) w = 0 := by
      have e1 : power (S1.nDofs + S1.nMpc) (fun i => f i + comp S'.vecR i) w = form (S1.nDofs + S1.nMpc) k w (comp S'.vecU) := by
        rw [form_rows]
        unfold power
        refine Finset.sum_congr rfl fun i hi => ?_
        rw [Finset.mem_range] at hi
        rw [hrow _ (by omega) (by omega), mul_comm]
      rw [e1, form_symm _ hsym, form_rows]
      refine Finset.sum_eq_zero fun i hi => ?_
      rw [Finset.mem_range] at hi
      rw [hw _ (by omega) (by omega), mul_zero]
    rw [power_add, power_R hb ha h.loads] at h0
    unfold Balance
    rw [← h0]
    ring

/-- C132 for prescribed values that are zero or larger than `1e-20` and loads that are not at fixed DoFs: after every linear solution the
reported reactions, the given loads and the loads of elements and constraint equations are in balance for
every free motion. Missing from the full statement: loads at fixed DoFs, for which it is false (`C132_loads_violated`), and
smaller prescribed values (`C132_tiny_violated`). -/
theorem C132_balance_partial {E : Type} {S0 : Storage K} {calls : List RegCall} {new : List (Mpc K)} {loads fixs : List (Bc K)}
    {el : Elems E K} (h : Problem S0 calls new loads fixs el)
    (hfix : ∀ f ∈ fixs, f.value = 0 ∨ (1 / 10 ^ 20 : K) < |f.value|) {eqs : EqSolver K} (he : Exact eqs) (e : E)
    {S' : Storage K} {e' : E} (hs : linearSolve eqs el loads fixs calls new S0 e = .ok (S', e'))
    (hfree : ∀ l ∈ loads, keyOf l ∉ fixKeys fixs) :
    ∃ S1 num, S0.prepare calls new (fixKeys fixs) = .ok S1 ∧
      (∀ k ∈ regKeys calls, S1.eqNumber k.1 k.2.1 k.2.2 = .ok (num k)) ∧
      ∃ k f, StiffIs S' k ∧ LoadIs S' f ∧ (∀ i j, k i j = Assembled el e S1 num 0 i j) ∧ (∀ i, f i = AssembledLoad el e S1 i) ∧
        ∀ w, Free k (S1.nDofs + S1.nMpc) w →
        Balance num loads f (comp S'.vecR) S1.nConstr (S1.nDofs + S1.nMpc) w := by
  have := C132_reported h hfix he e hs
  rwa [List.filter_eq_self.2 (fun l hl => by simpa using hfree l hl)] at this

/-- C132 is violated by loads at fixed DoFs: a spring between two nodes, one of them held and loaded with 1. The reported reaction is 0, so
that the sum of forces on the free body is 1. -/
theorem C132_loads_violated :
    ∃ (S1 S' : Storage ℚ) (num : Key → Nat) (k : Nat → Nat → ℚ) (f : Nat → ℚ),
      Problem bar barCalls [] [⟨1, .UX, 1⟩] [⟨1, .UX, 0⟩] spring ∧
      bar.prepare barCalls [] (fixKeys [(⟨1, .UX, 0⟩ : Bc ℚ)]) = .ok S1 ∧
      (∀ k ∈ regKeys barCalls, S1.eqNumber k.1 k.2.1 k.2.2 = .ok (num k)) ∧
      linearSolve Gauss.solveEquations spring [⟨1, .UX, 1⟩] [⟨1, .UX, 0⟩] barCalls [] bar () = .ok (S', ()) ∧
      StiffIs S' k ∧ LoadIs S' f ∧ Free k (S1.nDofs + S1.nMpc) (fun _ => 1) ∧
      ¬ Balance num [⟨1, .UX, 1⟩] f (comp S'.vecR) S1.nConstr (S1.nDofs + S1.nMpc) (fun _ => 1) := by
  have hprob := bar_problem (t := false) [⟨1, .UX, 1⟩] (by decide) 0
  obtain ⟨_, _, S'', _, _, hs⟩ := bar_solved [⟨1, .UX, 1⟩] (by decide) 0
  rcases C18_full_system_partial hprob (by simp) gauss_exact () with ⟨hf, _⟩ | ⟨S1, num, hprep, hnum, ⟨hf, _⟩ |
    ⟨S', e', h1, ha, k, f, hk, hf, hk2, hf2, hrow⟩⟩
  · rw [hs] at hf; cases hf
  · rw [hs] at hf; cases hf
  · obtain ⟨c1, c2, c3, c4, n1, n2, _, _, c7, c8⟩ := bar_prepared hprep hnum
    refine ⟨S1, S', num, k, f, hprob, hprep, hnum, h1, hk, hf, ?_, ?_⟩
    · rw [c3, c4]
      intro i i1 i2
      unfold rowMul
      simp only [Finset.sum_range_succ, Finset.sum_range_zero, hk2, c7]
      have : i = 1 ∨ i = 2 := by omega
      rcases this with rfl | rfl <;> simp [Same]
    · have r1 := hrow 1 (by omega) (by omega)
      have r2 := hrow 2 (by omega) (by omega)
      have a2 := ha.applied (.node, 2, .UX) (by decide) (by decide)
      rw [n2] at a2
      have a2' : comp S'.vecR 2 = 0 := a2
      rw [c3, c4] at r1 r2
      rw [a2'] at r2
      unfold rowMul at r1 r2
      simp only [Finset.sum_range_succ, Finset.sum_range_zero, hk2, c7, hf2, c8] at r1 r2
      simp [Same] at r1 r2
      intro hbal
      unfold Balance power loadWork at hbal
      rw [c1, c3, c4] at hbal
      simp [hf2, c8] at hbal
      linarith

/-- C132 is violated by tiny prescribed values: the spring without loads, one node moved by `1e-21`. A reaction is reported though nothing
else acts on the free body. -/
theorem C132_tiny_violated :
    ∃ (S1 S' : Storage ℚ) (num : Key → Nat) (k : Nat → Nat → ℚ) (f : Nat → ℚ),
      Problem bar barCalls [] [] [⟨1, .UX, 1 / 10 ^ 21⟩] spring ∧
      bar.prepare barCalls [] (fixKeys [(⟨1, .UX, 1 / 10 ^ 21⟩ : Bc ℚ)]) = .ok S1 ∧
      (∀ k ∈ regKeys barCalls, S1.eqNumber k.1 k.2.1 k.2.2 = .ok (num k)) ∧
      linearSolve Gauss.solveEquations spring [] [⟨1, .UX, 1 / 10 ^ 21⟩] barCalls [] bar () = .ok (S', ()) ∧
      StiffIs S' k ∧ LoadIs S' f ∧ Free k (S1.nDofs + S1.nMpc) (fun _ => 1) ∧
      ¬ Balance num [] f (comp S'.vecR) S1.nConstr (S1.nDofs + S1.nMpc) (fun _ => 1) := by
  have hprob := bar_problem (t := false) [] (by simp) (1 / 10 ^ 21)
  obtain ⟨_, _, S'', _, _, hs⟩ := bar_solved [] (by simp) (1 / 10 ^ 21)
  rcases linear_solve hprob gauss_exact () with ⟨hf, _⟩ | ⟨S1, num, hprep, hnum, ⟨hf, _⟩ | ⟨S', e', h1, ha, _, k, f, hk, hf, hk2, hf2, h7, h8, _⟩⟩
  · rw [hs] at hf; cases hf
  · rw [hs] at hf; cases hf
  · obtain ⟨c1, c2, c3, c4, n1, n2, _, _, c7, c8⟩ := bar_prepared hprep hnum
    refine ⟨S1, S', num, k, f, hprob, hprep, hnum, h1, hk, hf, ?_, ?_⟩
    · rw [c3, c4]
      intro i i1 i2
      unfold rowMul
      simp only [Finset.sum_range_succ, Finset.sum_range_zero, hk2, c7]
      have : i = 1 ∨ i = 2 := by omega
      rcases this with rfl | rfl <;> simp [Same]
    · have r1 := h8 1 (by omega) (by omega)
      have r2 := h7 2 (by omega) (by omega)
      have a2 := ha.applied (.node, 2, .UX) (by decide) (by simp [fixKeys, keyOf])
      rw [n2] at a2
      have a2' : comp S'.vecR 2 = 0 := a2
      have hu : comp S'.vecU 1 = 1 / 10 ^ 21 := by
        have := ha.prescribed (.node, 1, .UX) (by decide) (1 / 10 ^ 21) rfl
        rw [n1] at this
        exact this
      have hkept : kept (1 / 10 ^ 21 : ℚ) = 0 := by
        unfold kept
        rw [if_neg]
        rw [abs_of_pos (by positivity)]
        norm_num
      rw [c1, c3, c4] at r1
      rw [c3, c4, a2'] at r2
      unfold rowMul at r1 r2
      simp only [Finset.sum_range_succ, Finset.sum_range_zero, hk2, c7, hf2, c8, zero_add, Nat.le_refl, if_true, hu, hkept] at r1 r2
      simp [Same] at r1 r2
      intro hbal
      unfold Balance power loadWork at hbal
      rw [c1, c3, c4] at hbal
      simp [hf2, c8] at hbal
      have hpos : (0 : ℚ) < (10 ^ 21)⁻¹ := by positivity
      linarith

/-- The same spring, loaded at the node that is not held. -/
example : ∃ (S' : Storage ℚ), Problem bar barCalls [] [⟨2, .UX, 5⟩] [⟨1, .UX, 3⟩] spring ∧
    linearSolve Gauss.solveEquations spring [⟨2, .UX, 5⟩] [⟨1, .UX, 3⟩] barCalls [] bar () = .ok (S', ()) ∧
    (∀ f ∈ [(⟨1, .UX, 3⟩ : Bc ℚ)], f.value = 0 ∨ (1 / 10 ^ 20 : ℚ) < |f.value|) ∧
    ∀ l ∈ [(⟨2, .UX, 5⟩ : Bc ℚ)], keyOf l ∉ fixKeys [(⟨1, .UX, 3⟩ : Bc ℚ)] := by
  obtain ⟨_, _, S', _, _, hs⟩ := bar_solved [⟨2, .UX, 5⟩] (by decide) 3
  refine ⟨S', bar_problem _ (by decide) 3, hs, ?_, by decide⟩
  intro f hf
  simp only [List.mem_singleton] at hf
  subst hf
  right
  norm_num

/-! ## C133 -/

/-- C133: for a model with DoFs fixed to zero, the loads of one solution do the same work on the displacements of another as the loads of
the other on the displacements of the one, with the loads of elements and constraint equations counted in both. -/
theorem C133_reciprocity {E : Type} {S0 : Storage K} {calls : List RegCall} {new : List (Mpc K)} {loads loads' fixs : List (Bc K)}
    {el : Elems E K} (h : Problem S0 calls new loads fixs el) (h' : Problem S0 calls new loads' fixs el)
    (hfix : ∀ f ∈ fixs, f.value = 0) {eqs : EqSolver K} (he : Exact eqs) (e : E) {S S' : Storage K} {e1 e2 : E}
    (hs : linearSolve eqs el loads fixs calls new S0 e = .ok (S, e1)) (hs' : linearSolve eqs el loads' fixs calls new S0 e = .ok (S', e2)) :
    ∃ S1 num, S0.prepare calls new (fixKeys fixs) = .ok S1 ∧
      (∀ k ∈ regKeys calls, S1.eqNumber k.1 k.2.1 k.2.2 = .ok (num k)) ∧
      ∃ f, LoadIs S f ∧ LoadIs S' f ∧ (∀ i, f i = AssembledLoad el e S1 i) ∧
        loadWork num loads (comp S'.vecU) + power (S1.nDofs + S1.nMpc) f (comp S'.vecU) =
          loadWork num loads' (comp S.vecU) + power (S1.nDofs + S1.nMpc) f (comp S.vecU) := by
  rcases C18_full_system_partial h (fun f hf => .inl (hfix f hf)) he e with ⟨hf, _⟩ | ⟨S1, num, hprep, hnum, ⟨hf, _⟩ |
    ⟨T, e3, h1, ha, k, f, hk, hf, hk2, hf2, hrow⟩⟩
  · rw [hs] at hf; cases hf
  · rw [hs] at hf; cases hf
  rcases C18_full_system_partial h' (fun f hf => .inl (hfix f hf)) he e with ⟨hg, _⟩ | ⟨S1', num', hprep', hnum', ⟨hg, _⟩ |
    ⟨T', e4, h1', ha', k', f', hk', hf', hk2', hf2', hrow'⟩⟩
  · rw [hs'] at hg; cases hg
  · rw [hs'] at hg; cases hg
  have eS : S = T := congrArg Prod.fst (Res.ok.inj (hs.symm.trans h1))
  have eS' : S' = T' := congrArg Prod.fst (Res.ok.inj (hs'.symm.trans h1'))
  have e11 : S1' = S1 := Res.ok.inj (hprep'.symm.trans hprep)
  subst eS eS' e11
  obtain ⟨A, hb⟩ := base_of_prepare h.legal hprep hnum
  have hnn : ∀ k ∈ regKeys calls, num' k = num k := fun k hk => Res.ok.inj ((hnum' k hk).symm.trans (hnum k hk))
  have hb' : Base S0 S1' calls new fixs num' A :=
    ⟨hb.prep, fun k hk => (hnn k hk).trans (hb.agree k hk), hb.fixes, hb.U, hb.R⟩
  have hsh : SameShape S1'.mpcs (el.upd e S1' S1'.mpcs) := (h.elems S1' num hprep hnum e S1' rfl).2.2 _
  have hkk : ∀ i j, k' i j = k i j := fun i j => by
    rw [hk2', hk2]
    exact (asmM_congr hb' hsh 0 i j).symm.trans (asmM_congr hb hsh 0 i j)
  have hff : ∀ i, f' i = f i := fun i => by rw [hf2', hf2]
  have hsym : ∀ i j, k i j = k j i := fun i j => by rw [hk2, hk2, assembled_symm]
  obtain rfl : k' = k := funext fun i => funext fun j => hkk i j
  obtain rfl : f' = f := funext hff
  refine ⟨S1', num, hprep, hnum, f', hf, hf', hf2, ?_⟩
  have work : ∀ {ls : List (Bc K)} {T : Storage K} {nm : Key → Nat} {w : Nat → K}, Base S0 S1' calls new fixs nm A →
      Answer S1' T (regKeys calls) nm ls fixs → (∀ l ∈ ls, keyOf l ∈ regKeys calls) →
      (∀ i, 0 < i → i ≤ S1'.nDofs + S1'.nMpc → rowMul k' (comp T.vecU) (S1'.nDofs + S1'.nMpc) i = f' i + comp T.vecR i) →
      (∀ i, 0 < i → i ≤ S1'.nConstr → w i = 0) →
      form (S1'.nDofs + S1'.nMpc) k' w (comp T.vecU) = loadWork nm ls w + power (S1'.nDofs + S1'.nMpc) f' w := by
    intro ls T nm w hbb haa hll hr hw
    have e1 : form (S1'.nDofs + S1'.nMpc) k' w (comp T.vecU) = power (S1'.nDofs + S1'.nMpc) (fun i => f' i + comp T.vecR i) w := by
      rw [form_rows]
      unfold power
      refine Finset.sum_congr rfl fun i hi => ?_
      rw [Finset.mem_range] at hi
      rw [hr _ (by omega) (by omega), mul_comm]
    have e2 : power S1'.nConstr (comp T.vecR) w = 0 := by
      refine Finset.sum_eq_zero fun i hi => ?_
      rw [Finset.mem_range] at hi
      rw [hw _ (by omega) (by omega), mul_zero]
    rw [e1, power_add, power_R hbb haa hll, e2, zero_add, add_comm, loadWork_free]
    intro l hl
    exact hw _ (hbb.fixRange hl).1 (hbb.fixRange hl).2
  have zero : ∀ {ls : List (Bc K)} {T : Storage K} {nm : Key → Nat}, Base S0 S1' calls new fixs nm A →
      Answer S1' T (regKeys calls) nm ls fixs → ∀ i, 0 < i → i ≤ S1'.nConstr → comp T.vecU i = 0 := by
    intro ls T nm hbb haa i i1 i2
    obtain ⟨key, k1, k2, rfl⟩ := hbb.fixOf i1 i2
    obtain ⟨x, hx⟩ := Option.isSome_iff_exists.mp (lastFix_isSome.mpr k1)
    obtain ⟨fb, f1, _, f3⟩ := lastFix_mem hx
    rw [haa.prescribed key k2 x hx, ← f3, hfix fb f1]
  have w1 := work hb ha h.loads hrow (zero hb' ha')
  have w2 := work hb' ha' h'.loads hrow' (zero hb ha)
  have hlw : loadWork num' loads' (comp S.vecU) = loadWork num loads' (comp S.vecU) := by
    unfold loadWork
    congr 1
    refine List.map_congr_left fun l hl => ?_
    rw [hnn _ (h'.loads l hl)]
  rw [← w1, ← hlw, ← w2, form_symm _ hsym]

/-- The same spring with two loads. -/
example : ∃ S S' : Storage ℚ, Problem bar barCalls [] [⟨2, .UX, 5⟩] [⟨1, .UX, 0⟩] spring ∧
    Problem bar barCalls [] [⟨2, .UX, 1⟩, ⟨1, .UX, 7⟩] [⟨1, .UX, 0⟩] spring ∧
    linearSolve Gauss.solveEquations spring [⟨2, .UX, 5⟩] [⟨1, .UX, 0⟩] barCalls [] bar () = .ok (S, ()) ∧
    linearSolve Gauss.solveEquations spring [⟨2, .UX, 1⟩, ⟨1, .UX, 7⟩] [⟨1, .UX, 0⟩] barCalls [] bar () = .ok (S', ()) := by
  obtain ⟨_, _, S, _, _, hs⟩ := bar_solved [⟨2, .UX, 5⟩] (by decide) 0
  obtain ⟨_, _, S', _, _, hs'⟩ := bar_solved [⟨2, .UX, 1⟩, ⟨1, .UX, 7⟩] (by decide) 0
  exact ⟨S, S', bar_problem _ (by decide) 0, bar_problem _ (by decide) 0, hs, hs'⟩

end Nla3d.Solver
