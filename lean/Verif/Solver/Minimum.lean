import Verif.Solver.Balance

/-!
# C134: linear solutions minimise the potential energy

Source: `LinearFESolver::solve`, src/lib/FESolver.cpp:336-396. The model is that of C18.
-/

set_option linter.unusedSectionVars false

namespace Nla3d.Solver

open Nla3d.Dof Nla3d.Block Nla3d.Sparse Nla3d.Storage Nla3d.TimeCtl Finset

variable {K : Type} [Field K] [LinearOrder K] [IsStrictOrderedRing K]

/-! ## Specification -/

/-- Potential energy of displacements of `n` DoFs: strain energy less the work of the loads of elements and of the given loads. -/
def potEnergy (n : Nat) (k : Nat → Nat → K) (f : Nat → K) (num : Key → Nat) (loads : List (Bc K)) (u : Nat → K) : K :=
  form n k u u / 2 - power n f u - loadWork num loads u

/-- Displacements that have the prescribed values and satisfy the constraint equations. -/
structure Admissible (regs : List Key) (num : Key → Nat) (fixs : List (Bc K)) (ms : List (Mpc K)) (v : Nat → K) : Prop where
  prescribed : ∀ k ∈ regs, ∀ x, lastFix k fixs = some x → v (num k) = x
  constraints : ∀ m ∈ ms, (m.eq.map fun t => t.coef * v (num (.node, t.node, t.dof))).sum = m.b

/-! ## Algebra -/

/-- The components from one to `n`. -/
def cut (n : Nat) (x : Nat → K) (i : Nat) : K := if i ≤ n then x i else 0

theorem sum_cut {n N : Nat} (h : n ≤ N) {g : Nat → K} (hg : ∀ i, n ≤ i → g i = 0) : ∑ i ∈ range N, g i = ∑ i ∈ range n, g i := by
  symm
  refine Finset.sum_subset (Finset.range_subset_range.2 h) fun i _ hi => hg i ?_
  rw [Finset.mem_range] at hi
  omega

theorem cut_pos {n i : Nat} (x : Nat → K) (h : i ≤ n) : cut n x i = x i := if_pos h

theorem cut_neg {n i : Nat} (x : Nat → K) (h : n < i) : cut n x i = 0 := if_neg (by omega)

theorem form_cut {n N : Nat} (h : n ≤ N) (k : Nat → Nat → K) (x y : Nat → K) : form N k (cut n x) (cut n y) = form n k x y := by
  unfold form
  rw [sum_cut h]
  · refine Finset.sum_congr rfl fun i hi => ?_
    rw [Finset.mem_range] at hi
    rw [sum_cut h]
    · refine Finset.sum_congr rfl fun j hj => ?_
      rw [Finset.mem_range] at hj
      rw [cut_pos _ (by omega), cut_pos _ (by omega)]
    · intro j hj
      rw [cut_neg y (by omega), mul_zero]
  · intro i hi
    refine Finset.sum_eq_zero fun j _ => ?_
    rw [cut_neg x (by omega), zero_mul, zero_mul]

theorem power_cut {n N : Nat} (h : n ≤ N) (f x : Nat → K) : power N f (cut n x) = power n f x := by
  unfold power
  rw [sum_cut h]
  · refine Finset.sum_congr rfl fun i hi => ?_
    rw [Finset.mem_range] at hi
    rw [cut_pos _ (by omega)]
  · intro i hi
    rw [cut_neg x (by omega), mul_zero]

theorem form_add_right (N : Nat) (k : Nat → Nat → K) (x y z : Nat → K) :
    form N k x (fun i => y i + z i) = form N k x y + form N k x z := by
  unfold form
  rw [← Finset.sum_add_distrib]
  refine Finset.sum_congr rfl fun i _ => ?_
  rw [← Finset.sum_add_distrib]
  exact Finset.sum_congr rfl fun j _ => by ring

theorem power_sub (N : Nat) (f x y : Nat → K) : power N f (fun i => x i - y i) = power N f x - power N f y := by
  unfold power
  rw [← Finset.sum_sub_distrib]
  exact Finset.sum_congr rfl fun i _ => by ring

theorem loadWork_sub (num : Key → Nat) (x y : Nat → K) : ∀ loads : List (Bc K),
    loadWork num loads (fun i => x i - y i) = loadWork num loads x - loadWork num loads y
  | [] => by simp [loadWork]
  | l :: ls => by
    have ih := loadWork_sub num x y ls
    unfold loadWork at ih ⊢
    simp only [List.map_cons, List.sum_cons, ih]
    ring

theorem sum_map_sub' {α : Type} (a b : α → K) : ∀ l : List α, (l.map fun t => a t - b t).sum = (l.map a).sum - (l.map b).sum
  | [] => by simp
  | t :: l => by
    simp only [List.map_cons, List.sum_cons, sum_map_sub' a b l]
    ring

/-- Expansion of the quadratic form around `u`. -/
theorem form_expand (n : Nat) {k : Nat → Nat → K} (hk : ∀ i j, k i j = k j i) (u v : Nat → K) :
    form n k v v = form n k u u + 2 * form n k (fun i => v i - u i) u + form n k (fun i => v i - u i) (fun i => v i - u i) := by
  have e1 : ∀ x : Nat → K, form n k x v = form n k x u + form n k x (fun i => v i - u i) := by
    intro x
    rw [← form_add_right]
    congr 1
    funext i
    ring
  rw [e1 v, form_symm n hk v u, e1 u, form_symm n hk v, e1 (fun i => v i - u i), form_symm n hk u (fun i => v i - u i)]
  ring

/-! ## C134 -/

/-- C134: after every linear solution the displacements are admissible, and the potential energy of any admissible displacements exceeds
theirs by the strain energy of the difference, which is a motion that vanishes at fixed DoFs and keeps the constraint equations. No
condition on prescribed values or loads. -/
theorem C134_energy {E : Type} {S0 : Storage K} {calls : List RegCall} {new : List (Mpc K)} {loads fixs : List (Bc K)}
    {el : Elems E K} (h : Problem S0 calls new loads fixs el) {eqs : EqSolver K} (he : Exact eqs) (e : E)
    {S' : Storage K} {e' : E} (hs : linearSolve eqs el loads fixs calls new S0 e = .ok (S', e')) :
    ∃ S1 num, S0.prepare calls new (fixKeys fixs) = .ok S1 ∧
      (∀ k ∈ regKeys calls, S1.eqNumber k.1 k.2.1 k.2.2 = .ok (num k)) ∧
      ∃ k f, StiffIs S' k ∧ LoadIs S' f ∧ (∀ i j, k i j = Assembled el e S1 num 0 i j) ∧ (∀ i, f i = AssembledLoad el e S1 i) ∧
        Admissible (regKeys calls) num fixs S'.mpcs (comp S'.vecU) ∧
        ∀ v, Admissible (regKeys calls) num fixs S'.mpcs v →
          potEnergy S1.nDofs k f num loads v = potEnergy S1.nDofs k f num loads (comp S'.vecU) +
            form S1.nDofs k (fun i => v i - comp S'.vecU i) (fun i => v i - comp S'.vecU i) / 2 := by
  rcases linear_solve h he e with ⟨hf, _⟩ | ⟨S1, num, hprep, hnum, ⟨hf, _⟩ | ⟨S2, e2, h1, ha, hms, k, f, hk, hf, hk2, hf2, hrow, _, _⟩⟩
  · rw [hs] at hf; cases hf
  · rw [hs] at hf; cases hf
  have e12 := Res.ok.inj (hs.symm.trans h1)
  have e1 : S' = S2 := congrArg Prod.fst e12
  subst e1
  refine ⟨S1, num, hprep, hnum, k, f, hk, hf, hk2, hf2, ⟨ha.prescribed, ha.mpcs⟩, fun v hv => ?_⟩
  obtain ⟨A, hb⟩ := base_of_prepare h.legal hprep hnum
  have hd := hb.prep.pre.dofs
  have hsym : ∀ i j, k i j = k j i := fun i j => by rw [hk2, hk2, assembled_symm]
  obtain ⟨hl1, hl2, hl3⟩ := h.elems S1 num hprep hnum e S1 rfl
  have hsh : SameShape S1.mpcs (el.upd e S1 S1.mpcs) := hl3 _
  set n := S1.nDofs with hn
  set N := S1.nDofs + S1.nMpc with hN
  set u := comp S'.vecU with hu
  set d : Nat → K := fun i => v i - u i with hdd
  have hnN : n ≤ N := by omega
  -- the difference vanishes at fixed DoFs
  have d0 : ∀ i, 0 < i → i ≤ S1.nConstr → d i = 0 := by
    intro i i1 i2
    obtain ⟨key, k1, k2, rfl⟩ := hb.fixOf i1 i2
    obtain ⟨x, hx⟩ := Option.isSome_iff_exists.mp (lastFix_isSome.mpr k1)
    show v _ - u _ = 0
    rw [hv.prescribed key k2 x hx, hu, ha.prescribed key k2 x hx, sub_self]
  -- rows of constraint equations
  have dm : ∀ i, n < i → i ≤ N → rowMul k (cut n d) N i = 0 := by
    intro i i1 i2
    have hin : i ∈ (el.upd e S1 S1.mpcs).map Mpc.eqNum := by
      have : (el.upd e S1 S1.mpcs).map Mpc.eqNum = S1.mpcs.map Mpc.eqNum := by
        have : ∀ l : List (Mpc K), l.map Mpc.eqNum = (l.map mpcShape).map Prod.fst := by
          intro l; rw [List.map_map]; rfl
        rw [this, this, hsh]
      rw [this, hb.prep.ready.eqNums, List.mem_range'_1]
      unfold Storage.nMpc at hN
      omega
    obtain ⟨m, hm, rfl⟩ := List.mem_map.1 hin
    obtain ⟨-, -, hr⟩ := mpc_row hb hl1 hl2 hsh hm
    have hr := hr fun j => cut n d (j + 1)
    have e1 : rowMul k (cut n d) N m.eqNum =
        ∑ j ∈ range N, asmM S1.transient (Storage.num A) (el.build e S1) (el.upd e S1 S1.mpcs) (el.cm e S1) 0 m.eqNum (j + 1) * cut n d (j + 1) := by
      unfold rowMul
      refine Finset.sum_congr rfl fun j _ => ?_
      rw [hk2, asmM_congr hb hsh]
      rfl
    rw [e1, hr]
    have hm' : m ∈ S'.mpcs := by rw [hms]; exact hm
    have c1 := hv.constraints m hm'
    have c2 := ha.mpcs m hm'
    have hterm : ∀ t ∈ m.eq, 0 < num (.node, t.node, t.dof) ∧ num (.node, t.node, t.dof) ≤ n := by
      intro t ht
      obtain ⟨m0, h1, h2, h3⟩ := hsh.mem hm
      obtain ⟨t0, h4, h5, h6⟩ := h3 t ht
      have := (hb.prep.ready.isSome _).mp ((hb.prep.pre.terms m0 h1).2 t0 h4)
      rw [h5, h6] at this
      exact hb.range this
    have : (m.eq.map fun t => t.coef * cut n d (num (.node, t.node, t.dof) - 1 + 1)) =
        m.eq.map fun t => t.coef * v (num (.node, t.node, t.dof)) - t.coef * u (num (.node, t.node, t.dof)) := by
      refine List.map_congr_left fun t ht => ?_
      rw [Nat.sub_add_cancel (hterm t ht).1, cut_pos _ (hterm t ht).2, ← mul_sub]
    rw [this, sum_map_sub', c1, c2, sub_self]
  -- work of the solution on the difference
  have w1 : form N k (cut n d) u = power n f d + loadWork num loads d := by
    have e1 : form N k (cut n d) u = power N (fun i => f i + comp S'.vecR i) (cut n d) := by
      rw [form_rows]
      unfold power
      refine Finset.sum_congr rfl fun i hi => ?_
      rw [Finset.mem_range] at hi
      by_cases hc : i + 1 ≤ S1.nConstr
      · rw [cut_pos _ (by omega), d0 _ (by omega) hc, zero_mul, mul_zero]
      · rw [hrow _ (by omega) (by omega), mul_comm]
    have e2 : power S1.nConstr (comp S'.vecR) (cut n d) = 0 := by
      refine Finset.sum_eq_zero fun i hi => ?_
      rw [Finset.mem_range] at hi
      rw [cut_pos _ (by omega), d0 _ (by omega) (by omega), mul_zero]
    have e3 : loadWork num loads (cut n d) = loadWork num loads d := by
      unfold loadWork
      congr 1
      refine List.map_congr_left fun l hl => ?_
      rw [cut_pos _ (hb.range (h.loads l hl)).2]
    rw [e1, power_add, power_R hb ha h.loads, e2, zero_add, power_cut hnN, loadWork_free, e3]
    intro key hkey
    have := hb.fixRange hkey
    rw [cut_pos _ (by omega), d0 _ this.1 this.2]
  have w2 : form N k (cut n d) u = form n k d u := by
    have e1 : u = fun i => cut n u i + (if i ≤ n then 0 else u i) := by
      funext i
      unfold cut
      split <;> simp
    rw [e1, form_add_right, form_cut hnN]
    have e2 : form N k (cut n d) (fun i => if i ≤ n then 0 else u i) = 0 := by
      rw [form_symm _ hsym, form_rows]
      refine Finset.sum_eq_zero fun i hi => ?_
      rw [Finset.mem_range] at hi
      by_cases hc : i + 1 ≤ n
      · rw [if_pos hc, zero_mul]
      · rw [dm _ (by omega) (by omega), mul_zero]
    rw [e2, add_zero, ← e1]
  have w3 : form n k d u = power n f v - power n f u + (loadWork num loads v - loadWork num loads u) := by
    rw [← w2, w1, hdd, power_sub, loadWork_sub]
  unfold potEnergy
  rw [form_expand n hsym u v]
  show (form n k u u + 2 * form n k d u + form n k d d) / 2 - _ - _ = _
  rw [w3]
  ring

/-- C134: if the stiffness matrix is positive semidefinite on the motions that keep fixed DoFs and constraint equations, the solution has
the least potential energy; if it is positive definite there, no other displacements have as little. -/
theorem C134_minimum {E : Type} {S0 : Storage K} {calls : List RegCall} {new : List (Mpc K)} {loads fixs : List (Bc K)}
    {el : Elems E K} (h : Problem S0 calls new loads fixs el) {eqs : EqSolver K} (he : Exact eqs) (e : E)
    {S' : Storage K} {e' : E} (hs : linearSolve eqs el loads fixs calls new S0 e = .ok (S', e')) :
    ∃ S1 num, S0.prepare calls new (fixKeys fixs) = .ok S1 ∧
      (∀ k ∈ regKeys calls, S1.eqNumber k.1 k.2.1 k.2.2 = .ok (num k)) ∧
      ∃ k f, StiffIs S' k ∧ LoadIs S' f ∧ (∀ i j, k i j = Assembled el e S1 num 0 i j) ∧ (∀ i, f i = AssembledLoad el e S1 i) ∧
        ((∀ d, (∀ key ∈ fixKeys fixs, d (num key) = 0) →
            (∀ m ∈ S'.mpcs, (m.eq.map fun t => t.coef * d (num (.node, t.node, t.dof))).sum = 0) → 0 ≤ form S1.nDofs k d d) →
          ∀ v, Admissible (regKeys calls) num fixs S'.mpcs v →
            potEnergy S1.nDofs k f num loads (comp S'.vecU) ≤ potEnergy S1.nDofs k f num loads v) ∧
        ((∀ d, (∀ key ∈ fixKeys fixs, d (num key) = 0) →
            (∀ m ∈ S'.mpcs, (m.eq.map fun t => t.coef * d (num (.node, t.node, t.dof))).sum = 0) →
            (∃ key ∈ regKeys calls, d (num key) ≠ 0) → 0 < form S1.nDofs k d d) →
          ∀ v, Admissible (regKeys calls) num fixs S'.mpcs v →
            potEnergy S1.nDofs k f num loads v ≤ potEnergy S1.nDofs k f num loads (comp S'.vecU) →
            ∀ key ∈ regKeys calls, v (num key) = comp S'.vecU (num key)) := by
  obtain ⟨S1, num, hprep, hnum, k, f, hk, hf, hk2, hf2, hu, hE⟩ := C134_energy h he e hs
  obtain ⟨A, hb⟩ := base_of_prepare h.legal hprep hnum
  have kept0 : ∀ v, Admissible (regKeys calls) num fixs S'.mpcs v →
      (∀ key ∈ fixKeys fixs, v (num key) - comp S'.vecU (num key) = 0) ∧
      ∀ m ∈ S'.mpcs, (m.eq.map fun t => t.coef * (v (num (.node, t.node, t.dof)) - comp S'.vecU (num (.node, t.node, t.dof)))).sum = 0 := by
    intro v hv
    refine ⟨fun key hkey => ?_, fun m hm => ?_⟩
    · obtain ⟨x, hx⟩ := Option.isSome_iff_exists.mp (lastFix_isSome.mpr hkey)
      obtain ⟨fb, f1, f2⟩ := List.mem_map.1 hkey
      have hr : key ∈ regKeys calls := f2 ▸ hb.fixes fb f1
      rw [hv.prescribed key hr x hx, hu.prescribed key hr x hx, sub_self]
    · simp only [mul_sub]
      rw [sum_map_sub', hv.constraints m hm, hu.constraints m hm, sub_self]
  refine ⟨S1, num, hprep, hnum, k, f, hk, hf, hk2, hf2, fun hpos v hv => ?_, fun hpos v hv hle key hkey => ?_⟩
  · have := hpos (fun i => v i - comp S'.vecU i) (kept0 v hv).1 (kept0 v hv).2
    rw [hE v hv]
    linarith
  · by_contra hne
    have := hpos (fun i => v i - comp S'.vecU i) (kept0 v hv).1 (kept0 v hv).2 ⟨key, hkey, sub_ne_zero.2 hne⟩
    rw [hE v hv] at hle
    linarith

/-- The spring with one node held: its stiffness is positive definite on the motions of the other node, so that the solution is the only
minimum. -/
example : ∃ (S1 S' : Storage ℚ) (num : Key → Nat) (k : Nat → Nat → ℚ) (f : Nat → ℚ),
    linearSolve Gauss.solveEquations spring [⟨2, .UX, 5⟩] [⟨1, .UX, 3⟩] barCalls [] bar () = .ok (S', ()) ∧
    ∀ v, Admissible (regKeys barCalls) num [⟨1, .UX, 3⟩] S'.mpcs v →
      potEnergy S1.nDofs k f num [⟨2, .UX, 5⟩] v ≤ potEnergy S1.nDofs k f num [⟨2, .UX, 5⟩] (comp S'.vecU) →
      ∀ key ∈ regKeys barCalls, v (num key) = comp S'.vecU (num key) := by
  obtain ⟨_, _, S', _, _, hs⟩ := bar_solved [⟨2, .UX, 5⟩] (by decide) 3
  obtain ⟨S1, num, hprep, hnum, k, f, hk, hf, hk2, hf2, -, hmin⟩ := C134_minimum (bar_problem _ (by decide) 3) gauss_exact () hs
  refine ⟨S1, S', num, k, f, hs, hmin ?_⟩
  obtain ⟨c1, c2, c3, c4, n1, n2, _, _, c7, c8⟩ := bar_prepared hprep hnum
  intro d hd _ hne
  have d1 : d 1 = 0 := by
    have := hd (.node, 1, .UX) (by simp [fixKeys, keyOf])
    rwa [n1] at this
  have d2 : d 2 ≠ 0 := by
    obtain ⟨key, hkey, hne⟩ := hne
    have : key = (.node, 1, .UX) ∨ key = (.node, 2, .UX) := by
      simpa [barCalls, regKeys] using hkey
    rcases this with rfl | rfl
    · rw [n1] at hne; exact absurd d1 hne
    · rw [n2] at hne; exact hne
  have : form S1.nDofs k d d = d 2 * d 2 := by
    rw [c3]
    unfold form
    simp only [Finset.sum_range_succ, Finset.sum_range_zero, hk2, c7, d1]
    simp [Same, d1]
  rw [this]
  exact mul_self_pos.2 d2

end Nla3d.Solver
