import Verif.Solver.Blocks

/-!
# Vectors, boundary conditions and the reduced system
-/

set_option linter.unusedSectionVars false

namespace Nla3d.Solver

open Nla3d.Dof Nla3d.Block Nla3d.Sparse Nla3d.Storage Nla3d.TimeCtl Finset

variable {K : Type}

section vec
variable [Zero K]

theorem IsVec.congr {l : List K} {n : Nat} {x y : Nat → K} (h : IsVec l n x) (he : ∀ i < n, x i = y i) : IsVec l n y :=
  ⟨h.1, fun i hi => (h.2 i hi).trans (he i hi)⟩

theorem IsVec.get {l : List K} {n : Nat} {x : Nat → K} (h : IsVec l n x) {i : Nat} (hi : i < n) : l[i]? = some (x i) := by
  rw [getElem?_of_getD (by rw [h.1]; exact hi), h.2 i hi]

theorem IsVec.of_get {l : List K} {n : Nat} {x : Nat → K} (hl : l.length = n) (h : ∀ i < n, l[i]? = some (x i)) :
    IsVec l n x := ⟨hl, fun i hi => getD_of_getElem? (h i hi)⟩

theorem IsVec.replicate (n : Nat) (a : K) : IsVec (List.replicate n a) n (fun _ => a) := by
  refine IsVec.of_get (List.length_replicate ..) ?_
  intro i hi
  rw [List.getElem?_replicate, if_pos hi]

theorem IsVec.seg {l : List K} {N : Nat} {x : Nat → K} (h : IsVec l N x) {off n : Nat} (hn : off + n ≤ N) :
    IsVec (seg l off n) n (fun i => x (off + i)) := by
  unfold Solver.seg
  refine IsVec.of_get ?_ ?_
  · rw [List.length_take, List.length_drop, h.1]; omega
  · intro i hi
    rw [List.getElem?_take, if_pos hi, List.getElem?_drop]
    exact h.get (by omega)

theorem IsVec.put {l xs : List K} {N m : Nat} {x y : Nat → K} (h : IsVec l N x) (hx : IsVec xs m y) {off : Nat}
    (hn : off + m ≤ N) : IsVec (put l off xs) N (fun i => if off ≤ i ∧ i < off + m then y (i - off) else x i) := by
  unfold Solver.put
  have hl := h.1
  have hm := hx.1
  refine IsVec.of_get ?_ ?_
  · simp only [List.length_append, List.length_take, List.length_drop]; omega
  · intro i hi
    by_cases h1 : i < off
    · rw [if_neg (by omega), List.getElem?_append_left (by rw [List.length_take]; omega), List.getElem?_take, if_pos h1]
      exact h.get hi
    · rw [List.getElem?_append_right (by rw [List.length_take]; omega), List.length_take, hl, min_eq_left (by omega)]
      by_cases h2 : i < off + m
      · rw [if_pos ⟨by omega, h2⟩, List.getElem?_append_left (by omega)]
        exact hx.get (by omega)
      · rw [if_neg (by omega), List.getElem?_append_right (by omega), List.getElem?_drop, hm]
        have : off + m + (i - off - m) = i := by omega
        rw [this]
        exact h.get hi

theorem IsVec.zipWith {l l' : List K} {n : Nat} {x y : Nat → K} (f : K → K → K) (h : IsVec l n x) (h' : IsVec l' n y) :
    IsVec (List.zipWith f l l') n (fun i => f (x i) (y i)) := by
  refine IsVec.of_get ?_ ?_
  · rw [List.length_zipWith, h.1, h'.1, min_self]
  · intro i hi
    rw [List.getElem?_zipWith, h.get hi, h'.get hi]

theorem IsVec.map {l : List K} {n : Nat} {x : Nat → K} (f : K → K) (h : IsVec l n x) :
    IsVec (l.map f) n (fun i => f (x i)) := by
  refine IsVec.of_get ?_ ?_
  · rw [List.length_map, h.1]
  · intro i hi
    rw [List.getElem?_map, h.get hi]; rfl

theorem IsVec.set {l : List K} {n : Nat} {x : Nat → K} (h : IsVec l n x) (j : Nat) (a : K) :
    IsVec (l.set j a) n (fun i => if i = j then a else x i) := by
  refine IsVec.of_get (by rw [List.length_set, h.1]) ?_
  intro i hi
  rw [List.getElem?_set]
  by_cases hij : j = i
  · subst hij; rw [if_pos rfl, if_pos (by rw [h.1]; exact hi), if_pos rfl]
  · rw [if_neg hij, if_neg (Ne.symm hij)]; exact h.get hi

theorem IsVec.append {l l' : List K} {n m : Nat} {x y : Nat → K} (h : IsVec l n x) (h' : IsVec l' m y) :
    IsVec (l ++ l') (n + m) (fun i => if i < n then x i else y (i - n)) := by
  refine IsVec.of_get (by rw [List.length_append, h.1, h'.1]) ?_
  intro i hi
  by_cases h1 : i < n
  · rw [if_pos h1, List.getElem?_append_left (by rw [h.1]; exact h1)]; exact h.get h1
  · rw [if_neg h1, List.getElem?_append_right (by rw [h.1]; omega), h.1]; exact h'.get (by omega)

end vec

/-! ## State of a run -/

/-- The storage with other contents of `vecU` and `vecR`. -/
def withUR (S : Storage K) (U R : List K) : Storage K := { S with vecU := U, vecR := R }

/-- State of a storage during a solution that started with `S1`: matrix values `M`, loads `v` (indices from 1), DoF values
`u` and external loads `r` (indices from 0). -/
structure Run [Zero K] [Add K] (S1 S : Storage K) (A : Side → Spec) (M : Nat → Nat → Nat → K) (v u r : Nat → K) : Prop where
  during : During (withUR S1 S.vecU S.vecR) S A M v
  U : IsVec S.vecU (S1.nDofs + S1.nMpc) u
  R : IsVec S.vecR (S1.nDofs + S1.nMpc) r

section run
variable [AddMonoid K] {S1 S : Storage K} {A : Side → Spec} {M : Nat → Nat → Nat → K} {v u r : Nat → K}

theorem Run.setUR (h : Run S1 S A M v u r) {U' R' : List K} {u' r' : Nat → K}
    (hU : IsVec U' (S1.nDofs + S1.nMpc) u') (hR : IsVec R' (S1.nDofs + S1.nMpc) r') :
    Run S1 (withUR S U' R') A M v u' r' := by
  refine ⟨⟨?_, ?_, ?_⟩, hU, hR⟩
  · have hl := h.during.live
    exact ⟨hl.mat, hl.vec, hl.load, hl.dofs⟩
  · have hf := h.during.frame
    unfold Frame at hf ⊢
    show _ = { S1 with mat := S.mat, vecF := S.vecF, mpcs := S.mpcs, vecU := U', vecR := R' }
    rw [hf]
    rfl
  · exact h.during.shape

theorem Run.frame (h : Run S1 S A M v u r) :
    S = { S1 with mat := S.mat, vecF := S.vecF, mpcs := S.mpcs, vecU := S.vecU, vecR := S.vecR } := h.during.frame

theorem Run.nDofs (h : Run S1 S A M v u r) : S.nDofs = S1.nDofs := by rw [h.frame]
theorem Run.nConstr (h : Run S1 S A M v u r) : S.nConstr = S1.nConstr := by rw [h.frame]
theorem Run.nUnknown (h : Run S1 S A M v u r) : S.nUnknown = S1.nUnknown := by rw [h.frame]
theorem Run.nMats (h : Run S1 S A M v u r) : S.nMats = S1.nMats := by unfold Storage.nMats; rw [h.frame]
theorem Run.nMpc (h : Run S1 S A M v u r) : S.nMpc = S1.nMpc := by
  unfold Storage.nMpc
  exact h.during.shape.length.symm ▸ rfl

theorem Run.F (h : Run S1 S A M v u r) : IsVec S.vecF (S1.nDofs + S1.nMpc) (fun i => v (i + 1)) := by
  refine IsVec.of_get ?_ ?_
  · rw [h.during.live.vec, h.nDofs, h.nMpc]
  · intro i hi
    have := h.during.live.load (i + 1) (by omega) (by rw [h.nDofs, h.nMpc]; omega)
    simpa using this

theorem Run.eqNumber (h : Run S1 S A M v u r) (hp : Pre S1 A) {n : Nat} {t : DofType}
    (hk : (at' A (.node, n, t)).isSome) : S.eqNumber .node n t = .ok (num A (.node, n, t)) := by
  rw [h.during.frame.eqNumber]
  have : (withUR S1 S.vecU S.vecR).eqNumber .node n t = S1.eqNumber .node n t := rfl
  rw [this]
  exact eqNumber_num hp.sim hk

theorem pre_withUR (hp : Pre S1 A) (U R : List K) : Pre (withUR S1 U R) A :=
  ⟨hp.sim.congr rfl rfl rfl rfl, hp.mesh, hp.dofs, hp.range, hp.topo, hp.eqNum, hp.terms⟩

theorem Run.assemble (h : Run S1 S A M v u r) (hp : Pre S1 A) {build cm : List (Contrib K)}
    {upd : List (Mpc K) → List (Mpc K)}
    (hb : ∀ c ∈ build, Fine (S1.nDofs + S1.nMpc) S1.nMats (gAll S1 A) c)
    (hc : ∀ c ∈ cm, Fine (S1.nDofs + S1.nMpc) S1.nMats (gAll S1 A) c)
    (hu : ∀ ms, SameShape ms (upd ms)) :
    ∃ S', S.assemble build upd cm = .ok S' ∧ S'.mpcs = upd S.mpcs ∧
      Run S1 S' A (asmM S1.transient (num A) build (upd S.mpcs) cm) (asmV S1.transient build (upd S.mpcs) cm) u r := by
  obtain ⟨S', e1, e2, e3⟩ := assemble_during (pre_withUR hp S.vecU S.vecR) h.during (build := build) (cm := cm) hb hc hu
  have hf := e3.frame
  have hU : S'.vecU = S.vecU := by unfold Frame at hf; rw [hf]; rfl
  have hR : S'.vecR = S.vecR := by unfold Frame at hf; rw [hf]; rfl
  refine ⟨S', e1, e2, ?_, ?_, ?_⟩
  · rw [hU, hR]; exact e3
  · rw [hU]; exact h.U
  · rw [hR]; exact h.R

theorem start_run {S0 : Storage K} {calls : List RegCall} {new : List (Mpc K)} {cs : List Key}
    (hp : Prepared S0 S1 calls new cs A) (hU : S1.vecU = List.replicate (S1.nDofs + S1.nMpc) 0)
    (hR : S1.vecR = List.replicate (S1.nDofs + S1.nMpc) 0) :
    Run S1 S1 A (fun _ _ _ => 0) (fun _ => 0) (fun _ => 0) (fun _ => 0) :=
  ⟨⟨hp.live, rfl, rfl⟩, by rw [hU]; exact IsVec.replicate _ _, by rw [hR]; exact IsVec.replicate _ _⟩

end run

/-! ## Boundary conditions -/

/-- Sum of the loads with equation number `i`. -/
def loadTotal [AddMonoid K] (nm : Bc K → Nat) (i : Nat) : List (Bc K) → K
  | [] => 0
  | l :: ls => (if nm l = i then l.value else 0) + loadTotal nm i ls

/-- Value of the last fix with equation number `i`. -/
def fixLast (nm : Bc K → Nat) (i : Nat) : List (Bc K) → Option K
  | [] => none
  | f :: fs => match fixLast nm i fs with
    | some x => some x
    | none => if nm f = i then some f.value else none

/-- Equation number of a boundary condition. -/
def bcNum (A : Side → Spec) (b : Bc K) : Nat := num A (.node, b.node, b.dof)

section field
variable [Field K] {S1 S : Storage K} {A : Side → Spec} {M : Nat → Nat → Nat → K} {v u r : Nat → K}

theorem run_loads (hp : Pre S1 A) (t : K) (loads : List (Bc K)) : ∀ {S : Storage K} {r : Nat → K}, Run S1 S A M v u r →
    (∀ l ∈ loads, (at' A (.node, l.node, l.dof)).isSome) →
    ∃ S', applyLoads S loads t = .ok S' ∧ S' = withUR S S.vecU S'.vecR ∧
      Run S1 S' A M v u (fun i => r i + t * loadTotal (bcNum A) (i + 1) loads) := by
  induction loads with
  | nil =>
    intro S r h _
    exact ⟨S, rfl, rfl, h.during, h.U, h.R.congr (fun i _ => by simp [loadTotal])⟩
  | cons l ls ih =>
    intro S r h hl
    have hk := hl l (by simp)
    have he := h.eqNumber hp hk
    obtain ⟨w, hw⟩ := Option.isSome_iff_exists.mp hk
    have hr := hp.range _ _ hw
    rw [← num_eq hw] at hr
    have hlen : S.vecR.length = S1.nDofs + S1.nMpc := h.R.1
    have hread : Res.read S.vecR (num A (.node, l.node, l.dof) - 1) = .ok (r (num A (.node, l.node, l.dof) - 1)) :=
      Res.read_eq_ok.mpr (h.R.get (by omega))
    have hstep : Storage.addValueRNode S l.node l.dof (l.value * t) =
        .ok (withUR S S.vecU (S.vecR.set (num A (.node, l.node, l.dof) - 1)
          (r (num A (.node, l.node, l.dof) - 1) + l.value * t))) := by
      unfold Storage.addValueRNode
      rw [he]
      simp only [Res.ok_bind]
      rw [if_pos (by have := h.nDofs; have := h.nMpc; omega), hread]
      rfl
    have h' := h.setUR h.U (h.R.set (num A (.node, l.node, l.dof) - 1) (r (num A (.node, l.node, l.dof) - 1) + l.value * t))
    obtain ⟨S', e1, e2, e3⟩ := ih h' (fun l' hl' => hl l' (by simp [hl']))
    refine ⟨S', ?_, ?_, e3.during, e3.U, e3.R.congr ?_⟩
    · unfold applyLoads at e1 ⊢
      rw [Res.foldlM'_cons, hstep]
      exact e1
    · rw [e2]; rfl
    · intro i hi
      simp only [loadTotal]
      have hb : bcNum A l = num A (.node, l.node, l.dof) := rfl
      by_cases hi' : bcNum A l = i + 1
      · rw [if_pos hi', if_pos (by omega)]
        have : num A (.node, l.node, l.dof) - 1 = i := by omega
        rw [this]
        ring
      · rw [if_neg hi', if_neg (by omega)]
        ring

theorem run_fixes (hp : Pre S1 A) (t : K) (fixs : List (Bc K)) : ∀ {S : Storage K} {u : Nat → K}, Run S1 S A M v u r →
    (∀ f ∈ fixs, (at' A (.node, f.node, f.dof)).isSome ∧ bcNum A f ≤ S1.nConstr) →
    ∃ S', Res.foldlM' (applyFix t) S fixs = .ok S' ∧ S' = withUR S S'.vecU S.vecR ∧
      Run S1 S' A M v (fun i => match fixLast (bcNum A) (i + 1) fixs with | some x => t * x | none => u i) r := by
  induction fixs with
  | nil =>
    intro S u h _
    exact ⟨S, rfl, rfl, h.during, h.U.congr (fun i _ => by simp [fixLast]), h.R⟩
  | cons f fs ih =>
    intro S u h hl
    obtain ⟨hk, hle⟩ := hl f (by simp)
    have he := h.eqNumber hp hk
    obtain ⟨w, hw⟩ := Option.isSome_iff_exists.mp hk
    have hr := hp.range _ _ hw
    rw [← num_eq hw] at hr
    have hd := hp.dofs
    have hlen : S.vecU.length = S1.nDofs + S1.nMpc := h.U.1
    unfold bcNum at hle
    have hwr : Res.write S.vecU (num A (.node, f.node, f.dof) - 1) (f.value * t) =
        .ok (S.vecU.set (num A (.node, f.node, f.dof) - 1) (f.value * t)) := by
      rw [Res.write_eq_ok]; exact ⟨by omega, rfl⟩
    have hstep : applyFix t S f =
        .ok (withUR S (S.vecU.set (num A (.node, f.node, f.dof) - 1) (f.value * t)) S.vecR) := by
      unfold applyFix
      rw [he]
      simp only [Res.ok_bind]
      rw [if_pos (by have := h.nConstr; omega), hwr]
      rfl
    have h' := h.setUR (h.U.set (num A (.node, f.node, f.dof) - 1) (f.value * t)) h.R
    obtain ⟨S', e1, e2, e3⟩ := ih h' (fun f' hf' => hl f' (by simp [hf']))
    refine ⟨S', ?_, ?_, e3.during, e3.U.congr ?_, e3.R⟩
    · rw [Res.foldlM'_cons, hstep]; exact e1
    · rw [e2]; rfl
    · intro i hi
      simp only [fixLast]
      cases fixLast (bcNum A) (i + 1) fs with
      | some x => rfl
      | none =>
        have hb : bcNum A f = num A (.node, f.node, f.dof) := rfl
        by_cases hi' : bcNum A f = i + 1
        · rw [if_pos hi', if_pos (by omega)]
          simp only
          ring
        · rw [if_neg hi', if_neg (by omega)]

/-- `applyBoundaryConditions` on a running storage. -/
theorem run_bc (hp : Pre S1 A) (h : Run S1 S A M v u r) (t : K) {loads fixs : List (Bc K)}
    (hl : ∀ l ∈ loads, (at' A (.node, l.node, l.dof)).isSome)
    (hf : ∀ f ∈ fixs, (at' A (.node, f.node, f.dof)).isSome ∧ bcNum A f ≤ S1.nConstr) :
    ∃ S', applyBC S loads fixs t = .ok S' ∧ S' = withUR S S'.vecU S'.vecR ∧
      Run S1 S' A M v (fun i => match fixLast (bcNum A) (i + 1) fixs with | some x => t * x | none => u i)
        (fun i => r i + t * loadTotal (bcNum A) (i + 1) loads) := by
  obtain ⟨S', e1, e2, e3⟩ := run_loads hp t loads h hl
  obtain ⟨S'', f1, f2, f3⟩ := run_fixes hp t fixs e3 hf
  refine ⟨S'', ?_, ?_, f3⟩
  · unfold applyBC; rw [e1]; exact f1
  · have : S''.vecR = S'.vecR := by rw [f2]; rfl
    calc S'' = withUR S' S''.vecU S'.vecR := f2
      _ = withUR (withUR S S.vecU S'.vecR) S''.vecU S'.vecR := congrArg (fun X => withUR X S''.vecU S'.vecR) e2
      _ = withUR S S''.vecU S''.vecR := by rw [this]; rfl

end field

/-! ## The reduced system -/

variable [Field K] [LinearOrder K]

/-- An equation solver that solves exactly or stops the program. -/
def Exact (eqs : EqSolver K) : Prop :=
  ∀ (B : SpMat K) (rhs guess : List K) (n : Nat) (a : Nat → Nat → K), B.si.nRows = n →
    (∀ i < n, ∀ j < n, B.valueSym (i + 1) (j + 1) = .ok (a i j)) → rhs.length = n → guess.length = n →
    eqs B rhs guess = .fatal ∨
    ∃ X, eqs B rhs guess = .ok X ∧ X.length = n ∧ ∀ i < n, ∑ j ∈ range n, a i j * X.getD j 0 = rhs.getD i 0

/-- The equation solver stops the program for some right-hand side and a matrix with the entries `a`. -/
def Stops (eqs : EqSolver K) (n : Nat) (a : Nat → Nat → K) : Prop :=
  ∃ (B : SpMat K) (rhs guess : List K), B.si.nRows = n ∧
    (∀ i < n, ∀ j < n, B.valueSym (i + 1) (j + 1) = .ok (a i j)) ∧ rhs.length = n ∧ guess.length = n ∧
    eqs B rhs guess = .fatal

/-- The equation solver delivers a result for some right-hand side and a matrix with the entries `a`. -/
def Succeeds (eqs : EqSolver K) (n : Nat) (a : Nat → Nat → K) : Prop :=
  ∃ (B : SpMat K) (rhs guess X : List K), B.si.nRows = n ∧
    (∀ i < n, ∀ j < n, B.valueSym (i + 1) (j + 1) = .ok (a i j)) ∧ rhs.length = n ∧ guess.length = n ∧
    eqs B rhs guess = .ok X

theorem condense_ok {S1 S : Storage K} {A : Side → Spec} {M : Nat → Nat → Nat → K} {v u r : Nat → K}
    {eqs : EqSolver K} (he : Exact eqs) (hp : Pre S1 A) (h : Run S1 S A M v u r) {uc guess : List K} {x : Nat → K}
    (hx : IsVec uc S1.nConstr x) (hg : guess.length = S1.nUnknown + S1.nMpc) :
    (condense eqs S uc guess = .fatal ∧ Stops eqs (S1.nUnknown + S1.nMpc)
      (fun i j => M 0 (S1.nConstr + (i + 1)) (S1.nConstr + (j + 1)))) ∨
    ∃ X Rc y ρ, condense eqs S uc guess = .ok (X, Rc) ∧ IsVec X (S1.nUnknown + S1.nMpc) y ∧ IsVec Rc S1.nConstr ρ ∧
      (∀ i < S1.nUnknown + S1.nMpc, ∑ j ∈ range S1.nConstr, M 0 (S1.nConstr + (i + 1)) (j + 1) * x j +
        ∑ j ∈ range (S1.nUnknown + S1.nMpc), M 0 (S1.nConstr + (i + 1)) (S1.nConstr + (j + 1)) * y j =
          v (S1.nConstr + (i + 1)) + r (S1.nConstr + i)) ∧
      (∀ i < S1.nConstr, ∑ j ∈ range S1.nConstr, M 0 (i + 1) (j + 1) * kept (x j) +
        ∑ j ∈ range (S1.nUnknown + S1.nMpc), M 0 (i + 1) (S1.nConstr + (j + 1)) * y j = v (i + 1) + ρ i) ∧
      Succeeds eqs (S1.nUnknown + S1.nMpc) (fun i j => M 0 (S1.nConstr + (i + 1)) (S1.nConstr + (j + 1))) := by
  obtain ⟨F, hF, rows1, rows2, hb⟩ := live_blocks h.during.live
  have hQ : 0 < S.nMats := by unfold Storage.nMats; split <;> omega
  obtain ⟨⟨K11, b1, b2⟩, ⟨K12, c1, c2⟩, ⟨K22, d1, d2⟩⟩ := hb 0 hQ
  have hnc := h.nConstr
  have hnu := h.nUnknown
  have hnm := h.nMpc
  rw [hnc] at b2 c2 d2
  rw [hnu, hnm] at c2 d2
  have hd := hp.dofs
  have hsym : ∀ i j, M 0 i j = M 0 j i := by
    intro i j
    obtain ⟨F', hs, h1, h2, h3, h4⟩ := h.during.live.mat
    rw [← h4 0 (by omega), totalSym_comm, h4 0 (by omega)]
  have hFs := h.F.seg (off := S1.nConstr) (n := S1.nUnknown + S1.nMpc) (by omega)
  have hRs := h.R.seg (off := S1.nConstr) (n := S1.nUnknown + S1.nMpc) (by omega)
  have hrhs0 := ((IsVec.replicate (S1.nUnknown + S1.nMpc) (0 : K)).zipWith (· + ·) hFs).zipWith (· + ·) hRs
  obtain ⟨rhs, g1, g2⟩ := c2.btv hx hrhs0 (-1)
  have hunf : condense eqs S uc guess = (do
      let X ← eqs K22 rhs guess
      let Rc ← K11.matBVprodSym big uc 1 (List.replicate S1.nConstr 0)
      let Rc ← K12.matBVprod X 1 Rc
      .ok (X, List.zipWith (· - ·) Rc (seg S.vecF 0 S1.nConstr))) := by
    unfold condense
    rw [hF]
    simp only [Res.ok_bind, b1, c1, d1, hnc, hnu, hnm, g1]
  rw [hunf]
  rcases he K22 rhs guess _ (fun i j => M 0 (S1.nConstr + (i + 1)) (S1.nConstr + (j + 1))) d2.nRows
      (fun i hi j hj => d2.value (by omega) (by omega)) g2.1 hg with hfat | ⟨X, hX, hXl, hXs⟩
  · left
    exact ⟨by rw [hfat]; rfl, K22, rhs, guess, d2.nRows, fun i hi j hj => d2.value (by omega) (by omega), g2.1, hg, hfat⟩
  · right
    obtain ⟨R1, k1, k2⟩ := b2.bv hx (IsVec.replicate S1.nConstr (0 : K)) 1
    have hXv : IsVec X (S1.nUnknown + S1.nMpc) (fun j => X.getD j 0) := ⟨hXl, fun _ _ => rfl⟩
    obtain ⟨R2, l1, l2⟩ := c2.bv hXv k2 1
    have hfin := l2.zipWith (· - ·) (h.F.seg (off := 0) (n := S1.nConstr) (by omega))
    refine ⟨X, _, _, _, ?_, hXv, hfin, ?_, ?_, K22, rhs, guess, X, d2.nRows,
      fun i hi j hj => d2.value (by omega) (by omega), g2.1, hg, hX⟩
    · rw [hX]
      simp only [Res.ok_bind, k1, l1]
    · intro i hi
      rw [hXs i hi, g2.2 i hi]
      simp only [zero_add]
      have : ∑ j ∈ range S1.nConstr, M 0 (S1.nConstr + (i + 1)) (j + 1) * x j =
          ∑ j ∈ range S1.nConstr, M 0 (j + 1) (S1.nConstr + (i + 1)) * x j :=
        Finset.sum_congr rfl (fun j _ => by rw [hsym])
      rw [this, Nat.add_assoc]
      ring
    · intro i hi
      simp only [zero_add]
      ring

end Nla3d.Solver
