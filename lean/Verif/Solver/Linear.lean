import Verif.Solver.Setting
import Mathlib.Tactic.Linarith
import Mathlib.Algebra.Order.Ring.Abs
import Mathlib.Algebra.Order.Field.Rat

/-!
# C18, C19: boundary conditions and the linear solver
-/

set_option linter.unusedSectionVars false

namespace Nla3d.Solver

open Nla3d.Dof Nla3d.Block Nla3d.Sparse Nla3d.Storage Nla3d.TimeCtl Finset

variable {K : Type}

/-! ## C19 -/

/-- **C19.** In any session whose constrained DoFs are those of `fixs`, whatever the two vectors hold,
`applyBoundaryConditions(t)` completes and changes only the two vectors: the external load of each DoF grows by `t` times the
sum of all loads given for it, MPC rows keep theirs; each fixed DoF gets `t` times the value of the last fix given for it,
all other components keep their values. -/
theorem C19_boundary_conditions [Field K] {S0 S1 S : Storage K} {calls : List RegCall} {new : List (Mpc K)}
    {loads fixs : List (Bc K)} {num : Key → Nat} (h : Session S0 calls new (fixKeys fixs) S1 num S)
    (hl : ∀ l ∈ loads, keyOf l ∈ regKeys calls) (U R : List K) (hU : U.length = S1.nDofs + S1.nMpc)
    (hR : R.length = S1.nDofs + S1.nMpc) (t : K) :
    ∃ S', applyBC { S with vecU := U, vecR := R } loads fixs t = .ok S' ∧
      S' = { S with vecU := S'.vecU, vecR := S'.vecR } ∧
      S'.vecU.length = U.length ∧ S'.vecR.length = R.length ∧
      (∀ k ∈ regKeys calls, comp S'.vecR (num k) = comp R (num k) + t * loadsOn k loads) ∧
      (∀ i, S1.nDofs < i → i ≤ S1.nDofs + S1.nMpc → comp S'.vecR i = comp R i) ∧
      (∀ k ∈ regKeys calls, ∀ x, lastFix k fixs = some x → comp S'.vecU (num k) = t * x) ∧
      (∀ k ∈ regKeys calls, lastFix k fixs = none → comp S'.vecU (num k) = comp U (num k)) ∧
      (∀ i, S1.nDofs < i → i ≤ S1.nDofs + S1.nMpc → comp S'.vecU i = comp U i) := by
  obtain ⟨A0, M, v, hp, _, hd⟩ := session_during h
  obtain ⟨A, hb⟩ := base_of_prepare h.legal h.prep h.numbers
  obtain ⟨A', M', v', hp', hn', hd'⟩ := session_during h
  -- use one numbering throughout
  have hb' : Base S0 S1 calls new fixs num A' := ⟨hp', hn', hb.fixes, hb.U, hb.R⟩
  have hrun0 : Run S1 (withUR S U R) A' M' v' (fun i => U.getD i 0) (fun i => R.getD i 0) := by
    refine ⟨⟨?_, ?_, hd'.shape⟩, ⟨hU, fun _ _ => rfl⟩, ⟨hR, fun _ _ => rfl⟩⟩
    · have hl := hd'.live
      exact ⟨hl.mat, hl.vec, hl.load, hl.dofs⟩
    · have hf := hd'.frame
      unfold Frame at hf ⊢
      show _ = { S1 with mat := S.mat, vecF := S.vecF, mpcs := S.mpcs, vecU := U, vecR := R }
      rw [hf]
      rfl
  obtain ⟨S', e1, e2, e3⟩ := run_bc hp'.pre hrun0 t (loads := loads) (fixs := fixs) (fun l hll => hb'.some (hl l hll))
    (fun f hf => ⟨hb'.some (hb.fixes f hf), by
      rw [hb'.bc (hb.fixes f hf)]; exact (hb'.fixRange (List.mem_map.mpr ⟨f, hf, rfl⟩)).2⟩)
  refine ⟨S', e1, e2, by rw [e3.U.1, hU], by rw [e3.R.1, hR], ?_, ?_, ?_, ?_, ?_⟩
  · intro k hk
    have hr := hb'.range hk
    unfold comp
    rw [e3.R.2 _ (by omega)]
    beta_reduce
    rw [Nat.sub_add_cancel hr.1, hb'.loadTotal hl hk]
  · intro i h1 h2
    unfold comp
    rw [e3.R.2 _ (by omega)]
    beta_reduce
    rw [Nat.sub_add_cancel (by omega), hb'.loadTotal_mpc hl h1]
    ring
  · intro k hk x hx
    have hr := hb'.range hk
    unfold comp
    rw [e3.U.2 _ (by omega)]
    beta_reduce
    rw [Nat.sub_add_cancel hr.1, hb'.fixLast hk, hx]
  · intro k hk hx
    have hr := hb'.range hk
    unfold comp
    rw [e3.U.2 _ (by omega)]
    beta_reduce
    rw [Nat.sub_add_cancel hr.1, hb'.fixLast hk, hx]
  · intro i h1 h2
    have := hb'.prep.ready.nUnknown
    unfold comp
    rw [e3.U.2 _ (by omega)]
    beta_reduce
    rw [Nat.sub_add_cancel (by omega), hb'.fixLast_free (by omega)]

/-! ## C18 -/

section linear
variable [Field K] [LinearOrder K]

/-- The stiffness matrix, as read entry by entry. -/
def StiffIs (S : Storage K) (k : Nat → Nat → K) : Prop :=
  ∀ i j, 0 < i → i ≤ S.nDofs + S.nMpc → 0 < j → j ≤ S.nDofs + S.nMpc → Entry S .K i j (k i j)

/-- The load vector `F`. -/
def LoadIs (S : Storage K) (f : Nat → K) : Prop := ∀ i, 0 < i → i ≤ S.nDofs + S.nMpc → Load S i (f i)

/-- Row `i` of `K * u`. -/
def rowMul (k : Nat → Nat → K) (u : Nat → K) (N i : Nat) : K := ∑ j ∈ range N, k i (j + 1) * u (j + 1)

theorem Run.stiff {S1 S : Storage K} {A : Side → Spec} {M : Nat → Nat → Nat → K} {v u r : Nat → K}
    (h : Run S1 S A M v u r) : StiffIs S (M 0) ∧ LoadIs S v := by
  have hQ : 0 < S.nMats := by unfold Storage.nMats; split <;> omega
  refine ⟨?_, ?_⟩
  · intro i j i1 i2 j1 j2
    exact h.during.live.entry (w := .K) hQ ⟨i1, i2⟩ ⟨j1, j2⟩
  · intro i i1 i2
    exact h.during.live.load i i1 i2

/-- The answer of a linear solution. `u`, `r` are the components (from 1) of `vecU`, `vecR`. -/
structure Answer (S1 S' : Storage K) (regs : List Key) (num : Key → Nat) (loads fixs : List (Bc K)) : Prop where
  sizes : S'.nConstr = S1.nConstr ∧ S'.nDofs = S1.nDofs ∧ S'.nMpc = S1.nMpc ∧
    S'.vecU.length = S1.nDofs + S1.nMpc ∧ S'.vecR.length = S1.nDofs + S1.nMpc
  prescribed : ∀ k ∈ regs, ∀ x, lastFix k fixs = some x → comp S'.vecU (num k) = x
  applied : ∀ k ∈ regs, k ∉ fixKeys fixs → comp S'.vecR (num k) = loadsOn k loads
  noLoad : ∀ i, S1.nDofs < i → i ≤ S1.nDofs + S1.nMpc → comp S'.vecR i = 0
  mpcs : ∀ m ∈ S'.mpcs, (m.eq.map (fun t => t.coef * comp S'.vecU (num (.node, t.node, t.dof)))).sum = m.b
  alike : Alike S1 S'

/-- The sum of all contributions to an entry of matrix `q` in the state after the preparation. -/
def Assembled {E : Type} (el : Elems E K) (e : E) (S1 : Storage K) (num : Key → Nat) (q i j : Nat) : K :=
  asmM S1.transient num (el.build e S1) (el.upd e S1 S1.mpcs) (el.cm e S1) q i j

/-- The sum of all contributions to a component of the load vector. -/
def AssembledLoad {E : Type} (el : Elems E K) (e : E) (S1 : Storage K) (i : Nat) : K :=
  asmV S1.transient (el.build e S1) (el.upd e S1 S1.mpcs) (el.cm e S1) i

theorem mpcContribs_congr {E : Type} {el : Elems E K} {e : E} {S0 S1 : Storage K} {calls : List RegCall} {new : List (Mpc K)}
    {fixs : List (Bc K)} {num' : Key → Nat} {A : Side → Spec} (hb : Base S0 S1 calls new fixs num' A)
    (hl3 : ∀ ms : List (Mpc K), SameShape ms (el.upd e S1 ms)) :
    (el.upd e S1 S1.mpcs).flatMap (mpcContribs (num A)) = (el.upd e S1 S1.mpcs).flatMap (mpcContribs num') := by
  apply List.flatMap_congr
  intro m hm
  obtain ⟨m0, h1, h2, h3⟩ := (hl3 S1.mpcs).mem hm
  unfold mpcContribs
  apply List.map_congr_left
  intro t ht
  obtain ⟨t0, h4, h5, h6⟩ := h3 t ht
  have := (hb.prep.ready.isSome _).mp ((hb.prep.pre.terms m0 h1).2 t0 h4)
  rw [h5, h6] at this
  rw [hb.agree _ this]

/-- What `LinearFESolver::solve` computes: `K*u = F + R` in all unknown and MPC rows; in the constrained rows the same with
`u` replaced by `kept u` for the constrained DoFs. -/
theorem linear_solve {E : Type} {S0 : Storage K} {calls : List RegCall} {new : List (Mpc K)} {loads fixs : List (Bc K)}
    {el : Elems E K} (h : Problem S0 calls new loads fixs el) {eqs : EqSolver K} (he : Exact eqs) (e : E) :
    (linearSolve eqs el loads fixs calls new S0 e = .fatal ∧ S0.prepare calls new (fixKeys fixs) = .fatal) ∨
    ∃ S1 num, S0.prepare calls new (fixKeys fixs) = .ok S1 ∧
      (∀ k ∈ regKeys calls, S1.eqNumber k.1 k.2.1 k.2.2 = .ok (num k)) ∧
      ((linearSolve eqs el loads fixs calls new S0 e = .fatal ∧ Stops eqs (S1.nUnknown + S1.nMpc) (fun i j =>
        Assembled el e S1 num 0 (S1.nConstr + (i + 1)) (S1.nConstr + (j + 1)))) ∨
      ∃ S' e', linearSolve eqs el loads fixs calls new S0 e = .ok (S', e') ∧
      Answer S1 S' (regKeys calls) num loads fixs ∧ S'.mpcs = el.upd e S1 S1.mpcs ∧
      ∃ k f, StiffIs S' k ∧ LoadIs S' f ∧
        (∀ i j, k i j = Assembled el e S1 num 0 i j) ∧ (∀ i, f i = AssembledLoad el e S1 i) ∧
        (∀ i, S1.nConstr < i → i ≤ S1.nDofs + S1.nMpc →
          rowMul k (comp S'.vecU) (S1.nDofs + S1.nMpc) i = f i + comp S'.vecR i) ∧
        (∀ i, 0 < i → i ≤ S1.nConstr →
          rowMul k (fun j => if j ≤ S1.nConstr then kept (comp S'.vecU j) else comp S'.vecU j) (S1.nDofs + S1.nMpc) i =
            f i + comp S'.vecR i) ∧
        Succeeds eqs (S1.nUnknown + S1.nMpc) (fun i j => Assembled el e S1 num 0 (S1.nConstr + (i + 1)) (S1.nConstr + (j + 1)))) := by
  rcases prepare_or_fatal h.legal with hf | ⟨S1, num', A, hprep, hnum, hb⟩
  · left; refine ⟨?_, hf⟩; unfold linearSolve; rw [hf]; rfl
  right
  refine ⟨S1, num', hprep, hnum, ?_⟩
  have hel := h.elems S1 num' hprep hnum
  have hls : linearSolve eqs el loads fixs calls new S0 e = linearCore eqs el loads fixs S1 e := by
    unfold linearSolve; rw [hprep]; rfl
  rw [hls]
  have hd := hb.prep.pre.dofs
  -- vecR.zero()
  have hz : zeroR S1 = S1 := by
    unfold zeroR; rw [hb.R, List.length_replicate, ← hb.R]
  have hrun := hb.run
  obtain ⟨hl1, hl2, hl3⟩ := hel e S1 rfl
  -- assembly
  obtain ⟨S2, a1, a2, a3⟩ := hrun.assemble hb.prep.pre (build := el.build e S1) (cm := el.cm e S1) (upd := el.upd e S1)
    (fun c hc => wanted_fine hb.prep hb.agree ((hl1 c hc).wanted hb))
    (fun c hc => wanted_fine hb.prep hb.agree ((hl2 c hc).wanted hb)) hl3
  -- boundary conditions
  obtain ⟨S3, b1, b2, b3⟩ := run_bc hb.prep.pre a3 1 (loads := loads) (fixs := fixs)
    (fun l hll => hb.some (h.loads l hll)) (fun f hf => ⟨hb.some (hb.fixes f hf), by
      rw [hb.bc (hb.fixes f hf)]; exact (hb.fixRange (List.mem_map.mpr ⟨f, hf, rfl⟩)).2⟩)
  have c1 := b3.nConstr
  have c2 := b3.nUnknown
  have c3 := b3.nMpc
  have hUc := b3.U.seg (off := 0) (n := S1.nConstr) (by omega)
  have hguess := (b3.U.seg (off := S1.nConstr) (n := S1.nUnknown + S1.nMpc) (by omega)).1
  have hcore : linearCore eqs el loads fixs S1 e = (do
      let (x, Rc) ← condense eqs S3 (seg S3.vecU 0 S3.nConstr) (seg S3.vecU S3.nConstr (S3.nUnknown + S3.nMpc))
      let S := withUR S3 (put S3.vecU S3.nConstr x) (put S3.vecR 0 Rc)
      .ok (S, el.update e S)) := by
    unfold linearCore
    rw [hz]
    simp only [a1, Res.ok_bind, b1]
    rfl
  rw [c1, c2, c3] at hcore
  rw [hcore]
  have hasm : ∀ i j, asmM S1.transient (num A) (el.build e S1) (el.upd e S1 S1.mpcs) (el.cm e S1) 0 i j =
      Assembled el e S1 num' 0 i j := by
    intro i j
    unfold Assembled asmM
    rw [mpcContribs_congr hb hl3]
  rcases condense_ok he hb.prep.pre b3 hUc hguess with ⟨hfat, hst⟩ | ⟨X, Rc, y, ρ, d1, d2, d3, d4, d5, d6⟩
  · left
    refine ⟨by rw [hfat]; rfl, ?_⟩
    simp only [hasm] at hst
    exact hst
  right
  have hU' := b3.U.put d2 (off := S1.nConstr) (by omega)
  have hR' := b3.R.put d3 (off := 0) (by omega)
  have hfin := b3.setUR hU' hR'
  refine ⟨_, _, by rw [d1]; rfl, ?_, ?_, ?_⟩
  · -- the answer
    have hs := hfin.stiff
    refine ⟨⟨hfin.nConstr, hfin.nDofs, hfin.nMpc, hfin.U.1, hfin.R.1⟩, ?_, ?_, ?_, ?_, hfin.during.frame⟩
    · intro k hk x hx
      have hmem : k ∈ fixKeys fixs := lastFix_isSome.mp (by rw [hx]; rfl)
      have hr := hb.fixRange hmem
      unfold comp
      rw [hfin.U.2 _ (by omega)]
      beta_reduce
      rw [if_neg (by omega), Nat.sub_add_cancel hr.1, hb.fixLast hk, hx]
      exact one_mul x
    · intro k hk hkf
      have hr := hb.freeRange hk hkf
      unfold comp
      rw [hfin.R.2 _ (by omega)]
      beta_reduce
      rw [if_neg (by omega), Nat.sub_add_cancel (by omega), hb.loadTotal h.loads hk, zero_add, one_mul]
    · intro i h1 h2
      unfold comp
      rw [hfin.R.2 _ (by omega)]
      beta_reduce
      rw [if_neg (by omega), Nat.sub_add_cancel (by omega), hb.loadTotal_mpc h.loads h1, mul_zero, add_zero]
    · -- MPC equations
      intro m hm
      have hm2 : m ∈ el.upd e S1 S1.mpcs := by
        have : (withUR S3 (put S3.vecU S1.nConstr X) (put S3.vecR 0 Rc)).mpcs = S2.mpcs := by rw [b2]; rfl
        rw [this, a2] at hm
        exact hm
      have hsh : SameShape S1.mpcs (el.upd e S1 S1.mpcs) := hl3 S1.mpcs
      have hnums : (el.upd e S1 S1.mpcs).map Mpc.eqNum = S1.mpcs.map Mpc.eqNum := by
        have : ∀ l : List (Mpc K), l.map Mpc.eqNum = (l.map mpcShape).map Prod.fst := by
          intro l; rw [List.map_map]; rfl
        rw [this, this, hsh]
      have hnd : ((el.upd e S1 S1.mpcs).map Mpc.eqNum).Nodup := by
        rw [hnums, hb.prep.ready.eqNums]; exact List.nodup_range'
      have hrange : ∀ m' ∈ el.upd e S1 S1.mpcs, (S1.nDofs < m'.eqNum ∧ m'.eqNum ≤ S1.nDofs + S1.nMpc) ∧
          ∀ t ∈ m'.eq, (Side.node, t.node, t.dof) ∈ regKeys calls := by
        intro m' hm'
        obtain ⟨m0, h1, h2, h3⟩ := hsh.mem hm'
        have := hb.prep.pre.eqNum m0 h1
        refine ⟨by omega, ?_⟩
        intro t ht
        obtain ⟨t0, h4, h5, h6⟩ := h3 t ht
        have := (hb.prep.ready.isSome _).mp ((hb.prep.pre.terms m0 h1).2 t0 h4)
        rw [h5, h6] at this
        exact this
      obtain ⟨⟨hr1, hr2⟩, hr3⟩ := hrange m hm2
      have htr : ∀ t ∈ m.eq, 0 < num A (.node, t.node, t.dof) ∧ num A (.node, t.node, t.dof) ≤ S1.nDofs := by
        intro t ht
        exact hb.prep.ready.num_range (hr3 t ht)
      -- the row of the matrix
      have hrow : ∀ j, asmM S1.transient (num A) (el.build e S1) (el.upd e S1 S1.mpcs) (el.cm e S1) 0 m.eqNum j =
          matSum 0 m.eqNum j (mpcContribs (num A) m) := by
        intro j
        have k1 := matSum_mpcs (num := num A) (n := S1.nDofs) (m := m) (j := j) (el.upd e S1 S1.mpcs) hnd hm2
          (fun m' hm' => ⟨(hrange m' hm').1.1, fun t ht => (hb.prep.ready.num_range ((hrange m' hm').2 t ht)).2⟩)
        have k2 := (elem_matSum hb (q := 0) (i := m.eqNum) (j := j) hr1 _ hl1).1
        have k3 := (elem_matSum hb (q := 0) (i := m.eqNum) (j := j) hr1 _ hl2).1
        unfold asmM
        cases S1.transient with
        | false => simp only [Bool.false_eq_true, if_false]; rw [matSum_append, k1, k2, zero_add]
        | true => simp only [if_true]; rw [matSum_append, matSum_append, k1, k2, k3, zero_add, add_zero]
      have hload : asmV S1.transient (el.build e S1) (el.upd e S1 S1.mpcs) (el.cm e S1) m.eqNum = m.b := by
        have k3 := (elem_matSum hb (q := 0) (i := m.eqNum) (j := 0) hr1 _ hl2).2
        unfold asmV
        rw [mpcLoad_mem hnd m hm2, k3, add_zero]
        split <;> rfl
      have heq := d4 (m.eqNum - S1.nConstr - 1) (by omega)
      have hidx : S1.nConstr + (m.eqNum - S1.nConstr - 1 + 1) = m.eqNum := by omega
      rw [hidx, hload] at heq
      have hrm : S1.nConstr + (m.eqNum - S1.nConstr - 1) + 1 = m.eqNum := by omega
      rw [hrm, hb.loadTotal_mpc h.loads hr1, mul_zero, add_zero, add_zero] at heq
      rw [← heq]
      -- gather the row
      have hcomb := mpcContribs_row (num := num A) (m := m) hr1 hr2
        (fun i => if S1.nConstr ≤ i ∧ i < S1.nConstr + (S1.nUnknown + S1.nMpc) then y (i - S1.nConstr)
          else match fixLast (bcNum A) (i + 1) fixs with | some x => 1 * x | none => 0) m.eq htr
      have hleft : (m.eq.map (fun t => t.coef * comp
          (withUR S3 (put S3.vecU S1.nConstr X) (put S3.vecR 0 Rc)).vecU (num' (.node, t.node, t.dof)))).sum =
          (m.eq.map (fun t => t.coef *
        (fun i => if S1.nConstr ≤ i ∧ i < S1.nConstr + (S1.nUnknown + S1.nMpc) then y (i - S1.nConstr)
          else match fixLast (bcNum A) (i + 1) fixs with | some x => 1 * x | none => 0)
            (num A (.node, t.node, t.dof) - 1))).sum := by
        congr 1
        apply List.map_congr_left
        intro t ht
        have := htr t ht
        unfold comp
        rw [hb.agree _ (hr3 t ht), hfin.U.2 _ (by omega)]
        rfl
      rw [hleft, ← hcomb]
      have hN : S1.nDofs + S1.nMpc = S1.nConstr + (S1.nUnknown + S1.nMpc) := by omega
      rw [hN, Finset.sum_range_add]
      congr 1
      · apply Finset.sum_congr rfl
        intro j hj
        rw [Finset.mem_range] at hj
        rw [if_neg (by omega), hrow]
        simp only [Nat.zero_add]
        rfl
      · apply Finset.sum_congr rfl
        intro j hj
        rw [Finset.mem_range] at hj
        rw [if_pos (by omega), hrow, Nat.add_sub_cancel_left]
        rfl
  · have : (withUR S3 (put S3.vecU S1.nConstr X) (put S3.vecR 0 Rc)).mpcs = S2.mpcs := by rw [b2]; rfl
    rw [this, a2]
  · -- all rows
    refine ⟨_, _, hfin.stiff.1, hfin.stiff.2, hasm, fun _ => rfl, ?_, ?_, by simp only [hasm] at d6; exact d6⟩
    · intro i h1 h2
      have heq := d4 (i - S1.nConstr - 1) (by omega)
      have hidx : S1.nConstr + (i - S1.nConstr - 1 + 1) = i := by omega
      rw [hidx] at heq
      have hrr : comp (withUR S3 (put S3.vecU S1.nConstr X) (put S3.vecR 0 Rc)).vecR i =
          (fun i => (0 : K) + 1 * loadTotal (bcNum A) (i + 1) loads) (S1.nConstr + (i - S1.nConstr - 1)) := by
        unfold comp
        rw [hfin.R.2 _ (by omega)]
        beta_reduce
        rw [if_neg (by omega)]
        have : S1.nConstr + (i - S1.nConstr - 1) = i - 1 := by omega
        rw [this]
      rw [hrr, ← heq]
      unfold rowMul
      have hN : S1.nDofs + S1.nMpc = S1.nConstr + (S1.nUnknown + S1.nMpc) := by omega
      rw [hN, Finset.sum_range_add]
      congr 1
      · apply Finset.sum_congr rfl
        intro j hj
        rw [Finset.mem_range] at hj
        unfold comp
        rw [hfin.U.2 _ (by omega)]
        beta_reduce
        rw [if_neg (by omega)]
        simp only [Nat.zero_add, Nat.add_sub_cancel]
      · apply Finset.sum_congr rfl
        intro j hj
        rw [Finset.mem_range] at hj
        unfold comp
        rw [hfin.U.2 _ (by omega)]
        beta_reduce
        rw [if_pos (by omega)]
        have : S1.nConstr + j + 1 - 1 - S1.nConstr = j := by omega
        rw [this, Nat.add_assoc]
    · intro i h1 h2
      have heq := d5 (i - 1) (by omega)
      rw [Nat.sub_add_cancel h1] at heq
      have hrr : comp (withUR S3 (put S3.vecU S1.nConstr X) (put S3.vecR 0 Rc)).vecR i = ρ (i - 1) := by
        unfold comp
        rw [hfin.R.2 _ (by omega)]
        beta_reduce
        rw [if_pos (by omega), Nat.sub_zero]
      rw [hrr, ← heq]
      unfold rowMul
      have hN : S1.nDofs + S1.nMpc = S1.nConstr + (S1.nUnknown + S1.nMpc) := by omega
      rw [hN, Finset.sum_range_add]
      congr 1
      · apply Finset.sum_congr rfl
        intro j hj
        rw [Finset.mem_range] at hj
        beta_reduce
        rw [if_pos (by omega)]
        unfold comp
        rw [hfin.U.2 _ (by omega)]
        beta_reduce
        rw [if_neg (by omega)]
        simp only [Nat.zero_add, Nat.add_sub_cancel]
      · apply Finset.sum_congr rfl
        intro j hj
        rw [Finset.mem_range] at hj
        beta_reduce
        rw [if_neg (by omega)]
        unfold comp
        rw [hfin.U.2 _ (by omega)]
        beta_reduce
        rw [if_pos (by omega)]
        have : S1.nConstr + j + 1 - 1 - S1.nConstr = j := by omega
        rw [this, Nat.add_assoc]

end linear

end Nla3d.Solver
