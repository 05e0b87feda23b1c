import Verif.Solver.Linear
import Verif.TimeCtl.Props

/-!
# Lemmas about the nonlinear solver
-/

set_option linter.unusedSectionVars false

namespace Nla3d.Solver

open Nla3d.Dof Nla3d.Block Nla3d.Sparse Nla3d.Storage Nla3d.TimeCtl Finset

variable {K : Type} [Field K] [LinearOrder K]

theorem Run.alike {S1 S : Storage K} {A : Side → Spec} {M : Nat → Nat → Nat → K} {v u r : Nat → K}
    (h : Run S1 S A M v u r) : Alike S1 S := h.frame

/-- `vecR.zero()` on a running storage. -/
theorem Run.zeroR {S1 S : Storage K} {A : Side → Spec} {M : Nat → Nat → Nat → K} {v u r : Nat → K}
    (h : Run S1 S A M v u r) : Run S1 (zeroR S) A M v u (fun _ => 0) := by
  have := h.setUR h.U (IsVec.replicate (S1.nDofs + S1.nMpc) (0 : K))
  unfold Solver.zeroR
  rw [h.R.1]
  exact this

/-- Row of an MPC in the assembled system, for any vector. -/
theorem mpc_row {S0 S1 : Storage K} {calls : List RegCall} {new : List (Mpc K)} {fixs : List (Bc K)} {num' : Key → Nat}
    {A : Side → Spec} (hb : Base S0 S1 calls new fixs num' A) {build cm : List (Contrib K)} {ms : List (Mpc K)}
    (hl1 : ∀ c ∈ build, ElemContrib S1 (regKeys calls) num' c) (hl2 : ∀ c ∈ cm, ElemContrib S1 (regKeys calls) num' c)
    (hsh : SameShape S1.mpcs ms) {m : Mpc K} (hm : m ∈ ms) :
    (S1.nDofs < m.eqNum ∧ m.eqNum ≤ S1.nDofs + S1.nMpc) ∧
    asmV S1.transient build ms cm m.eqNum = m.b ∧
    ∀ w : Nat → K, ∑ j ∈ range (S1.nDofs + S1.nMpc), asmM S1.transient (num A) build ms cm 0 m.eqNum (j + 1) * w j =
      (m.eq.map (fun t => t.coef * w (num' (.node, t.node, t.dof) - 1))).sum := by
  have hnums : ms.map Mpc.eqNum = S1.mpcs.map Mpc.eqNum := by
    have : ∀ l : List (Mpc K), l.map Mpc.eqNum = (l.map mpcShape).map Prod.fst := by
      intro l; rw [List.map_map]; rfl
    rw [this, this, hsh]
  have hnd : (ms.map Mpc.eqNum).Nodup := by
    rw [hnums, hb.prep.ready.eqNums]; exact List.nodup_range'
  have hrange : ∀ m' ∈ ms, (S1.nDofs < m'.eqNum ∧ m'.eqNum ≤ S1.nDofs + S1.nMpc) ∧
      ∀ t ∈ m'.eq, (Side.node, t.node, t.dof) ∈ regKeys calls := by
    intro m' hm'
    obtain ⟨m0, h1, h2, h3⟩ := hsh.mem hm'
    have := hb.prep.pre.eqNum m0 h1
    refine ⟨by omega, ?_⟩
    intro t ht
    obtain ⟨t0, h4, h5, h6⟩ := h3 t ht
    have := (hb.prep.ready.isSome _).mp ((hb.prep.pre.terms m0 h1).2 t0 h4)
    rw [h5, h6] at this
    exact this
  obtain ⟨⟨hr1, hr2⟩, hr3⟩ := hrange m hm
  have htr : ∀ t ∈ m.eq, 0 < num A (.node, t.node, t.dof) ∧ num A (.node, t.node, t.dof) ≤ S1.nDofs := by
    intro t ht
    exact hb.prep.ready.num_range (hr3 t ht)
  have hrow : ∀ j, asmM S1.transient (num A) build ms cm 0 m.eqNum j = matSum 0 m.eqNum j (mpcContribs (num A) m) := by
    intro j
    have k1 := matSum_mpcs (num := num A) (n := S1.nDofs) (m := m) (j := j) ms hnd hm
      (fun m' hm' => ⟨(hrange m' hm').1.1, fun t ht => (hb.prep.ready.num_range ((hrange m' hm').2 t ht)).2⟩)
    have k2 := (elem_matSum hb (q := 0) (i := m.eqNum) (j := j) hr1 _ hl1).1
    have k3 := (elem_matSum hb (q := 0) (i := m.eqNum) (j := j) hr1 _ hl2).1
    unfold asmM
    cases S1.transient with
    | false => simp only [Bool.false_eq_true, if_false]; rw [matSum_append, k1, k2, zero_add]
    | true => simp only [if_true]; rw [matSum_append, matSum_append, k1, k2, k3, zero_add, add_zero]
  refine ⟨⟨hr1, hr2⟩, ?_, ?_⟩
  · have k3 := (elem_matSum hb (q := 0) (i := m.eqNum) (j := 0) hr1 _ hl2).2
    unfold asmV
    rw [mpcLoad_mem hnd m hm, k3, add_zero]
    split <;> rfl
  · intro w
    have hcomb := mpcContribs_row (num := num A) (m := m) hr1 hr2 w m.eq htr
    have : (m.eq.map (fun t => t.coef * w (num' (.node, t.node, t.dof) - 1))) =
        (m.eq.map (fun t => t.coef * w (num A (.node, t.node, t.dof) - 1))) := by
      apply List.map_congr_left
      intro t ht
      rw [hb.agree _ (hr3 t ht)]
    rw [this, ← hcomb]
    apply Finset.sum_congr rfl
    intro j _
    rw [hrow]
    rfl

/-! ## The invariant -/

/-- Sum of a component over all recorded increments. -/
def total (trace : List (K × List K)) (i : Nat) : K := (trace.map (fun p => comp p.2 i)).sum

/-- Normalised time of the last iteration (0 before the first). -/
def lastTime (trace : List (K × List K)) : K := (trace.map Prod.fst).getLastD 0

/-- Last increment vector. -/
def lastDelta (trace : List (K × List K)) (i : Nat) : K := (trace.map (fun p => comp p.2 i)).getLastD 0

/-- The bookkeeping of a nonlinear solution: a DoF is the sum of its increments, a constrained DoF holds the prescribed
value of the last time, multipliers are those of the last iteration, the remembered constrained values are the current
ones. -/
structure Books (S1 : Storage K) (regs : List Key) (num : Key → Nat) (fixs : List (Bc K)) {E : Type} (s : NState E K) :
    Prop where
  alike : Alike S1 s.S
  sizes : s.S.vecU.length = S1.nDofs + S1.nMpc ∧ s.S.vecR.length = S1.nDofs + S1.nMpc ∧
    s.deltaU.length = S1.nDofs + S1.nMpc
  sums : ∀ i, 0 < i → i ≤ S1.nDofs → comp s.S.vecU i = total s.trace i
  fixed : ∀ k ∈ regs, ∀ x, lastFix k fixs = some x → comp s.S.vecU (num k) = lastTime s.trace * x
  mult : ∀ i, S1.nDofs < i → i ≤ S1.nDofs + S1.nMpc → comp s.S.vecU i = lastDelta s.trace i
  prev : s.ucPrev = seg s.S.vecU 0 S1.nConstr

theorem total_append (tr : List (K × List K)) (t : K) (d : List K) (i : Nat) :
    total (tr ++ [(t, d)]) i = total tr i + comp d i := by
  unfold total; simp

theorem lastTime_append (tr : List (K × List K)) (t : K) (d : List K) : lastTime (tr ++ [(t, d)]) = t := by
  unfold lastTime; simp

theorem lastDelta_append (tr : List (K × List K)) (t : K) (d : List K) (i : Nat) :
    lastDelta (tr ++ [(t, d)]) i = comp d i := by
  unfold lastDelta; simp

/-- What one iteration computes: increments `δ` solving the tangent system of the state before it, with the loads of the
current normalised time. `k`, `f` are matrix and load vector in the storage afterwards, which were assembled from the state
before. -/
structure Solved {E : Type} (el : Elems E K) (S1 : Storage K) (regs : List Key) (num : Key → Nat) (loads fixs : List (Bc K))
    (s s' : NState E K) : Prop where
  tc : s'.tc = s.tc.nextEquilibriumStep
  trace : s'.trace = s.trace ++ [(s'.tc.normalized, s'.deltaU)]
  results : s'.e = el.update s.e s'.S
  mpcs : s'.S.mpcs = el.upd s.e (zeroR s.S) s.S.mpcs
  loads : ∀ k ∈ regs, k ∉ fixKeys fixs → comp s'.S.vecR (num k) = s'.tc.normalized * loadsOn k loads
  noLoad : ∀ i, S1.nDofs < i → i ≤ S1.nDofs + S1.nMpc → comp s'.S.vecR i = 0
  mpcRows : ∀ m ∈ s'.S.mpcs, (m.eq.map (fun t => t.coef * comp s'.deltaU (num (.node, t.node, t.dof)))).sum = m.b
  system : ∃ k f, StiffIs s'.S k ∧ LoadIs s'.S f ∧
    (∀ i j, k i j = asmM S1.transient num (el.build s.e (zeroR s.S)) s'.S.mpcs (el.cm s.e (zeroR s.S)) 0 i j) ∧
    (∀ i, f i = asmV S1.transient (el.build s.e (zeroR s.S)) s'.S.mpcs (el.cm s.e (zeroR s.S)) i) ∧
    (∀ i, S1.nConstr < i → i ≤ S1.nDofs + S1.nMpc →
      rowMul k (comp s'.deltaU) (S1.nDofs + S1.nMpc) i = f i + comp s'.S.vecR i) ∧
    (∀ i, 0 < i → i ≤ S1.nConstr →
      rowMul k (fun j => if j ≤ S1.nConstr then kept (comp s'.deltaU j) else comp s'.deltaU j) (S1.nDofs + S1.nMpc) i =
        f i + comp s'.S.vecR i)

theorem asmM_congr {S0 S1 : Storage K} {calls : List RegCall} {new : List (Mpc K)} {fixs : List (Bc K)} {num' : Key → Nat}
    {A : Side → Spec} (hb : Base S0 S1 calls new fixs num' A) {build cm : List (Contrib K)} {ms : List (Mpc K)}
    (hsh : SameShape S1.mpcs ms) (q i j : Nat) :
    asmM S1.transient (num A) build ms cm q i j = asmM S1.transient num' build ms cm q i j := by
  have : ms.flatMap (mpcContribs (num A)) = ms.flatMap (mpcContribs num') := by
    apply List.flatMap_congr
    intro m hm
    obtain ⟨m0, h1, h2, h3⟩ := hsh.mem hm
    unfold mpcContribs
    apply List.map_congr_left
    intro t ht
    obtain ⟨t0, h4, h5, h6⟩ := h3 t ht
    have := (hb.prep.ready.isSome _).mp ((hb.prep.pre.terms m0 h1).2 t0 h4)
    rw [h5, h6] at this
    rw [hb.agree _ this]
  unfold asmM
  rw [this]

theorem normalized_next (tc : TimeControl K) : tc.nextEquilibriumStep.normalized = tc.normalized := rfl

/-- The storage is running. -/
def Running (S1 : Storage K) (A : Side → Spec) (S : Storage K) : Prop := ∃ M v u r, Run S1 S A M v u r

theorem iteration_ok {E : Type} {S0 S1 : Storage K} {calls : List RegCall} {new : List (Mpc K)} {loads fixs : List (Bc K)}
    {num' : Key → Nat} {A : Side → Spec} {el : Elems E K} (hb : Base S0 S1 calls new fixs num' A)
    (hloads : ∀ l ∈ loads, keyOf l ∈ regKeys calls) (hel : LegalElems el S1 (regKeys calls) num') {eqs : EqSolver K}
    (he : Exact eqs) {s : NState E K} (hrun : Running S1 A s.S) (hk : Books S1 (regKeys calls) num' fixs s) :
    (iteration eqs el loads fixs s = .fatal ∧ Stops eqs (S1.nUnknown + S1.nMpc) (fun i j =>
      asmM S1.transient num' (el.build s.e (zeroR s.S)) (el.upd s.e (zeroR s.S) s.S.mpcs) (el.cm s.e (zeroR s.S)) 0
        (S1.nConstr + (i + 1)) (S1.nConstr + (j + 1)))) ∨
    ∃ s', iteration eqs el loads fixs s = .ok s' ∧ Running S1 A s'.S ∧ Books S1 (regKeys calls) num' fixs s' ∧
      Solved el S1 (regKeys calls) num' loads fixs s s' ∧ Succeeds eqs (S1.nUnknown + S1.nMpc) (fun i j =>
      asmM S1.transient num' (el.build s.e (zeroR s.S)) (el.upd s.e (zeroR s.S) s.S.mpcs) (el.cm s.e (zeroR s.S)) 0
        (S1.nConstr + (i + 1)) (S1.nConstr + (j + 1))) := by
  obtain ⟨M, v, u, r, hrun⟩ := hrun
  have hd := hb.prep.pre.dofs
  have hz := hrun.zeroR
  obtain ⟨hl1, hl2, hl3⟩ := hel s.e (zeroR s.S) hz.alike
  obtain ⟨S2, a1, a2, a3⟩ := hz.assemble hb.prep.pre (build := el.build s.e (zeroR s.S)) (cm := el.cm s.e (zeroR s.S))
    (upd := el.upd s.e (zeroR s.S))
    (fun c hc => wanted_fine hb.prep hb.agree ((hl1 c hc).wanted hb))
    (fun c hc => wanted_fine hb.prep hb.agree ((hl2 c hc).wanted hb)) hl3
  have hzm : (zeroR s.S).mpcs = s.S.mpcs := rfl
  rw [hzm] at a2 a3
  have hsh : SameShape S1.mpcs (el.upd s.e (zeroR s.S) s.S.mpcs) :=
    Eq.trans (hl3 s.S.mpcs) hrun.during.shape
  obtain ⟨S3, b1, b2, b3⟩ := run_bc hb.prep.pre a3 s.tc.nextEquilibriumStep.normalized (loads := loads) (fixs := fixs)
    (fun l hll => hb.some (hloads l hll)) (fun f hf => ⟨hb.some (hb.fixes f hf), by
      rw [hb.bc (hb.fixes f hf)]; exact (hb.fixRange (List.mem_map.mpr ⟨f, hf, rfl⟩)).2⟩)
  generalize htime : s.tc.nextEquilibriumStep.normalized = t at b1 b3
  generalize hMM : asmM S1.transient (num A) (el.build s.e (zeroR s.S)) (el.upd s.e (zeroR s.S) s.S.mpcs)
    (el.cm s.e (zeroR s.S)) = M' at a3 b3
  generalize hVV : asmV S1.transient (el.build s.e (zeroR s.S)) (el.upd s.e (zeroR s.S) s.S.mpcs)
    (el.cm s.e (zeroR s.S)) = v' at a3 b3
  have c1 := b3.nConstr
  have c2 := b3.nUnknown
  have c3 := b3.nMpc
  -- values of the constrained DoFs
  have hprev : IsVec s.ucPrev S1.nConstr u := by
    rw [hk.prev]
    exact (hrun.U.seg (off := 0) (by omega)).congr (fun i _ => by rw [Nat.zero_add])
  have hUc := b3.U.seg (off := 0) (n := S1.nConstr) (by omega)
  have hdUc := hUc.zipWith (· - ·) hprev
  have hdel0 : IsVec s.deltaU (S1.nDofs + S1.nMpc) (fun i => s.deltaU.getD i 0) := ⟨hk.sizes.2.2, fun _ _ => rfl⟩
  have hdel1 := hdel0.put hdUc (off := 0) (by omega)
  have hguess := (hdel1.seg (off := S1.nConstr) (n := S1.nUnknown + S1.nMpc) (by omega)).1
  have hcore : iteration eqs el loads fixs s = (do
      let (x, Rc) ← condense eqs S3 (List.zipWith (· - ·) (seg S3.vecU 0 S3.nConstr) s.ucPrev)
        (seg (put s.deltaU 0 (List.zipWith (· - ·) (seg S3.vecU 0 S3.nConstr) s.ucPrev)) S3.nConstr (S3.nUnknown + S3.nMpc))
      let D := put (put s.deltaU 0 (List.zipWith (· - ·) (seg S3.vecU 0 S3.nConstr) s.ucPrev)) S3.nConstr x
      let U := put (put S3.vecU S3.nConstr (List.zipWith (· + ·) (seg S3.vecU S3.nConstr S3.nUnknown)
        (seg D S3.nConstr S3.nUnknown))) (S3.nConstr + S3.nUnknown) (seg D (S3.nConstr + S3.nUnknown) S3.nMpc)
      let S := withUR S3 U (put S3.vecR 0 Rc)
      .ok ⟨S, el.update s.e S, seg U 0 S3.nConstr, D, s.tc.nextEquilibriumStep,
        s.trace ++ [(s.tc.nextEquilibriumStep.normalized, D)]⟩) := by
    unfold iteration
    simp only [a1, Res.ok_bind, htime, b1]
    rfl
  rw [c1, c2, c3, htime] at hcore
  rw [hcore]
  have hasm : ∀ i j, M' 0 i j = asmM S1.transient num' (el.build s.e (zeroR s.S)) (el.upd s.e (zeroR s.S) s.S.mpcs)
      (el.cm s.e (zeroR s.S)) 0 i j := by
    intro i j
    rw [← hMM, asmM_congr hb hsh]
  rcases condense_ok he hb.prep.pre b3 hdUc hguess with ⟨hfat, hst⟩ | ⟨X, Rc, y, ρ, d1, d2, d3, d4, d5, d6⟩
  · left
    refine ⟨by rw [hfat]; rfl, ?_⟩
    simp only [hasm] at hst
    exact hst
  right
  -- the increments
  have hD := hdel1.put d2 (off := S1.nConstr) (by omega)
  generalize hDD : put (put s.deltaU 0 (List.zipWith (· - ·) (seg S3.vecU 0 S1.nConstr) s.ucPrev)) S1.nConstr X = D at hD
  have hDv : IsVec D (S1.nDofs + S1.nMpc) (fun i => if i < S1.nConstr then
      (match fixLast (bcNum A) (i + 1) fixs with | some x => t * x | none => u i) - u i else y (i - S1.nConstr)) := by
    refine hD.congr ?_
    intro i hi
    beta_reduce
    by_cases h1 : i < S1.nConstr
    · rw [if_neg (by omega), if_pos (by omega), if_pos h1]
      simp only [Nat.zero_add, Nat.sub_zero]
      rfl
    · rw [if_pos (by omega), if_neg h1]
  have hUs := (b3.U.seg (off := S1.nConstr) (n := S1.nUnknown) (by omega)).zipWith (· + ·)
    (hDv.seg (off := S1.nConstr) (n := S1.nUnknown) (by omega))
  have hU1 := b3.U.put hUs (off := S1.nConstr) (by omega)
  have hU2 := hU1.put (hDv.seg (off := S1.nConstr + S1.nUnknown) (n := S1.nMpc) (by omega))
    (off := S1.nConstr + S1.nUnknown) (by omega)
  generalize hUU : put (put S3.vecU S1.nConstr (List.zipWith (· + ·) (seg S3.vecU S1.nConstr S1.nUnknown)
      (seg D S1.nConstr S1.nUnknown))) (S1.nConstr + S1.nUnknown) (seg D (S1.nConstr + S1.nUnknown) S1.nMpc) = U at hU2
  have hUv : IsVec U (S1.nDofs + S1.nMpc) (fun i => if i < S1.nConstr then
      (match fixLast (bcNum A) (i + 1) fixs with | some x => t * x | none => u i)
      else if i < S1.nDofs then u i + y (i - S1.nConstr) else y (i - S1.nConstr)) := by
    refine hU2.congr ?_
    intro i hi
    beta_reduce
    by_cases h1 : i < S1.nConstr
    · rw [if_neg (by omega), if_neg (by omega), if_pos h1]
      rfl
    · by_cases h2 : i < S1.nDofs
      · rw [if_neg (by omega), if_pos (by omega), if_neg h1, if_pos h2, if_neg (by omega)]
        have : S1.nConstr + (i - S1.nConstr) = i := by omega
        rw [this, hb.fixLast_free (by omega)]
      · rw [if_pos (by omega), if_neg h1, if_neg h2, if_neg (by omega)]
        have : S1.nConstr + S1.nUnknown + (i - (S1.nConstr + S1.nUnknown)) = i := by omega
        rw [this]
  have hR' := b3.R.put d3 (off := 0) (by omega)
  have hfin := b3.setUR hUv hR'
  have hout : (do
      let (x, Rc) ← condense eqs S3 (List.zipWith (· - ·) (seg S3.vecU 0 S1.nConstr) s.ucPrev)
        (seg (put s.deltaU 0 (List.zipWith (· - ·) (seg S3.vecU 0 S1.nConstr) s.ucPrev)) S1.nConstr (S1.nUnknown + S1.nMpc))
      let D := put (put s.deltaU 0 (List.zipWith (· - ·) (seg S3.vecU 0 S1.nConstr) s.ucPrev)) S1.nConstr x
      let U := put (put S3.vecU S1.nConstr (List.zipWith (· + ·) (seg S3.vecU S1.nConstr S1.nUnknown)
        (seg D S1.nConstr S1.nUnknown))) (S1.nConstr + S1.nUnknown) (seg D (S1.nConstr + S1.nUnknown) S1.nMpc)
      let S := withUR S3 U (put S3.vecR 0 Rc)
      (.ok ⟨S, el.update s.e S, seg U 0 S1.nConstr, D, s.tc.nextEquilibriumStep, s.trace ++ [(t, D)]⟩ : Res (NState E K))) =
      .ok ⟨withUR S3 U (put S3.vecR 0 Rc), el.update s.e (withUR S3 U (put S3.vecR 0 Rc)), seg U 0 S1.nConstr, D,
        s.tc.nextEquilibriumStep, s.trace ++ [(t, D)]⟩ := by
    rw [d1]
    simp only [Res.ok_bind, hDD, hUU]
  simp only [hasm] at d6
  refine ⟨_, hout, ⟨_, _, _, _, hfin⟩, ?_, ?_, d6⟩
  · -- books
    refine ⟨hfin.alike, ⟨hfin.U.1, hfin.R.1, hDv.1⟩, ?_, ?_, ?_, rfl⟩
    · intro i h1 h2
      show comp U i = total (s.trace ++ [(t, D)]) i
      rw [total_append, ← hk.sums i h1 h2]
      unfold comp
      rw [hUv.2 _ (by omega), hDv.2 _ (by omega), hrun.U.2 _ (by omega)]
      beta_reduce
      by_cases h3 : i - 1 < S1.nConstr
      · rw [if_pos h3, if_pos h3]; ring
      · rw [if_neg h3, if_neg h3, if_pos (by omega)]
    · intro k hkr x hx
      have hmem : k ∈ fixKeys fixs := lastFix_isSome.mp (by rw [hx]; rfl)
      have hr := hb.fixRange hmem
      show comp U (num' k) = lastTime (s.trace ++ [(t, D)]) * x
      rw [lastTime_append]
      unfold comp
      rw [hUv.2 _ (by omega)]
      beta_reduce
      rw [if_pos (by omega), Nat.sub_add_cancel hr.1, hb.fixLast hkr, hx]
    · intro i h1 h2
      show comp U i = lastDelta (s.trace ++ [(t, D)]) i
      rw [lastDelta_append]
      unfold comp
      rw [hUv.2 _ (by omega), hDv.2 _ (by omega)]
      beta_reduce
      rw [if_neg (by omega), if_neg (by omega), if_neg (by omega)]
  · -- the system
    have hmp : (withUR S3 U (put S3.vecR 0 Rc)).mpcs = el.upd s.e (zeroR s.S) s.S.mpcs := by
      have : (withUR S3 U (put S3.vecR 0 Rc)).mpcs = S2.mpcs := by rw [b2]; rfl
      rw [this, a2]
    refine ⟨rfl, by rw [htime], rfl, hmp, ?_, ?_, ?_, ?_⟩
    · intro k hkr hkf
      have hr := hb.freeRange hkr hkf
      show comp (put S3.vecR 0 Rc) (num' k) = s.tc.nextEquilibriumStep.normalized * _
      rw [htime]
      unfold comp
      rw [hR'.2 _ (by omega)]
      beta_reduce
      rw [if_neg (by omega), Nat.sub_add_cancel (by omega), hb.loadTotal hloads hkr, zero_add]
    · intro i h1 h2
      show comp (put S3.vecR 0 Rc) i = 0
      unfold comp
      rw [hR'.2 _ (by omega)]
      beta_reduce
      rw [if_neg (by omega), Nat.sub_add_cancel (by omega), hb.loadTotal_mpc hloads h1, mul_zero, add_zero]
    · intro m hm
      rw [hmp] at hm
      obtain ⟨⟨hr1, hr2⟩, hr3, hr4⟩ := mpc_row hb hl1 hl2 hsh hm
      rw [hMM] at hr4
      rw [hVV] at hr3
      have heq := d4 (m.eqNum - S1.nConstr - 1) (by omega)
      have hidx : S1.nConstr + (m.eqNum - S1.nConstr - 1 + 1) = m.eqNum := by omega
      have hrm : S1.nConstr + (m.eqNum - S1.nConstr - 1) + 1 = m.eqNum := by omega
      rw [hidx, hr3, hrm, hb.loadTotal_mpc hloads hr1, mul_zero, add_zero, add_zero] at heq
      rw [← heq]
      show (m.eq.map (fun t => t.coef * comp D (num' (.node, t.node, t.dof)))).sum = _
      have := hr4 (fun i => D.getD i 0)
      refine Eq.trans (Eq.symm this) ?_
      have hN : S1.nDofs + S1.nMpc = S1.nConstr + (S1.nUnknown + S1.nMpc) := by omega
      rw [hN, Finset.sum_range_add]
      congr 1
      · apply Finset.sum_congr rfl
        intro j hj
        rw [Finset.mem_range] at hj
        rw [hDv.2 _ (by omega)]
        beta_reduce
        rw [if_pos (by omega)]
        simp only [Nat.zero_add]
        rfl
      · apply Finset.sum_congr rfl
        intro j hj
        rw [Finset.mem_range] at hj
        rw [hDv.2 _ (by omega)]
        beta_reduce
        rw [if_neg (by omega), Nat.add_sub_cancel_left, Nat.add_assoc]
    · refine ⟨M' 0, v', hfin.stiff.1, hfin.stiff.2, ?_, ?_, ?_, ?_⟩
      · intro i j; rw [hmp]; exact hasm i j
      · intro i; rw [hmp, ← hVV]
      · intro i h1 h2
        have heq := d4 (i - S1.nConstr - 1) (by omega)
        have hidx : S1.nConstr + (i - S1.nConstr - 1 + 1) = i := by omega
        have hidy : S1.nConstr + (i - S1.nConstr - 1) = i - 1 := by omega
        rw [hidx, hidy] at heq
        have hrr : comp (put S3.vecR 0 Rc) i = 0 + t * loadTotal (bcNum A) (i - 1 + 1) loads := by
          unfold comp
          rw [hR'.2 _ (by omega)]
          beta_reduce
          rw [if_neg (by omega)]
        show rowMul (M' 0) (comp D) _ i = v' i + comp (put S3.vecR 0 Rc) i
        rw [hrr, ← heq]
        unfold rowMul
        have hN : S1.nDofs + S1.nMpc = S1.nConstr + (S1.nUnknown + S1.nMpc) := by omega
        rw [hN, Finset.sum_range_add]
        congr 1
        · apply Finset.sum_congr rfl
          intro j hj
          rw [Finset.mem_range] at hj
          unfold comp
          rw [hDv.2 _ (by omega)]
          beta_reduce
          rw [if_pos (by omega)]
          simp only [Nat.zero_add, Nat.add_sub_cancel]
          rfl
        · apply Finset.sum_congr rfl
          intro j hj
          rw [Finset.mem_range] at hj
          unfold comp
          rw [hDv.2 _ (by omega)]
          beta_reduce
          rw [if_neg (by omega)]
          have : S1.nConstr + j + 1 - 1 - S1.nConstr = j := by omega
          rw [this, Nat.add_assoc]
      · intro i h1 h2
        have heq := d5 (i - 1) (by omega)
        rw [Nat.sub_add_cancel h1] at heq
        have hrr : comp (put S3.vecR 0 Rc) i = ρ (i - 1) := by
          unfold comp
          rw [hR'.2 _ (by omega)]
          beta_reduce
          rw [if_pos (by omega), Nat.sub_zero]
        show rowMul (M' 0) (fun j => if j ≤ S1.nConstr then kept (comp D j) else comp D j) _ i =
          v' i + comp (put S3.vecR 0 Rc) i
        rw [hrr, ← heq]
        unfold rowMul
        have hN : S1.nDofs + S1.nMpc = S1.nConstr + (S1.nUnknown + S1.nMpc) := by omega
        rw [hN, Finset.sum_range_add]
        congr 1
        · apply Finset.sum_congr rfl
          intro j hj
          rw [Finset.mem_range] at hj
          beta_reduce
          rw [if_pos (by omega)]
          unfold comp
          rw [hDv.2 _ (by omega)]
          beta_reduce
          rw [if_pos (by omega)]
          simp only [Nat.zero_add, Nat.add_sub_cancel]
          rfl
        · apply Finset.sum_congr rfl
          intro j hj
          rw [Finset.mem_range] at hj
          beta_reduce
          rw [if_neg (by omega)]
          unfold comp
          rw [hDv.2 _ (by omega)]
          beta_reduce
          rw [if_neg (by omega)]
          have : S1.nConstr + j + 1 - 1 - S1.nConstr = j := by omega
          rw [this, Nat.add_assoc]

end Nla3d.Solver
