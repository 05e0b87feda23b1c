import Verif.Pardiso.Pattern
import Verif.Solver.LinearProps
import Verif.Storage.Rows

/-!
# C108: which models PARDISO can be given
-/

set_option linter.unusedSectionVars false

namespace Nla3d.Pardiso

open Nla3d.Dof Nla3d.Block Nla3d.Sparse Nla3d.Storage Nla3d.Solver Finset

variable {K : Type}

/-! ## The structure of `matK->block(2)` -/

section structure_
variable [AddMonoid K]

/-- The lower right block of a storage with the registered entries `es`: its structure is legal iff every diagonal entry of the rows
of unknown DoFs and MPC equations was registered. -/
theorem live_legal {S : Storage K} {es : List (Nat × Nat)} {M : Nat → Nat → Nat → K} {v : Nat → K} (h : Live S es M v)
    (hpos : 0 < S.nUnknown + S.nMpc) {F : Family K} (hF : matOf S = .ok F) {B : SpMat K} (hB : blockMat F 0 2 2 = .ok B) :
    (patternOf B).Legal ↔ ∀ i < S.nUnknown + S.nMpc, Reg es (S.nConstr + (i + 1)) (S.nConstr + (i + 1)) := by
  obtain ⟨F', hs, h1, h2, h3, h4⟩ := h.mat
  have hFF : F' = F := by
    unfold matOf at hF; rw [h1] at hF; simpa using hF
  subst hFF
  have hQ : 0 < S.nMats := by unfold Storage.nMats; split <;> omega
  obtain ⟨si, rows, c1, c2, c3, c4, c5⟩ := blockMat_ok (hsmall S) h2 (a := 2) (b := 2) (by omega) (by omega) (by simp)
  obtain ⟨w, w1, _⟩ := c5 0 (by omega)
  rw [hB, Res.ok.injEq] at w1
  subst w1
  have z2 : (bsizes S).getD (2 - 1) 0 = S.nUnknown + S.nMpc := rfl
  have e2 : ∀ p, glob (bsizes S) 2 p = S.nConstr + p := fun p => by simp [glob]
  rw [z2] at c2 c3
  have hlen : rows.length = S.nUnknown + S.nMpc := by rw [c1.len, c2]
  refine (legal_iff c1 (by rw [c2, c3]) (by rw [c2]; exact hpos) ?_).trans ?_
  · intro i hi c hc
    exact ((c4 i hi c).mp hc).2.1 rfl
  · constructor
    · intro hd i hi
      have := ((c4 i (by omega) (i + 1)).mp (hd i (by omega))).2.2
      rwa [e2] at this
    · intro hd i hi
      refine (c4 i hi (i + 1)).mpr ⟨⟨by omega, by simp, by omega, by show i + 1 ≤ S.nUnknown + S.nMpc; omega⟩, fun _ => le_rfl, ?_⟩
      rw [e2]
      exact hd i (by omega)

/-- What the structure of the matrix needs: no constraint equations, and every free DoF at an element. -/
def Complete (els : List (List Nat)) (mpcs : List (Mpc K)) (regs cs : List Key) : Prop :=
  mpcs = [] ∧ ∀ k ∈ regs, k ∉ cs → ∃ en, Attached els en k

theorem diag_iff {S0 S1 : Storage K} {calls : List RegCall} {new : List (Mpc K)} {cs : List Key} {A : Side → Spec}
    (hp : Prepared S0 S1 calls new cs A) :
    (∀ i < S1.nUnknown + S1.nMpc, Reg (gAll S1 A) (S1.nConstr + (i + 1)) (S1.nConstr + (i + 1))) ↔
      Complete S0.elements (S0.mpcs ++ new) (regKeys calls) cs := by
  have hd := hp.pre.dofs
  have hpre : Pre (S1.prep S1.topology) A :=
    ⟨hp.pre.sim.congr rfl rfl rfl rfl, hp.pre.mesh, hp.pre.dofs, hp.pre.range, hp.pre.topo, hp.pre.eqNum, hp.pre.terms⟩
  have hmem : ∀ i, Reg (gAll S1 A) i i → (∃ f g, f ∈ regKeys calls ∧ g ∈ regKeys calls ∧ num A f = i ∧ num A g = i ∧
      Together S1.elements f g) := by
    intro i hr
    have h1 : (i, i) ∈ gAll (S1.prep S1.topology) A := by
      rcases hr with hr | hr <;> exact hr
    rcases gAll_mem hp.ready hpre h1 with h2 | ⟨q, m, h2, h3, t, h4, h5⟩
    · exact h2
    · exfalso
      have hm := List.mem_of_getElem? h2
      have hk := (hp.ready.isSome _).mp ((hp.pre.terms m hm).2 t h4)
      have := hp.ready.num_range hk
      have := hp.pre.eqNum m hm
      omega
  have hnm : S1.nMpc = (S0.mpcs ++ new).length := hp.ready.nMpc
  have hels : S1.elements = S0.elements := hp.ready.mesh.elements
  constructor
  · intro h
    refine ⟨?_, ?_⟩
    · rw [← List.length_eq_zero_iff, ← hnm]
      by_contra hne
      obtain ⟨f, g, hf, hg, e1, e2, _⟩ := hmem _ (h S1.nUnknown (by omega))
      have := hp.ready.num_range hf
      omega
    · intro k hk hkc
      have hr := hp.ready.unk.mapsTo (show k ∈ {k | k ∈ regKeys calls ∧ k ∉ cs} from ⟨hk, hkc⟩)
      rw [Set.mem_Ico] at hr
      obtain ⟨f, g, hf, hg, e1, e2, e, ns, t1, t2⟩ := hmem _ (h (num A k - (S1.nConstr + 1)) (by omega))
      have hfk : f = k := hp.ready.num_inj hf hk (by omega)
      subst hfk
      refine ⟨e + 1, ?_⟩
      rcases t2 f (by simp) with ⟨s1, s2⟩ | ⟨s1, s2⟩
      · obtain ⟨s, n, t⟩ := f
        simp only at s1 s2
        subst s1
        show n ∈ elNodes S0.elements (e + 1)
        rw [← hels]
        unfold elNodes
        rw [if_neg (by omega), Nat.add_sub_cancel, t1]
        exact s2
      · obtain ⟨s, n, t⟩ := f
        simp only at s1 s2
        subst s1
        exact s2
  · rintro ⟨h1, h2⟩ i hi
    have h0 : S1.nMpc = 0 := by rw [hnm, h1]; rfl
    obtain ⟨k, ⟨hk, hkc⟩, hki⟩ := hp.ready.unk.surjOn (show S1.nConstr + (i + 1) ∈ Set.Ico (S1.nConstr + 1) (S1.nDofs + 1) by
      rw [Set.mem_Ico]; omega)
    obtain ⟨en, hen⟩ := h2 k hk hkc
    have hs := (hp.ready.isSome k).mpr hk
    rw [← hels] at hen
    have := cover_pair hp.pre hs hs hen hen
    rw [hki] at this
    exact this

end structure_

/-- **C108, the structure handed to PARDISO.** In any session on a prepared model the lower right block of the stiffness matrix - the
matrix all solvers hand to the equation solver - has a structure PARDISO accepts iff the model has no constraint equations and every
free DoF belongs to an element. -/
theorem C108_structure_iff [AddCommMonoid K] {S0 S1 S : Storage K} {calls : List RegCall} {new : List (Mpc K)} {cs : List Key}
    {num : Key → Nat} (h : Session S0 calls new cs S1 num S) :
    ∃ F B, matOf S = .ok F ∧ blockMat F 0 2 2 = .ok B ∧ B.si.nRows = S1.nUnknown + S1.nMpc ∧
      ((patternOf B).Legal ↔ Complete S0.elements (S0.mpcs ++ new) (regKeys calls) cs) := by
  obtain ⟨A, M, v, hp, hn, hd⟩ := session_during h
  obtain ⟨F, hF, rows1, rows2, hb⟩ := live_blocks hd.live
  have hQ : 0 < S.nMats := by unfold Storage.nMats; split <;> omega
  obtain ⟨_, _, ⟨B, b1, b2⟩⟩ := hb 0 hQ
  have c1 : S.nConstr = S1.nConstr := by rw [hd.frame.nConstr]
  have c2 : S.nUnknown = S1.nUnknown := by rw [hd.frame.nUnknown]
  have c3 : S.nMpc = S1.nMpc := by unfold Storage.nMpc; rw [hd.shape.length]
  have hpos : 0 < S.nUnknown + S.nMpc := by
    rw [c2]
    rcases prepare_cases h.legal with ⟨hc, S', A', T, _, h0, ⟨_, S2, h1, h2, _⟩ | ⟨_, h1⟩⟩ | ⟨_, h1⟩
    · have a1 := hp.ready.nDofs
      have a2 := hp.ready.nConstr
      have a3 := hp.ready.nUnknown
      omega
    · rw [h.prep] at h1; simp at h1
    · rw [h.prep] at h1; simp at h1
  refine ⟨F, B, hF, b1, by rw [b2.nRows, c2, c3], ?_⟩
  refine (live_legal hd.live hpos hF b1).trans ?_
  rw [c1, c2, c3]
  exact diag_iff hp

/-- **Every model with a constraint equation is outside the contract of PARDISO**: the diagonal entries of the rows of constraint
equations are never registered (FEStorage.cpp:535-541, BlockSparseMatrix.h:75-86). -/
theorem C108_mpc_violated [AddCommMonoid K] {S0 S1 S : Storage K} {calls : List RegCall} {new : List (Mpc K)} {cs : List Key}
    {num : Key → Nat} (h : Session S0 calls new cs S1 num S) (hm : S0.mpcs ++ new ≠ []) :
    ∃ F B, matOf S = .ok F ∧ blockMat F 0 2 2 = .ok B ∧ ¬ (patternOf B).Legal := by
  obtain ⟨F, B, h1, h2, _, h3⟩ := C108_structure_iff h
  exact ⟨F, B, h1, h2, fun hl => hm (h3.mp hl).1⟩

/-! ## `LinearFESolver` with PARDISO -/

section linear
variable [Field K] [LinearOrder K]

/-- The matrix is a symmetric block with a legal structure. -/
def Suits (B : SpMat K) : Prop := ∃ n rows f, SymBlk B n rows f ∧ (patternOf B).Legal

open Classical in
/-- PARDISO on matrices it accepts; a device for the proofs. -/
noncomputable def guard (L : Lib K) (B : SpMat K) (rhs guess : List K) : Res (List K) :=
  if Suits B then eqs L B rhs guess else .fatal

theorem guard_exact {L : Lib K} (hL : L.Exact) : Solver.Exact (guard L) := by
  intro B rhs g n a hn hv hr hg
  unfold guard
  by_cases hs : Suits B
  · rw [if_pos hs]
    obtain ⟨n', rows, f, hb, hl⟩ := hs
    have hnn : n' = n := by rw [← hb.nRows, hn]
    subst hnn
    rcases eqs_ok hL hb hl hr g with ⟨e, _⟩ | ⟨X, e, h1, h2⟩
    · exact Or.inl e
    · refine Or.inr ⟨X, e, h1, ?_⟩
      intro i hi
      rw [← h2 i hi]
      apply Finset.sum_congr rfl
      intro j hj
      have hj := Finset.mem_range.mp hj
      have e1 := hv i hi j hj
      rw [hb.value ⟨by omega, by omega⟩ ⟨by omega, by omega⟩, Res.ok.injEq] at e1
      rw [e1]
  · rw [if_neg hs]; exact Or.inl rfl

/-- `condense` up to the call of the equation solver. -/
theorem condense_split {S1 S : Storage K} {A : Side → Spec} {M : Nat → Nat → Nat → K} {v u r : Nat → K} (hp : Pre S1 A)
    (h : Run S1 S A M v u r) {uc : List K} {x : Nat → K} (hx : IsVec uc S1.nConstr x) :
    ∃ F B rows rhs, matOf S = .ok F ∧ blockMat F 0 2 2 = .ok B ∧
      SymBlk B (S1.nUnknown + S1.nMpc) rows (fun p c => M 0 (S1.nConstr + p) (S1.nConstr + c)) ∧
      rhs.length = S1.nUnknown + S1.nMpc ∧
      ∀ (eqs' : EqSolver K) guess, (∀ X, eqs' B rhs guess = .ok X → X.length = S1.nUnknown + S1.nMpc) →
        ∃ g : List K → Res (List K × List K), condense eqs' S uc guess = eqs' B rhs guess >>= g ∧
          ∀ X, eqs' B rhs guess = .ok X → ∃ y, g X = .ok y := by
  obtain ⟨F, hF, rows1, rows2, hb⟩ := live_blocks h.during.live
  have hQ : 0 < S.nMats := by unfold Storage.nMats; split <;> omega
  obtain ⟨⟨K11, b1, b2⟩, ⟨K12, c1, c2⟩, ⟨K22, d1, d2⟩⟩ := hb 0 hQ
  have hnc := h.nConstr
  have hnu := h.nUnknown
  have hnm := h.nMpc
  rw [hnc] at b2 c2 d2
  rw [hnu, hnm] at c2 d2
  have hd := hp.dofs
  have hFs := h.F.seg (off := S1.nConstr) (n := S1.nUnknown + S1.nMpc) (by omega)
  have hRs := h.R.seg (off := S1.nConstr) (n := S1.nUnknown + S1.nMpc) (by omega)
  have hrhs0 := ((IsVec.replicate (S1.nUnknown + S1.nMpc) (0 : K)).zipWith (· + ·) hFs).zipWith (· + ·) hRs
  obtain ⟨rhs, g1, g2⟩ := c2.btv hx hrhs0 (-1)
  refine ⟨F, K22, rows2, rhs, hF, d1, d2, g2.1, ?_⟩
  intro eqs' guess hlen
  refine ⟨fun X => (do
      let Rc ← K11.matBVprodSym big uc 1 (List.replicate S1.nConstr 0)
      let Rc ← K12.matBVprod X 1 Rc
      .ok (X, List.zipWith (· - ·) Rc (seg S.vecF 0 S1.nConstr))), ?_, ?_⟩
  · unfold condense
    rw [hF]
    simp only [Res.ok_bind, b1, c1, d1, hnc, hnu, hnm, g1]
  · intro X hX
    obtain ⟨R1, k1, k2⟩ := b2.bv hx (IsVec.replicate S1.nConstr (0 : K)) 1
    have hXv : IsVec X (S1.nUnknown + S1.nMpc) (fun j => X.getD j 0) := ⟨hlen X hX, fun _ _ => rfl⟩
    obtain ⟨R2, l1, l2⟩ := c2.bv hXv k2 1
    exact ⟨_, by simp only [k1, Res.ok_bind, l1]; rfl⟩

/-- `LinearFESolver::solve` up to the reduced system. -/
theorem core_split {E : Type} {S0 S1 : Storage K} {calls : List RegCall} {new : List (Mpc K)} {loads fixs : List (Bc K)} {num' : Key → Nat}
    {A : Side → Spec} {el : Elems E K} (h : Problem S0 calls new loads fixs el)
    (hprep : S0.prepare calls new (fixKeys fixs) = .ok S1)
    (hnum : ∀ k ∈ regKeys calls, S1.eqNumber k.1 k.2.1 k.2.2 = .ok (num' k)) (hb : Base S0 S1 calls new fixs num' A) (e : E) :
    ∃ S3 M v u r uc guess x, Run S1 S3 A M v u r ∧ IsVec uc S1.nConstr x ∧ guess.length = S1.nUnknown + S1.nMpc ∧
      ∃ g : List K × List K → Storage K × E, ∀ eqs' : EqSolver K,
        linearSolve eqs' el loads fixs calls new S0 e = condense eqs' S3 uc guess >>= fun y => .ok (g y) := by
  have hel := h.elems S1 num' hprep hnum
  have hd := hb.prep.pre.dofs
  have hz : zeroR S1 = S1 := by
    unfold zeroR; rw [hb.R, List.length_replicate, ← hb.R]
  have hrun := hb.run
  obtain ⟨hl1, hl2, hl3⟩ := hel e S1 rfl
  obtain ⟨S2, a1, a2, a3⟩ := hrun.assemble hb.prep.pre (build := el.build e S1) (cm := el.cm e S1) (upd := el.upd e S1)
    (fun c hc => wanted_fine hb.prep hb.agree ((hl1 c hc).wanted hb))
    (fun c hc => wanted_fine hb.prep hb.agree ((hl2 c hc).wanted hb)) hl3
  obtain ⟨S3, b1, b2, b3⟩ := run_bc hb.prep.pre a3 1 (loads := loads) (fixs := fixs)
    (fun l hll => hb.some (h.loads l hll)) (fun f hf => ⟨hb.some (hb.fixes f hf), by
      rw [hb.bc (hb.fixes f hf)]; exact (hb.fixRange (List.mem_map.mpr ⟨f, hf, rfl⟩)).2⟩)
  have c1 := b3.nConstr
  have c2 := b3.nUnknown
  have c3 := b3.nMpc
  refine ⟨S3, _, _, _, _, seg S3.vecU 0 S1.nConstr, seg S3.vecU S1.nConstr (S1.nUnknown + S1.nMpc), _, b3,
    b3.U.seg (off := 0) (n := S1.nConstr) (by omega), (b3.U.seg (off := S1.nConstr) (n := S1.nUnknown + S1.nMpc) (by omega)).1,
    fun y => (withUR S3 (put S3.vecU S1.nConstr y.1) (put S3.vecR 0 y.2),
      el.update e (withUR S3 (put S3.vecU S1.nConstr y.1) (put S3.vecR 0 y.2))), ?_⟩
  intro eqs'
  have hcore : linearSolve eqs' el loads fixs calls new S0 e = (do
      let (x, Rc) ← condense eqs' S3 (seg S3.vecU 0 S3.nConstr) (seg S3.vecU S3.nConstr (S3.nUnknown + S3.nMpc))
      let S := withUR S3 (put S3.vecU S3.nConstr x) (put S3.vecR 0 Rc)
      .ok (S, el.update e S)) := by
    unfold linearSolve linearCore
    rw [hprep]
    simp only [Res.ok_bind]
    rw [hz]
    simp only [a1, Res.ok_bind, b1]
    rfl
  rw [c1, c2, c3] at hcore
  exact hcore

theorem run_legal {S0 S1 S3 : Storage K} {calls : List RegCall} {new : List (Mpc K)} {fixs : List (Bc K)} {num' : Key → Nat}
    {A : Side → Spec} (hl : LegalModel S0 calls new (fixKeys fixs)) (hprep : S0.prepare calls new (fixKeys fixs) = .ok S1)
    (hb : Base S0 S1 calls new fixs num' A)
    {M : Nat → Nat → Nat → K} {v u r : Nat → K} (h3 : Run S1 S3 A M v u r) {F : Family K} (hF : matOf S3 = .ok F) {B : SpMat K}
    (hB : blockMat F 0 2 2 = .ok B) :
    (patternOf B).Legal ↔ Complete S0.elements (S0.mpcs ++ new) (regKeys calls) (fixKeys fixs) := by
  have c1 := h3.nConstr
  have c2 := h3.nUnknown
  have c3 := h3.nMpc
  have hpos : 0 < S3.nUnknown + S3.nMpc := by
    rw [c2]
    rcases prepare_cases hl with ⟨hc, S', A', T, _, h0, ⟨_, S2, h1, h2, _⟩ | ⟨_, h1⟩⟩ | ⟨_, h1⟩
    · have a1 := hb.prep.ready.nDofs
      have a2 := hb.prep.ready.nConstr
      have a3 := hb.prep.ready.nUnknown
      omega
    · rw [hprep] at h1; simp at h1
    · rw [hprep] at h1; simp at h1
  refine (live_legal h3.during.live hpos hF hB).trans ?_
  rw [c1, c2, c3]
  exact diag_iff hb.prep

/-- **C108, linear solution.** `LinearFESolver` with PARDISO, on any problem without constraint equations whose free DoFs all belong to
elements: it never leaves the contract of the library. It stops only if the preparation stops or the library reports an error; otherwise
it delivers what C18 says: prescribed values, applied loads, and the equations in every row (constrained rows with values up to `1e-20`
taken as zero). -/
theorem C108_linear {E : Type} {S0 : Storage K} {calls : List RegCall} {new : List (Mpc K)} {loads fixs : List (Bc K)}
    {el : Elems E K} (h : Problem S0 calls new loads fixs el) {L : Lib K} (hL : L.Exact)
    (hc : Complete S0.elements (S0.mpcs ++ new) (regKeys calls) (fixKeys fixs)) (e : E) :
    (linearSolve (eqs L) el loads fixs calls new S0 e = .fatal ∧
      (S0.prepare calls new (fixKeys fixs) = .fatal ∨ ∃ p : Pattern, p.Legal ∧ Fails L (-2) p)) ∨
    ∃ S1 num S' e', S0.prepare calls new (fixKeys fixs) = .ok S1 ∧
      (∀ k ∈ regKeys calls, S1.eqNumber k.1 k.2.1 k.2.2 = .ok (num k)) ∧
      linearSolve (eqs L) el loads fixs calls new S0 e = .ok (S', e') ∧
      Answer S1 S' (regKeys calls) num loads fixs ∧
      ∃ k f, StiffIs S' k ∧ LoadIs S' f ∧
        (∀ i j, k i j = Assembled el e S1 num 0 i j) ∧ (∀ i, f i = AssembledLoad el e S1 i) ∧
        (∀ i, S1.nConstr < i → i ≤ S1.nDofs + S1.nMpc →
          rowMul k (comp S'.vecU) (S1.nDofs + S1.nMpc) i = f i + comp S'.vecR i) ∧
        (∀ i, 0 < i → i ≤ S1.nConstr →
          rowMul k (fun j => if j ≤ S1.nConstr then kept (comp S'.vecU j) else comp S'.vecU j) (S1.nDofs + S1.nMpc) i =
            f i + comp S'.vecR i) := by
  rcases linear_solve h (guard_exact hL) e with ⟨_, hf⟩ | ⟨S1, num, hprep, hnum, hrest⟩
  · exact Or.inl ⟨by unfold linearSolve; rw [hf]; rfl, Or.inl hf⟩
  obtain ⟨A, hb⟩ := base_of_prepare h.legal hprep hnum
  obtain ⟨S3, M, v, u, r, uc, guess, x, h3, hx, hg, g, hs⟩ := core_split h hprep hnum hb e
  obtain ⟨F, B, rows, rhs, hF, hB, hsym, hr, hcon⟩ := condense_split hb.prep.pre h3 hx
  have hlegal := (run_legal h.legal hprep hb h3 hF hB).mpr hc
  have hsuit : Suits B := ⟨_, _, _, hsym, hlegal⟩
  have hguard : guard L B rhs guess = eqs L B rhs guess := by unfold guard; rw [if_pos hsuit]
  have hlen : ∀ X, eqs L B rhs guess = .ok X → X.length = S1.nUnknown + S1.nMpc := by
    intro X hX
    rcases eqs_ok hL hsym hlegal hr guess with ⟨e, _⟩ | ⟨Y, e, hY, _⟩
    · rw [hX] at e; cases e
    · rw [hX, Res.ok.injEq] at e; rw [e]; exact hY
  have heq : linearSolve (eqs L) el loads fixs calls new S0 e = linearSolve (guard L) el loads fixs calls new S0 e := by
    rw [hs, hs]
    congr 1
    unfold condense
    obtain ⟨F', hF', rows1', rows2', hb'⟩ := live_blocks h3.during.live
    have hQ : 0 < S3.nMats := by unfold Storage.nMats; split <;> omega
    obtain ⟨⟨K11, b1, b2⟩, ⟨K12, c1, c2⟩, ⟨K22, d1, d2⟩⟩ := hb' 0 hQ
    rw [hF] at hF'
    simp only [Res.ok.injEq] at hF'
    subst hF'
    rw [hB, Res.ok.injEq] at d1
    subst d1
    rw [hF]
    simp only [Res.ok_bind, b1, c1, hB]
    congr 1
    funext rhs'
    have : guard L B rhs' guess = eqs L B rhs' guess := by unfold guard; rw [if_pos hsuit]
    rw [this]
  rcases eqs_ok hL hsym hlegal hr guess with ⟨e1, hfail⟩ | ⟨X, e1, _⟩
  · left
    obtain ⟨g', e2, _⟩ := hcon (eqs L) guess hlen
    exact ⟨by rw [hs, e2, e1]; rfl, Or.inr ⟨_, hlegal, hfail⟩⟩
  · right
    rcases hrest with ⟨hf, _⟩ | ⟨S', e', k1, k2, k3, k, f, k4, k5, k6, k7, k8, k9, _⟩
    · exfalso
      rw [← heq] at hf
      obtain ⟨g', e2, e3⟩ := hcon (eqs L) guess hlen
      obtain ⟨y, hy⟩ := e3 X e1
      rw [hs, e2, e1] at hf
      simp only [Res.ok_bind, hy] at hf
      cases hf
    · exact ⟨S1, num, S', e', hprep, hnum, by rw [heq]; exact k1, k2, k, f, k4, k5, k6, k7, k8, k9⟩

/-- **C108, linear solution of the other problems**: with a constraint equation, or a free DoF without element, `LinearFESolver` leaves
the contract of PARDISO unless the preparation stops. -/
theorem C108_linear_violated {E : Type} {S0 : Storage K} {calls : List RegCall} {new : List (Mpc K)} {loads fixs : List (Bc K)}
    {el : Elems E K} (h : Problem S0 calls new loads fixs el) (L : Lib K)
    (hc : ¬ Complete S0.elements (S0.mpcs ++ new) (regKeys calls) (fixKeys fixs)) (e : E) :
    (linearSolve (eqs L) el loads fixs calls new S0 e = .fatal ∧ S0.prepare calls new (fixKeys fixs) = .fatal) ∨
    (linearSolve (eqs L) el loads fixs calls new S0 e = .ub ∧ ∃ S1, S0.prepare calls new (fixKeys fixs) = .ok S1) := by
  rcases prepare_or_fatal h.legal with hf | ⟨S1, num', A, hprep, hnum, hb⟩
  · left; refine ⟨?_, hf⟩; unfold linearSolve; rw [hf]; rfl
  right
  obtain ⟨S3, M, v, u, r, uc, guess, x, h3, hx, hg, g, hs⟩ := core_split h hprep hnum hb e
  obtain ⟨F, B, rows, rhs, hF, hB, hsym, hr, hcon⟩ := condense_split hb.prep.pre h3 hx
  have hlegal : ¬ (patternOf B).Legal := fun hl => hc ((run_legal h.legal hprep hb h3 hF hB).mp hl)
  have hub := eqs_ub L hsym hlegal rhs guess
  obtain ⟨g', e2, _⟩ := hcon (eqs L) guess (by intro X hX; rw [hub] at hX; cases hX)
  exact ⟨by rw [hs, e2, hub]; rfl, S1, hprep⟩

end linear

end Nla3d.Pardiso
