import Verif.Storage.Props
import Verif.Solver.Model

/-!
# C128: solution data can be dropped and set up again

Source: src/lib/FEStorage.cpp:296-328
-/

namespace Nla3d.Storage

open Nla3d.Dof Nla3d.Block

variable {K : Type}

/-- `deleteSolutionData` with `deleteDofArrays`, FEStorage.cpp:296-328. `vecDU`, `vecDDU` are left out as in `initSolution`; the
three matrices are one family. The pointers of a solver to the deleted matrices and vectors are renewed by its next
`initSolutionData` (FESolver.cpp:175-218). -/
def Storage.deleteSolution (S : Storage K) : Storage K :=
  { S with
    nDofs := 0
    nConstr := 0
    nUnknown := 0
    mat := none
    elemT := S.elemT.clear
    nodeT := S.nodeT.clear
    vecU := []
    vecF := []
    vecR := [] }

/-! ## Specification -/

/-- The same model as the user gave it: nodes, elements, constraint equations (terms and right-hand sides, not their numbers) and the
kind of analysis. -/
structure SameModel (S S' : Storage K) : Prop where
  nodes : S'.nNodes = S.nNodes
  elements : S'.elements = S.elements
  terms : S'.mpcs.map (fun m => (m.eq, m.b)) = S.mpcs.map (fun m => (m.eq, m.b))
  transient : S'.transient = S.transient

/-! ## What the preparation does not look at -/

/-- Other topology and constraint equations. -/
def Storage.over (T : List (List Nat)) (ms : List (Mpc K)) (S : Storage K) : Storage K := { S with topology := T, mpcs := ms }

theorem fold_over {σ ι : Type} {f : σ → ι → Res σ} {g : σ → σ} (h : ∀ s x, f (g s) x = f s x >>= fun t => .ok (g t)) :
    ∀ (l : List ι) (s : σ), Res.foldlM' f (g s) l = Res.foldlM' f s l >>= fun t => .ok (g t)
  | [], _ => rfl
  | x :: l, s => by
    rw [Res.foldlM'_cons, Res.foldlM'_cons, h]
    cases f s x with
    | ok t => exact fold_over h l t
    | _ => rfl

theorem addDof_over (T : List (List Nat)) (ms : List (Mpc K)) (S : Storage K) (s : Side) (n : Nat) (ts : List DofType) :
    (S.over T ms).addDof s n ts = S.addDof s n ts >>= fun X => .ok (X.over T ms) := by
  unfold Storage.addDof
  have ht : (S.over T ms).tab s = S.tab s := by cases s <;> rfl
  rw [ht]
  by_cases h : 0 < (S.tab s).entities
  · rw [if_pos h, if_pos h]
    cases (S.tab s).addDof n ts with
    | ok T' => cases s <;> rfl
    | _ => rfl
  · rw [if_neg h, if_neg h]
    rfl

theorem setConstrained_over (T : List (List Nat)) (ms : List (Mpc K)) (S : Storage K) (s : Side) (n : Nat) (t : DofType) :
    (S.over T ms).setConstrained s n t = S.setConstrained s n t >>= fun X => .ok (X.over T ms) := by
  unfold Storage.setConstrained
  have ht : (S.over T ms).tab s = S.tab s := by cases s <;> rfl
  rw [ht]
  cases (S.tab s).deref n t with
  | ok d =>
    simp only [Res.ok_bind]
    cases d with
    | none => rfl
    | some d =>
      simp only
      split
      · rfl
      · cases (S.tab s).modify n t (fun d => { d with constrained := true }) with
        | ok T' => cases s <;> rfl
        | _ => rfl
  | _ => rfl

theorem numberOne_over (T : List (List Nat)) (ms : List (Mpc K)) (st : Storage K × Nat × Nat) (k : Side × Nat × DofType) :
    numberOne (st.1.over T ms, st.2) k = numberOne st k >>= fun X => .ok (X.1.over T ms, X.2) := by
  obtain ⟨S, c, u⟩ := st
  unfold numberOne
  have ht : (S.over T ms).tab k.1 = S.tab k.1 := by cases k.1 <;> rfl
  simp only [ht]
  cases (S.tab k.1).deref k.2.1 k.2.2 with
  | ok d =>
    simp only [Res.ok_bind]
    cases d with
    | none => rfl
    | some d =>
      simp only
      split
      · cases (S.tab k.1).modify k.2.1 k.2.2 (fun d => { d with eq := c }) with
        | ok T' => cases k.1 <;> rfl
        | _ => rfl
      · cases (S.tab k.1).modify k.2.1 k.2.2 (fun d => { d with eq := u }) with
        | ok T' => cases k.1 <;> rfl
        | _ => rfl
  | _ => rfl

theorem addMpcs_eq : ∀ (new : List (Mpc K)) (S : Storage K), Res.foldlM' Storage.addMpc S new =
    if ∃ m ∈ new, m.eq = [] then .assert else .ok { S with mpcs := S.mpcs ++ new }
  | [], S => by simp
  | m :: new, S => by
    rw [Res.foldlM'_cons]
    unfold Storage.addMpc
    by_cases hm : m.eq = []
    · rw [if_pos hm, if_pos ⟨m, by simp, hm⟩]
      rfl
    · rw [if_neg hm, Res.ok_bind]
      have := addMpcs_eq new { S with mpcs := S.mpcs ++ [m] }
      unfold Storage.addMpc at this
      rw [this]
      by_cases hn : ∃ m ∈ new, m.eq = []
      · obtain ⟨x, h1, h2⟩ := hn
        rw [if_pos ⟨x, h1, h2⟩, if_pos ⟨x, by simp [h1], h2⟩]
      · rw [if_neg hn, if_neg]
        · simp
        · rintro ⟨x, h1, h2⟩
          rcases List.mem_cons.1 h1 with rfl | h1
          · exact hm h2
          · exact hn ⟨x, h1, h2⟩

theorem numberMpcs_terms : ∀ {ms ms' : List (Mpc K)}, ms'.map (fun m => (m.eq, m.b)) = ms.map (fun m => (m.eq, m.b)) →
    ∀ n, numberMpcs n ms' = numberMpcs n ms
  | [], [], _, _ => rfl
  | [], m' :: ms', h, _ => by simp at h
  | m :: ms, [], h, _ => by simp at h
  | m :: ms, m' :: ms', h, n => by
    simp only [List.map_cons, List.cons.injEq, Prod.mk.injEq] at h
    unfold numberMpcs
    rw [numberMpcs_terms h.2, h.1.1]
    split
    · rfl
    · cases numberMpcs (n + 1) ms with
      | ok r =>
        obtain ⟨eq, b, k⟩ := m
        obtain ⟨eq', b', k'⟩ := m'
        simp only at h
        obtain ⟨⟨rfl, rfl⟩, -⟩ := h
        rfl
      | _ => rfl

theorem initDofs_over (T : List (List Nat)) (ms : List (Mpc K)) (S : Storage K) (calls : List RegCall) (new : List (Mpc K)) :
    (S.over T ms).initDofs calls new = S.initDofs calls new >>= fun X => .ok (X.over T (ms ++ new)) := by
  unfold Storage.initDofs
  show (if S.nNodes < 1 ∧ S.nElements < 1 then _ else _) = _
  split
  · rfl
  · have h1 := fold_over (f := fun (S : Storage K) (c : RegCall) => S.addDof c.1 c.2.1 c.2.2) (g := Storage.over T ms)
      (fun s x => addDof_over T ms s x.1 x.2.1 x.2.2) calls
      { S with nodeT := S.nodeT.init S.nNodes, elemT := S.elemT.init S.nElements }
    have h2 : ({ S.over T ms with nodeT := (S.over T ms).nodeT.init (S.over T ms).nNodes, elemT := (S.over T ms).elemT.init (S.over T ms).nElements } : Storage K) =
        Storage.over T ms { S with nodeT := S.nodeT.init S.nNodes, elemT := S.elemT.init S.nElements } := rfl
    simp only [h2, h1]
    cases Res.foldlM' (fun (S : Storage K) (c : RegCall) => S.addDof c.1 c.2.1 c.2.2)
      { S with nodeT := S.nodeT.init S.nNodes, elemT := S.elemT.init S.nElements } calls with
    | ok X =>
      simp only [Res.ok_bind, addMpcs_eq]
      by_cases hm : ∃ m ∈ new, m.eq = []
      · rw [if_pos hm, if_pos hm]
        rfl
      · rw [if_neg hm, if_neg hm]
        simp only [Res.ok_bind]
        show (if X.elemT.nUsed + X.nodeT.nUsed = 0 then _ else _) = _
        split
        · next h0 => rfl
        · show (if DofType.UNDEFINED ∈ X.nodeT.uniqueTypes ∨ DofType.UNDEFINED ∈ X.elemT.uniqueTypes then _ else _) = _
          split <;> rfl
    | _ => rfl

theorem initDofs_mpcs {S X : Storage K} {calls : List RegCall} {new : List (Mpc K)} (h : S.initDofs calls new = .ok X) :
    X.mpcs = S.mpcs ++ new := by
  have h1 := initDofs_over S.topology S.mpcs S calls new
  rw [show S.over S.topology S.mpcs = S from rfl, h, Res.ok_bind] at h1
  exact congrArg Storage.mpcs (Res.ok.inj h1)

/-- The last part of `assign`. -/
def assignTail (c d : Nat) (st : Storage K × Nat × Nat) : Res (Storage K) :=
  if st.2.1 - 1 ≠ c then .assert
  else if st.2.2 - 1 ≠ d then .assert
  else numberMpcs st.2.2 st.1.mpcs >>= fun r =>
    if r.2 - 1 ≠ d + r.1.length then .assert else .ok { st.1 with mpcs := r.1 }

theorem assign_eq (S : Storage K) : S.assign = if subU32 S.nDofs S.nConstr = 0 then .fatal else
    Res.foldlM' numberOne ({ S with nUnknown := subU32 S.nDofs S.nConstr }, 1, S.nConstr + 1)
      (loopKeys .elem S.nElements ++ loopKeys .node S.nNodes) >>= assignTail S.nConstr S.nDofs := by
  unfold Storage.assign
  split
  · next h => rw [if_pos h]
  · next h =>
    rw [if_neg h, Res.foldlM'_append]
    have ha : ∀ (a : Res (Storage K × Nat × Nat)) (f : Storage K × Nat × Nat → Res (Storage K × Nat × Nat))
        (g : Storage K × Nat × Nat → Res (Storage K)), (a >>= fun x => f x >>= g) = (a >>= f) >>= g := by
      intro a f g
      cases a <;> rfl
    exact ha (Res.foldlM' numberOne ({ S with nUnknown := subU32 S.nDofs S.nConstr }, 1, S.nConstr + 1) (loopKeys .elem S.nElements))
      (fun st => Res.foldlM' numberOne st (loopKeys .node S.nNodes)) (assignTail S.nConstr S.nDofs)

theorem assign_over (T : List (List Nat)) (ms : List (Mpc K)) (S : Storage K)
    (h : ms.map (fun m => (m.eq, m.b)) = S.mpcs.map (fun m => (m.eq, m.b))) :
    (S.over T ms).assign = S.assign >>= fun X => .ok { X with topology := T } := by
  rw [assign_eq, assign_eq]
  show (if subU32 S.nDofs S.nConstr = 0 then _ else _) = _
  by_cases h0 : subU32 S.nDofs S.nConstr = 0
  · rw [if_pos h0, if_pos h0]
    rfl
  · rw [if_neg h0, if_neg h0]
    have hf := fun T ms => fold_over (f := numberOne) (g := fun st : Storage K × Nat × Nat => (st.1.over T ms, st.2))
      (fun s x => numberOne_over T ms s x) (loopKeys .elem S.nElements ++ loopKeys .node S.nNodes)
      ({ S with nUnknown := subU32 S.nDofs S.nConstr }, 1, S.nConstr + 1)
    have h1 := hf T ms
    have h2 := hf S.topology S.mpcs
    change Res.foldlM' numberOne ({ S with nUnknown := subU32 S.nDofs S.nConstr }, 1, S.nConstr + 1) _ = _ at h2
    change (Res.foldlM' numberOne ((Storage.over T ms { S with nUnknown := subU32 S.nDofs S.nConstr }), 1, S.nConstr + 1)
      (loopKeys .elem S.nElements ++ loopKeys .node S.nNodes) >>= assignTail S.nConstr S.nDofs) = _
    rw [h1]
    cases hX : Res.foldlM' numberOne ({ S with nUnknown := subU32 S.nDofs S.nConstr }, 1, S.nConstr + 1)
      (loopKeys .elem S.nElements ++ loopKeys .node S.nNodes) with
    | ok Y =>
      rw [hX, Res.ok_bind] at h2
      have hY := congrArg (fun y : Storage K × Nat × Nat => y.1.mpcs) (Res.ok.inj h2)
      have hY : Y.1.mpcs = S.mpcs := hY
      simp only [Res.ok_bind]
      unfold assignTail
      by_cases hc : Y.2.1 - 1 ≠ S.nConstr
      · rw [if_pos hc, if_pos hc]
        rfl
      · rw [if_neg hc, if_neg hc]
        by_cases hd : Y.2.2 - 1 ≠ S.nDofs
        · rw [if_pos hd, if_pos hd]
          rfl
        · rw [if_neg hd, if_neg hd]
          have e3 : (Y.1.over T ms).mpcs = ms := rfl
          rw [e3, numberMpcs_terms h, hY]
          cases numberMpcs Y.2.2 S.mpcs with
          | ok r =>
            simp only [Res.ok_bind]
            by_cases hr : r.2 - 1 ≠ S.nDofs + r.1.length
            · rw [if_pos hr, if_pos hr]
              rfl
            · rw [if_neg hr, if_neg hr]
              rfl
          | _ => rfl
    | _ => rfl

theorem prepare_over [Zero K] (T : List (List Nat)) (ms : List (Mpc K)) (S : Storage K)
    (h : ms.map (fun m => (m.eq, m.b)) = S.mpcs.map (fun m => (m.eq, m.b))) (calls : List RegCall) (new : List (Mpc K)) (cs : List Key) :
    (S.over T ms).prepare calls new cs = S.prepare calls new cs := by
  unfold Storage.prepare Storage.setup
  rw [initDofs_over]
  cases h1 : S.initDofs calls new with
  | ok X =>
    simp only [Res.ok_bind]
    have hm : X.mpcs = S.mpcs ++ new := initDofs_mpcs h1
    have hf := fun T ms => fold_over (f := fun (S : Storage K) (k : Key) => S.setConstrained k.1 k.2.1 k.2.2) (g := Storage.over T ms)
      (fun s x => setConstrained_over T ms s x.1 x.2.1 x.2.2) cs X
    rw [hf]
    cases h2 : Res.foldlM' (fun (S : Storage K) (k : Key) => S.setConstrained k.1 k.2.1 k.2.2) X cs with
    | ok Y =>
      simp only [Res.ok_bind]
      have hk := hf X.topology X.mpcs
      rw [show X.over X.topology X.mpcs = X from rfl, h2, Res.ok_bind] at hk
      have hY := congrArg Storage.mpcs (Res.ok.inj hk)
      have hY : Y.mpcs = X.mpcs := hY
      rw [assign_over]
      · cases Y.assign <;> rfl
      · rw [hY, hm, List.map_append, List.map_append, h]
    | _ => rfl
  | _ => rfl

/-! ## C128 -/

/-- C128, dropping: whatever happened to two storages before, if they hold the same model, then after `deleteSolutionData` every setup
ends in the same way on both, with the same numbers, matrices and vectors. In particular a storage that was used cannot be told
from a fresh one. -/
theorem C128_reset [Zero K] {S S' : Storage K} (h : SameModel S S') (calls : List RegCall) (new : List (Mpc K)) (cs : List Key) :
    S'.deleteSolution.prepare calls new cs = S.deleteSolution.prepare calls new cs ∧
    S'.deleteSolution.prepare calls new cs = (Storage.fresh S.nNodes S.elements S.mpcs S.transient).prepare calls new cs := by
  have key : ∀ S' : Storage K, SameModel S S' → S'.deleteSolution.prepare calls new cs =
      (Storage.fresh S.nNodes S.elements S.mpcs S.transient).prepare calls new cs := by
    intro S' h
    have e : S'.deleteSolution = (Storage.fresh S.nNodes S.elements S.mpcs S.transient).over S'.topology S'.mpcs := by
      obtain ⟨h1, h2, -, h4⟩ := h
      unfold Storage.deleteSolution Storage.fresh Storage.over Table.clear Table.empty
      rw [h1, h2, h4]
    rw [e]
    exact prepare_over _ _ (Storage.fresh S.nNodes S.elements S.mpcs S.transient) h.terms calls new cs
  exact ⟨by rw [key S' h, key S ⟨rfl, rfl, rfl, rfl⟩], key S' h⟩

/-- What a successful setup of a legal model keeps. -/
theorem prepared_model [AddMonoid K] {S S2 : Storage K} {calls : List RegCall} {new : List (Mpc K)} {cs : List Key}
    (hl : LegalModel S calls new cs) (h : S.prepare calls new cs = .ok S2) : SameModel { S with mpcs := S.mpcs ++ new } S2 := by
  rcases prepare_cases hl with ⟨-, S1, A, T, -, -, ⟨-, S2', h2, hp, -⟩ | ⟨-, h2⟩⟩ | ⟨-, h2⟩
  · rw [h] at h2
    obtain rfl := Res.ok.inj h2
    exact ⟨hp.ready.mesh.nNodes, hp.ready.mesh.elements, hp.ready.terms, hp.ready.mesh.transient⟩
  · rw [h] at h2; cases h2
  · rw [h] at h2; cases h2

/-- C128, setting up again, for models without MPC collections: after a setup of a legal model, and after whatever was done since then
to the solution data, dropping it and setting up again gives exactly the first state. (Without dropping: `C62_second_setup_violated`.) -/
theorem C128_again_partial [AddMonoid K] {nNodes : Nat} {elements : List (List Nat)} {mpcs : List (Mpc K)} {transient : Bool}
    {calls : List RegCall} {cs : List Key} (hl : LegalModel (Storage.fresh nNodes elements mpcs transient) calls [] cs) {S2 S3 : Storage K}
    (h : (Storage.fresh nNodes elements mpcs transient).prepare calls [] cs = .ok S2) (hs : SameModel S2 S3) :
    S3.deleteSolution.prepare calls [] cs = .ok S2 := by
  have h2 := prepared_model hl h
  have hm : SameModel (Storage.fresh nNodes elements mpcs transient) S3 := by
    refine ⟨hs.nodes.trans h2.nodes, hs.elements.trans h2.elements, ?_, hs.transient.trans h2.transient⟩
    rw [hs.terms, h2.terms, List.append_nil]
  rw [(C128_reset hm calls [] cs).2]
  exact h

/-- C128 is false with MPC collections: `initDofs` registers their equations each time, so that after dropping the solution data the
second setup has all of them twice. (Small models, so that both setups succeed.) -/
theorem C128_collections_violated [AddMonoid K] {nNodes : Nat} {elements : List (List Nat)} {mpcs : List (Mpc K)} {transient : Bool}
    {calls : List RegCall} {new : List (Mpc K)} {cs : List Key}
    (hl : LegalModel (Storage.fresh nNodes elements mpcs transient) calls new cs)
    (hfree : cs.toFinset.card < (regKeys calls).toFinset.card)
    (hsize : (regKeys calls).toFinset.card + (mpcs ++ new ++ new).length ≤ 100) :
    ∃ S2 S3, (Storage.fresh nNodes elements mpcs transient).prepare calls new cs = .ok S2 ∧
      S2.deleteSolution.prepare calls new cs = .ok S3 ∧
      S2.mpcs.map (fun m => (m.eq, m.b)) = (mpcs ++ new).map (fun m => (m.eq, m.b)) ∧
      S3.mpcs.map (fun m => (m.eq, m.b)) = (mpcs ++ new ++ new).map (fun m => (m.eq, m.b)) := by
  have hl' : LegalModel (Storage.fresh nNodes elements (mpcs ++ new) transient) calls new cs := by
    refine ⟨⟨hl.setup.reg, hl.setup.proper, hl.setup.some, hl.setup.cons, ?_, rfl⟩, hl.mesh, ?_, ?_⟩
    · intro m hm
      have hm : m ∈ (mpcs ++ new) ++ new := hm
      apply hl.setup.mpcs m
      show m ∈ mpcs ++ new
      simp only [List.mem_append] at hm ⊢
      tauto
    · intro m hm
      have hm : m ∈ (mpcs ++ new) ++ new := hm
      apply hl.terms m
      show m ∈ mpcs ++ new
      simp only [List.mem_append] at hm ⊢
      tauto
    · exact lt_of_le_of_lt hsize (by decide)
  obtain ⟨S2, -, h, -⟩ := prepare_small hl hfree (by
    show _ + (mpcs ++ new).length ≤ 100
    simp only [List.length_append] at hsize ⊢
    omega)
  obtain ⟨S3, -, h3, -⟩ := prepare_small hl' hfree hsize
  have m2 := prepared_model hl h
  have m3 := prepared_model hl' h3
  refine ⟨S2, S3, h, ?_, m2.terms, m3.terms⟩
  have hm : SameModel (Storage.fresh nNodes elements (mpcs ++ new) transient) S2 := ⟨m2.nodes, m2.elements, m2.terms, m2.transient⟩
  rw [(C128_reset hm calls new cs).2]
  exact h3

end Nla3d.Storage

namespace Nla3d.Solver

open Nla3d.Storage Nla3d.Dof

variable {K : Type} [Field K] [LinearOrder K]

/-- C128, solving again: on storages with the same model whose solution data was dropped, each of the three solvers gives the same
answer, whatever was solved before. -/
theorem C128_solve {E : Type} {S S' : Storage K} (h : SameModel S S') (eqs : EqSolver K) (el : Elems E K) (loads fixs : List (Bc K))
    (calls : List RegCall) (new : List (Mpc K)) (e : E) :
    linearSolve eqs el loads fixs calls new S'.deleteSolution e = linearSolve eqs el loads fixs calls new S.deleteSolution e ∧
    (∀ st tc inner fuel, nonlinearSolve eqs el loads fixs st tc calls new S'.deleteSolution e inner fuel =
      nonlinearSolve eqs el loads fixs st tc calls new S.deleteSolution e inner fuel) ∧
    (∀ st fuel, transientSolve eqs el loads fixs st calls new S'.deleteSolution e fuel =
      transientSolve eqs el loads fixs st calls new S.deleteSolution e fuel) := by
  refine ⟨?_, fun st tc inner fuel => ?_, fun st fuel => ?_⟩
  · unfold linearSolve
    rw [(C128_reset h calls new (fixKeys fixs)).1]
  · unfold nonlinearSolve
    rw [(C128_reset h calls new (fixKeys fixs)).1]
  · unfold transientSolve
    have hd : ∀ S : Storage K, ({ S.deleteSolution with transient := true } : Storage K) = ({ S with transient := true } : Storage K).deleteSolution :=
      fun _ => rfl
    have ht : SameModel ({ S with transient := true } : Storage K) ({ S' with transient := true } : Storage K) :=
      ⟨h.nodes, h.elements, h.terms, rfl⟩
    simp only [hd, (C128_reset ht calls new (fixKeys fixs)).1]

end Nla3d.Solver

namespace Nla3d.Storage

/-! ## Examples -/

/-- The model of the examples can be set up, dropped and set up again. -/
example : ∃ S2, demo.prepare demoCalls [] demoFix = .ok S2 ∧ S2.deleteSolution.prepare demoCalls [] demoFix = .ok S2 := by
  obtain ⟨S2, num, h, -⟩ := prepare_small demo_legal (by rw [demo_card.1, demo_card.2]; omega) (by rw [demo_card.1]; decide)
  exact ⟨S2, h, C128_again_partial demo_legal h ⟨rfl, rfl, rfl, rfl⟩⟩

/-- With an equation from a collection the second setup has it twice. -/
example : ∃ S2 S3, demo.prepare demoCalls [⟨[⟨2, .UX, 1⟩], 0, 0⟩] demoFix = .ok S2 ∧
    S2.deleteSolution.prepare demoCalls [⟨[⟨2, .UX, 1⟩], 0, 0⟩] demoFix = .ok S3 ∧ S2.mpcs.length = 2 ∧ S3.mpcs.length = 3 := by
  have hl : LegalModel demo demoCalls [⟨[⟨2, .UX, 1⟩], 0, 0⟩] demoFix := by
    refine ⟨⟨demo_legal.setup.reg, demo_legal.setup.proper, demo_legal.setup.some, demo_legal.setup.cons, ?_, rfl⟩, demo_legal.mesh, ?_, ?_⟩
    · intro m hm
      simp [demo, Storage.fresh] at hm
      rcases hm with rfl | rfl <;> simp
    · intro m hm t ht
      simp [demo, Storage.fresh] at hm
      rcases hm with rfl | rfl
      · simp at ht
        rcases ht with rfl | rfl <;> decide
      · simp at ht
        subst ht
        decide
    · rw [demo_card.1]; decide
  obtain ⟨S2, S3, h1, h2, h3, h4⟩ := C128_collections_violated hl (by rw [demo_card.1, demo_card.2]; omega) (by rw [demo_card.1]; decide)
  refine ⟨S2, S3, h1, h2, ?_, ?_⟩
  · simpa using congrArg List.length h3
  · simpa using congrArg List.length h4

end Nla3d.Storage
