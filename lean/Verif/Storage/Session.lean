import Verif.Storage.Walk

/-!
# From a legal model to assembled matrices
-/

namespace Nla3d.Storage

open Nla3d.Dof Nla3d.Block Nla3d.Sparse

variable {K : Type}

/-- Preparation of a solution: numbering, then `initSolutionData`. -/
def Storage.prepare [Zero K] (S : Storage K) (calls : List RegCall) (new : List (Mpc K)) (cs : List Key) :
    Res (Storage K) := do
  let S ← S.setup calls new cs
  S.initSolution

/-- A model the preparation is meant for: the setup is legal, elements refer to existing nodes, MPC terms to registered
DoFs, equation numbers stay below the invalid index. -/
structure LegalModel (S : Storage K) (calls : List RegCall) (new : List (Mpc K)) (cs : List Key) : Prop where
  setup : LegalSetup S calls new cs
  mesh : MeshOk S
  terms : ∀ m ∈ S.mpcs ++ new, ∀ t ∈ m.eq, (Side.node, t.node, t.dof) ∈ regKeys calls
  size : (regKeys calls).toFinset.card + (S.mpcs ++ new).length < Sparse.invalid

theorem Ready.isSome {S S' : Storage K} {calls : List RegCall} {new : List (Mpc K)} {cs : List Key} {A : Side → Spec}
    (h : Ready S S' calls new cs A) (k : Key) : (at' A k).isSome ↔ k ∈ regKeys calls := by
  have := h.map k
  by_cases hk : k ∈ regKeys calls
  · rw [if_pos hk] at this
    cases hh : at' A k with
    | none => rw [hh] at this; simp at this
    | some v => simp [hk]
  · rw [if_neg hk] at this
    cases hh : at' A k with
    | none => simp [hk]
    | some v => rw [hh] at this; simp at this

theorem Ready.num_range {S S' : Storage K} {calls : List RegCall} {new : List (Mpc K)} {cs : List Key} {A : Side → Spec}
    (h : Ready S S' calls new cs A) {k : Key} (hk : k ∈ regKeys calls) : 0 < num A k ∧ num A k ≤ S'.nDofs := by
  have hn := h.nUnknown
  by_cases hc : k ∈ cs
  · have := h.con.mapsTo (show k ∈ {k | k ∈ cs} from hc)
    rw [Set.mem_Ico] at this
    omega
  · have := h.unk.mapsTo (show k ∈ {k | k ∈ regKeys calls ∧ k ∉ cs} from ⟨hk, hc⟩)
    rw [Set.mem_Ico] at this
    omega

theorem Ready.num_inj {S S' : Storage K} {calls : List RegCall} {new : List (Mpc K)} {cs : List Key} {A : Side → Spec}
    (h : Ready S S' calls new cs A) {k k' : Key} (hk : k ∈ regKeys calls) (hk' : k' ∈ regKeys calls)
    (he : num A k = num A k') : k = k' := by
  have m1 : ∀ x, x ∈ cs → num A x < 1 + S'.nConstr := fun x hx =>
    (Set.mem_Ico.mp (h.con.mapsTo (show x ∈ {k | k ∈ cs} from hx))).2
  have m2 : ∀ x, x ∈ regKeys calls → x ∉ cs → S'.nConstr + 1 ≤ num A x := fun x hx hx' =>
    (Set.mem_Ico.mp (h.unk.mapsTo (show x ∈ {k | k ∈ regKeys calls ∧ k ∉ cs} from ⟨hx, hx'⟩))).1
  by_cases hc : k ∈ cs
  · by_cases hc' : k' ∈ cs
    · exact h.con.injOn hc hc' he
    · have := m1 k hc; have := m2 k' hk' hc'; omega
  · by_cases hc' : k' ∈ cs
    · have := m1 k' hc'; have := m2 k hk hc; omega
    · exact h.unk.injOn ⟨hk, hc⟩ ⟨hk', hc'⟩ he

theorem Ready.pre [Zero K] {S S' : Storage K} {calls : List RegCall} {new : List (Mpc K)} {cs : List Key} {A : Side → Spec}
    (hl : LegalModel S calls new cs) (h : Ready S S' calls new cs A) {T : List (List Nat)}
    (hT : ∀ n, 0 < n → n ≤ S'.nNodes → ∃ s, T[n - 1]? = some s ∧ ∀ e, e ∈ s ↔ n ∈ elNodes S'.elements e) :
    Pre (S'.prep T) A := by
  have hfrom : ∀ m ∈ S'.mpcs, ∃ m0 ∈ S.mpcs ++ new, m0.eq = m.eq := by
    intro m hm
    have h1 : (m.eq, m.b) ∈ S'.mpcs.map (fun m => (m.eq, m.b)) := List.mem_map.mpr ⟨m, hm, rfl⟩
    rw [h.terms] at h1
    obtain ⟨m0, h2, h3⟩ := List.mem_map.mp h1
    rw [Prod.mk.injEq] at h3
    exact ⟨m0, h2, h3.1⟩
  refine ⟨h.sim.congr rfl rfl rfl rfl, ?_, h.nUnknown, ?_, hT, ?_, ?_⟩
  · intro ns hns n hn
    have : ns ∈ S.elements := by rw [← h.mesh.elements]; exact hns
    have h2 := hl.mesh ns this n hn
    have h3 : (S'.prep T).nNodes = S.nNodes := h.mesh.nNodes
    rw [h3]; exact h2
  · intro k v hv
    have := h.num_range ((h.isSome k).mp (by rw [hv]; rfl))
    rw [num_eq hv] at this
    exact this
  · intro m hm
    have hm : m ∈ S'.mpcs := hm
    have h1 : m.eqNum ∈ S'.mpcs.map Mpc.eqNum := List.mem_map.mpr ⟨m, hm, rfl⟩
    rw [h.eqNums, List.mem_range'_1] at h1
    have h2 : (S'.prep T).nDofs = S'.nDofs := rfl
    have h3 : (S'.prep T).nMpc = S'.mpcs.length := rfl
    rw [h2, h3]
    omega
  · intro m hm
    obtain ⟨m0, h1, h2⟩ := hfrom m hm
    rw [← h2]
    refine ⟨hl.setup.mpcs m0 h1, ?_⟩
    intro t ht
    exact (h.isSome _).mpr (hl.terms m0 h1 t ht)

theorem Ready.nMpc {S S' : Storage K} {calls : List RegCall} {new : List (Mpc K)} {cs : List Key} {A : Side → Spec}
    (h : Ready S S' calls new cs A) : S'.nMpc = (S.mpcs ++ new).length := by
  have := congrArg List.length h.terms
  simpa [Storage.nMpc] using this

/-- Everything known after the preparation. -/
structure Prepared [Zero K] [Add K] (S S2 : Storage K) (calls : List RegCall) (new : List (Mpc K)) (cs : List Key)
    (A : Side → Spec) : Prop where
  ready : Ready S S2 calls new cs A
  pre : Pre S2 A
  live : Live S2 (gAll S2 A) (fun _ _ _ => 0) (fun _ => 0)

theorem prepare_cases [AddMonoid K] {S : Storage K} {calls : List RegCall} {new : List (Mpc K)} {cs : List Key}
    (hl : LegalModel S calls new cs) :
    (cs.toFinset.card < (regKeys calls).toFinset.card ∧ ∃ S1 A T, S.setup calls new cs = .ok S1 ∧ Ready S S1 calls new cs A ∧
      ((Fits (bsizes S1) 100 (gAll (S1.prep T) A) ∧ ∃ S2, S.prepare calls new cs = .ok S2 ∧
          Prepared S S2 calls new cs A ∧ S2.vecU = List.replicate (S2.nDofs + S2.nMpc) 0 ∧
          S2.vecR = List.replicate (S2.nDofs + S2.nMpc) 0) ∨
       (¬ Fits (bsizes S1) 100 (gAll (S1.prep T) A) ∧ S.prepare calls new cs = .fatal))) ∨
    (cs.toFinset.card = (regKeys calls).toFinset.card ∧ S.prepare calls new cs = .fatal) := by
  rcases setup_cases hl.setup with ⟨hc, S1, A, e1, e2⟩ | ⟨hc, e1⟩
  · left
    refine ⟨hc, ?_⟩
    have hmesh : MeshOk S1 := by
      intro ns hns n hn
      have := hl.mesh ns (by rw [← e2.mesh.elements]; exact hns) n hn
      rw [e2.mesh.nNodes]; exact this
    obtain ⟨T, t1, _, _, t4⟩ := learnTopology_ok hmesh
    have hpre := e2.pre hl t4
    have hprep : S.prepare calls new cs = S1.initSolution := by unfold Storage.prepare; rw [e1]; rfl
    refine ⟨S1, A, T, e1, e2, ?_⟩
    rw [hprep]
    have hsz := hl.size
    rcases initSolution_cases t1 hpre (by
      intro n hn
      have h1 := e2.nUnknown
      have h2 := e2.nDofs
      have h3 := e2.nMpc
      simp only [List.mem_cons, List.not_mem_nil, or_false] at hn
      rcases hn with rfl | rfl <;> omega) with ⟨hf, F, i1, i2⟩ | ⟨hf, i1⟩
    · left
      refine ⟨hf, _, i1, ⟨⟨?_, ?_, ?_, ?_, ?_, ?_, ?_, ?_, ?_, ?_⟩, ?_, ?_⟩, rfl, rfl⟩
      · exact e2.sim.congr rfl rfl rfl rfl
      · exact ⟨e2.mesh.nNodes, e2.mesh.elements, e2.mesh.transient⟩
      · exact e2.nDofs
      · exact e2.nConstr
      · exact e2.nUnknown
      · exact e2.map
      · exact e2.con
      · exact e2.unk
      · exact e2.eqNums
      · exact e2.terms
      · exact ⟨hpre.sim.congr rfl rfl rfl rfl, hpre.mesh, hpre.dofs, hpre.range, hpre.topo, hpre.eqNum, hpre.terms⟩
      · refine ⟨⟨F, _, rfl, i2, by simp; rfl, ?_⟩, ?_, ?_, e2.nUnknown⟩
        · intro q hq i j
          rw [List.getElem_replicate, totalSym_nil]
        · exact List.length_replicate ..
        · intro i h1 h2
          exact List.getElem?_replicate_of_lt (by
            have h3 : ((S1.prep T).withMat F).nDofs = S1.nDofs := rfl
            have h4 : ((S1.prep T).withMat F).nMpc = S1.nMpc := rfl
            omega)
    · right; exact ⟨hf, i1⟩
  · right
    refine ⟨hc, ?_⟩
    unfold Storage.prepare
    rw [e1]; rfl

/-- The rows have room for small models: up to 100 equations per block. -/
theorem fits_small {sizes : List Nat} {k : Nat} (h : ∀ n ∈ sizes, n ≤ k) (es : List (Nat × Nat)) : Fits sizes k es := by
  intro a b p _ _ hb1 hb2
  have hmem : sizes.getD (b - 1) 0 ∈ sizes := by
    rw [List.getD_eq_getElem?_getD, List.getElem?_eq_getElem (by omega)]
    exact List.getElem_mem _
  have hk := h _ hmem
  refine le_trans (Finset.card_le_card (t := Finset.Icc 1 (sizes.getD (b - 1) 0)) ?_) (by simpa using hk)
  intro c hc
  unfold rowCols at hc
  simp only [List.mem_toFinset, List.mem_filter, List.mem_range, decide_eq_true_eq] at hc
  rw [Finset.mem_Icc]
  omega

/-! ## Reading the results -/

/-- Entry `(i, j)` of matrix `w`, read from the block that holds it, is `x`. -/
def Entry [Zero K] (S : Storage K) (w : Which) (i j : Nat) (x : K) : Prop :=
  ∃ F a p b c, S.mat = some F ∧ IsPos (bsizes S) a p ∧ IsPos (bsizes S) b c ∧ a ≤ b ∧
    Same i j (glob (bsizes S) a p) (glob (bsizes S) b c) ∧ F.blockValue w.idx a b p c = .ok x

/-- Component `i` of the load vector is `x`. -/
def Load (S : Storage K) (i : Nat) (x : K) : Prop := S.vecF[i - 1]? = some x

theorem totalSym_comm [AddMonoid K] (ops : List (Op K)) (i j : Nat) : totalSym ops i j = totalSym ops j i := by
  unfold totalSym
  congr 1
  funext acc op
  cases op with
  | zero => rfl
  | add a b v =>
    simp only
    by_cases h : (a = i ∧ b = j) ∨ (a = j ∧ b = i)
    · rw [if_pos h, if_pos (by tauto)]
    · rw [if_neg h, if_neg (by tauto)]

theorem Live.entry [AddMonoid K] {S : Storage K} {es : List (Nat × Nat)} {M : Nat → Nat → Nat → K} {v : Nat → K}
    (h : Live S es M v) {w : Which} (hw : w.idx < S.nMats) {i j : Nat} (hi : 0 < i ∧ i ≤ S.nDofs + S.nMpc)
    (hj : 0 < j ∧ j ≤ S.nDofs + S.nMpc) : Entry S w i j (M w.idx i j) := by
  obtain ⟨F, hs, h1, h2, h3, h4⟩ := h.mat
  have hd := h.dofs
  have hsum : (bsizes S).sum = S.nDofs + S.nMpc := by simp only [List.sum_cons, List.sum_nil]; omega
  obtain ⟨a, p, b, c, _, _, d⟩ := locate_pair (sizes := bsizes S) (i := i) (j := j) (by omega) (by omega)
  have hv := h2.blockValue (hsmall S) (q := w.idx) (by omega) d.ha d.hb d.hab
  have hsame := (pair_eq d d.ha d.hb d.hab d.hpc).mpr ⟨rfl, rfl, rfl, rfl⟩
  refine ⟨F, a, p, b, c, h1, d.ha, d.hb, d.hab, hsame, ?_⟩
  rw [hv, h4 _ (by omega)]
  congr 1
  rcases hsame with ⟨e1, e2⟩ | ⟨e1, e2⟩
  · rw [e1, e2]
  · rw [e1, e2, ← h4 _ (by omega), totalSym_comm, h4 _ (by omega)]

theorem Live.entry_eq [AddMonoid K] {S : Storage K} {es : List (Nat × Nat)} {M : Nat → Nat → Nat → K} {v : Nat → K}
    (h : Live S es M v) {w : Which} (hw : w.idx < S.nMats) {i j : Nat} {x : K} (hx : Entry S w i j x) :
    x = M w.idx i j := by
  obtain ⟨F, hs, h1, h2, h3, h4⟩ := h.mat
  obtain ⟨F', a, p, b, c, g1, g2, g3, g4, g5, g6⟩ := hx
  rw [h1, Option.some.injEq] at g1
  subst g1
  rw [h2.blockValue (hsmall S) (q := w.idx) (by omega) g2 g3 g4, Res.ok.injEq] at g6
  rw [← g6, ← h4 _ (by omega)]
  rcases g5 with ⟨e1, e2⟩ | ⟨e1, e2⟩
  · rw [e1, e2]
  · rw [e1, e2, totalSym_comm]

theorem Live.load_eq [AddMonoid K] {S : Storage K} {es : List (Nat × Nat)} {M : Nat → Nat → Nat → K} {v : Nat → K}
    (h : Live S es M v) {i : Nat} (hi : 0 < i ∧ i ≤ S.nDofs + S.nMpc) {x : K} (hx : Load S i x) : x = v i := by
  have := h.load i hi.1 hi.2
  unfold Load at hx
  rw [hx, Option.some.injEq] at this
  exact this

/-! ## Assembly -/

/-- What `MpcCollection::update` may not change: equation number and the DoFs of the terms. -/
def mpcShape (m : Mpc K) : Nat × List (Nat × DofType) := (m.eqNum, m.eq.map (fun t => (t.node, t.dof)))

/-- Two lists of MPCs that differ in coefficients and right-hand sides only. -/
def SameShape (ms ms' : List (Mpc K)) : Prop := ms'.map mpcShape = ms.map mpcShape

theorem SameShape.length {ms ms' : List (Mpc K)} (h : SameShape ms ms') : ms'.length = ms.length := by
  have := congrArg List.length h
  simpa using this

theorem SameShape.mem {ms ms' : List (Mpc K)} (h : SameShape ms ms') {m : Mpc K} (hm : m ∈ ms') :
    ∃ m0 ∈ ms, m0.eqNum = m.eqNum ∧ ∀ t ∈ m.eq, ∃ t0 ∈ m0.eq, t0.node = t.node ∧ t0.dof = t.dof := by
  have h1 : mpcShape m ∈ ms'.map mpcShape := List.mem_map.mpr ⟨m, hm, rfl⟩
  rw [h] at h1
  obtain ⟨m0, h2, h3⟩ := List.mem_map.mp h1
  unfold mpcShape at h3
  rw [Prod.mk.injEq] at h3
  refine ⟨m0, h2, h3.1, ?_⟩
  intro t ht
  have h4 : (t.node, t.dof) ∈ m.eq.map (fun t => (t.node, t.dof)) := List.mem_map.mpr ⟨t, ht, rfl⟩
  rw [← h3.2] at h4
  obtain ⟨t0, h5, h6⟩ := List.mem_map.mp h4
  rw [Prod.mk.injEq] at h6
  exact ⟨t0, h5, h6.1, h6.2⟩

/-- State during a session that started at `S2`. -/
structure During [Zero K] [Add K] (S2 S : Storage K) (A : Side → Spec) (M : Nat → Nat → Nat → K) (v : Nat → K) : Prop where
  live : Live S (gAll S2 A) M v
  frame : Frame S2 S
  shape : SameShape S2.mpcs S.mpcs

theorem During.n [Zero K] [Add K] {S2 S : Storage K} {A : Side → Spec} {M : Nat → Nat → Nat → K} {v : Nat → K}
    (h : During S2 S A M v) : S.nDofs + S.nMpc = S2.nDofs + S2.nMpc := by
  rw [h.frame.nDofs]; unfold Storage.nMpc; rw [h.shape.length]

/-- Values of matrix `q` after `assembleGlobalEqMatrices`. -/
def asmM [AddMonoid K] (transient : Bool) (num : Key → Nat) (build : List (Contrib K)) (ms : List (Mpc K))
    (cm : List (Contrib K)) (q i j : Nat) : K :=
  if transient then
    if q = 0 then matSum q i j (build ++ ms.flatMap (mpcContribs num) ++ cm) else matSum q i j cm
  else matSum q i j (build ++ ms.flatMap (mpcContribs num))

/-- Load vector after `assembleGlobalEqMatrices`. -/
def asmV [AddMonoid K] (transient : Bool) (build : List (Contrib K)) (ms : List (Mpc K))
    (cm : List (Contrib K)) (i : Nat) : K :=
  if transient then mpcLoad (fun i => loadSum i build) ms i + loadSum i cm else mpcLoad (fun i => loadSum i build) ms i

theorem mpc_conditions [AddMonoid K] {S2 S : Storage K} {A : Side → Spec} (hp : Pre S2 A) (hfr : Frame S2 S)
    {ms : List (Mpc K)} (hsh : SameShape S2.mpcs ms) :
    ∀ m ∈ ms, (0 < m.eqNum ∧ m.eqNum ≤ S2.nDofs + S2.nMpc) ∧
      ∀ t ∈ m.eq, S.eqNumber .node t.node t.dof = .ok (num A (.node, t.node, t.dof)) ∧
        (0 < num A (.node, t.node, t.dof) ∧ num A (.node, t.node, t.dof) ≤ S2.nDofs + S2.nMpc) ∧
        Reg (gAll S2 A) m.eqNum (num A (.node, t.node, t.dof)) := by
  intro m hm
  obtain ⟨m0, h1, h2, h3⟩ := hsh.mem hm
  have hq := hp.eqNum m0 h1
  refine ⟨by omega, ?_⟩
  intro t ht
  obtain ⟨t0, h4, h5, h6⟩ := h3 t ht
  have hsome := (hp.terms m0 h1).2 t0 h4
  rw [h5, h6] at hsome
  obtain ⟨w, hw⟩ := Option.isSome_iff_exists.mp hsome
  have hr := hp.range _ _ hw
  refine ⟨?_, ?_, ?_⟩
  · rw [hfr.eqNumber]; exact eqNumber_num hp.sim hsome
  · rw [num_eq hw]; omega
  · have := cover_mpc (A := A) h1 h4
    rw [h2, h5, h6] at this
    exact this

theorem assemble_during [AddMonoid K] {S2 S : Storage K} {A : Side → Spec} {M : Nat → Nat → Nat → K} {v : Nat → K}
    (hp : Pre S2 A) (h : During S2 S A M v) {build cm : List (Contrib K)} {upd : List (Mpc K) → List (Mpc K)}
    (hb : ∀ c ∈ build, Fine (S2.nDofs + S2.nMpc) S2.nMats (gAll S2 A) c)
    (hc : ∀ c ∈ cm, Fine (S2.nDofs + S2.nMpc) S2.nMats (gAll S2 A) c)
    (hu : ∀ ms, SameShape ms (upd ms)) :
    ∃ S', S.assemble build upd cm = .ok S' ∧ S'.mpcs = upd S.mpcs ∧
      During S2 S' A (asmM S2.transient (num A) build (upd S.mpcs) cm) (asmV S2.transient build (upd S.mpcs) cm) := by
  have hn := h.n
  have hQ0 : Which.K.idx < S.nMats := by show 0 < S.nMats; unfold Storage.nMats; split <;> omega
  obtain ⟨S1, a1, a2, a3, a4⟩ := live_zero h.live (w := .K) hQ0
  obtain ⟨b1, b2, b3⟩ := live_zeroF a4
  have hn1 : S1.zeroF.nDofs + S1.zeroF.nMpc = S2.nDofs + S2.nMpc := by
    rw [b1.nDofs, a2.nDofs]; unfold Storage.nMpc; rw [b2, a3]; exact hn
  have hQ1 : S1.zeroF.nMats = S2.nMats := by rw [b1.nMats, a2.nMats, h.frame.nMats]
  obtain ⟨S3, c1, c2, c3, c4⟩ := live_contribs build b3 (by rw [hn1, hQ1]; exact hb)
  have hf3 : Frame S2 S3 := ((h.frame.trans a2).trans b1).trans c2
  have hm3 : S3.mpcs = S.mpcs := c3.trans (b2.trans a3)
  have hsh : SameShape S2.mpcs (upd S3.mpcs) := by
    rw [hm3]
    have := hu S.mpcs
    unfold SameShape at *
    rw [this, h.shape]
  let S4 : Storage K := { S3 with mpcs := upd S3.mpcs }
  have hf4 : Frame S2 S4 := hf3.trans rfl
  have hn3 : S3.nMpc = S4.nMpc := by
    unfold Storage.nMpc
    show S3.mpcs.length = (upd S3.mpcs).length
    rw [(hu S3.mpcs).length]
  have hl4 : Live S4 (gAll S2 A) (fun q i j => (if q = Which.K.idx then 0 else M q i j) + matSum q i j build)
      (fun i => 0 + loadSum i build) := by
    obtain ⟨F, hs, e1, e2, e3, e4⟩ := c4.mat
    refine ⟨⟨F, hs, e1, ?_, e3, e4⟩, ?_, ?_, c4.dofs⟩
    · have : bsizes S4 = bsizes S3 := by
        show [S3.nConstr, S3.nUnknown + S4.nMpc] = [S3.nConstr, S3.nUnknown + S3.nMpc]
        rw [hn3]
      rw [this]; exact e2
    · rw [← hn3]; exact c4.vec
    · intro i h1 h2
      exact c4.load i h1 (by rw [hn3]; exact h2)
  have hn4 : S4.nDofs + S4.nMpc = S2.nDofs + S2.nMpc := by
    rw [hf4.nDofs]; unfold Storage.nMpc; rw [show S4.mpcs = upd S3.mpcs from rfl, hsh.length]
  have hcond := mpc_conditions hp hf4 hsh
  rw [← hn4] at hcond
  obtain ⟨S5, d1, d2, d3, d4⟩ := live_mpcs (num := num A) (upd S3.mpcs) hl4 hcond
  have hf5 : Frame S2 S5 := hf4.trans d2
  have hm5 : S5.mpcs = upd S.mpcs := by
    rw [d3, ← hm3]
  have hstart : S.assemble build upd cm = (if S5.transient then do
      let S ← S5.zeroMat .C
      let S ← S.zeroMat .M
      Res.foldlM' Storage.contribute S cm
    else .ok S5) := by
    unfold Storage.assemble
    rw [a1]
    simp only [Res.ok_bind]
    rw [c1]
    simp only [Res.ok_bind]
    rw [show Res.foldlM' Storage.assembleMpc { S3 with mpcs := upd S3.mpcs } (upd S3.mpcs) = .ok S5 from d1]
    rfl
  rw [hstart, hf5.transient]
  have hsh5 : SameShape S2.mpcs S5.mpcs := by rw [hm5, ← hm3]; exact hsh
  cases ht : S2.transient with
  | false =>
    refine ⟨S5, rfl, hm5, ?_, hf5, hsh5⟩
    have hnm : S5.nMats = 1 := by rw [hf5.nMats]; unfold Storage.nMats; rw [ht]; rfl
    refine d4.congr ?_ ?_
    · intro q hq
      have hq0 : q = 0 := by omega
      subst hq0
      funext i j
      unfold asmM
      simp only [Bool.false_eq_true, if_false]
      rw [if_pos (show 0 = Which.K.idx from rfl), zero_add, matSum_append, hm3]
    · intro i _ _
      unfold asmV
      simp only [Bool.false_eq_true, if_false]
      rw [hm3]
      congr 1
      funext i
      rw [zero_add]
  | true =>
    have hnm : S5.nMats = 3 := by rw [hf5.nMats]; unfold Storage.nMats; rw [ht]; rfl
    obtain ⟨S6, e1, e2, e3, e4⟩ := live_zero d4 (w := .C) (by rw [hnm]; decide)
    obtain ⟨S7, f1, f2, f3, f4⟩ := live_zero e4 (w := .M) (by rw [e2.nMats, hnm]; decide)
    have hf7 : Frame S2 S7 := (hf5.trans e2).trans f2
    have hm7 : S7.mpcs = upd S.mpcs := by rw [f3, e3, hm5]
    have hn7 : S7.nDofs + S7.nMpc = S2.nDofs + S2.nMpc := by
      rw [hf7.nDofs]; unfold Storage.nMpc; rw [hm7, ← hm3, hsh.length]
    obtain ⟨S8, g1, g2, g3, g4⟩ := live_contribs cm f4 (by rw [hn7, hf7.nMats]; exact hc)
    refine ⟨S8, ?_, g3.trans hm7, ?_, hf7.trans g2, ?_⟩
    · simp only [if_true]
      rw [e1]
      simp only [Res.ok_bind]
      rw [f1]
      simp only [Res.ok_bind]
      exact g1
    · refine g4.congr ?_ ?_
      · intro q hq
        have hq3 : q < 3 := by
          have : S8.nMats = S5.nMats := by rw [g2.nMats, f2.nMats, e2.nMats]
          omega
        funext i j
        unfold asmM
        simp only [if_true]
        by_cases hq0 : q = 0
        · subst hq0
          rw [if_pos rfl, if_neg (show ¬ 0 = Which.M.idx by decide), if_neg (show ¬ 0 = Which.C.idx by decide),
            if_pos (show 0 = Which.K.idx from rfl), zero_add, matSum_append, matSum_append,
            hm3]
        · rw [if_neg hq0]
          have : q = 1 ∨ q = 2 := by omega
          rcases this with rfl | rfl
          · rw [if_neg (show ¬ 1 = Which.M.idx by decide), if_pos (show 1 = Which.C.idx from rfl), zero_add]
          · rw [if_pos (show 2 = Which.M.idx from rfl), zero_add]
      · intro i _ _
        unfold asmV
        simp only [if_true]
        rw [hm3]
        congr 2
        funext i
        rw [zero_add]
    · rw [g3, hm7, ← hm3]; exact hsh

theorem mpcLoad_other {v : Nat → K} {i : Nat} : ∀ {ms : List (Mpc K)}, (∀ m ∈ ms, m.eqNum ≠ i) → mpcLoad v ms i = v i := by
  intro ms
  induction ms generalizing v with
  | nil => intro _; rfl
  | cons m ms ih =>
    intro h
    unfold mpcLoad
    rw [ih (fun m' hm' => h m' (by simp [hm'])), if_neg (fun hh => h m (by simp) hh.symm)]

theorem mpcLoad_mem {v : Nat → K} : ∀ {ms : List (Mpc K)}, (ms.map Mpc.eqNum).Nodup → ∀ m ∈ ms,
    mpcLoad v ms m.eqNum = m.b := by
  intro ms
  induction ms generalizing v with
  | nil => intro _ m hm; simp at hm
  | cons m' ms ih =>
    intro hnd m hm
    rw [List.map_cons, List.nodup_cons] at hnd
    unfold mpcLoad
    rcases List.mem_cons.mp hm with rfl | hm
    · rw [mpcLoad_other, if_pos rfl]
      intro m'' hm'' he
      exact hnd.1 (List.mem_map.mpr ⟨m'', hm'', he⟩)
    · exact ih hnd.2 m hm

end Nla3d.Storage
