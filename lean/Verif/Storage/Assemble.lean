import Verif.Storage.Sparsity
import Mathlib.Algebra.BigOperators.Group.List.Basic

/-!
# Adding values to the global matrices and the load vector
-/

namespace Nla3d.Storage

open Nla3d.Dof Nla3d.Block Nla3d.Sparse

variable {K : Type}

/-- `{i, j} = {a, b}` as unordered pairs. -/
def Same (i j a b : Nat) : Prop := (a = i ∧ b = j) ∨ (a = j ∧ b = i)

instance (i j a b : Nat) : Decidable (Same i j a b) := by unfold Same; infer_instance

/-- Only matrices, load vector and MPC data may differ. -/
def Frame (S S' : Storage K) : Prop := S' = { S with mat := S'.mat, vecF := S'.vecF, mpcs := S'.mpcs }

theorem Frame.refl (S : Storage K) : Frame S S := rfl

theorem Frame.trans {S S' S'' : Storage K} (h : Frame S S') (h' : Frame S' S'') : Frame S S'' := by
  unfold Frame at *
  rw [h', h]

theorem Frame.eqNumber {S S' : Storage K} (h : Frame S S') (s : Side) (n : Nat) (t : DofType) :
    S'.eqNumber s n t = S.eqNumber s n t := by
  unfold Frame at h
  rw [h]
  cases s <;> rfl

theorem Frame.nDofs {S S' : Storage K} (h : Frame S S') : S'.nDofs = S.nDofs := by unfold Frame at h; rw [h]
theorem Frame.nConstr {S S' : Storage K} (h : Frame S S') : S'.nConstr = S.nConstr := by unfold Frame at h; rw [h]
theorem Frame.nUnknown {S S' : Storage K} (h : Frame S S') : S'.nUnknown = S.nUnknown := by unfold Frame at h; rw [h]
theorem Frame.transient {S S' : Storage K} (h : Frame S S') : S'.transient = S.transient := by unfold Frame at h; rw [h]
theorem Frame.elements {S S' : Storage K} (h : Frame S S') : S'.elements = S.elements := by unfold Frame at h; rw [h]
theorem Frame.nMats {S S' : Storage K} (h : Frame S S') : S'.nMats = S.nMats := by
  unfold Storage.nMats; rw [h.transient]

/-- Contents of a storage with compressed matrices: `M q i j` are the values of matrix `q`, `v i` the load at equation
`i`, `es` the registered positions. -/
structure Live [Zero K] [Add K] (S : Storage K) (es : List (Nat × Nat)) (M : Nat → Nat → Nat → K) (v : Nat → K) :
    Prop where
  mat : ∃ F hs, S.mat = some F ∧ Inv3 F (bsizes S) es hs S.nMats ∧ hs.length = S.nMats ∧
    ∀ q (h : q < hs.length) i j, totalSym hs[q] i j = M q i j
  vec : S.vecF.length = S.nDofs + S.nMpc
  load : ∀ i, 0 < i → i ≤ S.nDofs + S.nMpc → S.vecF[i - 1]? = some (v i)
  dofs : S.nConstr + S.nUnknown = S.nDofs

theorem Live.congr [Zero K] [Add K] {S : Storage K} {es : List (Nat × Nat)} {M M' : Nat → Nat → Nat → K}
    {v v' : Nat → K} (h : Live S es M v) (hM : ∀ q, q < S.nMats → M' q = M q)
    (hv : ∀ i, 0 < i → i ≤ S.nDofs + S.nMpc → v' i = v i) : Live S es M' v' := by
  obtain ⟨F, hs, h1, h2, h3, h4⟩ := h.mat
  refine ⟨⟨F, hs, h1, h2, h3, ?_⟩, h.vec, ?_, h.dofs⟩
  · intro q hq i j
    rw [h4 q hq, hM q (by omega)]
  · intro i hi hle
    rw [hv i hi hle]
    exact h.load i hi hle

/-- Values after an addition. -/
def addM [Add K] (M : Nat → Nat → Nat → K) (q i j : Nat) (x : K) : Nat → Nat → Nat → K :=
  fun q' i' j' => if q' = q ∧ Same i' j' i j then M q' i' j' + x else M q' i' j'

theorem live_add [AddMonoid K] {S : Storage K} {es : List (Nat × Nat)} {M : Nat → Nat → Nat → K} {v : Nat → K}
    (h : Live S es M v) {w : Which} (hw : w.idx < S.nMats) {i j : Nat} (hi : 0 < i ∧ i ≤ S.nDofs + S.nMpc)
    (hj : 0 < j ∧ j ≤ S.nDofs + S.nMpc) (x : K) :
    (Reg es i j ∧ ∃ S', S.addValueEq w i j x = .ok S' ∧ Frame S S' ∧ S'.mpcs = S.mpcs ∧
      Live S' es (addM M w.idx i j x) v) ∨ (¬ Reg es i j ∧ S.addValueEq w i j x = .fatal) := by
  obtain ⟨F, hs, h1, h2, h3, h4⟩ := h.mat
  have hd := h.dofs
  have hsum : (bsizes S).sum = S.nDofs + S.nMpc := by simp only [List.sum_cons, List.sum_nil]; omega
  rcases step_add (x := x) (q := w.idx) (i := i) (j := j) (hsmall S) h2 (by omega) (by omega) (by omega) with ⟨hr, F', e1, e2⟩ | ⟨hr, e1⟩
  · left
    refine ⟨hr, { S with mat := some F' }, ?_, rfl, rfl, ⟨F', _, rfl, e2, (List.length_modify ..).trans h3, ?_⟩, h.vec, h.load, h.dofs⟩
    · unfold Storage.addValueEq; rw [h1]; simp only; rw [e1]; rfl
    · intro q hq p c
      simp only [List.length_modify] at hq
      rw [List.getElem_modify]
      unfold addM
      by_cases hqw : w.idx = q
      · subst hqw
        rw [if_pos rfl, totalSym_snoc_add, h4 _ hq]
        unfold Same
        simp only [true_and]
      · rw [if_neg hqw, h4 _ hq, if_neg (by rintro ⟨rfl, _⟩; exact hqw rfl)]
  · right
    refine ⟨hr, ?_⟩
    unfold Storage.addValueEq; rw [h1]; simp only; rw [e1]; rfl

theorem live_zero [AddMonoid K] {S : Storage K} {es : List (Nat × Nat)} {M : Nat → Nat → Nat → K} {v : Nat → K}
    (h : Live S es M v) {w : Which} (hw : w.idx < S.nMats) :
    ∃ S', S.zeroMat w = .ok S' ∧ Frame S S' ∧ S'.mpcs = S.mpcs ∧
      Live S' es (fun q i j => if q = w.idx then 0 else M q i j) v := by
  obtain ⟨F, hs, h1, h2, h3, h4⟩ := h.mat
  obtain ⟨F', e1, e2⟩ := step_zero (q := w.idx) (hsmall S) h2 (by omega)
  refine ⟨{ S with mat := some F' }, ?_, rfl, rfl, ⟨F', _, rfl, e2, (List.length_modify ..).trans h3, ?_⟩, h.vec, h.load, h.dofs⟩
  · unfold Storage.zeroMat; rw [h1]; simp only; rw [e1]; rfl
  · intro q hq p c
    simp only [List.length_modify] at hq
    rw [List.getElem_modify]
    by_cases hqw : w.idx = q
    · subst hqw
      rw [if_pos rfl, totalSym_snoc_zero, if_pos rfl]
    · rw [if_neg hqw, h4 _ hq, if_neg (fun hh => hqw hh.symm)]

theorem live_zeroF [AddMonoid K] {S : Storage K} {es : List (Nat × Nat)} {M : Nat → Nat → Nat → K} {v : Nat → K}
    (h : Live S es M v) : Frame S S.zeroF ∧ S.zeroF.mpcs = S.mpcs ∧ Live S.zeroF es M (fun _ => 0) := by
  refine ⟨rfl, rfl, h.mat, (List.length_map ..).trans h.vec, ?_, h.dofs⟩
  intro i hi hle
  have := h.load i hi hle
  show (S.vecF.map (fun _ => (0 : K)))[i - 1]? = _
  rw [List.getElem?_map, this]
  rfl

/-- Setting a component of the load vector. -/
theorem live_setF [AddMonoid K] {S : Storage K} {es : List (Nat × Nat)} {M : Nat → Nat → Nat → K} {v : Nat → K}
    (h : Live S es M v) {i : Nat} (hi : 0 < i ∧ i ≤ S.nDofs + S.nMpc) (x : K) :
    Frame S { S with vecF := S.vecF.set (i - 1) x } ∧
      Live { S with vecF := S.vecF.set (i - 1) x } es M (fun i' => if i' = i then x else v i') := by
  refine ⟨rfl, h.mat, (List.length_set ..).trans h.vec, ?_, h.dofs⟩
  intro i' hi' hle
  have hv := h.vec
  simp only
  by_cases heq : i' = i
  · subst heq
    rw [if_pos rfl, List.getElem?_set_self (by omega)]
  · rw [if_neg heq, List.getElem?_set_ne (by omega)]
    exact h.load i' hi' hle

theorem live_addF [AddMonoid K] {S : Storage K} {es : List (Nat × Nat)} {M : Nat → Nat → Nat → K} {v : Nat → K}
    (h : Live S es M v) {i : Nat} (hi : 0 < i ∧ i ≤ S.nDofs + S.nMpc) (x : K) :
    ∃ S', S.addValueF i x = .ok S' ∧ Frame S S' ∧ S'.mpcs = S.mpcs ∧
      Live S' es M (fun i' => if i' = i then v i' + x else v i') := by
  have hv := h.vec
  have hr := h.load i hi.1 hi.2
  obtain ⟨f1, f2⟩ := live_setF h hi (v i + x)
  refine ⟨_, ?_, f1, rfl, f2.congr (fun _ _ => rfl) ?_⟩
  · unfold Storage.addValueF
    rw [if_pos (by omega), Res.read_eq_ok.mpr hr]
    rfl
  · intro i' _ _
    by_cases heq : i' = i
    · rw [if_pos heq, if_pos heq, heq]
    · rw [if_neg heq, if_neg heq]

/-! ## Lists of contributions -/

/-- What the contributions add to entry `(i, j)` of matrix `w`. -/
def matSum [AddMonoid K] (q : Nat) (i j : Nat) : List (Contrib K) → K
  | [] => 0
  | .mat w a b x :: cs => (if w.idx = q ∧ Same i j a b then x else 0) + matSum q i j cs
  | .load _ _ :: cs => matSum q i j cs

/-- What the contributions add to component `i` of the load vector. -/
def loadSum [AddMonoid K] (i : Nat) : List (Contrib K) → K
  | [] => 0
  | .load a x :: cs => (if a = i then x else 0) + loadSum i cs
  | .mat _ _ _ _ :: cs => loadSum i cs

/-- The contribution goes to a registered place. -/
def Fine (n Q : Nat) (es : List (Nat × Nat)) : Contrib K → Prop
  | .mat w i j _ => w.idx < Q ∧ (0 < i ∧ i ≤ n) ∧ (0 < j ∧ j ≤ n) ∧ Reg es i j
  | .load i _ => 0 < i ∧ i ≤ n

theorem live_contribs [AddMonoid K] {es : List (Nat × Nat)} : ∀ (cs : List (Contrib K)) {S : Storage K}
    {M : Nat → Nat → Nat → K} {v : Nat → K}, Live S es M v → (∀ c ∈ cs, Fine (S.nDofs + S.nMpc) S.nMats es c) →
    ∃ S', Res.foldlM' Storage.contribute S cs = .ok S' ∧ Frame S S' ∧ S'.mpcs = S.mpcs ∧
      Live S' es (fun q i j => M q i j + matSum q i j cs) (fun i => v i + loadSum i cs) := by
  intro cs
  induction cs with
  | nil =>
    intro S M v h _
    exact ⟨S, rfl, rfl, rfl, h.congr (fun q _ => by funext i j; simp [matSum]) (fun i _ _ => by simp [loadSum])⟩
  | cons c cs ih =>
    intro S M v h hf
    have hc := hf c (by simp)
    cases c with
    | mat w i j x =>
      obtain ⟨hw, hi, hj, hr⟩ := hc
      rcases live_add h hw hi hj x with ⟨_, S1, e1, e2, e3, e4⟩ | ⟨hn, _⟩
      · have hn : S1.nDofs + S1.nMpc = S.nDofs + S.nMpc := by rw [e2.nDofs]; unfold Storage.nMpc; rw [e3]
        obtain ⟨S2, f1, f2, f3, f4⟩ := ih e4 (by rw [hn, e2.nMats]; exact fun c hc => hf c (by simp [hc]))
        refine ⟨S2, ?_, e2.trans f2, f3.trans e3, f4.congr ?_ (fun i _ _ => rfl)⟩
        · rw [Res.foldlM'_cons, show S.contribute (.mat w i j x) = .ok S1 from e1]; exact f1
        · intro q _
          funext p c
          simp only [addM, matSum]
          by_cases hq : q = w.idx ∧ Same p c i j
          · rw [if_pos hq, if_pos ⟨hq.1.symm, hq.2⟩, add_assoc]
          · rw [if_neg hq, if_neg (fun hh => hq ⟨hh.1.symm, hh.2⟩), zero_add]
      · exact absurd hr hn
    | load i x =>
      obtain ⟨S1, e1, e2, e3, e4⟩ := live_addF h hc x
      have hn : S1.nDofs + S1.nMpc = S.nDofs + S.nMpc := by rw [e2.nDofs]; unfold Storage.nMpc; rw [e3]
      obtain ⟨S2, f1, f2, f3, f4⟩ := ih e4 (by rw [hn, e2.nMats]; exact fun c hc => hf c (by simp [hc]))
      refine ⟨S2, ?_, e2.trans f2, f3.trans e3, f4.congr (fun q _ => rfl) ?_⟩
      · rw [Res.foldlM'_cons, show S.contribute (.load i x) = .ok S1 from e1]; exact f1
      · intro p _ _
        simp only [loadSum]
        by_cases hq : p = i
        · rw [if_pos hq, if_pos hq.symm, add_assoc]
        · rw [if_neg hq, if_neg (fun hh => hq hh.symm), zero_add]

/-! ## MPCs -/

/-- The contributions of an MPC to the stiffness matrix. -/
def mpcContribs (num : Key → Nat) (m : Mpc K) : List (Contrib K) :=
  m.eq.map (fun t => .mat .K m.eqNum (num (.node, t.node, t.dof)) t.coef)

theorem matSum_append [AddMonoid K] (q i j : Nat) : ∀ (cs ds : List (Contrib K)),
    matSum q i j (cs ++ ds) = matSum q i j cs + matSum q i j ds := by
  intro cs ds
  induction cs with
  | nil => simp [matSum]
  | cons c cs ih => cases c <;> simp [matSum, ih, add_assoc]

theorem loadSum_append [AddMonoid K] (i : Nat) : ∀ (cs ds : List (Contrib K)),
    loadSum i (cs ++ ds) = loadSum i cs + loadSum i ds := by
  intro cs ds
  induction cs with
  | nil => simp [loadSum]
  | cons c cs ih => cases c <;> simp [loadSum, ih, add_assoc]

theorem loadSum_mpc [AddMonoid K] (num : Key → Nat) (i : Nat) (m : Mpc K) : loadSum i (mpcContribs num m) = 0 := by
  unfold mpcContribs
  induction m.eq with
  | nil => rfl
  | cons t ts ih => simpa [loadSum] using ih

/-- Load vector after the MPC loop. -/
def mpcLoad (v : Nat → K) : List (Mpc K) → Nat → K
  | [], i => v i
  | m :: ms, i => mpcLoad (fun i' => if i' = m.eqNum then m.b else v i') ms i

theorem live_mpcs [AddMonoid K] {es : List (Nat × Nat)} {num : Key → Nat} : ∀ (ms : List (Mpc K)) {S : Storage K}
    {M : Nat → Nat → Nat → K} {v : Nat → K}, Live S es M v →
    (∀ m ∈ ms, (0 < m.eqNum ∧ m.eqNum ≤ S.nDofs + S.nMpc) ∧
      ∀ t ∈ m.eq, S.eqNumber .node t.node t.dof = .ok (num (.node, t.node, t.dof)) ∧
        (0 < num (.node, t.node, t.dof) ∧ num (.node, t.node, t.dof) ≤ S.nDofs + S.nMpc) ∧
        Reg es m.eqNum (num (.node, t.node, t.dof))) →
    ∃ S', Res.foldlM' Storage.assembleMpc S ms = .ok S' ∧ Frame S S' ∧ S'.mpcs = S.mpcs ∧
      Live S' es (fun q i j => M q i j + matSum q i j (ms.flatMap (mpcContribs num))) (mpcLoad v ms) := by
  intro ms
  induction ms with
  | nil =>
    intro S M v h _
    exact ⟨S, rfl, rfl, rfl, h.congr (fun q _ => by funext i j; simp [matSum]) (fun i _ _ => rfl)⟩
  | cons m ms ih =>
    intro S M v h hm
    obtain ⟨hq, ht⟩ := hm m (by simp)
    obtain ⟨f1, f2⟩ := live_setF h hq m.b
    have hQ : 0 < S.nMats := by unfold Storage.nMats; split <;> omega
    obtain ⟨S1, e1, e2, e3, e4⟩ := live_contribs (mpcContribs num m) f2 (by
      intro c hc
      unfold mpcContribs at hc
      obtain ⟨t, ht', rfl⟩ := List.mem_map.mp hc
      exact ⟨hQ, hq, (ht t ht').2.1, (ht t ht').2.2⟩)
    have hstep : S.assembleMpc m = .ok S1 := by
      unfold Storage.assembleMpc
      have hv := h.vec
      rw [if_pos (by omega)]
      simp only
      rw [← e1]
      unfold mpcContribs
      have key : ∀ (ts : List (MpcTerm K)) (S' : Storage K), Frame S S' → (∀ t ∈ ts, t ∈ m.eq) →
          Res.foldlM' (fun (S : Storage K) (t : MpcTerm K) => do
            let j ← S.eqNumber .node t.node t.dof
            S.addValueEq .K m.eqNum j t.coef) S' ts =
          Res.foldlM' Storage.contribute S' (ts.map (fun t => .mat .K m.eqNum (num (.node, t.node, t.dof)) t.coef)) := by
        intro ts
        induction ts with
        | nil => intro S' _ _; rfl
        | cons t ts iht =>
          intro S' hfr hin
          rw [List.map_cons, Res.foldlM'_cons, Res.foldlM'_cons]
          rw [hfr.eqNumber, (ht t (hin t (by simp))).1]
          simp only [Res.ok_bind]
          have : S'.contribute (.mat .K m.eqNum (num (.node, t.node, t.dof)) t.coef) =
              S'.addValueEq .K m.eqNum (num (.node, t.node, t.dof)) t.coef := rfl
          rw [this]
          cases hS : S'.addValueEq .K m.eqNum (num (.node, t.node, t.dof)) t.coef with
          | ok S'' =>
            simp only [Res.ok_bind]
            apply iht S'' _ (fun t' ht' => hin t' (by simp [ht']))
            refine hfr.trans ?_
            unfold Storage.addValueEq at hS
            cases hmat : S'.mat with
            | none => rw [hmat] at hS; simp at hS
            | some F =>
              rw [hmat] at hS
              simp only [Res.bind_eq_ok] at hS
              obtain ⟨F', _, hS⟩ := hS
              rw [Res.ok.injEq] at hS
              subst hS
              rfl
          | fatal => rfl
          | assert => rfl
          | ub => rfl
      exact key m.eq _ f1 (fun t h => h)
    have hn : S1.nDofs + S1.nMpc = S.nDofs + S.nMpc := by rw [e2.nDofs]; unfold Storage.nMpc; rw [e3]
    obtain ⟨S2, g1, g2, g3, g4⟩ := ih e4 (by
      intro m' hm'
      rw [hn]
      obtain ⟨a1, a2⟩ := hm m' (by simp [hm'])
      refine ⟨a1, fun t ht' => ?_⟩
      rw [(f1.trans e2).eqNumber]
      exact a2 t ht')
    refine ⟨S2, ?_, (f1.trans e2).trans g2, g3.trans e3, g4.congr ?_ ?_⟩
    · rw [Res.foldlM'_cons, hstep]; exact g1
    · intro q _
      funext i j
      rw [List.flatMap_cons, matSum_append, add_assoc]
    · intro i _ _
      rw [mpcLoad]
      congr 1
      funext i'
      rw [loadSum_mpc, add_zero]

end Nla3d.Storage
