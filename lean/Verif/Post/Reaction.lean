import Verif.Post.Model
import Verif.Storage.Sim
import Mathlib.Algebra.BigOperators.Group.List.Basic

/-!
# Reactions (C59) and deformed positions (C73)

`A : Side → Spec` is the map (collection, entity, type) ↦ (equation number, constrained) the DoF tables refine.
-/

namespace Nla3d.Post

open Nla3d.Dof Nla3d.Storage Nla3d.Labels

variable {K : Type}

/-- A storage whose tables refine `A`, with vectors that have a row for every equation number. -/
structure Solved (S : Storage K) (A : Side → Spec) : Prop where
  sim : SimS S A
  rowsU : ∀ s n t e c, A s n t = some (e, c) → 0 < e ∧ e ≤ S.vecU.length
  rowsR : ∀ s n t e c, A s n t = some (e, c) → 0 < e ∧ e ≤ S.vecR.length

/-! ## Specification -/

/-- The row of a vector that belongs to a DoF, 0 for a DoF that is not used. -/
def rowOf [Zero K] (a : Spec) (v : List K) (n : Nat) (t : DofType) : K :=
  match a n t with
  | none => 0
  | some (e, _) => v.getD (e - 1) 0

/-- Sum of the reactions of one DoF over the nodes. -/
def total [AddMonoid K] (a : Spec) (v : List K) (nodes : List Nat) (t : DofType) : K :=
  (nodes.map (fun n => rowOf a v n t)).sum

/-- A DoF that is used and constrained. -/
def Fixed (a : Spec) (n : Nat) (t : DofType) : Prop := ∃ e, a n t = some (e, true)

instance (a : Spec) (n : Nat) (t : DofType) : Decidable (Fixed a n t) :=
  match h : a n t with
  | none => isFalse (by rintro ⟨e, he⟩; rw [h] at he; cases he)
  | some (e, true) => isTrue ⟨e, h⟩
  | some (e, false) => isFalse (by rintro ⟨e', he⟩; rw [h] at he; cases he)

/-- The nodes exist. -/
def Exist (S : Storage K) (ns : List Nat) : Prop := ∀ n ∈ ns, 0 < n ∧ n ≤ S.nNodes

/-! ## Queries -/

theorem isUsed_eq {S : Storage K} {A : Side → Spec} (h : SimS S A) {s : Side} {n : Nat} (hn : 0 < n ∧ n ≤ S.size s)
    (t : DofType) : isUsed S s n t = .ok (A s n t).isSome := by
  unfold isUsed
  rw [tab_entities (h s), if_pos (by omega), (sim_answers (h s)).used n t hn.1 hn.2]

theorem isConstrained_eq {S : Storage K} {A : Side → Spec} (h : SimS S A) {n : Nat} {t : DofType} {e : Nat} {c : Bool}
    (ha : A .node n t = some (e, c)) : isConstrained S n t = .ok c := by
  have hr := sim_range (h .node) (n := n) (t := t) (by rw [ha]; rfl)
  have hu : 0 < (S.tab .node).nUsed := by
    rw [(sim_answers (h .node)).count]
    exact Finset.card_pos.mpr ⟨(n, t), mem_pairs.mpr ⟨hr.2, by rw [ha]; rfl⟩⟩
  unfold isConstrained
  rw [if_pos hu, sim_deref (h .node) hr, ha]
  rfl

theorem isConstrained_none {S : Storage K} {A : Side → Spec} (h : SimS S A) {n : Nat} {t : DofType}
    (hn : 0 < n ∧ n ≤ S.nNodes) (ha : A .node n t = none) (hu : 0 < (S.tab .node).nUsed) :
    isConstrained S n t = .ub := by
  unfold isConstrained
  rw [if_pos hu, sim_deref (h .node) hn, ha]
  rfl

theorem read_getD [Zero K] {v : List K} {i : Nat} (h : i < v.length) : Res.read v i = .ok (v.getD i 0) := by
  rw [Res.read_of_lt h]
  simp [List.getD_eq_getElem?_getD, h]

theorem solution_eq [Zero K] {S : Storage K} {A : Side → Spec} (h : Solved S A) {s : Side} {n : Nat} {t : DofType}
    (ha : (A s n t).isSome) : solution S s n t = .ok (rowOf (A s) S.vecU n t) := by
  obtain ⟨⟨e, c⟩, ha⟩ := Option.isSome_iff_exists.mp ha
  have hr := h.rowsU _ _ _ _ _ ha
  unfold solution
  rw [if_pos (by omega), h.sim.eqNumber ha, Res.ok_bind, if_pos hr, read_getD (by omega)]
  simp [rowOf, ha]

theorem reaction_eq [Zero K] {S : Storage K} {A : Side → Spec} (h : Solved S A) {n : Nat}
    (hn : 0 < n ∧ n ≤ S.nNodes) (t : DofType) : reaction S n t = .ok (rowOf (A .node) S.vecR n t) := by
  unfold reaction
  rw [isUsed_eq h.sim (s := .node) hn, Res.ok_bind]
  cases ha : A .node n t with
  | none => simp [rowOf, ha]
  | some p =>
    obtain ⟨e, c⟩ := p
    have hr := h.rowsR _ _ _ _ _ ha
    simp only [Option.isSome_some, if_true]
    rw [h.sim.eqNumber ha, Res.ok_bind]
    unfold reactionEq
    rw [if_pos hr, read_getD (by omega)]
    simp [rowOf, ha]

theorem moveBy_eq [AddMonoid K] {S : Storage K} {A : Side → Spec} (h : Solved S A) {n : Nat}
    (hn : 0 < n ∧ n ≤ S.nNodes) (t : DofType) (x : K) : moveBy S n t x = .ok (x + rowOf (A .node) S.vecU n t) := by
  unfold moveBy
  rw [isUsed_eq h.sim (s := .node) hn, Res.ok_bind]
  cases ha : A .node n t with
  | none => simp [rowOf, ha]
  | some p =>
    simp only [Option.isSome_some, if_true]
    rw [solution_eq h (by rw [ha]; rfl), Res.ok_bind]

/-- C73. The position of a node: the reference position, to which in the deformed configuration the solution of every
used translation is added. -/
theorem C73_position [AddMonoid K] {S : Storage K} {A : Side → Spec} (h : Solved S A) (nodes : List (Pt K))
    (hN : nodes.length = S.nNodes) (n : Nat) (hn : 0 < n ∧ n ≤ S.nNodes) (p : Pt K) (hp : nodes[n - 1]? = some p) :
    nodePosition S nodes n false = .ok p ∧
    nodePosition S nodes n true = .ok ⟨p.x + rowOf (A .node) S.vecU n .UX, p.y + rowOf (A .node) S.vecU n .UY,
      p.z + rowOf (A .node) S.vecU n .UZ⟩ := by
  have hr : Res.read nodes (n - 1) = .ok p := Res.read_eq_ok.mpr hp
  constructor
  · unfold nodePosition
    rw [if_pos (by omega), hr, Res.ok_bind]
    rfl
  · unfold nodePosition
    rw [if_pos (by omega), hr, Res.ok_bind]
    simp only [if_true]
    rw [moveBy_eq h hn, Res.ok_bind, moveBy_eq h hn, Res.ok_bind, moveBy_eq h hn, Res.ok_bind]

/-! ## Choice of the DoFs -/

theorem selectLoop_eq {S : Storage K} {A : Side → Spec} (h : SimS S A) {n : Nat} (hn : 0 < n ∧ n ≤ S.nNodes) :
    ∀ ts, selectLoop S n ts = .ok (ts.filter (fun t => Fixed (A .node) n t)) := by
  intro ts
  induction ts with
  | nil => rfl
  | cons t ts ih =>
    unfold selectLoop
    rw [isUsed_eq h (s := .node) hn, ih]
    cases ha : A .node n t with
    | none =>
      have : ¬ Fixed (A .node) n t := by rintro ⟨e, he⟩; rw [ha] at he; cases he
      simp [this]
    | some p =>
      obtain ⟨e, c⟩ := p
      simp only [Option.isSome_some, Res.ok_bind, if_true]
      rw [isConstrained_eq h ha, Res.ok_bind]
      cases c with
      | false =>
        have : ¬ Fixed (A .node) n t := by rintro ⟨e, he⟩; rw [ha] at he; cases he
        simp [this]
      | true =>
        have : Fixed (A .node) n t := ⟨e, ha⟩
        simp [this]

theorem checkNode_ok {S : Storage K} {A : Side → Spec} (h : SimS S A) {n : Nat} (hn : 0 < n ∧ n ≤ S.nNodes) :
    ∀ ts, (∀ t ∈ ts, (A .node n t).isSome) → checkNode S n ts = .ok () := by
  intro ts
  induction ts with
  | nil => intro _; rfl
  | cons t ts ih =>
    intro ht
    unfold checkNode differs
    rw [isUsed_eq h (s := .node) hn, ht t (by simp)]
    simp only [Res.ok_bind, if_true]
    exact ih (fun t' h' => ht t' (by simp [h']))

theorem checkNode_ub {S : Storage K} {A : Side → Spec} (h : SimS S A) {n : Nat} (hn : 0 < n ∧ n ≤ S.nNodes)
    (hu : 0 < (S.tab .node).nUsed) : ∀ ts, (∃ t ∈ ts, A .node n t = none) → checkNode S n ts = .ub := by
  intro ts
  induction ts with
  | nil => rintro ⟨t, ht, _⟩; cases ht
  | cons t ts ih =>
    intro ht
    unfold checkNode differs
    rw [isUsed_eq h (s := .node) hn]
    cases ha : A .node n t with
    | none =>
      simp only [Option.isSome_none, Res.ok_bind]
      rw [isConstrained_none h hn ha hu]
      rfl
    | some p =>
      simp only [Option.isSome_some, Res.ok_bind, if_true]
      refine ih ?_
      obtain ⟨t', h1, h2⟩ := ht
      rcases List.mem_cons.mp h1 with rfl | h1
      · rw [ha] at h2; cases h2
      · exact ⟨t', h1, h2⟩

theorem checkNodes_ok {S : Storage K} {A : Side → Spec} (h : SimS S A) (ts : List DofType) :
    ∀ ns, Exist S ns → (∀ n ∈ ns, ∀ t ∈ ts, (A .node n t).isSome) → checkNodes S ts ns = .ok () := by
  intro ns
  induction ns with
  | nil => intro _ _; rfl
  | cons n ns ih =>
    intro h1 h2
    unfold checkNodes
    rw [checkNode_ok h (h1 n (by simp)) ts (h2 n (by simp)), Res.ok_bind]
    exact ih (fun m hm => h1 m (by simp [hm])) (fun m hm => h2 m (by simp [hm]))

theorem checkNodes_ub {S : Storage K} {A : Side → Spec} (h : SimS S A) (hu : 0 < (S.tab .node).nUsed)
    (ts : List DofType) :
    ∀ ns, Exist S ns → (∃ n ∈ ns, ∃ t ∈ ts, A .node n t = none) → checkNodes S ts ns = .ub := by
  intro ns
  induction ns with
  | nil => rintro _ ⟨n, hn, _⟩; cases hn
  | cons n ns ih =>
    intro h1 h2
    unfold checkNodes
    by_cases hc : ∃ t ∈ ts, A .node n t = none
    · rw [checkNode_ub h (h1 n (by simp)) hu ts hc]; rfl
    · rw [checkNode_ok h (h1 n (by simp)) ts, Res.ok_bind]
      · refine ih (fun m hm => h1 m (by simp [hm])) ?_
        obtain ⟨m, hm, ht⟩ := h2
        rcases List.mem_cons.mp hm with rfl | hm
        · exact absurd ht hc
        · exact ⟨m, hm, ht⟩
      · intro t ht
        cases ha : A .node n t with
        | none => exact absurd ⟨t, ht, ha⟩ hc
        | some _ => rfl

theorem usedNode_ok {S : Storage K} {A : Side → Spec} (h : SimS S A) {n : Nat} (hn : 0 < n ∧ n ≤ S.nNodes) :
    ∀ ts, ∃ b, usedNode S n ts = .ok b := by
  intro ts
  induction ts with
  | nil => exact ⟨_, rfl⟩
  | cons t ts ih =>
    unfold usedNode
    rw [isUsed_eq h (s := .node) hn, Res.ok_bind]
    cases (A .node n t).isSome
    · exact ⟨false, rfl⟩
    · exact ih

theorem usedNodes_ok {S : Storage K} {A : Side → Spec} (h : SimS S A) (ts : List DofType) :
    ∀ ns, Exist S ns → usedNodes S ts ns = .ok () := by
  intro ns
  induction ns with
  | nil => intro _; rfl
  | cons n ns ih =>
    intro h1
    obtain ⟨b, hb⟩ := usedNode_ok h (h1 n (by simp)) ts
    unfold usedNodes
    rw [hb, Res.ok_bind]
    cases b
    · rfl
    · exact ih (fun m hm => h1 m (by simp [hm]))

theorem headerLabels_eq : ∀ ts : List DofType,
    headerLabels ts = .ok (ts.map (fun t => dofTypeLabels.getD (dofToNat t) "")) := by
  intro ts
  induction ts with
  | nil => rfl
  | cons t ts ih =>
    unfold headerLabels
    rw [ih]
    cases t <;> rfl

/-! ## The histories -/

theorem addNode_eq [AddMonoid K] {S : Storage K} {A : Side → Spec} (h : Solved S A) {n : Nat}
    (hn : 0 < n ∧ n ≤ S.nNodes) (f : DofType → K) : ∀ ts : List DofType,
    addNode S n ts (ts.map f) = .ok (ts.map (fun t => f t + rowOf (A .node) S.vecR n t)) := by
  intro ts
  induction ts with
  | nil => rfl
  | cons t ts ih =>
    rw [List.map_cons]
    unfold addNode
    rw [reaction_eq h hn, Res.ok_bind, ih, Res.ok_bind]
    rfl

theorem addNodes_eq [AddMonoid K] {S : Storage K} {A : Side → Spec} (h : Solved S A) (ts : List DofType) :
    ∀ (ns : List Nat) (f : DofType → K), Exist S ns →
    addNodes S ts ns (ts.map f) = .ok (ts.map (fun t => f t + total (A .node) S.vecR ns t)) := by
  intro ns
  induction ns with
  | nil => intro f _; simp [addNodes, total]
  | cons n ns ih =>
    intro f hn
    unfold addNodes
    rw [addNode_eq h (hn n (by simp)), Res.ok_bind, ih _ (fun m hm => hn m (by simp [hm]))]
    simp [total, add_assoc]

theorem pushAll_map (f : DofType → K) (g : DofType → List K) : ∀ ts : List DofType,
    pushAll (ts.map f) (ts.map g) = .ok (ts.map (fun t => g t ++ [f t])) := by
  intro ts
  induction ts with
  | nil => rfl
  | cons t ts ih =>
    rw [List.map_cons, List.map_cons]
    unfold pushAll
    rw [ih, Res.ok_bind]
    rfl

theorem lookup_map (g : DofType → List K) : ∀ (ts : List DofType) (t : DofType),
    lookup ts (ts.map g) t = .ok (if t ∈ ts then g t else []) := by
  intro ts
  induction ts with
  | nil => intro t; rfl
  | cons d ts ih =>
    intro t
    unfold lookup
    by_cases hd : d = t
    · subst hd; simp [Res.read]
    · have : ¬ t = d := fun e => hd e.symm
      rw [if_neg hd]
      simp only [List.map_cons, List.drop_succ_cons, List.drop_zero]
      rw [ih t]
      simp [this]

/-- The rows of the file for the steps `k, k+1, …`. -/
def rowsFrom [AddMonoid K] (a : Spec) (nodes : List Nat) (ts : List DofType) : Nat → List (Storage K) → List (Line K)
  | _, [] => []
  | k, S :: Ss => .row k (ts.map (fun t => total a S.vecR nodes t)) :: rowsFrom a nodes ts (k + 1) Ss

theorem runSteps_eq [AddMonoid K] {A : Side → Spec} : ∀ (Ss : List (Storage K)) (k : Nat) (P : Proc K)
    (g : DofType → List K), (∀ S ∈ Ss, Solved S A ∧ Exist S P.nodes) → P.sums = P.dofs.map g →
    runSteps k Ss P = .ok { P with
      sums := P.dofs.map (fun t => g t ++ Ss.map (fun S => total (A .node) S.vecR P.nodes t))
      file := if P.toFile then P.file ++ rowsFrom (A .node) P.nodes P.dofs k Ss else P.file } := by
  intro Ss
  induction Ss with
  | nil =>
    intro k P g _ h2
    unfold runSteps
    obtain ⟨nodes, dofs, toFile, sums, file⟩ := P
    simp only at h2
    subst h2
    simp [rowsFrom]
  | cons S Ss ih =>
    intro k P g h1 h2
    unfold runSteps process
    obtain ⟨hS, hE⟩ := h1 S (by simp)
    rw [addNodes_eq hS P.dofs P.nodes (fun _ => 0) hE, Res.ok_bind, h2, pushAll_map]
    obtain ⟨nodes, dofs, toFile, sums, file⟩ := P
    have h3 : ∀ S' ∈ Ss, Solved S' A ∧ Exist S' nodes := fun S' h' => h1 S' (by simp [h'])
    cases toFile
    · simp only [Res.ok_bind, if_true, Bool.false_eq_true, if_false]
      refine (ih _ ⟨nodes, dofs, false, _, file⟩ (fun t => g t ++ [0 + total (A .node) S.vecR nodes t]) h3 rfl).trans ?_
      simp
    · simp only [Res.ok_bind, if_true]
      refine (ih _ ⟨nodes, dofs, true, _, _⟩ (fun t => g t ++ [0 + total (A .node) S.vecR nodes t]) h3 rfl).trans ?_
      simp [rowsFrom]

end Nla3d.Post
