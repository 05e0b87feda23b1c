import Verif.Mesh.Model
import Verif.Loop
import Mathlib.Data.List.Nodup
import Mathlib.Data.List.Range

/-! # Properties C28 (numbering of created entities) and C63 (clearing a mesh) -/

namespace Nla3d.Mesh

open Nla3d.Labels (ElementType)

/-! ## What the calls do -/

/-- The objects `a, ..., a + n - 1`. -/
abbrev fresh (a n q : Nat) : Prop := a ≤ q ∧ q < a + n

/-- `n` new nodes. -/
def Mesh.withNodes (S : Mesh) (n : Nat) : Mesh :=
  { S with
    next := S.next + n
    alive := fun q => if fresh S.next n q then true else S.alive q
    nodes := S.nodes ++ List.range' S.next n }

/-- `n` new elements, numbered from `k` on; `c` says whether they belong to the storage. -/
def Mesh.withElements (S : Mesh) (n : Nat) (t : ElementType) (num : Nat → Nat) (c : Nat → Bool) : Mesh :=
  { S with
    next := S.next + n
    alive := fun q => if fresh S.next n q then true else S.alive q
    elements := S.elements ++ List.range' S.next n
    elNum := fun q => if fresh S.next n q then num (q - S.next) else S.elNum q
    mine := fun q => if fresh S.next n q then c (q - S.next) else S.mine q
    type := fun q => if fresh S.next n q then t else S.type q }

theorem ite_fresh_succ {α : Type} (a n : Nat) (q : Nat) (x y : α) :
    (if q = a + n then x else if fresh a n q then x else y) = if fresh a (n + 1) q then x else y := by
  unfold fresh
  by_cases h : q = a + n
  · rw [if_pos h, if_pos (by omega)]
  · rw [if_neg h]
    by_cases h2 : a ≤ q ∧ q < a + n
    · rw [if_pos h2, if_pos (by omega)]
    · rw [if_neg h2, if_neg (by omega)]

theorem addNodes_eq (S : Mesh) (n : Nat) : (List.range n).foldl (fun S _ => S.addNode) S = S.withNodes n := by
  induction n with
  | zero =>
    unfold Mesh.withNodes
    have : ∀ q, ¬ fresh S.next 0 q := by intro q; unfold fresh; omega
    simp [this]
  | succ n ih =>
    rw [List.range_succ, List.foldl_append, ih]
    simp only [List.foldl_cons, List.foldl_nil, Mesh.addNode, Mesh.new, Mesh.withNodes, ite_fresh_succ]
    rw [List.append_assoc, ← List.range'_1_concat, Nat.add_assoc]

theorem pushElements_eq (S : Mesh) (t : ElementType) (n : Nat) :
    (List.range n).foldl (fun S _ => S.pushElement t) S = S.withElements n t (fun _ => 0) (fun _ => false) := by
  induction n with
  | zero =>
    unfold Mesh.withElements
    have : ∀ q, ¬ fresh S.next 0 q := by intro q; unfold fresh; omega
    simp [this]
  | succ n ih =>
    rw [List.range_succ, List.foldl_append, ih]
    simp only [List.foldl_cons, List.foldl_nil, Mesh.pushElement, Mesh.newElement, Mesh.new, Mesh.withElements,
      ite_fresh_succ]
    rw [List.append_assoc, ← List.range'_1_concat, Nat.add_assoc]

theorem claims_eq (S : Mesh) (t : ElementType) (n : Nat) :
    Res.foldlM' Mesh.claim (S.withElements n t (fun _ => 0) (fun _ => false))
      (List.range' (S.elements.length + 1) n) =
      .ok (S.withElements n t (fun j => S.elements.length + 1 + j) (fun _ => true)) := by
  obtain ⟨S', h1, h2⟩ := Res.foldlM'_range' Mesh.claim
    (fun k T => T = S.withElements n t (fun j => if S.elements.length + 1 + j < k then S.elements.length + 1 + j else 0)
      (fun j => decide (S.elements.length + 1 + j < k))) n (S.elements.length + 1)
    (S.withElements n t (fun _ => 0) (fun _ => false)) (by
      congr 1
      · funext j; rw [if_neg (by omega)]
      · funext j; exact (decide_eq_false (by omega)).symm) (by
      rintro k T hk1 hk2 rfl
      have hr : Res.read (S.withElements n t (fun j => if S.elements.length + 1 + j < k then S.elements.length + 1 + j
          else 0) (fun j => decide (S.elements.length + 1 + j < k))).elements (k - 1) =
          .ok (S.next + (k - 1 - S.elements.length)) := by
        rw [Res.read_eq_ok]
        show (S.elements ++ List.range' S.next n)[k - 1]? = _
        rw [List.getElem?_append_right (by omega), List.getElem?_range' (by omega)]
        simp
      unfold Mesh.claim
      rw [hr, Res.ok_bind]
      refine ⟨_, rfl, ?_⟩
      unfold Mesh.withElements
      congr 1
      · funext q
        simp only [fresh]
        by_cases e : q = S.next + (k - 1 - S.elements.length)
        · rw [if_pos e, if_pos (by omega), if_pos (by omega)]; omega
        · rw [if_neg e]
          by_cases e2 : S.next ≤ q ∧ q < S.next + n
          · rw [if_pos e2, if_pos e2]
            by_cases e3 : S.elements.length + 1 + (q - S.next) < k
            · rw [if_pos e3, if_pos (by omega)]
            · rw [if_neg e3, if_neg (by omega)]
          · rw [if_neg e2, if_neg e2]
      · funext q
        simp only [fresh]
        by_cases e : q = S.next + (k - 1 - S.elements.length)
        · rw [if_pos e, if_pos (by omega)]; exact (decide_eq_true (by omega)).symm
        · rw [if_neg e]
          by_cases e2 : S.next ≤ q ∧ q < S.next + n
          · rw [if_pos e2, if_pos e2]
            exact decide_eq_decide.mpr (by omega)
          · rw [if_neg e2, if_neg e2])
  rw [h1, h2]
  congr 1
  unfold Mesh.withElements
  congr 1
  · funext q
    simp only [fresh]
    by_cases e2 : S.next ≤ q ∧ q < S.next + n
    · rw [if_pos e2, if_pos e2, if_pos (by omega)]
    · rw [if_neg e2, if_neg e2]
  · funext q
    simp only [fresh]
    by_cases e2 : S.next ≤ q ∧ q < S.next + n
    · rw [if_pos e2, if_pos e2]; exact decide_eq_true (by omega)
    · rw [if_neg e2, if_neg e2]

/-- `n` elements of class `t` were added and numbered. -/
def Mesh.grown (S : Mesh) (n : Nat) (t : ElementType) : Mesh :=
  S.withElements n t (fun j => S.elements.length + 1 + j) (fun _ => true)

theorem createNodes_eq (S : Mesh) (n : Nat) :
    S.createNodes n = (S.withNodes n, List.range' (S.nodes.length + 1) n) := by
  unfold Mesh.createNodes
  rw [addNodes_eq]
  simp only [Mesh.withNodes, List.length_append, List.length_range']
  congr 2
  omega

theorem factory_eq (S : Mesh) (n : Nat) {t : ElementType} (ht : t ≠ .UNDEFINED) :
    S.factory t n = .ok (S.withElements n t (fun _ => 0) (fun _ => false)) := by
  rw [← pushElements_eq]
  cases t <;> first | exact absurd rfl ht | rfl

theorem withElements_length (S : Mesh) (n : Nat) (t : ElementType) (f : Nat → Nat) (c : Nat → Bool) :
    (S.withElements n t f c).elements.length + 1 - (S.elements.length + 1) = n := by
  simp [Mesh.withElements]

theorem createElements_eq (S : Mesh) (n : Nat) {t : ElementType} (ht : t ≠ .UNDEFINED) :
    S.createElements n t = .ok (S.grown n t, List.range' (S.elements.length + 1) n) := by
  unfold Mesh.createElements
  simp only [factory_eq S n ht, Res.ok_bind, withElements_length, claims_eq]
  rfl

theorem createElementsLike_eq (S : Mesh) (n : Nat) (t : ElementType) :
    S.createElementsLike n t = .ok (S.grown n t, List.range' (S.elements.length + 1) n) := by
  unfold Mesh.createElementsLike
  simp only [pushElements_eq, withElements_length, claims_eq, Res.ok_bind]
  rfl

theorem fresh_one {α : Type} (a q : Nat) (x y : α) : (if fresh a 1 q then x else y) = if q = a then x else y := by
  unfold fresh
  by_cases h : q = a
  · rw [if_pos h, if_pos (by omega)]
  · rw [if_neg h, if_neg (by omega)]

theorem addElement_eq (S : Mesh) (t : ElementType) : S.addElement t = S.grown 1 t := by
  simp only [Mesh.addElement, Mesh.newElement, Mesh.new, Mesh.grown, Mesh.withElements, fresh_one]
  congr 1
  · funext q
    by_cases h : q = S.next
    · rw [if_pos h, if_pos h]; omega
    · rw [if_neg h, if_neg h, if_neg h]
  · funext q
    by_cases h : q = S.next
    · rw [if_pos h, if_pos h]
    · rw [if_neg h, if_neg h, if_neg h]

theorem addNode_eq (S : Mesh) : S.addNode = S.withNodes 1 := by
  simp only [Mesh.addNode, Mesh.new, Mesh.withNodes, fresh_one]
  rfl

/-! ## Invariant over all histories -/

/-- All pointers the storage holds. -/
def Mesh.held (S : Mesh) : List Nat := S.elements ++ (S.nodes ++ (S.comps ++ (S.cols ++ S.mpcs)))

/-- No pointer is held twice; all but those in the MPC list are alive; nothing else is; elements know their number. -/
structure Inv (S : Mesh) : Prop where
  nodup : S.held.Nodup
  lt : ∀ q ∈ S.held, q < S.next
  alive : ∀ q ∈ S.held, q ∉ S.mpcs → S.alive q = true
  noLeak : ∀ q, S.alive q = true → q ∈ S.held
  num : ∀ k p, S.elements[k]? = some p → S.elNum p = k + 1 ∧ S.mine p = true

theorem Inv.empty : Inv Mesh.empty := by
  constructor <;> simp [Mesh.empty, Mesh.held]

/-- Adding fresh pointers to the held ones. -/
theorem Inv.grow {S S' : Mesh} (h : Inv S) (n : Nat) (hp : S'.held.Perm (S.held ++ List.range' S.next n))
    (hn : S'.next = S.next + n) (ha : ∀ q, S'.alive q = if fresh S.next n q then true else S.alive q)
    (hm : ∀ q, q ∈ S.held → (q ∈ S'.mpcs ↔ q ∈ S.mpcs))
    (hnum : ∀ k p, S'.elements[k]? = some p → S'.elNum p = k + 1 ∧ S'.mine p = true) : Inv S' := by
  have hin : ∀ q, q ∈ S'.held ↔ q ∈ S.held ∨ fresh S.next n q := by
    intro q
    rw [hp.mem_iff, List.mem_append, List.mem_range'_1]
  refine ⟨?_, ?_, ?_, ?_, hnum⟩
  · rw [hp.nodup_iff]
    refine List.Nodup.append h.nodup List.nodup_range' ?_
    intro q hq hq2
    rw [List.mem_range'_1] at hq2
    have := h.lt q hq
    omega
  · intro q hq
    rw [hn]
    rcases (hin q).mp hq with h1 | h1
    · have := h.lt q h1; omega
    · exact h1.2
  · intro q hq hq2
    rw [ha]
    rcases (hin q).mp hq with h1 | h1
    · split
      · rfl
      · exact h.alive q h1 (fun e => hq2 ((hm q h1).mpr e))
    · rw [if_pos h1]
  · intro q hq
    rw [hin]
    rw [ha] at hq
    split at hq
    · exact Or.inr ‹_›
    · exact Or.inl (h.noLeak q hq)

theorem Inv.old {S : Mesh} (h : Inv S) {q : Nat} (hq : q ∈ S.held) (n : Nat) : ¬ fresh S.next n q := by
  have := h.lt q hq
  unfold fresh
  omega

theorem mem_held_elements {S : Mesh} {q : Nat} (h : q ∈ S.elements) : q ∈ S.held := List.mem_append_left _ h

theorem mem_held_mpcs {S : Mesh} {q : Nat} (h : q ∈ S.mpcs) : q ∈ S.held := by simp [Mesh.held, h]

theorem Inv.withNodes {S : Mesh} (h : Inv S) (n : Nat) : Inv (S.withNodes n) := by
  refine h.grow n ?_ rfl (fun _ => rfl) (fun _ _ => Iff.rfl) h.num
  simp only [Mesh.held, Mesh.withNodes, List.append_assoc]
  refine List.Perm.append_left _ (List.Perm.append_left _ ?_)
  refine (List.perm_append_comm).trans ?_
  simp only [List.append_assoc]
  exact List.Perm.refl _

theorem Inv.grown {S : Mesh} (h : Inv S) (n : Nat) (t : ElementType) : Inv (S.grown n t) := by
  refine h.grow n ?_ rfl (fun _ => rfl) (fun _ _ => Iff.rfl) ?_
  · simp only [Mesh.held, Mesh.grown, Mesh.withElements, List.append_assoc]
    refine List.Perm.append_left _ ?_
    refine (List.perm_append_comm).trans ?_
    simp only [List.append_assoc]
    exact List.Perm.refl _
  · intro k p hp
    simp only [Mesh.grown, Mesh.withElements] at hp ⊢
    rcases Nat.lt_or_ge k S.elements.length with hk | hk
    · rw [List.getElem?_append_left hk] at hp
      have := h.old (mem_held_elements (List.mem_of_getElem? hp)) n
      rw [if_neg this, if_neg this]
      exact h.num k p hp
    · rw [List.getElem?_append_right hk] at hp
      have hlt : k - S.elements.length < n := by
        have := (List.getElem?_eq_some_iff.mp hp).1
        simpa using this
      rw [List.getElem?_range' hlt] at hp
      simp only [Nat.one_mul, Option.some.injEq] at hp
      subst hp
      have : fresh S.next n (S.next + (k - S.elements.length)) := by unfold fresh; omega
      rw [if_pos this, if_pos this]
      exact ⟨by omega, rfl⟩

/-! ### Deletion -/

theorem deleteAll_eq (ps : List Nat) : ∀ S : Mesh, ps.Nodup → (∀ p ∈ ps, S.alive p = true) →
    Res.foldlM' Mesh.delete S ps = .ok { S with alive := fun q => if q ∈ ps then false else S.alive q } := by
  induction ps with
  | nil => intro S _ _; simp
  | cons p ps ih =>
    intro S hn ha
    rw [List.nodup_cons] at hn
    rw [Res.foldlM'_cons]
    unfold Mesh.delete
    rw [if_pos (ha p (by simp)), Res.ok_bind]
    rw [show Res.foldlM' (fun S p => if S.alive p then Res.ok { S with alive := fun q => if q = p then false else S.alive q }
      else .ub) = Res.foldlM' Mesh.delete from rfl]
    rw [ih _ hn.2 (by
      intro q hq
      have : q ≠ p := fun e => hn.1 (e ▸ hq)
      simp only [if_neg this]
      exact ha q (by simp [hq]))]
    congr 2
    funext q
    by_cases e : q = p
    · simp [e]
    · simp [e]

theorem deleteAll_ub (ps : List Nat) : ∀ S : Mesh, (∃ p ∈ ps, S.alive p = false) →
    Res.foldlM' Mesh.delete S ps = .ub := by
  induction ps with
  | nil => rintro S ⟨p, hp, _⟩; simp at hp
  | cons p ps ih =>
    rintro S ⟨p', hp', hd⟩
    rw [Res.foldlM'_cons]
    by_cases ha : S.alive p = true
    · rw [Mesh.delete, if_pos ha, Res.ok_bind]
      refine ih _ ⟨p', ?_, ?_⟩
      · rcases List.mem_cons.mp hp' with e | e
        · subst e; rw [ha] at hd; simp at hd
        · exact e
      · simp only; split
        · rfl
        · exact hd
    · rw [Mesh.delete, if_neg ha, Res.ub_bind]

/-- The effect of `deleteMesh()`, when it returns. -/
def Mesh.cleared (S : Mesh) : Mesh :=
  { S with alive := fun _ => false, nodes := [], elements := [], comps := [], topology := [] }

/-- `deleteMesh()` returns exactly when there is no collection and no MPC was freed before. -/
theorem deleteMesh_eq {S : Mesh} (h : Inv S) :
    S.deleteMesh = if S.cols = [] ∧ ∀ p ∈ S.mpcs, S.alive p = true then .ok S.cleared else .ub := by
  have hnd := h.nodup
  unfold Mesh.held at hnd
  rw [List.nodup_append'] at hnd
  obtain ⟨n1, hnd, d1⟩ := hnd
  rw [List.nodup_append'] at hnd
  obtain ⟨n2, hnd, d2⟩ := hnd
  rw [List.nodup_append'] at hnd
  obtain ⟨n3, hnd, d3⟩ := hnd
  rw [List.nodup_append'] at hnd
  obtain ⟨n4, n5, d4⟩ := hnd
  have ae : ∀ p ∈ S.elements, S.alive p = true := fun p hp => h.alive p (mem_held_elements hp)
    (fun e => d1 hp (by simp [e]))
  have an : ∀ p ∈ S.nodes, S.alive p = true := fun p hp => h.alive p (by simp [Mesh.held, hp]) (fun e => d2 hp (by simp [e]))
  have ac : ∀ p ∈ S.comps, S.alive p = true := fun p hp => h.alive p (by simp [Mesh.held, hp]) (fun e => d3 hp (by simp [e]))
  unfold Mesh.deleteMesh Mesh.deleteElements
  rw [deleteAll_eq _ _ n1 ae]
  simp only [Res.ok_bind]
  unfold Mesh.deleteNodes
  simp only
  rw [deleteAll_eq _ _ n2 (by
    intro p hp
    have : p ∉ S.elements := fun e => d1 e (by simp [hp])
    simp only [if_neg this]
    exact an p hp)]
  simp only [Res.ok_bind]
  unfold Mesh.deleteMpcs
  simp only
  by_cases hm : ∀ p ∈ S.mpcs, S.alive p = true
  · rw [deleteAll_eq _ _ n5 (by
      intro p hp
      have e1 : p ∉ S.elements := fun e => d1 e (by simp [hp])
      have e2 : p ∉ S.nodes := fun e => d2 e (by simp [hp])
      simp only [if_neg e1, if_neg e2]
      exact hm p hp)]
    simp only [Res.ok_bind]
    unfold Mesh.deleteMpcCollections
    simp only
    by_cases hc : S.cols = []
    · rw [if_pos hc, if_pos ⟨hc, hm⟩, Res.ok_bind]
      unfold Mesh.deleteFeComponents
      simp only
      rw [deleteAll_eq _ _ n3 (by
        intro p hp
        have e1 : p ∉ S.elements := fun e => d1 e (by simp [hp])
        have e2 : p ∉ S.nodes := fun e => d2 e (by simp [hp])
        have e3 : p ∉ S.mpcs := fun e => d3 hp (by simp [e])
        simp only [if_neg e1, if_neg e2, if_neg e3]
        exact ac p hp)]
      simp only [Res.ok_bind]
      unfold Mesh.cleared
      congr 2
      funext q
      by_cases e3 : q ∈ S.comps
      · rw [if_pos e3]
      rw [if_neg e3]
      by_cases e5 : q ∈ S.mpcs
      · rw [if_pos e5]
      rw [if_neg e5]
      by_cases e2 : q ∈ S.nodes
      · rw [if_pos e2]
      rw [if_neg e2]
      by_cases e1 : q ∈ S.elements
      · rw [if_pos e1]
      rw [if_neg e1]
      rw [Bool.eq_false_iff]
      intro e
      have := h.noLeak q e
      simp [Mesh.held, hc, e1, e2, e3, e5] at this
    · rw [if_neg hc, if_neg (fun e => hc e.1), Res.ub_bind]
  · rw [if_neg (fun e => hm e.2), deleteAll_ub, Res.ub_bind]
    have hm' : ∃ p, p ∈ S.mpcs ∧ ¬ S.alive p = true := by
      by_contra hno
      exact hm (fun p hp => by
        by_contra e
        exact hno ⟨p, hp, e⟩)
    obtain ⟨p, hp, hd⟩ := hm'
    refine ⟨p, hp, ?_⟩
    simp only
    split
    · rfl
    · split
      · rfl
      · exact Bool.eq_false_iff.mpr hd

theorem Inv.cleared {S : Mesh} (h : Inv S) (hc : S.cols = []) : Inv S.cleared := by
  have hnd := h.nodup
  have hl := h.lt
  unfold Mesh.held at hnd hl
  rw [hc] at hnd hl
  constructor
  · simp only [Mesh.held, Mesh.cleared, hc, List.nil_append]
    rw [← List.append_assoc, ← List.append_assoc] at hnd
    exact (List.nodup_append'.mp hnd).2.1
  · intro q hq
    simp only [Mesh.held, Mesh.cleared, hc, List.nil_append] at hq
    exact hl q (by simp [hq])
  · intro q hq hq2
    simp only [Mesh.held, Mesh.cleared, hc, List.nil_append] at hq hq2
    exact absurd hq hq2
  · intro q hq; simp [Mesh.cleared] at hq
  · intro k p hp; simp [Mesh.cleared] at hp

theorem Inv.call {S S' : Mesh} (h : Inv S) (c : Call) (hc : S.call c = .ok S') : Inv S' := by
  cases c with
  | addNode => simp only [Mesh.call, Res.ok.injEq] at hc; rw [← hc, addNode_eq]; exact h.withNodes 1
  | createNodes n => simp only [Mesh.call, Res.ok.injEq, createNodes_eq] at hc; rw [← hc]; exact h.withNodes n
  | addElement t => simp only [Mesh.call, Res.ok.injEq] at hc; rw [← hc, addElement_eq]; exact h.grown 1 t
  | createElements n t =>
    by_cases ht : t = .UNDEFINED
    · subst ht; simp [Mesh.call, Mesh.createElements, Mesh.factory] at hc
    · simp only [Mesh.call, createElements_eq S n ht, Res.ok_bind, Res.ok.injEq] at hc
      rw [← hc]; exact h.grown n t
  | createElementsLike n t =>
    simp only [Mesh.call, createElementsLike_eq, Res.ok_bind, Res.ok.injEq] at hc
    rw [← hc]; exact h.grown n t
  | addMpc =>
    simp only [Mesh.call, Res.ok.injEq] at hc
    subst hc
    refine h.grow 1 ?_ rfl (fun q => by rw [fresh_one]; rfl) ?_ h.num
    · simp [Mesh.held, Mesh.addMpc, Mesh.new]
    · intro q hq
      have := h.lt q hq
      simp [Mesh.addMpc, Mesh.new]
      omega
  | addMpcCollection =>
    simp only [Mesh.call, Res.ok.injEq] at hc
    subst hc
    refine h.grow 1 ?_ rfl (fun q => by rw [fresh_one]; rfl) (fun _ _ => Iff.rfl) h.num
    simp only [Mesh.held, Mesh.addMpcCollection, Mesh.new, List.append_assoc]
    refine List.Perm.append_left _ (List.Perm.append_left _ (List.Perm.append_left _ (List.Perm.append_left _ ?_)))
    exact List.perm_append_comm
  | addFEComponent =>
    simp only [Mesh.call, Res.ok.injEq] at hc
    subst hc
    refine h.grow 1 ?_ rfl (fun q => by rw [fresh_one]; rfl) (fun _ _ => Iff.rfl) h.num
    simp only [Mesh.held, Mesh.addFEComponent, Mesh.new, List.append_assoc]
    refine List.Perm.append_left _ (List.Perm.append_left _ (List.Perm.append_left _ ?_))
    refine (List.perm_append_comm).trans ?_
    simp only [List.append_assoc]
    exact List.Perm.refl _
  | setMaterial =>
    simp only [Mesh.call, Res.ok.injEq] at hc
    subst hc
    exact ⟨h.nodup, h.lt, h.alive, h.noLeak, h.num⟩
  | deleteMesh =>
    simp only [Mesh.call, deleteMesh_eq h] at hc
    split at hc
    · rw [Res.ok.injEq] at hc
      rw [← hc]
      exact h.cleared (‹S.cols = [] ∧ _›).1
    · simp at hc

/-- States a program can reach. -/
inductive Reach : Mesh → Prop where
  | empty : Reach Mesh.empty
  | call {S S' : Mesh} (c : Call) : Reach S → S.call c = .ok S' → Reach S'

theorem Reach.inv {S : Mesh} (h : Reach S) : Inv S := by
  induction h with
  | empty => exact Inv.empty
  | call c _ hc ih => exact ih.call c hc

/-! ## C28 -/

/-- C28. In every state a program can reach, element number `k` (from one) is at position `k`, belongs to the storage and
is alive; nodes are alive; no object is there twice. -/
theorem C28_numbers {S : Mesh} (h : Reach S) :
    (∀ k p, S.elements[k]? = some p → S.elNum p = k + 1 ∧ S.mine p = true ∧ S.alive p = true) ∧
    (∀ p ∈ S.nodes, S.alive p = true) ∧ (S.elements ++ S.nodes).Nodup := by
  have hi := h.inv
  have hnd := hi.nodup
  unfold Mesh.held at hnd
  have hnd2 := hnd
  rw [List.nodup_append'] at hnd
  obtain ⟨n1, hnd, d1⟩ := hnd
  rw [List.nodup_append'] at hnd
  obtain ⟨n2, hnd, d2⟩ := hnd
  refine ⟨fun k p hp => ?_, fun p hp => ?_, ?_⟩
  · obtain ⟨h1, h2⟩ := hi.num k p hp
    have hm := List.mem_of_getElem? hp
    exact ⟨h1, h2, hi.alive p (mem_held_elements hm) (fun e => d1 hm (by simp [e]))⟩
  · exact hi.alive p (by simp [Mesh.held, hp]) (fun e => d2 hp (by simp [e]))
  · rw [← List.append_assoc] at hnd2
    exact (List.nodup_append'.mp hnd2).1

/-- C28. `createNodes(n)` adds `n` new nodes behind the old ones and returns their numbers. -/
theorem C28_createNodes {S : Mesh} (h : Reach S) (n : Nat) :
    ∃ S' new, S.createNodes n = (S', List.range' (S.nodes.length + 1) n) ∧ Reach S' ∧ new.length = n ∧
      S'.nodes = S.nodes ++ new ∧ (∀ p ∈ new, p ∉ S.held) ∧ S'.elements = S.elements ∧ S'.elNum = S.elNum := by
  refine ⟨S.withNodes n, List.range' S.next n, createNodes_eq S n, ?_, by simp, rfl, ?_, rfl, rfl⟩
  · exact Reach.call (.createNodes n) h (by rw [Mesh.call, createNodes_eq])
  · intro p hp hq
    have := h.inv.lt p hq
    rw [List.mem_range'_1] at hp
    omega

/-- C28. `createElements(n, type)` adds `n` new elements of that type behind the old ones and returns their numbers; an
undefined type is a fatal error. -/
theorem C28_createElements {S : Mesh} (h : Reach S) (n : Nat) (t : ElementType) :
    (t = .UNDEFINED → S.createElements n t = .fatal) ∧
    (t ≠ .UNDEFINED → ∃ S' new, S.createElements n t = .ok (S', List.range' (S.elements.length + 1) n) ∧ Reach S' ∧
      new.length = n ∧ S'.elements = S.elements ++ new ∧ (∀ p ∈ new, p ∉ S.held ∧ S'.type p = t) ∧ S'.nodes = S.nodes ∧
      ∀ p ∈ S.elements, S'.type p = S.type p) := by
  refine ⟨fun e => by subst e; rfl, fun ht => ?_⟩
  refine ⟨S.grown n t, List.range' S.next n, createElements_eq S n ht, ?_, by simp, rfl, ?_, rfl, ?_⟩
  · exact Reach.call (.createElements n t) h (by rw [Mesh.call, createElements_eq S n ht]; rfl)
  · intro p hp
    rw [List.mem_range'_1] at hp
    refine ⟨fun hq => ?_, ?_⟩
    · have := h.inv.lt p hq
      omega
    · exact if_pos hp
  · intro p hp
    exact if_neg (h.inv.old (mem_held_elements hp) n)

/-- C28, the template version. -/
theorem C28_createElementsLike {S : Mesh} (h : Reach S) (n : Nat) (t : ElementType) :
    ∃ S' new, S.createElementsLike n t = .ok (S', List.range' (S.elements.length + 1) n) ∧ Reach S' ∧
      new.length = n ∧ S'.elements = S.elements ++ new ∧ (∀ p ∈ new, p ∉ S.held ∧ S'.type p = t) ∧ S'.nodes = S.nodes ∧
      ∀ p ∈ S.elements, S'.type p = S.type p := by
  refine ⟨S.grown n t, List.range' S.next n, createElementsLike_eq S n t, ?_, by simp, rfl, ?_, rfl, ?_⟩
  · exact Reach.call (.createElementsLike n t) h (by rw [Mesh.call, createElementsLike_eq]; rfl)
  · intro p hp
    rw [List.mem_range'_1] at hp
    refine ⟨fun hq => ?_, ?_⟩
    · have := h.inv.lt p hq
      omega
    · exact if_pos hp
  · intro p hp
    exact if_neg (h.inv.old (mem_held_elements hp) n)

/-- C28. `addNode` and `addElement` put the object behind the others. -/
theorem C28_add {S : Mesh} (h : Reach S) (t : ElementType) :
    Reach S.addNode ∧ Reach (S.addElement t) ∧ S.addNode.nodes = S.nodes ++ [S.next] ∧ S.addNode.elements = S.elements ∧
    (S.addElement t).elements = S.elements ++ [S.next] ∧ (S.addElement t).nodes = S.nodes ∧ S.next ∉ S.held ∧
    (S.addElement t).type S.next = t := by
  refine ⟨h.call .addNode rfl, h.call (.addElement t) rfl, rfl, rfl, rfl, rfl, ?_, ?_⟩
  · intro e
    have := h.inv.lt _ e
    omega
  · simp [Mesh.addElement, Mesh.newElement]

/-- A reachable state with nodes and elements. -/
theorem reach_example : ∃ S, Reach S ∧ S.nodes = [0, 1, 2, 3, 7] ∧ S.elements = [4, 5, 6, 8] ∧ S.elNum 8 = 4 ∧
    S.type 5 = .TETRA0 ∧ S.type 8 = .TRUSS3 := by
  let S1 := Mesh.empty.withNodes 4
  let S2 := S1.grown 3 .TETRA0
  let S3 := S2.addNode
  refine ⟨S3.addElement .TRUSS3, Reach.call (.addElement .TRUSS3) (Reach.call (S := S2) .addNode
    (Reach.call (S := S1) (.createElements 3 .TETRA0) (Reach.call (.createNodes 4) .empty ?_) ?_) rfl) rfl, ?_⟩
  · rw [Mesh.call, createNodes_eq]
  · rw [Mesh.call, createElements_eq _ _ (by decide)]; rfl
  · refine ⟨rfl, rfl, rfl, rfl, rfl⟩

/-! ## C63 -/

/-- C63, first part: a storage without MPCs, MPC collections and material can be cleared: everything it held is freed
exactly once and nothing stays alive, all containers are empty, it can be used further, and clearing again or destroying
is harmless. The full property asks this for all contents; see the violations below. -/
theorem C63_partial {S : Mesh} (h : Reach S) (h1 : S.mpcs = []) (h2 : S.cols = []) :
    ∃ S', S.deleteMesh = .ok S' ∧ Reach S' ∧ S'.nodes = [] ∧ S'.elements = [] ∧ S'.mpcs = [] ∧ S'.cols = [] ∧
      S'.comps = [] ∧ S'.topology = [] ∧ (∀ q, S'.alive q = false) ∧ S'.deleteMesh = .ok S' ∧
      (S.material = false → S'.destruct = .ok S') := by
  have e : S.deleteMesh = .ok S.cleared := by
    rw [deleteMesh_eq h.inv, if_pos ⟨h2, by rw [h1]; simp⟩]
  have hr : Reach S.cleared := Reach.call .deleteMesh h e
  have e2 : S.cleared.deleteMesh = .ok S.cleared := by
    rw [deleteMesh_eq hr.inv, if_pos ⟨h2, by simp only [Mesh.cleared]; rw [h1]; simp⟩]
    rfl
  refine ⟨S.cleared, e, hr, rfl, rfl, h1, h2, rfl, rfl, fun _ => rfl, e2, fun hm => ?_⟩
  rw [Mesh.destruct, if_neg (by simp [Mesh.cleared, hm]), e2]

/-- C63, violation: with an MPC in the storage `deleteMesh()` leaves dangling pointers in the list, and the next
`deleteMesh()`, or the destructor, frees them again. -/
theorem C63_mpcs_violated {S S' : Mesh} (h : Reach S) (hm : S.mpcs ≠ []) (hd : S.deleteMesh = .ok S') :
    S'.mpcs = S.mpcs ∧ (∀ p ∈ S'.mpcs, S'.alive p = false) ∧ S'.deleteMesh = .ub ∧ S'.destruct = .ub := by
  have hr : Reach S' := Reach.call .deleteMesh h hd
  rw [deleteMesh_eq h.inv] at hd
  split at hd
  · rw [Res.ok.injEq] at hd
    have hu : S'.deleteMesh = .ub := by
      rw [deleteMesh_eq hr.inv, if_neg]
      rintro ⟨_, ha⟩
      obtain ⟨p, hp⟩ := List.exists_mem_of_ne_nil _ hm
      have := ha p (by rw [← hd]; exact hp)
      rw [← hd] at this
      simp [Mesh.cleared] at this
    refine ⟨by rw [← hd]; rfl, fun p _ => by rw [← hd]; rfl, hu, ?_⟩
    rw [Mesh.destruct]
    split
    · rfl
    · exact hu
  · simp at hd

/-- C63, violation: an MPC collection (rigid body) or a material is deleted through a base class whose destructor is not
virtual. -/
theorem C63_collections_violated {S : Mesh} (h : Reach S) (hc : S.cols ≠ []) : S.deleteMesh = .ub := by
  rw [deleteMesh_eq h.inv, if_neg (fun e => hc e.1)]

theorem C63_material_violated {S : Mesh} (hm : S.material = true) : S.destruct = .ub := by rw [Mesh.destruct, if_pos hm]

/-- The hypotheses of the violation are met: one MPC, cleared once. -/
example : Reach Mesh.empty.addMpc ∧ Mesh.empty.addMpc.mpcs ≠ [] ∧ ∃ S', Mesh.empty.addMpc.deleteMesh = .ok S' := by
  refine ⟨Reach.call .addMpc .empty rfl, by decide, ?_⟩
  rw [deleteMesh_eq (Reach.call .addMpc .empty rfl).inv, if_pos (by decide)]
  exact ⟨_, rfl⟩

/-- The hypotheses of `C63_partial` are met: nodes, elements and a component. -/
example : ∃ S, Reach S ∧ S.mpcs = [] ∧ S.cols = [] ∧ S.nodes ≠ [] ∧ S.elements ≠ [] ∧ S.comps ≠ [] :=
  ⟨_, Reach.call .addFEComponent (Reach.call (.addElement .QUADTH) (Reach.call .addNode .empty rfl) rfl) rfl, rfl, rfl,
    by decide, by decide, by decide⟩

end Nla3d.Mesh
