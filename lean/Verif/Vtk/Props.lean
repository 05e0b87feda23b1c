import Verif.Vtk.Read
import Verif.Post.Props

/-!
# C60: the VTK file

The file is read by the reader of `Verif/Vtk/Reader.lean`.
-/

namespace Nla3d.Vtk

open Nla3d.Dof Nla3d.Storage Nla3d.Labels Nla3d.Post

variable {K : Type}

/-! ## Specification -/

/-- A model built with the factory: every element has the shape and the number of nodes of its type, nodes exist. -/
structure Legal (V : View K) (A : Side → Spec) : Prop where
  solved : Solved V.S A
  nodes : V.pos.length = V.S.nNodes
  elems : V.S.elements = V.elems.map Elem.nodes
  shape : ∀ e ∈ V.elems, factoryShape e.type = .ok e.shape
  count : ∀ e ∈ V.elems, nNodesOf e.shape = .ok e.nodes.length
  mesh : ∀ e ∈ V.elems, ∀ n ∈ e.nodes, 0 < n ∧ n ≤ V.S.nNodes

/-- Requests the code accepts: proper DoF types, codes between `UNDEF` and `LAST`. -/
structure LegalProc (P : Proc) : Prop where
  nodal : DofType.UNDEFINED ∉ P.nodal
  elemental : DofType.UNDEFINED ∉ P.elemental
  scalar : ∀ q ∈ P.scalarQ, q ∈ scalarCodes
  vector : ∀ q ∈ P.vectorQ, q ∈ vectorCodes
  tensor : ∀ q ∈ P.tensorQ, q ∈ tensorCodes

/-- VTK cell type of an element type (VTK_LINE 3, VTK_QUAD 9, VTK_HEXAHEDRON 12, VTK_TETRA 10, VTK_TRIANGLE 5,
VTK_POLY_VERTEX 2, VTK_WEDGE 13). -/
def cellType : ElementType → Nat
  | .TRUSS3 => 3 | .PLANE41 => 9 | .SOLID81 => 12 | .TETRA0 => 10 | .TETRA1 => 10 | .QUADTH => 9 | .SurfaceLINETH => 3
  | .TRIANGLE4 => 5 | .INTER0 => 2 | .INTER3 => 13 | .UNDEFINED => 0

/-- The values of a DoF at the entities `1 … n`; 0 where it is not used. -/
def field [Zero K] (a : Spec) (v : List K) (n : Nat) (t : DofType) : List K := (from1 n).map (fun k => rowOf a v k t)

/-- The vectors (UX, UY, UZ) at the nodes `1 … n`. -/
def field3 [Zero K] (a : Spec) (v : List K) (n : Nat) : List (Pt K) :=
  (from1 n).map (fun k => ⟨rowOf a v k .UX, rowOf a v k .UY, rowOf a v k .UZ⟩)

/-- Arrays of the points. -/
def specPoint [Zero K] (V : View K) (A : Side → Spec) (P : Proc) : List (String × Arr K) :=
  (if P.useDisp then [("disp", .vectors (field3 (A .node) V.S.vecU V.S.nNodes)),
    ("reaction", .vectors (field3 (A .node) V.S.vecR V.S.nNodes))] else []) ++
  P.nodal.map (fun t => (dofTypeLabels.getD (dofToNat t) "", .scalars (field (A .node) V.S.vecU V.S.nNodes t)))

/-- Component `j` of a tensor field. -/
def component [Zero K] (V : View K) (q : Nat) (j : Fin 6) : List K :=
  (List.range V.elems.length).map (fun i => ((V.ask.tensor i q).map (fun d => d j)).getD 0)

/-- Arrays of the cells: element DoFs, then the answers of the elements, 0 where an element does not know the query. -/
def specCell [Zero K] (V : View K) (A : Side → Spec) (P : Proc) : List (String × Arr K) :=
  P.elemental.map (fun t => (dofTypeLabels.getD (dofToNat t) "", .scalars (field (A .elem) V.S.vecU V.elems.length t))) ++
  P.scalarQ.map (fun q => (scalarLabels.getD q "",
    .scalars ((List.range V.elems.length).map (fun i => (V.ask.scalar i q).getD 0)))) ++
  P.vectorQ.map (fun q => (vectorLabels.getD q "",
    .vectors ((List.range V.elems.length).map (fun i => (V.ask.vector i q).getD ⟨0, 0, 0⟩)))) ++
  P.tensorQ.flatMap (fun q => (List.finRange 6).map (fun j =>
    (tensorLabels.getD q "" ++ "_" ++ componentLabels.getD j.val "", .scalars (component V q j))))

/-! ## Pieces of the file -/

theorem collect_eq {α β : Type} (f : α → Res β) (g : α → β) : ∀ l : List α, (∀ a ∈ l, f a = .ok (g a)) →
    collect f l = .ok (l.map g) := by
  intro l
  induction l with
  | nil => intro _; rfl
  | cons a l ih =>
    intro h
    unfold collect
    rw [h a (by simp), Res.ok_bind, ih (fun b hb => h b (by simp [hb])), Res.ok_bind]
    rfl

theorem mem_from1 {n k : Nat} : k ∈ from1 n ↔ 0 < k ∧ k ≤ n := by
  unfold from1
  rw [List.mem_map]
  constructor
  · rintro ⟨i, hi, rfl⟩
    rw [List.mem_range] at hi
    omega
  · intro h
    exact ⟨k - 1, by rw [List.mem_range]; omega, by omega⟩

theorem length_from1 (n : Nat) : (from1 n).length = n := by simp [from1]

theorem from1_map_get {α : Type} (l : List α) (d : α) : (from1 l.length).map (fun n => l.getD (n - 1) d) = l := by
  apply List.ext_getElem
  · simp [from1]
  · intro i h1 h2
    simp [from1, List.getD_eq_getElem?_getD, h2]

theorem valueOr0_eq [Zero K] {S : Storage K} {A : Side → Spec} (h : Solved S A) {s : Side} {n : Nat}
    (hn : 0 < n ∧ n ≤ S.size s) (t : DofType) : valueOr0 S s t n = .ok (rowOf (A s) S.vecU n t) := by
  unfold valueOr0
  rw [isUsed_eq h.sim hn, Res.ok_bind]
  cases ha : A s n t with
  | none => simp [rowOf, ha]
  | some p =>
    simp only [Option.isSome_some, if_true]
    exact solution_eq h (by rw [ha]; rfl)

theorem label_eq {t : DofType} (h : t ≠ .UNDEFINED) : dofType2label t = .ok (dofTypeLabels.getD (dofToNat t) "") := by
  cases t <;> first | rfl | exact absurd rfl h

theorem dofField_eq [Zero K] {S : Storage K} {A : Side → Spec} (h : Solved S A) (s : Side) {t : DofType}
    (ht : t ≠ .UNDEFINED) :
    dofField S s (S.size s) t = .ok (scalarLines (dofTypeLabels.getD (dofToNat t) "") (field (A s) S.vecU (S.size s) t)) := by
  unfold dofField
  rw [collect_eq (valueOr0 S s t) (fun n => rowOf (A s) S.vecU n t) _ (fun n hn =>
    valueOr0_eq h (mem_from1.mp hn) t), Res.ok_bind, label_eq ht, Res.ok_bind]
  rfl

theorem positions_eq [AddMonoid K] {V : View K} {A : Side → Spec} (h : Legal V A) :
    collect (fun n => nodePosition V.S V.pos n false) (from1 V.pos.length) = .ok V.pos := by
  cases hp : V.pos with
  | nil => rfl
  | cons p ps =>
    rw [← hp]
    rw [collect_eq _ (fun n => V.pos.getD (n - 1) p)]
    · rw [from1_map_get]
    · intro n hn
      have hr := mem_from1.mp hn
      refine (C73_position h.solved V.pos h.nodes n (by rw [← h.nodes]; exact hr) _ ?_).1
      rw [List.getD_eq_getElem?_getD, List.getElem?_eq_getElem (by omega)]
      rfl

theorem dataSize_eq : ∀ es : List Elem, (∀ e ∈ es, nNodesOf e.shape = .ok e.nodes.length) →
    dataSize es = .ok (cellInts (es.map (fun e => e.nodes.map (· - 1)))).length := by
  intro es
  induction es with
  | nil => intro _; rfl
  | cons e es ih =>
    intro h
    unfold dataSize
    rw [h e (by simp), Res.ok_bind, ih (fun b hb => h b (by simp [hb])), Res.ok_bind]
    simp [cellInts]
    omega

theorem readAll (l : List Nat) : collect (fun j => Res.read l j) (List.range l.length) = .ok l := by
  rw [collect_eq _ (fun j => l.getD j 0)]
  · congr 1
    apply List.ext_getElem
    · simp
    · intro i h1 h2
      simp [List.getD_eq_getElem?_getD, h2]
  · intro j hj
    rw [List.mem_range] at hj
    rw [Res.read_of_lt hj]
    simp [List.getD_eq_getElem?_getD, hj]

theorem cellLine_eq {e : Elem} (h : nNodesOf e.shape = .ok e.nodes.length) (hn : ∀ n ∈ e.nodes, 0 < n) :
    (cellLine e : Res (List (Tok K))) = .ok ((e.nodes.length :: e.nodes.map (· - 1)).map Tok.i) := by
  unfold cellLine
  rw [h, Res.ok_bind, readAll, Res.ok_bind, List.map_cons, List.map_map]
  congr 2
  apply List.map_congr_left
  intro n hh
  have := hn n hh
  simp [pred32]
  omega

theorem typeLine_eq {e : Elem} (h : factoryShape e.type = .ok e.shape) :
    (typeLine e : List (List (Tok K))) = [[.i (cellType e.type)]] := by
  obtain ⟨t, s, ns⟩ := e
  cases t <;> simp only [factoryShape, Res.ok.injEq, reduceCtorEq] at h <;> subst h <;> rfl

theorem size_agrees {e : Elem} (h : factoryShape e.type = .ok e.shape) (hc : nNodesOf e.shape = .ok e.nodes.length) :
    agrees (e.nodes.map (· - 1)) (cellType e.type) = true := by
  obtain ⟨t, s, ns⟩ := e
  cases t <;> simp only [factoryShape, Res.ok.injEq, reduceCtorEq] at h <;> subst h <;>
    simp [nNodesOf, Res.read, shapeNNodes, Shape.toNat] at hc <;> simp [agrees, sizeOfType, cellType, ← hc]

theorem geometry_eq [AddMonoid K] {V : View K} {A : Side → Spec} (h : Legal V A) :
    ∃ g, geometry V false = .ok g ∧ g.flatten = .w "POINTS" :: .i V.pos.length :: .w "float" :: (ptToks V.pos ++
      (.w "CELLS" :: .i V.elems.length :: .i (cellInts (V.elems.map (fun e => e.nodes.map (· - 1)))).length ::
        ((cellInts (V.elems.map (fun e => e.nodes.map (· - 1)))).map Tok.i ++
          (.w "CELL_TYPES" :: .i V.elems.length :: (V.elems.map (fun e => cellType e.type)).map Tok.i)))) := by
  unfold geometry
  rw [positions_eq h, Res.ok_bind, dataSize_eq _ h.count, Res.ok_bind,
    collect_eq cellLine (fun e => (e.nodes.length :: e.nodes.map (· - 1)).map Tok.i) _ (fun e he =>
      cellLine_eq (h.count e he) (fun n hn => (h.mesh e he n hn).1)), Res.ok_bind]
  refine ⟨_, rfl, ?_⟩
  have h1 : ∀ es : List Elem, (es.map (fun e => (e.nodes.length :: e.nodes.map (· - 1)).map (Tok.i (K := K)))).flatten =
      (cellInts (es.map (fun e => e.nodes.map (· - 1)))).map Tok.i := by
    intro es
    induction es with
    | nil => rfl
    | cons e es ih => rw [List.map_cons, List.flatten_cons, ih]; simp [cellInts]
  have h2 : ∀ es : List Elem, (∀ e ∈ es, factoryShape e.type = .ok e.shape) →
      (es.flatMap (typeLine (K := K))).flatten = (es.map (fun e => cellType e.type)).map Tok.i := by
    intro es
    induction es with
    | nil => intro _; rfl
    | cons e es ih =>
      intro he
      rw [List.flatMap_cons, List.flatten_append, ih (fun b hb => he b (by simp [hb])), typeLine_eq (he e (by simp))]
      rfl
  rw [List.flatten_append, List.flatten_append, List.flatten_cons, List.flatten_cons, List.flatten_cons, h1, h2 _ h.shape]
  simp [ptToks]

theorem pointData_eq [Zero K] {V : View K} {A : Side → Spec} (h : Legal V A) {P : Proc} (hP : LegalProc P) :
    ∃ g, pointData V P = .ok g ∧
      g.flatten = .w "POINT_DATA" :: .i V.pos.length :: (specPoint V A P).flatMap arrToks := by
  have hnn : V.pos.length = V.S.size .node := h.nodes
  have hu : collect (dispOf V.S) (from1 V.pos.length) = .ok (field3 (A .node) V.S.vecU V.S.nNodes) := by
    rw [hnn, collect_eq _ (fun k => (⟨rowOf (A .node) V.S.vecU k .UX, rowOf (A .node) V.S.vecU k .UY,
      rowOf (A .node) V.S.vecU k .UZ⟩ : Pt K))]
    · rfl
    · intro n hn
      have hr := mem_from1.mp hn
      unfold dispOf
      rw [valueOr0_eq h.solved hr, Res.ok_bind, valueOr0_eq h.solved hr, Res.ok_bind, valueOr0_eq h.solved hr, Res.ok_bind]
  have hr : collect (reactionOf V.S) (from1 V.pos.length) = .ok (field3 (A .node) V.S.vecR V.S.nNodes) := by
    rw [hnn, collect_eq _ (fun k => (⟨rowOf (A .node) V.S.vecR k .UX, rowOf (A .node) V.S.vecR k .UY,
      rowOf (A .node) V.S.vecR k .UZ⟩ : Pt K))]
    · rfl
    · intro n hn
      have hr := mem_from1.mp hn
      unfold reactionOf
      rw [reaction_eq h.solved hr, Res.ok_bind, reaction_eq h.solved hr, Res.ok_bind, reaction_eq h.solved hr, Res.ok_bind]
  have hf : collect (dofField V.S .node V.pos.length) P.nodal = .ok (P.nodal.map (fun t =>
      scalarLines (dofTypeLabels.getD (dofToNat t) "") (field (A .node) V.S.vecU V.S.nNodes t))) := by
    rw [hnn]
    exact collect_eq _ _ _ (fun t ht => dofField_eq h.solved .node (fun e => hP.nodal (e ▸ ht)))
  have hflat : ∀ ts : List DofType, ((ts.map (fun t => scalarLines (dofTypeLabels.getD (dofToNat t) "")
      (field (A .node) V.S.vecU V.S.nNodes t))).flatten).flatten =
      (ts.map (fun t => (dofTypeLabels.getD (dofToNat t) "", Arr.scalars (field (A .node) V.S.vecU V.S.nNodes t)))).flatMap
        arrToks := by
    intro ts
    induction ts with
    | nil => rfl
    | cons t ts ih =>
      rw [List.map_cons, List.flatten_cons, List.flatten_append, ih]
      rfl
  unfold pointData
  dsimp only
  rw [hu, hr, hf]
  cases hd : P.useDisp
  · refine ⟨_, rfl, ?_⟩
    simp only [List.cons_append, List.nil_append, List.flatten_cons]
    rw [hflat]
    simp [specPoint, hd]
  · refine ⟨_, rfl, ?_⟩
    simp only [List.cons_append, List.flatten_cons, List.flatten_append]
    rw [hflat]
    simp [specPoint, hd, arrToks]

theorem flat_lines {α : Type} (f : α → List (List (Tok K))) (g : α → List (String × Arr K)) : ∀ l : List α,
    (∀ a ∈ l, (f a).flatten = (g a).flatMap arrToks) → ((l.map f).flatten).flatten = (l.flatMap g).flatMap arrToks := by
  intro l
  induction l with
  | nil => intro _; rfl
  | cons a l ih =>
    intro h
    rw [List.map_cons, List.flatten_cons, List.flatten_append, ih (fun b hb => h b (by simp [hb])), h a (by simp),
      List.flatMap_cons, List.flatMap_append]

theorem label_read {labels : List String} {q : Nat} (h : q + 1 < labels.length) :
    queryLabel labels q = .ok (labels.getD q "") := by
  unfold queryLabel
  rw [if_pos h, Res.read_of_lt (by omega)]
  rw [List.getD_eq_getElem?_getD, List.getElem?_eq_getElem (by omega)]
  rfl

theorem cellData_eq [AddMonoid K] {V : View K} {A : Side → Spec} (h : Legal V A) {P : Proc} (hP : LegalProc P) :
    ∃ g b, cellData V P = .ok g ∧ (b = false → specCell V A P = []) ∧
      g.flatten = cellToks b V.elems.length (specCell V A P) := by
  have hen : V.elems.length = V.S.size .elem := by
    show _ = V.S.nElements
    unfold Storage.nElements
    rw [h.elems, List.length_map]
  unfold cellData
  by_cases hempty : P.scalarQ = [] ∧ P.vectorQ = [] ∧ P.tensorQ = [] ∧ P.elemental = []
  · rw [if_pos hempty]
    refine ⟨[], false, rfl, ?_, rfl⟩
    intro _
    simp [specCell, hempty.1, hempty.2.1, hempty.2.2.1, hempty.2.2.2]
  · rw [if_neg hempty]
    have e1 : collect (dofField V.S .elem V.elems.length) P.elemental = .ok (P.elemental.map (fun t =>
        scalarLines (dofTypeLabels.getD (dofToNat t) "") (field (A .elem) V.S.vecU V.elems.length t))) := by
      rw [hen]
      exact collect_eq _ _ _ (fun t ht => dofField_eq h.solved .elem (fun e => hP.elemental (e ▸ ht)))
    have e2 : collect (scalarField V) P.scalarQ = .ok (P.scalarQ.map (fun q => scalarLines (scalarLabels.getD q "")
        ((List.range V.elems.length).map (fun i => (V.ask.scalar i q).getD 0)))) := by
      apply collect_eq
      intro q hq
      unfold scalarField
      rw [label_read (by have := hP.scalar q hq; simp [scalarCodes, scalarLabels] at this ⊢; omega), Res.ok_bind]
      congr 2
      apply List.map_congr_left
      intro i _
      cases V.ask.scalar i q <;> simp
    have e3 : collect (vectorField V) P.vectorQ = .ok (P.vectorQ.map (fun q => vectorLines (vectorLabels.getD q "")
        ((List.range V.elems.length).map (fun i => (V.ask.vector i q).getD ⟨0, 0, 0⟩)))) := by
      apply collect_eq
      intro q hq
      unfold vectorField
      rw [label_read (by have := hP.vector q hq; simp [vectorCodes, vectorLabels] at this ⊢; omega), Res.ok_bind]
      congr 2
      apply List.map_congr_left
      intro i _
      cases V.ask.vector i q <;> simp [Pt.zero]
    have e4 : collect (tensorField V) P.tensorQ = .ok (P.tensorQ.map (fun q => tensorLines (tensorLabels.getD q "")
        ((List.range V.elems.length).map (fun i => fun j => ((V.ask.tensor i q).map (fun d => d j)).getD 0)))) := by
      apply collect_eq
      intro q hq
      unfold tensorField
      rw [label_read (by have := hP.tensor q hq; simp [tensorCodes, tensorLabels] at this ⊢; omega), Res.ok_bind]
      congr 2
      apply List.map_congr_left
      intro i _
      cases V.ask.tensor i q <;> simp
    rw [e1, Res.ok_bind, e2, Res.ok_bind, e3, Res.ok_bind, e4, Res.ok_bind]
    refine ⟨_, true, rfl, by simp, ?_⟩
    simp only [List.cons_append, List.flatten_cons, List.flatten_append]
    rw [flat_lines _ (fun t => [(dofTypeLabels.getD (dofToNat t) "",
        Arr.scalars (field (A .elem) V.S.vecU V.elems.length t))]) _ (by intro a _; simp [arrToks]),
      flat_lines _ (fun q => [(scalarLabels.getD q "",
        Arr.scalars ((List.range V.elems.length).map (fun i => (V.ask.scalar i q).getD 0)))]) _
        (by intro a _; simp [arrToks]),
      flat_lines _ (fun q => [(vectorLabels.getD q "",
        Arr.vectors ((List.range V.elems.length).map (fun i => (V.ask.vector i q).getD ⟨0, 0, 0⟩)))]) _
        (by intro a _; simp [arrToks]),
      flat_lines _ (fun q => (List.finRange 6).map (fun j =>
        (tensorLabels.getD q "" ++ "_" ++ componentLabels.getD j.val "", Arr.scalars (component V q j)))) _ (by
        intro q _
        unfold tensorLines
        have : ∀ l : List (Fin 6), (l.flatMap (fun j => scalarLines (tensorLabels.getD q "" ++ "_" ++
            componentLabels.getD j.val "") (((List.range V.elems.length).map (fun i => fun j =>
              ((V.ask.tensor i q).map (fun d => d j)).getD 0)).map (fun d => d j)))).flatten =
            (l.map (fun j => (tensorLabels.getD q "" ++ "_" ++ componentLabels.getD j.val "",
              Arr.scalars (component V q j)))).flatMap arrToks := by
          intro l
          induction l with
          | nil => rfl
          | cons j l ih =>
            rw [List.flatMap_cons, List.flatten_append, ih, List.map_cons, List.flatMap_cons]
            congr 1
            simp only [arrToks, component, List.map_map]
            rfl
        exact this _)]
    simp [cellToks, specCell, List.flatMap_append, List.map_eq_flatMap]

theorem length_field [Zero K] (a : Spec) (v : List K) (n : Nat) (t : DofType) : (field a v n t).length = n := by
  simp [field, length_from1]

theorem length_field3 [Zero K] (a : Spec) (v : List K) (n : Nat) : (field3 a v n).length = n := by
  simp [field3, length_from1]

/-! ## C60 -/

/-- **C60.** The file written for a model built with the factory is accepted by the reader — the header of CELLS announces
exactly the integers that follow, indices are in range, one type per cell, agreeing with its size — and the reader gets
back the model: points, cells with indices from 0, types, the nodal and element fields. -/
theorem C60_roundtrip [AddMonoid K] {V : View K} {A : Side → Spec} (h : Legal V A) {P : Proc} (hP : LegalProc P) :
    ∃ lines, file V P = .ok lines ∧ readVtk lines = some ⟨V.pos, V.elems.map (fun e => e.nodes.map (· - 1)),
      V.elems.map (fun e => cellType e.type), specPoint V A P, specCell V A P⟩ := by
  obtain ⟨g, g1, g2⟩ := geometry_eq h
  obtain ⟨p, p1, p2⟩ := pointData_eq h hP
  obtain ⟨c, b, c1, c2, c3⟩ := cellData_eq h hP
  unfold file
  rw [g1, Res.ok_bind, p1, Res.ok_bind, c1, Res.ok_bind]
  refine ⟨_, rfl, ?_⟩
  have key := readBody_toks V.pos (V.elems.map (fun e => e.nodes.map (· - 1))) (V.elems.map (fun e => cellType e.type))
    (specPoint V A P) (specCell V A P) b c2 (by simp) (by
      intro a ha
      unfold specPoint at ha
      rcases List.mem_append.mp ha with ha | ha
      · split at ha
        · simp at ha
          rcases ha with rfl | rfl <;> simp [arrLen, length_field3, h.nodes]
        · simp at ha
      · rw [List.mem_map] at ha
        obtain ⟨t, _, rfl⟩ := ha
        simp [arrLen, length_field, h.nodes]) (by
      intro a ha
      unfold specCell at ha
      simp only [List.mem_append, List.mem_map, List.mem_flatMap] at ha
      rcases ha with ((⟨t, _, rfl⟩ | ⟨t, _, rfl⟩) | ⟨t, _, rfl⟩) | ⟨t, _, j, _, rfl⟩ <;>
        simp [arrLen, length_field, component]) (by
      intro c hc v hv
      rw [List.mem_map] at hc
      obtain ⟨e, he, rfl⟩ := hc
      rw [List.mem_map] at hv
      obtain ⟨n, hn, rfl⟩ := hv
      have := h.mesh e he n hn
      have := h.nodes
      omega) (by
      intro q hq
      rw [List.zip_map'] at hq
      rw [List.mem_map] at hq
      obtain ⟨e, he, rfl⟩ := hq
      exact size_agrees (h.shape e he) (h.count e he))
  have hflat : (g ++ p ++ c).flatten = .w "POINTS" :: .i V.pos.length :: .w "float" :: (ptToks V.pos ++
      (.w "CELLS" :: .i (V.elems.map (fun e => e.nodes.map (· - 1))).length ::
        .i (cellInts (V.elems.map (fun e => e.nodes.map (· - 1)))).length ::
        ((cellInts (V.elems.map (fun e => e.nodes.map (· - 1)))).map Tok.i ++
        (.w "CELL_TYPES" :: .i (V.elems.map (fun e => e.nodes.map (· - 1))).length ::
          ((V.elems.map (fun e => cellType e.type)).map Tok.i ++
          (.w "POINT_DATA" :: .i V.pos.length :: ((specPoint V A P).flatMap arrToks ++
            cellToks b (V.elems.map (fun e => e.nodes.map (· - 1))).length (specCell V A P)))))))) := by
    rw [List.flatten_append, List.flatten_append, g2, p2, c3, List.length_map]
    simp only [List.cons_append, List.append_assoc]
  rw [← hflat] at key
  have hh : header ++ g ++ p ++ c = header ++ (g ++ p ++ c) := by simp only [List.append_assoc]
  rw [hh]
  exact key

end Nla3d.Vtk
