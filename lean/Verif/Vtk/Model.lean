import Verif.Post.Model

/-!
# Model of `VtkProcessor` and of the element shapes

Sources: `src/lib/VtkProcessor.cpp`, `src/lib/VtkProcessor.h`, `src/lib/elements/element.h`, `src/lib/elements/query.h`,
`src/lib/elements/ElementFactory.cpp`.

Simplifications. A file is a list of lines, a line a list of tokens (the code separates them by one blank; the two comment
lines of the header are one token each). Numbers are written exactly. `uint32`/`uint16` counters do not wrap, except in
`getNodeNumber(j)-1`. What `getScalar`, `getVector`, `getTensor` of an element answer is a parameter (`Ask`). Files can
always be created. Messages are left out.
-/

namespace Nla3d.Vtk

open Nla3d.Dof Nla3d.Storage Nla3d.Labels Nla3d.Post

variable {K : Type}

/-- `enum ElementShape`, element.h:25-41. -/
inductive Shape where
  | VERTEX | TWIN_VERTEX | LINE | TRIANGLE | QUAD | TETRA | HEXAHEDRON | WEDGE | PYRAMID | QUADRARIC_EDGE
  | QUADRATIC_TRIANGLE | QUADRATIC_QUAD | QUADRATIC_TETRA | QUADRARIC_HEXAHEDRON | UNDEFINED
  deriving DecidableEq, Repr

/-- Integer value of an enumerator. element.h:25-41. -/
def Shape.toNat : Shape → Nat
  | .VERTEX => 0 | .TWIN_VERTEX => 1 | .LINE => 2 | .TRIANGLE => 3 | .QUAD => 4 | .TETRA => 5 | .HEXAHEDRON => 6
  | .WEDGE => 7 | .PYRAMID => 8 | .QUADRARIC_EDGE => 9 | .QUADRATIC_TRIANGLE => 10 | .QUADRATIC_QUAD => 11
  | .QUADRATIC_TETRA => 12 | .QUADRARIC_HEXAHEDRON => 13 | .UNDEFINED => 14

/-- `_shape_nnodes`, element.h:63-78. -/
def shapeNNodes : List Nat := [1, 2, 2, 3, 4, 4, 8, 6, 5, 3, 6, 8, 10, 20]

/-- `_shape_dim`, element.h:44-59. -/
def shapeDim : List Nat := [0, 0, 1, 2, 2, 3, 3, 3, 3, 2, 2, 2, 3, 3]

/-- `getNNodes`, element.h:389-391: `_shape_nnodes[shape]`. -/
def nNodesOf (s : Shape) : Res Nat := Res.read shapeNNodes s.toNat

/-- `getDim`, element.h:394-396. -/
def dimOf (s : Shape) : Res Nat := Res.read shapeDim s.toNat

/-- The shape that the constructor run by `ElementFactory::createElements` (ElementFactory.cpp:29-93) gives to an
element: the base classes of element.h:165-273 and isoparametric.h:195-265. -/
def factoryShape : ElementType → Res Shape
  | .TRUSS3 => .ok .LINE
  | .PLANE41 => .ok .QUAD
  | .SOLID81 => .ok .HEXAHEDRON
  | .TETRA0 => .ok .TETRA
  | .TETRA1 => .ok .TETRA
  | .QUADTH => .ok .QUAD
  | .SurfaceLINETH => .ok .LINE
  | .TRIANGLE4 => .ok .TRIANGLE
  | .INTER0 => .ok .TWIN_VERTEX
  | .INTER3 => .ok .WEDGE
  | .UNDEFINED => .fatal

/-- Members `type`, `shape`, `nodes` of `Element`, element.h:155-161. -/
structure Elem where
  type : ElementType
  shape : Shape
  nodes : List Nat
  deriving DecidableEq, Repr

/-- Answers of the elements: `getScalar`, `getVector`, `getTensor` of element `i` (counted from 0) for a query code;
`none` is the return value `false`. A tensor has six components. element.h:118-131. -/
structure Ask (K : Type) where
  scalar : Nat → Nat → Option K
  vector : Nat → Nat → Option (Pt K)
  tensor : Nat → Nat → Option (Fin 6 → K)

/-- `scalarQueryLabels`, query.h:19. -/
def scalarLabels : List String := ["UNDEFINED", "S_P", "W", "WU", "WP", "VOL", "LAST"]

/-- `vectorQueryLabels`, query.h:34. -/
def vectorLabels : List String := ["UNDEFINEDS", "IC", "FLUX", "GRADT", "LAST"]

/-- `tensorQueryLabels`, query.h:55. -/
def tensorLabels : List String := ["UNDEFINED", "COUCHY", "PK2", "E", "C", "TSTRAIN", "LAST"]

/-- `labelsTensorComponent`, solidmech.h:40. -/
def componentLabels : List String := ["XX", "XY", "XZ", "YY", "YZ", "ZZ"]

/-- Values of the codes strictly between `UNDEF` and `LAST`, visited in this order by `revealAllResults`. query.h:9-17. -/
def scalarCodes : List Nat := [1, 2, 3, 4, 5]

/-- The same for vectors. query.h:26-32. -/
def vectorCodes : List Nat := [1, 2, 3]

/-- The same for tensors. query.h:41-53. -/
def tensorCodes : List Nat := [1, 2, 3, 4, 5]

/-- `query2label`, query.h:65-78: assertion `query < LAST`. -/
def queryLabel (labels : List String) (q : Nat) : Res String :=
  if q + 1 < labels.length then Res.read labels q else .assert

/-- A token of the file. Text written by VtkProcessor.cpp:110-305. -/
inductive Tok (K : Type) where
  | w (s : String)
  | i (n : Nat)
  | x (v : K)
  deriving DecidableEq, Repr

/-- Members of `VtkProcessor`, VtkProcessor.h:61-69. Sets are sorted lists. -/
structure Proc where
  useDisp : Bool
  nodal : List DofType
  elemental : List DofType
  scalarQ : List Nat
  vectorQ : List Nat
  tensorQ : List Nat
  writeAll : Bool
  deriving DecidableEq, Repr

/-- What the processor sees: the storage, the positions of the nodes, the elements and their answers. VtkProcessor.cpp:110-305. -/
structure View (K : Type) where
  S : Storage K
  pos : List (Pt K)
  elems : List Elem
  ask : Ask K

/-- One after the other, collecting the results. C++ language: the loops of VtkProcessor.cpp:116-305. -/
def collect {α β : Type} (f : α → Res β) : List α → Res (List β)
  | [] => .ok []
  | a :: as => do
    let b ← f a
    let bs ← collect f as
    .ok (b :: bs)

/-! ## `revealAllResults` -/

/-- The loop over the codes of one kind, VtkProcessor.cpp:324-335, 339-350, 354-365. -/
def revealCodes (answers : Nat → Bool) (codes : List Nat) (set : List Nat) : List Nat :=
  codes.foldl (fun s q => if answers q then setInsert q s else s) set

/-- `revealAllResults`, VtkProcessor.cpp:308-368: only the first element of each type is asked. `i` is the position of
the element, `seen` is `typesRevealed`. -/
def reveal (ask : Ask K) : (i : Nat) → (seen : List ElementType) → List Elem → Proc → Proc
  | _, _, [], P => P
  | i, seen, e :: es, P =>
    if e.type ∈ seen then reveal ask (i + 1) seen es P
    else reveal ask (i + 1) (e.type :: seen) es { P with
      scalarQ := revealCodes (fun q => (ask.scalar i q).isSome) scalarCodes P.scalarQ
      vectorQ := revealCodes (fun q => (ask.vector i q).isSome) vectorCodes P.vectorQ
      tensorQ := revealCodes (fun q => (ask.tensor i q).isSome) tensorCodes P.tensorQ }

/-- UX, UY or UZ, VtkProcessor.cpp:30. -/
def isDisp (t : DofType) : Bool := t = .UX ∨ t = .UY ∨ t = .UZ

/-- The first part of `pre`, VtkProcessor.cpp:20-47. -/
def setUp (V : View K) (P : Proc) : Proc :=
  let ts := V.S.nodeT.uniqueTypes
  let P := { P with
    useDisp := ts.any isDisp
    nodal := ts.filter (fun t => !isDisp t)
    elemental := V.S.elemT.uniqueTypes }
  if P.writeAll then reveal V.ask 0 [] V.elems P else P

/-! ## The file -/

/-- `write_header`, VtkProcessor.cpp:110-114. -/
def header : List (List (Tok K)) :=
  [[.w "# vtk DataFile Version 2.0"], [.w "This file is generated by nla3D program"], [.w "ASCII"],
   [.w "DATASET", .w "UNSTRUCTURED_GRID"]]

/-- `operator<<` of `Vec<3>`, Vec.h:147-153. -/
def ptLine (p : Pt K) : List (Tok K) := [.x p.x, .x p.y, .x p.z]

/-- Numbers 1 … n: the loop `for (uint32 i=1; i <= n; i++)`. VtkProcessor.cpp:119, 139. -/
def from1 (n : Nat) : List Nat := (List.range n).map (· + 1)

/-- `getNodeNumber(j)-1` in `uint32`. VtkProcessor.cpp:144. -/
def pred32 (n : Nat) : Nat := if n = 0 then 4294967295 else n - 1

/-- One line of CELLS, VtkProcessor.cpp:141-145. `getNodeNumber` reads the node array. -/
def cellLine (e : Elem) : Res (List (Tok K)) := do
  let k ← nNodesOf e.shape
  let ns ← collect (fun j => Res.read e.nodes j) (List.range k)
  .ok (.i k :: ns.map (fun n => .i (pred32 n)))

/-- The VTK number of a shape, VtkProcessor.cpp:149-168; for other shapes no line is written. -/
def vtkNumber : Shape → Option Nat
  | .QUAD => some 9
  | .HEXAHEDRON => some 12
  | .TETRA => some 10
  | .TRIANGLE => some 5
  | .LINE => some 3
  | .VERTEX => some 1
  | .TWIN_VERTEX => some 2
  | .WEDGE => some 13
  | _ => none

/-- One line of CELL_TYPES or nothing. VtkProcessor.cpp:149-168. -/
def typeLine (e : Elem) : List (List (Tok K)) :=
  match vtkNumber e.shape with
  | some n => [[.i n]]
  | none => []

/-- `data_size`, VtkProcessor.cpp:134-136. -/
def dataSize : List Elem → Res Nat
  | [] => .ok 0
  | e :: es => do
    let k ← nNodesOf e.shape
    let r ← dataSize es
    .ok (k + 1 + r)

/-- `write_geometry`, VtkProcessor.cpp:116-170. -/
def geometry [Add K] (V : View K) (deformed : Bool) : Res (List (List (Tok K))) := do
  let pts ← collect (fun n => nodePosition V.S V.pos n deformed) (from1 V.pos.length)
  let size ← dataSize V.elems
  let cells ← collect cellLine V.elems
  .ok ([.w "POINTS", .i V.pos.length, .w "float"] :: pts.map ptLine ++
    [.w "CELLS", .i V.elems.length, .i size] :: cells ++
    [.w "CELL_TYPES", .i V.elems.length] :: V.elems.flatMap typeLine)

/-- `writeScalar`, VtkProcessor.cpp:276-283; the last line is empty. -/
def scalarLines (name : String) (data : List K) : List (List (Tok K)) :=
  [.w "SCALARS", .w name, .w "float", .i 1] :: [.w "LOOKUP_TABLE", .w "default"] :: data.map (fun v => [.x v]) ++ [[]]

/-- `writeVector`, VtkProcessor.cpp:298-305. -/
def vectorLines (name : String) (data : List (Pt K)) : List (List (Tok K)) :=
  [.w "VECTORS", .w name, .w "float"] :: data.map ptLine ++ [[]]

/-- `writeTensor`, VtkProcessor.cpp:286-295: six scalar fields. -/
def tensorLines (name : String) (data : List (Fin 6 → K)) : List (List (Tok K)) :=
  (List.finRange 6).flatMap (fun (j : Fin 6) => scalarLines (name ++ "_" ++ componentLabels.getD j.val "") (data.map (fun d => d j)))

/-- `if (isDofUsed(j, t)) data[j-1] = getDofSolution(j, t)`, the initial value is 0: VtkProcessor.cpp:181-189,
205-208, 236-238. -/
def valueOr0 [Zero K] (S : Storage K) (s : Side) (t : DofType) (n : Nat) : Res K := do
  if ← isUsed S s n t then solution S s n t else .ok 0

/-- The displacement of a node, VtkProcessor.cpp:180-190. -/
def dispOf [Zero K] (S : Storage K) (n : Nat) : Res (Pt K) := do
  let x ← valueOr0 S .node .UX n
  let y ← valueOr0 S .node .UY n
  let z ← valueOr0 S .node .UZ n
  .ok ⟨x, y, z⟩

/-- The reaction at a node, VtkProcessor.cpp:193-197. -/
def reactionOf [Zero K] (S : Storage K) (n : Nat) : Res (Pt K) := do
  let x ← reaction S n .UX
  let y ← reaction S n .UY
  let z ← reaction S n .UZ
  .ok ⟨x, y, z⟩

/-- A scalar field of a DoF type, VtkProcessor.cpp:202-212, 233-242. `n` is the number of entities. -/
def dofField [Zero K] (S : Storage K) (s : Side) (n : Nat) (t : DofType) : Res (List (List (Tok K))) := do
  let vs ← collect (valueOr0 S s t) (from1 n)
  let l ← dofType2label t
  .ok (scalarLines l vs)

/-- `write_point_data`, VtkProcessor.cpp:172-213. -/
def pointData [Zero K] (V : View K) (P : Proc) : Res (List (List (Tok K))) := do
  let nn := V.pos.length
  let d ← (if P.useDisp then do
      let u ← collect (dispOf V.S) (from1 nn)
      let r ← collect (reactionOf V.S) (from1 nn)
      .ok (vectorLines "disp" u ++ vectorLines "reaction" r)
    else .ok [])
  let fs ← collect (dofField V.S .node nn) P.nodal
  .ok ([.w "POINT_DATA", .i nn] :: d ++ fs.flatten)

/-- The field of a scalar query: the answer is added to 0, VtkProcessor.cpp:245-252. -/
def scalarField [Add K] [Zero K] (V : View K) (q : Nat) : Res (List (List (Tok K))) := do
  let l ← queryLabel scalarLabels q
  .ok (scalarLines l ((List.range V.elems.length).map (fun i => match V.ask.scalar i q with
    | some v => 0 + v
    | none => 0)))

/-- The zero vector `Vec<3>()`. src/lib/math/Vec.h:18-21. -/
def Pt.zero [Zero K] : Pt K := ⟨0, 0, 0⟩

/-- The field of a vector query, VtkProcessor.cpp:255-262. -/
def vectorField [Add K] [Zero K] (V : View K) (q : Nat) : Res (List (List (Tok K))) := do
  let l ← queryLabel vectorLabels q
  .ok (vectorLines l ((List.range V.elems.length).map (fun i => match V.ask.vector i q with
    | some v => ⟨0 + v.x, 0 + v.y, 0 + v.z⟩
    | none => Pt.zero)))

/-- The six fields of a tensor query, VtkProcessor.cpp:265-272. -/
def tensorField [Add K] [Zero K] (V : View K) (q : Nat) : Res (List (List (Tok K))) := do
  let l ← queryLabel tensorLabels q
  .ok (tensorLines l ((List.range V.elems.length).map (fun i => match V.ask.tensor i q with
    | some v => fun j => 0 + v j
    | none => fun _ => 0)))

/-- `write_cell_data`, VtkProcessor.cpp:218-273. -/
def cellData [Add K] [Zero K] (V : View K) (P : Proc) : Res (List (List (Tok K))) :=
  if P.scalarQ = [] ∧ P.vectorQ = [] ∧ P.tensorQ = [] ∧ P.elemental = [] then .ok []
  else do
    let ds ← collect (dofField V.S .elem V.elems.length) P.elemental
    let ss ← collect (scalarField V) P.scalarQ
    let vs ← collect (vectorField V) P.vectorQ
    let ts ← collect (tensorField V) P.tensorQ
    .ok ([.w "CELL_DATA", .i V.elems.length] :: ds.flatten ++ ss.flatten ++ vs.flatten ++ ts.flatten)

/-- Contents of a file written by `pre` or `process`, VtkProcessor.cpp:49-66 (`def` is `false` by default). -/
def file [Add K] [Zero K] (V : View K) (P : Proc) : Res (List (List (Tok K))) := do
  let g ← geometry V false
  let p ← pointData V P
  let c ← cellData V P
  .ok (header ++ g ++ p ++ c)

/-- Name of a file, VtkProcessor.cpp:49, 59: `file_name + toStr(step) + ".vtk"`. -/
def fileName (base : String) (step : Nat) : String := base ++ toString step ++ ".vtk"

end Nla3d.Vtk
