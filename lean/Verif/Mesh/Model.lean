import Verif.Base
import Verif.Labels.Model

/-!
# Model of the mesh containers of `FEStorage`

Nodes, elements, MPCs, MPC collections and components are held by raw pointers. A pointer is a number, the heap knows
which objects are alive; freeing an object that is not alive is `ub`.

src/lib/FEStorage.cpp:176-302, src/lib/FEStorage.h:674-696, src/lib/elements/ElementFactory.cpp:29-90

Simplifications: pointers handed to the `add...` functions come from a fresh `new` each time (the caller gives the
ownership away); the count of nodes and of elements stays below 2^32 - 1; allocation does not fail.
-/

namespace Nla3d.Mesh

open Nla3d.Labels (ElementType)

/-- The part of `FEStorage` and of the heap that matters. src/lib/FEStorage.h:48, 294-320, 373. -/
structure Mesh where
  /-- next fresh pointer -/
  next : Nat
  /-- live objects -/
  alive : Nat → Bool
  nodes : List Nat
  elements : List Nat
  mpcs : List Nat
  cols : List Nat
  comps : List Nat
  topology : List (List Nat)
  /-- `Material*`, set by the user -/
  material : Bool
  /-- `Element::elNum` of an element object -/
  elNum : Nat → Nat
  /-- `Element::storage == this` -/
  mine : Nat → Bool
  /-- `Element::type`, set by the constructor of the class -/
  type : Nat → ElementType

/-- A freshly constructed storage. src/lib/FEStorage.h:40 -/
def Mesh.empty : Mesh :=
  ⟨0, fun _ => false, [], [], [], [], [], [], false, fun _ => 0, fun _ => false, fun _ => .UNDEFINED⟩

/-- `new`: the fresh object `S.next` becomes alive. C++ language, used in src/lib/FEStorage.cpp and ElementFactory.cpp:29-93. -/
def Mesh.new (S : Mesh) : Mesh := { S with next := S.next + 1, alive := fun q => if q = S.next then true else S.alive q }

/-- `new ElementXXX()`: the constructor of each class sets `type`; number and storage are not set.
src/lib/elements: TETRA0.cpp:8, TETRA1.cpp:6, SOLID81.h:18, TRUSS3.cpp:6, INTER3.cpp:6, PLANE41.h:18, TRIANGLE4.cpp:10,
QUADTH.h:18, QUADTH.h:42, INTER0.cpp:6; src/lib/elements/element.h:150-157 -/
def Mesh.newElement (S : Mesh) (t : ElementType) : Mesh :=
  { S.new with
    elNum := fun q => if q = S.next then 0 else S.elNum q
    mine := fun q => if q = S.next then false else S.mine q
    type := fun q => if q = S.next then t else S.type q }

/-- `delete p`. C++ language, used in src/lib/FEStorage.cpp:255-294. -/
def Mesh.delete (S : Mesh) (p : Nat) : Res Mesh :=
  if S.alive p then .ok { S with alive := fun q => if q = p then false else S.alive q } else .ub

/-- `addNode(new Node)`. src/lib/FEStorage.cpp:193-197 -/
def Mesh.addNode (S : Mesh) : Mesh := { S.new with nodes := S.nodes ++ [S.next] }

/-- `createNodes(n)`. src/lib/FEStorage.cpp:200-218 -/
def Mesh.createNodes (S : Mesh) (n : Nat) : Mesh × List Nat :=
  let nextNumber := S.nodes.length + 1
  let S' := (List.range n).foldl (fun S _ => S.addNode) S
  (S', List.range' nextNumber (S'.nodes.length + 1 - nextNumber))

/-- `addElement(new ElementXXX)`. src/lib/FEStorage.cpp:221-226 -/
def Mesh.addElement (S : Mesh) (t : ElementType) : Mesh :=
  let p := S.next
  let S1 := S.newElement t
  { S1 with
    mine := fun q => if q = p then true else S1.mine q
    elNum := fun q => if q = p then S1.elements.length + 1 else S1.elNum q
    elements := S1.elements ++ [p] }

/-- One `ptr.push_back(new ElementXXX())`. src/lib/elements/ElementFactory.cpp:29-93. -/
def Mesh.pushElement (S : Mesh) (t : ElementType) : Mesh := { S.newElement t with elements := S.elements ++ [S.next] }

/-- `ElementFactory::createElements`. The class instantiated in each case of the `switch`.
src/lib/elements/ElementFactory.cpp:29-93 -/
def Mesh.factory (S : Mesh) (t : ElementType) (n : Nat) : Res Mesh :=
  let many (c : ElementType) := (List.range n).foldl (fun S _ => S.pushElement c) S
  match t with
  | .UNDEFINED => .fatal
  | .PLANE41 => .ok (many .PLANE41)
  | .SOLID81 => .ok (many .SOLID81)
  | .TRUSS3 => .ok (many .TRUSS3)
  | .TRIANGLE4 => .ok (many .TRIANGLE4)
  | .TETRA0 => .ok (many .TETRA0)
  | .TETRA1 => .ok (many .TETRA1)
  | .QUADTH => .ok (many .QUADTH)
  | .SurfaceLINETH => .ok (many .SurfaceLINETH)
  | .INTER0 => .ok (many .INTER0)
  | .INTER3 => .ok (many .INTER3)

/-- One pass of the numbering loop. src/lib/FEStorage.cpp:235-240 -/
def Mesh.claim (S : Mesh) (i : Nat) : Res Mesh := do
  let p ← Res.read S.elements (i - 1)
  .ok { S with
    elNum := fun q => if q = p then i else S.elNum q
    mine := fun q => if q = p then true else S.mine q }

/-- `createElements(n, type)`. src/lib/FEStorage.cpp:229-242 -/
def Mesh.createElements (S : Mesh) (n : Nat) (t : ElementType) : Res (Mesh × List Nat) := do
  let nextNumber := S.elements.length + 1
  let S1 ← S.factory t n
  let is := List.range' nextNumber (S1.elements.length + 1 - nextNumber)
  let S2 ← Res.foldlM' Mesh.claim S1 is
  .ok (S2, is)

/-- `createElements(n, example)` with an element of class `t`. src/lib/FEStorage.h:676-696 -/
def Mesh.createElementsLike (S : Mesh) (n : Nat) (t : ElementType) : Res (Mesh × List Nat) := do
  let nextNumber := S.elements.length + 1
  let S1 := (List.range n).foldl (fun S _ => S.pushElement t) S
  let is := List.range' nextNumber (S1.elements.length + 1 - nextNumber)
  let S2 ← Res.foldlM' Mesh.claim S1 is
  .ok (S2, is)

/-- `addMpc(mpc)` with a new non-empty MPC. src/lib/FEStorage.cpp:175-179 -/
def Mesh.addMpc (S : Mesh) : Mesh := { S.new with mpcs := S.mpcs ++ [S.next] }

/-- `addMpcCollection`. src/lib/FEStorage.cpp:182-185 -/
def Mesh.addMpcCollection (S : Mesh) : Mesh := { S.new with cols := S.cols ++ [S.next] }

/-- `addFEComponent`. src/lib/FEStorage.cpp:187-190 -/
def Mesh.addFEComponent (S : Mesh) : Mesh := { S.new with comps := S.comps ++ [S.next] }

/-- `deleteNodes()`. src/lib/FEStorage.cpp:255-260 -/
def Mesh.deleteNodes (S : Mesh) : Res Mesh := do
  let S ← Res.foldlM' Mesh.delete S S.nodes
  .ok { S with nodes := [] }

/-- `deleteElements()`. src/lib/FEStorage.cpp:263-268 -/
def Mesh.deleteElements (S : Mesh) : Res Mesh := do
  let S ← Res.foldlM' Mesh.delete S S.elements
  .ok { S with elements := [] }

/-- `deleteMpcs()`: the list is not cleared. src/lib/FEStorage.cpp:271-277 -/
def Mesh.deleteMpcs (S : Mesh) : Res Mesh := Res.foldlM' Mesh.delete S S.mpcs

/-- `deleteMpcCollections()`. `MpcCollection` is abstract and its destructor is not virtual (src/lib/Mpc.h:41-49), so
every `delete mpcCollections[i]` deletes an object of a derived class through a base without virtual destructor.
src/lib/FEStorage.cpp:280-286 -/
def Mesh.deleteMpcCollections (S : Mesh) : Res Mesh := if S.cols = [] then .ok S else .ub

/-- `deleteFeComponents()`. src/lib/FEStorage.cpp:289-294 -/
def Mesh.deleteFeComponents (S : Mesh) : Res Mesh := do
  let S ← Res.foldlM' Mesh.delete S S.comps
  .ok { S with comps := [] }

/-- `deleteMesh()`. src/lib/FEStorage.cpp:245-252 -/
def Mesh.deleteMesh (S : Mesh) : Res Mesh := do
  let S ← S.deleteElements
  let S ← S.deleteNodes
  let S ← S.deleteMpcs
  let S ← S.deleteMpcCollections
  let S ← S.deleteFeComponents
  .ok { S with topology := [] }

/-- `~FEStorage()`, without the solution data. `Material` is a base class with virtual functions and a destructor that
is not virtual (src/lib/materials/material.h:15-24); every material is of a derived class. src/lib/FEStorage.cpp:16-23 -/
def Mesh.destruct (S : Mesh) : Res Mesh := if S.material then .ub else S.deleteMesh

/-- Calls that build a mesh. The member functions of src/lib/FEStorage.h:195-232. -/
inductive Call where
  | addNode | createNodes (n : Nat) | addElement (t : ElementType) | createElements (n : Nat) (t : ElementType)
  | createElementsLike (n : Nat) (t : ElementType) | addMpc | addMpcCollection | addFEComponent | setMaterial | deleteMesh

/-- Effect of a call. src/lib/FEStorage.h:195-232. -/
def Mesh.call (S : Mesh) : Call → Res Mesh
  | .addNode => .ok S.addNode
  | .createNodes n => .ok (S.createNodes n).1
  | .addElement t => .ok (S.addElement t)
  | .createElements n t => do .ok (← S.createElements n t).1
  | .createElementsLike n t => do .ok (← S.createElementsLike n t).1
  | .addMpc => .ok S.addMpc
  | .addMpcCollection => .ok S.addMpcCollection
  | .addFEComponent => .ok S.addFEComponent
  | .setMaterial => .ok { S with material := true }
  | .deleteMesh => S.deleteMesh

end Nla3d.Mesh
