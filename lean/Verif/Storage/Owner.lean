import Verif.Base

/-!
# Model of element objects: the memory of the node lists

Source: src/lib/elements/element.h, element.cpp, and the by-value parameter of `createElements` in src/lib/FEStorage.h. Numbers of objects
and of blocks stand for addresses.
-/

namespace Nla3d.Owner

/-- The shapes that have a class of their own. src/lib/elements/element.h:165-272 -/
inductive Shape where
  | vertex | twinVertex | line | triangle | quad | tetra | hexahedron | wedge
  deriving DecidableEq, Repr

/-- `getNNodes` through `_shape_nnodes`. element.h:63-78, 389-391 -/
def Shape.nNodes : Shape → Nat
  | .vertex => 1
  | .twinVertex => 2
  | .line => 2
  | .triangle => 3
  | .quad => 4
  | .tetra => 4
  | .hexahedron => 8
  | .wedge => 6

/-- Members `shape` and `nodes` of `Element`. element.h:150-160 -/
structure Obj where
  shape : Shape
  nodes : Option Nat
  deriving DecidableEq

/-- Memory: the arrays made by `new uint32[n]` (`none`: freed; an element `none`: never written), the objects (`none`: destroyed) and
the numbers asked for so far. -/
structure Mem where
  heap : List (Option (List (Option Nat)))
  objs : List (Option Obj)
  out : List Nat
  deriving DecidableEq

/-- Nothing was made yet. -/
def Mem.empty : Mem := ⟨[], [], []⟩

/-- The constructors `ElementVERTEX()`, …, `ElementWEDGE()`. element.h:166-171 and the same below -/
def Mem.make (m : Mem) (s : Shape) : Mem :=
  { m with heap := m.heap ++ [some (List.replicate s.nNodes none)], objs := m.objs ++ [some ⟨s, some m.heap.length⟩] }

/-- The object number `d`; a destroyed one is not there any more. -/
def Mem.obj (m : Mem) (d : Nat) : Res Obj :=
  match m.objs[d]? with
  | some (some o) => .ok o
  | _ => .ub

/-- The array a pointer leads to. -/
def Mem.block (m : Mem) (b : Nat) : Res (List (Option Nat)) :=
  match m.heap[b]? with
  | some (some l) => .ok l
  | _ => .ub

/-- `getNodeNumber(num) = x`. element.h:410-415 -/
def Mem.set (m : Mem) (d i x : Nat) : Res Mem := do
  let o ← m.obj d
  if i < o.shape.nNodes then
    match o.nodes with
    | none => .assert
    | some b => do
      let l ← m.block b
      let l ← Res.write l i (some x)
      .ok { m with heap := m.heap.set b (some l) }
  else .assert

/-- Asking for `getNodeNumber(num)`; a number that was never written has no value. element.h:410-415 -/
def Mem.get (m : Mem) (d i : Nat) : Res Mem := do
  let o ← m.obj d
  if i < o.shape.nNodes then
    match o.nodes with
    | none => .assert
    | some b => do
      let l ← m.block b
      match ← Res.read l i with
      | some v => .ok { m with out := m.out ++ [v] }
      | none => .ub
  else .assert

/-- `Element::operator=`: `memcpy(nodes, from.nodes, sizeof(uint32)*getNNodes())`. The two ranges must lie in their arrays and must not
overlap. element.cpp:30-35 -/
def Mem.assign (m : Mem) (d e : Nat) : Res Mem := do
  let o ← m.obj d
  let o' ← m.obj e
  match o.nodes, o'.nodes with
  | some b, some b' => do
    let l ← m.block b
    let l' ← m.block b'
    if b = b' then .ub
    else if o.shape.nNodes ≤ l.length ∧ o.shape.nNodes ≤ l'.length then
      .ok { m with heap := m.heap.set b (some (l'.take o.shape.nNodes ++ l.drop o.shape.nNodes)) }
    else .ub
  | _, _ => .assert

/-- Copy constructor. None is declared, so the implicit one copies the members, with the pointer. element.h:87-162 -/
def Mem.copy (m : Mem) (d : Nat) : Res Mem := do
  let o ← m.obj d
  .ok { m with objs := m.objs ++ [some o] }

/-- `~Element()`, virtual: `if (nodes) delete[] nodes`. element.cpp:15-20, element.h:89 -/
def Mem.destroy (m : Mem) (d : Nat) : Res Mem := do
  let o ← m.obj d
  match o.nodes with
  | none => .ok { m with objs := m.objs.set d none }
  | some b => do
    let _ ← m.block b
    .ok { m with heap := m.heap.set b none, objs := m.objs.set d none }

/-- Memory after `createElements(n, example)` with an object as example: the parameter is a copy of it, `n` elements are made by `new T`,
the parameter is destroyed. src/lib/FEStorage.h:676-697 -/
def Mem.createLike (m : Mem) (d n : Nat) : Res Mem := do
  let o ← m.obj d
  let p := m.objs.length
  let m ← m.copy d
  let m := (List.range n).foldl (fun m _ => m.make o.shape) m
  m.destroy p

/-- Statements about elements. -/
inductive Stmt where
  | make (s : Shape)
  | set (d i x : Nat)
  | get (d i : Nat)
  | assign (d e : Nat)
  | copy (d : Nat)
  | destroy (d : Nat)
  deriving DecidableEq

/-- One statement. src/lib/elements/element.h, element.cpp, lines as above -/
def Mem.step (m : Mem) : Stmt → Res Mem
  | .make s => .ok (m.make s)
  | .set d i x => m.set d i x
  | .get d i => m.get d i
  | .assign d e => m.assign d e
  | .copy d => m.copy d
  | .destroy d => m.destroy d

/-- A program. -/
def run (m : Mem) : List Stmt → Res Mem := Res.foldlM' Mem.step m

end Nla3d.Owner
