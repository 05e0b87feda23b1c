import Verif.Material.Model

/-!
# Model of material objects: memory, named access, text

Source: src/lib/materials/material.h, material.cpp, the constructors in materials_hyperelastic.h, and `delete material` in
src/lib/FEStorage.cpp. Numbers of objects and of blocks stand for addresses. How a number is written is the parameter `num`.
-/

namespace Nla3d.Material.Life

variable {K : Type}

/-- The classes that are not abstract and have constants. src/lib/materials/materials_hyperelastic.h:45-105 -/
inductive Kind where
  | neoHookean | biderman | mooneyRivlin
  deriving DecidableEq, Repr

/-- Members of `Material`: `name`, `MC_names`, `numC`, the pointer `MC`; `derived` tells whether the object is of one of the classes of
materials_hyperelastic.h (the dynamic type). src/lib/materials/material.h:40-44 -/
structure Obj where
  name : String
  names : List String
  numC : Nat
  mc : Option Nat
  derived : Bool
  deriving DecidableEq

/-- Memory: the arrays made by `new double[n]` (`none`: freed; an element `none`: never written), the objects (`none`: destroyed) and
the texts asked for so far. -/
structure Mem (K : Type) where
  heap : List (Option (List (Option K)))
  objs : List (Option Obj)
  out : List (List Char)

/-- `Material()`. material.h:17-18 -/
def blank : Obj := ⟨"", [], 0, none, false⟩

/-- `register_mat_const`: the old `MC` is not freed. material.cpp:42-52 -/
def register (names : List String) (heap : List (Option (List (Option K)))) (o : Obj) : List (Option (List (Option K))) × Obj :=
  (heap ++ [some (List.replicate names.length none)], { o with numC := names.length, names := names, mc := some heap.length })

/-- `Material(num_c)`. material.cpp:14-19 -/
def sized (n : Nat) (heap : List (Option (List (Option K)))) : List (Option (List (Option K))) × Obj :=
  (heap ++ [some (List.replicate n none)], { blank with numC := n, mc := some heap.length })

/-- The arguments of `register_mat_const` in the constructors. materials_hyperelastic.h:54, 77, 97 -/
def constNames : Kind → List String
  | .neoHookean => ["G", "K"]
  | .biderman => ["C10", "C20", "C30", "C01", "K"]
  | .mooneyRivlin => ["C10", "C01", "K"]

/-- The member `name` set by the constructors. materials_hyperelastic.h:55, 78, 98 -/
def className : Kind → String
  | .neoHookean => "Neo-Hookean"
  | .biderman => "Biderman"
  | .mooneyRivlin => "Money-Rivlin"

/-- The constructors `Mat_Comp_…()`. materials_hyperelastic.h:53-56, 76-79, 96-99 -/
def construct (k : Kind) (heap : List (Option (List (Option K)))) : List (Option (List (Option K))) × Obj :=
  let (heap, o) := register (constNames k) heap { blank with derived := true }
  (heap, { o with name := className k })

/-- The object number `d`; a destroyed one is not there any more. -/
def Mem.obj (m : Mem K) (d : Nat) : Res Obj :=
  match m.objs[d]? with
  | some (some o) => .ok o
  | _ => .ub

/-- The array `MC` points to. -/
def Mem.consts (m : Mem K) (o : Obj) : Res (Nat × List (Option K)) :=
  match o.mc with
  | none => .ub
  | some b =>
    match m.heap[b]? with
    | some (some l) => .ok (b, l)
    | _ => .ub

/-- Reading an element: one that was never written has no value. -/
def readSet (l : List (Option K)) (i : Nat) : Res K := do
  match ← Res.read l i with
  | some v => .ok v
  | none => .ub

/-- `toString`. material.cpp:21-28 -/
def Mem.toText (num : K → List Char) (m : Mem K) (o : Obj) : Res (List Char) :=
  Res.foldlM' (fun str i => do
    let s ← Res.read o.names i
    let (_, l) ← m.consts o
    let v ← readSet l i
    .ok (str ++ (" ".toList ++ s.toList ++ " = ".toList ++ num v))) o.name.toList (List.range o.numC)

/-- `~Material()`: `if (MC) delete[] MC`. material.h:20-24 -/
def release (heap : List (Option (List (Option K)))) : Option Nat → Res (List (Option (List (Option K))))
  | none => .ok heap
  | some b =>
    match heap[b]? with
    | some (some _) => .ok (heap.set b none)
    | _ => .ub

/-- Statements about materials: make one, `Ci(i) = x`, `Ci(s) = x`, ask for `Ci(i)`, ask for the text, destroy one that is known by its
own class. -/
inductive Stmt (K : Type) where
  | make (k : Kind)
  | set (d i : Nat) (x : K)
  | setNamed (d : Nat) (s : String) (x : K)
  | get (d i : Nat)
  | text (d : Nat)
  | destroy (d : Nat)

/-- One statement. `Ci`: material.h:59-63, material.cpp:30-39; the rest as above. -/
def Mem.step (num : K → List Char) (m : Mem K) : Stmt K → Res (Mem K)
  | .make k =>
    let (heap, o) := construct k m.heap
    .ok { m with heap := heap, objs := m.objs ++ [some o] }
  | .set d i x => do
    let o ← m.obj d
    if i < o.numC then do
      let (b, l) ← m.consts o
      let l ← Res.write l i (some x)
      .ok { m with heap := m.heap.set b (some l) }
    else .assert
  | .setNamed d s x => do
    let o ← m.obj d
    let (b, l) ← m.consts o
    let i ← Consts.byName ⟨o.names, o.numC, l.length⟩ s
    let l ← Res.write l i (some x)
    .ok { m with heap := m.heap.set b (some l) }
  | .get d i => do
    let o ← m.obj d
    if i < o.numC then do
      let (_, l) ← m.consts o
      let v ← readSet l i
      .ok { m with out := m.out ++ [num v] }
    else .assert
  | .text d => do
    let o ← m.obj d
    let str ← m.toText num o
    .ok { m with out := m.out ++ [str] }
  | .destroy d => do
    let o ← m.obj d
    let heap ← release m.heap o.mc
    .ok { m with heap := heap, objs := m.objs.set d none }

/-- A program. -/
def run (num : K → List Char) (m : Mem K) : List (Stmt K) → Res (Mem K) := Res.foldlM' (Mem.step num) m

/-- `delete material` in `~FEStorage`, through a `Material*`: the destructor of `Material` is not virtual, so the behaviour is undefined
if the object is of a derived class (C++ standard, [expr.delete]). src/lib/FEStorage.cpp:16-19, material.h:20 -/
def Mem.deleteBase (m : Mem K) (d : Nat) : Res (Mem K) := do
  let o ← m.obj d
  if o.derived then .ub
  else do
    let heap ← release m.heap o.mc
    .ok { m with heap := heap, objs := m.objs.set d none }

end Nla3d.Material.Life
