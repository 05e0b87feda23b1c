import Verif.Sparse.Model

/-!
# Model of sparse matrix objects that share their pattern

Constructors, `setSparsityInfo`, `reinit`, `compress`, destructor and the implicit copy constructor of `BaseSparseMatrix`, `SparseMatrix`
and `SparseSymMatrix` (src/lib/math/SparseMatrix.cpp:264-493, src/lib/math/SparseMatrix.h:87-129). Objects are numbered in the order of
their construction (`none` after the destructor). `std::shared_ptr` is modelled by its contract: a `SparsityInfo` lives as long as a
pointer to it exists, so that the list of them only grows. Blocks of `new double[...]` are `none` after `delete[]`.
-/

namespace Nla3d.Sparse.Shared

variable {K : Type}

/-- Members of `BaseSparseMatrix`: numbers of a pattern and of a block, `none` is the null pointer. SparseMatrix.h:125-129. -/
structure Obj where
  si : Option Nat
  values : Option Nat
  deriving Repr, DecidableEq

/-- Patterns, blocks of values and objects. C++ language, for SparseMatrix.h:87-129. -/
structure Mem (K : Type) where
  infos : List SpInfo
  heap : List (Option (List K))
  objs : List (Option Obj)
  deriving Repr, DecidableEq

/-- An object that exists. C++ language, for SparseMatrix.h:87-129. -/
def Mem.obj (mem : Mem K) (d : Nat) : Res Obj :=
  match mem.objs[d]? with
  | some (some o) => .ok o
  | _ => .ub

/-- A block that is allocated. C++ language, for SparseMatrix.h:126. -/
def block (heap : List (Option (List K))) (b : Nat) : Res (List K) :=
  match heap[b]? with
  | some (some l) => .ok l
  | _ => .ub

/-- `if (values) delete[] values`, SparseMatrix.cpp:278-281, 335, 372-375, 444-447. -/
def release (heap : List (Option (List K))) : Option Nat → Res (List (Option (List K)))
  | none => .ok heap
  | some b => do
    let _ ← block heap b
    .ok (heap.set b none)

/-- `BaseSparseMatrix::compress`, SparseMatrix.cpp:325-338. -/
def compressObj [Zero K] (infos : List SpInfo) (heap : List (Option (List K))) (o : Obj) :
    Res (List SpInfo × List (Option (List K)) × Obj) :=
  match o.si with
  | none => .assert
  | some k => do
    let s ← Res.read infos k
    if s.compressed && o.values.isSome then .ok (infos, heap, o)
    else do
      let s ← if s.compressed then Res.ok s else s.compress
      let heap ← release heap o.values
      .ok (infos.set k s, heap ++ [some (List.replicate s.numberOfValues 0)], ⟨some k, some heap.length⟩)

/-- `setSparsityInfo`, SparseMatrix.cpp:341-349. -/
def setInfo [Zero K] (infos : List SpInfo) (heap : List (Option (List K))) (o : Obj) (si : Option Nat) :
    Res (List SpInfo × List (Option (List K)) × Obj) :=
  match si with
  | none => .assert
  | some k => do
    let s ← Res.read infos k
    if s.compressed then compressObj infos heap { o with si := some k } else .ok (infos, heap, { o with si := some k })

/-- The statements of a program that uses sparse matrices; `sym` says that the object is a `SparseSymMatrix`.
SparseMatrix.cpp:264-493, SparseMatrix.h:200-269. -/
inductive Cmd (K : Type)
  | empty
  | new (sym : Bool) (n m mx : Nat)
  | share (sym : Bool) (s : Nat)
  | set (d s : Nat)
  | reinit (d n m mx : Nat)
  | addEntry (sym : Bool) (d i j : Nat)
  | compress (d : Nat)
  | zero (d : Nat)
  | addValue (sym : Bool) (d i j : Nat) (x : K)
  | destroy (d : Nat)
  | copy (s : Nat)

/-- `SparseMatrix::addEntry` and `SparseSymMatrix::addEntry` on the pattern, SparseMatrix.h:249-265. -/
def addEntryInfo (sym : Bool) (s : SpInfo) (i j : Nat) : Res SpInfo :=
  if sym && decide (i > j) then s.addEntry j i else s.addEntry i j

/-- `SparseMatrix::addValue` and `SparseSymMatrix::addValue`, SparseMatrix.h:254-256, 267-269. -/
def addValueMat [Add K] (sym : Bool) (i j : Nat) (x : K) (m : SpMat K) : Res (SpMat K) :=
  if sym then m.addValueSym i j x else m.addValue i j x

/-- A method that changes numbers of the values but no pointer: `zero` and `addValue`. Their bodies are those of
`Verif/Sparse/Model.lean`. SparseMatrix.h:200-204, 254-256, 267-269. -/
def Mem.onValues (mem : Mem K) (d : Nat) (f : SpMat K → Res (SpMat K)) : Res (Mem K) := do
  let o ← mem.obj d
  match o.si with
  | none => .assert
  | some k => do
    let s ← Res.read mem.infos k
    match o.values with
    | none => .assert
    | some b => do
      let l ← block mem.heap b
      let m ← f ⟨s, some l⟩
      match m.values with
      | none => .ub
      | some l => .ok { mem with heap := mem.heap.set b (some l) }

/-- One statement.
`empty`: SparseMatrix.cpp:264-266, 352-354, 418-420. `new`: 268-271, 357-361, 423-431. `share`: 273-275, 363-367, 433-440.
`set`: 341-349. `reinit`: 370-376, 442-448. `destroy`: 277-282. `copy` is the copy constructor the compiler makes: it copies the two
pointers (SparseMatrix.h:87-129 declares none). -/
def Mem.step [Zero K] [Add K] (mem : Mem K) : Cmd K → Res (Mem K)
  | .empty => .ok { mem with objs := mem.objs ++ [some ⟨none, none⟩] }
  | .new sym n m mx => do
    let s ← SpInfo.init n (if sym then n else m) mx
    let s ← if sym then addDiag s 1 s.nRows else Res.ok s
    .ok { mem with infos := mem.infos ++ [s], objs := mem.objs ++ [some ⟨some mem.infos.length, none⟩] }
  | .share sym s => do
    let o ← mem.obj s
    let (infos, heap, o) ← setInfo mem.infos mem.heap ⟨none, none⟩ o.si
    match o.si with
    | none => .ub
    | some k => do
      let s ← Res.read infos k
      if sym && decide (s.nRows ≠ s.nColumns) then .assert
      else .ok ⟨infos, heap, mem.objs ++ [some o]⟩
  | .set d s => do
    let o ← mem.obj d
    let p ← mem.obj s
    let (infos, heap, o) ← setInfo mem.infos mem.heap o p.si
    .ok ⟨infos, heap, mem.objs.set d (some o)⟩
  | .reinit d n m mx => do
    let o ← mem.obj d
    let s ← SpInfo.init n m mx
    let heap ← release mem.heap o.values
    .ok ⟨mem.infos ++ [s], heap, mem.objs.set d (some ⟨some mem.infos.length, none⟩)⟩
  | .addEntry sym d i j => do
    let o ← mem.obj d
    match o.si with
    | none => .assert
    | some k => do
      let s ← Res.read mem.infos k
      let s ← addEntryInfo sym s i j
      .ok { mem with infos := mem.infos.set k s }
  | .compress d => do
    let o ← mem.obj d
    let (infos, heap, o) ← compressObj mem.infos mem.heap o
    .ok ⟨infos, heap, mem.objs.set d (some o)⟩
  | .zero d => mem.onValues d SpMat.zero
  | .addValue sym d i j x => mem.onValues d (addValueMat sym i j x)
  | .destroy d => do
    let o ← mem.obj d
    let heap ← release mem.heap o.values
    .ok ⟨mem.infos, heap, mem.objs.set d none⟩
  | .copy s => do
    let o ← mem.obj s
    .ok { mem with objs := mem.objs ++ [some o] }

/-- A program. SparseMatrix.cpp:264-493. -/
def Mem.run [Zero K] [Add K] (mem : Mem K) (cs : List (Cmd K)) : Res (Mem K) := Res.foldlM' Mem.step mem cs

/-- The matrix an object stands for: what its methods see through the two pointers. C++ language, for SparseMatrix.h:125-129. -/
def Mem.view (mem : Mem K) (d : Nat) : Res (SpMat K) := do
  let o ← mem.obj d
  match o.si with
  | none => .assert
  | some k => do
    let s ← Res.read mem.infos k
    match o.values with
    | none => .ok ⟨s, none⟩
    | some b => do
      let l ← block mem.heap b
      .ok ⟨s, some l⟩

end Nla3d.Sparse.Shared
