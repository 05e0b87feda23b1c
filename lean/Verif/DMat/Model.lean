import Verif.Loop
import Mathlib.Algebra.Group.Defs

/-!
# Model of `dMat` (src/lib/math/Mat.h:417-570, src/lib/math/Mat.cpp:50-59)

The memory is a list of allocated blocks (`none` after `delete[]`), the objects are numbered in the order of their construction (`none`
after the destructor). A matrix is read and written through a proxy, `dMat_interface`, that is a member of the matrix: `m[i]` stores the
row in it, `[j]` finds the element. `uint16` parameters are natural numbers below 65536.
-/

namespace Nla3d.DMat

variable {K : Type}

/-- A `dMat` with its `dmat_int`: pointers are numbers of blocks, `none` is `NULL`. src/lib/math/Mat.h:431-434, 523-527 -/
structure Obj where
  dimM : Nat
  dimN : Nat
  data : Option Nat
  ptr : Option Nat
  M : Nat
  N : Nat
  row : Nat

/-- The members before the body of a constructor. src/lib/math/Mat.h:421-422, 441, 446, 458 -/
def Obj.null : Obj := ⟨0, 0, none, none, 0, 0, 0⟩

/-- Heap blocks and objects. C++ language; members of `dMat`: src/lib/math/Mat.h:523-527. -/
structure Mem (K : Type) where
  heap : List (Option (List K))
  objs : List (Option Obj)

/-- An object that exists. C++ language. src/lib/math/Mat.h:438-527 -/
def Mem.obj (m : Mem K) (d : Nat) : Res Obj :=
  match m.objs[d]? with
  | some (some o) => .ok o
  | _ => .ub

/-- A block that is allocated. C++ language. src/lib/math/Mat.h:438-527 -/
def block (heap : List (Option (List K))) (b : Nat) : Res (List K) :=
  match heap[b]? with
  | some (some l) => .ok l
  | _ => .ub

/-- `if (data) delete[] data`. src/lib/math/Mat.h:469, 489 -/
def release (heap : List (Option (List K))) : Option Nat → Res (List (Option (List K)))
  | none => .ok heap
  | some b => do
    let _ ← block heap b
    .ok (heap.set b none)

/-- `resize`. The product `dim_m*dim_n` is an `int`: overflow is undefined. `new double[...]` and `zero()` are one step.
src/lib/math/Mat.h:467-477, 493-496 -/
def resize [Zero K] (heap : List (Option (List K))) (o : Obj) (m n : Nat) : Res (List (Option (List K)) × Obj) := do
  let heap ← release heap o.data
  if m * n < 2 ^ 31 then
    .ok (heap ++ [some (List.replicate (m * n) 0)], ⟨m, n, some heap.length, some heap.length, m, n, o.row⟩)
  else .ub

/-- `dMat(dim_m, dim_n)`. src/lib/math/Mat.h:441-445 -/
def Mem.new [Zero K] (mem : Mem K) (m n : Nat) : Res (Mem K) := do
  if m ≠ 0 ∧ n ≠ 0 then do
    let (heap, o) ← resize mem.heap Obj.null m n
    .ok ⟨heap, mem.objs ++ [some o]⟩
  else .ok ⟨mem.heap, mem.objs ++ [some Obj.null]⟩

/-- `resize` of object `d`. src/lib/math/Mat.h:467-477 -/
def Mem.resize [Zero K] (mem : Mem K) (d m n : Nat) : Res (Mem K) := do
  let o ← mem.obj d
  let (heap, o) ← DMat.resize mem.heap o m n
  .ok ⟨heap, mem.objs.set d (some o)⟩

/-- `memcpy(to, from, sizeof(double)*k)`: nothing for `k = 0`, undefined for overlapping or too short blocks. C++ library; used in
src/lib/math/Mat.h:504 -/
def memcpy (heap : List (Option (List K))) (to src : Option Nat) (k : Nat) : Res (List (Option (List K))) :=
  if k = 0 then .ok heap else
    match to, src with
    | some b, some b' => do
      let l ← block heap b
      let l' ← block heap b'
      if b = b' ∨ l.length < k ∨ l'.length < k then .ub else .ok (heap.set b (some (l'.take k ++ l.drop k)))
    | _, _ => .ub

/-- `operator=` of object `d` with object `s`: the members of `s` are read again after the `resize`. src/lib/math/Mat.h:501-506 -/
def Mem.assign [Zero K] (mem : Mem K) (d s : Nat) : Res (Mem K) := do
  let o ← mem.obj s
  let mem ← mem.resize d o.dimM o.dimN
  let od ← mem.obj d
  let os ← mem.obj s
  let heap ← memcpy mem.heap od.data os.data (od.dimM * od.dimN)
  .ok { mem with heap := heap }

/-- The copy constructor, for an object that exists (not `dMat a(a)`). src/lib/math/Mat.h:458-461 -/
def Mem.copy [Zero K] (mem : Mem K) (s : Nat) : Res (Mem K) := do
  let _ ← mem.obj s
  Mem.assign ⟨mem.heap, mem.objs ++ [some Obj.null]⟩ mem.objs.length s

/-- `~dMat`. src/lib/math/Mat.h:487-491 -/
def Mem.destroy (mem : Mem K) (d : Nat) : Res (Mem K) := do
  let o ← mem.obj d
  let heap ← release mem.heap o.data
  .ok ⟨heap, mem.objs.set d none⟩

/-- `operator[]` of the matrix. src/lib/math/Mat.h:462-466 -/
def Obj.at (o : Obj) (i : Nat) : Obj := { o with row := i }

/-- `operator[]` of the proxy: block and index of the element. src/lib/math/Mat.h:423-429 -/
def Obj.entry (o : Obj) (j : Nat) : Res (Nat × Nat) :=
  match o.ptr with
  | none => .assert
  | some b => do
    Res.guard (decide (j < o.N))
    Res.guard (decide (o.row < o.M))
    .ok (b, o.row * o.N + j)

/-- `m[i][j]` read. src/lib/math/Mat.h:423-429, 462-466 -/
def Mem.get (mem : Mem K) (d i j : Nat) : Res (Mem K × K) := do
  let o ← mem.obj d
  let (b, k) ← (o.at i).entry j
  let l ← block mem.heap b
  let x ← Res.read l k
  .ok ({ mem with objs := mem.objs.set d (some (o.at i)) }, x)

/-- `m[i][j] = x`. src/lib/math/Mat.h:423-429, 462-466 -/
def Mem.set (mem : Mem K) (d i j : Nat) (x : K) : Res (Mem K) := do
  let o ← mem.obj d
  let (b, k) ← (o.at i).entry j
  let l ← block mem.heap b
  let l ← Res.write l k x
  .ok ⟨mem.heap.set b (some l), mem.objs.set d (some (o.at i))⟩

/-- `fill` with the arguments `args`. The counter is `uint16`, so that the loop has no end from 65536 elements on and reads more arguments
than there can be. src/lib/math/Mat.h:479-486 -/
def Mem.fill (mem : Mem K) (d : Nat) (args : List K) : Res (Mem K) := do
  let o ← mem.obj d
  match o.data with
  | none => .ub
  | some b => do
    let l ← block mem.heap b
    if l.length = 0 ∨ 65536 ≤ o.dimM * o.dimN ∨ args.length < max 1 (o.dimM * o.dimN) ∨ l.length < o.dimM * o.dimN then .ub
    else .ok { mem with heap := mem.heap.set b (some (args.take (o.dimM * o.dimN) ++ l.drop (o.dimM * o.dimN))) }

/-- The statements of a program that uses matrices. src/lib/math/Mat.h:441-506 -/
inductive Cmd (K : Type)
  | new (m n : Nat)
  | copy (s : Nat)
  | assign (d s : Nat)
  | resize (d m n : Nat)
  | set (d i j : Nat) (x : K)
  | fill (d : Nat) (args : List K)
  | destroy (d : Nat)

/-- One statement. src/lib/math/Mat.h:441-506 -/
def Mem.step [Zero K] (mem : Mem K) : Cmd K → Res (Mem K)
  | .new m n => mem.new m n
  | .copy s => mem.copy s
  | .assign d s => mem.assign d s
  | .resize d m n => mem.resize d m n
  | .set d i j x => mem.set d i j x
  | .fill d args => mem.fill d args
  | .destroy d => mem.destroy d

/-- A program. src/lib/math/Mat.h:441-506 -/
def Mem.run [Zero K] (mem : Mem K) (cs : List (Cmd K)) : Res (Mem K) := Res.foldlM' Mem.step mem cs

/-- `toMat<M,N>`: the rows. The row that is left in the proxy is not kept. src/lib/math/Mat.h:532-541 -/
def Mem.toMat (mem : Mem K) (d M N : Nat) : Res (List (List K)) := do
  let o ← mem.obj d
  Res.guard (decide (o.dimM ≤ M ∧ o.dimN ≤ N))
  Res.foldlM' (fun rows i => do
    let r ← Res.foldlM' (fun r j => do
      let (_, x) ← mem.get d i j
      .ok (r ++ [x])) [] (List.range N)
    .ok (rows ++ [r])) [] (List.range M)

/-- `toVec<M>(col)`. src/lib/math/Mat.h:543-551 -/
def Mem.toVec (mem : Mem K) (d M col : Nat) : Res (List K) := do
  let o ← mem.obj d
  Res.guard (decide (o.dimM ≤ M ∧ col < o.dimN))
  Res.foldlM' (fun r i => do
    let (_, x) ← mem.get d i col
    .ok (r ++ [x])) [] (List.range M)

/-- `cpMat(mat)` for a `Mat<M,N>`. src/lib/math/Mat.h:553-560 -/
def Mem.cpMat (mem : Mem K) (d M N : Nat) (mat : Nat → Nat → K) : Res (Mem K) := do
  let o ← mem.obj d
  Res.guard (decide (M ≤ o.dimM ∧ N ≤ o.dimN))
  Res.foldlM' (fun mem i => Res.foldlM' (fun mem j => mem.set d i j (mat i j)) mem (List.range N)) mem (List.range M)

/-- `cpVec(vec, col)` for a `Vec<M>`. src/lib/math/Mat.h:564-570 -/
def Mem.cpVec (mem : Mem K) (d M col : Nat) (vec : Nat → K) : Res (Mem K) := do
  let o ← mem.obj d
  Res.guard (decide (M ≤ o.dimM ∧ col < o.dimN))
  Res.foldlM' (fun mem i => mem.set d i col (vec i)) mem (List.range M)

/-- `operator<<(stream, m)`: what is written to `stream` and what to `std::cout`; `txt` gives the text of a number.
src/lib/math/Mat.cpp:50-59 -/
def Mem.print (txt : K → String) (mem : Mem K) (d : Nat) : Res (String × String) := do
  let o ← mem.obj d
  let s ← Res.foldlM' (fun s i => do
    let s ← Res.foldlM' (fun s j => do
      let (_, x) ← mem.get d i j
      .ok (s ++ txt x ++ " ")) (s ++ "[") (List.range o.dimN)
    .ok (s ++ "]" ++ "\n")) "" (List.range o.dimM)
  .ok ("", s)

/-- An expression that reads `m[i][j]` and `m[k][l]`. The four calls of the operators are only ordered within each element; `mixed` is one
of the orders the language allows (the two calls of `m[...]` first). src/lib/math/Mat.h:423-429, 462-466 -/
def Mem.two (mem : Mem K) (mixed : Bool) (d i j k l : Nat) : Res (K × K) := do
  let o ← mem.obj d
  let o := o.at i
  let o := if mixed then o.at k else o
  let p ← o.entry j
  let o := if mixed then o else o.at k
  let q ← o.entry l
  let b ← block mem.heap p.1
  let x ← Res.read b p.2
  let b ← block mem.heap q.1
  let y ← Res.read b q.2
  .ok (x, y)

end Nla3d.DMat
