import Verif.Loop
import Mathlib.Algebra.Group.Defs

/-!
# Model of `dVec` (src/lib/math/Vec.h:202-253, src/lib/math/Vec.cpp:11-240)

The memory is a list of allocated blocks (`none` after `delete[]`), the objects are numbered in the order of their
construction. `uint32` sums in the range check are kept modulo 2^32.
-/

namespace Nla3d.DVec

variable {K : Type}

/-- A `dVec` object: `memory_owner`, `data` (block and offset, `none` for `nullptr`), `_size`. src/lib/math/Vec.h:249-252 -/
structure Obj where
  owner : Bool
  data : Option (Nat × Nat)
  size : Nat
  deriving DecidableEq, Repr

/-- An object without data. src/lib/math/Vec.cpp:11-13 -/
def Obj.empty : Obj := ⟨false, none, 0⟩

/-- Heap blocks and objects. C++ language; members of `dVec`: Vec.h, used in Vec.cpp:11-270. -/
structure Mem (K : Type) where
  heap : List (Option (List K))
  objs : List Obj

/-- Reading a `double` through a pointer. C++ language; Vec.cpp:109-270. -/
def Mem.cell (m : Mem K) (b k : Nat) : Res K :=
  match m.heap[b]? with
  | some (some l) => Res.read l k
  | _ => .ub

/-- Writing a `double` through a pointer. C++ language; Vec.cpp:97-270. -/
def Mem.setCell (m : Mem K) (b k : Nat) (v : K) : Res (Mem K) :=
  match m.heap[b]? with
  | some (some l) => if k < l.length then .ok { m with heap := m.heap.set b (some (l.set k v)) } else .ub
  | _ => .ub

/-- `assert(data)` and the pointer. Vec.cpp:81-84. -/
def Obj.ptr (o : Obj) : Res (Nat × Nat) :=
  match o.data with
  | some p => .ok p
  | none => .assert

/-- Reading `n` consecutive values. C++ language; used for `memcpy` and the loops of Vec.cpp:16-270. -/
def Mem.readRange (m : Mem K) (b off : Nat) : Nat → Res (List K)
  | 0 => .ok []
  | n + 1 => do
    let l ← m.readRange b off n
    let x ← m.cell b (off + n)
    .ok (l ++ [x])

/-- Writing consecutive values. C++ language; used for `memcpy`, `std::fill_n` and the loops of Vec.cpp:16-270. -/
def Mem.writeRange (m : Mem K) (b off : Nat) (l : List K) : Res (Mem K) :=
  Res.foldlM' (fun m i => match l[i]? with
    | some v => m.setCell b (off + i) v
    | none => .ub) m (List.range l.length)

/-- `clear()`. Freeing something that is not the beginning of a live block is undefined. src/lib/math/Vec.cpp:87-94 -/
def Mem.clear (m : Mem K) (t : Nat) : Res (Mem K) := do
  let o ← Res.read m.objs t
  let heap ← (match o.owner, o.data with
    | true, some (b, off) =>
      if off = 0 ∧ (m.heap[b]?).join.isSome then .ok (m.heap.set b none) else .ub
    | _, _ => .ok m.heap : Res (List (Option (List K))))
  .ok ⟨heap, m.objs.set t Obj.empty⟩

/-- A fresh block with the contents `l`, owned by object `t`. `new double[n]`, Vec.cpp:18-22, 50-52. -/
def Mem.allocFor (m : Mem K) (t : Nat) (l : List K) : Mem K :=
  ⟨m.heap ++ [some l], m.objs.set t ⟨true, some (m.heap.length, 0), l.length⟩⟩

/-- `reinit(n, val)`. src/lib/math/Vec.cpp:48-54 -/
def Mem.reinit (m : Mem K) (t n : Nat) (v : K) : Res (Mem K) := do
  let m ← m.clear t
  .ok (m.allocFor t (List.replicate n v))

/-- `reinit(ref, start, size)`. src/lib/math/Vec.cpp:56-64 -/
def Mem.reinitView (m : Mem K) (t r start size : Nat) : Res (Mem K) := do
  let m ← m.clear t
  let o ← Res.read m.objs r
  let p ← o.ptr
  Res.guard (decide ((start + size) % 2 ^ 32 ≤ o.size))
  .ok { m with objs := m.objs.set t ⟨false, some (p.1, p.2 + start), size⟩ }

/-- `fill(val)`. src/lib/math/Vec.cpp:97-101 -/
def Mem.fill (m : Mem K) (t : Nat) (v : K) : Res (Mem K) := do
  let o ← Res.read m.objs t
  let p ← o.ptr
  m.writeRange p.1 p.2 (List.replicate o.size v)

/-- Assignment through `operator[]`. src/lib/math/Vec.cpp:106-110 -/
def Mem.set (m : Mem K) (t i : Nat) (v : K) : Res (Mem K) := do
  let o ← Res.read m.objs t
  let p ← o.ptr
  Res.guard (decide (i < o.size))
  m.setCell p.1 (p.2 + i) v

/-- `operator[]`. src/lib/math/Vec.cpp:113-117 -/
def Mem.get (m : Mem K) (t i : Nat) : Res K := do
  let o ← Res.read m.objs t
  let p ← o.ptr
  Res.guard (decide (i < o.size))
  m.cell p.1 (p.2 + i)

/-- `memcpy` between two ranges of `n` values: overlapping ranges are undefined.
C library, called in Vec.cpp:19 and in the assignments. -/
def Mem.memcpy (m : Mem K) (dst src : Nat × Nat) (n : Nat) : Res (Mem K) :=
  if 0 < n ∧ dst.1 = src.1 ∧ dst.2 < src.2 + n ∧ src.2 < dst.2 + n then .ub
  else do
    let l ← m.readRange src.1 src.2 n
    m.writeRange dst.1 dst.2 l

/-- `operator=`. src/lib/math/Vec.cpp:216-228 -/
def Mem.assign [Zero K] (m : Mem K) (t s : Nat) : Res (Mem K) :=
  if t = s then .ok m
  else do
    let o ← Res.read m.objs s
    match o.data with
    | none => m.clear t
    | some p => do
      let ot ← Res.read m.objs t
      if ot.size = o.size then do
        -- an object without data has size 0, so nothing is copied then
        match ot.data with
        | some q => m.memcpy q p o.size
        | none => if o.size = 0 then .ok m else .ub
      else do
        let m ← m.reinit t o.size 0
        let ot ← Res.read m.objs t
        let q ← ot.ptr
        m.memcpy q p o.size

/-- `operator+=`, `operator-=`: element by element. src/lib/math/Vec.cpp:193-214 -/
def Mem.opAssign (f : K → K → K) (m : Mem K) (t s : Nat) : Res (Mem K) := do
  let ot ← Res.read m.objs t
  let q ← ot.ptr
  let o ← Res.read m.objs s
  let p ← o.ptr
  Res.guard (decide (ot.size = o.size))
  Res.foldlM' (fun m i => do
    let x ← m.cell q.1 (q.2 + i)
    let y ← m.cell p.1 (p.2 + i)
    m.setCell q.1 (q.2 + i) (f x y)) m (List.range ot.size)

/-- A new object owning a fresh block. Vec.cpp:16-24, 38-40. -/
def Mem.newOwner (m : Mem K) (l : List K) : Mem K :=
  ⟨m.heap ++ [some l], m.objs ++ [⟨true, some (m.heap.length, 0), l.length⟩]⟩

/-- The contents of an object, read through its pointer. Vec.cpp:109-270. -/
def Mem.readObj (m : Mem K) (s : Nat) : Res (List K) := do
  let o ← Res.read m.objs s
  let p ← o.ptr
  m.readRange p.1 p.2 o.size

/-- Copy constructor. src/lib/math/Vec.cpp:16-24 -/
def Mem.copy (m : Mem K) (s : Nat) : Res (Mem K) := do
  let o ← Res.read m.objs s
  match o.data with
  | none => .ok { m with objs := m.objs ++ [Obj.empty] }
  | some p => do
    let l ← m.readRange p.1 p.2 o.size
    .ok (m.newOwner l)

/-- Move constructor. src/lib/math/Vec.cpp:27-35 -/
def Mem.move (m : Mem K) (s : Nat) : Res (Mem K) := do
  let o ← Res.read m.objs s
  .ok { m with objs := m.objs.set s Obj.empty ++ [o] }

/-- Binary operators returning a new vector (`+`, `-`). src/lib/math/Vec.cpp:130-156 -/
def Mem.binop (f : K → K → K) (m : Mem K) (s r : Nat) : Res (Mem K) := do
  let x ← m.readObj s
  let y ← m.readObj r
  Res.guard (decide (x.length = y.length))
  .ok (m.newOwner (List.zipWith f x y))

/-- Operators returning a new vector from one vector (`-`, `*`, `/` by a number). src/lib/math/Vec.cpp:120-127, 159-190 -/
def Mem.unop (f : K → K) (m : Mem K) (s : Nat) : Res (Mem K) := do
  let x ← m.readObj s
  .ok (m.newOwner (x.map f))

/-- The calls of the interface. Constructions append an object. Vec.cpp:11-270. -/
inductive Op (K : Type) where
  | default
  | new (n : Nat) (v : K)
  | copy (s : Nat)
  | move (s : Nat)
  | view (r start size : Nat)
  | reinit (t n : Nat) (v : K)
  | reinitView (t r start size : Nat)
  | clear (t : Nat)
  | fill (t : Nat) (v : K)
  | set (t i : Nat) (v : K)
  | assign (t s : Nat)
  | opAssign (f : K → K → K) (t s : Nat)
  | binop (f : K → K → K) (s r : Nat)
  | unop (f : K → K) (s : Nat)

/-- Executing a call. `dVec(ref, start, size)` is `reinit(ref, start, size)` on a default object
(src/lib/math/Vec.cpp:43-45). -/
def step [Zero K] (m : Mem K) : Op K → Res (Mem K)
  | .default => .ok { m with objs := m.objs ++ [Obj.empty] }
  | .new n v => .ok (m.newOwner (List.replicate n v))
  | .copy s => m.copy s
  | .move s => m.move s
  | .view r start size => Mem.reinitView { m with objs := m.objs ++ [Obj.empty] } m.objs.length r start size
  | .reinit t n v => m.reinit t n v
  | .reinitView t r start size => m.reinitView t r start size
  | .clear t => m.clear t
  | .fill t v => m.fill t v
  | .set t i v => m.set t i v
  | .assign t s => m.assign t s
  | .opAssign f t s => m.opAssign f t s
  | .binop f s r => m.binop f s r
  | .unop f s => m.unop f s

end Nla3d.DVec
