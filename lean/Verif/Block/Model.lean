import Verif.Sparse.Model

/-!
# Model of `src/lib/math/BlockSparseMatrix.h`

A `BlockSparseSymMatrix<nb>` owns `nb` diagonal and `nb*(nb+1)/2 - nb` off-diagonal sparse matrices.
The constructor `BlockSparseSymMatrix(ex)` makes the blocks of the new object point to the
`SparsityInfo` objects of `ex` (`shared_ptr`). To model the sharing, a `Family` is a block matrix together
with all its copies. It is stored block by block: `slots[b]` holds the one `SparsityInfo` of block `b` and,
for every matrix `q` of the family, the pointer `values` of its block `b`. Slots `0 .. nb-1` are the array
`diag`, the others the array `upper`.
-/

namespace Nla3d.Block

open Nla3d.Sparse

variable {K : Type _}

/-- One block of all matrices of the family. `si = none` is the null `shared_ptr` of a default-constructed
`SparseMatrix`. BlockSparseMatrix.h:63-64 (the arrays `diag` and `upper`), SparseMatrix.h:125-129. -/
structure Slot (K : Type _) where
  si : Option SpInfo
  vals : List (Option (List K))
  deriving Repr, DecidableEq

/-- A family of block matrices that share sparsity. `totals[q]` is `total_rows` and `flags[q]` is
`compressed` of matrix `q` (BlockSparseMatrix.h:66-68). -/
structure Family (K : Type _) where
  sizes : List Nat
  slots : List (Slot K)
  totals : List Nat
  flags : List Bool
  deriving Repr, DecidableEq

/-- `ind` of `block(i, j)` for `i < j`, BlockSparseMatrix.h:119: `int` arithmetic, then truncation to
`uint16`. -/
def upperIndex (nb i j : Nat) : Nat :=
  (((nb : Int) * ((i : Int) - 1) - ((i : Int) - 2) * ((i : Int) - 1) / 2 + ((j : Int) - i) - i) % 65536).toNat

/-- Number of off-diagonal blocks, BlockSparseMatrix.h:64. -/
def nUpper (nb : Nat) : Nat := nb * (nb + 1) / 2 - nb

/-- `block(i)` and `block(i, j)`, BlockSparseMatrix.h:107-123: the slot of the addressed block. -/
def blockSlot (nb i j : Nat) : Res Nat :=
  if i = j then
    if 0 < i ∧ i ≤ nb then .ok (i - 1) else .assert
  else
    let (i, j) := if i > j then (j, i) else (i, j)
    if upperIndex nb i j < nUpper nb then .ok (nb + upperIndex nb i j) else .assert

/-- The loop of `getBlockAndPosition`, BlockSparseMatrix.h:129-135. -/
def locateLoop : (sizes : List Nat) → (block pos : Nat) → Nat × Nat
  | [], block, pos => (block, pos)
  | n :: rest, block, pos => if pos ≤ n then (block, pos) else locateLoop rest (block + 1) (pos - n)

/-- `getBlockAndPosition`, BlockSparseMatrix.h:127-136, called on matrix `q`. -/
def Family.locate (F : Family K) (q i : Nat) : Res (Nat × Nat) := do
  let total ← Res.read F.totals q
  if 0 < i ∧ i ≤ total then .ok (locateLoop F.sizes 1 i) else .assert

/-- Apply `g` to slot `b`. The call through the pointer that `block` returns, BlockSparseMatrix.h:107-123. -/
def onSlot (slots : List (Slot K)) (b : Nat) (g : Slot K → Res (Slot K)) : Res (List (Slot K)) := do
  let s ← Res.read slots b
  let s' ← g s
  .ok (slots.set b s')

/-- Apply a member function of the sparse matrix `q` of a slot.
BlockSparseMatrix.h:140-168; the `assert(si)` of SparseMatrix.cpp:326, 397, 407 and SparseMatrix.h:201, 250, 260. -/
def Slot.call (q : Nat) (f : SpMat K → Res (SpMat K)) (s : Slot K) : Res (Slot K) :=
  match s.si with
  | none => .assert
  | some si => do
    let v ← Res.read s.vals q
    let r ← f ⟨si, v⟩
    .ok { si := some r.si, vals := s.vals.set q r.values }

/-- `addEntry`, BlockSparseMatrix.h:140-152. Inside a diagonal block `SparseSymMatrix::addEntry` runs. -/
def Family.addEntry (F : Family K) (q i j : Nat) : Res (Family K) := do
  let (i, j) := if i > j then (j, i) else (i, j)
  let (bi, pi) ← F.locate q i
  let (bj, pj) ← F.locate q j
  let b ← blockSlot F.sizes.length bi bj
  let slots ← onSlot F.slots b (Slot.call q (fun m =>
    if bi = bj then m.addEntrySym pi pj else m.addEntry pi pj))
  .ok { F with slots := slots }

/-- `addValue`, BlockSparseMatrix.h:156-168. -/
def Family.addValue [Add K] (F : Family K) (q i j : Nat) (x : K) : Res (Family K) := do
  let (i, j) := if i > j then (j, i) else (i, j)
  let (bi, pi) ← F.locate q i
  let (bj, pj) ← F.locate q j
  let b ← blockSlot F.sizes.length bi bj
  let slots ← onSlot F.slots b (Slot.call q (fun m =>
    if bi = bj then m.addValueSym pi pj x else m.addValue pi pj x))
  .ok { F with slots := slots }

/-- The two loops of `zero` / `compress`: all diagonal, then all off-diagonal blocks. BlockSparseMatrix.h:171-195. -/
def allSlots (F : Family K) (g : Slot K → Res (Slot K)) : Res (List (Slot K)) :=
  Res.foldlM' (fun slots b => onSlot slots b g) F.slots (List.range (F.sizes.length + nUpper F.sizes.length))

/-- `zero`, BlockSparseMatrix.h:171-179. -/
def Family.zero [Zero K] (F : Family K) (q : Nat) : Res (Family K) := do
  let slots ← allSlots F (Slot.call q SpMat.zero)
  .ok { F with slots := slots }

/-- `compress`, BlockSparseMatrix.h:183-195. -/
def Family.compress [Zero K] (F : Family K) (q : Nat) : Res (Family K) := do
  let slots ← allSlots F (Slot.call q SpMat.compress)
  .ok { F with slots := slots, flags := F.flags.set q true }

/-- Pairs `(i, j)` visited by the nested loops of the constructors (BlockSparseMatrix.h:78-84 and 97-103),
1-based, in order: `(i,i), (i,i+1), .., (i,nb)`. -/
def blockPairs (nb : Nat) : List (Nat × Nat) :=
  (List.range nb).flatMap (fun i => (List.range (nb - i)).map (fun d => (i + 1, i + 1 + d)))

/-- Constructor `BlockSparseSymMatrix(rows_in_block, max_in_row)`, BlockSparseMatrix.h:73-85: one `reinit`
per visited block. `total_rows += rows_in_block[i]` is the sum of the sizes. -/
def Family.create (sizes : List Nat) (maxInRow : Nat) : Res (Family K) := do
  let nb := sizes.length
  let slots ← Res.foldlM' (fun slots (p : Nat × Nat) => do
      let b ← blockSlot nb p.1 p.2
      let ni ← Res.read sizes (p.1 - 1)
      let nj ← Res.read sizes (p.2 - 1)
      onSlot slots b (fun s => do
        let si ← SpInfo.init ni nj maxInRow
        .ok { s with si := some si, vals := [none] }))
    (List.replicate (nb + nUpper nb) { si := none, vals := [none] }) (blockPairs nb)
  .ok { sizes := sizes, slots := slots, totals := [sizes.sum], flags := [false] }

/-- One block of the constructor `BlockSparseSymMatrix(ex)`: `setSparsityInfo` (SparseMatrix.cpp:341-349) on a
fresh block, which compresses at once when the shared `SparsityInfo` already is compressed. -/
def Slot.share [Zero K] (s : Slot K) : Res (Slot K) :=
  match s.si with
  | none => .assert
  | some si =>
    if si.compressed then do
      let r ← SpMat.compress (K := K) ⟨si, none⟩
      .ok { si := some r.si, vals := s.vals ++ [r.values] }
    else .ok { s with vals := s.vals ++ [none] }

/-- Constructor `BlockSparseSymMatrix(ex)`, BlockSparseMatrix.h:89-104, with `ex` the matrix `q` of the family;
the new matrix gets the next free number. `total_rows` starts from `ex->total_rows` and the loop adds all
sizes once more. -/
def Family.copy [Zero K] (F : Family K) (q : Nat) : Res (Family K) := do
  let total ← Res.read F.totals q
  let flag ← Res.read F.flags q
  let slots ← Res.foldlM' (fun slots (p : Nat × Nat) => do
      let b ← blockSlot F.sizes.length p.1 p.2
      onSlot slots b Slot.share) F.slots (blockPairs F.sizes.length)
  .ok { F with slots := slots, totals := F.totals ++ [total + F.sizes.sum], flags := F.flags ++ [flag] }

/-- `nRows`, BlockSparseMatrix.h:203-205. -/
def Family.nRows (F : Family K) (q : Nat) : Res Nat := Res.read F.totals q

/-- `block(bi, bj)->value(pi, pj)` on matrix `q` (`block(bi)` when `bi = bj`).
BlockSparseMatrix.h:107-123, SparseMatrix.cpp:406-415, 482-494. -/
def Family.blockValue [Zero K] (F : Family K) (q bi bj pi pj : Nat) : Res K := do
  let b ← blockSlot F.sizes.length bi bj
  let s ← Res.read F.slots b
  match s.si with
  | none => .assert
  | some si => do
    let v ← Res.read s.vals q
    if bi = bj then SpMat.valueSym ⟨si, v⟩ pi pj else SpMat.value ⟨si, v⟩ pi pj

end Nla3d.Block
