import Verif.Base

/-!
# Model of `src/lib/math/SparseMatrix.{h,cpp}`

`double` is an arbitrary type with the operations used; `uint32` is `Nat`.
Simplifications, valid for every object that fits in memory: `nRows*maxInRow`,
`numberOfValues` and the sum of two positions (`en+st` in `getIndex`) are assumed to
stay below `2^32`, so unsigned wrap-around is not modelled; `nColumns < 2^32-1`, so
that no column number collides with the sentinel `invalid`.
-/

namespace Nla3d.Sparse

/-- `SparsityInfo::invalid`, SparseMatrix.cpp:11. -/
def invalid : Nat := 4294967295

/-- Members of `class SparsityInfo`, SparseMatrix.h:50-71. The raw pointers `columns`
and `iofeir` are lists whose length is the allocated extent. `SparsityInfo` objects
are only modelled after `reinit` (pointers not null). -/
structure SpInfo where
  nRows : Nat
  nColumns : Nat
  maxInRow : Nat
  numberOfValues : Nat
  columns : List Nat
  iofeir : List Nat
  compressed : Bool
  deriving Repr, DecidableEq

/-- The loop `iofeir[i] = iofeir[i-1] + maxInRow`, SparseMatrix.cpp:56-59: the entries
after position `i` when the last written entry is `last`. -/
def iofeirLoop (maxInRow : Nat) : (remaining : Nat) → (last : Nat) → List Nat
  | 0, _ => []
  | n + 1, last => (last + maxInRow) :: iofeirLoop maxInRow n (last + maxInRow)

/-- `SparsityInfo::reinit`, SparseMatrix.cpp:44-60 (also the constructor, 18-20). -/
def SpInfo.init (nrows ncols max_in_row : Nat) : Res SpInfo :=
  if max_in_row > 0 then
    let m := if max_in_row < ncols then max_in_row else ncols
    .ok {
      nRows := nrows
      nColumns := ncols
      maxInRow := m
      numberOfValues := 0
      columns := List.replicate (nrows * m) invalid
      iofeir := 1 :: iofeirLoop m nrows 1
      compressed := false }
  else .assert

/-- What the scan of `addEntry` ends with. SparseMatrix.cpp:73-84. -/
inductive Scan where
  | dup            -- `if (columns[i] == _j) return;`
  | slot (i : Nat) -- free slot found
  | full           -- loop ends
  | oob            -- read outside of `columns`
  deriving Repr, DecidableEq

/-- The `for` loop of `addEntry`, SparseMatrix.cpp:73-82: `n` positions left, next is `i`. -/
def addScan (cols : List Nat) (j : Nat) : (i : Nat) → (n : Nat) → Scan
  | _, 0 => .full
  | i, n + 1 =>
    match cols[i]? with
    | none => .oob
    | some c =>
      if c = j then .dup
      else if c = invalid then .slot i
      else addScan cols j (i + 1) n

/-- `SparsityInfo::addEntry`, SparseMatrix.cpp:64-85. -/
def SpInfo.addEntry (s : SpInfo) (i j : Nat) : Res SpInfo :=
  if ¬ (0 < i ∧ i ≤ s.nRows) then .assert
  else if ¬ (0 < j ∧ j ≤ s.nColumns) then .assert
  else if s.compressed then .assert
  else do
    let a ← Res.read s.iofeir (i - 1)
    let b ← Res.read s.iofeir i
    match addScan s.columns j (a - 1) ((b - 1) - (a - 1)) with
    | .dup => .ok s
    | .slot p => .ok { s with columns := s.columns.set p j, numberOfValues := s.numberOfValues + 1 }
    | .full => .fatal
    | .oob => .ub

/-- Inner loop of `compress`, SparseMatrix.cpp:97-100: read from position `j`, at most `n`
entries, stop at the sentinel. -/
def takeRow (old : List Nat) : (j : Nat) → (n : Nat) → Res (List Nat)
  | _, 0 => .ok []
  | j, n + 1 => do
    let c ← Res.read old j
    if c = invalid then .ok []
    else do
      let rest ← takeRow old (j + 1) n
      .ok (c :: rest)

/-- Outer loop of `compress`, SparseMatrix.cpp:96-107: row `i`, `n` rows left. Returns the
new `columns` and the new `iofeir[i..]` without the last element. `acc` is what has been
written to the new `columns` (extent `numberOfValues`) so far. `std::sort` on a segment is
its documented contract (ascending permutation), here `List.mergeSort`. Sorting a
segment of length 0 or 1 (skipped in the code) changes nothing. -/
def compressLoop (s : SpInfo) : (i : Nat) → (n : Nat) → (acc : List Nat) → Res (List Nat × List Nat)
  | _, 0, acc => .ok (acc, [])
  | i, n + 1, acc => do
    let a ← Res.read s.iofeir i
    let b ← Res.read s.iofeir (i + 1)
    let row ← takeRow s.columns (a - 1) ((b - 1) - (a - 1))
    if s.numberOfValues < acc.length + row.length then .ub
    else do
      let sorted := if row.length > 1 then row.mergeSort (· ≤ ·) else row
      let (cols, iof) ← compressLoop s (i + 1) n (acc ++ sorted)
      .ok (cols, (acc.length + 1) :: iof)

/-- `SparsityInfo::compress`, SparseMatrix.cpp:88-114. -/
def SpInfo.compress (s : SpInfo) : Res SpInfo :=
  if s.compressed then .ok s
  else do
    let (cols, iof) ← compressLoop s 0 s.nRows []
    if cols.length = s.numberOfValues then
      .ok { s with columns := cols, iofeir := iof ++ [cols.length + 1], compressed := true }
    else .assert

/-- `SparsityInfo::nElementsInRow`, SparseMatrix.h:193-197. -/
def SpInfo.nElementsInRow (s : SpInfo) (row : Nat) : Res Nat :=
  if 0 < row ∧ row ≤ s.nRows then do
    let b ← Res.read s.iofeir row
    let a ← Res.read s.iofeir (row - 1)
    .ok (b - a)
  else .assert

/-- The `while(1)` loop of `getIndex`, SparseMatrix.cpp:131-152, on the closed range `[st, en]`.
`none` is `invalid`. `(uint32)((en+st)*0.5)` is `(en+st)/2`. The branch `en < st` cannot be
reached from `getIndex` (the C++ loop would run on a wrapped-around range). -/
def getIndexLoop (cols : List Nat) (j st en : Nat) : Res (Option Nat) :=
  if en < st then .ub
  else if en - st = 1 then do
    let a ← Res.read cols st
    if a = j then .ok (some st)
    else do
      let b ← Res.read cols en
      if b = j then .ok (some en) else .ok none
  else
    let ind := (en + st) / 2
    match cols[ind]? with
    | none => .ub
    | some c =>
      if c = j then .ok (some ind)
      else if en = st then .ok none
      else if c > j then getIndexLoop cols j st ind
      else getIndexLoop cols j ind en
termination_by en - st
decreasing_by all_goals omega

/-- `SparsityInfo::getIndex`, SparseMatrix.cpp:117-154. -/
def SpInfo.getIndex (s : SpInfo) (i j : Nat) : Res (Option Nat) :=
  if ¬ (0 < i ∧ i ≤ s.nRows) then .assert
  else if ¬ (0 < j ∧ j ≤ s.nColumns) then .assert
  else do
    let a ← Res.read s.iofeir (i - 1)
    let b ← Res.read s.iofeir i
    if a - 1 = b - 1 then .ok none
    else getIndexLoop s.columns j (a - 1) (b - 1 - 1)

/-- A matrix object: `class BaseSparseMatrix`, SparseMatrix.h:125-129. `si` is the object behind
the `shared_ptr` (sharing is modelled in `Verif/Block`), `values = none` is the null pointer. -/
structure SpMat (K : Type _) where
  si : SpInfo
  values : Option (List K)
  deriving Repr, DecidableEq

variable {K : Type _}

/-- `BaseSparseMatrix(_nrows, _ncolumns, _max_in_row)`, SparseMatrix.cpp:268-271, and
`SparseMatrix::reinit` 370-376 / `SparseSymMatrix::reinit` 442-448 (which drop the values). -/
def SpMat.init (nrows ncols max_in_row : Nat) : Res (SpMat K) := do
  let si ← SpInfo.init nrows ncols max_in_row
  .ok { si := si, values := none }

/-- The diagonal loop of the constructor `SparseSymMatrix(_nrows, _max_in_row)`,
SparseMatrix.cpp:428-430: rows `i .. i+n-1`. -/
def addDiag (si : SpInfo) : (i n : Nat) → Res SpInfo
  | _, 0 => .ok si
  | i, n + 1 => do
    let si ← si.addEntry i i
    addDiag si (i + 1) n

/-- Constructor `SparseSymMatrix(_nrows, _max_in_row)`, SparseMatrix.cpp:423-431. -/
def SpMat.initSym (nrows max_in_row : Nat) : Res (SpMat K) := do
  let si ← SpInfo.init nrows nrows max_in_row
  let si ← addDiag si 1 si.nRows
  .ok { si := si, values := none }

/-- `SparseMatrix::addEntry`, SparseMatrix.h:249-252. -/
def SpMat.addEntry (m : SpMat K) (i j : Nat) : Res (SpMat K) := do
  let si ← m.si.addEntry i j
  .ok { m with si := si }

/-- `SparseSymMatrix::addEntry`, SparseMatrix.h:259-265: swap into the upper triangle. -/
def SpMat.addEntrySym (m : SpMat K) (i j : Nat) : Res (SpMat K) :=
  if i > j then m.addEntry j i else m.addEntry i j

/-- `BaseSparseMatrix::zero`, SparseMatrix.h:200-204: `fill_n(values, numberOfValues, 0.0)`. -/
def SpMat.zero [Zero K] (m : SpMat K) : Res (SpMat K) :=
  match m.values with
  | none => .assert
  | some v =>
    if m.si.numberOfValues ≤ v.length then
      .ok { m with values := some (List.replicate m.si.numberOfValues 0 ++ v.drop m.si.numberOfValues) }
    else .ub

/-- `BaseSparseMatrix::compress`, SparseMatrix.cpp:325-338. -/
def SpMat.compress [Zero K] (m : SpMat K) : Res (SpMat K) :=
  if m.si.compressed && m.values.isSome then .ok m
  else do
    let si ← if m.si.compressed then Res.ok m.si else m.si.compress
    -- `values = new double[si->numberOfValues]; zero();`
    .ok { si := si, values := some (List.replicate si.numberOfValues 0) }

/-- The reference returned by `SparseMatrix::operator()`, SparseMatrix.cpp:395-404: the position
inside `values`, fatal when the entry is absent. -/
def SpMat.ref (m : SpMat K) (i j : Nat) : Res Nat :=
  match m.values with
  | none => .assert
  | some v => do
    match ← m.si.getIndex i j with
    | none => .fatal
    | some k => if k < v.length then .ok k else .ub

/-- `SparseMatrix::value`, SparseMatrix.cpp:406-415. -/
def SpMat.value [Zero K] (m : SpMat K) (i j : Nat) : Res K :=
  match m.values with
  | none => .assert
  | some v => do
    match ← m.si.getIndex i j with
    | none => .ok 0
    | some k => Res.read v k

/-- `SparseMatrix::addValue`, SparseMatrix.h:254-256: `operator()(i,j) += value`. -/
def SpMat.addValue [Add K] (m : SpMat K) (i j : Nat) (x : K) : Res (SpMat K) :=
  match m.values with
  | none => .assert
  | some v => do
    let k ← m.ref i j
    let old ← Res.read v k
    .ok { m with values := some (v.set k (old + x)) }

/-- `SparseSymMatrix::value`, SparseMatrix.cpp:482-494. -/
def SpMat.valueSym [Zero K] (m : SpMat K) (i j : Nat) : Res K :=
  if i > j then m.value j i else m.value i j

/-- `SparseSymMatrix::addValue`, SparseMatrix.h:267-269 with `operator()`, SparseMatrix.cpp:467-479. -/
def SpMat.addValueSym [Add K] (m : SpMat K) (i j : Nat) (x : K) : Res (SpMat K) :=
  if i > j then m.addValue j i x else m.addValue i j x

/-! ## Reading, writing, comparing -/

/-- Element loops of `compare`, SparseMatrix.cpp:241-257: positions `i .. i+n-1` of both arrays;
`bad x y` is the test that makes `compare` return false. -/
def cmpLoop {α : Type _} (bad : α → α → Bool) (a b : List α) : (i n : Nat) → Res Bool
  | _, 0 => .ok true
  | i, n + 1 => do
    let x ← Res.read a i
    let y ← Res.read b i
    if bad x y then .ok false else cmpLoop bad a b (i + 1) n

/-- `BaseSparseMatrix::compare`, SparseMatrix.cpp:222-261. `gtTh d` is `fabs(d) > th`. -/
def SpMat.compare [Sub K] (gtTh : K → Bool) (a b : SpMat K) : Res Bool :=
  match a.values, b.values with
  | some va, some vb =>
    if ¬ (a.si.compressed && b.si.compressed) then .assert
    else if a.si.nRows ≠ b.si.nRows ∨ a.si.nColumns ≠ b.si.nColumns then .ok false
    else if a.si.numberOfValues ≠ b.si.numberOfValues then .ok false
    else do
      let r1 ← cmpLoop (fun x y => decide (x ≠ y)) a.si.iofeir b.si.iofeir 0 (a.si.nRows + 1)
      if r1 = false then .ok false else do
      let r2 ← cmpLoop (fun x y => decide (x ≠ y)) a.si.columns b.si.columns 0 a.si.numberOfValues
      if r2 = false then .ok false else
      cmpLoop (fun x y => gtTh (x - y)) va vb 0 a.si.numberOfValues
  | _, _ => .assert

/-- One entry, `struct SparseEntry`, SparseMatrix.h:76-80. -/
structure Entry (K : Type _) where
  i : Nat
  j : Nat
  v : K
  deriving Repr, DecidableEq

/-- Inner loop of `writeCoordinateTextFormat`, SparseMatrix.cpp:195-198: row `i`, positions
`p .. p+n-1`. -/
def writeRow (cols : List Nat) (vals : List K) (i : Nat) : (p n : Nat) → Res (List (Entry K))
  | _, 0 => .ok []
  | p, n + 1 => do
    let c ← Res.read cols p
    let v ← Res.read vals p
    let rest ← writeRow cols vals i (p + 1) n
    .ok (⟨i, c, v⟩ :: rest)

/-- Outer loop of `writeCoordinateTextFormat`, SparseMatrix.cpp:194-199: rows `i .. i+n-1`. -/
def writeRows (s : SpInfo) (vals : List K) : (i n : Nat) → Res (List (Entry K))
  | _, 0 => .ok []
  | i, n + 1 => do
    let a ← Res.read s.iofeir (i - 1)
    let b ← Res.read s.iofeir i
    let row ← writeRow s.columns vals i (a - 1) ((b - 1) - (a - 1))
    let rest ← writeRows s vals (i + 1) n
    .ok (row ++ rest)

/-- `BaseSparseMatrix::writeCoordinateTextFormat`, SparseMatrix.cpp:184-204. The text file is
modelled by what stands on its lines: the header `nRows nColumns numberOfValues` and one triple per
line. The values pass through the decimal representation, see `rnd` in `readCoords`. -/
def SpMat.writeCoords (m : SpMat K) : Res ((Nat × Nat × Nat) × List (Entry K)) :=
  match m.values with
  | none => .assert
  | some vals =>
    if ¬ m.si.compressed then .assert
    else do
      let es ← writeRows m.si vals 1 m.si.nRows
      if es.length = m.si.numberOfValues then
        .ok ((m.si.nRows, m.si.nColumns, m.si.numberOfValues), es)
      else .assert

/-- `entriesInRow[v.i - 1] += 1`, SparseMatrix.cpp:298-301. `v.i = 0` addresses element `2^32-1`. -/
def countRow (cnt : List Nat) (e : Entry K) : Res (List Nat) :=
  if e.i = 0 then .ub
  else do
    let c ← Res.read cnt (e.i - 1)
    .ok (cnt.set (e.i - 1) (c + 1))

/-- The value loop of `reinit`, SparseMatrix.cpp:315-322. -/
def setEntry (m : SpMat K) (e : Entry K) : Res (SpMat K) :=
  match m.values with
  | none => .ub
  | some v => do
    match ← m.si.getIndex e.i e.j with
    | none => .fatal
    | some k => if k < v.length then .ok { m with values := some (v.set k e.v) } else .ub

/-- `BaseSparseMatrix::reinit(nrows, ncols, entries)`, SparseMatrix.cpp:285-323. The previous content
of the object is dropped: `si` is replaced by a fresh, uncompressed one, so `compress()` reallocates
`values`. `*max_element` of an empty `entriesInRow` is not reached (the count loop fails first). -/
def SpMat.reinitEntries [Zero K] (nrows ncols : Nat) (es : List (Entry K)) : Res (SpMat K) :=
  if es = [] then do
    let m ← SpMat.init nrows ncols 1
    m.compress
  else do
    let cnt ← Res.foldlM' countRow (List.replicate nrows 0) es
    let m ← SpMat.init nrows ncols (cnt.foldl max 0)
    let m ← Res.foldlM' (fun m (e : Entry K) => m.addEntry e.i e.j) m es
    let m ← m.compress
    Res.foldlM' setEntry m es

/-- `BaseSparseMatrix::readCoordinateTextFormat`, SparseMatrix.cpp:207-219. `rnd` maps a value to what
is read back after printing with 16 significant digits. A file with fewer triples than announced
leaves `entry` indeterminate. -/
def SpMat.readCoords [Zero K] (rnd : K → K) (file : (Nat × Nat × Nat) × List (Entry K)) : Res (SpMat K) :=
  let (nr, nc, nv) := file.1
  if nv ≤ file.2.length then
    SpMat.reinitEntries nr nc ((file.2.take nv).map (fun e => { e with v := rnd e.v }))
  else .ub

/-! ## Products -/

/-- Inner loop of `matBVprod(SparseMatrix&)`, SparseMatrix.cpp:539-540: `R[i-1] += values[p]*V[columns[p]-1]*coef`
for positions `p .. p+n-1`; `r` is the current `R[i-1]`. Column number 0 would address `V[2^32-1]`. -/
def rowProd [Add K] [Mul K] (cols : List Nat) (vals V : List K) (coef : K) : (p n : Nat) → (r : K) → Res K
  | _, 0, r => .ok r
  | p, n + 1, r => do
    let x ← Res.read vals p
    let c ← Res.read cols p
    if c = 0 then .ub else do
    let v ← Res.read V (c - 1)
    rowProd cols vals V coef (p + 1) n (r + x * v * coef)

/-- Outer loop of `matBVprod(SparseMatrix&)`, SparseMatrix.cpp:530-541. The test for an empty row is the
inner loop not running (`en = st - 1`). -/
def bvLoop [Add K] [Mul K] (s : SpInfo) (vals V : List K) (coef : K) : (i n : Nat) → (R : List K) → Res (List K)
  | _, 0, R => .ok R
  | i, n + 1, R => do
    let a ← Res.read s.iofeir (i - 1)
    let b ← Res.read s.iofeir i
    if b - a = 0 then bvLoop s vals V coef (i + 1) n R
    else do
      let r ← Res.read R (i - 1)
      let r' ← rowProd s.columns vals V coef (a - 1) ((b - 2) + 1 - (a - 1)) r
      bvLoop s vals V coef (i + 1) n (R.set (i - 1) r')

/-- `matBVprod(SparseMatrix&, ...)`, SparseMatrix.cpp:522-542. -/
def SpMat.matBVprod [Add K] [Mul K] (B : SpMat K) (V : List K) (coef : K) (R : List K) : Res (List K) :=
  match B.values with
  | none => .assert
  | some vals =>
    if ¬ (B.si.compressed ∧ B.si.nColumns = V.length ∧ B.si.nRows ≤ R.length) then .assert
    else bvLoop B.si vals V coef 1 B.si.nRows R

/-- Inner loop of `matBTVprod`, SparseMatrix.cpp:558-559: `R[columns[p]-1] += values[p]*V[i-1]*coef`. -/
def rowProdT [Add K] [Mul K] (cols : List Nat) (vals : List K) (v coef : K) : (p n : Nat) → (R : List K) → Res (List K)
  | _, 0, R => .ok R
  | p, n + 1, R => do
    let x ← Res.read vals p
    let c ← Res.read cols p
    if c = 0 then .ub else do
    let r ← Res.read R (c - 1)
    rowProdT cols vals v coef (p + 1) n (R.set (c - 1) (r + x * v * coef))

/-- Outer loop of `matBTVprod`, SparseMatrix.cpp:552-560. -/
def btvLoop [Add K] [Mul K] (s : SpInfo) (vals V : List K) (coef : K) : (i n : Nat) → (R : List K) → Res (List K)
  | _, 0, R => .ok R
  | i, n + 1, R => do
    let a ← Res.read s.iofeir (i - 1)
    let b ← Res.read s.iofeir i
    if b - a = 0 then btvLoop s vals V coef (i + 1) n R
    else do
      let v ← Res.read V (i - 1)
      let R' ← rowProdT s.columns vals v coef (a - 1) ((b - 2) + 1 - (a - 1)) R
      btvLoop s vals V coef (i + 1) n R'

/-- `matBTVprod`, SparseMatrix.cpp:544-561. -/
def SpMat.matBTVprod [Add K] [Mul K] (B : SpMat K) (V : List K) (coef : K) (R : List K) : Res (List K) :=
  match B.values with
  | none => .assert
  | some vals =>
    if ¬ (B.si.compressed ∧ B.si.nRows = V.length ∧ B.si.nColumns ≤ R.length) then .assert
    else btvLoop B.si vals V coef 1 B.si.nRows R

/-- Inner loops of `matBVprod(SparseSymMatrix&)`, SparseMatrix.cpp:509-517: columns `j .. j+n-1` of row
`i`; `lower` tells which of the two loops runs (it only swaps the arguments of `value`). `big v` is
`fabs(v) > 1e-20`. -/
def symRow [Zero K] [Add K] [Mul K] (big : K → Bool) (B : SpMat K) (V : List K) (coef : K) (i : Nat) :
    (lower : Bool) → (j n : Nat) → (r : K) → Res K
  | _, _, 0, r => .ok r
  | lower, j, n + 1, r => do
    let v ← Res.read V (j - 1)
    if big v then do
      let x ← if lower then B.valueSym j i else B.valueSym i j
      symRow big B V coef i lower (j + 1) n (r + x * v * coef)
    else symRow big B V coef i lower (j + 1) n r

/-- Outer loop of `matBVprod(SparseSymMatrix&)`, SparseMatrix.cpp:507-518. -/
def symLoop [Zero K] [Add K] [Mul K] (big : K → Bool) (B : SpMat K) (V : List K) (coef : K) :
    (i n : Nat) → (R : List K) → Res (List K)
  | _, 0, R => .ok R
  | i, n + 1, R => do
    let r ← Res.read R (i - 1)
    let r1 ← symRow big B V coef i true 1 i r
    let r2 ← symRow big B V coef i false (i + 1) (B.si.nRows - i) r1
    symLoop big B V coef (i + 1) n (R.set (i - 1) r2)

/-- `matBVprod(SparseSymMatrix&, ...)`, SparseMatrix.cpp:497-519. -/
def SpMat.matBVprodSym [Zero K] [Add K] [Mul K] (big : K → Bool) (B : SpMat K) (V : List K) (coef : K)
    (R : List K) : Res (List K) :=
  match B.values with
  | none => .assert
  | some _ =>
    if ¬ (B.si.compressed ∧ B.si.nRows = V.length ∧ B.si.nRows ≤ R.length) then .assert
    else symLoop big B V coef 1 B.si.nRows R

end Nla3d.Sparse
