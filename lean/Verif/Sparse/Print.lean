import Verif.Sparse.Model
import Verif.Storage.Report

/-!
# Model of the printed forms of sparse matrices

`SparseMatrix::print`, `SparseSymMatrix::print`, `BaseSparseMatrix::printInternalData` (src/lib/math/SparseMatrix.cpp:157-181, 379-392,
451-465) and what `writeCoordinateTextFormat` does to the format of the stream (SparseMatrix.cpp:184-204). A stream is the text written
to it so far; `num` is `out << x` for a `double`. `std::endl` writes a line feed; flushing is left out.
-/

namespace Nla3d.Sparse

open Nla3d.Report (digits)

variable {K : Type}

/-- The inner loop of `print`, SparseMatrix.cpp:387-389, 459-461; `val` is `value(i, j)`. -/
def printCells (num : K → List Char) (val : Nat → Nat → Res K) (i m : Nat) (out : List Char) : Res (List Char) :=
  Res.foldlM' (fun out j => do
    let v ← val i (j + 1)
    .ok (out ++ (num v ++ ['\t']))) out (List.range m)

/-- `SparseMatrix::print`, SparseMatrix.cpp:379-392. -/
def SpMat.print [Zero K] (num : K → List Char) (a : SpMat K) (out : List Char) : Res (List Char) :=
  match a.values with
  | none => .assert
  | some _ =>
    if ¬ a.si.compressed then .assert
    else Res.foldlM' (fun out i => do
      let out ← printCells num a.value (i + 1) a.si.nColumns (out ++ ['['])
      .ok (out ++ [']', '\n'])) out (List.range a.si.nRows)

/-- `SparseSymMatrix::print`, SparseMatrix.cpp:451-465. -/
def SpMat.printSym [Zero K] (num : K → List Char) (a : SpMat K) (out : List Char) : Res (List Char) :=
  match a.values with
  | none => .assert
  | some _ =>
    if ¬ a.si.compressed then .assert
    else Res.foldlM' (fun out i => do
      let out ← printCells num a.valueSym (i + 1) a.si.nColumns out
      .ok (out ++ ['\n'])) out (List.range a.si.nRows)

/-- The loop over `n` elements of an array from position `p`, SparseMatrix.cpp:163-165, 170-172, 177-179. -/
def printArray {α : Type} (num : α → List Char) (l : List α) (p n : Nat) (out : List Char) : Res (List Char) :=
  Res.foldlM' (fun out i => do
    let v ← Res.read l (p + i)
    .ok (out ++ (num v ++ ['\t']))) out (List.range n)

/-- `printInternalData`, SparseMatrix.cpp:157-181. -/
def SpMat.printInternal (num : K → List Char) (a : SpMat K) (out : List Char) : Res (List Char) :=
  match a.values with
  | none => .assert
  | some vals =>
    if ¬ a.si.compressed then .assert
    else do
      let out ← printArray num vals 0 a.si.numberOfValues (out ++ "values = {".toList)
      let out := out ++ "}\n".toList
      let out ← Res.foldlM' (fun out i => do
        let p ← Res.read a.si.iofeir i
        let q ← Res.read a.si.iofeir (i + 1)
        printArray digits a.si.columns (p - 1) ((q - 1) - (p - 1)) out) (out ++ "columns = {".toList) (List.range a.si.nRows)
      let out := out ++ "}\n".toList
      let out ← printArray digits a.si.iofeir 0 (a.si.nRows + 1) (out ++ "iofeir = {".toList)
      .ok (out ++ "}\n".toList)

/-- The part of `std::ios_base` that decides how a `double` is written: precision and the two bits of `floatfield` (none: `%g`, one:
`%f` or `%e`, both: `%a`). C++ library, used in SparseMatrix.cpp:189-190, 202-203. -/
structure Fmt where
  precision : Nat
  fixed : Bool
  scientific : Bool
  deriving Repr, DecidableEq

/-- `setf(scientific, floatfield)`: clears the field, then sets the bit. SparseMatrix.cpp:190. -/
def Fmt.toScientific (f : Fmt) : Fmt := { f with fixed := false, scientific := true }

/-- `setf(flags)` with the flags of `old`: sets bits, clears none. SparseMatrix.cpp:203. -/
def Fmt.addFlags (f old : Fmt) : Fmt := { f with fixed := f.fixed || old.fixed, scientific := f.scientific || old.scientific }

/-- The format while `writeCoordinateTextFormat` writes and the format afterwards. SparseMatrix.cpp:189-190, 202-203. -/
def coordFmt (old : Fmt) : Fmt × Fmt :=
  let f := Fmt.toScientific { old with precision := 15 }
  (f, Fmt.addFlags { f with precision := old.precision } old)

end Nla3d.Sparse
