import Verif.Solver.Model
import Mathlib.Data.Int.Log
import Mathlib.Algebra.Order.Round
import Mathlib.Data.Rat.Floor

/-!
# Model of the text dump of a system

Sources: `src/lib/FESolver.cpp:262-327`, `src/lib/math/SparseMatrix.cpp:184-219`, `src/lib/math/Vec.cpp:235-273`.

Simplifications. A text file is the list of its numbers: words for `uint32` values, numerals for `double` values. Printing
a `double` is a function to the value of the printed numeral (`sci` below for the format that is used).
-/

namespace Nla3d.Dump

open Nla3d.Sparse Nla3d.Block Nla3d.Storage Nla3d.Solver

variable {K : Type}

/-- A number of the file. Text written by SparseMatrix.cpp:184-204 and Vec.cpp. -/
inductive Tok (K : Type) where
  | nat (n : Nat)
  | num (v : K)

/-- `std::scientific` with `d` digits after the point: the nearest multiple of a unit in the last place. The matrices are
written with `precision(15)` (SparseMatrix.cpp:189-190). `out.setf(old_flags)` in line 203 does not remove
`std::scientific`, so the vectors are written in this format with the default precision 6. -/
def sci (d : Nat) (x : ℚ) : ℚ :=
  let u : ℚ := (10 : ℚ) ^ (Int.log 10 |x| - d)
  round (x / u) * u

/-- `writeCoordinateTextFormat`, SparseMatrix.cpp:184-204, as numbers. -/
def writeMat (rnd : K → K) (m : SpMat K) : Res (List (Tok K)) := do
  let f ← m.writeCoords
  .ok (.nat f.1.1 :: .nat f.1.2.1 :: .nat f.1.2.2 ::
    f.2.flatMap fun e => [.nat e.i, .nat e.j, .num (rnd e.v)])

/-- The loop of `readCoordinateTextFormat`, SparseMatrix.cpp:213-217. A number that is missing, or of the wrong kind, leaves
`entry` indeterminate. -/
def readEntries : Nat → List (Tok K) → Res (List (Entry K) × List (Tok K))
  | 0, ts => .ok ([], ts)
  | n + 1, .nat i :: .nat j :: .num v :: ts => do
    let r ← readEntries n ts
    .ok (⟨i, j, v⟩ :: r.1, r.2)
  | _, _ => .ub

/-- `readCoordinateTextFormat`, SparseMatrix.cpp:207-219. -/
def readMat [Zero K] : List (Tok K) → Res (SpMat K × List (Tok K))
  | .nat nr :: .nat nc :: .nat nv :: ts => do
    let r ← readEntries nv ts
    let m ← SpMat.reinitEntries nr nc r.1
    .ok (m, r.2)
  | _ => .ub

/-- `dVec::writeTextFormat`, Vec.cpp:255-260. -/
def writeVec (rnd : K → K) (v : List K) : List (Tok K) := .nat v.length :: v.map fun x => .num (rnd x)

/-- The loop of `readTextFormat`, Vec.cpp:267-269. -/
def readNums : Nat → List (Tok K) → Res (List K × List (Tok K))
  | 0, ts => .ok ([], ts)
  | n + 1, .num v :: ts => do
    let r ← readNums n ts
    .ok (v :: r.1, r.2)
  | _, _ => .ub

/-- `dVec::readTextFormat`, Vec.cpp:263-270. -/
def readVec : List (Tok K) → Res (List K × List (Tok K))
  | .nat n :: ts => readNums n ts
  | _ => .ub

/-- `dVec::compare`, Vec.cpp:235-252; the loop is the one of `compare` of matrices. -/
def compareVec [Sub K] (gtTh : K → Bool) (a b : List K) : Res Bool :=
  if a.length ≠ b.length then .ok false else cmpLoop (fun x y => gtTh (x - y)) a b 0 a.length

/-- The three blocks of matrix `q`, FESolver.cpp:264-266, 268-270, 271-273. -/
def dumpMat (rnd : K → K) (F : Family K) (q : Nat) : Res (List (Tok K)) := do
  let a ← writeMat rnd (← blockMat F q 1 1)
  let b ← writeMat rnd (← blockMat F q 1 2)
  let c ← writeMat rnd (← blockMat F q 2 2)
  .ok (a ++ (b ++ c))

/-- Blocks of several matrices. FESolver.cpp:264-274. -/
def dumpMats (rnd : K → K) (F : Family K) : List Nat → Res (List (Tok K))
  | [] => .ok []
  | q :: qs => do
    let a ← dumpMat rnd F q
    let b ← dumpMats rnd F qs
    .ok (a ++ b)

/-- The matrices that exist: `K`, and `C`, `M` for transient analyses. FESolver.cpp:267, 295. -/
def matrices (S : Storage K) : List Nat := if S.transient then [0, 1, 2] else [0]

/-- `FESolver::dumpMatricesAndVectors`, FESolver.cpp:262-280. `rm`, `rv`: printing of the values of matrices and vectors. -/
def dump (rm rv : K → K) (S : Storage K) (vecF vecR : List K) : Res (List (Tok K)) := do
  let F ← matOf S
  let a ← dumpMats rm F (matrices S)
  .ok (a ++ (writeVec rv vecF ++ writeVec rv vecR))

/-- Reading one block and `CHECK(..compare(..))`. FESolver.cpp:285-293. -/
def checkBlock [Zero K] [Sub K] (gtTh : K → Bool) (F : Family K) (q a b : Nat) (ts : List (Tok K)) : Res (List (Tok K)) := do
  let r ← readMat ts
  let m ← blockMat F q a b
  let eq ← m.compare gtTh r.1
  if eq then .ok r.2 else .fatal

/-- The blocks of one matrix, FESolver.cpp:285-293. -/
def checkMat [Zero K] [Sub K] (gtTh : K → Bool) (F : Family K) (q : Nat) (ts : List (Tok K)) : Res (List (Tok K)) := do
  let ts ← checkBlock gtTh F q 1 1 ts
  let ts ← checkBlock gtTh F q 1 2 ts
  checkBlock gtTh F q 2 2 ts

/-- The blocks of several matrices. FESolver.cpp:285-315. -/
def checkMats [Zero K] [Sub K] (gtTh : K → Bool) (F : Family K) : List Nat → List (Tok K) → Res (List (Tok K))
  | [], ts => .ok ts
  | q :: qs, ts => do
    let ts ← checkMat gtTh F q ts
    checkMats gtTh F qs ts

/-- Reading a vector and `CHECK(..compare(..))`. FESolver.cpp:317-324. -/
def checkVec [Sub K] (gtTh : K → Bool) (v : List K) (ts : List (Tok K)) : Res (List (Tok K)) := do
  let r ← readVec ts
  let eq ← compareVec gtTh v r.1
  if eq then .ok r.2 else .fatal

/-- `FESolver::compareMatricesAndVectors`, FESolver.cpp:283-327. -/
def compare [Zero K] [Sub K] (gtTh : K → Bool) (S : Storage K) (vecF vecR : List K) (ts : List (Tok K)) : Res Unit := do
  let F ← matOf S
  let ts ← checkMats gtTh F (matrices S) ts
  let ts ← checkVec gtTh vecF ts
  let _ ← checkVec gtTh vecR ts
  .ok ()

end Nla3d.Dump
