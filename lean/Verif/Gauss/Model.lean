import Verif.Loop
import Verif.Sparse.Model
import Mathlib.Algebra.Order.Field.Basic

/-!
# Model of `GaussDenseEquationSolver` (src/lib/math/EquationSolver.cpp:26-133)

`double` is an ordered field (exact arithmetic). Arrays are lists, every access is checked (`Res.read`, `Res.write`).
`int` overflow of `ip*n+i` is not modelled: the callers require `n < 1000`.
-/

namespace Nla3d.Gauss

variable {K : Type} [Field K] [LinearOrder K]

/-- The constant `1e-20`. src/lib/math/EquationSolver.cpp:86 -/
def eps : K := 1 / 10 ^ 20

/-- The pivot search. The first component is `imax`, `none` as long as it is not initialised.
src/lib/math/EquationSolver.cpp:74-82 -/
def pivotSearch (A : List K) (n i : Nat) : Res (Option Nat × K) :=
  Res.foldlM' (fun (s : Option Nat × K) ip => do
    let v ← Res.read A (ip * n + i)
    if s.2 < |v| then .ok (some ip, |v|) else .ok s) (none, 0) (List.range' i (n - i))

/-- Reading the possibly uninitialised `imax`. EquationSolver.cpp:70, 95-102. -/
def useIndex : Option Nat → Res Nat
  | some m => .ok m
  | none => .ub

/-- Exchange of two array elements through `tmp`. src/lib/math/EquationSolver.cpp:91-94, 97-100 -/
def swapAt (A : List K) (p q : Nat) : Res (List K) := do
  let tmp ← Res.read A p
  let y ← Res.read A q
  let A ← Res.write A p y
  Res.write A q tmp

/-- The row exchange. src/lib/math/EquationSolver.cpp:89-95 -/
def swapRows (A : List K) (n i m : Nat) : Res (List K) :=
  Res.foldlM' (fun A jp => swapAt A (i * n + jp) (m * n + jp)) A (List.range n)

/-- Elimination in row `ip`. src/lib/math/EquationSolver.cpp:105-112 -/
def elimRow (n i : Nat) (s : List K × List K) (ip : Nat) : Res (List K × List K) := do
  let p ← Res.read s.1 (ip * n + i)
  let q ← Res.read s.1 (i * n + i)
  let temp := p / q
  let A ← Res.foldlM' (fun A jp => do
    let v ← Res.read A (i * n + jp)
    let u ← Res.read A (ip * n + jp)
    Res.write A (ip * n + jp) (u - temp * v)) s.1 (List.range' i (n - i))
  let v ← Res.read s.2 i
  let u ← Res.read s.2 ip
  let B ← Res.write s.2 ip (u - temp * v)
  .ok (A, B)

/-- One column of the elimination; `none` after `return false`. src/lib/math/EquationSolver.cpp:70-114 -/
def column (n : Nat) (s : Option (List K × List K)) (i : Nat) : Res (Option (List K × List K)) :=
  match s with
  | none => .ok none
  | some (A, B) => do
    let r ← pivotSearch A n i
    if |r.2| < eps then .ok none
    else do
      let m ← useIndex r.1
      let A ← swapRows A n i m
      let B ← swapAt B i m
      let q ← Res.foldlM' (elimRow n i) (A, B) (List.range' (i + 1) (n - (i + 1)))
      .ok (some q)

/-- One row of the back substitution; `none` after `return false`. src/lib/math/EquationSolver.cpp:118-130 -/
def backRow (n : Nat) (A B : List K) (X : Option (List K)) (i : Nat) : Res (Option (List K)) :=
  match X with
  | none => .ok none
  | some X => do
    let d ← Res.read A (i * n + i)
    if |d| < eps then .ok none
    else do
      let b ← Res.read B i
      let temp ← Res.foldlM' (fun temp j => do
        let x ← Res.read X j
        let a ← Res.read A (i * n + j)
        .ok (temp - x * a)) b (List.range' (i + 1) (n - (i + 1))).reverse
      let X ← Res.write X i (temp / d)
      .ok (some X)

/-- `_solve`. The result is the return value and the contents of `X` (on success). src/lib/math/EquationSolver.cpp:64-133 -/
def solve (n : Nat) (X A B : List K) : Res (Option (List K)) := do
  let s ← Res.foldlM' (column n) (some (A, B)) (List.range n)
  match s with
  | none => .ok none
  | some (A, B) => Res.foldlM' (backRow n A B) (some X) (List.range' 0 n).reverse

/-- Filling the dense matrix, row by row. src/lib/math/EquationSolver.cpp:52-57. `matA` has `n * n` elements, row major
(src/lib/math/Mat.h, `dMat`). -/
def fill (M : Sparse.SpMat K) (n : Nat) : Res (List K) :=
  Res.foldlM' (fun A i => Res.foldlM' (fun A j => do
    let v ← M.valueSym (i + 1) (j + 1)
    Res.write A (i * n + j) v) A (List.range n)) (List.replicate (n * n) 0) (List.range n)

/-- `solveEquations`: `factorizeEquations` and `substituteEquations`. Result: the contents of `unknowns`.
src/lib/math/EquationSolver.cpp:26-62 -/
def solveEquations (M : Sparse.SpMat K) (rhs unknowns : List K) : Res (List K) := do
  Res.check (decide (M.si.nRows < 1000))
  let A ← fill M M.si.nRows
  let r ← solve M.si.nRows unknowns A rhs
  match r with
  | some X => .ok X
  | none => .fatal

end Nla3d.Gauss
