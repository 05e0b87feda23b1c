import Verif.Sparse.Model
import Mathlib.Data.Finset.Card
import Mathlib.Data.List.Dedup

/-!
# Specification of the sparse matrices

The abstract view: a matrix is a set of registered positions and, per position, the sum of what was
added since it was last zeroed. Nothing here refers to how the matrix is stored.
-/

namespace Nla3d.Sparse

/-- Positions are 1-based and inside the shape. -/
def InRange (n m : Nat) (es : List (Nat × Nat)) : Prop :=
  ∀ p ∈ es, (0 < p.1 ∧ p.1 ≤ n) ∧ (0 < p.2 ∧ p.2 ≤ m)

/-- Set of the columns registered in row `i`. -/
def colsOf (es : List (Nat × Nat)) (i : Nat) : Finset Nat :=
  ((es.filter (fun p => p.1 = i)).map Prod.snd).toFinset

/-- A call on a compressed matrix. -/
inductive Op (K : Type _) where
  | add (i j : Nat) (v : K)
  | zero
  deriving Repr, DecidableEq

/-- Position of an `add`. -/
def Op.InRange {K : Type _} (n m : Nat) : Op K → Prop
  | .add i j _ => (0 < i ∧ i ≤ n) ∧ (0 < j ∧ j ≤ m)
  | .zero => True

/-- The position `op` adds to, if any, is registered. -/
def Op.Registered {K : Type _} (es : List (Nat × Nat)) : Op K → Prop
  | .add i j _ => (i, j) ∈ es
  | .zero => True

variable {K : Type _}

/-- Sum of what was added to `(i,j)` since the last `zero`. -/
def total [Zero K] [Add K] (ops : List (Op K)) (i j : Nat) : K :=
  ops.foldl (fun acc op => match op with
    | .add a b v => if a = i ∧ b = j then acc + v else acc
    | .zero => 0) 0

/-- Same for a symmetric matrix: `(i,j)` and `(j,i)` are the same position. -/
def totalSym [Zero K] [Add K] (ops : List (Op K)) (i j : Nat) : K :=
  ops.foldl (fun acc op => match op with
    | .add a b v => if (a = i ∧ b = j) ∨ (a = j ∧ b = i) then acc + v else acc
    | .zero => 0) 0

/-- Registration phase through the API: constructor, then `addEntry` calls. -/
def register (n m k : Nat) (es : List (Nat × Nat)) : Res (SpMat K) := do
  let a ← SpMat.init n m k
  Res.foldlM' (fun (a : SpMat K) p => a.addEntry p.1 p.2) a es

/-- One call on a compressed matrix. -/
def step [Zero K] [Add K] (a : SpMat K) : Op K → Res (SpMat K)
  | .add i j v => a.addValue i j v
  | .zero => a.zero

/-- Whole life of a `SparseMatrix`: constructor, registration, `compress`, value calls. -/
def build [Zero K] [Add K] (n m k : Nat) (es : List (Nat × Nat)) (ops : List (Op K)) : Res (SpMat K) := do
  let a ← register n m k es
  let a ← a.compress
  Res.foldlM' step a ops

/-- One call on a compressed symmetric matrix. -/
def stepSym [Zero K] [Add K] (a : SpMat K) : Op K → Res (SpMat K)
  | .add i j v => a.addValueSym i j v
  | .zero => a.zero

/-- Whole life of a `SparseSymMatrix`. -/
def buildSym [Zero K] [Add K] (n k : Nat) (es : List (Nat × Nat)) (ops : List (Op K)) : Res (SpMat K) := do
  let a ← SpMat.initSym n k
  let a ← Res.foldlM' (fun (a : SpMat K) p => a.addEntrySym p.1 p.2) a es
  let a ← a.compress
  Res.foldlM' stepSym a ops

end Nla3d.Sparse
