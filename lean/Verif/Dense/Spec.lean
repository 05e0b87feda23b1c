import Mathlib.LinearAlgebra.Matrix.Defs
import Mathlib.LinearAlgebra.Matrix.Symmetric

/-!
# Matrices as lists of numbers: what the memory of `Mat`, `MatSym` and `Vec` means
-/

namespace Nla3d.Dense

variable {K : Type} [Zero K]

/-- Entry of a matrix with natural number indices. -/
def ext {m n : Nat} (A : Matrix (Fin m) (Fin n) K) (i j : Nat) : K :=
  if h : i < m ∧ j < n then A ⟨i, h.1⟩ ⟨j, h.2⟩ else 0

/-- The index pairs of an `m × n` matrix, row by row. -/
def rectPairs (m n : Nat) : List (Nat × Nat) := (List.range m).flatMap (fun i => (List.range n).map (fun j => (i, j)))

/-- The index pairs on and above the diagonal, row by row. -/
def upperPairs (n : Nat) : List (Nat × Nat) :=
  (List.range n).flatMap (fun i => (List.range' i (n - i)).map (fun j => (i, j)))

/-- Row-major memory of a matrix. -/
def flat {m n : Nat} (A : Matrix (Fin m) (Fin n) K) : List K := (rectPairs m n).map (fun p => ext A p.1 p.2)

/-- Packed memory of a symmetric matrix: the upper triangle row by row. -/
def pack {n : Nat} (A : Matrix (Fin n) (Fin n) K) : List K := (upperPairs n).map (fun p => ext A p.1 p.2)

end Nla3d.Dense
