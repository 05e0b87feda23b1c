import Verif.Block.Model
import Verif.Sparse.Spec

/-!
# Specification of the block matrix

The abstract view: one symmetric `N × N` matrix (`N` the sum of the block sizes) given by the set of registered
unordered positions and, per matrix of the family, the list of value calls since its creation.
-/

namespace Nla3d.Block

open Nla3d.Sparse

variable {K : Type _}

/-- Global number of position `p` of block `a` (both 1-based). -/
def glob (sizes : List Nat) (a p : Nat) : Nat := (sizes.take (a - 1)).sum + p

/-- `(a, p)` is a position inside block `a`. -/
def IsPos (sizes : List Nat) (a p : Nat) : Prop :=
  0 < a ∧ a ≤ sizes.length ∧ 0 < p ∧ p ≤ sizes.getD (a - 1) 0

/-- The unordered pair `{i, j}` was registered. -/
def Reg (es : List (Nat × Nat)) (i j : Nat) : Prop := (i, j) ∈ es ∨ (j, i) ∈ es

instance (es : List (Nat × Nat)) (i j : Nat) : Decidable (Reg es i j) := by unfold Reg; infer_instance

/-- Columns of block `b` that row `p` of block `a` needs in the upper triangle. -/
def rowCols (sizes : List Nat) (es : List (Nat × Nat)) (a b p : Nat) : Finset Nat :=
  ((List.range (sizes.getD (b - 1) 0 + 1)).filter
    (fun c => 0 < c ∧ (a = b → p ≤ c) ∧ Reg es (glob sizes a p) (glob sizes b c))).toFinset

/-- No row of any block needs more than `k` entries. -/
def Fits (sizes : List Nat) (k : Nat) (es : List (Nat × Nat)) : Prop :=
  ∀ a b p, a ≤ b → IsPos sizes a p → 0 < b → b ≤ sizes.length → (rowCols sizes es a b p).card ≤ k

/-- Calls of the registration phase. -/
inductive Call1 where
  | entry (q i j : Nat)
  | copy (q : Nat)
  deriving Repr, DecidableEq

/-- Calls of the value phase. -/
inductive Call3 (K : Type _) where
  | op (q : Nat) (o : Op K)
  | copy (q : Nat)
  deriving Repr, DecidableEq

/-- Executing a registration call. -/
def step1 [Zero K] (F : Family K) : Call1 → Res (Family K)
  | .entry q i j => F.addEntry q i j
  | .copy q => F.copy q

/-- Executing a value call. -/
def step3 [Zero K] [Add K] (F : Family K) : Call3 K → Res (Family K)
  | .op q (.add i j x) => F.addValue q i j x
  | .op q .zero => F.zero q
  | .copy q => F.copy q

/-- Life of a family: constructor, registration calls, `compress` on each matrix, value calls. -/
def life [Zero K] [Add K] (sizes : List Nat) (k : Nat) (cs : List Call1) (ds : List (Call3 K)) : Res (Family K) := do
  let F ← Family.create sizes k
  let F ← Res.foldlM' step1 F cs
  let F ← Res.foldlM' Family.compress F (List.range F.totals.length)
  Res.foldlM' step3 F ds

/-- Positions registered by the calls. -/
def entriesOf : List Call1 → List (Nat × Nat)
  | [] => []
  | .entry _ i j :: cs => (i, j) :: entriesOf cs
  | .copy _ :: cs => entriesOf cs

/-- Number of matrices after the registration calls, starting with `Q`. -/
def count1 : Nat → List Call1 → Nat
  | Q, [] => Q
  | Q, .entry _ _ _ :: cs => count1 Q cs
  | Q, .copy _ :: cs => count1 (Q + 1) cs

/-- Registration calls refer to existing matrices and to indices `1 .. N`. -/
def Legal1 (N : Nat) : Nat → List Call1 → Prop
  | _, [] => True
  | Q, .entry q i j :: cs => q < Q ∧ (0 < i ∧ i ≤ N) ∧ (0 < j ∧ j ≤ N) ∧ Legal1 N Q cs
  | Q, .copy q :: cs => q < Q ∧ Legal1 N (Q + 1) cs

/-- Value calls refer to existing matrices and to indices `1 .. N`. -/
def Legal3 (N : Nat) : Nat → List (Call3 K) → Prop
  | _, [] => True
  | Q, .op q o :: cs => q < Q ∧ o.InRange N N ∧ Legal3 N Q cs
  | Q, .copy q :: cs => q < Q ∧ Legal3 N (Q + 1) cs

/-- Per matrix, the value calls since its creation: `st` before the calls. -/
def runSpec : (st : List (List (Op K))) → List (Call3 K) → List (List (Op K))
  | st, [] => st
  | st, .op q o :: cs => runSpec (st.modify q (· ++ [o])) cs
  | st, .copy _ :: cs => runSpec (st ++ [[]]) cs

/-- All value calls add to registered positions. -/
def AllReg (es : List (Nat × Nat)) (ds : List (Call3 K)) : Prop :=
  ∀ d ∈ ds, ∀ q i j x, d = .op q (.add i j x) → Reg es i j

end Nla3d.Block
