import Verif.Sparse.Props

/-!
# `PARDISO_equationSolver`

src/lib/math/EquationSolver.h:48-75, src/lib/math/EquationSolver.cpp:17-23, 136-251 (the build with `NLA3D_USE_MKL`).

The class is modelled call by call. The routine `PARDISO` of Intel MKL is not code of this repository: it is represented by its
documented contract, as a parameter `Lib` (whether a phase reports an error, and the vector of phase 33) and by the function
`Lib.call` (which calls are inside the contract at all). A call outside the contract is the outcome `ub`.

Simplifications: the `uint32` arrays are handed over as `int` arrays by a cast, the model does not distinguish the two (sizes below
`2^31`); `iparm`, thread counts and messages are not modelled; arithmetic is exact.
-/

namespace Nla3d.Pardiso

open Nla3d.Sparse

/-- What the library is told about the structure of a matrix: the number of equations and the arrays `ia`, `ja`.
The arguments of the calls in EquationSolver.cpp:158-161, 185-188, 234-237. -/
structure Pattern where
  n : Nat
  ia : List Nat
  ja : List Nat
  deriving DecidableEq

/-- MKL manual, `pardiso`, parameters `ia`, `ja` for real symmetric matrices (`mtype` 2, -2): three-array storage of the upper
triangle with indices from 1, columns increasing in every row, and every diagonal element stored, zero or not.
No code: the contract of the library called in EquationSolver.cpp:234. -/
structure Pattern.Legal (p : Pattern) : Prop where
  pos : 0 < p.n
  csr : ValidCsr p.n p.n p.ja.length p.ia p.ja
  diag : ∀ i < p.n, ∃ x y, p.ia[i]? = some x ∧ p.ia[i + 1]? = some y ∧ x < y ∧ p.ja[x - 1]? = some (i + 1)

/-- What the pointers in `pt` stand for. `garbage`: indeterminate values; `empty`: all zero; otherwise the library's internal
data after phase 11 (of which matrix type and structure) or phase 22 (with which values). EquationSolver.h:60. -/
inductive Handle (K : Type) where
  | garbage
  | empty
  | analysed (mtype : Int) (p : Pattern)
  | factored (mtype : Int) (p : Pattern) (a : List K)

/-- The behaviour of the library inside its contract: whether phases 11 and 22 return error code 0, and what phase 33 computes
(`none`: an error code). No code: the contract of the library called in EquationSolver.cpp:158-249. -/
structure Lib (K : Type) where
  symbolic : Int → Pattern → Bool
  numeric : Int → Pattern → List K → Bool
  backsub : Int → Pattern → List K → List K → Option (List K)

variable {K : Type} [DecidableEq K]

open Classical in
/-- Phase 11: the handle has to be zero, structure and values legal. No code: the contract of the call in EquationSolver.cpp:234. -/
noncomputable def Lib.phase11 (L : Lib K) (h : Handle K) (mtype : Int) (p : Pattern) (a : List K) : Res (Handle K × Bool) :=
  match h with
  | .empty => if p.Legal ∧ a.length = p.ja.length then .ok (.analysed mtype p, L.symbolic mtype p) else .ub
  | _ => .ub

/-- Phase 22: the matrix has to have the type and the structure of the analysis.
No code: the contract of the call in EquationSolver.cpp:185. -/
def Lib.phase22 (L : Lib K) (h : Handle K) (mtype : Int) (p : Pattern) (a : List K) : Res (Handle K × Bool) :=
  match h with
  | .analysed m q => if m = mtype ∧ q = p ∧ a.length = p.ja.length then .ok (.factored mtype p a, L.numeric mtype p a) else .ub
  | .factored m q _ =>
    if m = mtype ∧ q = p ∧ a.length = p.ja.length then .ok (.factored mtype p a, L.numeric mtype p a) else .ub
  | _ => .ub

/-- Phase 33: the matrix has to be the factored one (its values are used in the iterative refinement, `iparm[7] = 2`), the right-hand
side has to have `n` components. `none` is an error code. No code: the contract of the call in EquationSolver.cpp:158. -/
def Lib.phase33 (L : Lib K) (h : Handle K) (mtype : Int) (p : Pattern) (a rhs : List K) : Res (Option (List K)) :=
  match h with
  | .factored m q b => if m = mtype ∧ q = p ∧ b = a ∧ rhs.length = p.n then .ok (L.backsub mtype p a rhs) else .ub
  | _ => .ub

/-- Phase -1: the internal memory is released; nothing happens for a zero handle.
No code: the contract of the call in EquationSolver.cpp:249. -/
def Lib.release (h : Handle K) : Res (Handle K) :=
  match h with
  | .garbage => .ub
  | _ => .ok .empty

/-- An object of the class. EquationSolver.h:28-33, 60-73 -/
structure Obj (K : Type) where
  handle : Handle K
  nEq : Nat
  firstRun : Bool
  mtype : Int
  isSymmetric : Bool
  isPositive : Bool

/-- An object declared as `PARDISO_equationSolver s;`: the members with initialisers have them (EquationSolver.h:28-33, 63-73),
`pt` (line 60) has none. -/
def Obj.declared : Obj K := ⟨.garbage, 0, true, -2, true, true⟩

/-- An object declared as `PARDISO_equationSolver s = PARDISO_equationSolver();`, main.cpp:229: there is no constructor written in the
class, so value initialisation sets `pt` to zero first. -/
def Obj.valued : Obj K := ⟨.empty, 0, true, -2, true, true⟩

/-- `setSymmetric`. EquationSolver.cpp:17-19 -/
def Obj.setSymmetric (o : Obj K) (b : Bool) : Obj K := { o with isSymmetric := b }

/-- `setPositive`. EquationSolver.cpp:21-23 -/
def Obj.setPositive (o : Obj K) (b : Bool) : Obj K := { o with isPositive := b }

/-- The arrays handed over with a matrix, `getValuesArray`, `getIofeirArray`, `getColumnsArray` (SparseMatrix.h:206-221) and their
assertions. The number of equations is the one the object has stored. -/
def arrays (n : Nat) (B : SpMat K) : Res (Pattern × List K) :=
  match B.values with
  | none => .assert
  | some a => if B.si.compressed then .ok (⟨n, B.si.iofeir, B.si.columns⟩, a) else .assert

/-- `initializePARDISO`. EquationSolver.cpp:193-240 -/
noncomputable def Obj.initialize (L : Lib K) (o : Obj K) (B : SpMat K) : Res (Obj K) :=
  let o := { o with handle := .empty }
  if !o.isSymmetric then .fatal
  else do
    let o := { o with mtype := if o.isPositive then 2 else -2, nEq := B.si.nRows }
    let (p, a) ← arrays o.nEq B
    let (h, good) ← L.phase11 o.handle o.mtype p a
    if good then .ok { o with handle := h } else .fatal

/-- `factorizeEquations`. EquationSolver.cpp:167-191 -/
noncomputable def Obj.factorize (L : Lib K) (o : Obj K) (B : SpMat K) : Res (Obj K) := do
  let o ← if o.firstRun then o.initialize L B else .ok o
  let o := { o with firstRun := false }
  if o.nEq ≠ B.si.nRows then .fatal
  else do
    let (p, a) ← arrays o.nEq B
    let (h, good) ← L.phase22 o.handle o.mtype p a
    if good then .ok { o with handle := h } else .fatal

/-- `substituteEquations`: the new contents of `unknowns`. EquationSolver.cpp:149-164 -/
def Obj.substitute (L : Lib K) (o : Obj K) (B : SpMat K) (rhs : List K) : Res (List K) := do
  let (p, a) ← arrays o.nEq B
  let x ← L.phase33 o.handle o.mtype p a rhs
  match x with
  | some X => .ok X
  | none => .fatal

/-- `solveEquations`. EquationSolver.cpp:141-146 -/
noncomputable def Obj.solve (L : Lib K) (o : Obj K) (B : SpMat K) (rhs : List K) : Res (Obj K × List K) := do
  let o ← o.factorize L B
  let X ← o.substitute L B rhs
  .ok (o, X)

/-- The destructor with `releasePARDISO`. EquationSolver.cpp:137-139, 242-251. An error code is only a warning. -/
def Obj.destroy (o : Obj K) : Res (Handle K) := Lib.release o.handle

/-- A call of a method. EquationSolver.h:51-54, 25-26. -/
inductive Call (K : Type) where
  | symmetric (b : Bool)
  | positive (b : Bool)
  | factorize (B : SpMat K)
  | substitute (B : SpMat K) (rhs : List K)
  | solve (B : SpMat K) (rhs : List K)

/-- One call; the vectors delivered so far are collected, the newest first. EquationSolver.cpp:17-23, 141-191. -/
noncomputable def step (L : Lib K) (s : Obj K × List (List K)) : Call K → Res (Obj K × List (List K))
  | .symmetric b => .ok (s.1.setSymmetric b, s.2)
  | .positive b => .ok (s.1.setPositive b, s.2)
  | .factorize B => do
    let o ← s.1.factorize L B
    .ok (o, s.2)
  | .substitute B rhs => do
    let X ← s.1.substitute L B rhs
    .ok (s.1, X :: s.2)
  | .solve B rhs => do
    let (o, X) ← s.1.solve L B rhs
    .ok (o, X :: s.2)

/-- A history of calls on an object, and then its destructor. EquationSolver.cpp:137-191. -/
noncomputable def life (L : Lib K) (o : Obj K) (calls : List (Call K)) : Res (List (List K)) := do
  let s ← Res.foldlM' (step L) (o, []) calls
  let _ ← s.1.destroy
  .ok s.2

/-- The solver as the solution procedures use it: `setSymmetric(true)`, `setPositive(false)` (FESolver.cpp:344-345, 414-415), then
`solveEquations` on a value-initialised object. -/
noncomputable def eqs (L : Lib K) (B : SpMat K) (rhs _guess : List K) : Res (List K) := do
  let (_, X) ← ((Obj.valued.setSymmetric true).setPositive false).solve L B rhs
  .ok X

end Nla3d.Pardiso
