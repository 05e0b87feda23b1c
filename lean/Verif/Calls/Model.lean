import Verif.Solver.Model

/-!
# The post-processors of a solver (src/lib/PostProcessor.h, PostProcessor.cpp, FESolver.cpp)

The list of post-processors a `FESolver` keeps, the flags of the base class, and the calls the three solvers make. What the
derived classes do in `pre`, `process` and `post` is in `Verif.Post` and `Verif.Vtk`; here only the calls are recorded.
-/

namespace Nla3d.Calls

open Nla3d.Dof Nla3d.Storage Nla3d.Solver Nla3d.TimeCtl

variable {K : Type} [Field K] [LinearOrder K]

/-- The members of `PostProcessor`. src/lib/PostProcessor.h:44-49. `none` is the number before `addPostProcessor`: the
constructor does not set it. The pointer to the storage is left out. -/
structure Proc where
  number : Option Nat
  name : List Char
  active : Bool
  failed : Bool

/-- `PostProcessor::PostProcessor`; the name is set by the derived class. src/lib/PostProcessor.cpp:9-14 -/
def Proc.new (name : List Char) : Proc := ⟨none, name, false, false⟩

/-- `setActive`. src/lib/PostProcessor.h:26-33. The warning prints the number, which is not initialised before the
post-processor is added. -/
def Proc.setActive (p : Proc) (act : Bool) : Res Proc :=
  if p.failed then (match p.number with | some _ => .ok p | none => .ub) else .ok { p with active := act }

/-- `getActive`. src/lib/PostProcessor.h:34-36 -/
def Proc.getActive (p : Proc) : Bool := p.active

/-- `getnPost_num`, `getProc_num`. src/lib/PostProcessor.h:23-25, 38-40. Reading the number before it is set is undefined. -/
def Proc.num (p : Proc) : Res Nat :=
  match p.number with
  | some n => .ok n
  | none => .ub

/-- `?"true":"false"`. src/lib/PostProcessor.cpp:18 -/
def word (b : Bool) : List Char := if b then "true".toList else "false".toList

/-- `getStatus`. src/lib/PostProcessor.cpp:16-20. `sprintf_s` is `snprintf` (src/lib/sys.h:35-41), called with 200: 199
characters and the end of the string. The fourth argument is `active` again. Names with a zero character are left out. -/
def Proc.getStatus (p : Proc) : Res (List Char) := do
  let n ← p.num
  .ok (("PostProcessor No ".toList ++ (toString n).toList ++ ": ".toList ++ p.name ++ "\n\tActive - ".toList ++ word p.active ++
    ", Failed - ".toList ++ word p.active).take 199)

/-- `FESolver::addPostProcessor`: the new list and the number returned. src/lib/FESolver.cpp:151-157. The number is `uint16`. -/
def add (ps : List Proc) (p : Proc) : List Proc × Nat :=
  let num := u16 (ps.length + 1)
  (ps ++ [{ p with number := some num }], num)

/-- `addPostProcessor` called for each of `new`, and the numbers returned. src/lib/FESolver.cpp:151-157 -/
def addAll (ps : List Proc) : List Proc → List Proc × List Nat
  | [] => (ps, [])
  | p :: new =>
    let (ps, n) := add ps p
    let (ps, ns) := addAll ps new
    (ps, n :: ns)

/-- `FESolver::getPostProcessor`. src/lib/FESolver.cpp:145-148 -/
def get (ps : List Proc) (i : Nat) : Res Proc :=
  match ps[i]? with
  | some p => .ok p
  | none => .fatal

/-- `FESolver::deletePostProcessors`. src/lib/FESolver.cpp:160-165. `PostProcessor` is abstract, so every object in the list is
of a derived class, and its destructor is not virtual (src/lib/PostProcessor.h:18): each `delete` is undefined. -/
def deleteAll : List Proc → Res (List Proc)
  | [] => .ok []
  | _ :: _ => .ub

/-- The member functions the solvers call. src/lib/PostProcessor.h:19-21. The steps are `uint16`. -/
inductive Moment
  | pre
  | process (step : Nat)
  | post (step : Nat)
  deriving DecidableEq, Repr

/-- One loop over the post-processors: the index of the post-processor and the member called.
src/lib/FESolver.cpp:358-360, 388-390, 394-396, 434-436, 496-498, 504-506, 586-588, 630-632, 639-641 -/
def callAll (ps : List Proc) (m : Moment) : List (Nat × Moment) := (List.range ps.length).map (fun i => (i, m))

/-- The calls of a linear solution that came to its end. src/lib/FESolver.cpp:337-397 -/
def linearCalls {E : Type} (ps : List Proc) (eqs : EqSolver K) (el : Elems E K) (loads fixs : List (Bc K))
    (calls : List RegCall) (new : List (Mpc K)) (S : Storage K) (e : E) : Res (List (Nat × Moment)) := do
  let _ ← linearSolve eqs el loads fixs calls new S e
  .ok (callAll ps .pre ++ callAll ps (.process 1) ++ callAll ps (.post 1))

/-- The calls of a nonlinear solution that came to its end: `process` with the step number of each load step, `post` with the
step number the time control has after the loop. src/lib/FESolver.cpp:407-508 -/
def nonlinearCalls {E : Type} (ps : List Proc) (eqs : EqSolver K) (el : Elems E K) (loads fixs : List (Bc K))
    (st : Settings K) (tc : TimeControl K) (calls : List RegCall) (new : List (Mpc K)) (S : Storage K) (e : E)
    (inner fuel : Nat) : Option (Res (List (Nat × Moment))) :=
  (nonlinearSolve eqs el loads fixs st tc calls new S e inner fuel).map (fun r => do
    let (s, seen) ← r
    .ok (callAll ps .pre ++ seen.flatMap (fun k => callAll ps (.process k)) ++ callAll ps (.post s.tc.currentStep)))

/-- The calls of a transient solution that came to its end. src/lib/FESolver.cpp:532-642 -/
def transientCalls {E : Type} (ps : List Proc) (eqs : EqSolver K) (el : Elems E K) (loads fixs : List (Bc K))
    (st : TSettings K) (calls : List RegCall) (new : List (Mpc K)) (S : Storage K) (e : E) (fuel : Nat) :
    Option (Res (List (Nat × Moment))) :=
  (transientSolve eqs el loads fixs st calls new S e fuel).map (fun r => do
    let (seen, last) ← r
    .ok (callAll ps .pre ++ seen.flatMap (fun p => callAll ps (.process p.1)) ++ callAll ps (.post last)))

end Nla3d.Calls
