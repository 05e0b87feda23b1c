import Verif.Pardiso.Model
import Verif.Solver.Model

/-!
# Nonlinear and transient solutions with one `PARDISO_equationSolver`

`NonlinearFESolver` and `LinearTransientFESolver` of src/lib/FESolver.cpp once more, now with the equation solver as an object that keeps
its state from call to call (`eqSolver` is a pointer, FESolver.h:134). In `Verif/Solver/Model.lean` the equation solver is a function; there
the definitions without `O` are.
-/

namespace Nla3d.Pardiso

open Nla3d.Dof Nla3d.Sparse Nla3d.Storage Nla3d.Solver Nla3d.TimeCtl

noncomputable section

variable {K : Type} [Field K] [LinearOrder K]

/-- `condense` with the object: right-hand side, `eqSolver->solveEquations`, reactions. src/lib/FESolver.cpp:447-469 -/
def condenseO (L : Lib K) (o : Obj K) (S : Storage K) (uc : List K) : Res (Obj K × List K × List K) := do
  let F ← matOf S
  let K11 ← blockMat F 0 1 1
  let K12 ← blockMat F 0 1 2
  let K22 ← blockMat F 0 2 2
  let n := S.nUnknown + S.nMpc
  let Fsl := seg S.vecF S.nConstr n
  let Rsl := seg S.vecR S.nConstr n
  let rhs := List.zipWith (· + ·) (List.zipWith (· + ·) (List.replicate n 0) Fsl) Rsl
  let rhs ← K12.matBTVprod uc (-1) rhs
  let (o, x) ← o.solve L K22 rhs
  let Rc ← K11.matBVprodSym big uc 1 (List.replicate S.nConstr 0)
  let Rc ← K12.matBVprod x 1 Rc
  .ok (o, x, List.zipWith (· - ·) Rc (seg S.vecF 0 S.nConstr))

/-- One turn of the inner loop up to `updateResults`. src/lib/FESolver.cpp:441-473 -/
def iterationO {E : Type} (L : Lib K) (el : Elems E K) (loads fixs : List (Bc K)) (o : Obj K) (s : NState E K) :
    Res (Obj K × NState E K) := do
  let tc := s.tc.nextEquilibriumStep
  let S := zeroR s.S
  let S ← S.assemble (el.build s.e S) (el.upd s.e S) (el.cm s.e S)
  let S ← applyBC S loads fixs tc.normalized
  let dUc := List.zipWith (· - ·) (seg S.vecU 0 S.nConstr) s.ucPrev
  let deltaU := put s.deltaU 0 dUc
  let (o, x, Rc) ← condenseO L o S dUc
  let deltaU := put deltaU S.nConstr x
  let Us := List.zipWith (· + ·) (seg S.vecU S.nConstr S.nUnknown) (seg deltaU S.nConstr S.nUnknown)
  let U := put S.vecU S.nConstr Us
  let U := put U (S.nConstr + S.nUnknown) (seg deltaU (S.nConstr + S.nUnknown) S.nMpc)
  let S := { S with vecU := U, vecR := put S.vecR 0 Rc }
  .ok (o, { S := S, e := el.update s.e S, ucPrev := seg U 0 S.nConstr, deltaU := deltaU, tc := tc,
            trace := s.trace ++ [(tc.normalized, deltaU)] })

/-- The inner loop, FESolver.cpp:439-493, and the check after it, 495-496. `none`: the fuel ran out. -/
def loadStepO {E : Type} (L : Lib K) (el : Elems E K) (loads fixs : List (Bc K)) (st : Settings K) :
    Nat → Obj K → NState E K → Option (Res (Obj K × NState E K))
  | 0, _, _ => none
  | fuel + 1, o, s =>
    match iterationO L el loads fixs o s with
    | .ok (o', s') =>
      match judge st s' with
      | .converged => some (.ok (o', s'))
      | .diverged => some .fatal
      | .giveUp => some .fatal
      | .again => loadStepO L el loads fixs st fuel o' s'
    | .fatal => some .fatal
    | .assert => some .assert
    | .ub => some .ub

/-- The outer loop, FESolver.cpp:437-502; `seen` are the step numbers passed to `process`. -/
def loadStepsO {E : Type} (L : Lib K) (el : Elems E K) (loads fixs : List (Bc K)) (st : Settings K) (delta : K)
    (inner : Nat) : Nat → Obj K → NState E K → List Nat → Option (Res (Obj K × NState E K × List Nat))
  | 0, _, _, _ => none
  | fuel + 1, o, s, seen =>
    match s.tc.nextStep delta with
    | .ok (false, tc) => some (.ok (o, { s with tc := tc }, seen))
    | .ok (true, tc) =>
      match loadStepO L el loads fixs st inner o { s with tc := tc } with
      | some (.ok (o', s')) => loadStepsO L el loads fixs st delta inner fuel o' s' (seen ++ [s'.tc.currentStep])
      | some .fatal => some .fatal
      | some .assert => some .assert
      | some .ub => some .ub
      | none => none
    | .fatal => some .fatal
    | .assert => some .assert
    | .ub => some .ub

/-- `setSymmetric(true)`, `setPositive(false)`: the first lines of both solvers. src/lib/FESolver.cpp:414-415, 539-540 -/
def Obj.told (o : Obj K) : Obj K := (o.setSymmetric true).setPositive false

/-- `NonlinearFESolver::solve` with the object `o`. src/lib/FESolver.cpp:407-508. `inner` and `fuel` bound the loops. -/
def nonlinearSolveO {E : Type} (L : Lib K) (el : Elems E K) (loads fixs : List (Bc K)) (st : Settings K)
    (tc : TimeControl K) (calls : List RegCall) (new : List (Mpc K)) (o : Obj K) (S : Storage K) (e : E) (inner fuel : Nat) :
    Option (Res (Obj K × NState E K × List Nat)) :=
  match S.prepare calls new (fixKeys fixs) with
  | .ok S =>
    let n := S.nConstr + S.nUnknown + S.nMpc
    loadStepsO L el loads fixs st ((tc.endTime - tc.startTime) / st.nSteps) inner fuel o.told
      ⟨S, e, List.replicate S.nConstr 0, List.replicate n 0, tc, []⟩ []
  | .fatal => some .fatal
  | .assert => some .assert
  | .ub => some .ub

/-- One time step: `eqSolver->substituteEquations`. src/lib/FESolver.cpp:608-632 -/
def timeStepO {E : Type} (L : Lib K) (o : Obj K) (el : Elems E K) (nm : Newmark K) (Km : SpMat K) (s : TState E K) :
    Res (TState E K) := do
  let S := s.S
  let nc := S.nConstr
  let n := S.nUnknown + S.nMpc
  let F ← matOf S
  let M22 ← blockMat F 2 2 2
  let C22 ← blockMat F 1 2 2
  let rhs := List.zipWith (· + ·) (seg S.vecF nc n) (seg S.vecR nc n)
  let rhs ← M22.matBVprodSym big (comb3 nm.a0 nm.a2 nm.a3 (seg S.vecU nc n) (seg s.v nc n) (seg s.a nc n)) 1 rhs
  let rhs ← C22.matBVprodSym big (comb3 nm.a1 nm.a4 nm.a5 (seg S.vecU nc n) (seg s.v nc n) (seg s.a nc n)) 1 rhs
  let x ← o.substitute L Km rhs
  let Un := seg S.vecU 0 nc ++ x
  let An := List.zipWith (· - ·) (List.zipWith (· - ·) ((List.zipWith (· - ·) Un S.vecU).map (nm.a0 * ·))
    (s.v.map (nm.a2 * ·))) (s.a.map (nm.a3 * ·))
  let Vn := List.zipWith (· + ·) (List.zipWith (· + ·) s.v (An.map (nm.a6 * ·))) (s.a.map (nm.a7 * ·))
  let S := { S with vecU := Un }
  .ok ⟨S, el.update s.e S, Vn, An⟩

/-- `LinearTransientFESolver::solve` with the object `o`: `factorizeEquations` once, line 601, then `substituteEquations` in every step,
line 613. src/lib/FESolver.cpp:532-642 -/
def transientSolveO {E : Type} (L : Lib K) (el : Elems E K) (loads fixs : List (Bc K)) (st : TSettings K)
    (calls : List RegCall) (new : List (Mpc K)) (o : Obj K) (S : Storage K) (e : E) (fuel : Nat) :
    Option (Res (Obj K × List (Nat × K × TState E K) × Nat)) :=
  let S := { S with transient := true }
  let dt := (st.time1 - st.time0) / st.n
  let nm := newmark st.alpha st.delta dt
  match (do
    let S ← S.prepare calls new (fixKeys fixs)
    let (s, Km) ← transientStart el loads fixs st.initValue nm S e
    let o ← o.told.factorize L Km
    .ok (o, s, Km)) with
  | .ok (o, s, Km) =>
    (timeLoop (timeStepO L o el nm Km) dt st.time1 fuel (st.time0 + dt) 1 s []).map fun r => do
      let r ← r
      .ok (o, r)
  | .fatal => some .fatal
  | .assert => some .assert
  | .ub => some .ub

end

end Nla3d.Pardiso
