import Verif.Storage.Session
import Verif.TimeCtl.Model
import Verif.Gauss.Model

/-!
# Model of the solvers (src/lib/FESolver.h:59-280, src/lib/FESolver.cpp:121-640)

`double` is an ordered field. The vectors `vecUc`, `vecUs`, `vecUl`, `vecUsl`, ... of a solver are views of the vectors of
the storage (`initSolutionData`, FESolver.cpp:175-218); they are modelled as segments of the lists `vecU`, `vecF`, `vecR`
(that a view behaves like that is property C27). What elements do in `buildK`, `buildC`, `buildM`, `update` is given by
`Elems`, an arbitrary machine with its own state; MPC collections likewise. Post-processors only observe; of them the
sequence of step numbers they receive is modelled. Log output and timers are left out. The equation solver is a
parameter.
-/

namespace Nla3d.Solver

open Nla3d.Dof Nla3d.Block Nla3d.Sparse Nla3d.Storage Nla3d.TimeCtl

variable {K : Type}

/-- `loadBC` and `fixBC`. src/lib/FESolver.h, `addFix`/`addLoad` FESolver.cpp:250-259 append to the lists. -/
structure Bc (K : Type) where
  node : Nat
  dof : DofType
  value : K

/-- Elements and MPC collections during a solution: `build` are the contributions of `buildK`, `cm` those of `buildC` and
`buildM`, `upd` is `MpcCollection::update`, `update` is `updateResults` (FEStorage.cpp:571-577). -/
structure Elems (E K : Type) where
  build : E → Storage K → List (Contrib K)
  upd : E → Storage K → List (Mpc K) → List (Mpc K)
  cm : E → Storage K → List (Contrib K)
  update : E → Storage K → E

/-- `EquationSolver::solveEquations(matrix, rhs, unknowns)`: the array of unknowns afterwards. src/lib/math/EquationSolver.h:22. -/
abbrev EqSolver (K : Type) := SpMat K → List K → List K → Res (List K)

/-- The segment of `n` components from `off`: a view. src/lib/math/Vec.cpp:56-64. -/
def seg (l : List K) (off n : Nat) : List K := (l.drop off).take n

/-- The vector after the view from `off` received the components `xs`. src/lib/math/Vec.cpp:56-64. -/
def put (l : List K) (off : Nat) (xs : List K) : List K := l.take off ++ (xs ++ l.drop (off + xs.length))

/-- `matK->block(a)` and `matK->block(a, b)`: the sparse matrix `q` of the family at block `(a, b)`.
src/lib/math/BlockSparseMatrix.h:107-123 -/
def blockMat (F : Family K) (q a b : Nat) : Res (SpMat K) := do
  let i ← blockSlot F.sizes.length a b
  let s ← Res.read F.slots i
  match s.si with
  | none => .assert
  | some si => do
    let v ← Res.read s.vals q
    .ok ⟨si, v⟩

/-- Access to the matrices of the storage (null before `initSolutionData`). src/lib/FEStorage.h:328-336, 485-500. -/
def matOf (S : Storage K) : Res (Family K) :=
  match S.mat with
  | none => .ub
  | some F => .ok F

section bc
variable [Add K] [Mul K]

/-- First loop of `applyBoundaryConditions`. src/lib/FESolver.cpp:234-237 -/
def applyLoads (S : Storage K) (loads : List (Bc K)) (time : K) : Res (Storage K) :=
  Res.foldlM' (fun S l => Storage.addValueRNode S l.node l.dof (l.value * time)) S loads

/-- One turn of the second loop: `vecUc[eq - 1] = value * time`. src/lib/FESolver.cpp:240-246. `eq_num - 1` is `uint32`, so
number 0 fails the assertion. -/
def applyFix (time : K) (S : Storage K) (f : Bc K) : Res (Storage K) := do
  let eq ← S.eqNumber .node f.node f.dof
  if 0 < eq ∧ eq ≤ S.nConstr then do
    let u ← Res.write S.vecU (eq - 1) (f.value * time)
    .ok { S with vecU := u }
  else .assert

/-- `applyBoundaryConditions(time)`. src/lib/FESolver.cpp:229-247 -/
def applyBC (S : Storage K) (loads fixs : List (Bc K)) (time : K) : Res (Storage K) := do
  let S ← applyLoads S loads time
  Res.foldlM' (applyFix time) S fixs

end bc

/-- `setConstrainedDofs`: the DoFs it marks. src/lib/FESolver.cpp:221-226 -/
def fixKeys (fixs : List (Bc K)) : List Key := fixs.map (fun f => (.node, f.node, f.dof))

variable [Field K] [LinearOrder K]

/-- `fabs(v) > 1e-20` in `matBVprod(SparseSymMatrix&)`. src/lib/math/SparseMatrix.cpp:510,515 -/
def big (v : K) : Bool := decide ((1 / 10 ^ 20 : K) < |v|)

/-- Right-hand side, solution and reactions for constrained values `uc`: common part of `LinearFESolver::solve`
(FESolver.cpp:366-383, `uc` is `vecUc`, `guess` the contents of `vecUsl`) and of an iteration of
`NonlinearFESolver::solve` (FESolver.cpp:447-469, `uc` is `deltaUc`, `guess` the contents of `deltaUsl`). Returns the array
of unknowns and the new `vecRc`. -/
def condense (eqs : EqSolver K) (S : Storage K) (uc guess : List K) : Res (List K × List K) := do
  let F ← matOf S
  let K11 ← blockMat F 0 1 1
  let K12 ← blockMat F 0 1 2
  let K22 ← blockMat F 0 2 2
  let n := S.nUnknown + S.nMpc
  let Fsl := seg S.vecF S.nConstr n
  let Rsl := seg S.vecR S.nConstr n
  let rhs := List.zipWith (· + ·) (List.zipWith (· + ·) (List.replicate n 0) Fsl) Rsl
  let rhs ← K12.matBTVprod uc (-1) rhs
  let x ← eqs K22 rhs guess
  let Rc ← K11.matBVprodSym big uc 1 (List.replicate S.nConstr 0)
  let Rc ← K12.matBVprod x 1 Rc
  .ok (x, List.zipWith (· - ·) Rc (seg S.vecF 0 S.nConstr))

/-- `vecR.zero()`. src/lib/math/Vec.cpp:76-78. -/
def zeroR (S : Storage K) : Storage K := { S with vecR := List.replicate S.vecR.length 0 }

/-- `LinearFESolver::solve` after the preparation. src/lib/FESolver.cpp:360-386 -/
def linearCore {E : Type} (eqs : EqSolver K) (el : Elems E K) (loads fixs : List (Bc K)) (S : Storage K) (e : E) :
    Res (Storage K × E) := do
  let S := zeroR S
  let S ← S.assemble (el.build e S) (el.upd e S) (el.cm e S)
  let S ← applyBC S loads fixs 1
  let (x, Rc) ← condense eqs S (seg S.vecU 0 S.nConstr) (seg S.vecU S.nConstr (S.nUnknown + S.nMpc))
  let S := { S with vecU := put S.vecU S.nConstr x, vecR := put S.vecR 0 Rc }
  .ok (S, el.update e S)

/-- `LinearFESolver::solve`. src/lib/FESolver.cpp:337-397. `calls` are the registrations made by the elements in
`initDofs`, `new` the MPCs registered there. -/
def linearSolve {E : Type} (eqs : EqSolver K) (el : Elems E K) (loads fixs : List (Bc K)) (calls : List RegCall)
    (new : List (Mpc K)) (S : Storage K) (e : E) : Res (Storage K × E) := do
  let S ← S.prepare calls new (fixKeys fixs)
  linearCore eqs el loads fixs S e

/-! ## `NonlinearFESolver` -/

/-- `calculateCriteria`. src/lib/FESolver.cpp:511-521 -/
def criteria (cc : K) (delta : List K) : K := delta.foldl (fun s d => s + |d|) 0 / delta.length / cc

/-- The settings of the solver. src/lib/FESolver.h:209-215. The two numbers are `uint16`. -/
structure Settings (K : Type) where
  nIter : Nat
  nSteps : Nat
  cc : K

/-- State of a nonlinear solution. `trace` is not in the code: it records time and increment vector of each iteration.
src/lib/FESolver.cpp:407-508. -/
structure NState (E K : Type) where
  S : Storage K
  e : E
  ucPrev : List K
  deltaU : List K
  tc : TimeControl K
  trace : List (K × List K)

/-- One turn of the inner loop up to `updateResults`. src/lib/FESolver.cpp:441-473 -/
def iteration {E : Type} (eqs : EqSolver K) (el : Elems E K) (loads fixs : List (Bc K)) (s : NState E K) :
    Res (NState E K) := do
  let tc := s.tc.nextEquilibriumStep
  let S := zeroR s.S
  let S ← S.assemble (el.build s.e S) (el.upd s.e S) (el.cm s.e S)
  let S ← applyBC S loads fixs tc.normalized
  let dUc := List.zipWith (· - ·) (seg S.vecU 0 S.nConstr) s.ucPrev
  let deltaU := put s.deltaU 0 dUc
  let (x, Rc) ← condense eqs S dUc (seg deltaU S.nConstr (S.nUnknown + S.nMpc))
  let deltaU := put deltaU S.nConstr x
  let Us := List.zipWith (· + ·) (seg S.vecU S.nConstr S.nUnknown) (seg deltaU S.nConstr S.nUnknown)
  let U := put S.vecU S.nConstr Us
  let U := put U (S.nConstr + S.nUnknown) (seg deltaU (S.nConstr + S.nUnknown) S.nMpc)
  let S := { S with vecU := U, vecR := put S.vecR 0 Rc }
  .ok { S := S, e := el.update s.e S, ucPrev := seg U 0 S.nConstr, deltaU := deltaU, tc := tc,
        trace := s.trace ++ [(tc.normalized, deltaU)] }

/-- What the tests after an iteration decide. src/lib/FESolver.cpp:476-492. -/
inductive Verdict where
  | converged | diverged | giveUp | again
  deriving DecidableEq, Repr

/-- The tests after an iteration. src/lib/FESolver.cpp:476-492. There is no `nan` in a field. -/
def judge {E : Type} (st : Settings K) (s : NState E K) : Verdict :=
  let c := criteria st.cc (seg s.deltaU s.S.nConstr s.S.nUnknown)
  if c < st.cc then .converged
  else if 10 ^ 6 < c then .diverged
  else if st.nIter ≤ s.tc.curEq then .giveUp
  else .again

/-- The inner loop, FESolver.cpp:439-493, and the check after it, 495-496. `none`: the fuel ran out. -/
def loadStep {E : Type} (eqs : EqSolver K) (el : Elems E K) (loads fixs : List (Bc K)) (st : Settings K) :
    Nat → NState E K → Option (Res (NState E K))
  | 0, _ => none
  | fuel + 1, s =>
    match iteration eqs el loads fixs s with
    | .ok s' =>
      match judge st s' with
      | .converged => some (.ok s')
      | .diverged => some .fatal
      | .giveUp => some .fatal
      | .again => loadStep eqs el loads fixs st fuel s'
    | .fatal => some .fatal
    | .assert => some .assert
    | .ub => some .ub

/-- The outer loop, FESolver.cpp:437-502; `seen` are the step numbers passed to `process`. -/
def loadSteps {E : Type} (eqs : EqSolver K) (el : Elems E K) (loads fixs : List (Bc K)) (st : Settings K) (delta : K)
    (inner : Nat) : Nat → NState E K → List Nat → Option (Res (NState E K × List Nat))
  | 0, _, _ => none
  | fuel + 1, s, seen =>
    match s.tc.nextStep delta with
    | .ok (false, tc) => some (.ok ({ s with tc := tc }, seen))
    | .ok (true, tc) =>
      match loadStep eqs el loads fixs st inner { s with tc := tc } with
      | some (.ok s') => loadSteps eqs el loads fixs st delta inner fuel s' (seen ++ [s'.tc.currentStep])
      | some .fatal => some .fatal
      | some .assert => some .assert
      | some .ub => some .ub
      | none => none
    | .fatal => some .fatal
    | .assert => some .assert
    | .ub => some .ub

/-- `NonlinearFESolver::solve`. src/lib/FESolver.cpp:407-508. `inner` and `fuel` bound the loops. -/
def nonlinearSolve {E : Type} (eqs : EqSolver K) (el : Elems E K) (loads fixs : List (Bc K)) (st : Settings K)
    (tc : TimeControl K) (calls : List RegCall) (new : List (Mpc K)) (S : Storage K) (e : E) (inner fuel : Nat) :
    Option (Res (NState E K × List Nat)) :=
  match S.prepare calls new (fixKeys fixs) with
  | .ok S =>
    let n := S.nConstr + S.nUnknown + S.nMpc
    loadSteps eqs el loads fixs st ((tc.endTime - tc.startTime) / st.nSteps) inner fuel
      ⟨S, e, List.replicate S.nConstr 0, List.replicate n 0, tc, []⟩ []
  | .fatal => some .fatal
  | .assert => some .assert
  | .ub => some .ub

/-! ## `LinearTransientFESolver` -/

/-- The Newmark constants. src/lib/FESolver.cpp:552-559 -/
structure Newmark (K : Type) where
  (a0 a1 a2 a3 a4 a5 a6 a7 : K)

/-- src/lib/FESolver.cpp:552-559 -/
def newmark (alpha delta dt : K) : Newmark K :=
  ⟨1 / (alpha * dt * dt), delta / (alpha * dt), 1 / (alpha * dt), 1 / (2 * alpha) - 1, delta / alpha - 1,
    dt / 2 * (delta / alpha - 2), dt * (1 - delta), delta * dt⟩

/-- `vecU` (in the storage), `vecDU`, `vecDDU`. src/lib/FESolver.cpp:532-642. -/
structure TState (E K : Type) where
  S : Storage K
  e : E
  v : List K
  a : List K

/-- `c1 * x + c2 * y + c3 * z`, the expressions of FESolver.cpp:610-611. -/
def comb3 (c1 c2 c3 : K) (x y z : List K) : List K :=
  List.zipWith (· + ·) (List.zipWith (· + ·) (x.map (c1 * ·)) (y.map (c2 * ·))) (z.map (c3 * ·))

/-- `matKmod`: a matrix with the sparsity of `matK->block(2)` and values `a0*M + a1*C + K`, entry by entry of the value
arrays. src/lib/FESolver.cpp:577, 596-601 -/
def kmod (nm : Newmark K) (K22 C22 M22 : SpMat K) : Res (SpMat K) :=
  match K22.values, C22.values, M22.values with
  | some k, some c, some m => do
    let v ← Res.foldlM' (fun acc i => do
      let x ← Res.read m i
      let y ← Res.read c i
      let z ← Res.read k i
      .ok (acc ++ [nm.a0 * x + nm.a1 * y + z])) [] (List.range K22.si.numberOfValues)
    .ok ⟨K22.si, some v⟩
  | _, _, _ => .ub

/-- One time step. src/lib/FESolver.cpp:608-632. `substituteEquations` with the factors of `matKmod` is the call of the
equation solver. -/
def timeStep {E : Type} (eqs : EqSolver K) (el : Elems E K) (nm : Newmark K) (Km : SpMat K) (s : TState E K) :
    Res (TState E K) := do
  let S := s.S
  let nc := S.nConstr
  let n := S.nUnknown + S.nMpc
  let F ← matOf S
  let M22 ← blockMat F 2 2 2
  let C22 ← blockMat F 1 2 2
  let rhs := List.zipWith (· + ·) (seg S.vecF nc n) (seg S.vecR nc n)
  let rhs ← M22.matBVprodSym big (comb3 nm.a0 nm.a2 nm.a3 (seg S.vecU nc n) (seg s.v nc n) (seg s.a nc n)) 1 rhs
  let rhs ← C22.matBVprodSym big (comb3 nm.a1 nm.a4 nm.a5 (seg S.vecU nc n) (seg s.v nc n) (seg s.a nc n)) 1 rhs
  let x ← eqs Km rhs (List.replicate n 0)
  let Un := seg S.vecU 0 nc ++ x
  let An := List.zipWith (· - ·) (List.zipWith (· - ·) ((List.zipWith (· - ·) Un S.vecU).map (nm.a0 * ·))
    (s.v.map (nm.a2 * ·))) (s.a.map (nm.a3 * ·))
  let Vn := List.zipWith (· + ·) (List.zipWith (· + ·) s.v (An.map (nm.a6 * ·))) (s.a.map (nm.a7 * ·))
  let S := { S with vecU := Un }
  .ok ⟨S, el.update s.e S, Vn, An⟩

/-- The time loop. src/lib/FESolver.cpp:607-636. `seen` are the numbers passed to `process`, with the time and the state at
each call; the counter is `uint16`. -/
def timeLoop {E : Type} (step : TState E K → Res (TState E K)) (dt time1 : K) :
    Nat → K → Nat → TState E K → List (Nat × K × TState E K) → Option (Res (List (Nat × K × TState E K) × Nat))
  | 0, _, _, _, _ => none
  | fuel + 1, cur, k, s, seen =>
    if cur ≤ time1 then
      match step s with
      | .ok s' => timeLoop step dt time1 fuel (cur + dt) (u16 (k + 1)) s' (seen ++ [(k, cur, s')])
      | .fatal => some .fatal
      | .assert => some .assert
      | .ub => some .ub
    else some (.ok (seen, k))

/-- `LinearTransientFESolver::solve` before the time loop (after the preparation with `transient` set).
src/lib/FESolver.cpp:567-604 -/
def transientStart {E : Type} (el : Elems E K) (loads fixs : List (Bc K)) (initValue : K) (nm : Newmark K)
    (S : Storage K) (e : E) : Res (TState E K × SpMat K) := do
  let S := zeroR S
  let S := { S with vecU := List.replicate S.vecU.length initValue }
  let n := S.nConstr + S.nUnknown + S.nMpc
  let S ← S.assemble (el.build e S) (el.upd e S) (el.cm e S)
  let S ← applyBC S loads fixs 1
  let F ← matOf S
  let K22 ← blockMat F 0 2 2
  let C22 ← blockMat F 1 2 2
  let M22 ← blockMat F 2 2 2
  let Km ← kmod nm K22 C22 M22
  .ok (⟨S, e, List.replicate n 0, List.replicate n 0⟩, Km)

/-- Parameters of the transient solver; `n` is `uint16`. src/lib/FESolver.h:228-236 -/
structure TSettings (K : Type) where
  n : Nat
  alpha : K
  delta : K
  time0 : K
  time1 : K
  initValue : K

/-- `LinearTransientFESolver::solve`. src/lib/FESolver.cpp:532-642. The second component of the result is the number passed
to `post`. -/
def transientSolve {E : Type} (eqs : EqSolver K) (el : Elems E K) (loads fixs : List (Bc K)) (st : TSettings K)
    (calls : List RegCall) (new : List (Mpc K)) (S : Storage K) (e : E) (fuel : Nat) :
    Option (Res (List (Nat × K × TState E K) × Nat)) :=
  let S := { S with transient := true }
  let dt := (st.time1 - st.time0) / st.n
  let nm := newmark st.alpha st.delta dt
  match (do let S ← S.prepare calls new (fixKeys fixs); transientStart el loads fixs st.initValue nm S e) with
  | .ok (s, Km) => timeLoop (timeStep eqs el nm Km) dt st.time1 fuel (st.time0 + dt) 1 s []
  | .fatal => some .fatal
  | .assert => some .assert
  | .ub => some .ub

end Nla3d.Solver
