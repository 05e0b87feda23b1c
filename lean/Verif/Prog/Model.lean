import Verif.Prog.Answers
import Verif.Rigid.Bodies
import Verif.Gauss.Model
import Verif.TimeCtl.Model

/-!
# Model of the whole program

`main` of `src/main.cpp`, from the command line and the files to the table of reactions and the exit code: `parse_args`,
`readRefCurveData`, `readCdbFile`, the model (`Main.setUp`), `NonlinearFESolver::solve` with its post-processors, and the report.

Elements are SOLID81 and PLANE41. For other types the result is `.other`. The files of `VtkProcessor` are part of the result when the
program ends. Left out: messages. The equation solver is the one of a program without MKL, `GaussDenseEquationSolver`
(src/lib/math/EquationSolver.cpp:15, src/lib/FESolver.cpp:123).
-/

namespace Nla3d.Prog

open Nla3d.Storage Nla3d.Dof Nla3d.Iso Nla3d.Hyper Nla3d.Material Nla3d.Newton Nla3d.Solver Nla3d.Rigid Nla3d.Labels
open Nla3d.Cdb (Out MeshData)
open Nla3d.Cmd (Options)
open Nla3d.Main (Job)
open Nla3d.TimeCtl

section loop
variable {K E : Type} [Field K] [LinearOrder K]

/-- `process` of the reaction processor, if there is one. src/lib/FESolver.cpp:497-499 -/
def processStep (S : Storage K) (step : Nat) : Option (Post.Proc K) → Res (Option (Post.Proc K))
  | none => .ok none
  | some P => do
    let P ← Post.process S P step true
    .ok (some P)

/-- `pre` of the reaction processor, if there is one. src/lib/FESolver.cpp:433-435 -/
def preProc (S : Storage K) : Option (Post.Proc K) → Res (Option (Post.Proc K))
  | none => .ok none
  | some P => do
    let P ← Post.pre S P true
    .ok (some P)

/-- The outer loop with the calls of `process`; `obs` is what all post-processors do. src/lib/FESolver.cpp:440-502. `none`: the fuel ran
out. -/
def stepLoop {σ : Type} (eqs : EqSolver K) (el : Elems E K) (loads fixs : List (Bc K)) (st : Settings K) (delta : K)
    (obs : Nat → NState E K → σ → Res σ) (inner : Nat) : Nat → NState E K → σ → Option (Res (NState E K × σ))
  | 0, _, _ => none
  | fuel + 1, s, P =>
    match s.tc.nextStep delta with
    | .ok (false, tc) => some (.ok ({ s with tc := tc }, P))
    | .ok (true, tc) =>
      match loadStep eqs el loads fixs st inner { s with tc := tc } with
      | some (.ok s') =>
        match obs s'.tc.currentStep s' P with
        | .ok P' => stepLoop eqs el loads fixs st delta obs inner fuel s' P'
        | .fatal => some .fatal
        | .assert => some .assert
        | .ub => some .ub
      | some .fatal => some .fatal
      | some .assert => some .assert
      | some .ub => some .ub
      | none => none
    | .fatal => some .fatal
    | .assert => some .assert
    | .ub => some .ub

/-- `NonlinearFESolver::solve` with post-processors. src/lib/FESolver.cpp:407-508. `post` of the processors does nothing
(ReactionProcessor.cpp:120-121, VtkProcessor.cpp:69-71). -/
def solve {σ : Type} (eqs : EqSolver K) (el : Elems E K) (loads fixs : List (Bc K)) (st : Settings K) (tc : TimeControl K)
    (calls : List RegCall) (new : List (Mpc K)) (S : Storage K) (e : E) (pre : Storage K → E → Res σ)
    (obs : Nat → NState E K → σ → Res σ) (inner fuel : Nat) : Option (Res (NState E K × σ)) :=
  match (do
    let S ← S.prepare calls new (fixKeys fixs)
    let P ← pre S e
    .ok (S, P)) with
  | .ok (S, P) =>
    stepLoop eqs el loads fixs st ((tc.endTime - tc.startTime) / st.nSteps) obs inner fuel
      ⟨S, e, List.replicate S.nConstr 0, List.replicate (S.nConstr + S.nUnknown + S.nMpc) 0, tc, []⟩ P
  | .fatal => some .fatal
  | .assert => some .assert
  | .ub => some .ub

end loop

noncomputable section

/-- The material object with its constants: energy function and bulk modulus. src/lib/materials/MaterialFactory.cpp:24-47,
src/lib/materials/materials_hyperelastic.cpp:131-206, materials_hyperelastic.h:45-105 -/
def energyOf (name : String) (cs : List ℝ) : Res (Energy × ℝ) := do
  match ← matName2matId name with
  | .NOT_DEFINED => .fatal
  | .NEO_HOOKEAN_COMP => .ok (neoHookean (fun i => cs.getD i 0), cs.getD 1 0)
  | .BIDERMAN_COMP => .ok (biderman (fun i => cs.getD i 0), cs.getD 4 0)
  | .MOONEYRIVLIN_COMP => .ok (mooneyRivlin (fun i => cs.getD i 0), cs.getD 2 0)

/-- `storage->getNode(n).pos`. src/lib/FEStorage.h:635-638. Nodes that do not exist are at the origin here; `elementOf` checks the
numbers. -/
def posOf (pos : List (ℝ × ℝ × ℝ)) (n : Nat) : Fin 3 → ℝ :=
  let p := pos.getD (n - 1) (0, 0, 0)
  ![p.1, p.2.1, p.2.2]

/-- An element after `makeJacob` and the assignments in `pre`, with integration order 2. src/lib/elements/SOLID81.cpp:12-20,
SOLID81.h:17, PLANE41.cpp:15-23, PLANE41.h:17, isoparametric.cpp:55-106, 140-187. `getNode` asserts the numbers of the nodes. -/
def elementOf (t : ElementType) (E : Energy) (k : ℝ) (pos : List (ℝ × ℝ × ℝ)) (en : Nat) (ns : List Nat) : Res El :=
  if ns.all (fun n => decide (0 < n ∧ n ≤ pos.length)) then
    match t with
    | .SOLID81 => do
      let p : Fin 8 → Fin 3 → ℝ := fun a => posOf pos (ns.getD a 0)
      let g ← makeJacob hexa 2 p
      .ok (.hex ⟨E, k, 2, p, g, List.replicate (nOfIntPoints hexa g) Point.initial, en, fun a => ns.getD a 0⟩)
    | .PLANE41 => do
      let p : Fin 4 → Fin 2 → ℝ := fun a c => posOf pos (ns.getD a 0) c.castSucc
      let g ← makeJacob quad 2 p
      .ok (.plane ⟨E, k, 2, p, g, List.replicate (nOfIntPoints quad g) Point2.initial, en, fun a => ns.getD a 0⟩)
    | _ => .fatal
  else .assert

/-- All elements, numbered from `en` on. src/lib/FEStorage.cpp:347-349
Simplification: here all elements are made before the first one registers its DoFs. -/
def elementsOf (t : ElementType) (E : Energy) (k : ℝ) (pos : List (ℝ × ℝ × ℝ)) : Nat → List (List Nat) → Res (List El)
  | _, [] => .ok []
  | en, ns :: nss => do
    let e ← elementOf t E k pos en ns
    let es ← elementsOf t E k pos (en + 1) nss
    .ok (e :: es)

/-- DoFs that an element registers at its nodes; `none` for types that are not modelled. src/lib/elements/SOLID81.cpp:24,
PLANE41.cpp:27 -/
def dofsOf : ElementType → Option (List DofType)
  | .SOLID81 => some Mixed.solidDofs
  | .PLANE41 => some Mixed.planeDofs
  | _ => none

/-- Registrations in `pre` of the elements. src/lib/elements/SOLID81.cpp:22-26, PLANE41.cpp:25-29 -/
def elementCalls (ds : List DofType) : Nat → List (List Nat) → List RegCall
  | _, [] => []
  | en, ns :: nss => ns.map (fun n => (.node, n, ds)) ++ (.elem, en, [.HYDRO_PRESSURE]) :: elementCalls ds (en + 1) nss

/-- The rigid body as it is before `pre`. src/main.cpp:261-279 -/
def bodiesOf (j : Job ℝ) : List RigidBody :=
  match j.rigid with
  | none => []
  | some r => [⟨r.master, r.slaves, r.dofs, []⟩]

/-- The registrations in `RigidBodyMpc::pre`. src/lib/Mpc.cpp:67 -/
def bodyCalls (r : RigidBody) : List RegCall :=
  match pre r with
  | .ok (_, m, ds) => [(.node, m, ds)]
  | _ => []

/-- The reaction processor as it is before `pre`. src/main.cpp:242-259 -/
def procOf (j : Job ℝ) : Option (Post.Proc ℝ) :=
  match j.react with
  | none => none
  | some (ns, ds) => some ⟨ns, ds, false, [], []⟩

/-- All registrations. src/lib/FEStorage.cpp:347-355 -/
def callsOf (ds : List DofType) (j : Job ℝ) : List RegCall := elementCalls ds 1 j.elems ++ (bodiesOf j).flatMap bodyCalls

/-- `uint16 numberOfIterations`, `numberOfLoadsteps`, and the default of `convergenceCriteria`. src/lib/FESolver.h:209-215 -/
def settingsOf (j : Job ℝ) : Settings ℝ := ⟨j.iterations, j.loadsteps, 1 / 1000⟩

/-- The post-processors: the one for files, if any, and the one for reactions, if any. src/main.cpp:234-259. -/
structure Watch where
  vtk : Option (Vtk.Proc × Files)
  react : Option (Post.Proc ℝ)

/-- `pre` of the post-processors, in the order of src/main.cpp:234-259. -/
def watchPre (j : Job ℝ) {els : List El} (S : Storage ℝ) (e : Group els) : Res Watch := do
  let v ← vtkPre j S e.1
  let r ← preProc S (procOf j)
  .ok ⟨v, r⟩

/-- `process` of the post-processors. src/lib/FESolver.cpp:407-508. -/
def watchStep (j : Job ℝ) {els : List El} (step : Nat) (s : NState (Group els) ℝ) (w : Watch) : Res Watch := do
  let v ← vtkStep j s.S s.e.1 step w.vtk
  let r ← processStep s.S step w.react
  .ok ⟨v, r⟩

/-- The files written by the program. src/lib/VtkProcessor.cpp:49-66. -/
def Watch.files (w : Watch) : Files :=
  match w.vtk with
  | none => fun _ => none
  | some p => p.2

/-- How the program ends: `exit(1)` before the solution, an element type outside of this model, or with a table of reactions (if
asked for), an exit code and files. src/main.cpp:171-324. -/
inductive Ending where
  | exit
  | other
  | done (table : Option (List (List ℝ))) (code : Nat) (files : Files)

/-- A loop that runs out of fuel.
No counterpart in the code: the loops of src/lib/FESolver.cpp:407-508 are followed for a number of passes. -/
def bounded {α : Type} : Option (Res α) → Out α
  | none => .error .fuel
  | some r => Cdb.lift r

/-- The labels in the message about the rigid body. src/main.cpp:281-285 -/
def labelsOf (j : Job ℝ) : Res (List String) :=
  match j.rigid with
  | none => .ok []
  | some r => Main.slaveLabels r.dofs

/-- `main` from the model on. src/main.cpp:281-324. `inner` and `fuel` bound the loops of the solver. -/
def runJob (o : Options ℝ) (ref : List ℝ) (j : Job ℝ) (inner fuel : Nat) : Out Ending := do
  let _ ← Cdb.lift (labelsOf j)
  let m ← Cdb.lift (energyOf o.material j.constants)
  match dofsOf j.type with
  | none => .ok .other
  | some ds => do
    let els ← Cdb.lift (elementsOf j.type m.1 m.2 j.pos 1 j.elems)
    let r ← bounded (solve Gauss.solveEquations (hyper els (fun _ => updRigid (bodiesOf j) (posOf j.pos) j.mpcs.length)) j.loads j.fixs
      (settingsOf j) TimeControl.fresh (callsOf ds j) ((bodiesOf j).flatMap made)
      (Storage.fresh j.pos.length j.elems j.mpcs false) (Group.given els) (watchPre j) (watchStep j) inner fuel)
    let rep ← Cdb.lift (Main.report o ref r.2.react)
    .ok (.done rep.1 rep.2 r.2.files)

/-- `main` from the mesh data on. src/main.cpp:171-324 -/
def run (o : Options ℝ) (ref : List ℝ) (md : MeshData ℝ) (inner fuel : Nat) : Out Ending := do
  match ← Main.setUp o md with
  | none => .ok .exit
  | some j => runJob o ref j inner fuel

/-- The reference curve, main.cpp:152-163. `none`: `exit(1)`. A stream that never ends counts as fuel. -/
def refOf (num : String → Option ℝ) (curve : String → Cmd.In) (o : Options ℝ) : Out (Option (List ℝ)) :=
  if o.refCurve = "" then .ok (some [])
  else if o.reaction = "" then .ok none
  else
    match @Cmd.readRefCurve ℝ (Classical.decEq ℝ) _ _ _ num (curve o.refCurve) with
    | .ok v => .ok (some v)
    | .exit => .ok none
    | .hang => .error .fuel
    | .ub => .error .ub

/-- The whole program. `disk` gives the contents of files, `none` for a file that cannot be opened; `curve` the streams of files
with a reference curve. `cv`, `stod`, `num` are the conversions of the libraries. src/main.cpp:139-324 -/
def program (cv : Cmd.Conv ℝ) (stod : List Char → Out ℝ) (num : String → Option ℝ) (disk : String → Option (List Char))
    (curve : String → Cmd.In) (argv : List String) (reads inner fuel : Nat) : Out Ending :=
  match Cmd.parseArgs cv argv with
  | .usage => .ok .exit
  | .exit => .ok .exit
  | .ok o => do
    match ← refOf num curve o with
    | none => .ok .exit
    | some ref =>
      match disk o.model with
      | none => .error .fatal
      | some file => do
        let md ← Cdb.readCdb stod reads file
        run o ref md inner fuel

end

end Nla3d.Prog
