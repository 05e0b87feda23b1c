import Verif.Storage.Model
import Verif.Labels.Model

/-!
# Model of the solution queries of `FEStorage` and of `ReactionProcessor`

Sources: `src/lib/FEStorage.h`, `src/lib/FEStorage.cpp`, `src/lib/ReactionProcessor.h`, `src/lib/ReactionProcessor.cpp`.

Simplifications. The loop counters `uint16 d`, `uint32 n` do not wrap for the lists considered. Messages are left out,
except `LOG(FATAL)`. Whether the output file can be opened is a parameter of each call. Numbers written to the file
are exact.
-/

namespace Nla3d.Post

open Nla3d.Dof Nla3d.Storage Nla3d.Labels

variable {K : Type}

/-- `isNodeDofUsed` / `isElementDofUsed`, FEStorage.h:590-599. -/
def isUsed (S : Storage K) (s : Side) (n : Nat) (t : DofType) : Res Bool :=
  if 0 < (S.tab s).entities then (S.tab s).isDofUsed n t else .assert

/-- `getNodeDof(n, t)->isConstrained`, FEStorage.h:617-620; a null pointer is dereferenced for an unused DoF. -/
def isConstrained (S : Storage K) (n : Nat) (t : DofType) : Res Bool :=
  if 0 < (S.tab .node).nUsed then do
    match ← (S.tab .node).deref n t with
    | none => .ub
    | some d => .ok d.constrained
  else .assert

/-- `getNodeDofSolution` / `getElementDofSolution`, FEStorage.h:623-632. `operator[]` of `dVec` asserts the range
(Vec.h); equation number 0 gives the index `2^32 - 1`. -/
def solution (S : Storage K) (s : Side) (n : Nat) (t : DofType) : Res K :=
  if 0 < S.vecU.length then do
    let e ← S.eqNumber s n t
    if 0 < e ∧ e ≤ S.vecU.length then Res.read S.vecU (e - 1) else .assert
  else .assert

/-- `getReaction(uint32)`, FEStorage.cpp:115-120. -/
def reactionEq (S : Storage K) (e : Nat) : Res K :=
  if 0 < e ∧ e ≤ S.vecR.length then Res.read S.vecR (e - 1) else .assert

/-- `getReaction(uint32, dofType)`, FEStorage.cpp:105-112. -/
def reaction [Zero K] (S : Storage K) (n : Nat) (t : DofType) : Res K := do
  if ← isUsed S .node n t then do
    let e ← S.eqNumber .node n t
    reactionEq S e
  else .ok 0

/-- A point, `Vec<3>`. src/lib/math/Vec.h:15-60. -/
structure Pt (K : Type) where
  x : K
  y : K
  z : K
  deriving Repr, DecidableEq

/-- `if (isNodeDofUsed(n, t)) ptr[i] += getNodeDofSolution(n, t)`, FEStorage.cpp:143-153. -/
def moveBy [Add K] (S : Storage K) (n : Nat) (t : DofType) (x : K) : Res K := do
  if ← isUsed S .node n t then do
    let u ← solution S .node n t
    .ok (x + u)
  else .ok x

/-- `getNodePosition`, FEStorage.cpp:137-155. `nodes` are the positions of the nodes. -/
def nodePosition [Add K] (S : Storage K) (nodes : List (Pt K)) (n : Nat) (deformed : Bool) : Res (Pt K) :=
  if 0 < n ∧ n ≤ nodes.length then do
    let p ← Res.read nodes (n - 1)
    if deformed then do
      let x ← moveBy S n .UX p.x
      let y ← moveBy S n .UY p.y
      let z ← moveBy S n .UZ p.z
      .ok ⟨x, y, z⟩
    else .ok p
  else .assert

/-! ## `ReactionProcessor` -/

/-- One line of the output file, ReactionProcessor.cpp:74-82, 107-111. -/
inductive Line (K : Type) where
  | header (labels : List String)
  | row (step : Nat) (values : List K)
  deriving Repr, DecidableEq

/-- Members of `ReactionProcessor`, ReactionProcessor.h:24-28. `toFile` is `filename.length() > 0`, `file` the
contents of that file. -/
structure Proc (K : Type) where
  nodes : List Nat
  dofs : List DofType
  toFile : Bool
  sums : List (List K)
  file : List (Line K)
  deriving Repr, DecidableEq

/-- The selection loop, ReactionProcessor.cpp:30-35. -/
def selectLoop (S : Storage K) (n : Nat) : List DofType → Res (List DofType)
  | [] => .ok []
  | t :: ts => do
    let c ← (do if ← isUsed S .node n t then isConstrained S n t else .ok false)
    let r ← selectLoop S n ts
    .ok (if c then t :: r else r)

/-- The body of the check at ReactionProcessor.cpp:43-49: `!isNodeDofUsed(..) && !getNodeDof(..)->isConstrained`. -/
def differs (S : Storage K) (n : Nat) (t : DofType) : Res Bool := do
  if ← isUsed S .node n t then .ok false
  else do
    let c ← isConstrained S n t
    .ok (!c)

/-- `for d` of the check of one node, ReactionProcessor.cpp:43-49. -/
def checkNode (S : Storage K) (n : Nat) : List DofType → Res Unit
  | [] => .ok ()
  | t :: ts => do
    if ← differs S n t then .fatal else checkNode S n ts

/-- `while (sameDofsConstrained && n < nodes.size())`, ReactionProcessor.cpp:42-51. -/
def checkNodes (S : Storage K) (dofs : List DofType) : List Nat → Res Unit
  | [] => .ok ()
  | n :: ns => do
    checkNode S n dofs
    checkNodes S dofs ns

/-- `for d` of the check of user-given DoFs, ReactionProcessor.cpp:57-63: true when all are used. -/
def usedNode (S : Storage K) (n : Nat) : List DofType → Res Bool
  | [] => .ok true
  | t :: ts => do
    if ← isUsed S .node n t then usedNode S n ts else .ok false

/-- `while (dofsUsed && n < nodes.size())`, ReactionProcessor.cpp:56-65. The result only selects a message. -/
def usedNodes (S : Storage K) (dofs : List DofType) : List Nat → Res Unit
  | [] => .ok ()
  | n :: ns => do
    if ← usedNode S n dofs then usedNodes S dofs ns else .ok ()

/-- Choice of the DoFs, ReactionProcessor.cpp:29-66. `numberOfDofTypes` enumerators are tried in order. -/
def chooseDofs (S : Storage K) (P : Proc K) (first : Nat) : Res (List DofType) :=
  if P.dofs = [] then do
    let ds ← selectLoop S first DofType.list
    checkNodes S ds P.nodes
    .ok ds
  else do
    usedNodes S P.dofs P.nodes
    .ok P.dofs

/-- The labels of the header, ReactionProcessor.cpp:73-75. -/
def headerLabels : List DofType → Res (List String)
  | [] => .ok []
  | t :: ts => do
    let l ← Res.read dofTypeLabels (dofToNat t)
    let r ← headerLabels ts
    .ok (l :: r)

/-- `pre`, ReactionProcessor.cpp:19-89. `canCreate`: the file can be created. -/
def pre [Zero K] (S : Storage K) (P : Proc K) (canCreate : Bool) : Res (Proc K) :=
  match P.nodes with
  | [] => .ok P
  | first :: _ => do
    let ds ← chooseDofs S P first
    let P := { P with dofs := ds }
    if P.toFile then
      if canCreate then do
        let ls ← headerLabels ds
        .ok { P with file := [.header ls, .row 0 (ds.map (fun _ => 0))], sums := ds.map (fun _ => [0]) }
      else .ok P
    else .ok { P with sums := ds.map (fun _ => [0]) }

/-- `for d` of the accumulation for one node, ReactionProcessor.cpp:96-98. `reactions` and `dofs` have the same
length (line 93). -/
def addNode [Add K] [Zero K] (S : Storage K) (n : Nat) : List DofType → List K → Res (List K)
  | t :: ts, r :: rs => do
    let v ← reaction S n t
    let rest ← addNode S n ts rs
    .ok ((r + v) :: rest)
  | _, _ => .ok []

/-- `for n`, ReactionProcessor.cpp:95-99. -/
def addNodes [Add K] [Zero K] (S : Storage K) (dofs : List DofType) : List Nat → List K → Res (List K)
  | [], acc => .ok acc
  | n :: ns, acc => do
    let acc ← addNode S n dofs acc
    addNodes S dofs ns acc

/-- `sumOfDofsReactions[d].push_back(reactions[d])` for all `d`, ReactionProcessor.cpp:114-116. -/
def pushAll : List K → List (List K) → Res (List (List K))
  | [], rest => .ok rest
  | _ :: _, [] => .ub
  | v :: vs, h :: hs => do
    let r ← pushAll vs hs
    .ok ((h ++ [v]) :: r)

/-- `process`, ReactionProcessor.cpp:91-117. `canOpen`: the file can be opened. -/
def process [Add K] [Zero K] (S : Storage K) (P : Proc K) (step : Nat) (canOpen : Bool) : Res (Proc K) := do
  let rs ← addNodes S P.dofs P.nodes (P.dofs.map (fun _ => 0))
  if P.toFile then
    if canOpen then do
      let sums ← pushAll rs P.sums
      .ok { P with file := P.file ++ [.row step rs], sums := sums }
    else .ok P
  else do
    let sums ← pushAll rs P.sums
    .ok { P with sums := sums }

/-- `getReactions`, ReactionProcessor.cpp:124-132: the histories are searched by position. -/
def lookup : List DofType → List (List K) → DofType → Res (List K)
  | [], _, _ => .ok []
  | d :: ds, hs, t =>
    if d = t then Res.read hs 0 else lookup ds (hs.drop 1) t

/-- `getReactions`, ReactionProcessor.cpp:124-132. -/
def getReactions (P : Proc K) (t : DofType) : Res (List K) := lookup P.dofs P.sums t

/-- The calls of the solver: `pre`, then `process` for the steps `1, 2, …` with the storages of those steps.
FESolver.cpp:337-508. -/
def runSteps [Add K] [Zero K] : (step : Nat) → List (Storage K) → Proc K → Res (Proc K)
  | _, [], P => .ok P
  | k, S :: Ss, P => do
    let P ← process S P k true
    runSteps (k + 1) Ss P

end Nla3d.Post
