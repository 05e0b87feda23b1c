import Verif.Dof.Model
import Verif.Block.Model

/-!
# Model of the DoF bookkeeping, numbering and assembly of `FEStorage`

Sources: `src/lib/FEStorage.h`, `src/lib/FEStorage.cpp`, `src/lib/elements/element.h`, `src/lib/Mpc.h`.

Simplifications. An element is the list of its node numbers (1-based); its number is its position in the list
(`elNum`, FEStorage.cpp:221-242). What the virtual functions `pre`, `buildK`, `buildC`, `buildM`, `update` of
elements and MPC collections do is a parameter: the list of calls they make on the storage. `uint32` sums are
unbounded, except for the subtraction in `assignEquationNumbers`. The three matrices `matK`, `matC`, `matM` are
matrices 0, 1 and 2 of one family (they share sparsity). `vecF`, `vecR` are plain lists (aliasing of the solver's
views is the subject of `Verif/DVec`).
-/

namespace Nla3d.Storage

open Nla3d.Dof Nla3d.Block

variable {K : Type}

/-- `MpcTerm`, Mpc.h:15-28. -/
structure MpcTerm (K : Type) where
  node : Nat
  dof : DofType
  coef : K
  deriving Repr, DecidableEq

/-- `Mpc`, Mpc.h:31-37. -/
structure Mpc (K : Type) where
  eq : List (MpcTerm K)
  b : K
  eqNum : Nat
  deriving Repr, DecidableEq

/-- The two DoF collections `elementDofs` and `nodeDofs`. FEStorage.h:368-369. -/
inductive Side where
  | elem | node
  deriving Repr, DecidableEq

/-- The modelled members of `FEStorage`, FEStorage.h:303-378. `mat = none` is `matK == nullptr`. -/
structure Storage (K : Type) where
  nNodes : Nat
  elements : List (List Nat)
  elemT : Table
  nodeT : Table
  nDofs : Nat
  nConstr : Nat
  nUnknown : Nat
  mpcs : List (Mpc K)
  transient : Bool
  topology : List (List Nat)
  mat : Option (Family K)
  vecU : List K
  vecF : List K
  vecR : List K

/-- `FEStorage` before any solution data: no DoFs, no matrices. FEStorage.h:294-377. -/
def Storage.fresh (nNodes : Nat) (elements : List (List Nat)) (mpcs : List (Mpc K)) (transient : Bool) : Storage K :=
  ⟨nNodes, elements, Table.empty, Table.empty, 0, 0, 0, mpcs, transient, [], none, [], [], []⟩

/-- `nElements`, FEStorage.h:555-557. -/
def Storage.nElements (S : Storage K) : Nat := S.elements.length

/-- `nMpc`, FEStorage.h:546-548. -/
def Storage.nMpc (S : Storage K) : Nat := S.mpcs.length

/-- One of the two collections. FEStorage.h:368-369. -/
def Storage.tab (S : Storage K) : Side → Table
  | .elem => S.elemT
  | .node => S.nodeT

/-- Replace one of the two collections. FEStorage.h:368-369. -/
def Storage.setTab (S : Storage K) (s : Side) (T : Table) : Storage K :=
  match s with
  | .elem => { S with elemT := T }
  | .node => { S with nodeT := T }

/-- `addNodeDof` / `addElementDof`, FEStorage.h:569-577. -/
def Storage.addDof (S : Storage K) (s : Side) (n : Nat) (ts : List DofType) : Res (Storage K) :=
  if 0 < (S.tab s).entities then do
    let T ← (S.tab s).addDof n ts
    .ok (S.setTab s T)
  else .assert

/-- A registration made by `Element::pre` or `MpcCollection::pre`: collection, entity, types. FEStorage.h:569-577. -/
abbrev RegCall := Side × Nat × List DofType

/-- `addMpc`, FEStorage.cpp:175-179. -/
def Storage.addMpc (S : Storage K) (m : Mpc K) : Res (Storage K) :=
  if m.eq = [] then .assert else .ok { S with mpcs := S.mpcs ++ [m] }

/-- `initDofs`, FEStorage.cpp:338-379. `calls` are the registrations of all `pre()` calls, `new` the MPCs that
the MPC collections create and register. The message at 357-378 calls `dofType2label` on each used type, which
asserts that no `UNDEFINED` was registered. -/
def Storage.initDofs (S : Storage K) (calls : List RegCall) (new : List (Mpc K)) : Res (Storage K) := do
  if S.nNodes < 1 ∧ S.nElements < 1 then .fatal
  else do
    let S := { S with nodeT := S.nodeT.init S.nNodes, elemT := S.elemT.init S.nElements }
    let S ← Res.foldlM' (fun (S : Storage K) (c : RegCall) => S.addDof c.1 c.2.1 c.2.2) S calls
    let S ← Res.foldlM' Storage.addMpc S new
    let S := { S with nDofs := S.elemT.nUsed + S.nodeT.nUsed }
    if S.nDofs = 0 then .fatal
    else if DofType.UNDEFINED ∈ S.nodeT.uniqueTypes ∨ DofType.UNDEFINED ∈ S.elemT.uniqueTypes then .assert
    else .ok S

/-- `setConstrainedNodeDof` / `setConstrainedElementDof`, FEStorage.cpp:81-102. -/
def Storage.setConstrained (S : Storage K) (s : Side) (n : Nat) (t : DofType) : Res (Storage K) := do
  match ← (S.tab s).deref n t with
  | none => .assert
  | some d =>
    if d.constrained then .ok S
    else do
      let T ← (S.tab s).modify n t (fun d => { d with constrained := true })
      .ok { S.setTab s T with nConstr := S.nConstr + 1 }

/-- Body of the numbering loops, FEStorage.cpp:396-403 and 410-417. State: storage, `next_eq_const`,
`next_eq_solve`. -/
def numberOne (st : Storage K × Nat × Nat) (k : Side × Nat × DofType) : Res (Storage K × Nat × Nat) := do
  let (S, c, u) := st
  match ← (S.tab k.1).deref k.2.1 k.2.2 with
  | none => .ok (S, c, u)
  | some d =>
    if d.constrained then do
      let T ← (S.tab k.1).modify k.2.1 k.2.2 (fun d => { d with eq := c })
      .ok (S.setTab k.1 T, c + 1, u)
    else do
      let T ← (S.tab k.1).modify k.2.1 k.2.2 (fun d => { d with eq := u })
      .ok (S.setTab k.1 T, c, u + 1)

/-- The loop variables of FEStorage.cpp:392-394 and 407-409. -/
def loopKeys (s : Side) (n : Nat) : List (Side × Nat × DofType) :=
  (List.range n).flatMap (fun i => DofType.list.map (fun t => (s, i + 1, t)))

/-- Numbering of the MPC equations, FEStorage.cpp:424-427. -/
def numberMpcs : (next : Nat) → List (Mpc K) → Res (List (Mpc K) × Nat)
  | next, [] => .ok ([], next)
  | next, m :: ms =>
    if m.eq = [] then .assert
    else do
      let (ms', last) ← numberMpcs (next + 1) ms
      .ok ({ m with eqNum := next } :: ms', last)

/-- `a - b` in `uint32` for `a, b` below `2^32`. C++ language, for FEStorage.cpp and FEStorage.h:623-632. -/
def subU32 (a b : Nat) : Nat := if b ≤ a then a - b else a + 4294967296 - b

/-- `assignEquationNumbers`, FEStorage.cpp:382-432. -/
def Storage.assign (S : Storage K) : Res (Storage K) := do
  let S := { S with nUnknown := subU32 S.nDofs S.nConstr }
  if S.nUnknown = 0 then .fatal
  else do
    let st ← Res.foldlM' numberOne (S, 1, S.nConstr + 1) (loopKeys .elem S.nElements)
    let st ← Res.foldlM' numberOne st (loopKeys .node S.nNodes)
    if st.2.1 - 1 ≠ S.nConstr then .assert
    else if st.2.2 - 1 ≠ S.nDofs then .assert
    else do
      let (ms, last) ← numberMpcs st.2.2 st.1.mpcs
      if last - 1 ≠ S.nDofs + ms.length then .assert
      else .ok { st.1 with mpcs := ms }

/-- `getNodeDofEqNumber` / `getElementDofEqNumber`, FEStorage.h:602-619: `getDof(..)->eqNumber`. -/
def Storage.eqNumber (S : Storage K) (s : Side) (n : Nat) (t : DofType) : Res Nat :=
  if 0 < (S.tab s).nUsed then do
    match ← (S.tab s).deref n t with
    | none => .ub
    | some d => .ok d.eq
  else .assert

/-! ## Topology and sparsity -/

/-- `std::set<uint32>::insert`. C++ library, called in FEStorage.cpp:586. -/
def setInsert (x : Nat) : List Nat → List Nat
  | [] => [x]
  | y :: ys => if x < y then x :: y :: ys else if x = y then y :: ys else y :: setInsert x ys

/-- Body of the loops of `learnTopology`: `topology[noden-1].insert(en)`. Node 0 wraps to a huge index. FEStorage.cpp:585-586. -/
def topoInsert (T : List (List Nat)) (p : Nat × Nat) : Res (List (List Nat)) :=
  if p.2 = 0 then .ub
  else do
    let s ← Res.read T (p.2 - 1)
    .ok (T.set (p.2 - 1) (setInsert p.1 s))

/-- Pairs (element, node) in the order of the loops of `learnTopology`. FEStorage.cpp:583-588. -/
def incidences (els : List (List Nat)) : List (Nat × Nat) :=
  els.zipIdx.flatMap (fun p => p.1.map (fun n => (p.2 + 1, n)))

/-- `learnTopology`, FEStorage.cpp:580-589. -/
def Storage.learnTopology (S : Storage K) : Res (Storage K) := do
  let T ← Res.foldlM' topoInsert (List.replicate S.nNodes []) (incidences S.elements)
  .ok { S with topology := T }

/-- All pairs (equation of `d1`, equation of `d2`), `d1` in the outer loop. FEStorage.cpp:438-560. -/
def eqPairs (l1 l2 : List Dof) : List (Nat × Nat) := l1.flatMap (fun d1 => l2.map (fun d2 => (d1.eq, d2.eq)))

/-- `addEntryK` in a loop, FEStorage.h:653-657. -/
def addEntries (F : Family K) (ps : List (Nat × Nat)) : Res (Family K) :=
  Res.foldlM' (fun (F : Family K) (p : Nat × Nat) => F.addEntry 0 p.1 p.2) F ps

/-- Node `nn2` of the inner loop, FEStorage.cpp:506-514. -/
def Storage.entriesNode (S : Storage K) (nn : Nat) (nnDofs : List Dof) (F : Family K) (nn2 : Nat) : Res (Family K) :=
  if nn2 < nn then .ok F
  else do
    let d2 ← S.nodeT.entityDofs nn2
    addEntries F (eqPairs d2 nnDofs)

/-- Element `en` of the topology of node `nn`, FEStorage.cpp:498-515. -/
def Storage.entriesElem (S : Storage K) (nn : Nat) (nnDofs : List Dof) (F : Family K) (en : Nat) : Res (Family K) := do
  let enDofs ← S.elemT.entityDofs en
  let F ← addEntries F (eqPairs enDofs nnDofs)
  let nodes ← Res.read S.elements (en - 1)
  Res.foldlM' (S.entriesNode nn nnDofs) F nodes

/-- Node `nn`, FEStorage.cpp:495-516. -/
def Storage.entriesAt (S : Storage K) (F : Family K) (nn : Nat) : Res (Family K) := do
  let nnDofs ← S.nodeT.entityDofs nn
  let els ← Res.read S.topology (nn - 1)
  Res.foldlM' (S.entriesElem nn nnDofs) F els

/-- Element DoFs against element DoFs, FEStorage.cpp:519-524. -/
def Storage.entriesOwn (S : Storage K) (F : Family K) (en : Nat) : Res (Family K) := do
  let d ← S.elemT.entityDofs en
  addEntries F (eqPairs d d)

/-- One term of an MPC: FEStorage.cpp:530-533 and `addEntryMPC`, FEStorage.h:660-666. -/
def Storage.entryTerm (S : Storage K) (eqNum : Nat) (F : Family K) (t : MpcTerm K) : Res (Family K) := do
  let j ← S.eqNumber .node t.node t.dof
  if S.nConstr + S.nUnknown < eqNum ∧ eqNum ≤ S.nConstr + S.nUnknown + S.nMpc ∧ 0 < j ∧ j ≤ S.nConstr + S.nUnknown then
    F.addEntry 0 eqNum j
  else .assert

/-- One MPC, FEStorage.cpp:527-534. -/
def Storage.entriesMpc (S : Storage K) (F : Family K) (m : Mpc K) : Res (Family K) :=
  if m.eq = [] then .assert else Res.foldlM' (S.entryTerm m.eqNum) F m.eq

/-- Construction of `matK` and, for transient analyses, `matC`, `matM`: FEStorage.cpp:467-474. The default row
capacity is 100 (BlockSparseMatrix.h:42). -/
def Storage.newMats [Zero K] (S : Storage K) : Res (Family K) := do
  let F ← Family.create [S.nConstr, S.nUnknown + S.nMpc] 100
  if S.transient then do
    let F ← F.copy 0
    F.copy 0
  else .ok F

/-- The registration of all entries, FEStorage.cpp:495-534. -/
def Storage.entriesAll (S : Storage K) (F : Family K) : Res (Family K) := do
  let F ← Res.foldlM' S.entriesAt F ((List.range S.nNodes).map (· + 1))
  let F ← Res.foldlM' S.entriesOwn F ((List.range S.nElements).map (· + 1))
  Res.foldlM' S.entriesMpc F S.mpcs

/-- `initSolutionData`, FEStorage.cpp:434-550. `vecDU`, `vecDDU` are left out. -/
def Storage.initSolution [Zero K] (S : Storage K) : Res (Storage K) := do
  let S ← S.learnTopology
  let F ← S.newMats
  let n := S.nDofs + S.nMpc
  let S := { S with vecU := List.replicate n 0, vecR := List.replicate n 0, vecF := List.replicate n 0 }
  let F ← S.entriesAll F
  let F ← F.compress 0
  if S.transient then do
    let F ← F.compress 1
    let F ← F.compress 2
    .ok { S with mat := some F }
  else .ok { S with mat := some F }

/-! ## Assembly -/

/-- The matrices of the storage. FEStorage.h:328-336. -/
inductive Which where
  | K | C | M
  deriving Repr, DecidableEq

/-- Number of the matrix in the family. FEStorage.h:328-336. -/
def Which.idx : Which → Nat
  | .K => 0 | .C => 1 | .M => 2

/-- `addValueK`, `addValueC`, `addValueM` (equation numbers), FEStorage.h:388-420. -/
def Storage.addValueEq [Add K] (S : Storage K) (w : Which) (i j : Nat) (x : K) : Res (Storage K) :=
  match S.mat with
  | none => .ub
  | some F => do
    let F ← F.addValue w.idx i j x
    .ok { S with mat := some F }

/-- The overloads that take (node, DoF) pairs, FEStorage.h:381-385, 395-399, 409-413. -/
def Storage.addValueNode [Add K] (S : Storage K) (w : Which) (ni : Nat) (ti : DofType) (nj : Nat) (tj : DofType)
    (x : K) : Res (Storage K) := do
  let i ← S.eqNumber .node ni ti
  let j ← S.eqNumber .node nj tj
  S.addValueEq w i j x

/-- `addValueF(eqi, value)`, FEStorage.h:440-445. -/
def Storage.addValueF [Add K] (S : Storage K) (i : Nat) (x : K) : Res (Storage K) :=
  if 0 < i ∧ i ≤ S.vecF.length ∧ i ≤ S.nDofs + S.nMpc then do
    let v ← Res.read S.vecF (i - 1)
    .ok { S with vecF := S.vecF.set (i - 1) (v + x) }
  else .assert

/-- `addValueF(node, dof, value)`, FEStorage.h:434-437. -/
def Storage.addValueFNode [Add K] (S : Storage K) (n : Nat) (t : DofType) (x : K) : Res (Storage K) := do
  let i ← S.eqNumber .node n t
  S.addValueF i x

/-- `addValueR(node, dof, value)`, FEStorage.h:448-459. -/
def Storage.addValueRNode [Add K] (S : Storage K) (n : Nat) (t : DofType) (x : K) : Res (Storage K) := do
  let i ← S.eqNumber .node n t
  if 0 < i ∧ i ≤ S.vecR.length ∧ i ≤ S.nDofs + S.nMpc then do
    let v ← Res.read S.vecR (i - 1)
    .ok { S with vecR := S.vecR.set (i - 1) (v + x) }
  else .assert

/-- Loop variables (i, di, j, dj) of the assembly loops, element.h:289-303. -/
def walk (nn dim : Nat) : List (Nat × Nat × Nat × Nat) :=
  (List.range nn).flatMap (fun i => (List.range dim).flatMap (fun di =>
    (List.range' i (nn - i)).flatMap (fun j => ((List.range dim).filter (fun dj => ¬ (i = j ∧ dj < di))).map
      (fun dj => (i, di, j, dj)))))

/-- One step of the assembly loops: state is the storage and the offset of `Ke_p`. `which` is the matrix the
called function adds to. element.h:289-302, 314-327, 339-352, 364-377. -/
def assembleStep [Add K] (which : Which) (nodes : List Nat) (dofs : List DofType) (ke : List K)
    (st : Storage K × Nat) (q : Nat × Nat × Nat × Nat) : Res (Storage K × Nat) := do
  let ni ← Res.read nodes q.1
  let ti ← Res.read dofs q.2.1
  let nj ← Res.read nodes q.2.2.1
  let tj ← Res.read dofs q.2.2.2
  let x ← Res.read ke st.2
  let S ← st.1.addValueNode which ni ti nj tj x
  .ok (S, st.2 + 1)

/-- Common text of `assembleK`, `assembleC`, `assembleM` (element.h:282-353), with the assertion
`getNNodes() * dim == dimM` (`ke` holds the `dimM*(dimM+1)/2` packed numbers). -/
def Storage.assembleWith [Add K] (S : Storage K) (which : Which) (nodes : List Nat) (dofs : List DofType) (dimM : Nat)
    (ke : List K) : Res (Storage K) :=
  if nodes.length * dofs.length ≠ dimM then .assert
  else do
    let st ← Res.foldlM' (assembleStep which nodes dofs ke) (S, 0) (walk nodes.length dofs.length)
    .ok st.1

/-- `Element::assembleK(Ke, dofs)`, element.h:282-303. -/
def Storage.assembleK [Add K] (S : Storage K) (nodes : List Nat) (dofs : List DofType) (dimM : Nat) (ke : List K) :
    Res (Storage K) := S.assembleWith .K nodes dofs dimM ke

/-- `Element::assembleC(Ce, dofs)`, element.h:307-328. -/
def Storage.assembleC [Add K] (S : Storage K) (nodes : List Nat) (dofs : List DofType) (dimM : Nat) (ke : List K) :
    Res (Storage K) := S.assembleWith .C nodes dofs dimM ke

/-- `Element::assembleM(Me, dofs)`, element.h:332-353. Line 346 calls `addValueC`. -/
def Storage.assembleM [Add K] (S : Storage K) (nodes : List Nat) (dofs : List DofType) (dimM : Nat) (ke : List K) :
    Res (Storage K) := S.assembleWith .C nodes dofs dimM ke

/-- The load part of `assembleK(Ke, Fe, dofs)`, element.h:379-385. -/
def Storage.assembleF [Add K] (S : Storage K) (nodes : List Nat) (dofs : List DofType) (fe : List K) : Res (Storage K) :=
  Res.foldlM' (fun (S : Storage K) (p : (Nat × DofType) × Nat) => do
      let x ← Res.read fe p.2
      S.addValueFNode p.1.1 p.1.2 x)
    S ((nodes.flatMap (fun n => dofs.map (fun t => (n, t)))).zipIdx)

/-- `Element::assembleK(Ke, Fe, dofs)`, element.h:357-386. -/
def Storage.assembleKF [Add K] (S : Storage K) (nodes : List Nat) (dofs : List DofType) (dimM : Nat) (ke fe : List K) :
    Res (Storage K) := do
  let S ← S.assembleWith .K nodes dofs dimM ke
  S.assembleF nodes dofs fe

/-- A call an element makes while building its contributions. element.h:282-386. -/
inductive Contrib (K : Type) where
  | mat (w : Which) (i j : Nat) (x : K)
  | load (i : Nat) (x : K)
  deriving Repr, DecidableEq

/-- Executing a contribution. element.h:282-386, FEStorage.h:381-459. -/
def Storage.contribute [Add K] (S : Storage K) : Contrib K → Res (Storage K)
  | .mat w i j x => S.addValueEq w i j x
  | .load i x => S.addValueF i x

/-- `zeroK`, `zeroC`, `zeroM`, FEStorage.h:462-477. -/
def Storage.zeroMat [Zero K] (S : Storage K) (w : Which) : Res (Storage K) :=
  match S.mat with
  | none => .assert
  | some F => do
    let F ← F.zero w.idx
    .ok { S with mat := some F }

/-- `zeroF`, FEStorage.h:480-482. -/
def Storage.zeroF [Zero K] (S : Storage K) : Storage K := { S with vecF := S.vecF.map (fun _ => 0) }

/-- One MPC of the loop FEStorage.cpp:53-63. -/
def Storage.assembleMpc [Add K] (S : Storage K) (m : Mpc K) : Res (Storage K) :=
  if 0 < m.eqNum ∧ m.eqNum ≤ S.vecF.length ∧ m.eqNum ≤ S.nDofs + S.nMpc then do
    let S := { S with vecF := S.vecF.set (m.eqNum - 1) m.b }
    Res.foldlM' (fun (S : Storage K) (t : MpcTerm K) => do
      let j ← S.eqNumber .node t.node t.dof
      S.addValueEq .K m.eqNum j t.coef) S m.eq
  else .assert

/-- `assembleGlobalEqMatrices`, FEStorage.cpp:26-78. `build` are the calls made by all `buildK`, `upd` is the state
of the MPCs after the collections' `update`, `buildCM` are the calls made by all `buildC`, `buildM`. -/
def Storage.assemble [Zero K] [Add K] (S : Storage K) (build : List (Contrib K)) (upd : List (Mpc K) → List (Mpc K))
    (buildCM : List (Contrib K)) : Res (Storage K) := do
  let S ← S.zeroMat .K
  let S := S.zeroF
  let S ← Res.foldlM' Storage.contribute S build
  let S := { S with mpcs := upd S.mpcs }
  let S ← Res.foldlM' Storage.assembleMpc S S.mpcs
  if S.transient then do
    let S ← S.zeroMat .C
    let S ← S.zeroMat .M
    Res.foldlM' Storage.contribute S buildCM
  else .ok S

end Nla3d.Storage
