import Verif.Base

/-!
# Model of `src/lib/Dof.h` and `src/lib/Dof.cpp`
-/

namespace Nla3d.Dof

/-- `Dof::dofType`, Dof.h:15-25. -/
inductive DofType where
  | UX | UY | UZ | ROTX | ROTY | ROTZ | HYDRO_PRESSURE | TEMP | UNDEFINED
  deriving DecidableEq, Repr

/-- The enumerators before `UNDEFINED` in order: `static_cast<dofType>(i)`, `i < numberOfDofTypes`. Dof.h:15-25. -/
def DofType.list : List DofType := [.UX, .UY, .UZ, .ROTX, .ROTY, .ROTZ, .HYDRO_PRESSURE, .TEMP]

/-- Order of iteration of a `std::set<dofType>`: order of the enumerators. Dof.h:15-25. -/
def DofType.all : List DofType := DofType.list ++ [.UNDEFINED]

/-- Iteration over `std::set<dofType>(init_list)`: distinct elements in enumerator order. C++ library, used in Dof.cpp:36. -/
def setOrder (ts : List DofType) : List DofType := DofType.all.filter (· ∈ ts)

/-- `class Dof`, Dof.h:13-37. -/
structure Dof where
  eq : Nat
  constrained : Bool
  type : DofType
  deriving DecidableEq, Repr

/-- Constructor `Dof(t)`, Dof.h:27. -/
def Dof.new (t : DofType) : Dof := ⟨0, false, t⟩

/-- Members of `class DofCollection`, Dof.h:64-75. `uniq` lists the elements of the `std::set`. -/
structure Table where
  used : Nat
  entities : Nat
  dofs : List Dof
  pos : List Nat
  uniq : List DofType
  deriving DecidableEq, Repr

/-- A default-constructed `DofCollection`. Dof.h:64-74. -/
def Table.empty : Table := ⟨0, 0, [], [], []⟩

/-- `clearDofTable`, Dof.cpp:70-76. -/
def Table.clear (_ : Table) : Table := ⟨0, 0, [], [], []⟩

/-- `initDofTable`, Dof.cpp:25-29. `n + 1` does not wrap for the sizes considered. -/
def Table.init (T : Table) (n : Nat) : Table :=
  { T.clear with entities := n, pos := List.replicate (n + 1) 0 }

/-- The checks and the read of `dofPos[n-1]`, `dofPos[n]` common to the accessors. `n = 0` passes the
asserts of `addDof`, `isDofUsed`, `getDof` and reads `dofPos[-1]`. Dof.h:88-95, Dof.cpp. -/
def Table.bounds (T : Table) (n : Nat) : Res (Nat × Nat) :=
  if T.entities < n then .assert
  else if T.pos.length = 0 then .assert
  else if n = 0 then .ub
  else do
    let a ← Res.read T.pos (n - 1)
    let b ← Res.read T.pos n
    .ok (a, b)

/-- Scan of `dofs[i], dofs[i+1], ..` (at most `k` of them) for a type; the index if found. The loops at
Dof.cpp:46-51, 84-86 and 98-103. -/
def scan (dofs : List Dof) (t : DofType) : (i k : Nat) → Res (Option Nat)
  | _, 0 => .ok none
  | i, k + 1 => do
    let d ← Res.read dofs i
    if d.type = t then .ok (some i) else scan dofs t (i + 1) k

/-- The types of the list that are not found between `a` and `b`, Dof.cpp:43-56. -/
def missing (dofs : List Dof) (a b : Nat) : List DofType → Res (List DofType)
  | [] => .ok []
  | t :: ts => do
    let r ← scan dofs t a (b - a)
    let rest ← missing dofs a b ts
    match r with
    | some _ => .ok rest
    | none => .ok (t :: rest)

/-- `newDofs` of `addDof`, Dof.cpp:38-56. -/
def Table.newTypes (T : Table) (a b : Nat) (ts : List DofType) : Res (List DofType) :=
  if a = b then .ok (setOrder ts) else missing T.dofs a b (setOrder ts)

/-- `addDof`, Dof.cpp:33-67. -/
def Table.addDof (T : Table) (n : Nat) (ts : List DofType) : Res Table := do
  let (a, b) ← T.bounds n
  let new ← T.newTypes a b ts
  if new = [] then .ok T
  else if T.dofs.length < b then .ub
  else .ok { T with
    dofs := T.dofs.take b ++ new.map Dof.new ++ T.dofs.drop b
    uniq := DofType.all.filter (fun t => t ∈ T.uniq ∨ t ∈ ts)
    -- `while (i <= numberOfEntities) dofPos[i++] += newDofs.size()` from `i = n`
    pos := T.pos.mapIdx (fun i p => if n ≤ i ∧ i ≤ T.entities then p + new.length else p)
    used := T.used + new.length }

/-- `isDofUsed`, Dof.cpp:80-88. -/
def Table.isDofUsed (T : Table) (n : Nat) (t : DofType) : Res Bool := do
  let (a, b) ← T.bounds n
  if a = b then .ok false
  else do
    let r ← scan T.dofs t a (b - a)
    .ok r.isSome

/-- `getDof`, Dof.cpp:92-105: the pointer is the index of the record in `dofs`. -/
def Table.getDof (T : Table) (n : Nat) (t : DofType) : Res (Option Nat) := do
  let (a, b) ← T.bounds n
  scan T.dofs t a (b - a)

/-- The records `getDof` points to. Dof.h:51. -/
def Table.deref (T : Table) (n : Nat) (t : DofType) : Res (Option Dof) := do
  match ← T.getDof n t with
  | none => .ok none
  | some i => do
    let d ← Res.read T.dofs i
    .ok (some d)

/-- Writing through the pointer returned by `getDof`; the null pointer is `ub`. Dof.h:51; FEStorage.cpp:81-102. -/
def Table.modify (T : Table) (n : Nat) (t : DofType) (f : Dof → Dof) : Res Table := do
  match ← T.getDof n t with
  | none => .ub
  | some i => do
    let d ← Res.read T.dofs i
    .ok { T with dofs := T.dofs.set i (f d) }

/-- `getEntityDofs`, Dof.h:89-95: the records between the two iterators. -/
def Table.entityDofs (T : Table) (n : Nat) : Res (List Dof) :=
  if n = 0 then .assert
  else do
    let (a, b) ← T.bounds n
    if b ≤ T.dofs.length then .ok ((T.dofs.take b).drop a) else .ub

/-- `getNumberOfUsedDofs`, Dof.h:78-80. -/
def Table.nUsed (T : Table) : Nat := T.used

/-- `getUniqueDofTypes`, Dof.cpp:108-110. -/
def Table.uniqueTypes (T : Table) : List DofType := T.uniq

end Nla3d.Dof
