import Verif.Text.Model
import Verif.Labels.Model

/-!
# Model of the reader of Ansys cdb files and of `MeshData`

`readCdbFile`, `MeshData::compressNumbers`, `getDegeneratedCells`, `getCellsByAttribute` (FEReaders.cpp).

Floating-point text is parsed by a parameter `stod`. Text is as in `Verif.Text.Model`. The value of APDL parameters and of the current
element type (`apdlParameters`, `type`), which the code keeps but never uses, is not modelled; the exceptions and out-of-bounds reads
of these branches are. Loops that the code bounds only by the file or by 16-bit counters get a number of passes (`fuel`); running out
of it is the outcome `fuel`. Memory exhaustion is not modelled, apart from `reserve` calls with more than `max_size` elements.
-/

namespace Nla3d.Cdb

open Nla3d.Text
open Nla3d.Dof (DofType)

/-- How a call can end without a result: `LOG(FATAL)`, a failed `assert`, `std::invalid_argument`, another exception that nobody
catches, undefined behaviour, and (for loops) more passes than the model was asked to follow.
Exceptions are caught in FEReaders.cpp:540, 663, 673, 686, 719 only. -/
inductive Stop where
  | fatal | assert | invalid | exn | ub | fuel
  deriving DecidableEq, Repr

/-- Results of the functions of FEReaders.cpp:20-729. -/
abbrev Out := Except Stop

/-- Calls of the text helpers. The helpers of FEReaders.cpp:109-243. -/
def lift {α : Type} : Res α → Out α
  | .ok a => .ok a
  | .fatal => .error .fatal
  | .assert => .error .assert
  | .ub => .error .ub

/-- `v[i]` of a `std::vector`. Used in FEReaders.cpp:247, 252, 353-725. -/
def read {α : Type} (v : List α) (i : Nat) : Out α :=
  match v[i]? with
  | some a => .ok a
  | none => .error .ub

/-- `isspace` in the "C" locale. C library, used by `std::stoi` in FEReaders.cpp:247. -/
def isSpace (c : Char) : Bool := [' ', '\t', '\n', '\x0b', '\x0c', '\r'].contains c

/-- Value of a string of decimal digits. C library, used by `std::stoi` in FEReaders.cpp:247. -/
def digitsVal (ds : List Char) : Nat := ds.foldl (fun n c => 10 * n + (c.toNat - 48)) 0

/-- The digits at the start of a string; none is `invalid_argument`. C library, used by `std::stoi` in FEReaders.cpp:247. -/
def leadingNat (s : List Char) : Out Nat :=
  let ds := s.takeWhile Char.isDigit
  if ds.isEmpty then .error .invalid else .ok (digitsVal ds)

/-- Representable as `int`. C library, used by `std::stoi` in FEReaders.cpp:247. -/
def inInt (z : Int) : Bool := decide (-2147483648 ≤ z) && decide (z ≤ 2147483647)

/-- `std::stoi`: blanks, sign, digits; the rest is ignored; `out_of_range` outside `int`.
C++ library, called in FEReaders.cpp:247, 384-387, 409, 461-462, 491-506, 519, 598-599, 624. -/
def stoi (s : List Char) : Out Int := do
  let z ← match s.dropWhile isSpace with
    | '-' :: r => (leadingNat r).map fun n => -(n : Int)
    | '+' :: r => (leadingNat r).map fun n => (n : Int)
    | r => (leadingNat r).map fun n => (n : Int)
  if inInt z then .ok z else .error .exn

/-- Conversion of an `int` to `uint32`. C++ language, in FEReaders.cpp:409, 491-506, 519, 565, 642-644. -/
def toU32 (z : Int) : Nat := (z % 4294967296).toNat

/-- A constraint equation term, Mpc.h:15-28. -/
structure Term (K : Type) where
  node : Int
  dof : DofType
  coef : K
  deriving DecidableEq, Repr

/-- `Mpc`, Mpc.h:31-37, as the reader fills it. -/
structure Eqn (K : Type) where
  b : K
  eq : List (Term K)
  deriving DecidableEq, Repr

/-- `fixBC` and `loadBC`, Mpc.h:64-84. -/
structure Bc (K : Type) where
  node : Int
  dof : DofType
  value : K
  deriving DecidableEq, Repr

/-- `FEComponent::typeOfComponent`, FEComponent.h:12-17. -/
inductive CompType where
  | NOT_DEFINED | ELEMENTS | NODES
  deriving DecidableEq, Repr

/-- `FEComponent`, FEComponent.h:10-31. -/
structure Comp where
  name : List Char
  type : CompType
  list : List Nat
  deriving DecidableEq, Repr

/-- The entries of `cellIntData` that the reader of cdb files fills, FEReaders.cpp:330-335. -/
structure CellData where
  mat : List Nat
  real : List Nat
  sect : List Nat
  cs : List Nat
  shape : List Nat
  type : List Nat
  deriving DecidableEq, Repr

/-- `MeshData`, FEReaders.h:25-58. `feComps` is a map ordered by name; here a list in which names are looked up. -/
structure MeshData (K : Type) where
  cellNumbers : List Nat
  cellNodes : List (List Nat)
  cellInt : CellData
  nodesNumbers : List Nat
  nodesPos : List (K × K × K)
  loadBcs : List (Bc K)
  fixBcs : List (Bc K)
  mpcs : List (Eqn K)
  feComps : List Comp
  deriving DecidableEq, Repr

/-- `MeshData::clear`, FEReaders.cpp:20-32, and the empty lists of cell data. -/
def MeshData.empty {K : Type} : MeshData K := ⟨[], [], ⟨[], [], [], [], [], []⟩, [], [], [], [], [], []⟩

section
variable {K : Type}

/-! ## Renumbering -/

/-- `*std::max_element` (undefined behaviour for an empty list). C++ library, called in FEReaders.cpp:37. -/
def maxElement : List Nat → Out Nat
  | [] => .error .ub
  | a :: l => .ok (l.foldl max a)

/-- The map `old2new` after the loop FEReaders.cpp:43-47: the last entry of a number wins. -/
def old2new : List (Nat × Nat) → Nat → Nat
  | [], _ => 0
  | (o, n) :: l, x => if o = x then n else old2new l x

/-- The loop FEReaders.cpp:43-47: pairs (old, new), latest first, the new numbers and the next number. -/
def renumberLoop : List Nat → Nat → List (Nat × Nat) → List Nat → List (Nat × Nat) × List Nat × Nat
  | [], next, m, out => (m, out, next)
  | x :: l, next, m, out => renumberLoop l ((next + 1) % 4294967296) ((x, next) :: m) (out ++ [next])

/-- Node of a boundary condition or term: `int32` used as a key of type `uint32`, and back. FEReaders.cpp:58-72. -/
def mapNode (m : List (Nat × Nat)) (z : Int) : Int :=
  let n := old2new m (toU32 z)
  if n < 2147483648 then n else (n : Int) - 4294967296

/-- `MeshData::compressNumbers`, FEReaders.cpp:35-83. The counter `uint16 i` of the loop over the nodes of a cell does not wrap as long
as a cell has less than 65536 nodes; the equations are separate objects. -/
def compressNumbers (md : MeshData K) : Out (MeshData K) := do
  let mx ← maxElement md.nodesNumbers
  if md.nodesNumbers.length = mx then .ok md
  else
    let r := renumberLoop md.nodesNumbers 1 [] []
    let m := r.1
    if (r.2.2 + 4294967295) % 4294967296 = md.nodesNumbers.length then
      .ok { md with
        nodesNumbers := r.2.1
        cellNodes := md.cellNodes.map fun e => e.map (old2new m)
        loadBcs := md.loadBcs.map fun b => { b with node := mapNode m b.node }
        fixBcs := md.fixBcs.map fun b => { b with node := mapNode m b.node }
        mpcs := md.mpcs.map fun q => { q with eq := q.eq.map fun t => { t with node := mapNode m t.node } }
        feComps := md.feComps.map fun c => if c.type = .NODES then { c with list := c.list.map (old2new m) } else c }
    else .error .assert

/-- Insertion of numbers into a `std::set` (only its size is used). C++ library, used in FEReaders.cpp:89. -/
def insertAll (set : List Nat) : List Nat → List Nat
  | [] => set
  | x :: l => insertAll (if set.contains x then set else set ++ [x]) l

/-- `MeshData::getDegeneratedCells`, FEReaders.cpp:86-95: the loop from cell `i` with `n` cells left. -/
def degeneratedLoop (md : MeshData K) : Nat → Nat → List Nat → Out (List Nat)
  | _, 0, res => .ok res
  | i, n + 1, res => do
    let e ← read md.cellNodes i
    degeneratedLoop md (i + 1) n (if (insertAll [] e).length ≠ e.length then res ++ [i] else res)

/-- `MeshData::getDegeneratedCells`, FEReaders.cpp:86-95. -/
def getDegeneratedCells (md : MeshData K) : Out (List Nat) := degeneratedLoop md 0 md.cellNumbers.length []

/-- `cellIntData[atr_name]`: an unknown name creates an empty vector. FEReaders.cpp:101. -/
def CellData.get (d : CellData) (name : String) : List Nat :=
  if name = "MAT" then d.mat else if name = "REAL" then d.real else if name = "SECT" then d.sect else if name = "CS" then d.cs
  else if name = "SHAPE" then d.shape else if name = "TYPE" then d.type else []

/-- `MeshData::getCellsByAttribute`, FEReaders.cpp:98-106: the loop from cell `i` with `n` cells left. -/
def byAttributeLoop (vals : List Nat) (val : Nat) : Nat → Nat → List Nat → Out (List Nat)
  | _, 0, res => .ok res
  | i, n + 1, res => do
    let x ← read vals i
    byAttributeLoop vals val (i + 1) n (if x = val then res ++ [i] else res)

/-- `MeshData::getCellsByAttribute`, FEReaders.cpp:98-106. -/
def getCellsByAttribute (md : MeshData K) (name : String) (val : Nat) : Out (List Nat) :=
  byAttributeLoop (md.cellInt.get name) val 0 md.cellNumbers.length []

/-! ## Pieces of `readCdbFile` -/

/-- Match of `\d+`: the digits and the rest. C++ library, used by `std::regex_match` in FEReaders.cpp:383, 460, 597. -/
def digits1 (s : List Char) : Option (List Char × List Char) :=
  let ds := s.takeWhile Char.isDigit
  if ds.isEmpty then none else some (ds, s.dropWhile Char.isDigit)

/-- `std::regex_match(line, "\((\d+)i(\d+)\)")`, FEReaders.cpp:456, 593: the two groups. -/
def matchI (s : List Char) : Option (List Char × List Char) := do
  match s with
  | '(' :: s =>
    let (a, s) ← digits1 s
    match s with
    | 'i' :: s =>
      let (b, s) ← digits1 s
      if s = [')'] then some (a, b) else none
    | _ => none
  | _ => none

/-- `std::regex_match(line, "\((\d+)i(\d+),(\d+)e(\d+)\.[0-9e]+\)")`, FEReaders.cpp:377: the four groups. -/
def matchN (s : List Char) : Option (List Char × List Char × List Char × List Char) := do
  match s with
  | '(' :: s =>
    let (a, s) ← digits1 s
    match s with
    | 'i' :: s =>
      let (b, s) ← digits1 s
      match s with
      | ',' :: s =>
        let (c, s) ← digits1 s
        match s with
        | 'e' :: s =>
          let (d, s) ← digits1 s
          match s with
          | '.' :: s =>
            let p := s.takeWhile fun c => c.isDigit || c == 'e'
            if p.isEmpty then none
            else if s.dropWhile (fun c => c.isDigit || c == 'e') = [')'] then some (a, b, c, d) else none
          | _ => none
        | _ => none
      | _ => none
    | _ => none
  | _ => none

/-- `t.tokenInt(i)` and `t.tokenDouble(i)`, FEReaders.cpp:246-248. -/
def tokenInt (tokens : List (List Char)) (i : Nat) : Out Int := do stoi (← read tokens i)

/-- `t.tokenDouble(i)`, FEReaders.cpp:251-253. -/
def tokenDouble (stod : List Char → Out K) (tokens : List (List Char)) (i : Nat) : Out K := do stod (← read tokens i)

/-- `Dof::label2dofType` of a token. Dof.cpp, see `Verif/Labels`; called in FEReaders.cpp:545, 566, 701. -/
def label2dof (s : List Char) : Out DofType := lift (Labels.label2dofType (String.ofList s))

/-- The position of a node: components the line does not contain stay zero, FEReaders.cpp:410-415. -/
def posAt [Zero K] (stod : List Char → Out K) (v : List (List Char)) (i : Nat) : Out K :=
  match v[i]? with
  | some s => stod s
  | none => .ok 0

/-- The loop over the lines of NBLOCK, FEReaders.cpp:402-418. -/
def nblockLoop [Zero K] (stod : List Char → Out K) (widths : List Nat) (intNum : Nat) :
    Nat → MeshData K → Stream → Out (MeshData K × Stream)
  | 0, _, _ => .error .fuel
  | fuel + 1, md, is => do
    let (line, is) := getLine is
    if is.eof then .ok (md, is)
    else
      let ch ← lift (sfirstNotBlank line)
      if ch = '-' ∨ ch = 'N' then .ok (md, is)
      else
        let v ← lift (ssplit line widths false)
        let z ← stoi (← read v 0)
        let x ← posAt stod v intNum
        let y ← posAt stod v (intNum + 1)
        let w ← posAt stod v (intNum + 2)
        nblockLoop stod widths intNum fuel
          { md with nodesNumbers := md.nodesNumbers ++ [toU32 z], nodesPos := md.nodesPos ++ [(x, y, w)] } is

/-- NBLOCK, FEReaders.cpp:357-419. -/
def nblock [Zero K] (stod : List Char → Out K) (fuel : Nat) (md : MeshData K) (is : Stream) : Out (MeshData K × Stream) := do
  let (line, is) := getLine is
  match matchN (stolower (strim line)) with
  | none => .error .fatal
  | some (a, b, c, d) =>
    let intNum ← stoi a
    let intField ← stoi b
    let floatNum ← stoi c
    let floatField ← stoi d
    let widths := List.replicate intNum.toNat intField.toNat ++ List.replicate floatNum.toNat floatField.toNat
    nblockLoop stod widths intNum.toNat fuel md is

/-- The node numbers of an element, FEReaders.cpp:518-520. -/
def readNodes (v : List (List Char)) (st : Nat) : Nat → Nat → List Nat → Out (List Nat)
  | _, 0, out => .ok out
  | i, n + 1, out => do
    let z ← stoi (← read v (st + i))
    readNodes v st (i + 1) n (out ++ [toU32 z])

/-- What one line of EBLOCK says. FEReaders.cpp:481-489. -/
structure ELine where
  mat : Nat
  etype : Nat
  real : Nat
  sect : Nat
  cs : Nat
  shape : Nat
  nNodes : Nat
  number : Nat
  st : Nat

/-- The fields of a line, FEReaders.cpp:481-511. -/
def elineFields (isSolid : Bool) (v : List (List Char)) : Out ELine := do
  if isSolid then
    let mat ← stoi (← read v 0)
    let etype ← stoi (← read v 1)
    let real ← stoi (← read v 2)
    let sect ← stoi (← read v 3)
    let cs ← stoi (← read v 4)
    let shape ← stoi (← read v 7)
    let n ← stoi (← read v 8)
    let num ← stoi (← read v 10)
    .ok ⟨toU32 mat, toU32 etype, toU32 real, toU32 sect, toU32 cs, toU32 shape, toU32 n, toU32 num, 11⟩
  else
    let num ← stoi (← read v 0)
    let etype ← stoi (← read v 1)
    let real ← stoi (← read v 2)
    let mat ← stoi (← read v 3)
    let cs ← stoi (← read v 4)
    .ok ⟨toU32 mat, toU32 etype, toU32 real, 0, toU32 cs, 0, v.length - 5, toU32 num, 5⟩

/-- Appending an element, FEReaders.cpp:522-529. -/
def pushCell (md : MeshData K) (e : ELine) (nodes : List Nat) : MeshData K :=
  { md with
    cellNumbers := md.cellNumbers ++ [e.number]
    cellNodes := md.cellNodes ++ [nodes]
    cellInt := { mat := md.cellInt.mat ++ [e.mat], real := md.cellInt.real ++ [e.real], sect := md.cellInt.sect ++ [e.sect],
                 cs := md.cellInt.cs ++ [e.cs], shape := md.cellInt.shape ++ [e.shape], type := md.cellInt.type ++ [e.etype] } }

/-- The loop over the lines of EBLOCK, FEReaders.cpp:473-530. -/
def eblockLoop (isSolid : Bool) (widths : List Nat) : Nat → MeshData K → Stream → Out (MeshData K × Stream)
  | 0, _, _ => .error .fuel
  | fuel + 1, md, is => do
    let (line, is) := getLine is
    if is.eof then .ok (md, is)
    else
      let ch ← lift (sfirstNotBlank line)
      if ch = '-' ∨ ch = 'N' then .ok (md, is)
      else
        let v ← lift (ssplit line widths false)
        let e ← elineFields isSolid v
        if v.length ≠ e.st + e.nNodes then .error .fatal
        else
          let nodes ← readNodes v e.st 0 e.nNodes []
          eblockLoop isSolid widths fuel (pushCell md e nodes) is

/-- EBLOCK, FEReaders.cpp:420-531. -/
def eblock (tokens : List (List Char)) (fuel : Nat) (md : MeshData K) (is : Stream) : Out (MeshData K × Stream) := do
  let isSolid ← lift (iequals (← read tokens 2) "SOLID".toList)
  let (line, is) := getLine is
  match matchI (stolower (strim line)) with
  | none => .error .fatal
  | some (a, b) =>
    let intNum ← stoi a
    let intField ← stoi b
    eblockLoop isSolid (List.replicate intNum.toNat intField.toNat) fuel md is

/-- The `try` blocks of D and F, FEReaders.cpp:536-542, 682-688: node and value, `none` when one of them is not a number. -/
def nodeValue (stod : List Char → Out K) (tokens : List (List Char)) : Out (Option (Int × K)) :=
  match (do
    let n ← tokenInt tokens 1
    let x ← tokenDouble stod tokens 3
    pure (n, x) : Out (Int × K)) with
  | .ok r => .ok (some r)
  | .error .invalid => .ok none
  | .error e => .error e

/-- D, FEReaders.cpp:532-548. -/
def dcmd (stod : List Char → Out K) (tokens : List (List Char)) (md : MeshData K) : Out (MeshData K) := do
  match ← nodeValue stod tokens with
  | none => .ok md
  | some (n, x) =>
    let d ← label2dof (← read tokens 2)
    .ok { md with fixBcs := md.fixBcs ++ [⟨n, d, x⟩] }

/-- The DoF of a load label, FEReaders.cpp:692-702. -/
def loadDof (s : List Char) : Out DofType := do
  if ← lift (iequals s "HEAT".toList) then .ok .TEMP
  else if ← lift (iequals s "FX".toList) then .ok .UX
  else if ← lift (iequals s "FY".toList) then .ok .UY
  else if ← lift (iequals s "FZ".toList) then .ok .UZ
  else label2dof s

/-- F, FEReaders.cpp:677-705. -/
def fcmd (stod : List Char → Out K) (tokens : List (List Char)) (md : MeshData K) : Out (MeshData K) := do
  match ← nodeValue stod tokens with
  | none => .ok md
  | some (n, x) =>
    let d ← loadDof (← read tokens 2)
    .ok { md with loadBcs := md.loadBcs ++ [⟨n, d, x⟩] }

/-- The loop over the terms of a line, FEReaders.cpp:564-570: the bound `max(n_terms, 2)` is computed anew in every pass. -/
def ceTerms (stod : List Char → Out K) (tokens : List (List Char)) : Nat → Nat → Int → List (Term K) → Out (Int × List (Term K))
  | 0, _, _, _ => .error .fuel
  | fuel + 1, i, n, eq => do
    if (i : Int) < max n 2 then
      let node ← tokenInt tokens (3 + 3 * i)
      let dof ← label2dof (← read tokens (3 + 3 * i + 1))
      let coef ← tokenDouble stod tokens (3 + 3 * i + 2)
      ceTerms stod tokens fuel (i + 1) (n - 1) (eq ++ [⟨node, dof, coef⟩])
    else .ok (n, eq)

/-- The tokens of a line. FEReaders.cpp:344-347, 352, 562. -/
def tokensOf (line : List Char) : List (List Char) := (tokenize [','] false line).2.1

/-- The loop `while (n_terms > 0)`, FEReaders.cpp:560-571. -/
def ceLoop (stod : List Char → Out K) : Nat → Int → List (Term K) → Stream → Out (List (Term K) × Stream)
  | 0, _, _, _ => .error .fuel
  | fuel + 1, n, eq, is => do
    if 0 < n then
      let (line, is) := getLine is
      let (n', eq') ← ceTerms stod (tokensOf line) (fuel + 1) 0 n eq
      ceLoop stod fuel n' eq' is
    else .ok (eq, is)

/-- CE, FEReaders.cpp:549-573. -/
def ce (stod : List Char → Out K) (tokens : List (List Char)) (fuel : Nat) (md : MeshData K) (is : Stream) :
    Out (MeshData K × Stream) := do
  let b ← tokenDouble stod tokens 5
  let n ← tokenInt tokens 3
  let (eq, is) ← ceLoop stod fuel n [] is
  .ok ({ md with mpcs := md.mpcs ++ [⟨b, eq⟩] }, is)

/-- `FEComponent::typeFromString`, FEComponent.cpp:19-27. -/
def typeFromString (s : List Char) : CompType :=
  if s = "ELEM".toList then .ELEMENTS else if s = "NODE".toList then .NODES else .NOT_DEFINED

/-- State of the loop over the ranges of CMBLOCK, FEReaders.cpp:609-636. -/
structure CmState where
  inRow : Nat
  all : Nat
  ranges : List Int
  fields : List (List Char)
  numEntity : Nat
  is : Stream

/-- A number that must fit `int`, otherwise the arithmetic is undefined behaviour. C++ language, for FEReaders.cpp:632, 644. -/
def intArith (z : Int) : Out Int := if inInt z then .ok z else .error .ub

/-- New line when a row is used up, FEReaders.cpp:619-623. -/
def cmLine (intNum : Nat) (widths : List Nat) (s : CmState) : Out CmState := do
  if s.inRow = intNum then
    let (line, is) := getLine s.is
    let v ← lift (ssplit line widths false)
    .ok { s with fields := v, is := is, inRow := 0 }
  else .ok s

/-- Number of entities added by the entry at `all`, FEReaders.cpp:625-633. -/
def cmCount (s : CmState) : Out Nat := do
  let r ← read s.ranges s.all
  if 0 < r then .ok ((s.numEntity + 1) % 18446744073709551616)
  else if s.all = 0 then .error .assert
  else
    let p ← read s.ranges (s.all - 1)
    if 0 < p then
      let m ← intArith (-r)
      let d ← intArith (m - p)
      .ok (((s.numEntity : Int) + d) % 18446744073709551616).toNat
    else .error .assert

/-- One pass, FEReaders.cpp:619-635: `in_row` and `all` are 16 bit wide. -/
def cmPass (intNum : Nat) (widths : List Nat) (s : CmState) : Out CmState := do
  let s ← cmLine intNum widths s
  let z ← stoi (← read s.fields s.inRow)
  let s := { s with ranges := s.ranges ++ [z] }
  let k ← cmCount s
  .ok { s with numEntity := k, inRow := (s.inRow + 1) % 65536, all := (s.all + 1) % 65536 }

/-- `while (all < numRanges)`. FEReaders.cpp:618-636. -/
def cmLoop (intNum : Nat) (widths : List Nat) (numRanges : Nat) : Nat → CmState → Out CmState
  | 0, _ => .error .fuel
  | fuel + 1, s => do
    if s.all < numRanges then
      let s' ← cmPass intNum widths s
      cmLoop intNum widths numRanges fuel s'
    else .ok s

/-- The loop that fills the list, FEReaders.cpp:640-650. -/
def fillLoop (ranges : List Int) (numRanges : Nat) : Nat → Nat → List Nat → Out (List Nat)
  | 0, _, _ => .error .fuel
  | fuel + 1, all, out => do
    if all < numRanges then
      let r ← read ranges all
      if 0 < r then fillLoop ranges numRanges fuel ((all + 1) % 65536) (out ++ [toU32 r])
      else if all = 0 then .error .ub
      else
        let p ← read ranges (all - 1)
        let lo ← intArith (p + 1)
        let m ← intArith (-r)
        let hi ← intArith (m + 1)
        fillLoop ranges numRanges fuel ((all + 1) % 65536) (out ++ List.range' (toU32 lo) (toU32 hi - toU32 lo))
    else .ok out

/-- `feComps.insert`: an existing entry stays. FEReaders.cpp:651. -/
def insertComp (c : Comp) (l : List Comp) : List Comp := if l.any (fun d => d.name == c.name) then l else l ++ [c]

/-- `max_size` of a vector of 4-byte elements. C++ library, for `reserve` in FEReaders.cpp:614, 638. -/
def maxSize : Nat := 2305843009213693951

/-- CMBLOCK, FEReaders.cpp:574-653. -/
def cmblock (tokens : List (List Char)) (fuel : Nat) (md : MeshData K) (is : Stream) : Out (MeshData K × Stream) := do
  let name ← read tokens 1
  if name.head? = some '_' then .ok (md, is)
  else
    let type := typeFromString (stoupper (← read tokens 2))
    let z ← tokenInt tokens 3
    let numRanges := (z % 18446744073709551616).toNat
    let (line, is) := getLine is
    match matchI (stolower (strim line)) with
    | none => .error .fatal
    | some (a, b) =>
      let intNum ← stoi a
      let intField ← stoi b
      let widths := List.replicate intNum.toNat intField.toNat
      if maxSize < numRanges then .error .exn
      else
        let (line, is) := getLine is
        let v ← lift (ssplit line widths false)
        let s ← cmLoop intNum.toNat widths numRanges fuel ⟨0, 0, [], v, 0, is⟩
        if maxSize < s.numEntity then .error .exn
        else
          let list ← fillLoop s.ranges numRanges fuel 0 []
          .ok ({ md with feComps := insertComp ⟨name, type, list⟩ md.feComps }, s.is)

/-- ET, ETYPE and TYPE, FEReaders.cpp:654-676: only what can go wrong. Not modelled: the
conversion of a parameter that does not fit in `uint32` (line 664), which C++ leaves undefined. -/
def etcmd (tokens : List (List Char)) : Out Unit :=
  match tokenInt tokens 1 with
  | .ok _ => .ok ()
  | .error .invalid => .ok ()
  | .error e => .error e

/-- `*set`, FEReaders.cpp:706-725: only what can go wrong. -/
def setcmd (stod : List Char → Out K) (tokens : List (List Char)) : Out Unit :=
  match (do
    let _ ← read tokens 1
    let _ ← tokenDouble stod tokens 2
    pure () : Out Unit) with
  | .ok _ => .ok ()
  | .error .invalid => .ok ()
  | .error e => .error e

/-- One command: the chain of `if`s of FEReaders.cpp:353-725. -/
def command [Zero K] (stod : List Char → Out K) (fuel : Nat) (tokens : List (List Char)) (md : MeshData K) (is : Stream) :
    Out (MeshData K × Stream) := do
  let t ← read tokens 0
  if t = [] then .ok (md, is)
  else if t.head? = some '/' then .ok (md, is)
  else if t.head? = some '!' then .ok (md, is)
  else if ← lift (iequals t "NBLOCK".toList) then nblock stod fuel md is
  else if ← lift (iequals t "EBLOCK".toList) then eblock tokens fuel md is
  else if ← lift (iequals t "D".toList) then do .ok (← dcmd stod tokens md, is)
  else if ← lift (iequals t "CE".toList) then ce stod tokens fuel md is
  else if ← lift (iequals t "CMBLOCK".toList) then cmblock tokens fuel md is
  else if ← lift (iequals t "ET".toList) then do etcmd tokens; .ok (md, is)
  else if ← lift (iequals t "ETYPE".toList) then do etcmd tokens; .ok (md, is)
  else if ← lift (iequals t "TYPE".toList) then do etcmd tokens; .ok (md, is)
  else if ← lift (iequals t "F".toList) then do .ok (← fcmd stod tokens md, is)
  else if ← lift (iequals t "*set".toList) then do setcmd stod tokens; .ok (md, is)
  else .ok (md, is)

/-- `while (!getLine(file, line).eof())`, FEReaders.cpp:350-726. -/
def cdbLoop [Zero K] (stod : List Char → Out K) : Nat → MeshData K → Stream → Out (MeshData K)
  | 0, _, _ => .error .fuel
  | fuel + 1, md, is => do
    let (line, is) := getLine is
    if is.eof then .ok md
    else
      let (md', is') ← command stod fuel (tokensOf line) md is
      cdbLoop stod fuel md' is'

/-- `readCdbFile`, FEReaders.cpp:321-729, on the characters of an existing file. -/
def readCdb [Zero K] (stod : List Char → Out K) (fuel : Nat) (file : List Char) : Out (MeshData K) :=
  cdbLoop stod fuel MeshData.empty ⟨file, false⟩

end

end Nla3d.Cdb
