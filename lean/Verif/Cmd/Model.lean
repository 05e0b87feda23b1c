import Verif.Labels.Model
import Mathlib.Algebra.Field.Defs

/-!
# Model of the command line of the program

Sources: `src/lib/sys.cpp`, `src/main.cpp`.

Simplifications. Arguments are strings without a zero character. `atoi` and `atof` are parameters. Streams of the
reference curve are lists of blank-separated tokens (see `In`).
-/

namespace Nla3d.Cmd

open Nla3d.Dof Nla3d.Labels

variable {K : Type}

/-! ## `sys.cpp` -/

/-- `std::find(begin, end, option)`: the arguments from the first occurrence on. C++ library, called in sys.cpp:80, 89, 102. -/
def find (opt : String) : List String → List String
  | [] => []
  | a :: as => if a = opt then a :: as else find opt as

/-- `getCmdOption`, sys.cpp:79-85. -/
def getCmdOption (args : List String) (opt : String) : Option String :=
  match find opt args with
  | _ :: v :: _ => some v
  | _ => none

/-- The condition of the loop of `getCmdManyOptions`, sys.cpp:91: `itr[0][0] == '-'` and `itr[0][1]` is no digit. The
character after `"-"` is the terminating zero. -/
def isOption (a : String) : Bool :=
  match a.toList with
  | '-' :: c :: _ => c < '0' || '9' < c
  | ['-'] => true
  | _ => false

/-- `getCmdManyOptions`, sys.cpp:87-99. -/
def getCmdManyOptions (args : List String) (opt : String) : List String :=
  match find opt args with
  | [] => []
  | _ :: rest => rest.takeWhile (fun a => !isOption a)

/-- `cmdOptionExists`, sys.cpp:101-103. -/
def cmdOptionExists (args : List String) (opt : String) : Bool := find opt args ≠ []

/-- Range of `int32`. C++ language, for the conversions in main.cpp:52-117. -/
def inInt32 (x : Int) : Bool := -2147483648 ≤ x ∧ x ≤ 2147483647

/-- `npow`, sys.cpp:18-24: signed overflow is undefined. `dig` is an `int16`, `power` a `uint16`. -/
def npowLoop (dig : Int) : Nat → Int → Res Int
  | 0, res => .ok res
  | n + 1, res => if inInt32 (res * dig) then npowLoop dig n (res * dig) else .ub

/-- `npow`, sys.cpp:18-24. -/
def npow (dig : Int) (power : Nat) : Res Int := npowLoop dig power 1

/-- `getFileNameFromPath`, sys.cpp:107-113: everything before the last point. -/
def fileStem (s : List Char) : List Char :=
  match s.reverse.dropWhile (· ≠ '.') with
  | [] => s
  | _ :: r => r.reverse

/-! ## `parse_args` -/

/-- The variables of `namespace options`, main.cpp:21-37. -/
structure Options (K : Type) where
  iterations : Nat
  loadsteps : Nat
  material : String
  element : ElementType
  useVtk : Bool
  model : String
  constants : List K
  refCurve : String
  threshold : K
  reaction : String
  reactionDofs : List DofType
  rigidMaster : Nat
  rigidSlaves : String
  rigidDofs : List DofType

/-- Initial values, main.cpp:22-36. -/
def Options.init [Zero K] : Options K :=
  ⟨15, 10, "", .SOLID81, true, "", [], "", 0, "", [], 0, "", []⟩

/-- Outcome of `parse_args`: `false`, `std::exit(1)` or `true` with the options. main.cpp:39-124. -/
inductive Parsed (K : Type) where
  | usage
  | exit
  | ok (o : Options K)

/-- Conversions of the C library: `atoi` and `atof`. Called in main.cpp:52, 57, 72, 83, 109. -/
structure Conv (K : Type) where
  atoi : String → Int
  atof : String → K

/-- Conversion of an `int` to `uint16`. C++ language, in main.cpp:52, 57. -/
def toU16 (x : Int) : Nat := (x % 65536).toNat

/-- Conversion of an `int` to `uint32`. C++ language, in main.cpp:109. -/
def toU32 (x : Int) : Nat := (x % 4294967296).toNat

/-- `Dof::label2dofType`, total: see `Verif/Labels`. Called in main.cpp:98, 117. -/
def dofOf (s : String) : DofType :=
  match label2dofType s with
  | .ok t => t
  | _ => .UNDEFINED

/-- `ElementFactory::elName2elType`, total. Called in main.cpp:62. -/
def elOf (s : String) : ElementType :=
  match elName2elType s with
  | .ok t => t
  | _ => .UNDEFINED

/-- `tmp = getCmdOption(.., opt); if (tmp) x = f(tmp);` for a variable that had the value `d`. main.cpp:50-89. -/
def valueOr {β : Type} (args : List String) (opt : String) (d : β) (f : String → β) : β :=
  match getCmdOption args opt with
  | some v => f v
  | none => d

/-- The options with one value, main.cpp:43-63, 76-89. -/
def scalarOptions [Zero K] (cv : Conv K) (args : List String) (model : String) : Options K :=
  let o : Options K := Options.init
  { o with
    model := model
    useVtk := if cmdOptionExists args "-novtk" then false else o.useVtk
    iterations := valueOr args "-iterations" o.iterations fun v => toU16 (cv.atoi v)
    loadsteps := valueOr args "-loadsteps" o.loadsteps fun v => toU16 (cv.atoi v)
    element := valueOr args "-element" o.element elOf
    refCurve := valueOr args "-refcurve" o.refCurve id
    threshold := valueOr args "-threshold" o.threshold cv.atof
    reaction := valueOr args "-reaction" o.reaction id }

/-- `-material`, main.cpp:65-74; `none` is `std::exit(1)`. -/
def withMaterial (cv : Conv K) (args : List String) (o : Options K) : Option (Options K) :=
  match getCmdManyOptions args "-material" with
  | [] => none
  | m :: cs => some { o with material := m, constants := cs.map cv.atof }

/-- `-reaction` with DoFs, main.cpp:91-101. -/
def withReaction (args : List String) (o : Options K) : Options K :=
  match getCmdManyOptions args "-reaction" with
  | [] => o
  | c :: ds => { o with reaction := c, reactionDofs := ds.map dofOf }

/-- `-rigidbody`, main.cpp:103-121; `none` is `std::exit(1)`. -/
def withRigid (cv : Conv K) (args : List String) (o : Options K) : Option (Options K) :=
  match getCmdManyOptions args "-rigidbody" with
  | [] => some o
  | [_] => none
  | m :: s :: ds => some { o with
      rigidMaster := toU32 (cv.atoi m)
      rigidSlaves := s
      rigidDofs := if ds = [] then [.UX, .UY, .UZ] else ds.map dofOf }

/-- `parse_args`, main.cpp:39-124; `argv` contains the name of the program. Options that do not interact are read in
another order than in the code. The counter of line 71 is a `uint16`: fewer than 65536 constants are assumed. -/
def parseArgs [Zero K] (cv : Conv K) (argv : List String) : Parsed K :=
  match argv with
  | _ :: model :: args =>
    match withMaterial cv args (scalarOptions cv args model) with
    | none => .exit
    | some o =>
      match withRigid cv args (withReaction args o) with
      | none => .exit
      | some o => .ok o
  | _ => .usage

/-! ## Parts of `main` -/

/-- The constants of the material, main.cpp:174-179: a wrong number is only reported, the loop runs over `numC`. -/
def setConstants (numC : Nat) (given : List K) : Res (List K) :=
  (List.range numC).foldr (fun i r => do
    let v ← Res.read given i
    let vs ← r
    .ok (v :: vs)) (.ok [])

/-- The sum of `compareCurves`, main.cpp:334-338. -/
def curveError [DivisionRing K] (abs : K → K) (len : K) : List K → List K → K → K
  | a :: as, b :: bs, acc => curveError abs len as bs (acc + abs (a - b) / len)
  | _, _, acc => acc

/-- `compareCurves`, main.cpp:328-340; `none` is `exit(1)`. -/
def compareCurves [DivisionRing K] (abs : K → K) (ref cur : List K) : Option K :=
  if ref.length ≠ cur.length then none else some (curveError abs (cur.length : K) ref cur 0)

/-- A text stream: the tokens that are left, whether blanks follow the last one, the state bits.
C++ library, `std::ifstream` in main.cpp:342-362. -/
structure In where
  toks : List String
  trail : Bool
  eof : Bool
  fail : Bool

/-- `file >> dummy` for a `std::string`. Reading the last token up to the end of the file sets `eof`.
C++ library, called in main.cpp:342-362. -/
def In.word (f : In) : In :=
  if f.fail ∨ f.eof then { f with fail := true }
  else match f.toks with
    | [] => { f with eof := true, fail := true }
    | _ :: ts => { f with toks := ts, eof := ts.isEmpty && !f.trail }

/-- `file >> tmp` for a `double`: the new stream and the value if one was read. `num` reads a numeral; on a token that
starts no numeral the stream fails, stays where it is and stores zero. A stream that has failed does not change and
stores nothing. C++ library, called in main.cpp:342-362. -/
def In.number [Zero K] (num : String → Option K) (f : In) : In × Option K :=
  if f.fail ∨ f.eof then ({ f with fail := true }, none)
  else match f.toks with
    | [] => ({ f with eof := true, fail := true }, none)
    | t :: ts => match num t with
      | some v => ({ f with toks := ts, eof := ts.isEmpty && !f.trail }, some v)
      | none => ({ f with fail := true }, some 0)

/-- Outcome of `readRefCurveData`. `hang`: the loop repeats with an unchanged state for ever. `ub`: the variable `tmp` is
compared before it has got a value. main.cpp:342-362. -/
inductive Curve (K : Type) where
  | ok (v : List K)
  | exit
  | hang
  | ub
  deriving DecidableEq, Repr

/-- The loop of `readRefCurveData`, main.cpp:353-359. `tmp = none`: not yet assigned. A stream that has failed without
reaching the end stays so, and then the loop does not end. Each pass that does not fail takes three tokens, so `fuel`
greater than the number of tokens is enough. -/
def curveLoop [DecidableEq K] [Zero K] (num : String → Option K) : (fuel : Nat) → In → (tmp : Option K) → (pre : K) → List K → Curve K
  | 0, _, _, _, _ => .hang
  | fuel + 1, f, tmp, pre, res =>
    if f.eof then .ok res
    else
      let r := f.word.word.number num
      match (match r.2 with | some v => some v | none => tmp) with
      | none => .ub
      | some v =>
        let res' := if v = pre then res else res ++ [v]
        let pre' := if v = pre then pre else v
        if r.1.fail ∧ ¬ r.1.eof then .hang else curveLoop num fuel r.1 (some v) pre' res'

/-- `readRefCurveData`, main.cpp:342-362. A file that cannot be opened is a failed stream. `dummy` keeps the last word
that was read (empty if none). -/
def readRefCurve [DecidableEq K] [Zero K] [Neg K] [One K] (num : String → Option K) (f : In) : Curve K :=
  if f.fail then .exit
  else if (f.toks.take 3).getLast? = some "force" then
    curveLoop num (f.toks.length + 1) f.word.word.word none (-1) []
  else .exit

end Nla3d.Cmd
