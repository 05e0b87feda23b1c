import Verif.Cdb.Model

/-!
# Model of the reader of netgen neutral files

`readNeuFile`, FEReaders.cpp:255-317, with the extraction operators of `std::istream` (libstdc++, "C" locale).

The text of a floating-point number is read by a parameter `dbl`, called on the text from the first character that is not blank; it
gives the value, whether the number is malformed, and the text that is left. Memory exhaustion is not modelled, apart from
`resize` and `reserve` calls with a negative count.
-/

namespace Nla3d.Neu

open Nla3d.Cdb (Out Stop isSpace digitsVal inInt toU32 Comp CompType)

/-- A `std::ifstream`: the text that is left and the `failbit`. C++ library, used in FEReaders.cpp:255-317. -/
structure In where
  rest : List Char
  fail : Bool
  deriving DecidableEq, Repr

/-- The `sentry` of an extraction: skips blanks; fails if the stream has failed before or nothing is left.
C++ library, used in FEReaders.cpp:255-317. -/
def In.sentry (f : In) : Option (List Char) :=
  if f.fail then none
  else match f.rest.dropWhile isSpace with
    | [] => none
    | c :: r => some (c :: r)

/-- Sign of a number. C++ library, used in FEReaders.cpp:255-317. -/
def sign : List Char → Bool × List Char
  | '-' :: r => (true, r)
  | '+' :: r => (false, r)
  | r => (false, r)

/-- `file >> x` for an `int`: the value stored, `none` if `x` keeps its value. No digits store 0 and fail; a value out of range
stores the nearest one and fails. C++ library, called in FEReaders.cpp:267, 280, 285, 298, 311. -/
def In.int (f : In) : Option Int × In :=
  match f.sentry with
  | none => (none, { f with fail := true })
  | some r =>
    let (neg, r) := sign r
    let ds := r.takeWhile Char.isDigit
    let rest := r.dropWhile Char.isDigit
    if ds.isEmpty then (some 0, ⟨rest, true⟩)
    else
      let z : Int := if neg then -(digitsVal ds : Int) else digitsVal ds
      if inInt z then (some z, ⟨rest, false⟩)
      else (some (if neg then -2147483648 else 2147483647), ⟨rest, true⟩)

/-- `file >> x` for a `uint32`. A number with a minus sign is negated modulo `2^32`. C++ library, called in FEReaders.cpp:289. -/
def In.uint (f : In) : Option Nat × In :=
  match f.sentry with
  | none => (none, { f with fail := true })
  | some r =>
    let (neg, r) := sign r
    let ds := r.takeWhile Char.isDigit
    let rest := r.dropWhile Char.isDigit
    if ds.isEmpty then (some 0, ⟨rest, true⟩)
    else if digitsVal ds ≤ 4294967295 then
      (some (if neg then toU32 (-(digitsVal ds : Int)) else digitsVal ds), ⟨rest, false⟩)
    else (some 4294967295, ⟨rest, true⟩)

/-- `file >> x` for a `double`. C++ library, called in FEReaders.cpp:273. -/
def In.double {K : Type} (dbl : List Char → K × Bool × List Char) (f : In) : Option K × In :=
  match f.sentry with
  | none => (none, { f with fail := true })
  | some r => (some (dbl r).1, ⟨(dbl r).2.2, (dbl r).2.1⟩)

/-- `file >> s` for a `std::string`; it keeps its value if the extraction fails. C++ library, called in FEReaders.cpp:301. -/
def In.word (f : In) (old : List Char) : List Char × In :=
  match f.sentry with
  | none => (old, { f with fail := true })
  | some r => (r.takeWhile (fun c => !isSpace c), ⟨r.dropWhile (fun c => !isSpace c), false⟩)

/-- The use of a local variable without initialiser: undefined if nothing was stored.
C++ language; `nodesCount`, `volumesCount`, `mat_num`, `surfaceCount`, `node` in FEReaders.cpp:266-312. -/
def used {α : Type} : Option α → Out α
  | some a => .ok a
  | none => .error .ub

/-- The members of `MeshData` the reader fills; `mat` is `cellIntData["MAT"]`. The others are empty (`clear`, FEReaders.cpp:20-32).
`feComps` is a map ordered by name; here a list in which names are looked up. -/
structure Mesh (K : Type) where
  nodesNumbers : List Nat
  nodesPos : List (K × K × K)
  cellNumbers : List Nat
  cellNodes : List (List Nat)
  mat : List Nat
  feComps : List Comp
  deriving DecidableEq, Repr

/-- The node section, FEReaders.cpp:271-276: `n` nodes, the first of number `i + 1`. `nodesPos` is resized before: zeros. -/
def nodes {K : Type} [Zero K] (dbl : List Char → K × Bool × List Char) : Nat → Nat → In → List Nat × List (K × K × K) × In
  | 0, _, f => ([], [], f)
  | n + 1, i, f =>
    let (x, f) := f.double dbl
    let (y, f) := f.double dbl
    let (z, f) := f.double dbl
    let (ns, ps, f) := nodes dbl n (i + 1) f
    ((i + 1) :: ns, (x.getD 0, y.getD 0, z.getD 0) :: ps, f)

/-- The volume section, FEReaders.cpp:282-294: `n` cells, the first of number `i + 1`. `enodes` keeps its values from pass to pass.
Numbers, nodes and material of the cells. -/
def cells : Nat → Nat → Nat × Nat × Nat × Nat → In → Out (List Nat × List (List Nat) × List Nat × In)
  | 0, _, _, f => .ok ([], [], [], f)
  | n + 1, i, (e0, e1, e2, e3), f => do
    let (m, f) := f.int
    let m ← used m
    let (a0, f) := f.uint
    let (a1, f) := f.uint
    let (a2, f) := f.uint
    let (a3, f) := f.uint
    let e := (a0.getD e0, a1.getD e1, a2.getD e2, a3.getD e3)
    let (ns, cs, ms, f) ← cells n (i + 1) e f
    .ok ((i + 1) :: ns, [e.1, e.2.1, e.2.2.1, e.2.2.2] :: cs, toU32 m :: ms, f)

/-- `feComps.find`, and `push_back` to the list of the component, which is created if there is none, FEReaders.cpp:302-312. -/
def push (name : List Char) (ns : List Nat) : List Comp → List Comp
  | [] => [⟨name, .ELEMENTS, ns⟩]
  | c :: cs => if c.name = name then { c with list := c.list ++ ns } :: cs else c :: push name ns cs

/-- The surface section, FEReaders.cpp:299-314. -/
def surfaces : Nat → List Comp → In → Out (List Comp)
  | 0, comps, _ => .ok comps
  | n + 1, comps, f => do
    let (name, f) := f.word []
    let (a, f) := f.int
    let a ← used a
    let (b, f) := f.int
    let b ← used b
    let (c, f) := f.int
    let c ← used c
    surfaces n (push name [toU32 a, toU32 b, toU32 c] comps) f

/-- `readNeuFile`, FEReaders.cpp:255-317. The argument is the opened stream, `none` if the file cannot be opened; the result is the
mesh, `none` if the function returns `false` (the mesh data are not changed). `resize` and `reserve` of a negative count throw. -/
def readNeuFile {K : Type} [Zero K] (dbl : List Char → K × Bool × List Char) : Option In → Out (Option (Mesh K))
  | none => .ok none
  | some f => do
    let (n, f) := f.int
    let n ← used n
    if n < 0 then .error .exn else
    let (ns, ps, f) := nodes dbl n.toNat 0 f
    let (m, f) := f.int
    let m ← used m
    if m < 0 then .error .exn else
    let (cn, cc, cm, f) ← cells m.toNat 0 (0, 0, 0, 0) f
    let (s, f) := f.int
    let s ← used s
    let comps ← surfaces s.toNat [] f
    .ok (some ⟨ns, ps, cn, cc, cm, comps⟩)

end Nla3d.Neu
