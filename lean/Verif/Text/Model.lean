import Verif.Base

/-!
# Model of the text helpers of the mesh readers

`strim`, `stolower`, `stoupper`, `sfirstNotBlank`, `ssplit`, `iequals`, `getLine` and `Tokenizer::tokenize` of FEReaders.cpp.

A `std::string` is the list of its characters; `npos` is `none`. Upper and lower case are those of the "C" locale, and only
characters in the range of `unsigned char` that `tolower` accepts are considered (a negative `char` passed to `tolower` is undefined
behaviour in C++; the model maps it to itself). String lengths are below `2^31`, so the `int` and `unsigned` counters do not wrap.
-/

namespace Nla3d.Text

/-- `space_chars`, FEReaders.cpp:17. -/
def isBlank (c : Char) : Bool := c == ' ' || c == '\t'

/-- `str.find_first_not_of(space_chars, 0)`, counted from `i`. C++ library, called in FEReaders.cpp:110, 119, 140. -/
def findFirstNotBlank (i : Nat) : List Char → Option Nat
  | [] => none
  | c :: s => if isBlank c then findFirstNotBlank (i + 1) s else some i

/-- `str.find_last_not_of(space_chars)`. C++ library, called in FEReaders.cpp:112, 121. -/
def findLastNotBlank (s : List Char) : Option Nat :=
  match findFirstNotBlank 0 s.reverse with
  | none => none
  | some i => some (s.length - 1 - i)

/-- `str.erase(0, n)`: `npos` removes everything. C++ library, called in FEReaders.cpp:111, 120. -/
def eraseFront (s : List Char) : Option Nat → List Char
  | none => []
  | some n => s.drop n

/-- `str.erase(en + 1)`: `npos + 1` is 0. C++ library, called in FEReaders.cpp:113, 122. -/
def eraseBack (s : List Char) : Option Nat → List Char
  | none => s.take 0
  | some en => s.take (en + 1)

/-- `strim`, FEReaders.cpp:109-124 (both overloads). -/
def strim (s : List Char) : List Char :=
  let s1 := eraseFront s (findFirstNotBlank 0 s)
  eraseBack s1 (findLastNotBlank s1)

/-- `stolower`, FEReaders.cpp:127-130. -/
def stolower (s : List Char) : List Char := s.map Char.toLower

/-- `stoupper`, FEReaders.cpp:133-136. -/
def stoupper (s : List Char) : List Char := s.map Char.toUpper

/-- `sfirstNotBlank`, FEReaders.cpp:139-142: `str[npos]` is undefined behaviour. -/
def sfirstNotBlank (s : List Char) : Res Char :=
  match findFirstNotBlank 0 s with
  | none => .ub
  | some st => Res.read s st

/-- The loop of `ssplit`, FEReaders.cpp:145-164; `ind` never exceeds the length of the line. -/
def ssplitLoop (line : List Char) (strict : Bool) : Nat → List (List Char) → List Nat → Res (List (List Char))
  | _, vv, [] => .ok vv
  | ind, vv, w :: ws =>
    if line.length - ind < w then
      if strict then .fatal
      else if line.length - ind ≠ 0 then .fatal else .ok vv
    else ssplitLoop line strict (ind + w) (vv ++ [(line.drop ind).take w]) ws

/-- `ssplit`, FEReaders.cpp:145-164. The widths come from a format string and are not negative. -/
def ssplit (line : List Char) (widths : List Nat) (strict : Bool) : Res (List (List Char)) :=
  ssplitLoop line strict 0 [] widths

/-- The loop of `iequals`, FEReaders.cpp:171-173, from position `i` with `n` iterations left. -/
def iequalsLoop (a b : List Char) : Nat → Nat → Res Bool
  | _, 0 => .ok true
  | i, n + 1 => do
    let x ← Res.read a i
    let y ← Res.read b i
    if x.toLower ≠ y.toLower then .ok false else iequalsLoop a b (i + 1) n

/-- `iequals`, FEReaders.cpp:167-175. -/
def iequals (a b : List Char) : Res Bool :=
  if b.length ≠ a.length then .ok false else iequalsLoop a b 0 a.length

/-- A stream: the characters not yet read and `eofbit`. C++ library, used in FEReaders.cpp:179-211. -/
structure Stream where
  rest : List Char
  eof : Bool
  deriving Repr, DecidableEq

/-- The loop of `getLine`, FEReaders.cpp:190-210: `t` is the line read so far. -/
def getLineLoop (t : List Char) (eof : Bool) : List Char → List Char × Stream
  | [] => (t, ⟨[], if t.isEmpty then true else eof⟩)
  | c :: s =>
    if c = '\n' then (t, ⟨s, eof⟩)
    else if c = '\r' then
      match s with
      | [] => (t, ⟨[], eof⟩)
      | d :: s' => if d = '\n' then (t, ⟨s', eof⟩) else (t, ⟨d :: s', eof⟩)
    else getLineLoop (t ++ [c]) eof s

/-- `getLine`, FEReaders.cpp:179-211: the line and the stream afterwards. -/
def getLine (is : Stream) : List Char × Stream := getLineLoop [] is.eof is.rest

/-- `line.find_first_of(_delimiters, st)`. C++ library, called in FEReaders.cpp:224. -/
def findDelim (delims : List Char) (line : List Char) (st : Nat) : Option Nat :=
  match (line.drop st).findIdx? (fun c => delims.contains c) with
  | none => none
  | some k => some (st + k)

theorem findDelim_lt {delims line : List Char} {st ind : Nat} (h : findDelim delims line st = some ind) :
    st ≤ ind ∧ ind < line.length := by
  unfold findDelim at h
  split at h
  · cases h
  · rename_i k hk
    obtain rfl := Option.some.inj h
    have := List.findIdx?_eq_some_iff_findIdx_eq.mp hk
    rw [List.length_drop] at this
    omega

/-- The loop of `Tokenizer::tokenize`, FEReaders.cpp:223-236: tokens and delimiters found so far, position `st`. Every pass counts one
`found`. -/
def tokenizeLoop (delims line : List Char) (st found : Nat) (tokens : List (List Char)) (dtokens : List Char) :
    Nat × List (List Char) × List Char :=
  match _h : findDelim delims line st with
  | none => (found + 1, tokens ++ [strim (line.drop st)], dtokens)
  | some ind => tokenizeLoop delims line (ind + 1) (found + 1) (tokens ++ [strim ((line.drop st).take (ind - st))])
      (dtokens ++ [line.getD ind ' '])
termination_by line.length - st
decreasing_by
  have := findDelim_lt _h
  omega

/-- `Tokenizer::tokenize`, FEReaders.cpp:214-243: number of tokens, tokens, delimiters. -/
def tokenize (delims : List Char) (tolower : Bool) (line : List Char) : Nat × List (List Char) × List Char :=
  let r := tokenizeLoop delims line 0 0 [] []
  if tolower then (r.1, r.2.1.map stolower, r.2.2) else r

end Nla3d.Text
