import Verif.Base

/-!
# Model of the tokenizer (src/lib/sys.cpp:26-77)

A C string is the list of its characters before the terminating zero. Loops take a number of steps, `none` is a loop that is not finished
then; `uint16` and `int16` arithmetic is kept.
-/

namespace Nla3d.Tokens

/-- Arithmetic in `uint16`; an `int` is used in expressions, the result is stored modulo 65536. C++ language, for sys.cpp:63-74. -/
def w16 (n : Int) : Nat := (n % 65536).toNat

/-- The cast `(int16)`. C++ language, for sys.cpp:46, 56. -/
def s16 (n : Nat) : Int := if n % 65536 < 32768 then (n % 65536 : Nat) else (n % 65536 : Nat) - 65536

/-- `str[i]` of a `std::string`: the character behind the last one is zero, further ones do not exist. For sys.cpp:65, 73. -/
def charAt (str : List Char) (i : Nat) : Res Char :=
  match str[i]? with
  | some c => .ok c
  | none => if i = str.length then .ok (Char.ofNat 0) else .ub

/-- The first loop of `del_spaces`; the value is `none` after the `return`. src/lib/sys.cpp:65-71 -/
def skipFront (str : List Char) : (fuel start : Nat) → Option (Res (Option Nat))
  | 0, _ => none
  | fuel + 1, start =>
    match charAt str start with
    | .ok c =>
      if c = ' ' then
        let start := w16 (start + 1)
        if start = str.length then some (.ok none) else skipFront str fuel start
      else some (.ok (some start))
    | .ub => some .ub
    | .fatal => some .fatal
    | .assert => some .assert

/-- The second loop of `del_spaces`. src/lib/sys.cpp:73-75 -/
def skipBack (str : List Char) : (fuel «end» : Nat) → Option (Res Nat)
  | 0, _ => none
  | fuel + 1, e =>
    match charAt str e with
    | .ok c => if c = ' ' then skipBack str fuel (w16 ((e : Int) - 1)) else some (.ok e)
    | .ub => some .ub
    | .fatal => some .fatal
    | .assert => some .assert

/-- `std::string(str, start, end - start + 1)`: a negative count is a huge `size_t`, the copy ends at the end of `str`.
src/lib/sys.cpp:76 -/
def cut (str : List Char) (start e : Nat) : List Char :=
  if start ≤ e + 1 then (str.drop start).take (e + 1 - start) else str.drop start

/-- `del_spaces`. src/lib/sys.cpp:62-77 -/
def delSpaces (fuel : Nat) (str : List Char) : Option (Res (List Char)) :=
  if str.length = 0 then some (.ok str)
  else
    match skipFront str fuel 0 with
    | none => none
    | some (.ok none) => some (.ok [' '])
    | some (.ok (some start)) =>
      match skipBack str fuel (w16 ((str.length : Int) - 1)) with
      | none => none
      | some r => some (do
          let e ← r
          .ok (cut str start e))
    | some .ub => some .ub
    | some .fatal => some .fatal
    | some .assert => some .assert

/-- `delimeters`. src/lib/sys.cpp:29 -/
def delimiters : List Char := ['(', ')', ',']

/-- `tmp.assign(start, (int16) (p-start))` and `del_spaces(tmp)`. A negative number is a huge `size_t`, for which `assign` throws
`std::length_error`: the outcome `fatal`. src/lib/sys.cpp:46-47, 56-57 -/
def token (fuel : Nat) (input : List Char) (start p : Nat) : Option (Res (List Char)) :=
  let n := s16 (p - start)
  if n < 0 then some .fatal else delSpaces fuel ((input.drop start).take n.toNat)

/-- The loop of `read_tokens` and the last token. `rest` is the text at `p`. src/lib/sys.cpp:32-59 -/
def scan (fuel : Nat) (input : List Char) : (rest : List Char) → (start p : Nat) → (vec : List (List Char)) → Option (Res (List (List Char)))
  | [], start, p, vec => (token fuel input start p).map fun r => do
      let t ← r
      .ok (vec ++ [t])
  | c :: rest, start, p, vec =>
    if c = '!' then (token fuel input start p).map fun r => do
      let t ← r
      .ok (vec ++ [t])
    else if c ∈ delimiters then
      match token fuel input start p with
      | none => none
      | some (.ok t) => scan fuel input rest (p + 1) (p + 1) (vec ++ [t, [c]])
      | some .ub => some .ub
      | some .fatal => some .fatal
      | some .assert => some .assert
    else scan fuel input rest start (p + 1) vec

/-- `read_tokens`. src/lib/sys.cpp:26-60 -/
def readTokens (fuel : Nat) (input : List Char) : Option (Res (List (List Char))) := scan fuel input input 0 0 []

end Nla3d.Tokens
