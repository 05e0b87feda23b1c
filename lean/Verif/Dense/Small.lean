import Verif.Dense.Model
import Mathlib.Algebra.Order.Group.Unbundled.Abs

/-!
# Model of the arithmetic, comparison and text of `Vec`, `Mat` and `MatSym`

Memory as in `Verif/Dense/Model.lean`. For the comparisons a `double` is a number or `none`, the value "not a number"; infinities are
left out. A stream is the text that is left and the flag of failure; how `operator>>` reads a number from a text is the parameter `ext`
(`none`: no number is there), how `operator<<` writes it is the parameter `num`.
-/

namespace Nla3d.Dense

variable {K : Type}

/-! ## Arithmetic -/

/-- The loops `for (i = 0; i < dim; i++) p[i] = f(a[i], b[i])`: `operator+`, `operator-` of `Vec`. Vec.h:82-86, 102-107. -/
def each2 (f : K → K → K) (dim : Nat) (a b p : List K) : Res (List K) :=
  Res.foldlM' (fun p i => do
    let x ← Res.read a i
    let y ← Res.read b i
    Res.write p i (f x y)) p (List.range dim)

/-- The loops `for (i = 0; i < dim; i++) p[i] = f(a[i])`: unary `operator-` and the products of `Vec` with a number.
Vec.h:95-100, 109-114, 135-139. -/
def each1 (f : K → K) (dim : Nat) (a p : List K) : Res (List K) :=
  Res.foldlM' (fun p i => do
    let x ← Res.read a i
    Res.write p i (f x)) p (List.range dim)

/-- `Vec::operator+`; `p` is zeroed by its constructor. Vec.h:82-87. -/
def vecAdd [Zero K] [Add K] (dim : Nat) (a b : List K) : Res (List K) := each2 (· + ·) dim a b (List.replicate dim 0)

/-- `Vec::operator-(Vec)`. Vec.h:102-107. -/
def vecSub [Zero K] [Sub K] (dim : Nat) (a b : List K) : Res (List K) := each2 (· - ·) dim a b (List.replicate dim 0)

/-- `Vec::operator-()`. Vec.h:95-100. -/
def vecNeg [Zero K] [Neg K] (dim : Nat) (a : List K) : Res (List K) := each1 (- ·) dim a (List.replicate dim 0)

/-- `Vec::operator*(double)` and `operator*(double, Vec)`. Vec.h:109-114, 135-139. -/
def vecScale [Zero K] [Mul K] (dim : Nat) (a : List K) (c : K) : Res (List K) := each1 (· * c) dim a (List.replicate dim 0)

/-- `Vec::operator+=`. Vec.h:89-93. -/
def vecAddTo [Add K] (dim : Nat) (a b : List K) : Res (List K) :=
  Res.foldlM' (fun a i => do
    let x ← Res.read a i
    let y ← Res.read b i
    Res.write a i (x + y)) a (List.range dim)

/-- `Vec::operator*(Vec)`. Vec.h:116-121. -/
def vecDot [Zero K] [Add K] [Mul K] (dim : Nat) (a b : List K) : Res K :=
  Res.foldlM' (fun p i => do
    let x ← Res.read a i
    let y ← Res.read b i
    .ok (p + x * y)) 0 (List.range dim)

/-- The loops over rows and columns `p[i][j] = f(a[i][j], b[i][j])`. Mat.h:136-143, 154-161. -/
def matEach2 (f : K → K → K) (m n : Nat) (a b p : List K) : Res (List K) :=
  Res.foldlM' (fun p i => Res.foldlM' (fun p j => do
    let x ← Res.read a (i * n + j)
    let y ← Res.read b (i * n + j)
    Res.write p (i * n + j) (f x y)) p (List.range n)) p (List.range m)

/-- The loops over rows and columns `p[i][j] = f(a[i][j])`. Mat.h:145-152, 163-171. -/
def matEach1 (f : K → K) (m n : Nat) (a p : List K) : Res (List K) :=
  Res.foldlM' (fun p i => Res.foldlM' (fun p j => do
    let x ← Res.read a (i * n + j)
    Res.write p (i * n + j) (f x)) p (List.range n)) p (List.range m)

/-- `Mat::operator+`; the rows are zeroed by the constructor of `Vec`. Mat.h:136-143. -/
def matAdd [Zero K] [Add K] (m n : Nat) (a b : List K) : Res (List K) := matEach2 (· + ·) m n a b (List.replicate (m * n) 0)

/-- `Mat::operator-(Mat)`. Mat.h:154-161. -/
def matSub [Zero K] [Sub K] (m n : Nat) (a b : List K) : Res (List K) := matEach2 (· - ·) m n a b (List.replicate (m * n) 0)

/-- `Mat::operator-()`. Mat.h:145-152. -/
def matNeg [Zero K] [Neg K] (m n : Nat) (a : List K) : Res (List K) := matEach1 (- ·) m n a (List.replicate (m * n) 0)

/-- `Mat::operator*(double)`. Mat.h:163-171. -/
def matScale [Zero K] [Mul K] (m n : Nat) (a : List K) (c : K) : Res (List K) :=
  matEach1 (· * c) m n a (List.replicate (m * n) 0)

/-- `Mat::operator+=`. Mat.h:173-179. -/
def matAddTo [Add K] (m n : Nat) (a b : List K) : Res (List K) :=
  Res.foldlM' (fun a i => Res.foldlM' (fun a j => do
    let x ← Res.read a (i * n + j)
    let y ← Res.read b (i * n + j)
    Res.write a (i * n + j) (x + y)) a (List.range n)) a (List.range m)

/-- `Mat::Identity`. Mat.h:102-111. -/
def identity [Zero K] [One K] (m n : Nat) (a : List K) : Res (List K) :=
  if m = n then
    Res.foldlM' (fun a i => Res.foldlM' (fun a j => Res.write a (i * n + j) (if i = j then 1 else 0)) a (List.range n)) a (List.range m)
  else .assert

/-! ## Comparison -/

/-- `fabs(x - y) > eps`: false if one of them is not a number. C++ language, for Vec.h:178, Mat.h:390 and 644. -/
def far [AddGroup K] [Lattice K] [DecidableLT K] (eps : K) : Option K → Option K → Bool
  | some x, some y => decide (eps < |x - y|)
  | _, _ => false

/-- The loops of the comparisons, from position `i` with `k` passes left. Vec.h:176-184, Mat.h:388-398, 642-650. -/
def compareLoop {α : Type} (far : α → α → Bool) (a b : List α) : (i k : Nat) → Res Bool
  | _, 0 => .ok true
  | i, k + 1 => do
    let x ← Res.read a i
    let y ← Res.read b i
    if far x y then .ok false else compareLoop far a b (i + 1) k

/-- `Vec::compare`. Vec.h:172-185. -/
def vecCompare {α : Type} (far : α → α → Bool) (dim : Nat) (a b : List α) : Res Bool := compareLoop far a b 0 dim

/-- `Mat::compare`: the pointers run through all rows. Mat.h:383-399. -/
def matCompare {α : Type} (far : α → α → Bool) (m n : Nat) (a b : List α) : Res Bool := compareLoop far a b 0 (m * n)

/-- `MatSym::compare`. Mat.h:636-651. -/
def symCompare {α : Type} (far : α → α → Bool) (n : Nat) (a b : List α) : Res Bool := compareLoop far a b 0 (symLength n)

/-! ## Text -/

/-- A stream that is read: the text that is left, and whether it has failed. C++ library, for Vec.h:192, Mat.h:410, 631. -/
structure Source where
  text : List Char
  failed : Bool

/-- `st >> *p`: a number is stored; if there is none, zero is stored and the stream fails; a stream that has failed stores nothing.
C++ library (since C++11), for Vec.h:192, Mat.h:410, 631. -/
def take1 [Zero K] (ext : List Char → Option (K × List Char)) (st : List K × Source) (i : Nat) : Res (List K × Source) :=
  if st.2.failed then .ok st
  else match ext st.2.text with
    | some (x, rest) => do
      let a ← Res.write st.1 i x
      .ok (a, ⟨rest, false⟩)
    | none => do
      let a ← Res.write st.1 i 0
      .ok (a, ⟨st.2.text, true⟩)

/-- `Vec::simple_read` for `len = dim`, `Mat::simple_read` for `len = dimM * dimN` (the pointer runs through all rows) and
`MatSym::simple_read` for `len = getLength()`. Vec.h:187-195, Mat.h:402-414, 624-634. -/
def simpleRead [Zero K] (ext : List Char → Option (K × List Char)) (len : Nat) (a : List K) (s : Source) : Res (List K × Source) :=
  Res.foldlM' (take1 ext) (a, s) (List.range len)

/-- `operator<<` for a `Vec`: its first number, then a blank and the next one. Vec.h:147-153. -/
def writeVecText (num : K → List Char) (dim : Nat) (out : List Char) (a : List K) : Res (List Char) := do
  let x ← Res.read a 0
  Res.foldlM' (fun out i => do
    let x ← Res.read a i
    .ok (out ++ ' ' :: num x)) (out ++ num x) (List.range' 1 (dim - 1))

/-- `operator<<` for a `Mat`: each row in brackets on a line. Mat.h:83-88. -/
def writeMatText (num : K → List Char) (m n : Nat) (out : List Char) (a : List K) : Res (List Char) :=
  Res.foldlM' (fun out i => do
    let out ← writeVecText num n (out ++ ['[']) ((a.drop (i * n)).take n)
    .ok (out ++ [']', '\n'])) out (List.range m)

end Nla3d.Dense
