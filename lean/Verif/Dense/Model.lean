import Verif.Base
import Mathlib.Data.Fin.VecNotation
import Mathlib.Algebra.Field.Defs

/-!
# Model of the fixed-size dense matrices (src/lib/math/Mat.h, src/lib/math/Mat.cpp)

`double` is a field. Memory of `Mat<m,n>` is the row-major list of its `m*n` numbers (the products work through `ptr()`),
memory of `MatSym<n>` the list `data` of `n*(n+1)/2` numbers, memory of `Vec<n>` a list of `n` numbers. The products are
modelled as compiled without `NLA3D_USE_BLAS`.
-/

namespace Nla3d.Dense

variable {K : Type}

/-! ## Packed symmetric matrices -/

/-- Index computed by `MatSym<n>::comp(i, j)`: `int` arithmetic, then truncation to `uint16`. (The assignment in the line
before is dead.) src/lib/math/Mat.h:595-605 -/
def comp (n i j : Nat) : Nat :=
  let (i, j) := if i > j then (j, i) else (i, j)
  (((n : Int) * i - ((i : Int) - 1) * i / 2 + ((j : Int) - i)) % 65536).toNat

/-- `MatSym<n>::getLength`. src/lib/math/Mat.h:607-609 -/
def symLength (n : Nat) : Nat := n * (n + 1) / 2 % 65536

/-- `MatSym<n>::toMat`: state is the matrix and `ind`. src/lib/math/Mat.h:654-665 -/
def toMat [Zero K] (n : Nat) (data : List K) : Res (List K) := do
  let st ← Res.foldlM' (fun (st : List K × Nat) i =>
      Res.foldlM' (fun (st : List K × Nat) j => do
        let x ← Res.read data st.2
        let m ← Res.write st.1 (i * n + j) x
        let m ← Res.write m (j * n + i) x
        .ok (m, st.2 + 1)) st (List.range' i (n - i)))
    (List.replicate (n * n) 0, 0) (List.range n)
  .ok st.1

/-- `MatSym<n>::operator+=`. src/lib/math/Mat.h:669-679 -/
def symAdd [Add K] (n : Nat) (a b : List K) : Res (List K) :=
  Res.foldlM' (fun a i => do
    let x ← Res.read a i
    let y ← Res.read b i
    Res.write a i (x + y)) a (List.range (symLength n))

/-! ## Products -/

/-- `*p += x`. C++ language, in the loops of src/lib/math/Mat.h:687-822. -/
def acc [Add K] (R : List K) (p : Nat) (x : K) : Res (List K) := do
  let r ← Res.read R p
  Res.write R p (r + x)

section products
variable [Zero K] [Add K] [Mul K]

/-- First part of `matBTDBprod`, `A = B^T*Du + B^T*Dd`: state is `A` and the offset of `Dp`. src/lib/math/Mat.h:699-713 -/
def btdUpper (dimM dimN : Nat) (B D : List K) (st : List K × Nat) : Res (List K × Nat) :=
  Res.foldlM' (fun (st : List K × Nat) k =>
    Res.foldlM' (fun (st : List K × Nat) j => do
      let A ← Res.foldlM' (fun A i => do
        let b ← Res.read B (k * dimN + i)
        let d ← Res.read D st.2
        acc A (i * dimM + j) (b * d)) st.1 (List.range dimN)
      .ok (A, st.2 + 1)) st (List.range' k (dimM - k))) st (List.range dimM)

/-- Second part of `matBTDBprod`, `A += B^T*Du^T`; `Dp` starts again. src/lib/math/Mat.h:714-728 -/
def btdLower (dimM dimN : Nat) (B D : List K) (st : List K × Nat) : Res (List K × Nat) :=
  Res.foldlM' (fun (st : List K × Nat) j =>
    Res.foldlM' (fun (st : List K × Nat) k => do
      let A ← Res.foldlM' (fun A i => do
        let b ← Res.read B (k * dimN + i)
        let d ← Res.read D st.2
        acc A (i * dimM + j) (b * d)) st.1 (List.range dimN)
      .ok (A, st.2 + 1)) (st.1, st.2 + 1) (List.range' (j + 1) (dimM - (j + 1)))) st (List.range dimM)

/-- Third part of `matBTDBprod`: state is `R` and the offset of `Rp`. src/lib/math/Mat.h:730-741 -/
def btdFinish (dimM dimN : Nat) (A B : List K) (coef : K) (st : List K × Nat) : Res (List K × Nat) :=
  Res.foldlM' (fun (st : List K × Nat) i =>
    Res.foldlM' (fun (st : List K × Nat) j => do
      let R ← Res.foldlM' (fun R k => do
        let a ← Res.read A (i * dimM + k)
        let b ← Res.read B (k * dimN + j)
        acc R st.2 (a * b * coef)) st.1 (List.range dimM)
      .ok (R, st.2 + 1)) st (List.range' i (dimN - i))) st (List.range dimN)

/-- `matBTDBprod(B, D, coef, R)`. src/lib/math/Mat.h:687-741 -/
def matBTDBprod (dimM dimN : Nat) (B D : List K) (coef : K) (R : List K) : Res (List K) := do
  let st ← btdUpper dimM dimN B D (List.replicate (dimN * dimM) 0, 0)
  let st ← btdLower dimM dimN B D (st.1, 0)
  let st ← btdFinish dimM dimN st.1 B coef (R, 0)
  .ok st.1

/-- `matBTVprod(B, V, coef, R)`. src/lib/math/Mat.h:745-756 -/
def matBTVprod (dimM dimN : Nat) (B V : List K) (coef : K) (R : List K) : Res (List K) :=
  Res.foldlM' (fun R i => Res.foldlM' (fun R j => do
    let b ← Res.read B (j * dimN + i)
    let v ← Res.read V j
    acc R i (b * v * coef)) R (List.range dimM)) R (List.range dimN)

/-- `matBVprod(Mat B, V, coef, R)`. src/lib/math/Mat.h:759-769 -/
def matBVprod (dimM dimN : Nat) (B V : List K) (coef : K) (R : List K) : Res (List K) :=
  Res.foldlM' (fun R i => Res.foldlM' (fun R j => do
    let b ← Res.read B (i * dimN + j)
    let v ← Res.read V j
    acc R i (b * v * coef)) R (List.range dimN)) R (List.range dimM)

/-- `matBVprod(MatSym B, V, coef, R)`. src/lib/math/Mat.h:772-781 -/
def matBVprodSym (dimM : Nat) (B V : List K) (coef : K) (R : List K) : Res (List K) := do
  let mB ← toMat dimM B
  matBVprod dimM dimM mB V coef R

/-- `matABprod(A, B, coef, R)`: state is `R` and the offset of `Rp`. src/lib/math/Mat.h:785-801 -/
def matABprod (dimM1 dimN1 dimN2 : Nat) (A B : List K) (coef : K) (R : List K) : Res (List K) := do
  let st ← Res.foldlM' (fun (st : List K × Nat) i =>
    Res.foldlM' (fun (st : List K × Nat) j => do
      let R ← Res.foldlM' (fun R k => do
        let a ← Res.read A (i * dimN1 + k)
        let b ← Res.read B (k * dimN2 + j)
        acc R st.2 (a * b * coef)) st.1 (List.range dimN1)
      .ok (R, st.2 + 1)) st (List.range dimN2)) (R, 0) (List.range dimM1)
  .ok st.1

/-- `matATBprod(A, B, coef, R)`. src/lib/math/Mat.h:804-822 -/
def matATBprod (dimM1 dimN1 dimN2 : Nat) (A B : List K) (coef : K) (R : List K) : Res (List K) := do
  let st ← Res.foldlM' (fun (st : List K × Nat) i =>
    Res.foldlM' (fun (st : List K × Nat) j => do
      let R ← Res.foldlM' (fun R k => do
        let a ← Res.read A (k * dimN1 + i)
        let b ← Res.read B (k * dimN2 + j)
        acc R st.2 (a * b * coef)) st.1 (List.range dimM1)
      .ok (R, st.2 + 1)) st (List.range dimN2)) (R, 0) (List.range dimN1)
  .ok st.1

/-- `operator*(Mat, Mat)`. src/lib/math/Mat.h:192-207 -/
def mulMat (dimM1 dimN1 dimN2 : Nat) (A B : List K) : Res (List K) :=
  Res.foldlM' (fun p i => Res.foldlM' (fun p j => do
    let e ← Res.foldlM' (fun e l => do
      let a ← Res.read A (i * dimN1 + l)
      let b ← Res.read B (l * dimN2 + j)
      .ok (e + a * b)) 0 (List.range dimN1)
    Res.write p (i * dimN2 + j) e) p (List.range dimN2)) (List.replicate (dimM1 * dimN2) 0) (List.range dimM1)

/-- `operator*(Mat, Vec)`. src/lib/math/Mat.h:223-235 -/
def mulVec (dimM dimN : Nat) (A V : List K) : Res (List K) :=
  Res.foldlM' (fun p i => do
    let e ← Res.foldlM' (fun e j => do
      let a ← Res.read A (i * dimN + j)
      let b ← Res.read V j
      .ok (e + a * b)) 0 (List.range dimN)
    Res.write p i e) (List.replicate dimM 0) (List.range dimM)

end products

/-- `Mat<m,n>::transpose`. src/lib/math/Mat.h:128-134 -/
def transpose [Zero K] (dimM dimN : Nat) (A : List K) : Res (List K) :=
  Res.foldlM' (fun p i => Res.foldlM' (fun p j => do
    let a ← Res.read A (i * dimN + j)
    Res.write p (j * dimM + i) a) p (List.range dimN)) (List.replicate (dimN * dimM) 0) (List.range dimM)

/-! ## Determinant and inverse

Here a `Mat<n,n>` is the function of its entries `data[i][j]`. -/

/-- `cross_cut(cuti, cutj)`. src/lib/math/Mat.h:293-300 -/
def crossCut {n : Nat} (a : Fin (n + 1) → Fin (n + 1) → K) (cuti cutj : Fin (n + 1)) (ii jj : Fin n) : K :=
  a (if ii.val ≥ cuti.val then ii.succ else ii.castSucc) (if jj.val ≥ cutj.val then jj.succ else jj.castSucc)

section field
variable [Field K]

/-- `Mat<n,n>::det()`. src/lib/math/Mat.cpp:12-26 for `n ≤ 3`, src/lib/math/Mat.h:259-273 above: expansion along the first
row, state is `det` and `koef`. `Mat<0,0>` does not exist. -/
def det : (n : Nat) → (Fin n → Fin n → K) → Res K
  | 0, _ => .assert
  | 1, a => .ok (a 0 0)
  | 2, a => .ok (a 0 0 * a 1 1 - a 0 1 * a 1 0)
  | 3, a => .ok (a 0 0 * (a 1 1 * a 2 2 - a 1 2 * a 2 1) - a 0 1 * (a 1 0 * a 2 2 - a 1 2 * a 2 0)
      + a 0 2 * (a 1 0 * a 2 1 - a 1 1 * a 2 0))
  | n + 4, a => do
    let st ← Res.foldlM' (fun (st : K × K) (j : Fin (n + 4)) => do
      let d ← det (n + 3) (crossCut a 0 j)
      .ok (st.1 + st.2 * a 0 j * d, st.2 * (-1))) (0, 1) (List.finRange (n + 4))
    .ok st.1

/-- `npow(-1, power)` as a `double`: the `int32` result is 1 or -1. src/lib/sys.cpp:18-24 -/
def npow (dig : K) (power : Nat) : K := (List.range power).foldl (fun res _ => res * dig) 1

variable [DecidableEq K]

/-- `Mat<n,n>::inv(det)`. src/lib/math/Mat.cpp:28-46 for `n ≤ 3`, src/lib/math/Mat.h:279-290 above. Division by zero is not
checked for `n > 3`. -/
def inv : (n : Nat) → (Fin n → Fin n → K) → K → Res (Fin n → Fin n → K)
  | 0, _, _ => .assert
  | 1, _, d => if d = 0 then .assert else .ok (fun _ _ => 1 / d)
  | 2, a, d => if d = 0 then .assert else
      .ok (fun i j => (![![a 1 1, -a 0 1], ![-a 1 0, a 0 0]] : Fin 2 → Fin 2 → K) i j * (1 / d))
  | 3, a, d => if d = 0 then .assert else
      .ok (fun i j => (![
        ![a 1 1 * a 2 2 - a 1 2 * a 2 1, a 0 2 * a 2 1 - a 0 1 * a 2 2, a 0 1 * a 1 2 - a 0 2 * a 1 1],
        ![a 2 0 * a 1 2 - a 1 0 * a 2 2, a 0 0 * a 2 2 - a 0 2 * a 2 0, a 1 0 * a 0 2 - a 0 0 * a 1 2],
        ![a 1 0 * a 2 1 - a 1 1 * a 2 0, a 0 1 * a 2 0 - a 0 0 * a 2 1, a 0 0 * a 1 1 - a 0 1 * a 1 0]] :
          Fin 3 → Fin 3 → K) i j * (1 / d))
  | n + 4, a, d => do
    -- the entries of `C`, row by row
    let C ← Res.foldlM' (fun (C : Fin (n + 4) → Fin (n + 4) → K) (p : Fin (n + 4) × Fin (n + 4)) => do
      let m ← det (n + 3) (crossCut a p.1 p.2)
      .ok (fun i j => if i = p.1 ∧ j = p.2 then npow (-1) (p.1.val + p.2.val) * m else C i j)) (fun _ _ => 0)
      ((List.finRange (n + 4)).flatMap (fun i => (List.finRange (n + 4)).map (fun j => (i, j))))
    .ok (fun i j => C j i * (1 / d))

end field

end Nla3d.Dense
