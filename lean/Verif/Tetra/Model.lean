import Verif.Dense.Model
import Mathlib.Data.Real.Basic
import Mathlib.LinearAlgebra.Matrix.Determinant.Basic
import Mathlib.LinearAlgebra.Matrix.Notation

/-!
# Model of the four-node tetrahedra (src/lib/elements/TETRA0.cpp, src/lib/elements/TETRA1.cpp)

`double` is `ℝ`. `pos a i` is the coordinate `i` of node `a` of the element. The results of `buildK` are the element matrix and the
element vector handed over to the assembly. `Eigen::MatrixXd::determinant` is the determinant. A division by the zero volume
is division by zero of `ℝ`; the theorems are about tetrahedra with non-zero volume. `math::Vec` and `math::Mat` are lists.
-/

noncomputable section

namespace Nla3d.Tetra

open Dense

/-- `matS`. src/lib/elements/TETRA0.cpp:19-24, src/lib/elements/TETRA1.cpp:16-19 -/
def matS (pos : Fin 4 → Fin 3 → ℝ) : Matrix (Fin 4) (Fin 4) ℝ :=
  !![1, pos 0 0, pos 0 1, pos 0 2;
     1, pos 1 0, pos 1 1, pos 1 2;
     1, pos 2 0, pos 2 1, pos 2 2;
     1, pos 3 0, pos 3 1, pos 3 2]

/-- `b[4]`. src/lib/elements/TETRA0.cpp:117-163, src/lib/elements/TETRA1.cpp:62-105 -/
def coefB (pos : Fin 4 → Fin 3 → ℝ) : Fin 4 → ℝ :=
  let y12 := pos 0 1 - pos 1 1
  let y13 := pos 0 1 - pos 2 1
  let y14 := pos 0 1 - pos 3 1
  let y23 := pos 1 1 - pos 2 1
  let y24 := pos 1 1 - pos 3 1
  let y34 := pos 2 1 - pos 3 1
  let y31 := -1 * y13
  let y32 := -1 * y23
  let y42 := -1 * y24
  let z12 := pos 0 2 - pos 1 2
  let z13 := pos 0 2 - pos 2 2
  let z14 := pos 0 2 - pos 3 2
  let z23 := pos 1 2 - pos 2 2
  let z24 := pos 1 2 - pos 3 2
  let z34 := pos 2 2 - pos 3 2
  let z21 := -1 * z12
  let z31 := -1 * z13
  let z32 := -1 * z23
  let z42 := -1 * z24
  let z43 := -1 * z34
  ![y42 * z32 - y32 * z42, y31 * z43 - y34 * z13, y24 * z14 - y14 * z24, y13 * z21 - y12 * z31]

/-- `c[4]`. src/lib/elements/TETRA0.cpp:165-168, src/lib/elements/TETRA1.cpp:107-110 -/
def coefC (pos : Fin 4 → Fin 3 → ℝ) : Fin 4 → ℝ :=
  let x12 := pos 0 0 - pos 1 0
  let x13 := pos 0 0 - pos 2 0
  let x14 := pos 0 0 - pos 3 0
  let x23 := pos 1 0 - pos 2 0
  let x24 := pos 1 0 - pos 3 0
  let x34 := pos 2 0 - pos 3 0
  let x21 := -1 * x12
  let x31 := -1 * x13
  let x32 := -1 * x23
  let x42 := -1 * x24
  let x43 := -1 * x34
  let z12 := pos 0 2 - pos 1 2
  let z13 := pos 0 2 - pos 2 2
  let z14 := pos 0 2 - pos 3 2
  let z23 := pos 1 2 - pos 2 2
  let z24 := pos 1 2 - pos 3 2
  let z34 := pos 2 2 - pos 3 2
  let z31 := -1 * z13
  let z32 := -1 * z23
  let z42 := -1 * z24
  ![x32 * z42 - x42 * z32, x43 * z31 - x13 * z34, x14 * z24 - x24 * z14, x21 * z13 - x31 * z12]

/-- `d[4]`. src/lib/elements/TETRA0.cpp:170-173, src/lib/elements/TETRA1.cpp:112-115 -/
def coefD (pos : Fin 4 → Fin 3 → ℝ) : Fin 4 → ℝ :=
  let x12 := pos 0 0 - pos 1 0
  let x13 := pos 0 0 - pos 2 0
  let x14 := pos 0 0 - pos 3 0
  let x23 := pos 1 0 - pos 2 0
  let x24 := pos 1 0 - pos 3 0
  let x34 := pos 2 0 - pos 3 0
  let x31 := -1 * x13
  let x32 := -1 * x23
  let x42 := -1 * x24
  let y12 := pos 0 1 - pos 1 1
  let y13 := pos 0 1 - pos 2 1
  let y14 := pos 0 1 - pos 3 1
  let y23 := pos 1 1 - pos 2 1
  let y24 := pos 1 1 - pos 3 1
  let y34 := pos 2 1 - pos 3 1
  let y21 := -1 * y12
  let y31 := -1 * y13
  let y32 := -1 * y23
  let y42 := -1 * y24
  let y43 := -1 * y34
  ![x42 * y32 - x32 * y42, x31 * y43 - x34 * y13, x24 * y14 - x14 * y24, x13 * y21 - x12 * y31]

/-! ## TETRA0 -/

/-- `ElementTETRA0::makeB` on the zeroed `Mat<6,12>`. src/lib/elements/TETRA0.cpp:110-184 -/
def makeB0 (pos : Fin 4 → Fin 3 → ℝ) (vol : ℝ) : Res (List ℝ) :=
  let b := coefB pos
  let c := coefC pos
  let d := coefD pos
  let A := -1 / 6 / vol
  Res.foldlM' (fun B (i : Fin 4) => do
    let B ← Res.write B (0 + 3 * i.val) (b i * A)
    let B ← Res.write B (13 + 3 * i.val) (c i * A)
    let B ← Res.write B (26 + 3 * i.val) (d i * A)
    let B ← Res.write B (36 + 3 * i.val) (c i * A)
    let B ← Res.write B (37 + 3 * i.val) (b i * A)
    let B ← Res.write B (49 + 3 * i.val) (d i * A)
    let B ← Res.write B (50 + 3 * i.val) (c i * A)
    let B ← Res.write B (60 + 3 * i.val) (d i * A)
    Res.write B (62 + 3 * i.val) (b i * A)) (List.replicate 72 0) [0, 1, 2, 3]

/-- `ElementTETRA0::makeC` on the zeroed `MatSym<6>`. src/lib/elements/TETRA0.cpp:186-199 -/
def makeC0 (E my : ℝ) : Res (List ℝ) := do
  let A := E / ((1 + my) * (1 - 2 * my))
  let C ← Res.write (List.replicate 21 0) (comp 6 0 0) ((1 - my) * A)
  let C ← Res.write C (comp 6 0 1) (my * A)
  let C ← Res.write C (comp 6 0 2) (my * A)
  let C ← Res.write C (comp 6 1 1) ((1 - my) * A)
  let C ← Res.write C (comp 6 1 2) (my * A)
  let C ← Res.write C (comp 6 2 2) ((1 - my) * A)
  let C ← Res.write C (comp 6 3 3) ((1 / 2 - my) * A)
  let C ← Res.write C (comp 6 4 4) ((1 / 2 - my) * A)
  Res.write C (comp 6 5 5) ((1 / 2 - my) * A)

/-- The members of `ElementTETRA0`. src/lib/elements/TETRA0.h:44-66 -/
structure Elem0 where
  E : ℝ := 0
  my : ℝ := 0
  alpha : ℝ := 0
  T : ℝ := 0
  stress : Fin 6 → ℝ := 0
  strains : Fin 6 → ℝ := 0
  vol : ℝ := 0

/-- `Vec::qlength()`. src/lib/math/Vec.h:124-128 -/
def qlength {n : Nat} (v : Fin n → ℝ) : ℝ := (List.finRange n).foldl (fun p i => p + v i * v i) 0

/-- A `Vec<6>` read back from memory. src/lib/math/Vec.h:15-60. -/
def vec6 (l : List ℝ) : Fin 6 → ℝ := fun i => l.getD i 0

/-- The square matrix in a row-major array. src/lib/math/Mat.h:18-80. -/
def mat6 (l : List ℝ) : Fin 6 → Fin 6 → ℝ := fun i j => l.getD (i * 6 + j) 0

/-- `ElementTETRA0::buildK`, initial strains of an initial stress. src/lib/elements/TETRA0.cpp:54-60 -/
def stressStrains (e : Elem0) (matC : List ℝ) : Res (Fin 6 → ℝ) :=
  if qlength e.stress ≠ 0 then do
    let full ← toMat 6 matC
    let d ← det 6 (mat6 full)
    let P ← inv 6 (mat6 full) d
    .ok (fun i => (List.finRange 6).foldl (fun x j => x + P i j * e.stress j) 0)
  else .ok e.strains

/-- `ElementTETRA0::buildK`, thermal initial strains. src/lib/elements/TETRA0.cpp:62-67 -/
def addThermal (e : Elem0) (s : Fin 6 → ℝ) : Fin 6 → ℝ :=
  if e.alpha ≠ 0 ∧ e.T ≠ 0 then
    fun i => s i + (![e.alpha * e.T, e.alpha * e.T, e.alpha * e.T, 0, 0, 0] : Fin 6 → ℝ) i
  else s

/-- `ElementTETRA0::buildK` up to the assembly: the new state, `matKe` and, if there are initial strains, `Fe`.
src/lib/elements/TETRA0.cpp:18-78 -/
def buildK0 (pos : Fin 4 → Fin 3 → ℝ) (e : Elem0) : Res (Elem0 × List ℝ × Option (List ℝ)) := do
  let e := { e with vol := (matS pos).det / 6 }
  let matC ← makeC0 e.E e.my
  let matB ← makeB0 pos e.vol
  let matKe ← matBTDBprod 6 12 matB matC e.vol (List.replicate 78 0)
  if (e.alpha ≠ 0 ∧ e.T ≠ 0) ∨ qlength e.strains ≠ 0 ∨ qlength e.stress ≠ 0 then
    let BT ← transpose 6 12 matB
    let full ← toMat 6 matC
    let BTC ← mulMat 12 6 6 BT full
    let s ← stressStrains e matC
    let s := addThermal e s
    let Fe ← matBVprod 12 6 BTC (List.ofFn s) (-e.vol) (List.replicate 12 0)
    .ok ({ e with strains := s }, matKe, some Fe)
  else .ok (e, matKe, none)

/-- `ElementTETRA0::update`: `u a i` is the displacement of node `a`. src/lib/elements/TETRA0.cpp:81-108 -/
def update0 (pos : Fin 4 → Fin 3 → ℝ) (u : Fin 4 → Fin 3 → ℝ) (e : Elem0) : Res Elem0 := do
  let matC ← makeC0 e.E e.my
  let matB ← makeB0 pos e.vol
  let U := [u 0 0, u 0 1, u 0 2, u 1 0, u 1 1, u 1 2, u 2 0, u 2 1, u 2 2, u 3 0, u 3 1, u 3 2]
  let strains ← matBVprod 6 12 matB U (-1) (List.replicate 6 0)
  let stress ← matBVprodSym 6 matC strains 1 (List.replicate 6 0)
  .ok { e with strains := vec6 strains, stress := vec6 stress }

/-! ## TETRA1 -/

/-- `ElementTETRA1::makeB`. src/lib/elements/TETRA1.cpp:57-131 -/
def makeB1 (pos : Fin 4 → Fin 3 → ℝ) (vol : ℝ) : List ℝ :=
  let b := coefB pos
  let c := coefC pos
  let d := coefD pos
  let A := -1 / 6 / vol
  [b 0 * A, b 1 * A, b 2 * A, b 3 * A, c 0 * A, c 1 * A, c 2 * A, c 3 * A, d 0 * A, d 1 * A, d 2 * A, d 3 * A]

/-- `ElementTETRA1::makeC` on the zeroed `MatSym<3>`. src/lib/elements/TETRA1.cpp:133-137 -/
def makeC1 (k : ℝ) : Res (List ℝ) := do
  let C ← Res.write (List.replicate 6 0) (comp 3 0 0) (-k)
  let C ← Res.write C (comp 3 1 1) (-k)
  Res.write C (comp 3 2 2) (-k)

/-- `vol` of `ElementTETRA1`. src/lib/elements/TETRA1.cpp:16-21 -/
def vol1 (pos : Fin 4 → Fin 3 → ℝ) : Res ℝ := do
  let d ← det 4 (matS pos)
  .ok (d / 6)

/-- `ElementTETRA1::buildK` up to the assembly: `vol` and `matKe`. src/lib/elements/TETRA1.cpp:15-36 -/
def buildK1 (pos : Fin 4 → Fin 3 → ℝ) (k : ℝ) : Res (ℝ × List ℝ) := do
  let vol ← vol1 pos
  let matC ← makeC1 k
  let matKe ← matBTDBprod 3 4 (makeB1 pos vol) matC vol (List.replicate 10 0)
  .ok (vol, matKe)

/-- `ElementTETRA1::update`: the flux. src/lib/elements/TETRA1.cpp:38-55 -/
def update1 (pos : Fin 4 → Fin 3 → ℝ) (k vol : ℝ) (T : Fin 4 → ℝ) : Res (List ℝ) :=
  matBVprod 3 4 (makeB1 pos vol) (List.ofFn T) k (List.replicate 3 0)

/-- `ElementTETRA1::getVector(GRADT)` added to a zero vector. src/lib/elements/TETRA1.cpp:151-153 -/
def gradT (flux : List ℝ) (k scale : ℝ) : List ℝ := flux.map (fun x => x * (scale / k))

end Nla3d.Tetra
