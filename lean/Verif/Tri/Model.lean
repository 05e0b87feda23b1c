import Verif.Dense.Model
import Mathlib.Data.Real.Basic
import Mathlib.LinearAlgebra.Matrix.Determinant.Basic
import Mathlib.LinearAlgebra.Matrix.Notation

/-!
# Model of the three-node triangle (src/lib/elements/TRIANGLE4.cpp)

`double` is `ℝ`. `pos a i` is the coordinate `i` of node `a` of the element. `Eigen::MatrixXd::determinant` is the determinant.
A division by the zero area is division by zero of `ℝ`; the theorems are about triangles with non-zero area. `math::Vec` and
`math::Mat` are lists.
-/

noncomputable section

namespace Nla3d.Tri

open Dense

/-- `matS`. src/lib/elements/TRIANGLE4.cpp:34-38 -/
def matS (pos : Fin 3 → Fin 2 → ℝ) : Matrix (Fin 3) (Fin 3) ℝ :=
  !![1, pos 0 0, pos 0 1;
     1, pos 1 0, pos 1 1;
     1, pos 2 0, pos 2 1]

/-- `PlaneState`. src/lib/elements/TRIANGLE4.h:10-13 -/
inductive PlaneState where
  | strain
  | stress
deriving DecidableEq

/-- The members of `ElementTRIANGLE4`; `Vec<3>` is zeroed by its constructor, the constructor sets plane stress. `area` is
uninitialised before `buildK`. src/lib/elements/TRIANGLE4.h:46-61, src/lib/elements/TRIANGLE4.cpp:9-12 -/
structure Elem where
  E : ℝ := 0
  my : ℝ := 0
  stress : List ℝ := [0, 0, 0]
  strains : List ℝ := [0, 0, 0]
  state : PlaneState := .stress
  area : Option ℝ := none

/-- Reading `area`. src/lib/elements/TRIANGLE4.h:61, TRIANGLE4.cpp:45, 87. -/
def Elem.getArea (e : Elem) : Res ℝ :=
  match e.area with
  | some a => .ok a
  | none => .ub

/-- `ElementTRIANGLE4::makeB` on the zeroed `Mat<3,6>`. src/lib/elements/TRIANGLE4.cpp:76-101 -/
def makeB (pos : Fin 3 → Fin 2 → ℝ) (area : ℝ) : Res (List ℝ) := do
  let b0 := pos 1 1 - pos 2 1
  let b1 := pos 2 1 - pos 0 1
  let b2 := pos 0 1 - pos 1 1
  let c0 := pos 2 0 - pos 1 0
  let c1 := pos 0 0 - pos 2 0
  let c2 := pos 1 0 - pos 0 0
  let A := 1 / 2 / area
  let B ← Res.write (List.replicate 18 0) (0 * 6 + 0) (b0 * A)
  let B ← Res.write B (0 * 6 + 2) (b1 * A)
  let B ← Res.write B (0 * 6 + 4) (b2 * A)
  let B ← Res.write B (1 * 6 + 1) (c0 * A)
  let B ← Res.write B (1 * 6 + 3) (c1 * A)
  let B ← Res.write B (1 * 6 + 5) (c2 * A)
  let B ← Res.write B (2 * 6 + 0) (c0 * A)
  let B ← Res.write B (2 * 6 + 1) (b0 * A)
  let B ← Res.write B (2 * 6 + 2) (c1 * A)
  let B ← Res.write B (2 * 6 + 3) (b1 * A)
  let B ← Res.write B (2 * 6 + 4) (c2 * A)
  Res.write B (2 * 6 + 5) (b2 * A)

/-- `ElementTRIANGLE4::makeC`, plane strain. src/lib/elements/TRIANGLE4.cpp:105-111 -/
def makeCStrain (E my : ℝ) (C : List ℝ) : Res (List ℝ) := do
  let A := E * (1 - my) / ((1 + my) * (1 - 2 * my))
  let C ← Res.write C (comp 3 0 0) (1 * A)
  let C ← Res.write C (comp 3 0 1) (my / (1 - my) * A)
  let C ← Res.write C (comp 3 1 1) (1 * A)
  Res.write C (comp 3 2 2) ((1 - 2 * my) / (2 * (1 - my)) * A)

/-- `ElementTRIANGLE4::makeC`, plane stress. src/lib/elements/TRIANGLE4.cpp:113-119 -/
def makeCStress (E my : ℝ) (C : List ℝ) : Res (List ℝ) := do
  let A := E * (1 - my * my)
  let C ← Res.write C (comp 3 0 0) (1 * A)
  let C ← Res.write C (comp 3 0 1) (my * A)
  let C ← Res.write C (comp 3 1 1) (1 * A)
  Res.write C (comp 3 2 2) ((1 - my) / 2 * A)

/-- `ElementTRIANGLE4::makeC` on the zeroed `MatSym<3>`. src/lib/elements/TRIANGLE4.cpp:103-120 -/
def makeC (E my : ℝ) : PlaneState → Res (List ℝ)
  | .strain => makeCStrain E my (List.replicate 6 0)
  | .stress => makeCStress E my (List.replicate 6 0)

/-- `ElementTRIANGLE4::buildK` up to the assembly: the new state and `matKe`. src/lib/elements/TRIANGLE4.cpp:21-49 -/
def buildK (pos : Fin 3 → Fin 2 → ℝ) (e : Elem) : Res (Elem × List ℝ) := do
  let area := (matS pos).det / 2
  let matC ← makeC e.E e.my e.state
  let matB ← makeB pos area
  let matKe ← matBTDBprod 3 6 matB matC area (List.replicate 21 0)
  .ok ({ e with area := some area }, matKe)

/-- `ElementTRIANGLE4::update`: `u a i` is the displacement of node `a`. The products add to the members.
src/lib/elements/TRIANGLE4.cpp:52-74 -/
def update (pos : Fin 3 → Fin 2 → ℝ) (u : Fin 3 → Fin 2 → ℝ) (e : Elem) : Res Elem := do
  let matC ← makeC e.E e.my e.state
  let area ← e.getArea
  let matB ← makeB pos area
  let U := [u 0 0, u 0 1, u 1 0, u 1 1, u 2 0, u 2 1]
  let strains ← matBVprod 3 6 matB U 1 e.strains
  let stress ← matBVprodSym 3 matC strains 1 e.stress
  .ok { e with strains := strains, stress := stress }

end Nla3d.Tri
