import Verif.Base
import Mathlib.Data.Real.Sqrt
import Mathlib.Analysis.SpecialFunctions.Trigonometric.Inverse
import Mathlib.LinearAlgebra.Matrix.Notation
import Mathlib.LinearAlgebra.Matrix.NonsingularInverse

/-!
# Model of the elements that use Eigen (src/lib/elements/TRUSS3.cpp, INTER0.cpp, INTER3.cpp)

`double` is `ℝ`. Eigen matrices are functions of their entries, Eigen's products, transposes and comma initialisers are those of
matrices. A division by zero gives an infinite number in C++ and makes the matrices infinite or NaN: here the outcome `none`.
The results of `buildK` are the matrices handed over to `assembleK(Eigen::Ref<Eigen::MatrixXd>)`.
-/

noncomputable section

namespace Nla3d.Bars

open scoped Matrix

/-- `a / b` if the result is finite. Used for the divisions in TRUSS3.cpp:36, 74, INTER0.cpp:28-34 and INTER3.cpp:125, 197-199. -/
def divide (a b : ℝ) : Option ℝ := if b = 0 then none else some (a / b)

/-- `Vec<3>::qlength()`. src/lib/math/Vec.h:124-128 -/
def qlength (v : Fin 3 → ℝ) : ℝ := 0 + v 0 * v 0 + v 1 * v 1 + v 2 * v 2

/-- `Vec<3>::length()`. src/lib/math/Vec.h:131-133 -/
def length (v : Fin 3 → ℝ) : ℝ := Real.sqrt (qlength v)

/-- `Ke.triangularView<Eigen::Upper>() = M`. TRUSS3.cpp:55. -/
def setUpper {n : Nat} (Ke M : Matrix (Fin n) (Fin n) ℝ) : Matrix (Fin n) (Fin n) ℝ :=
  Matrix.of fun i j => if i ≤ j then M i j else Ke i j

/-- `Ke.triangularView<Eigen::Upper>() += M`. INTER3.cpp:30. -/
def addUpper {n : Nat} (Ke M : Matrix (Fin n) (Fin n) ℝ) : Matrix (Fin n) (Fin n) ℝ :=
  Matrix.of fun i j => if i ≤ j then Ke i j + M i j else Ke i j

/-! ## TRUSS3 -/

/-- `T(2,6)`. src/lib/elements/TRUSS3.cpp:41-46 (the same in lines 76-81) -/
def trussT (d : Fin 3 → ℝ) (invLength : ℝ) : Matrix (Fin 2) (Fin 6) ℝ :=
  !![d 0 * invLength, d 1 * invLength, d 2 * invLength, 0, 0, 0;
     0, 0, 0, d 0 * invLength, d 1 * invLength, d 2 * invLength]

/-- `ElementTRUSS3::buildK`. src/lib/elements/TRUSS3.cpp:16-60 -/
def trussK (pos : Fin 2 → Fin 3 → ℝ) (E A : ℝ) : Option (Matrix (Fin 6) (Fin 6) ℝ) := do
  let deltaPos := pos 1 - pos 0
  let invLength ← divide 1 (length deltaPos)
  let T := trussT deltaPos invLength
  let K : Matrix (Fin 2) (Fin 2) ℝ := (A * E * invLength) • !![1, -1; -1, 1]
  some (setUpper 0 (Tᵀ * K * T))

/-- `ElementTRUSS3::update`: the stress `S`. src/lib/elements/TRUSS3.cpp:64-97 -/
def trussS (pos : Fin 2 → Fin 3 → ℝ) (E : ℝ) (u : Fin 2 → Fin 3 → ℝ) : Option ℝ := do
  let deltaPos := pos 1 - pos 0
  let invLength ← divide 1 (length deltaPos)
  let T := trussT deltaPos invLength
  let B : Matrix (Fin 1) (Fin 2) ℝ := !![-invLength, invLength]
  let U : Fin 6 → ℝ := ![u 0 0, u 0 1, u 0 2, u 1 0, u 1 1, u 1 2]
  some (E * ((B * T) *ᵥ U) 0)

/-! ## INTER0 -/

/-- `K << ks, 0, 0, 0, ks, 0, 0, 0, kn`. src/lib/elements/INTER0.cpp:44-46; `make_D`, src/lib/elements/INTER3.cpp:136-140 -/
def springs (ks kn : ℝ) : Matrix (Fin 3) (Fin 3) ℝ := !![ks, 0, 0; 0, ks, 0; 0, 0, kn]

/-- `Ke << K, -K, -K, K`. src/lib/elements/INTER0.cpp:50-51 -/
def twoByTwo (K : Matrix (Fin 3) (Fin 3) ℝ) : Matrix (Fin 6) (Fin 6) ℝ :=
  Matrix.of fun i j =>
    (![![K, -K], ![-K, K]] ⟨i.val / 3, by omega⟩ ⟨j.val / 3, by omega⟩) ⟨i.val % 3, by omega⟩ ⟨j.val % 3, by omega⟩

/-- `ElementINTER0::buildK`: the new member `n` and `Ke`. (`invT` is not used by the code.) src/lib/elements/INTER0.cpp:15-54 -/
def inter0K (ks kn : ℝ) (n : Fin 3 → ℝ) : Option ((Fin 3 → ℝ) × Matrix (Fin 6) (Fin 6) ℝ) := do
  let s1 : Fin 3 → ℝ := ![n 0, n 1 + 1, n 2 + 1]
  let c ← divide (s1 0 * n 0 + s1 1 * n 1 + s1 2 * n 2) (qlength n)
  let s1 : Fin 3 → ℝ := s1 - (fun i => n i * c)
  let s2 : Fin 3 → ℝ := ![n 1 * s1 2 - n 2 * s1 1, n 2 * s1 0 - n 0 * s1 2, n 0 * s1 1 - n 1 * s1 0]
  let ln ← divide 1 (length n)
  let l1 ← divide 1 (length s1)
  let l2 ← divide 1 (length s2)
  let n : Fin 3 → ℝ := fun i => n i * ln
  let s1 : Fin 3 → ℝ := fun i => s1 i * l1
  let s2 : Fin 3 → ℝ := fun i => s2 i * l2
  let T : Matrix (Fin 3) (Fin 3) ℝ := Matrix.of ![s1, s2, n]
  some (n, twoByTwo (Tᵀ * springs ks kn * T))

/-! ## INTER3 -/

/-- `_rado_o3`. src/lib/elements/INTER3.h:76-81, 126-130 -/
structure RadoPt where
  AJ : ℝ
  H : ℝ
  AI : ℝ
  AS : ℝ

/-- The table `_rado_o3`. INTER3.h:126-130. -/
def rado : Fin 3 → RadoPt :=
  ![⟨0.1127016654, 0.2777777778, 0.0885879595, 0.2204622112⟩,
    ⟨0.5, 0.4444444444, 0.4094668644, 0.3881934688⟩,
    ⟨0.8872983346, 0.2777777778, 0.7876594618, 0.3288443200⟩]

/-- `radoIntL1`, `radoIntL2`, `radoIntL3`. src/lib/elements/INTER3.h:166-168, 174-176, 182-184 -/
def radoL (np npj : Fin 3) : Fin 3 → ℝ :=
  let L1 := (rado np).AI
  let L2 := (rado npj).AJ * (1 - L1)
  ![L1, L2, 1 - L1 - L2]

/-- `radoIntWeight`. src/lib/elements/INTER3.h:158-160 -/
def radoWeight (det : ℝ) (np npj : Fin 3) : ℝ := (rado np).AS * (rado npj).H * (1 - (rado np).AI) * det

/-- `ElementINTER3::makeJacob`: the member `det`. src/lib/elements/INTER3.cpp:114-134 -/
def makeJacob (pos : Fin 6 → Fin 3 → ℝ) : Option (Res ℝ) := do
  let t1 := pos 1 - pos 0
  let t2 := pos 2 - pos 0
  let mult := t1 0 * t2 0 + t1 1 * t2 1 + t1 2 * t2 2
  let q ← divide mult (length t1)
  let q ← divide q (length t2)
  let angle := Real.arccos q
  let x3 := length t2 * Real.cos angle
  let y3 := length t2 * Real.sin angle
  let det := (0 - x3) * (0 - y3) - (0 - y3) * (length t1 - x3)
  some (if det < 0 then .fatal else .ok det)

/-- `N1`, `N2`, `N3`. src/lib/elements/INTER3.cpp:148-156, 171-179 -/
def shapeBlock (L : ℝ) : Matrix (Fin 3) (Fin 3) ℝ := !![L, 0, 0; 0, L, 0; 0, 0, L]

/-- `ElementINTER3::make_B`. src/lib/elements/INTER3.cpp:165-185 -/
def makeB (np npj : Fin 3) : Matrix (Fin 3) (Fin 18) ℝ :=
  let N1 := shapeBlock (radoL np npj 0)
  let N2 := shapeBlock (radoL np npj 1)
  let N3 := shapeBlock (radoL np npj 2)
  Matrix.of fun r j => (![N1, N2, N3, -N1, -N2, -N3] ⟨j.val / 3, by omega⟩) r ⟨j.val % 3, by omega⟩

/-- `ElementINTER3::make_subB`. src/lib/elements/INTER3.cpp:142-163 -/
def makeSubB (np npj : Fin 3) : Matrix (Fin 3) (Fin 9) ℝ :=
  let N1 := shapeBlock (radoL np npj 0)
  let N2 := shapeBlock (radoL np npj 1)
  let N3 := shapeBlock (radoL np npj 2)
  Matrix.of fun r j => (![N1, N2, N3] ⟨j.val / 3, by omega⟩) r ⟨j.val % 3, by omega⟩

/-- `ElementINTER3::make_T`; the third column is the new member `normal`. src/lib/elements/INTER3.cpp:187-210 -/
def makeT (pos : Fin 6 → Fin 3 → ℝ) : Option (Matrix (Fin 3) (Fin 3) ℝ) := do
  let s1 := pos 1 - pos 0
  let t2 := pos 2 - pos 0
  let n : Fin 3 → ℝ := ![s1 1 * t2 2 - s1 2 * t2 1, s1 2 * t2 0 - s1 0 * t2 2, s1 0 * t2 1 - s1 1 * t2 0]
  let s2 : Fin 3 → ℝ := ![n 1 * s1 2 - n 2 * s1 1, n 2 * s1 0 - n 0 * s1 2, n 0 * s1 1 - n 1 * s1 0]
  let ln ← divide 1 (length n)
  let l1 ← divide 1 (length s1)
  let l2 ← divide 1 (length s2)
  let n : Fin 3 → ℝ := fun i => n i * ln
  let s1 : Fin 3 → ℝ := fun i => s1 i * l1
  let s2 : Fin 3 → ℝ := fun i => s2 i * l2
  some (Matrix.of fun i j => ![s1, s2, n] j i)

/-- The order of the integration points. src/lib/elements/INTER3.cpp:26-27, 87-88 -/
def points : List (Fin 3 × Fin 3) := (List.finRange 3).flatMap fun np => (List.finRange 3).map fun npj => (np, npj)

/-- `Ke` in the local system. src/lib/elements/INTER3.cpp:25-32 -/
def localK (ks kn det : ℝ) : Matrix (Fin 18) (Fin 18) ℝ :=
  points.foldl (fun Ke p =>
    addUpper Ke (radoWeight det p.1 p.2 • (makeB p.1 p.2)ᵀ * springs ks kn * makeB p.1 p.2)) 0

/-- A block-diagonal matrix with `m` blocks `T`: `T_Ke`, `T_U`. src/lib/elements/INTER3.cpp:39-44, 75-77 -/
def blockDiag (m : Nat) (T : Matrix (Fin 3) (Fin 3) ℝ) : Matrix (Fin (3 * m)) (Fin (3 * m)) ℝ :=
  Matrix.of fun i j => if i.val / 3 = j.val / 3 then T ⟨i.val % 3, by omega⟩ ⟨j.val % 3, by omega⟩ else 0

/-- `ElementINTER3::buildK`: the member `det` and `Ke_glob`. src/lib/elements/INTER3.cpp:15-51 -/
def inter3K (pos : Fin 6 → Fin 3 → ℝ) (ks kn : ℝ) : Option (Res (ℝ × Matrix (Fin 18) (Fin 18) ℝ)) := do
  match ← makeJacob pos with
  | .ok det =>
    let Ke := localK ks kn det
    let T ← makeT pos
    let TK : Matrix (Fin 18) (Fin 18) ℝ := blockDiag 6 Tᵀ
    some (.ok (det, TKᵀ * Ke * TK))
  | .fatal => some .fatal
  | .assert => some .assert
  | .ub => some .ub

/-- `ElementINTER3::update`: the members `strains` and `stress`. `T.inverse()` is the inverse matrix.
src/lib/elements/INTER3.cpp:53-112 -/
def inter3Update (pos : Fin 6 → Fin 3 → ℝ) (ks kn det : ℝ) (u : Fin 6 → Fin 3 → ℝ) : Option ((Fin 3 → ℝ) × (Fin 3 → ℝ)) := do
  let U1 : Fin 9 → ℝ := fun j => u ⟨j.val / 3, by omega⟩ ⟨j.val % 3, by omega⟩
  let U2 : Fin 9 → ℝ := fun j => u ⟨j.val / 3 + 3, by omega⟩ ⟨j.val % 3, by omega⟩
  let T ← makeT pos
  let TU : Matrix (Fin 9) (Fin 9) ℝ := blockDiag 3 T⁻¹
  let U1 := TU *ᵥ U1
  let U2 := TU *ᵥ U2
  let S := points.foldl (fun (S : (Fin 3 → ℝ) × (Fin 3 → ℝ)) p =>
    (S.1 + (radoWeight det p.1 p.2 • makeSubB p.1 p.2) *ᵥ U1, S.2 + (radoWeight det p.1 p.2 • makeSubB p.1 p.2) *ᵥ U2)) (0, 0)
  let strainsE := S.2 - S.1
  let stressE := springs ks kn *ᵥ strainsE
  some (T *ᵥ strainsE, T *ᵥ stressE)

end Nla3d.Bars
