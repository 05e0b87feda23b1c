import Verif.Base
import Mathlib.Analysis.SpecialFunctions.Pow.Real
import Mathlib.Data.Fin.VecNotation

/-!
# Model of the deformation measures and of the hyperelastic materials

src/lib/solidmech.cpp, src/lib/solidmech.h, src/lib/materials/material.cpp, src/lib/materials/materials_hyperelastic.cpp

A symmetric tensor is an array of six numbers in the order XX, XY, XZ, YY, YZ, ZZ (`tensorComponents`,
src/lib/solidmech.h:12-19). Real arithmetic in place of `double`; `sqrt` and `pow` are the real functions (for the
arguments on which the C functions are defined).
-/

namespace Nla3d.Material

/-- `J_C`. src/lib/solidmech.cpp:10-14 -/
noncomputable def JC (C : Fin 6 → ℝ) : ℝ :=
  √(C 0 * (C 3 * C 5 - C 4 * C 4) - C 1 * (C 1 * C 5 - C 4 * C 2) + C 2 * (C 1 * C 4 - C 3 * C 2))

/-- `invC_C`. src/lib/solidmech.cpp:16-24 -/
noncomputable def invCC (C : Fin 6 → ℝ) (J : ℝ) : Fin 6 → ℝ :=
  let oo := 1 / (J * J)
  ![oo * (C 3 * C 5 - C 4 * C 4),
    oo * (C 2 * C 4 - C 1 * C 5),
    oo * (C 1 * C 4 - C 2 * C 3),
    oo * (C 0 * C 5 - C 2 * C 2),
    oo * (C 1 * C 2 - C 0 * C 4),
    oo * (C 0 * C 3 - C 1 * C 1)]

/-- `E_C`: adds to the output. src/lib/solidmech.cpp:27-34 -/
noncomputable def EC (C E : Fin 6 → ℝ) : Fin 6 → ℝ :=
  ![E 0 + (C 0 - 1) * (1 / 2), E 1 + C 1 * (1 / 2), E 2 + C 2 * (1 / 2), E 3 + (C 3 - 1) * (1 / 2),
    E 4 + C 4 * (1 / 2), E 5 + (C 5 - 1) * (1 / 2)]

/-- `IC_C`. src/lib/solidmech.cpp:37-42 -/
noncomputable def ICC (C : Fin 6 → ℝ) : Fin 3 → ℝ :=
  ![C 0 + C 3 + C 5, C 0 * C 3 + C 3 * C 5 + C 0 * C 5 - C 1 * C 1 - C 4 * C 4 - C 2 * C 2, JC C]

/-- `Material::I`. src/lib/materials/material.cpp:9 -/
def matI : Fin 6 → ℝ := ![1, 0, 0, 1, 0, 1]

/-- `Mat_Hyper_Isotrop_General::II`. src/lib/materials/materials_hyperelastic.cpp:9-14 -/
noncomputable def matII : Fin 6 → Fin 6 → ℝ :=
  ![![1, 0, 0, 0, 0, 0], ![0, 1 / 2, 0, 0, 0, 0], ![0, 0, 1 / 2, 0, 0, 0], ![0, 0, 0, 1, 0, 0], ![0, 0, 0, 0, 1 / 2, 0],
    ![0, 0, 0, 0, 0, 1]]

/-- The virtual functions of a material: `W`, `W_first_derivatives` (`AL_1`, `AL_2`), `W_second_derivatives`
(`AL_1`, `AL_2`, `AL_11`, `AL_12`, `AL_22`). src/lib/materials/materials_hyperelastic.h:20-40 -/
structure Energy where
  W : ℝ → ℝ → ℝ → ℝ
  first : ℝ → ℝ → ℝ → Fin 2 → ℝ
  second : ℝ → ℝ → ℝ → Fin 5 → ℝ

/-- `Mat_Comp_Neo_Hookean`, constants `G`, `K`. src/lib/materials/materials_hyperelastic.cpp:135-156 -/
noncomputable def neoHookean (MC : Fin 2 → ℝ) : Energy where
  W I1 _ _ := 1 / 2 * MC 0 * (I1 - 3)
  first _ _ _ := ![1 / 2 * MC 0, 0]
  second _ _ _ := ![1 / 2 * MC 0, 0, 0, 0, 0]

/-- `Mat_Comp_Biderman`, constants `C10`, `C20`, `C30`, `C01`, `K`. src/lib/materials/materials_hyperelastic.cpp:161-179 -/
noncomputable def biderman (MC : Fin 5 → ℝ) : Energy where
  W I1 I2 _ := MC 0 * (I1 - 3) + MC 1 * (I1 - 3) * (I1 - 3) + MC 2 * (I1 - 3) * (I1 - 3) * (I1 - 3) + MC 3 * (I2 - 3)
  first I1 _ _ := ![MC 0 + 2 * MC 1 * (I1 - 3) + 3 * MC 2 * (I1 - 3) * (I1 - 3), MC 3]
  second I1 _ _ := ![MC 0 + 2 * MC 1 * (I1 - 3) + 3 * MC 2 * (I1 - 3) * (I1 - 3), MC 3,
    2 * MC 1 + 6 * MC 2 * (I1 - 3), 0, 0]

/-- `Mat_Comp_MooneyRivlin`, constants `C10`, `C01`, `K`. src/lib/materials/materials_hyperelastic.cpp:184-204 -/
noncomputable def mooneyRivlin (MC : Fin 3 → ℝ) : Energy where
  W I1 I2 _ := MC 0 * (I1 - 3) + MC 1 * (I2 - 3)
  first _ _ _ := ![MC 0, MC 1]
  second _ _ _ := ![MC 0, MC 1, 0, 0, 0]

/-- The array `A`. src/lib/materials/materials_hyperelastic.cpp:51-52, 95-96 -/
noncomputable def arrA (I1 : ℝ) (Ci : Fin 6 → ℝ) (k : Fin 6) : ℝ := matI k - 1 / 3 * I1 * Ci k

/-- The array `B`. src/lib/materials/materials_hyperelastic.cpp:53-54, 97-98 -/
noncomputable def arrB (I1 I2 : ℝ) (C Ci : Fin 6 → ℝ) (k : Fin 6) : ℝ := I1 * matI k - C k - 2 / 3 * I2 * Ci k

/-- The array `IIt`. src/lib/materials/materials_hyperelastic.cpp:97-108 -/
noncomputable def arrIIt (c : Fin 6 → ℝ) : Fin 6 → Fin 6 → ℝ :=
  ![![-c 0 * c 0, -c 0 * c 1, -c 0 * c 2, -c 1 * c 1, -c 1 * c 2, -c 2 * c 2],
    ![-c 0 * c 1, -(1 / 2) * (c 0 * c 3 + c 1 * c 1), -(1 / 2) * (c 0 * c 4 + c 2 * c 1), -c 1 * c 3,
      -(1 / 2) * (c 1 * c 4 + c 2 * c 3), -c 2 * c 4],
    ![-c 0 * c 2, -(1 / 2) * (c 0 * c 4 + c 1 * c 2), -(1 / 2) * (c 0 * c 5 + c 2 * c 2), -c 1 * c 4,
      -(1 / 2) * (c 1 * c 5 + c 2 * c 4), -c 2 * c 5],
    ![-c 1 * c 1, -c 1 * c 3, -c 1 * c 4, -c 3 * c 3, -c 3 * c 4, -c 4 * c 4],
    ![-c 1 * c 2, -(1 / 2) * (c 1 * c 4 + c 3 * c 2), -(1 / 2) * (c 1 * c 5 + c 4 * c 2), -c 3 * c 4,
      -(1 / 2) * (c 3 * c 5 + c 4 * c 4), -c 4 * c 5],
    ![-c 2 * c 2, -c 2 * c 4, -c 2 * c 5, -c 4 * c 4, -c 4 * c 5, -c 5 * c 5]]

/-- What `getS_UP` stores for component `ij`. src/lib/materials/materials_hyperelastic.cpp:31-55, 59-60 -/
noncomputable def stressEntry (E : Energy) (C : Fin 6 → ℝ) (press : ℝ) (ij : Fin 6) : ℝ :=
  let IC := ICC C
  let J := IC 2
  let pp := J ^ (-2 / 3 : ℝ)
  let pppp := pp * pp
  let Ci := invCC C J
  let alpha := E.first (IC 0 * pp) (IC 1 * pppp) 0
  let ko1 := 2 * alpha 0 * pp
  let ko2 := 2 * alpha 1 * pppp
  ko1 * arrA (IC 0) Ci ij + ko2 * arrB (IC 0) (IC 1) C Ci ij + press * J * Ci ij

/-- What `getDdDp_UP` stores in `Dd` for the components `ij`, `kl`.
src/lib/materials/materials_hyperelastic.cpp:67-95, 120-124 -/
noncomputable def tangentEntry (E : Energy) (C : Fin 6 → ℝ) (press : ℝ) (ij kl : Fin 6) : ℝ :=
  let IC := ICC C
  let I1 := 1 / 3 * IC 0
  let I2 := 2 / 3 * IC 1
  let J := IC 2
  let pp := J ^ (-2 / 3 : ℝ)
  let oo := J ^ (-2 : ℝ)
  let pppp := pp * pp
  let Ci := invCC C J
  let alpha := E.second (IC 0 * pp) (IC 1 * pppp) 1
  let A := arrA (IC 0) Ci
  let B := arrB (IC 0) (IC 1) C Ci
  let IIt := arrIIt Ci
  (4 * alpha 2 * pppp * A ij * A kl + 4 * alpha 3 * oo * (B ij * A kl + A ij * B kl) +
    4 * alpha 4 * pppp * pppp * B ij * B kl -
    4 / 3 * alpha 0 * pp * (Ci ij * A kl + A ij * Ci kl + I1 * Ci ij * Ci kl + IC 0 * IIt ij kl) -
    8 / 3 * alpha 1 * pppp * (Ci ij * B kl + B ij * Ci kl + I2 * Ci ij * Ci kl - 3 / 2 * matI ij * matI kl +
      3 / 2 * matII ij kl + IC 1 * IIt ij kl) +
    press * J * (Ci ij * Ci kl + 2 * IIt ij kl)) / 2

/-- What `getDdDp_UP` stores in `Dp`. src/lib/materials/materials_hyperelastic.cpp:127 -/
noncomputable def pressEntry (C : Fin 6 → ℝ) (ij : Fin 6) : ℝ :=
  let J := ICC C 2
  J * invCC C J ij

/-- `getS_UP(ncomp, comps, C, press, S)`, `S` the array the caller provides.
src/lib/materials/materials_hyperelastic.cpp:30-62 -/
noncomputable def getS_UP (E : Energy) (comps : List (Fin 6)) (C : Fin 6 → ℝ) (press : ℝ) (S : List ℝ) : Res (List ℝ) :=
  Res.foldlM' (fun S i => do
    let ij ← Res.read comps i
    Res.write S i (stressEntry E C press ij)) S (List.range comps.length)

/-- `getDdDp_UP(ncomp, comps, C, press, Dd, Dp)`. src/lib/materials/materials_hyperelastic.cpp:65-129 -/
noncomputable def getDdDp_UP (E : Energy) (comps : List (Fin 6)) (C : Fin 6 → ℝ) (press : ℝ) (Dd Dp : List ℝ) :
    Res (List ℝ × List ℝ) := do
  let (Dd, Dp, _) ← Res.foldlM' (fun (s : List ℝ × List ℝ × Nat) i => do
    let ij ← Res.read comps i
    let (Dd, ind) ← Res.foldlM' (fun (s : List ℝ × Nat) j => do
      let kl ← Res.read comps j
      let Dd ← Res.write s.1 s.2 (tangentEntry E C press ij kl)
      .ok (Dd, s.2 + 1)) (s.1, s.2.2) (List.range' i (comps.length - i))
    let Dp ← Res.write s.2.1 i (pressEntry C ij)
    .ok (Dd, Dp, ind)) (Dd, Dp, 0) (List.range comps.length)
  .ok (Dd, Dp)

/-! ## Named constants -/

/-- `MC_names`, `numC` and the size of `MC`. src/lib/materials/material.h:40-42. -/
structure Consts where
  names : List String
  numC : Nat
  size : Nat
  deriving DecidableEq

/-- `register_mat_const(num, ...)`, with `num` names in the argument list. src/lib/materials/material.cpp:42-52 -/
def registerConsts (names : List String) : Consts := ⟨names, names.length, names.length⟩

/-- The loop of `Ci(name)` from position `i` with `n` left; the result is the position in `MC` the returned reference
stands for. When the loop ends, a reference to a local variable is returned; any use of it is `ub`.
src/lib/materials/material.cpp:30-39 -/
def findConst (M : Consts) (s : String) : (i n : Nat) → Res Nat
  | _, 0 => .ub
  | i, n + 1 => do
    let l ← Res.read M.names i
    if s = l then (if i < M.size then .ok i else .ub) else findConst M s (i + 1) n

/-- `Ci(name)`. src/lib/materials/material.cpp:30-39 -/
def Consts.byName (M : Consts) (s : String) : Res Nat := findConst M s 0 M.numC

/-- `Ci(i)`. src/lib/materials/material.h:59-63 -/
def Consts.byIndex (M : Consts) (i : Nat) : Res Nat := if i < M.numC then (if i < M.size then .ok i else .ub) else .assert

end Nla3d.Material
