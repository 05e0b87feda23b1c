import Verif.Iso.Model

/-!
# Model of the two-dimensional thermal elements (src/lib/elements/QUADTH.h, src/lib/elements/QUADTH.cpp)

The results are the element matrices and vectors handed over to `assembleK` and `assembleC`; the assembly itself is the subject
of `Verif/Block`.
-/

noncomputable section

namespace Nla3d.Thermal

open Iso Dense

/-- `make_B(np)`: the row-major memory of the `Mat<2,4>`. src/lib/elements/QUADTH.cpp:69-72 -/
def makeB (g : Geom 2 4) (np : Nat) : Res (List ℝ) := do
  let G ← Res.read g.NiXj np
  .ok [G 0 0, G 1 0, G 2 0, G 3 0, G 0 1, G 1 1, G 2 1, G 3 1]

/-- `mat_k`. src/lib/elements/QUADTH.cpp:29-32 -/
def matK (k : ℝ) : Res (List ℝ) := do
  let m ← Res.write (List.replicate 3 0) (comp 2 0 0) k
  Res.write m (comp 2 1 1) k

/-- `ElementQUADTH::buildK` up to the assembly: `Ke` and `Fe`. src/lib/elements/QUADTH.cpp:22-48 -/
def quadK (g : Geom 2 4) (k volFlux : ℝ) : Res (List ℝ × (Fin 4 → ℝ)) := do
  let m ← matK k
  Res.foldlM' (fun (st : List ℝ × (Fin 4 → ℝ)) np => do
    let dWt ← intWeight quad g np
    let B ← makeB g np
    let Ke ← matBTDBprod 2 4 B m dWt st.1
    if volFlux ≠ 0 then
      let ff ← formFuncAt quad g np
      .ok (Ke, fun a => st.2 a + ff a * (volFlux * dWt))
    else .ok (Ke, st.2)) (List.replicate 10 0, fun _ => 0) (List.range (nOfIntPoints quad g))

/-- `ElementQUADTH::buildC` up to the assembly: `Ce`. src/lib/elements/QUADTH.cpp:51-67 -/
def quadC (g : Geom 2 4) (rho c : ℝ) : Res (List ℝ) :=
  Res.foldlM' (fun Ce np => do
    let dWt ← intWeight quad g np
    let ff ← formFuncAt quad g np
    Res.foldlM' (fun Ce i => Res.foldlM' (fun Ce j =>
      acc Ce (comp 4 i j) (ff (Fin.ofNat 4 i) * ff (Fin.ofNat 4 j) * rho * c * dWt)) Ce (List.range' i (4 - i))) Ce
      (List.range 4)) (List.replicate 10 0) (List.range (nOfIntPoints quad g))

/-- The members of `SurfaceLINETH`. src/lib/elements/QUADTH.h:52-54 -/
structure Surface where
  flux : ℝ := 0
  htc : ℝ := 0
  etemp : Fin 2 → ℝ := fun _ => 0

/-- `SurfaceLINETH::pre`: the environment temperature of the second node. src/lib/elements/QUADTH.cpp:79-91 -/
def Surface.pre (s : Surface) : Surface :=
  if s.etemp 1 = 0 then { s with etemp := ![s.etemp 0, s.etemp 0] } else s

/-- The matrix `tmp`: `comp(1,0)` is the place of `comp(0,1)`. src/lib/elements/QUADTH.cpp:113-117 -/
def surfaceTmp (N : Fin 2 → ℝ) (htc dWt : ℝ) : Res (List ℝ) := do
  let t ← Res.write (List.replicate 3 0) (comp 2 0 0) (N 0 * N 0 * htc * dWt)
  let t ← Res.write t (comp 2 0 1) (N 0 * N 1 * htc * dWt)
  let x ← Res.read t (comp 2 0 1)
  let t ← Res.write t (comp 2 1 0) x
  Res.write t (comp 2 1 1) (N 1 * N 1 * htc * dWt)

/-- `formFunc(np)` of the line. src/lib/elements/isoparametric.cpp:45-47 -/
def lineFunc (g : LineGeom) (np : Nat) : Res (Fin 2 → ℝ) := do
  let q ← Res.read (line.table g.scheme) np
  .ok (line.formFunc q.xi)

/-- `SurfaceLINETH::buildK`, the flux. src/lib/elements/QUADTH.cpp:103-110 -/
def surfaceFlux (g : LineGeom) (s : Surface) : Res (List ℝ) :=
  if s.flux ≠ 0 then
    Res.foldlM' (fun Fe np => do
      let dWt ← lineIntWeight g np
      let N ← lineFunc g np
      let Fe ← acc Fe 0 (N 0 * (s.flux * dWt))
      acc Fe 1 (N 1 * (s.flux * dWt))) (List.replicate 2 0) (List.range (line.table g.scheme).length)
  else .ok (List.replicate 2 0)

/-- `SurfaceLINETH::buildK` up to the assembly: `Ke` and `Fe`. src/lib/elements/QUADTH.cpp:94-129 -/
def surfaceK (g : LineGeom) (s : Surface) : Res (List ℝ × List ℝ) := do
  let Fe ← surfaceFlux g s
  if s.htc ≠ 0 then
    Res.foldlM' (fun (st : List ℝ × List ℝ) np => do
      let dWt ← lineIntWeight g np
      let N ← lineFunc g np
      let tmp ← surfaceTmp N s.htc dWt
      let Ke ← symAdd 2 st.1 tmp
      let Fe ← matBVprodSym 2 tmp (List.ofFn s.etemp) 1 st.2
      .ok (Ke, Fe)) (List.replicate 3 0, Fe) (List.range (line.table g.scheme).length)
  else .ok (List.replicate 3 0, Fe)

end Nla3d.Thermal
