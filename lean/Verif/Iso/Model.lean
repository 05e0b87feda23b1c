import Verif.Dense.Model
import Mathlib.Data.Real.Sqrt

/-!
# Model of the isoparametric elements (src/lib/elements/isoparametric.h, src/lib/elements/isoparametric.cpp)

`double` is `ℝ`; the decimal constants of the quadrature tables are kept as written. The classes for the quadrilateral and the
hexahedron contain the same loops for different `dim` and `nodes_num`; the model has them once, for a `Shape`.
-/

noncomputable section

namespace Nla3d.Iso

/-- `QuadPt1D`, `QuadPt2D`, `QuadPt3D`. src/lib/elements/isoparametric.h:19-37 -/
structure QuadPt (d : Nat) where
  /-- `r`, `s`, `t` -/
  xi : Fin d → ℝ
  w : ℝ

/-- `_quad_line_o1`. src/lib/elements/isoparametric.h:42-44 -/
def lineO1 : List (QuadPt 1) := [
  ⟨![0], 2⟩]

/-- `_quad_line_o2`. src/lib/elements/isoparametric.h:47-50 -/
def lineO2 : List (QuadPt 1) := [
  ⟨![-0.5773502691896258], 1⟩,
  ⟨![0.5773502691896258], 1⟩]

/-- `_quad_line_o3`. src/lib/elements/isoparametric.h:53-57 -/
def lineO3 : List (QuadPt 1) := [
  ⟨![-0.7745966692414834], 0.5555555555555556⟩,
  ⟨![0], 0.8888888888888888⟩,
  ⟨![0.7745966692414834], 0.5555555555555556⟩]

/-- `_quad_quad_o1`. src/lib/elements/isoparametric.h:75-77 -/
def quadO1 : List (QuadPt 2) := [
  ⟨![0, 0], 4⟩]

/-- `_quad_quad_o2`. src/lib/elements/isoparametric.h:80-85 -/
def quadO2 : List (QuadPt 2) := [
  ⟨![-0.5773502691896258, -0.5773502691896258], 1⟩,
  ⟨![0.5773502691896258, -0.5773502691896258], 1⟩,
  ⟨![-0.5773502691896258, 0.5773502691896258], 1⟩,
  ⟨![0.5773502691896258, 0.5773502691896258], 1⟩]

/-- `_quad_quad_o3`. src/lib/elements/isoparametric.h:88-100 -/
def quadO3 : List (QuadPt 2) := [
  ⟨![-0.7745966692414834, -0.7745966692414834], 0.308641975308642⟩,
  ⟨![0, -0.7745966692414834], 0.4938271604938271⟩,
  ⟨![0.7745966692414834, -0.7745966692414834], 0.308641975308642⟩,
  ⟨![-0.7745966692414834, 0], 0.4938271604938271⟩,
  ⟨![0, 0], 0.7901234567901234⟩,
  ⟨![0.7745966692414834, 0], 0.4938271604938271⟩,
  ⟨![-0.7745966692414834, 0.7745966692414834], 0.308641975308642⟩,
  ⟨![0, 0.7745966692414834], 0.4938271604938271⟩,
  ⟨![0.7745966692414834, 0.7745966692414834], 0.308641975308642⟩]

/-- `_quad_hexahedron_o1`. src/lib/elements/isoparametric.h:120-122 -/
def hexaO1 : List (QuadPt 3) := [
  ⟨![0, 0, 0], 8⟩]

/-- `_quad_hexahedron_o2`. src/lib/elements/isoparametric.h:126-136 -/
def hexaO2 : List (QuadPt 3) := [
  ⟨![-0.5773502691896258, -0.5773502691896258, -0.5773502691896258], 1⟩,
  ⟨![0.5773502691896258, -0.5773502691896258, -0.5773502691896258], 1⟩,
  ⟨![-0.5773502691896258, 0.5773502691896258, -0.5773502691896258], 1⟩,
  ⟨![0.5773502691896258, 0.5773502691896258, -0.5773502691896258], 1⟩,
  ⟨![-0.5773502691896258, -0.5773502691896258, 0.5773502691896258], 1⟩,
  ⟨![0.5773502691896258, -0.5773502691896258, 0.5773502691896258], 1⟩,
  ⟨![-0.5773502691896258, 0.5773502691896258, 0.5773502691896258], 1⟩,
  ⟨![0.5773502691896258, 0.5773502691896258, 0.5773502691896258], 1⟩]

/-- `_quad_hexahedron_o3`. src/lib/elements/isoparametric.h:140-178 -/
def hexaO3 : List (QuadPt 3) := [
  ⟨![-0.7745966692414834, -0.7745966692414834, -0.7745966692414834], 0.1714677640603567⟩,
  ⟨![0, -0.7745966692414834, -0.7745966692414834], 0.2743484224965707⟩,
  ⟨![0.7745966692414834, -0.7745966692414834, -0.7745966692414834], 0.1714677640603567⟩,
  ⟨![-0.7745966692414834, 0, -0.7745966692414834], 0.2743484224965707⟩,
  ⟨![0, 0, -0.7745966692414834], 0.438957475994513⟩,
  ⟨![0.7745966692414834, 0, -0.7745966692414834], 0.2743484224965707⟩,
  ⟨![-0.7745966692414834, 0.7745966692414834, -0.7745966692414834], 0.1714677640603567⟩,
  ⟨![0, 0.7745966692414834, -0.7745966692414834], 0.2743484224965707⟩,
  ⟨![0.7745966692414834, 0.7745966692414834, -0.7745966692414834], 0.1714677640603567⟩,
  ⟨![-0.7745966692414834, -0.7745966692414834, 0], 0.2743484224965707⟩,
  ⟨![0, -0.7745966692414834, 0], 0.438957475994513⟩,
  ⟨![0.7745966692414834, -0.7745966692414834, 0], 0.2743484224965707⟩,
  ⟨![-0.7745966692414834, 0, 0], 0.438957475994513⟩,
  ⟨![0, 0, 0], 0.7023319615912207⟩,
  ⟨![0.7745966692414834, 0, 0], 0.438957475994513⟩,
  ⟨![-0.7745966692414834, 0.7745966692414834, 0], 0.2743484224965707⟩,
  ⟨![0, 0.7745966692414834, 0], 0.438957475994513⟩,
  ⟨![0.7745966692414834, 0.7745966692414834, 0], 0.2743484224965707⟩,
  ⟨![-0.7745966692414834, -0.7745966692414834, 0.7745966692414834], 0.1714677640603567⟩,
  ⟨![0, -0.7745966692414834, 0.7745966692414834], 0.2743484224965707⟩,
  ⟨![0.7745966692414834, -0.7745966692414834, 0.7745966692414834], 0.1714677640603567⟩,
  ⟨![-0.7745966692414834, 0, 0.7745966692414834], 0.2743484224965707⟩,
  ⟨![0, 0, 0.7745966692414834], 0.438957475994513⟩,
  ⟨![0.7745966692414834, 0, 0.7745966692414834], 0.2743484224965707⟩,
  ⟨![-0.7745966692414834, 0.7745966692414834, 0.7745966692414834], 0.1714677640603567⟩,
  ⟨![0, 0.7745966692414834, 0.7745966692414834], 0.2743484224965707⟩,
  ⟨![0.7745966692414834, 0.7745966692414834, 0.7745966692414834], 0.1714677640603567⟩]

/-- What distinguishes the isoparametric classes: the tables, the shape functions and their derivatives.
src/lib/elements/isoparametric.h:8-323. -/
structure Shape (d nn : Nat) where
  /-- `_table_*[i_int]`; its length is `_np_*[i_int]` -/
  table : Fin 3 → List (QuadPt d)
  /-- `formFunc` -/
  formFunc : (Fin d → ℝ) → Fin nn → ℝ
  /-- `formFuncDeriv`, entry `[node][coordinate]` -/
  formFuncDeriv : (Fin d → ℝ) → Fin nn → Fin d → ℝ

/-- `ElementIsoParamLINE`. src/lib/elements/isoparametric.h:61-71, src/lib/elements/isoparametric.cpp:38-52 -/
def line : Shape 1 2 where
  table := ![lineO1, lineO2, lineO3]
  formFunc x := ![0.5 * (1 - x 0), 0.5 * (1 + x 0)]
  formFuncDeriv _ := ![![-0.5], ![0.5]]

/-- `ElementIsoParamQUAD`. src/lib/elements/isoparametric.h:103-114, src/lib/elements/isoparametric.cpp:109-129 -/
def quad : Shape 2 4 where
  table := ![quadO1, quadO2, quadO3]
  formFunc x := ![0.25 * (1 - x 0) * (1 - x 1), 0.25 * (1 + x 0) * (1 - x 1), 0.25 * (1 + x 0) * (1 + x 1),
    0.25 * (1 - x 0) * (1 + x 1)]
  formFuncDeriv x := ![
    ![-0.25 * (1 - x 1), -0.25 * (1 - x 0)],
    ![0.25 * (1 - x 1), -0.25 * (1 + x 0)],
    ![0.25 * (1 + x 1), 0.25 * (1 + x 0)],
    ![-0.25 * (1 + x 1), 0.25 * (1 - x 0)]]

/-- `ElementIsoParamHEXAHEDRON`. src/lib/elements/isoparametric.h:177-188, src/lib/elements/isoparametric.cpp:188-219 -/
def hexa : Shape 3 8 where
  table := ![hexaO1, hexaO2, hexaO3]
  formFunc x := ![
    0.125 * (1 - x 0) * (1 - x 1) * (1 - x 2), 0.125 * (1 + x 0) * (1 - x 1) * (1 - x 2),
    0.125 * (1 + x 0) * (1 + x 1) * (1 - x 2), 0.125 * (1 - x 0) * (1 + x 1) * (1 - x 2),
    0.125 * (1 - x 0) * (1 - x 1) * (1 + x 2), 0.125 * (1 + x 0) * (1 - x 1) * (1 + x 2),
    0.125 * (1 + x 0) * (1 + x 1) * (1 + x 2), 0.125 * (1 - x 0) * (1 + x 1) * (1 + x 2)]
  formFuncDeriv x := ![
    ![-0.125 * (1 - x 1) * (1 - x 2), -0.125 * (1 - x 0) * (1 - x 2), -0.125 * (1 - x 0) * (1 - x 1)],
    ![0.125 * (1 - x 1) * (1 - x 2), -0.125 * (1 + x 0) * (1 - x 2), -0.125 * (1 + x 0) * (1 - x 1)],
    ![0.125 * (1 + x 1) * (1 - x 2), 0.125 * (1 + x 0) * (1 - x 2), -0.125 * (1 + x 0) * (1 + x 1)],
    ![-0.125 * (1 + x 1) * (1 - x 2), 0.125 * (1 - x 0) * (1 - x 2), -0.125 * (1 - x 0) * (1 + x 1)],
    ![-0.125 * (1 - x 1) * (1 + x 2), -0.125 * (1 - x 0) * (1 + x 2), 0.125 * (1 - x 0) * (1 - x 1)],
    ![0.125 * (1 - x 1) * (1 + x 2), -0.125 * (1 + x 0) * (1 + x 2), 0.125 * (1 + x 0) * (1 - x 1)],
    ![0.125 * (1 + x 1) * (1 + x 2), 0.125 * (1 + x 0) * (1 + x 2), 0.125 * (1 + x 0) * (1 + x 1)],
    ![-0.125 * (1 + x 1) * (1 + x 2), 0.125 * (1 - x 0) * (1 + x 2), 0.125 * (1 - x 0) * (1 + x 1)]]

/-- `i_int`: `intOrder` bounded to `1..3`, minus one. src/lib/elements/isoparametric.cpp:17-22, 59-64, 144-147 -/
def schemeIndex (intOrder : Nat) : Fin 3 :=
  let o := if intOrder < 1 then 1 else intOrder
  let o := if o > 3 then 3 else o
  Fin.ofNat 3 (o - 1)

/-- `det`, `NiXj` and the number of error messages written to the log; the element remembers `i_int`.
src/lib/elements/isoparametric.cpp:55-106, 140-188. -/
structure Geom (d nn : Nat) where
  scheme : Fin 3
  det : List ℝ := []
  NiXj : List (Fin nn → Fin d → ℝ) := []
  errors : Nat := 0

variable {d nn : Nat}

/-- `J[i][j] += dN[nod][i] * pos[j]` over all nodes. Of the three coordinates of a node only the first `dim` are used; `pos` has
these. src/lib/elements/isoparametric.cpp:83-90, 165-172 -/
def jacobian (dN pos : Fin nn → Fin d → ℝ) : Fin d → Fin d → ℝ :=
  (List.finRange nn).foldl (fun J nod i j => J i j + dN nod i * pos nod j) (fun _ _ => 0)

/-- `NiXj[np][nod][i] += Jacob[i][j] * dN[nod][j]` from zero. src/lib/elements/isoparametric.cpp:99-103, 181-185 -/
def globalDeriv (Jacob : Fin d → Fin d → ℝ) (dN : Fin nn → Fin d → ℝ) (nod : Fin nn) (i : Fin d) : ℝ :=
  (List.finRange d).foldl (fun x j => x + Jacob i j * dN nod j) 0

/-- `makeJacob` of the quadrilateral and of the hexahedron: the loop over the integration points. A determinant below `1e-20`
only writes to the log. src/lib/elements/isoparametric.cpp:55-106, 140-187 -/
def makeJacob (S : Shape d nn) (intOrder : Nat) (pos : Fin nn → Fin d → ℝ) : Res (Geom d nn) :=
  Res.foldlM' (fun (g : Geom d nn) q => do
    let dN := S.formFuncDeriv q.xi
    let J := jacobian dN pos
    let det ← Dense.det d J
    let Jacob ← Dense.inv d J det
    .ok { g with
      det := g.det ++ [det]
      NiXj := g.NiXj ++ [globalDeriv Jacob dN]
      errors := if det < 1.0e-20 then g.errors + 1 else g.errors })
    { scheme := schemeIndex intOrder } (S.table (schemeIndex intOrder))

/-- `nOfIntPoints`. src/lib/elements/isoparametric.h:298-300, 319-321 -/
def nOfIntPoints (S : Shape d nn) (g : Geom d nn) : Nat := (S.table g.scheme).length

/-- `intWeight` of the quadrilateral and of the hexahedron. src/lib/elements/isoparametric.h:283-288, 302-307 -/
def intWeight (S : Shape d nn) (g : Geom d nn) (np : Nat) : Res ℝ := do
  Res.guard (decide (np < (S.table g.scheme).length))
  Res.guard (decide (g.det.length ≠ 0))
  let q ← Res.read (S.table g.scheme) np
  let det ← Res.read g.det np
  .ok (q.w * det)

/-- `volume()`. src/lib/elements/isoparametric.cpp:132-137, 222-227 -/
def volume (S : Shape d nn) (g : Geom d nn) : Res ℝ :=
  Res.foldlM' (fun v np => do
    let w ← intWeight S g np
    .ok (v + w)) 0 (List.range (nOfIntPoints S g))

/-- `formFunc(np)`: the table has no bounds check. src/lib/elements/isoparametric.cpp:117-120, 201-204 -/
def formFuncAt (S : Shape d nn) (g : Geom d nn) (np : Nat) : Res (Fin nn → ℝ) := do
  let q ← Res.read (S.table g.scheme) np
  .ok (S.formFunc q.xi)

/-! ## The line element -/

/-- `Vec<3>::length()`. src/lib/math/Vec.h:123-133 -/
def length (v : Fin 3 → ℝ) : ℝ := Real.sqrt (v 0 * v 0 + v 1 * v 1 + v 2 * v 2)

/-- `det` and `i_int` of the line element. src/lib/elements/isoparametric.cpp:13-27. -/
structure LineGeom where
  scheme : Fin 3
  det : ℝ

/-- `ElementIsoParamLINE::makeJacob`. src/lib/elements/isoparametric.cpp:13-27 -/
def lineJacob (intOrder : Nat) (pos : Fin 2 → Fin 3 → ℝ) : LineGeom :=
  { scheme := schemeIndex intOrder, det := length (fun i => pos 1 i - pos 0 i) * 0.5 }

/-- `ElementIsoParamLINE::intWeight`. src/lib/elements/isoparametric.h:264-269 -/
def lineIntWeight (g : LineGeom) (np : Nat) : Res ℝ := do
  Res.guard (decide (np < (line.table g.scheme).length))
  Res.guard (decide (0 < g.det))
  let q ← Res.read (line.table g.scheme) np
  .ok (q.w * g.det)

/-- `ElementIsoParamLINE::volume`. src/lib/elements/isoparametric.cpp:30-36 -/
def lineVolume (g : LineGeom) : Res ℝ :=
  Res.foldlM' (fun v np => do
    let w ← lineIntWeight g np
    .ok (v + w)) 0 (List.range (line.table g.scheme).length)

end Nla3d.Iso
