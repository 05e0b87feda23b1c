import Verif.Mixed.Model
import Verif.Hyper.Model
import Verif.Post.Model

/-!
# Model of one pass over hyperelastic elements

`NonlinearFESolver` calls `FEStorage::updateResults` at the end of an iteration and `FEStorage::assembleGlobalEqMatrices` at the
start of the next one. The first calls `update` of every element, the second `buildK` of every element.
src/lib/FEStorage.cpp:26-62, 571-577, src/lib/FESolver.cpp:440-475

The elements are SOLID81 and PLANE41 with any mixture of materials.

Simplification: the solution vector `U` is a parameter of its own. `update` and `buildK` read it and do not write it, and the
assembly does not touch it.
-/

namespace Nla3d.Newton

open Nla3d.Storage Nla3d.Dof Nla3d.Iso Nla3d.Hyper Nla3d.Material Nla3d.Mixed

noncomputable section

/-- An `ElementSOLID81`: material, order of integration, positions of the nodes, data of `ElementIsoParamHEXAHEDRON`, state at the
integration points, number and nodes. src/lib/elements/SOLID81.h:14-52 -/
structure Hex where
  E : Energy
  k : ℝ
  order : Nat
  pos : Fin 8 → Fin 3 → ℝ
  g : Geom 3 8
  pts : List Point
  en : Nat
  nodes : Fin 8 → Nat

/-- An `ElementPLANE41`. src/lib/elements/PLANE41.h:14-52 -/
structure Quad where
  E : Energy
  k : ℝ
  order : Nat
  pos : Fin 4 → Fin 2 → ℝ
  g : Geom 2 4
  pts : List Point2
  en : Nat
  nodes : Fin 4 → Nat

/-- An element of the model. src/lib/elements/SOLID81.h:14-51, PLANE41.h:14-52. -/
inductive El where
  | hex (e : Hex)
  | plane (e : Quad)

/-- The loop over nodes and directions that reads the nodal solutions. src/lib/elements/SOLID81.cpp:88-93,
src/lib/elements/PLANE41.cpp:123-127 -/
def readU (S : Storage ℝ) (l : List (Nat × DofType)) : Res (List ℝ) :=
  Res.foldlM' (fun U p => do
    let x ← Post.solution S .node p.1 p.2
    .ok (U ++ [x])) [] l

/-- `update` of an element. src/lib/elements/SOLID81.cpp:85-115, src/lib/elements/PLANE41.cpp:121-150 -/
def update (S : Storage ℝ) : El → Res El
  | .hex e => do
    let U ← readU S (nodeDofs (List.ofFn e.nodes) solidDofs)
    let p ← Post.solution S .elem e.en .HYDRO_PRESSURE
    let pts ← solidUpdate e.E e.g (fun a c => U.getD (a.val * 3 + c.val) 0) p e.pts
    .ok (.hex { e with pts := pts })
  | .plane e => do
    let U ← readU S (nodeDofs (List.ofFn e.nodes) planeDofs)
    let p ← Post.solution S .elem e.en .HYDRO_PRESSURE
    let pts ← planeUpdate e.E e.g (fun a c => U.getD (a.val * 2 + c.val) 0) p e.pts
    .ok (.plane { e with pts := pts })

/-- `buildK` of an element. src/lib/elements/SOLID81.cpp:29-82, src/lib/elements/PLANE41.cpp:31-104 -/
def build (U : List ℝ) (S : Storage ℝ) : El → Res (Storage ℝ)
  | .hex e => do
    let p ← Post.solution { S with vecU := U } .elem e.en .HYDRO_PRESSURE
    let s ← solidK e.E e.k e.g e.pts p
    assemble3 S e.en (List.ofFn e.nodes) 24 s.Kuu s.Kup s.Kpp s.Fu s.Fp
  | .plane e => do
    let p ← Post.solution { S with vecU := U } .elem e.en .HYDRO_PRESSURE
    let s ← planeK e.E e.k e.g e.pts p
    assemble41 S e.en (List.ofFn e.nodes) s.1 s.2

/-- The loop of `updateResults`. src/lib/FEStorage.cpp:571-577 -/
def updateAll (S : Storage ℝ) (els : List El) : Res (List El) :=
  Res.foldlM' (fun l e => do
    let e ← update S e
    .ok (l ++ [e])) [] els

/-- `updateResults` and then the loop of `assembleGlobalEqMatrices` over the elements. src/lib/FEStorage.cpp:571-577, 36-38 -/
def pass (U : List ℝ) (S : Storage ℝ) (els : List El) : Res (Storage ℝ × List El) := do
  let els ← updateAll { S with vecU := U } els
  let S ← Res.foldlM' (build U) S els
  .ok (S, els)

end

end Nla3d.Newton
