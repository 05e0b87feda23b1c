import Verif.Newton.Group
import Verif.Vtk.Files
import Verif.Main.Model

/-!
# The answers of the elements and the files with results

`getScalar`, `getVector`, `getTensor` of SOLID81 and PLANE41 with `GP_MEAN`, as `VtkProcessor` asks for them, and the processor with
these answers. The codes of the queries are those of src/lib/elements/query.h.
-/

namespace Nla3d.Prog

open Nla3d.Storage Nla3d.Dof Nla3d.Iso Nla3d.Hyper Nla3d.Material Nla3d.Newton Nla3d.Labels
open Nla3d.Main (Job)

noncomputable section

/-! ## One element -/

/-- The loop over the integration points with `if(ret == false) return false`; `none` is the return value `false`, `w` is `intWeight`,
`q np scale` the query at a point. src/lib/elements/SOLID81.cpp:199-204, 242-247, 272-277; PLANE41.cpp:161-166, 184-189, 218-223 -/
def askLoop {α : Type} (w : Nat → Res ℝ) (sum : ℝ) (q : Nat → ℝ → α → Res (Option α)) : List Nat → α → Res (Option α)
  | [], x => .ok (some x)
  | np :: l, x => do
    let dWt ← w np
    match ← q np (dWt / sum * 1) x with
    | none => .ok none
    | some y => askLoop w sum q l y

/-- A query with `GP_MEAN` and scale 1. src/lib/elements/SOLID81.cpp:196-205, 239-248, 269-278; PLANE41.cpp:158-167, 181-190, 215-224 -/
def askMean {d nn : Nat} {α : Type} (S : Shape d nn) (g : Geom d nn) (q : Nat → ℝ → α → Res (Option α)) (x : α) : Res (Option α) := do
  let dWtSum ← volume S g
  askLoop (intWeight S g) dWtSum q (List.range (nOfIntPoints S g)) x

/-- The answer of a query that is known. -/
def known {α : Type} (r : Res α) : Res (Option α) := do
  let x ← r
  .ok (some x)

/-- `getScalar` of SOLID81 at a point: SP, WU, WP, VOL. src/lib/elements/SOLID81.cpp:210-235 -/
def hexScalar (S : Storage ℝ) (e : Hex) (query gp : Nat) (scale x : ℝ) : Res (Option ℝ) :=
  match query with
  | 1 => do
    let p ← Post.solution S .elem e.en .HYDRO_PRESSURE
    .ok (some (x + p * scale))
  | 3 => known (solidWU e.E e.pts gp scale x)
  | 4 => known (solidWP e.k e.pts gp scale x)
  | 5 => do
    let v ← volume hexa e.g
    .ok (some (x + v * scale))
  | _ => .ok none

/-- `getVector` of SOLID81 at a point: IC. src/lib/elements/SOLID81.cpp:253-262 -/
def hexVector (e : Hex) (query gp : Nat) (scale : ℝ) (v : Fin 3 → ℝ) : Res (Option (Fin 3 → ℝ)) :=
  match query with
  | 1 => known (solidIC e.pts gp scale v)
  | _ => .ok none

/-- `getTensor` of SOLID81 at a point: COUCHY, PK2, E, C. src/lib/elements/SOLID81.cpp:282-345 -/
def hexTensor (S : Storage ℝ) (e : Hex) (query gp : Nat) (scale : ℝ) (T : Fin 6 → ℝ) : Res (Option (Fin 6 → ℝ)) :=
  match query with
  | 1 => do
    let p ← Post.solution S .elem e.en .HYDRO_PRESSURE
    let T ← solidCouchy e.pts p gp scale (List.ofFn T)
    known (entries 6 T)
  | 2 => do
    let p ← Post.solution S .elem e.en .HYDRO_PRESSURE
    known (solidPK2 e.pts p gp scale T)
  | 3 => known (solidEq e.pts gp scale T)
  | 4 => known (solidCq e.pts gp scale T)
  | _ => .ok none

/-- `getScalar` of PLANE41 at a point: SP. src/lib/elements/PLANE41.cpp:169-175 -/
def quadScalar (S : Storage ℝ) (e : Quad) (query : Nat) (_gp : Nat) (scale x : ℝ) : Res (Option ℝ) :=
  match query with
  | 1 => do
    let p ← Post.solution S .elem e.en .HYDRO_PRESSURE
    .ok (some (x + p * scale))
  | _ => .ok none

/-- `getVector` of PLANE41 at a point: IC; the caller gives the address of one `Vec<3>` (VtkProcessor.cpp:258, 346).
src/lib/elements/PLANE41.cpp:192-208 -/
def quadVector (e : Quad) (query gp : Nat) (scale : ℝ) (v : Fin 3 → ℝ) : Res (Option (Fin 3 → ℝ)) :=
  match query with
  | 1 => do
    let vs ← planeIC e.pts gp scale [v]
    known (Res.read vs 0)
  | _ => .ok none

/-- `getTensor` of PLANE41 at a point: COUCHY, PK2, E, C. src/lib/elements/PLANE41.cpp:226-302 -/
def quadTensor (S : Storage ℝ) (e : Quad) (query gp : Nat) (scale : ℝ) (T : Fin 6 → ℝ) : Res (Option (Fin 6 → ℝ)) :=
  match query with
  | 1 => do
    let p ← Post.solution S .elem e.en .HYDRO_PRESSURE
    let T ← planeCouchy e.E e.pts p gp scale (List.ofFn T)
    known (entries 6 T)
  | 2 => do
    let p ← Post.solution S .elem e.en .HYDRO_PRESSURE
    known (planePK2 e.E e.pts p gp scale T)
  | 3 => known (planeEq e.pts gp scale T)
  | 4 => known (planeCq e.pts gp scale T)
  | _ => .ok none

/-- `getScalar(&x, query, GP_MEAN, 1)` with `x = 0`. -/
def scalarOf (S : Storage ℝ) : El → Nat → Res (Option ℝ)
  | .hex e, query => askMean hexa e.g (hexScalar S e query) 0
  | .plane e, query => askMean quad e.g (quadScalar S e query) 0

/-- `getVector(&v, query, GP_MEAN, 1)` with `v = 0`. -/
def vectorOf : El → Nat → Res (Option (Fin 3 → ℝ))
  | .hex e, query => askMean hexa e.g (hexVector e query) 0
  | .plane e, query => askMean quad e.g (quadVector e query) 0

/-- `getTensor(&T, query, GP_MEAN, 1)` with `T = 0`. -/
def tensorOf (S : Storage ℝ) : El → Nat → Res (Option (Fin 6 → ℝ))
  | .hex e, query => askMean hexa e.g (hexTensor S e query) 0
  | .plane e, query => askMean quad e.g (quadTensor S e query) 0

/-- All answers of an element; the list of a kind starts with code 0 (`UNDEF`), which nobody asks for. -/
structure Answers where
  scalars : List (Option ℝ)
  vectors : List (Option (Fin 3 → ℝ))
  tensors : List (Option (Fin 6 → ℝ))

/-- The queries in the order of `revealAllResults`. src/lib/VtkProcessor.cpp:324-365 -/
def answersOf (S : Storage ℝ) (e : El) : Res Answers := do
  let s ← Vtk.collect (scalarOf S e) Vtk.scalarCodes
  let v ← Vtk.collect (vectorOf e) Vtk.vectorCodes
  let t ← Vtk.collect (tensorOf S e) Vtk.tensorCodes
  .ok ⟨none :: s, none :: v, none :: t⟩

/-! ## The processor -/

/-- The answers of all elements.
Simplification: every element answers every query before the processor does anything. The code asks the first element of each type
for everything (`revealAllResults`), the other elements only for what the first one knows; the elements of a job are of one type, which
know the same queries, and asking changes nothing. -/
def asksOf (S : Storage ℝ) (els : List El) : Res (Vtk.Ask ℝ) := do
  let l ← Vtk.collect (answersOf S) els
  .ok ⟨fun i q => l[i]?.bind (fun a => a.scalars[q]?.join),
    fun i q => l[i]?.bind (fun a => (a.vectors[q]?.join).map (fun v => ⟨v 0, v 1, v 2⟩)),
    fun i q => l[i]?.bind (fun a => a.tensors[q]?.join)⟩

/-- What `VtkProcessor` sees of a job. -/
def viewOf (j : Job ℝ) (S : Storage ℝ) (els : List El) : Res (Vtk.View ℝ) := do
  let shape ← Vtk.factoryShape j.type
  let ask ← asksOf S els
  .ok ⟨S, j.pos.map (fun p => ⟨p.1, p.2.1, p.2.2⟩), j.elems.map (fun ns => ⟨j.type, shape, ns⟩), ask⟩

/-- Files with results. -/
abbrev Files : Type := Vtk.Disk (List (List (Vtk.Tok ℝ)))

/-- `VtkProcessor` after the constructor and `writeAllResults()`. src/main.cpp:234-240, src/lib/VtkProcessor.h:55-69 -/
def Vtk.Proc.all : Vtk.Proc := ⟨false, [], [], [], [], [], true⟩

/-- `VtkProcessor::pre`, if there is such a processor: the fields are chosen and file 0 is written. src/lib/VtkProcessor.cpp:19-56 -/
def vtkPre (j : Job ℝ) (S : Storage ℝ) (els : List El) : Res (Option (Vtk.Proc × Files)) :=
  match j.vtk with
  | none => .ok none
  | some base => do
    let V ← viewOf j S els
    let P := Vtk.setUp V Vtk.Proc.all
    let f ← Vtk.file V P
    .ok (some (P, Vtk.preFile (String.ofList base) f (fun _ => none)))

/-- `VtkProcessor::process`. src/lib/VtkProcessor.cpp:58-66 -/
def vtkStep (j : Job ℝ) (S : Storage ℝ) (els : List El) (step : Nat) : Option (Vtk.Proc × Files) → Res (Option (Vtk.Proc × Files))
  | none => .ok none
  | some (P, d) =>
    match j.vtk with
    | none => .ok (some (P, d))
    | some base => do
      let V ← viewOf j S els
      let f ← Vtk.file V P
      .ok (some (P, d.put (Vtk.fileName (String.ofList base) step) f))

end

end Nla3d.Prog
