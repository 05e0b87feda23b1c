import Verif.Vtk.Files
import Verif.Tetra.Model
import Verif.Bars.Model

/-!
# Model of the results asked from the linear elements

Sources: `getScalar`, `getVector`, `getTensor` of src/lib/elements/TETRA0.cpp, TETRA1.cpp, INTER0.cpp, INTER3.cpp and of the base class in
src/lib/elements/element.cpp; `VtkProcessor::registerResults` and `revealAllResults` in src/lib/VtkProcessor.cpp.

The codes of the queries are the integer values of the enumerators in src/lib/elements/query.h:9-53. The answer `none` is the return
value `false`. Messages are left out.
-/

noncomputable section

namespace Nla3d.Query

open Nla3d.Labels Nla3d.Vtk Nla3d.Post Nla3d.Storage
open Nla3d.Tetra (Elem0)

/-- The members that the getters read. `built` tells whether `buildK` has run: `double vol` of `ElementTETRA0` has no initialiser (and
the constructor sets none), so that before `buildK` its value is indeterminate. `plain` stands for the classes without getters of their
own: TRUSS3, QUADTH, SurfaceLINETH, TRIANGLE4. src/lib/elements/TETRA0.h:39-58, TETRA1.h:23-29, INTER0.h:19-25, INTER3.h:38-50 -/
inductive LEl where
  | tetra0 (e : Elem0) (built : Bool)
  | tetra1 (vol k : ℝ) (flux : Fin 3 → ℝ)
  | inter0 (strains : Fin 3 → ℝ)
  | inter3 (strains stress : Fin 3 → ℝ)
  | plain (t : ElementType)

/-- `getType`: set by the constructors. src/lib/elements/TETRA0.cpp:7-9, TETRA1.cpp:6-8, INTER0.cpp:6-8, INTER3.cpp:8-10 -/
def LEl.type : LEl → ElementType
  | .tetra0 _ _ => .TETRA0
  | .tetra1 _ _ _ => .TETRA1
  | .inter0 _ => .INTER0
  | .inter3 _ _ => .INTER3
  | .plain t => t

/-- `getScalar(&x, query, gp, scale)`: the new value of `x`. src/lib/elements/TETRA0.cpp:201-207, TETRA1.cpp:139-145, element.cpp:72-76 -/
def scalar (e : LEl) (query _gp : Nat) (scale x : ℝ) : Res (Option ℝ) :=
  match e, query with
  | .tetra0 e built, 5 => if built then .ok (some (x + e.vol)) else .ub
  | .tetra1 vol _ _, 5 => .ok (some (x + vol * scale))
  | _, _ => .ok none

/-- `getVector(&v, query, gp, scale)`. src/lib/elements/TETRA1.cpp:147-157, INTER0.cpp:68-70, INTER3.cpp:212-214, element.cpp:78-81 -/
def vector (e : LEl) (query _gp : Nat) (scale : ℝ) (v : Fin 3 → ℝ) : Res (Option (Fin 3 → ℝ)) :=
  match e, query with
  | .tetra1 _ _ flux, 2 => .ok (some (v + fun i => flux i * scale))
  | .tetra1 _ k flux, 3 => .ok (some (v + fun i => flux i * (scale / k)))
  | _, _ => .ok none

/-- `tensor->comp(i, j) += x` on the array of a `MatSym<3>`. src/lib/math/Mat.h:595-605 -/
def addComp (T : Fin 6 → ℝ) (i j : Nat) (x : ℝ) : Fin 6 → ℝ :=
  fun n => if n.val = Dense.comp 3 i j then T n + x else T n

/-- The six additions of the tensor queries. src/lib/elements/TETRA0.cpp:211-216, 220-225, 229-234, INTER0.cpp:74-79, INTER3.cpp:218-223, 227-232 -/
def addSix (T : Fin 6 → ℝ) (xx yy zz xy yz xz : ℝ) : Fin 6 → ℝ :=
  addComp (addComp (addComp (addComp (addComp (addComp T 0 0 xx) 1 1 yy) 2 2 zz) 0 1 xy) 1 2 yz) 0 2 xz

/-- `getTensor(&T, query, gp, scale)`. `ElementINTER3::getTensor` has no `return` at its end: for other codes the behaviour is undefined.
src/lib/elements/TETRA0.cpp:209-239, INTER0.cpp:72-83, INTER3.cpp:216-235, element.cpp:83-86 -/
def tensor (e : LEl) (query _gp : Nat) (_scale : ℝ) (T : Fin 6 → ℝ) : Res (Option (Fin 6 → ℝ)) :=
  match e with
  | .tetra0 e _ =>
    if query = 4 then .ok (some (addSix T (e.strains 0) (e.strains 1) (e.strains 2) (e.strains 3) (e.strains 4) (e.strains 5)))
    else if query = 3 then .ok (some (addSix T (e.stress 0) (e.stress 1) (e.stress 2) (e.stress 3) (e.stress 4) (e.stress 5)))
    else if query = 5 then .ok (some (addSix T (e.alpha * e.T) (e.alpha * e.T) (e.alpha * e.T) 0 0 0))
    else .ok none
  | .inter0 s => if query = 4 then .ok (some (addSix T (s 0) (s 1) (s 2) 0 0 0)) else .ok none
  | .inter3 s t =>
    if query = 4 then .ok (some (addSix T (s 0) (s 1) (s 2) 0 0 0))
    else if query = 3 then .ok (some (addSix T (t 0) (t 1) (t 2) 0 0 0))
    else .ub
  | _ => .ok none

/-! ## The processor -/

/-- `GP_MEAN`. src/lib/elements/query.h:62 -/
def gpMean : Nat := 100

/-- `registerResults` of one kind: `assert(v > UNDEF && v < LAST)` for all codes, then `insert`. `last` is the value of `LAST`.
src/lib/VtkProcessor.cpp:77-107 -/
def register (last : Nat) (queries : List Nat) (set : List Nat) : Res (List Nat) :=
  if queries.all (fun v => 0 < v ∧ v < last) then .ok (queries.foldl (fun s q => setInsert q s) set) else .assert

/-- The loop of `revealAllResults` over the codes of one kind. src/lib/VtkProcessor.cpp:324-335, 339-350, 354-365 -/
def askCodes {α : Type} (get : Nat → Res (Option α)) : List Nat → List Nat → Res (List Nat)
  | [], set => .ok set
  | q :: codes, set => do
    let r ← get q
    askCodes get codes (if r.isSome then setInsert q set else set)

/-- `revealAllResults` asking the elements themselves. src/lib/VtkProcessor.cpp:308-368 -/
def revealAsk : (seen : List ElementType) → List LEl → Proc → Res Proc
  | _, [], P => .ok P
  | seen, e :: es, P =>
    if e.type ∈ seen then revealAsk seen es P
    else do
      let s ← askCodes (fun q => scalar e q gpMean 1 0) scalarCodes P.scalarQ
      let v ← askCodes (fun q => vector e q gpMean 1 0) vectorCodes P.vectorQ
      let t ← askCodes (fun q => tensor e q gpMean 1 0) tensorCodes P.tensorQ
      revealAsk (e.type :: seen) es { P with scalarQ := s, vectorQ := v, tensorQ := t }

end Nla3d.Query
