import Verif.Dof.Model

/-!
# Model of the label tables

`Dof::label2dofType` (Dof.cpp), `ElementFactory::elName2elType` (ElementFactory.cpp), `MaterialFactory` (MaterialFactory.cpp).
-/

namespace Nla3d.Labels

open Nla3d.Dof (DofType)

/-- The search loops `for (i = 0; i < n; i++) if (s.compare(labels[i]) == 0) return i`, from position `i` with `n`
iterations left; `none` when the loop ends. Reading past the table is `ub`.
Dof.cpp, ElementFactory.cpp:20-24, MaterialFactory.cpp:16-20. -/
def findLabel (labels : List String) (s : String) : (i n : Nat) → Res (Option Nat)
  | _, 0 => .ok none
  | i, n + 1 => do
    let l ← Res.read labels i
    if s = l then .ok (some i) else findLabel labels s (i + 1) n

/-- `dofTypeLabels`, Dof.cpp:6-7. -/
def dofTypeLabels : List String :=
  ["UX", "UY", "UZ", "ROTX", "ROTY", "ROTZ", "HYDRO_PRESSURE", "TEMP", "UNDEFINED"]

/-- Cast of an integer to `dofType`; outside the enumerators the value is unspecified (`none`). Dof.h:15-25. -/
def dofOfNat (i : Nat) : Option DofType := DofType.all[i]?

/-- Integer value of an enumerator. Dof.h:15-25. -/
def dofToNat : DofType → Nat
  | .UX => 0 | .UY => 1 | .UZ => 2 | .ROTX => 3 | .ROTY => 4 | .ROTZ => 5 | .HYDRO_PRESSURE => 6 | .TEMP => 7
  | .UNDEFINED => 8

/-- `Dof::label2dofType`, Dof.cpp:14-22. `numberOfDofTypes = UNDEFINED = 8`. -/
def label2dofType (s : String) : Res DofType := do
  match ← findLabel dofTypeLabels s 0 8 with
  | none => .ok .UNDEFINED
  | some i => match dofOfNat i with
    | some t => .ok t
    | none => .ub

/-- `Dof::dofType2label`, Dof.h:39-42. -/
def dofType2label (t : DofType) : Res String :=
  if dofToNat t < 8 then Res.read dofTypeLabels (dofToNat t) else .assert

/-- `enum class ElementType`, sys.h:151-163. -/
inductive ElementType where
  | TRUSS3 | PLANE41 | SOLID81 | TETRA0 | TETRA1 | QUADTH | SurfaceLINETH | TRIANGLE4 | INTER0 | INTER3 | UNDEFINED
  deriving DecidableEq, Repr

/-- The enumerators in order. src/lib/sys.h:151-163. -/
def ElementType.all : List ElementType :=
  [.TRUSS3, .PLANE41, .SOLID81, .TETRA0, .TETRA1, .QUADTH, .SurfaceLINETH, .TRIANGLE4, .INTER0, .INTER3, .UNDEFINED]

/-- Integer value of an enumerator. src/lib/sys.h:151-163. -/
def ElementType.toNat : ElementType → Nat
  | .TRUSS3 => 0 | .PLANE41 => 1 | .SOLID81 => 2 | .TETRA0 => 3 | .TETRA1 => 4 | .QUADTH => 5 | .SurfaceLINETH => 6
  | .TRIANGLE4 => 7 | .INTER0 => 8 | .INTER3 => 9 | .UNDEFINED => 10

/-- `elTypeLabels`, sys.h:166-178. -/
def elTypeLabels : List String :=
  ["TRUSS3", "PLANE41", "SOLID81", "TETRA0", "TETRA1", "QUADTH", "SurfaceLINETH", "TRIANGLE4", "INTER0", "INTER3",
   "UNDEFINED"]

/-- `ElementFactory::elName2elType`, ElementFactory.cpp:19-26. -/
def elName2elType (s : String) : Res ElementType := do
  match ← findLabel elTypeLabels s 0 10 with
  | none => .ok .UNDEFINED
  | some i => match ElementType.all[i]? with
    | some t => .ok t
    | none => .ub

/-- `elTypeLabels[(uint16) type]`, the label of an element type. elements/element.h, used in ElementFactory.cpp:21. -/
def elType2label (t : ElementType) : Res String := Res.read elTypeLabels t.toNat

/-- `MaterialFactory::matId` without `LAST`, MaterialFactory.h:12-18. -/
inductive MatId where
  | NOT_DEFINED | NEO_HOOKEAN_COMP | BIDERMAN_COMP | MOONEYRIVLIN_COMP
  deriving DecidableEq, Repr

/-- The enumerators in order. MaterialFactory.h:12-18. -/
def MatId.all : List MatId := [.NOT_DEFINED, .NEO_HOOKEAN_COMP, .BIDERMAN_COMP, .MOONEYRIVLIN_COMP]

/-- Integer value of an enumerator. MaterialFactory.h:12-18. -/
def MatId.toNat : MatId → Nat
  | .NOT_DEFINED => 0 | .NEO_HOOKEAN_COMP => 1 | .BIDERMAN_COMP => 2 | .MOONEYRIVLIN_COMP => 3

/-- `matModelLabels`, MaterialFactory.cpp:9-13. -/
def matModelLabels : List String := ["UNDEFINED", "Neo-Hookean", "Biderman", "Mooney-Rivlin"]

/-- `MaterialFactory::matName2matId`, MaterialFactory.cpp:15-22. -/
def matName2matId (s : String) : Res MatId := do
  match ← findLabel matModelLabels s 0 4 with
  | none => .ok .NOT_DEFINED
  | some i => match MatId.all[i]? with
    | some t => .ok t
    | none => .ub

/-- `matModelLabels[id]`. MaterialFactory.cpp:9-12. -/
def matId2label (t : MatId) : Res String := Res.read matModelLabels t.toNat

/-- What a material object knows about itself: name, constant names and `code`. material.h:14-50. -/
structure MatObj where
  name : String
  consts : List String
  code : Nat
  deriving DecidableEq, Repr

/-- `MaterialFactory::createMaterial`, MaterialFactory.cpp:24-47, with the constructors of
materials_hyperelastic.h:53-56, 76-79, 96-99 (names and constants). `none` is `nullptr`. -/
def createMaterial (s : String) : Res (Option MatObj) := do
  match ← matName2matId s with
  | .NOT_DEFINED => .ok none
  | .NEO_HOOKEAN_COMP => .ok (some ⟨"Neo-Hookean", ["G", "K"], 1⟩)
  | .BIDERMAN_COMP => .ok (some ⟨"Biderman", ["C10", "C20", "C30", "C01", "K"], 2⟩)
  | .MOONEYRIVLIN_COMP => .ok (some ⟨"Money-Rivlin", ["C10", "C01", "K"], 3⟩)

end Nla3d.Labels
