import Verif.Prog.Spec
import Verif.Hyper.Queries
import Verif.Vtk.Reader

/-!
# Specification for C101 and C105: the files with results, and how a run ends

What a reader of VTK files finds in the files that the program writes for a model of SOLID81 elements, in terms of the job and of the
values and reactions at the ends of the load steps.
-/

namespace Nla3d.Prog

open Nla3d.Dof Nla3d.Storage Nla3d.Iso Nla3d.Newton Nla3d.Labels
open Nla3d.Material (Mat3)
open Nla3d.Vtk (Arr Data readVtk)
open Nla3d.Main (Job)
open Nla3d.Cmd (Options)

noncomputable section

/-- Deformation gradient of an element with 8 nodes at an integration point. -/
def gradAt (pos : List (ℝ × ℝ × ℝ)) (x : Vals) (ns : List Nat) (q : QuadPt 3) : Mat3 :=
  defGrad hexa (nodePos pos ns) (nodeDisp x ns) q.xi

/-- Mean over an element: by the integration rule, weighted with the volume before the deformation. -/
def meanOf {M : Type} [AddCommGroup M] [Module ℝ M] (pos : List (ℝ × ℝ × ℝ)) (ns : List Nat) (X : QuadPt 3 → M) : M :=
  Hyper.mean hexa 2 (nodePos pos ns) X

/-- Volume of an element before the deformation, by the integration rule. -/
def volumeOf (pos : List (ℝ × ℝ × ℝ)) (ns : List Nat) : ℝ :=
  ((hexa.table (schemeIndex 2)).map (fun q => q.w * (jac hexa (nodePos pos ns) q.xi).det)).sum

/-- `S` is the second Piola-Kirchhoff stress: it does the work of the energy density on every change of the deformation gradient. -/
def IsStress (W : ℝ → ℝ → ℝ) (k p : ℝ) (F S : Mat3) : Prop :=
  S.IsSymm ∧ ∀ H : Mat3, HasDerivAt (fun s : ℝ => density W k p (F + s • H)) (∑ a, ∑ b, (F * S) a b * H a b) 0

/-- Invariants of a tensor: trace, second invariant, root of the determinant. -/
def invariants (C : Mat3) : Fin 3 → ℝ := ![C.trace, (C.trace ^ 2 - (C * C).trace) / 2, √C.det]

/-- What is shown of an element. -/
structure CellData where
  pressure : ℝ
  sp : ℝ
  wu : ℝ
  wp : ℝ
  vol : ℝ
  ic : Fin 3 → ℝ
  couchy : Mat3
  pk2 : Mat3
  green : Mat3
  cauchyGreen : Mat3

/-- Components of tensors as scalar arrays. -/
def comps (name : String) (Ts : List Mat3) : List (String × Arr ℝ) :=
  ([("XX", 0, 0), ("XY", 0, 1), ("XZ", 0, 2), ("YY", 1, 1), ("YZ", 1, 2), ("ZZ", 2, 2)] : List (String × Fin 3 × Fin 3)).map
    (fun c => (name ++ "_" ++ c.1, .scalars (Ts.map (fun T => T c.2.1 c.2.2))))

/-- The arrays of the elements. -/
def cellArrays (cs : List CellData) : List (String × Arr ℝ) :=
  [("HYDRO_PRESSURE", .scalars (cs.map CellData.pressure)), ("S_P", .scalars (cs.map CellData.sp)), ("WU", .scalars (cs.map CellData.wu)),
    ("WP", .scalars (cs.map CellData.wp)), ("VOL", .scalars (cs.map CellData.vol)),
    ("IC", .vectors (cs.map (fun c => ⟨c.ic 0, c.ic 1, c.ic 2⟩)))] ++
  comps "COUCHY" (cs.map CellData.couchy) ++ comps "PK2" (cs.map CellData.pk2) ++ comps "E" (cs.map CellData.green) ++
  comps "C" (cs.map CellData.cauchyGreen)

/-- What is shown of an element are means over the element. `WU` is the strain energy of the invariants of `FᵀF` itself, not of its
isochoric part. `COUCHY` and `PK2` count the pressure, which is part of the stress `S` already, a second time. -/
structure MeansOf (W : ℝ → ℝ → ℝ) (k : ℝ) (pos : List (ℝ × ℝ × ℝ)) (x : Vals) (p : ℝ) (ns : List Nat) (c : CellData) : Prop where
  sp : c.sp = p
  wu : c.wu = meanOf pos ns (fun q => W (invariants ((gradAt pos x ns q).transpose * gradAt pos x ns q) 0)
    (invariants ((gradAt pos x ns q).transpose * gradAt pos x ns q) 1))
  wp : c.wp = meanOf pos ns (fun q => k / 2 * (|(gradAt pos x ns q).det| - 1) ^ 2)
  vol : c.vol = volumeOf pos ns
  ic : c.ic = meanOf pos ns (fun q => invariants ((gradAt pos x ns q).transpose * gradAt pos x ns q))
  green : c.green = meanOf pos ns (fun q => (1 / 2 : ℝ) • ((gradAt pos x ns q).transpose * gradAt pos x ns q - 1))
  cauchyGreen : c.cauchyGreen = meanOf pos ns (fun q => (gradAt pos x ns q).transpose * gradAt pos x ns q)
  stress : (∀ q ∈ hexa.table (schemeIndex 2), 0 < (gradAt pos x ns q).det) → ∃ S : QuadPt 3 → Mat3,
    (∀ q ∈ hexa.table (schemeIndex 2), IsStress W k p (gradAt pos x ns q) (S q)) ∧
    c.couchy = meanOf pos ns (fun q => (1 / (gradAt pos x ns q).det) • (gradAt pos x ns q * S q * (gradAt pos x ns q).transpose) +
      p • (1 : Mat3)) ∧
    c.pk2 = meanOf pos ns (fun q => S q + (p * (gradAt pos x ns q).det) • ((gradAt pos x ns q).transpose * gradAt pos x ns q)⁻¹)

/-- What is shown of an element with nodes `ns` and number `en`. -/
def CellOf (W : ℝ → ℝ → ℝ) (k : ℝ) (pos : List (ℝ × ℝ × ℝ)) (x : Vals) (en : Nat) (ns : List Nat) (c : CellData) : Prop :=
  c.pressure = x (.elem, en, .HYDRO_PRESSURE) ∧ (volumeOf pos ns ≠ 0 → MeansOf W k pos x (x (.elem, en, .HYDRO_PRESSURE)) ns c)

/-- Vectors at the nodes. -/
def atNodes (j : Job ℝ) (x : Vals) : List (Post.Pt ℝ) :=
  (List.range j.pos.length).map (fun n => ⟨x (.node, n + 1, .UX), x (.node, n + 1, .UY), x (.node, n + 1, .UZ)⟩)

/-- Names of rotations. -/
def rotName : DofType → String
  | .ROTX => "ROTX"
  | .ROTY => "ROTY"
  | .ROTZ => "ROTZ"
  | _ => ""

/-- What a file shows for values `x` and reactions `r`: the mesh before the deformation, displacements and reactions at the nodes, the
rotations if there is a rigid body, and the data of the elements. -/
structure Shows (W : ℝ → ℝ → ℝ) (k : ℝ) (j : Job ℝ) (x r : Vals) (d : Data ℝ) : Prop where
  points : d.points = j.pos.map (fun p => ⟨p.1, p.2.1, p.2.2⟩)
  cells : d.cells = j.elems.map (fun ns => ns.map (· - 1))
  types : d.types = j.elems.map (fun _ => 12)
  nodes : ∃ ds : List DofType, ds.Nodup ∧ (∀ t, t ∈ ds ↔ j.rigid.isSome ∧ t ∈ [.ROTX, .ROTY, .ROTZ]) ∧
    d.pointData = [("disp", .vectors (atNodes j x)), ("reaction", .vectors (atNodes j r))] ++
      ds.map (fun t => (rotName t, .scalars ((List.range j.pos.length).map (fun n => x (.node, n + 1, t)))))
  elems : ∃ cs, List.Forall₂ (fun (e : List Nat × Nat) c => CellOf W k j.pos x e.2 e.1 c) (j.elems.zipIdx 1) cs ∧
    d.cellData = cellArrays cs

/-- The files after the load steps with the given ends: none if they are not wanted, otherwise one for the state before the first load
step, with number 0, and one for each load step; nothing else. -/
def Written (W : ℝ → ℝ → ℝ) (k : ℝ) (j : Job ℝ) (ends : List (Vals × Vals)) (files : Files) : Prop :=
  match j.vtk with
  | none => ∀ name, files name = none
  | some base =>
    (∀ (i : Nat) (e : Vals × Vals), ((0, 0) :: ends)[i]? = some e → ∃ lines d, files (String.ofList base ++ toString i ++ ".vtk") = some lines ∧
      readVtk lines = some d ∧ Shows W k j e.1 e.2 d) ∧
    ∀ name, (∀ i ≤ ends.length, name ≠ String.ofList base ++ toString i ++ ".vtk") → files name = none

/-- Jobs whose results can be shown: PLANE41 has no answers for the files. -/
def Viewable (j : Job ℝ) : Prop := j.vtk = none ∨ j.type = .SOLID81

/-! ## The run -/

/-- How a run ends: an error message, for one of the reasons given, or all load steps, the report and the files. -/
def Outcome (W : ℝ → ℝ → ℝ) (k : ℝ) (o : Options ℝ) (ref : List ℝ) (j : Job ℝ) (r : Cdb.Out Ending) : Prop :=
  r = .error .fatal ∧ MayStop W k j ∨
  ∃ table code files ends, r = .ok (.done table code files) ∧ LoadPath W k j 0 0 ends ∧ ends.length = j.loadsteps ∧
    Reported o ref j ends table code ∧ Written W k j ends files

end

end Nla3d.Prog
