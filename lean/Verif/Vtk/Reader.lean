import Verif.Vtk.Model

/-!
# Specification: a reader of legacy VTK files

Written from the description of the format (VTK file formats, "legacy" unstructured grids), independently of the writer:
four header lines, then a stream of tokens in which line breaks have no meaning.
-/

namespace Nla3d.Vtk

open Nla3d.Post

variable {K : Type}

/-- A data array. -/
inductive Arr (K : Type) where
  | scalars (v : List K)
  | vectors (v : List (Pt K))
  deriving DecidableEq, Repr

/-- What a visualisation program gets. Point indices start at 0. -/
structure Data (K : Type) where
  points : List (Pt K)
  cells : List (List Nat)
  types : List Nat
  pointData : List (String × Arr K)
  cellData : List (String × Arr K)
  deriving DecidableEq, Repr

/-- `n` integers. -/
def takeInts : Nat → List (Tok K) → Option (List Nat × List (Tok K))
  | 0, ts => some ([], ts)
  | n + 1, .i v :: ts => (takeInts n ts).map (fun p => (v :: p.1, p.2))
  | _ + 1, _ => none

/-- `n` numbers. -/
def takeNums : Nat → List (Tok K) → Option (List K × List (Tok K))
  | 0, ts => some ([], ts)
  | n + 1, .x v :: ts => (takeNums n ts).map (fun p => (v :: p.1, p.2))
  | _ + 1, _ => none

/-- `n` points. -/
def takePts : Nat → List (Tok K) → Option (List (Pt K) × List (Tok K))
  | 0, ts => some ([], ts)
  | n + 1, .x a :: .x b :: .x c :: ts => (takePts n ts).map (fun p => (⟨a, b, c⟩ :: p.1, p.2))
  | _ + 1, _ => none

/-- The integers of CELLS: for each of the `m` cells its size and its points; nothing may be left over. -/
def splitCells : Nat → List Nat → Option (List (List Nat))
  | 0, [] => some []
  | 0, _ :: _ => none
  | _ + 1, [] => none
  | m + 1, k :: vs =>
    if vs.length < k then none else (splitCells m (vs.drop k)).map (fun cs => vs.take k :: cs)

/-- Number of points of a cell type; for type 2 (poly-vertex) any number is allowed. -/
def sizeOfType : Nat → Option (Option Nat)
  | 1 => some (some 1)
  | 2 => some none
  | 3 => some (some 2)
  | 5 => some (some 3)
  | 9 => some (some 4)
  | 10 => some (some 4)
  | 12 => some (some 8)
  | 13 => some (some 6)
  | 14 => some (some 5)
  | _ => none

/-- The cell has the number of points its type asks for. -/
def agrees (c : List Nat) (t : Nat) : Bool :=
  match sizeOfType t with
  | none => false
  | some none => true
  | some (some k) => c.length == k

/-- Data arrays for `n` entities, as long as there are any. -/
def readArrays (n : Nat) : (fuel : Nat) → List (Tok K) → Option (List (String × Arr K) × List (Tok K))
  | 0, _ => none
  | fuel + 1, ts =>
    match ts with
    | .w "SCALARS" :: .w name :: .w "float" :: .i 1 :: .w "LOOKUP_TABLE" :: .w "default" :: r =>
      (takeNums n r).bind (fun p => (readArrays n fuel p.2).map (fun q => ((name, .scalars p.1) :: q.1, q.2)))
    | .w "VECTORS" :: .w name :: .w "float" :: r =>
      (takePts n r).bind (fun p => (readArrays n fuel p.2).map (fun q => ((name, .vectors p.1) :: q.1, q.2)))
    | _ => some ([], ts)

/-- A section of data arrays; it may be absent. -/
def readSection (key : String) (n : Nat) (ts : List (Tok K)) : Option (List (String × Arr K) × List (Tok K)) :=
  match ts with
  | .w k :: .i m :: r => if k = key then (if m = n then readArrays n (r.length + 1) r else none) else some ([], ts)
  | _ => some ([], ts)

/-- The stream after the header. -/
def readBody (ts : List (Tok K)) : Option (Data K) :=
  match ts with
  | .w "POINTS" :: .i n :: .w "float" :: r =>
    (takePts n r).bind fun (pts, r) =>
      match r with
      | .w "CELLS" :: .i m :: .i size :: r =>
        (takeInts size r).bind fun (ints, r) =>
          (splitCells m ints).bind fun cells =>
            match r with
            | .w "CELL_TYPES" :: .i m' :: r =>
              if m' = m then
                (takeInts m r).bind fun (types, r) =>
                  (readSection "POINT_DATA" n r).bind fun (pd, r) =>
                    (readSection "CELL_DATA" m r).bind fun (cd, r) =>
                      if r.isEmpty && cells.all (fun c => c.all (fun v => decide (v < n))) &&
                          (cells.zip types).all (fun p => agrees p.1 p.2) then
                        some ⟨pts, cells, types, pd, cd⟩
                      else none
              else none
            | _ => none
      | _ => none
  | _ => none

/-- The reader. -/
def readVtk (lines : List (List (Tok K))) : Option (Data K) :=
  match lines with
  | [.w "# vtk DataFile Version 2.0"] :: [.w _] :: [.w "ASCII"] :: [.w "DATASET", .w "UNSTRUCTURED_GRID"] :: rest =>
    readBody rest.flatten
  | _ => none

end Nla3d.Vtk
