import Verif.Storage.Setup
import Verif.Labels.Model

/-!
# Model of the reports of the storage

`FEStorage::printDofInfo` (FEStorage.cpp:553-568), `Mpc::print` and `MpcCollection::printEquations` (Mpc.cpp). A stream is the text
written to it so far. `std::endl` writes a line feed; flushing is left out.
-/

namespace Nla3d.Report

open Nla3d.Dof Nla3d.Storage Nla3d.Labels

variable {K : Type}

/-- `out << n` for an unsigned number: its decimal digits. C++ library, called in FEStorage.cpp:557-564 and Mpc.cpp:24. -/
def digits (n : Nat) : List Char := Nat.toDigits 10 n

/-- `out << b` for a `bool` without `std::boolalpha`. C++ library, called in FEStorage.cpp:558, 565. -/
def bit (b : Bool) : Char := if b then '1' else '0'

/-- The letter of a collection: FEStorage.cpp:557 and 564. -/
def letter : Side → Char
  | .elem => 'E'
  | .node => 'N'

/-- One line, FEStorage.cpp:557-558 and 564-565. -/
def printDof (s : Side) (n : Nat) (out : List Char) (d : Dof) : Res (List Char) := do
  let l ← dofType2label d.type
  .ok (out ++ (letter s :: digits n ++ ':' :: l.toList ++ " eq = ".toList ++ digits d.eq ++ " constrained = ".toList ++
    [bit d.constrained, '\n']))

/-- The DoFs of one element or node, FEStorage.cpp:555-558 and 562-565. -/
def printEntity (S : Storage K) (s : Side) (out : List Char) (n : Nat) : Res (List Char) := do
  let ds ← (S.tab s).entityDofs n
  Res.foldlM' (printDof s n) out ds

/-- `printDofInfo`, FEStorage.cpp:553-568. -/
def printDofInfo (S : Storage K) (out : List Char) : Res (List Char) := do
  let out ← Res.foldlM' (printEntity S .elem) out ((List.range S.nElements).map (· + 1))
  Res.foldlM' (printEntity S .node) out ((List.range S.nNodes).map (· + 1))

/-- One term, Mpc.cpp:24. `num` is `toStr` of a `double` (sys.h:101-106). `dofTypeLabels` is read without a check. -/
def printTerm (num : K → List Char) (out : List Char) (t : MpcTerm K) : Res (List Char) := do
  let l ← Res.read dofTypeLabels (dofToNat t.dof)
  .ok (out ++ (num t.coef ++ " * ".toList ++ digits t.node ++ ':' :: l.toList))

/-- The loop of `Mpc::print` with the flag `first`, Mpc.cpp:16-26. -/
def printTerms (num : K → List Char) : Bool → List Char → List (MpcTerm K) → Res (List Char)
  | _, out, [] => .ok out
  | first, out, t :: ts => do
    let out ← printTerm num (if first then out else out ++ " + ".toList) t
    printTerms num false out ts

/-- `Mpc::print`, Mpc.cpp:14-28. -/
def printMpc (num : K → List Char) (out : List Char) (m : Mpc K) : Res (List Char) := do
  let out ← printTerms num true out m.eq
  .ok (out ++ " = ".toList ++ num m.b)

/-- `MpcCollection::printEquations`, Mpc.cpp:37-42. -/
def printEquations (num : K → List Char) (ms : List (Mpc K)) (out : List Char) : Res (List Char) :=
  Res.foldlM' (fun out m => do
    let out ← printMpc num out m
    .ok (out ++ ['\n'])) out ms

end Nla3d.Report
