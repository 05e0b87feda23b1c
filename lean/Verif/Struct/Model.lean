import Verif.Solver.Model
import Verif.Storage.Walk
import Verif.Post.Model

/-!
# Linear elements in a linear solution

`buildK` of a linear element (TRUSS3, TETRA0, TETRA1, TRIANGLE4, QUADTH, ...) computes a symmetric matrix and possibly a load
vector from its parameters and ends with one call of `assembleK`. What it hands over is `LinEl`; the numerical parts are
modelled in `Bars`, `Tetra`, `Tri`, `Thermal`. Here the elements of a model meet the storage and `LinearFESolver`.
-/

namespace Nla3d.Struct

open Nla3d.Dof Nla3d.Storage Nla3d.Solver

variable {K : Type}

/-- What `buildK` of an element hands to `assembleK`: the matrix of which the upper triangle is read, the load vector if there
is one, the DoFs of each node (the `initializer_list`); and the nodes of the element. src/lib/elements/element.h:281-386;
calls in TRUSS3.cpp:59, TETRA0.cpp:73-76, TETRA1.cpp:35, TRIANGLE4.cpp:48, QUADTH.cpp:47 -/
structure LinEl (K : Type) where
  nodes : List Nat
  dofs : List DofType
  Ke : Nat → Nat → K
  Fe : Option (Nat → K) := none

/-- Size of the element matrix: `getNNodes() * dim`. src/lib/elements/element.h:287 -/
abbrev LinEl.n (x : LinEl K) : Nat := x.nodes.length * x.dofs.length

/-- The call of `assembleK` at the end of `buildK`. src/lib/elements/element.h:282-303, 356-386 -/
def LinEl.assemble [Add K] (x : LinEl K) (S : Storage K) : Res (Storage K) :=
  match x.Fe with
  | none => S.assembleK x.nodes x.dofs x.n ((packed x.n).map fun p => x.Ke p.1 p.2)
  | some f => S.assembleKF x.nodes x.dofs x.n ((packed x.n).map fun p => x.Ke p.1 p.2) ((List.range x.n).map f)

/-- `el->buildK()` for all elements. src/lib/FEStorage.cpp:36-38 -/
def assembleAll [Add K] (els : List (LinEl K)) (S : Storage K) : Res (Storage K) :=
  Res.foldlM' (fun S x => x.assemble S) S els

/-- The equation number the storage gives for local DoF `a` of an element (`getNodeDofEqNumber`, FEStorage.h:607-609). -/
def LinEl.eq (S : Storage K) (x : LinEl K) (a : Nat) : Nat :=
  match S.eqNumber .node (localKey x.nodes x.dofs a).2.1 (localKey x.nodes x.dofs a).2.2 with
  | .ok i => i
  | _ => 0

/-- The additions of one element, in order; that `assemble` makes exactly these is `assembleAll_eq`.
src/lib/elements/element.h:282-303, 357-386. -/
def LinEl.adds (S : Storage K) (x : LinEl K) : List (Contrib K) :=
  elemContribs .K (x.eq S) x.Ke x.n ++
    match x.Fe with
    | none => []
    | some f => loadContribs (x.eq S) f x.n

/-- The elements as the solver sees them. `update` is what their `update()` does with the solution.
src/lib/FEStorage.cpp:26-62, 571-577. -/
def linear {E : Type} (els : List (LinEl K)) (update : E → Storage K → E) : Elems E K where
  build _ S := els.flatMap (LinEl.adds S)
  upd _ _ ms := ms
  cm _ _ := []
  update := update

end Nla3d.Struct
