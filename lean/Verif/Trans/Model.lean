import Verif.Struct.Model

/-!
# Linear elements with capacity in a transient solution

`buildC` of QUADTH computes a symmetric matrix and ends with one call of `assembleC`; SurfaceLINETH has an empty `buildC`; both
have an empty `buildM`. Other elements stop the program in `buildC` (element.cpp:63-65). Here such elements meet the storage and
`LinearTransientFESolver`.
-/

namespace Nla3d.Trans

open Nla3d.Dof Nla3d.Storage Nla3d.Solver Nla3d.Struct

variable {K : Type}

/-- The call of `assembleC` at the end of `buildC`; the matrix is in `Ke`. src/lib/elements/QUADTH.cpp:66, element.h:306-328 -/
def assembleCap [Add K] (x : LinEl K) (S : Storage K) : Res (Storage K) :=
  S.assembleC x.nodes x.dofs x.n ((packed x.n).map fun p => x.Ke p.1 p.2)

/-- `el->buildC()` for all elements that have one. src/lib/FEStorage.cpp:71-76 -/
def assembleCaps [Add K] (caps : List (LinEl K)) (S : Storage K) : Res (Storage K) :=
  Res.foldlM' (fun S x => assembleCap x S) S caps

/-- The additions of one `buildC`, in order; that `assembleCap` makes exactly these is `assembleCaps_eq`.
src/lib/elements/element.h:307-328. -/
def capAdds (S : Storage K) (x : LinEl K) : List (Contrib K) := elemContribs .C (x.eq S) x.Ke x.n

/-- The elements as the transient solver sees them: `els` are the results of `buildK`, `caps` those of `buildC`.
src/lib/FEStorage.cpp:26-78, 571-577. -/
def evolving {E : Type} (els caps : List (LinEl K)) (update : E → Storage K → E) : Elems E K where
  build _ S := els.flatMap (LinEl.adds S)
  upd _ _ ms := ms
  cm _ S := caps.flatMap (capAdds S)
  update := update

end Nla3d.Trans
