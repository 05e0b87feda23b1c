import Verif.Storage.Report
import Verif.Cdb.Model

/-!
# Model of the lookups of the storage

`getFEComponent`, `listFEComponents`, `getNode`, `getElement`, `getElementNodes` of `FEStorage`; `Element::operator=` and
`Element::print`. A pointer to an object of the storage is the object; `N` is the type of nodes.
-/

namespace Nla3d.Lookup

open Nla3d.Cdb (Comp CompType)
open Nla3d.Report (digits)

variable {N : Type}

/-- `getFEComponent(size_t)`, FEStorage.cpp:158-161. -/
def byIndex (comps : List Comp) (i : Nat) : Res Comp :=
  if i < comps.length then Res.read comps i else .assert

/-- The loop of `getFEComponent(const std::string&)` from position `i` with `k` passes left, FEStorage.cpp:164-173. -/
def byNameLoop (comps : List Comp) (name : List Char) : (i k : Nat) → Res (Option Comp)
  | _, 0 => .ok none
  | i, k + 1 => do
    let c ← Res.read comps i
    if name = c.name then .ok (some c) else byNameLoop comps name (i + 1) k

/-- `getFEComponent(const std::string&)`; `none` is the null pointer. FEStorage.cpp:164-173. -/
def byName (comps : List Comp) (name : List Char) : Res (Option Comp) := byNameLoop comps name 0 comps.length

/-- `labelsOfComponent[type]`, FEComponent.cpp:9. -/
def compLabel : CompType → List Char
  | .NOT_DEFINED => "NOT DEFINED".toList | .ELEMENTS => "ELEM".toList | .NODES => "NODE".toList

/-- What is written for a component, FEComponent.h:32-35. -/
def compText (c : Comp) : List Char := c.name ++ ": ".toList ++ digits c.list.length ++ " ".toList ++ compLabel c.type

/-- The messages of `listFEComponents`, FEStorage.cpp:331-335. -/
def listComps (comps : List Comp) : List (List Char) := comps.map compText

/-- `getNode`, FEStorage.h:635-638. -/
def getNode (nodes : List N) (n : Nat) : Res N :=
  if 0 < n ∧ n ≤ nodes.length then Res.read nodes (n - 1) else .assert

/-- `getElement`, FEStorage.h:641-644: the assertion lets 0 pass and `elements[-1]` is read. An element is the list of the numbers of
its nodes. -/
def getElement (els : List (List Nat)) (el : Nat) : Res (List Nat) :=
  if el ≤ els.length then if el = 0 then .ub else Res.read els (el - 1) else .assert

/-- The loop of `getElementNodes`: `node_ptr[i] = nodes[number - 1]`. FEStorage.cpp:131-132. -/
def nodePtrs (nodes : List N) : List Nat → Res (List N)
  | [] => .ok []
  | n :: ns => do
    let p ← if n = 0 then .ub else Res.read nodes (n - 1)
    let ps ← nodePtrs nodes ns
    .ok (p :: ps)

/-- `getElementNodes`, FEStorage.cpp:128-133. -/
def getElementNodes (nodes : List N) (els : List (List Nat)) (el : Nat) : Res (List N) :=
  if el ≤ els.length then
    if el = 0 then .ub else do
      let e ← Res.read els (el - 1)
      nodePtrs nodes e
  else .assert

/-- `Element::operator=`: `memcpy` of as many numbers as the element on the left has nodes, element.cpp:30-35. `none` is the null
pointer; more numbers than the other element has are not there to be read. -/
def assign (left right : Option (List Nat)) : Res (List Nat) :=
  match left, right with
  | some a, some b => if a.length ≤ b.length then .ok (b.take a.length) else .ub
  | _, _ => .assert

/-- `Element::print`, element.cpp:23-28. -/
def printElement (out : List Char) (elNum : Nat) (nodes : List Nat) : List Char :=
  nodes.foldl (fun out n => out ++ '\t' :: digits n) (out ++ "E ".toList ++ digits elNum ++ [':'])

end Nla3d.Lookup
