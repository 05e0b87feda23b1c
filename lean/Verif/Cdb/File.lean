import Verif.Cdb.Blocks
import Verif.Cdb.Ce
import Verif.Cdb.Cm

/-!
# Property C71: whole cdb files
-/

namespace Nla3d.Cdb

open Nla3d.Text
open Nla3d.Dof (DofType)

variable {K : Type}

/-- Specification: what a command of a cdb file says. -/
inductive Cmd (K : Type) where
  | nothing
  | nodes (l : List (Nat × K × K × K))
  | cells (l : List Cell)
  | fix (b : Bc K)
  | load (b : Bc K)
  | eqn (q : Eqn K)
  | comp (c : Comp)

def Cmd.nodeList : Cmd K → List (Nat × K × K × K) | .nodes l => l | _ => []
def Cmd.cellList : Cmd K → List Cell | .cells l => l | _ => []
def Cmd.fixList : Cmd K → List (Bc K) | .fix b => [b] | _ => []
def Cmd.loadList : Cmd K → List (Bc K) | .load b => [b] | _ => []
def Cmd.eqnList : Cmd K → List (Eqn K) | .eqn q => [q] | _ => []
def Cmd.compList : Cmd K → List Comp | .comp c => [c] | _ => []

/-- Specification: the mesh that a list of commands describes. -/
def mesh (cmds : List (Cmd K)) : MeshData K where
  cellNumbers := (cmds.flatMap Cmd.cellList).map Cell.number
  cellNodes := (cmds.flatMap Cmd.cellList).map Cell.nodes
  cellInt := ⟨(cmds.flatMap Cmd.cellList).map Cell.mat, (cmds.flatMap Cmd.cellList).map Cell.real, (cmds.flatMap Cmd.cellList).map Cell.sect,
    (cmds.flatMap Cmd.cellList).map Cell.cs, (cmds.flatMap Cmd.cellList).map Cell.shape, (cmds.flatMap Cmd.cellList).map Cell.type⟩
  nodesNumbers := (cmds.flatMap Cmd.nodeList).map Prod.fst
  nodesPos := (cmds.flatMap Cmd.nodeList).map Prod.snd
  loadBcs := cmds.flatMap Cmd.loadList
  fixBcs := cmds.flatMap Cmd.fixList
  mpcs := cmds.flatMap Cmd.eqnList
  feComps := cmds.flatMap Cmd.compList

/-- Specification: `line` starts with the given command, in any case. -/
def Header (line : List Char) (key : String) (toks : List (List Char)) : Prop :=
  Tokens line toks ∧ ∃ t, toks[0]? = some t ∧ t.map Char.toLower = key.toList

/-- The commands the reader understands. -/
def keywords : List String := ["nblock", "eblock", "d", "ce", "cmblock", "et", "etype", "type", "f", "*set"]

/-- Specification: the label of a load. -/
def LoadLabel (l : List Char) (d : DofType) : Prop :=
  l.map Char.toLower = "heat".toList ∧ d = .TEMP ∨ l.map Char.toLower = "fx".toList ∧ d = .UX ∨ l.map Char.toLower = "fy".toList ∧ d = .UY ∨
    l.map Char.toLower = "fz".toList ∧ d = .UZ ∨ d ≠ .UNDEFINED ∧ l = (Labels.dofIdent d).toList

/-- Node and value of D and F. -/
def NodeAndValue (stod : List Char → Out K) (toks : List (List Char)) (b : Bc K) : Prop :=
  (∃ f, toks[1]? = some f ∧ Numeral f b.node) ∧ (-2147483648 ≤ b.node ∧ b.node ≤ 2147483647) ∧ ∃ g, toks[3]? = some g ∧ stod g = .ok b.value

/-- Specification: the lines a command is written with. -/
inductive Written [Zero K] (stod : List Char → Out K) : List (List Char) → Cmd K → Prop where
  /-- blank lines, comments and commands starting with a slash -/
  | comment (line t : List Char) (ts : List (List Char)) (h : Tokens line (t :: ts)) (ht : t = [] ∨ t.head? = some '/' ∨ t.head? = some '!') :
      Written stod [line] .nothing
  /-- unknown commands -/
  | other (line t : List Char) (ts : List (List Char)) (h : Tokens line (t :: ts)) (ht : ∀ k ∈ keywords, t.map Char.toLower ≠ k.toList) :
      Written stod [line] .nothing
  /-- element types -/
  | etype (line : List Char) (key : String) (hk : key = "et" ∨ key = "etype" ∨ key = "type") (toks : List (List Char)) (h : Header line key toks)
      (f : List Char) (hf : toks[1]? = some f) (hn : (∃ n, Field f n) ∨ ∃ c, f.head? = some c ∧ c.isAlpha = true) : Written stod [line] .nothing
  /-- numeric parameters -/
  | set (line : List Char) (toks : List (List Char)) (h : Header line "*set" toks) (f g : List Char) (hf : toks[1]? = some f)
      (hg : toks[2]? = some g) (x : K) (hx : stod g = .ok x) : Written stod [line] .nothing
  /-- nodes -/
  | nblock (line : List Char) (toks : List (List Char)) (h : Header line "nblock" toks) (fmt : List Char) (n w m v : Nat)
      (hf : NFormat fmt n w m v) (hw : 1 ≤ w) (hv : 1 ≤ v) (lines : List (List Char)) (nodes : List (Nat × K × K × K))
      (hl : List.Forall₂ (NodeLine stod n w m v) lines nodes) (last : List Char) (hlast : EndLine last) :
      Written stod (line :: (fmt :: lines ++ [last])) (.nodes nodes)
  /-- elements -/
  | eblock (line : List Char) (toks : List (List Char)) (h : Header line "eblock" toks) (key fmt : List Char) (hkey : toks[2]? = some key)
      (isSolid : Bool) (hk : isSolid = true ↔ key.map Char.toLower = "solid".toList) (n w : Nat) (hf : IFormat fmt n w) (hw : 1 ≤ w)
      (lines : List (List Char)) (cells : List Cell) (hl : List.Forall₂ (if isSolid then SolidLine n w else ShellLine n w) lines cells)
      (last : List Char) (hlast : EndLine last) : Written stod (line :: (fmt :: lines ++ [last])) (.cells cells)
  /-- fixed DoFs -/
  | fix (line : List Char) (toks : List (List Char)) (h : Header line "d" toks) (b : Bc K) (hb : NodeAndValue stod toks b)
      (hd : b.dof ≠ .UNDEFINED) (hl : toks[2]? = some (Labels.dofIdent b.dof).toList) : Written stod [line] (.fix b)
  /-- loads -/
  | load (line : List Char) (toks : List (List Char)) (h : Header line "f" toks) (b : Bc K) (hb : NodeAndValue stod toks b)
      (l : List Char) (hl : toks[2]? = some l) (hd : LoadLabel l b.dof) : Written stod [line] (.load b)
  /-- D and F with a set of nodes in place of a number -/
  | setOfNodes (line : List Char) (key : String) (hk : key = "d" ∨ key = "f") (toks : List (List Char)) (h : Header line key toks) (f : List Char)
      (hf : toks[1]? = some f) (hc : ∃ c, f.head? = some c ∧ c.isAlpha = true) : Written stod [line] .nothing
  /-- constraint equations with two or four terms -/
  | ce (line : List Char) (toks : List (List Char)) (h : Header line "ce" toks) (b : K) (rows : List (List (Term K)))
      (hh : CeHead stod toks rows.flatten.length b) (lines : List (List Char)) (hrows : TwoPerLine rows)
      (hl : List.Forall₂ (CeLine stod) lines rows) (hn : rows.flatten.length = 2 ∨ rows.flatten.length = 4) :
      Written stod (line :: lines) (.eqn ⟨b, rows.flatten⟩)
  /-- components -/
  | cmblock (line : List Char) (toks : List (List Char)) (h : Header line "cmblock" toks) (name : List Char) (type : CompType)
      (items : List Item) (hok : ∀ i ∈ items, i.Ok) (hh : CmHead toks name type (items.flatMap Item.codes).length)
      (h1 : 1 ≤ (items.flatMap Item.codes).length) (hN : (items.flatMap Item.codes).length ≤ 65535) (fmt : List Char) (intNum w : Nat)
      (hf : IFormat fmt intNum w) (hw : 1 ≤ w) (hI : 1 ≤ intNum ∧ intNum ≤ 65535) (rows : List (List (List Char))) (hrows : Rows intNum rows)
      (hws : ∀ r ∈ rows, ∀ f ∈ r, f.length = w) (hnum : List.Forall₂ Numeral rows.flatten (items.flatMap Item.codes)) :
      Written stod (line :: fmt :: rows.map List.flatten) (.comp ⟨name, type, items.flatMap Item.members⟩)
  /-- components that the preprocessor makes for itself; the rest of the block consists of unknown commands -/
  | internal (line : List Char) (toks : List (List Char)) (h : Header line "cmblock" toks) (name : List Char) (hn : toks[1]? = some name)
      (hu : name.head? = some '_') : Written stod [line] .nothing

/-- Lists of one mesh after those of another. -/
def plus (a b : MeshData K) : MeshData K where
  cellNumbers := a.cellNumbers ++ b.cellNumbers
  cellNodes := a.cellNodes ++ b.cellNodes
  cellInt := ⟨a.cellInt.mat ++ b.cellInt.mat, a.cellInt.real ++ b.cellInt.real, a.cellInt.sect ++ b.cellInt.sect, a.cellInt.cs ++ b.cellInt.cs,
    a.cellInt.shape ++ b.cellInt.shape, a.cellInt.type ++ b.cellInt.type⟩
  nodesNumbers := a.nodesNumbers ++ b.nodesNumbers
  nodesPos := a.nodesPos ++ b.nodesPos
  loadBcs := a.loadBcs ++ b.loadBcs
  fixBcs := a.fixBcs ++ b.fixBcs
  mpcs := a.mpcs ++ b.mpcs
  feComps := a.feComps ++ b.feComps

theorem plus_mesh (md : MeshData K) (c : Cmd K) (cmds : List (Cmd K)) : plus (plus md (mesh [c])) (mesh cmds) = plus md (mesh (c :: cmds)) := by
  simp [plus, mesh]

theorem plus_nil (md : MeshData K) : plus md (mesh []) = md := by simp [plus, mesh]

theorem plus_nothing (md : MeshData K) : plus md (mesh [.nothing]) = md := by
  simp [plus, mesh, Cmd.cellList, Cmd.nodeList, Cmd.loadList, Cmd.fixList, Cmd.eqnList, Cmd.compList]

theorem empty_plus (a : MeshData K) : plus MeshData.empty a = a := by simp [plus, MeshData.empty]

theorem header_not {t : List Char} {k : Char} {ks : List Char} (h : t.map Char.toLower = k :: ks) (h1 : k ≠ '/') (h2 : k ≠ '!') :
    t ≠ [] ∧ t.head? ≠ some '/' ∧ t.head? ≠ some '!' := by
  cases t with
  | nil => simp at h
  | cons c t =>
    simp only [List.map_cons, List.cons.injEq] at h
    refine ⟨by simp, ?_, ?_⟩
    · intro e
      simp only [List.head?_cons, Option.some.injEq] at e
      subst e
      exact h1 (h.1.symm.trans (by decide))
    · intro e
      simp only [List.head?_cons, Option.some.injEq] at e
      subst e
      exact h2 (h.1.symm.trans (by decide))

section
variable [Zero K] {stod : List Char → Out K} {fuel : Nat} {toks : List (List Char)} {md : MeshData K} {is : Stream}

/-- The chain of comparisons on the command word in lower case. -/
theorem command_key {t k : List Char} (h0 : toks[0]? = some t) (ht : t.map Char.toLower = k) (hk : ∃ c cs, k = c :: cs ∧ c ≠ '/' ∧ c ≠ '!') :
    command stod fuel toks md is =
      if k = "nblock".toList then nblock stod fuel md is
      else if k = "eblock".toList then eblock toks fuel md is
      else if k = "d".toList then do .ok (← dcmd stod toks md, is)
      else if k = "ce".toList then ce stod toks fuel md is
      else if k = "cmblock".toList then cmblock toks fuel md is
      else if k = "et".toList then do etcmd toks; .ok (md, is)
      else if k = "etype".toList then do etcmd toks; .ok (md, is)
      else if k = "type".toList then do etcmd toks; .ok (md, is)
      else if k = "f".toList then do .ok (← fcmd stod toks md, is)
      else if k = "*set".toList then do setcmd stod toks; .ok (md, is)
      else .ok (md, is) := by
  obtain ⟨c, cs, rfl, h1, h2⟩ := hk
  obtain ⟨n1, n2, n3⟩ := header_not ht h1 h2
  unfold command
  rw [read_some h0, out_bind, if_neg n1, if_neg n2, if_neg n3]
  simp only [lift_iequals, ht, out_bind, decide_eq_true_eq, show "NBLOCK".toList.map Char.toLower = "nblock".toList by decide,
    show "EBLOCK".toList.map Char.toLower = "eblock".toList by decide, show "D".toList.map Char.toLower = "d".toList by decide,
    show "CE".toList.map Char.toLower = "ce".toList by decide, show "CMBLOCK".toList.map Char.toLower = "cmblock".toList by decide,
    show "ET".toList.map Char.toLower = "et".toList by decide, show "ETYPE".toList.map Char.toLower = "etype".toList by decide,
    show "TYPE".toList.map Char.toLower = "type".toList by decide, show "F".toList.map Char.toLower = "f".toList by decide,
    show "*set".toList.map Char.toLower = "*set".toList by decide]

theorem stoi_alpha {f : List Char} {c : Char} (h : f.head? = some c) (hc : c.isAlpha = true) : stoi f = .error .invalid := by
  cases f with
  | nil => simp at h
  | cons d f =>
    simp only [List.head?_cons, Option.some.injEq] at h
    subst h
    have ne : ∀ x : Char, x.isAlpha = false → d ≠ x := by
      intro x hx e
      rw [e, hx] at hc
      simp at hc
    have hs : isSpace d = false := by
      cases hd : isSpace d with
      | false => rfl
      | true =>
        exfalso
        simp only [isSpace, List.contains_eq_mem, List.mem_cons, List.not_mem_nil, or_false, decide_eq_true_eq] at hd
        rcases hd with e | e | e | e | e | e <;> exact ne _ (by decide) e
    have hdig : d.isDigit = false := by
      cases hd : d.isDigit with
      | false => rfl
      | true =>
        exfalso
        simp only [Char.isAlpha, Char.isUpper, Char.isLower, Char.isDigit, Bool.or_eq_true, Bool.and_eq_true, decide_eq_true_eq, ge_iff_le,
          UInt32.le_iff_toNat_le] at hc hd
        simp at hc hd
        omega
    unfold stoi
    rw [List.dropWhile_cons_of_neg (by simp [hs])]
    split
    · rename_i e; simp only [List.cons.injEq] at e; exact absurd e.1 (ne _ (by decide))
    · rename_i e; simp only [List.cons.injEq] at e; exact absurd e.1 (ne _ (by decide))
    · unfold leadingNat
      rw [List.takeWhile_cons_of_neg (by simp [hdig])]
      rfl

theorem nodeValue_some {b : Bc K} (h : NodeAndValue stod toks b) : nodeValue stod toks = .ok (some (b.node, b.value)) := by
  obtain ⟨⟨f, h1, h2⟩, h3, g, h4, h5⟩ := h
  unfold nodeValue tokenInt tokenDouble
  rw [read_some h1, out_bind, stoi_numeral h2 h3, out_bind, read_some h4, out_bind, h5]
  rfl

theorem nodeValue_none {f : List Char} {c : Char} (h : toks[1]? = some f) (hc : f.head? = some c) (ha : c.isAlpha = true) :
    nodeValue stod toks = .ok none := by
  unfold nodeValue tokenInt
  rw [read_some h, out_bind, stoi_alpha hc ha]
  rfl

theorem loadDof_eq {l : List Char} {d : DofType} (h : LoadLabel l d) : loadDof l = .ok d := by
  unfold loadDof
  simp only [lift_iequals, out_bind, decide_eq_true_eq, show "HEAT".toList.map Char.toLower = "heat".toList by decide,
    show "FX".toList.map Char.toLower = "fx".toList by decide, show "FY".toList.map Char.toLower = "fy".toList by decide,
    show "FZ".toList.map Char.toLower = "fz".toList by decide]
  rcases h with ⟨h, rfl⟩ | ⟨h, rfl⟩ | ⟨h, rfl⟩ | ⟨h, rfl⟩ | ⟨h1, rfl⟩
  · rw [if_pos h]
  · rw [h, if_neg (by decide), if_pos rfl]
  · rw [h, if_neg (by decide), if_neg (by decide), if_pos rfl]
  · rw [h, if_neg (by decide), if_neg (by decide), if_neg (by decide), if_pos rfl]
  · rw [label2dof_ident d h1]
    cases d <;> first | exact absurd rfl h1 | rfl

end

/-- One command. -/
theorem command_written [Zero K] {stod : List Char → Out K} {lines : List (List Char)} {c : Cmd K} (h : Written stod lines c) :
    ∃ line rest f0, lines = line :: rest ∧ ∀ fuel, f0 ≤ fuel → ∀ (md : MeshData K) (is is' : Stream), Feeds is rest is' →
      (∀ x ∈ c.compList, ∀ y ∈ md.feComps, y.name ≠ x.name) → command stod fuel (tokensOf line) md is = .ok (plus md (mesh [c]), is') := by
  have hplus : ∀ md : MeshData K, plus md (mesh [.nothing]) = md := plus_nothing
  cases h with
  | comment line t ts h ht =>
    refine ⟨line, [], 0, rfl, fun fuel _ md is is' hf _ => ?_⟩
    obtain rfl := hf
    rw [tokensOf_eq h, hplus]
    unfold command
    rw [read_some (a := t) rfl, out_bind]
    rcases ht with h1 | h1 | h1
    · rw [if_pos h1]
    · rw [if_neg (by intro e; rw [e] at h1; simp at h1), if_pos h1]
    · rw [if_neg (by intro e; rw [e] at h1; simp at h1), if_neg (by rw [h1]; simp), if_pos h1]
  | other line t ts h ht =>
    refine ⟨line, [], 0, rfl, fun fuel _ md is is' hf _ => ?_⟩
    obtain rfl := hf
    rw [tokensOf_eq h, hplus]
    by_cases hc : t = [] ∨ t.head? = some '/' ∨ t.head? = some '!'
    · unfold command
      rw [read_some (a := t) rfl, out_bind]
      rcases hc with h1 | h1 | h1
      · rw [if_pos h1]
      · rw [if_neg (by intro e; rw [e] at h1; simp at h1), if_pos h1]
      · rw [if_neg (by intro e; rw [e] at h1; simp at h1), if_neg (by rw [h1]; simp), if_pos h1]
    · push Not at hc
      obtain ⟨c1, c2, c3⟩ := hc
      simp only [keywords, List.mem_cons, List.not_mem_nil, or_false, forall_eq_or_imp, forall_eq] at ht
      obtain ⟨k1, k2, k3, k4, k5, k6, k7, k8, k9, k10⟩ := ht
      unfold command
      rw [read_some (a := t) rfl, out_bind, if_neg c1, if_neg c2, if_neg c3]
      simp only [lift_iequals, out_bind, decide_eq_true_eq, show "NBLOCK".toList.map Char.toLower = "nblock".toList by decide,
        show "EBLOCK".toList.map Char.toLower = "eblock".toList by decide, show "D".toList.map Char.toLower = "d".toList by decide,
        show "CE".toList.map Char.toLower = "ce".toList by decide, show "CMBLOCK".toList.map Char.toLower = "cmblock".toList by decide,
        show "ET".toList.map Char.toLower = "et".toList by decide, show "ETYPE".toList.map Char.toLower = "etype".toList by decide,
        show "TYPE".toList.map Char.toLower = "type".toList by decide, show "F".toList.map Char.toLower = "f".toList by decide,
        show "*set".toList.map Char.toLower = "*set".toList by decide]
      rw [if_neg k1, if_neg k2, if_neg k3, if_neg k4, if_neg k5, if_neg k6, if_neg k7, if_neg k8, if_neg k9, if_neg k10]
  | etype line key hk toks h f hf hn =>
    refine ⟨line, [], 0, rfl, fun fuel _ md is is' hfe _ => ?_⟩
    obtain rfl := hfe
    obtain ⟨h1, t, h2, h3⟩ := h
    have he : etcmd toks = .ok () := by
      unfold etcmd tokenInt
      rw [read_some hf, out_bind]
      rcases hn with ⟨n, hn⟩ | ⟨c, hc1, hc2⟩
      · rw [stoi_field hn]
      · rw [stoi_alpha hc1 hc2]
    rw [tokensOf_eq h1, hplus]
    rcases hk with rfl | rfl | rfl
    · rw [command_key h2 h3 ⟨'e', "t".toList, rfl, by decide, by decide⟩, if_neg (by decide), if_neg (by decide), if_neg (by decide),
        if_neg (by decide), if_neg (by decide), if_pos rfl, he]
      rfl
    · rw [command_key h2 h3 ⟨'e', "type".toList, rfl, by decide, by decide⟩, if_neg (by decide), if_neg (by decide), if_neg (by decide),
        if_neg (by decide), if_neg (by decide), if_neg (by decide), if_pos rfl, he]
      rfl
    · rw [command_key h2 h3 ⟨'t', "ype".toList, rfl, by decide, by decide⟩, if_neg (by decide), if_neg (by decide), if_neg (by decide),
        if_neg (by decide), if_neg (by decide), if_neg (by decide), if_neg (by decide), if_pos rfl, he]
      rfl
  | set line toks h f g hf hg x hx =>
    refine ⟨line, [], 0, rfl, fun fuel _ md is is' hfe _ => ?_⟩
    obtain rfl := hfe
    obtain ⟨h1, t, h2, h3⟩ := h
    rw [tokensOf_eq h1, hplus, command_key h2 h3 ⟨'*', "set".toList, rfl, by decide, by decide⟩, if_neg (by decide), if_neg (by decide),
      if_neg (by decide), if_neg (by decide), if_neg (by decide), if_neg (by decide), if_neg (by decide), if_neg (by decide), if_neg (by decide),
      if_pos rfl]
    unfold setcmd tokenDouble
    rw [read_some hf, out_bind, read_some hg, out_bind, hx]
    rfl
  | nblock line toks h fmt n w m v hf hw hv lines nodes hl last hlast =>
    refine ⟨line, _, nodes.length + 1, rfl, fun fuel hfuel md is is' hfe _ => ?_⟩
    obtain ⟨h1, t, h2, h3⟩ := h
    rw [tokensOf_eq h1, command_key h2 h3 ⟨'n', "block".toList, rfl, by decide, by decide⟩, if_pos rfl,
      C71_nodes stod fmt n w m v hf hw hv lines nodes hl last hlast is is' hfe md fuel hfuel]
    simp [plus, mesh, addNodes, Cmd.cellList, Cmd.nodeList, Cmd.loadList, Cmd.fixList, Cmd.eqnList, Cmd.compList]
  | eblock line toks h key fmt hkey isSolid hk n w hf hw lines cells hl last hlast =>
    refine ⟨line, _, cells.length + 1, rfl, fun fuel hfuel md is is' hfe _ => ?_⟩
    obtain ⟨h1, t, h2, h3⟩ := h
    rw [tokensOf_eq h1, command_key h2 h3 ⟨'e', "block".toList, rfl, by decide, by decide⟩, if_neg (by decide), if_pos rfl,
      C71_cells_partial toks key fmt hkey isSolid hk n w hf hw lines cells hl last hlast is is' hfe md fuel hfuel]
    simp [plus, mesh, addCells, Cmd.cellList, Cmd.nodeList, Cmd.loadList, Cmd.fixList, Cmd.eqnList, Cmd.compList]
  | fix line toks h b hb hd hl =>
    refine ⟨line, [], 0, rfl, fun fuel _ md is is' hfe _ => ?_⟩
    obtain rfl := hfe
    obtain ⟨h1, t, h2, h3⟩ := h
    rw [tokensOf_eq h1, command_key h2 h3 ⟨'d', [], rfl, by decide, by decide⟩, if_neg (by decide), if_neg (by decide), if_pos rfl]
    unfold dcmd
    rw [nodeValue_some hb, out_bind]
    simp only
    rw [read_some hl, out_bind, label2dof_ident _ hd, out_bind, out_bind]
    simp [plus, mesh, Cmd.cellList, Cmd.nodeList, Cmd.loadList, Cmd.fixList, Cmd.eqnList, Cmd.compList]
  | load line toks h b hb l hl hd =>
    refine ⟨line, [], 0, rfl, fun fuel _ md is is' hfe _ => ?_⟩
    obtain rfl := hfe
    obtain ⟨h1, t, h2, h3⟩ := h
    rw [tokensOf_eq h1, command_key h2 h3 ⟨'f', [], rfl, by decide, by decide⟩, if_neg (by decide), if_neg (by decide), if_neg (by decide),
      if_neg (by decide), if_neg (by decide), if_neg (by decide), if_neg (by decide), if_neg (by decide), if_pos rfl]
    unfold fcmd
    rw [nodeValue_some hb, out_bind]
    simp only
    rw [read_some hl, out_bind, loadDof_eq hd, out_bind, out_bind]
    simp [plus, mesh, Cmd.cellList, Cmd.nodeList, Cmd.loadList, Cmd.fixList, Cmd.eqnList, Cmd.compList]
  | setOfNodes line key hk toks h f hf hc =>
    refine ⟨line, [], 0, rfl, fun fuel _ md is is' hfe _ => ?_⟩
    obtain rfl := hfe
    obtain ⟨h1, t, h2, h3⟩ := h
    obtain ⟨c, hc1, hc2⟩ := hc
    rw [tokensOf_eq h1, hplus]
    rcases hk with rfl | rfl
    · rw [command_key h2 h3 ⟨'d', [], rfl, by decide, by decide⟩, if_neg (by decide), if_neg (by decide), if_pos rfl]
      unfold dcmd
      rw [nodeValue_none hf hc1 hc2]
      rfl
    · rw [command_key h2 h3 ⟨'f', [], rfl, by decide, by decide⟩, if_neg (by decide), if_neg (by decide), if_neg (by decide),
        if_neg (by decide), if_neg (by decide), if_neg (by decide), if_neg (by decide), if_neg (by decide), if_pos rfl]
      unfold fcmd
      rw [nodeValue_none hf hc1 hc2]
      rfl
  | ce line toks h b rows hh lines hrows hl hn =>
    refine ⟨line, _, 6, rfl, fun fuel hfuel md is is' hfe _ => ?_⟩
    obtain ⟨h1, t, h2, h3⟩ := h
    rw [tokensOf_eq h1, command_key h2 h3 ⟨'c', "e".toList, rfl, by decide, by decide⟩, if_neg (by decide), if_neg (by decide), if_neg (by decide),
      if_pos rfl, C56_terms_partial stod toks b rows lines is is' md hh hrows hl hfe hn fuel hfuel]
    simp [plus, mesh, Cmd.cellList, Cmd.nodeList, Cmd.loadList, Cmd.fixList, Cmd.eqnList, Cmd.compList]
  | cmblock line toks h name type items hok hh h1 hN fmt intNum w hf hw hI rows hrows hws hnum =>
    refine ⟨line, _, (items.flatMap Item.codes).length + 1, rfl, fun fuel hfuel md is is' hfe hcomp => ?_⟩
    obtain ⟨h2, t, h3, h4⟩ := h
    rw [tokensOf_eq h2, command_key h3 h4 ⟨'c', "mblock".toList, rfl, by decide, by decide⟩, if_neg (by decide), if_neg (by decide),
      if_neg (by decide), if_neg (by decide), if_pos rfl,
      C55_expand_partial toks name type items hok hh h1 hN fmt intNum w hf hw hI rows hrows hws hnum is is' hfe md fuel hfuel]
    unfold insertComp
    rw [if_neg]
    · simp [plus, mesh, Cmd.cellList, Cmd.nodeList, Cmd.loadList, Cmd.fixList, Cmd.eqnList, Cmd.compList]
    · simp only [List.any_eq_true, beq_iff_eq, not_exists, not_and]
      exact fun y hy => hcomp ⟨name, type, items.flatMap Item.members⟩ (by simp [Cmd.compList]) y hy
  | internal line toks h name hn hu =>
    refine ⟨line, [], 0, rfl, fun fuel _ md is is' hfe _ => ?_⟩
    obtain rfl := hfe
    obtain ⟨h1, t, h2, h3⟩ := h
    rw [tokensOf_eq h1, hplus, command_key h2 h3 ⟨'c', "mblock".toList, rfl, by decide, by decide⟩, if_neg (by decide), if_neg (by decide),
      if_neg (by decide), if_neg (by decide), if_pos rfl]
    unfold cmblock
    rw [read_some hn, out_bind, if_pos hu]

theorem cdbLoop_written [Zero K] (stod : List Char → Out K) (liness : List (List (List Char))) (cmds : List (Cmd K))
    (h : List.Forall₂ (Written stod) liness cmds) (is' : Stream) (hend : (getLine is').2.eof = true) : ∃ f0, ∀ fuel, f0 ≤ fuel →
      ∀ (md : MeshData K) (is : Stream), Feeds is liness.flatten is' → ((md.feComps ++ cmds.flatMap Cmd.compList).map Comp.name).Nodup →
        cdbLoop stod fuel md is = .ok (plus md (mesh cmds)) := by
  induction h with
  | nil =>
    refine ⟨1, fun fuel hfuel md is hf _ => ?_⟩
    obtain rfl : is = is' := hf
    obtain ⟨fuel, rfl⟩ : ∃ k, fuel = k + 1 := ⟨fuel - 1, by omega⟩
    unfold cdbLoop
    simp only [hend, if_true, plus_nil]
  | @cons lines c liness cmds hc _ ih =>
    obtain ⟨f1, hf1⟩ := ih
    obtain ⟨line, rest, f2, rfl, hf2⟩ := command_written hc
    refine ⟨max f1 f2 + 1, fun fuel hfuel md is hf hnd => ?_⟩
    obtain ⟨fuel, rfl⟩ : ∃ k, fuel = k + 1 := ⟨fuel - 1, by omega⟩
    rw [List.flatten_cons, List.cons_append] at hf
    obtain ⟨is1, g1, g2, g3⟩ := hf
    obtain ⟨is2, g4, g5⟩ := g3.split
    have hnew : ∀ x ∈ c.compList, ∀ y ∈ md.feComps, y.name ≠ x.name := by
      intro x hx y hy
      rw [List.flatMap_cons, List.map_append, List.nodup_append] at hnd
      exact hnd.2.2 _ (List.mem_map_of_mem hy) _ (List.mem_map_of_mem (by simp [hx]))
    unfold cdbLoop
    rw [g1]
    simp only [g2, Bool.false_eq_true, if_false]
    rw [hf2 fuel (by omega) md is1 is2 g4 hnew, out_bind]
    simp only
    rw [hf1 fuel (by omega) _ is2 g5 ?_, plus_mesh]
    simpa [plus, mesh] using hnd

/-- C71. A file that is written as specified is read as the mesh it describes, whatever its line ends. Missing for the full claim: elements
whose nodes continue on the next line, and what C54 to C56 and C58 exclude. -/
theorem C71_file_partial [Zero K] (stod : List Char → Out K) (liness : List (List (List Char))) (cmds : List (Cmd K))
    (h : List.Forall₂ (Written stod) liness cmds) (hnames : ((cmds.flatMap Cmd.compList).map Comp.name).Nodup)
    (ls : List (List Char × Ending)) (last : List Char) (hls : ∀ l ∈ ls, Plain l.1) (hlast : Plain last) (hm : NoMerge ls)
    (hlines : ls.map Prod.fst ++ (if last = [] then [] else [last]) = liness.flatten) :
    ∃ f0, ∀ fuel, f0 ≤ fuel → readCdb stod fuel (text ls ++ last) = .ok (mesh cmds) := by
  obtain ⟨is', h1, h2⟩ := feeds_readLines _ ⟨text ls ++ last, false⟩ le_rfl
  rw [C58_lines_partial ls last hls hlast hm, hlines] at h1
  obtain ⟨f0, hf0⟩ := cdbLoop_written stod liness cmds h is' h2
  refine ⟨f0, fun fuel hfuel => ?_⟩
  unfold readCdb
  rw [hf0 fuel hfuel MeshData.empty _ h1 (by simpa [MeshData.empty] using hnames), empty_plus]

theorem tokens_mk {line : List Char} (pieces : List (List Char)) (ds : List Char) {toks : List (List Char)} (h : Split [','] line pieces ds)
    (ht : pieces.map strim = toks) : Tokens line toks := by
  refine ⟨pieces, ds, h, ?_⟩
  subst ht
  clear h
  induction pieces with
  | nil => exact .nil
  | cons p ps ih => exact .cons ((C57_strim _ _).mp rfl) ih

/-- The hypotheses of `C71_file_partial`: a file with a comment, a block with one node, a fixed DoF and a component. -/
theorem file_example : ∃ f0, ∀ fuel, f0 ≤ fuel → readCdb (K := Int) (fun s => if s = " 1.5".toList then .ok 3 else .ok 0) fuel
    "! test\nNBLOCK,3\r\n(1i3,3e4.1)\n  7 1.5\nN,R5.3,LOC,-1,\nd,7,UX,0.\nCMBLOCK,A,NODE,1\n(2i2)\n 7".toList =
      .ok ⟨[], [], ⟨[], [], [], [], [], []⟩, [7], [(3, 0, 0)], [], [⟨7, .UX, 0⟩], [], [⟨"A".toList, .NODES, [7]⟩]⟩ := by
  have h := C71_file_partial (K := Int) (fun s => if s = " 1.5".toList then .ok 3 else .ok 0)
    [["! test".toList], ["NBLOCK,3".toList, "(1i3,3e4.1)".toList, "  7 1.5".toList, "N,R5.3,LOC,-1,".toList], ["d,7,UX,0.".toList],
      ["CMBLOCK,A,NODE,1".toList, "(2i2)".toList, " 7".toList]]
    [.nothing, .nodes [(7, 3, 0, 0)], .fix ⟨7, .UX, 0⟩, .comp ⟨"A".toList, .NODES, [7]⟩] ?_ (by decide)
    [("! test".toList, .LF), ("NBLOCK,3".toList, .CRLF), ("(1i3,3e4.1)".toList, .LF), ("  7 1.5".toList, .LF), ("N,R5.3,LOC,-1,".toList, .LF),
      ("d,7,UX,0.".toList, .LF), ("CMBLOCK,A,NODE,1".toList, .LF), ("(2i2)".toList, .LF)] " 7".toList (by unfold Plain; decide)
    (by unfold Plain; decide) (by simp [NoMerge]) rfl
  · exact h
  have seven : Numeral "7".toList 7 := ⟨[], [], "7".toList, [], rfl, by simp [Blanks], ⟨by decide, by decide⟩, by simp, .inl ⟨.inl rfl, by decide⟩⟩
  refine .cons ?_ (.cons ?_ (.cons ?_ (.cons ?_ .nil)))
  · exact .comment _ "! test".toList [] (tokens_mk ["! test".toList] [] (by unfold Split; decide) (by decide)) (.inr (.inr rfl))
  · refine .nblock _ ["NBLOCK".toList, "3".toList] ⟨tokens_mk ["NBLOCK".toList, "3".toList] [','] (by unfold Split; decide) (by decide), "NBLOCK".toList, rfl, by decide⟩ "(1i3,3e4.1)".toList 1 3 3 4 ?_ (by decide) (by decide) ["  7 1.5".toList] _
      (.cons ?_ .nil) _ (.inr ⟨[], _, rfl, by simp [Blanks], by decide, by decide⟩)
    · exact ⟨[], "1".toList, 'i', "3".toList, "3".toList, 'e', "4".toList, "1".toList, [], rfl, by simp [Blanks], by simp [Blanks],
        ⟨by decide, by decide⟩, ⟨by decide, by decide⟩, ⟨by decide, by decide⟩, ⟨by decide, by decide⟩, .inl rfl, .inl rfl, by decide, by decide,
        by decide, by decide, by decide, by decide, by decide, by decide, by decide, by decide⟩
    · exact ⟨"  7".toList, [], [" 1.5".toList], ⟨⟨2, by decide⟩, [], by decide, .inl rfl⟩, rfl,
        ⟨"  ".toList, [], "7".toList, [], rfl, by unfold Blanks; decide, ⟨by decide, by decide⟩, by simp, .inl ⟨.inl rfl, by decide⟩⟩, by decide,
        by decide, by simp [Coord], by simp [Coord], by simp [Coord]⟩
  · exact .fix _ ["d".toList, "7".toList, "UX".toList, "0.".toList] ⟨tokens_mk ["d".toList, "7".toList, "UX".toList, "0.".toList] [',', ',', ','] (by unfold Split; decide)
      (by decide), "d".toList, rfl, by decide⟩ _ ⟨⟨_, rfl, seven⟩, by decide, _, rfl, rfl⟩ (by decide) (by decide)
  · exact .cmblock _ ["CMBLOCK".toList, "A".toList, "NODE".toList, "1".toList]
      ⟨tokens_mk ["CMBLOCK".toList, "A".toList, "NODE".toList, "1".toList] [',', ',', ','] (by unfold Split; decide) (by decide), "CMBLOCK".toList, rfl, by decide⟩ "A".toList .NODES [.single 7] (by simp [Item.Ok])
      ⟨rfl, by decide, ⟨_, rfl, .inl ⟨by decide, rfl⟩⟩, ⟨_, rfl, [], [], "1".toList, [], rfl, by simp [Blanks], ⟨by decide, by decide⟩, by simp,
        .inl ⟨.inl rfl, by decide⟩⟩, by decide⟩ (by decide) (by decide) "(2i2)".toList 2 2
      ⟨[], "2".toList, 'i', "2".toList, [], rfl, by simp [Blanks], by simp [Blanks], ⟨by decide, by decide⟩, ⟨by decide, by decide⟩, .inl rfl,
        by decide, by decide, by decide, by decide⟩ (by decide) (by decide) [[" 7".toList]] (by simp [Rows]) (by simp)
      (.cons ⟨" ".toList, [], "7".toList, [], rfl, by unfold Blanks; decide, ⟨by decide, by decide⟩, by simp, .inl ⟨.inl rfl, by decide⟩⟩ .nil)

end Nla3d.Cdb
