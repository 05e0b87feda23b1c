import Verif.Cdb.Num
import Mathlib.Data.List.Forall2

/-!
# Property C71: nodes and elements of cdb files
-/

namespace Nla3d.Cdb

open Nla3d.Text

variable {K : Type}

/-- Specification: the line consists of the given fields. If a line contains all the fields of its format, more text may follow. -/
def FieldLine (line : List Char) (widths : List Nat) (fields : List (List Char)) : Prop :=
  (∃ k, fields.map List.length = widths.take k) ∧ ∃ extra, line = fields.flatten ++ extra ∧ (extra = [] ∨ fields.length = widths.length)

theorem ssplit_fields {line : List Char} {widths : List Nat} {fields : List (List Char)} (hw : ∀ w ∈ widths, 1 ≤ w)
    (h : FieldLine line widths fields) : ssplit line widths false = .ok fields := by
  obtain ⟨⟨k, h1⟩, extra, rfl, h2⟩ := h
  rw [(C57_ssplit _ _).1]
  by_cases hn : widths.length ≤ k
  · left
    rw [List.take_of_length_le hn] at h1
    exact ⟨h1, List.prefix_append _ _⟩
  · right
    have hl := congrArg List.length h1
    rw [List.length_map, List.length_take] at hl
    have he : extra = [] := by
      rcases h2 with h2 | h2
      · exact h2
      · omega
    subst he
    have hk : k < widths.length := by omega
    refine ⟨by simp, widths[k], widths.drop (k + 1), ?_, hw _ (List.getElem_mem _)⟩
    rw [h1, ← List.drop_eq_getElem_cons hk, List.take_append_drop]

/-- Specification: first character of the line that is neither blank nor tabulator. -/
def FirstChar (line : List Char) (c : Char) : Prop := ∃ sp r, line = sp ++ c :: r ∧ Blanks sp ∧ c ≠ ' ' ∧ c ≠ '\t'

theorem firstNotBlank_eq {line : List Char} {c : Char} (h : FirstChar line c) : sfirstNotBlank line = .ok c := by
  obtain ⟨sp, r, rfl, h1, h2⟩ := h
  have hs : ∀ c ∈ sp, isBlank c = true := fun c hc => (isBlank_iff c).mpr (h1 c hc)
  have hc : isBlank c = false := by
    cases hb : isBlank c with
    | false => rfl
    | true => rcases (isBlank_iff c).mp hb with h | h <;> simp [h] at h2
  rw [(C57_firstNotBlank _).1, strim_eq, List.dropWhile_append_of_pos hs, List.dropWhile_cons_of_neg (by simp [hc])]
  unfold List.rdropWhile
  rw [List.reverse_cons, List.dropWhile_append]
  split
  · rw [List.dropWhile_cons_of_neg (by simp [hc])]; rfl
  · simp

/-- The last line of a block. -/
def EndLine (line : List Char) : Prop := FirstChar line '-' ∨ FirstChar line 'N'

theorem numeral_first {f : List Char} {n : Nat} (h : Numeral f n) (h1 : 1 ≤ n) (rest : List Char) : ∃ c, FirstChar (f ++ rest) c ∧ c ≠ '-' ∧ c ≠ 'N' := by
  obtain ⟨sp, sg, ds, tl, rfl, h2, ⟨h3, h4⟩, h5, h6⟩ := h
  obtain ⟨d, ds, rfl⟩ : ∃ d ds', ds = d :: ds' := by
    cases ds with
    | nil => exact absurd rfl h3
    | cons d ds => exact ⟨d, ds, rfl⟩
  have hd := h4 d (by simp)
  have dne : ∀ c : Char, c.isDigit = false → d ≠ c := by
    intro c hc h
    rw [h, hc] at hd
    simp at hd
  rcases h6 with ⟨h6 | h6, _⟩ | ⟨_, h6⟩
  · subst h6
    exact ⟨d, ⟨sp, ds ++ tl ++ rest, by simp, h2, dne _ (by decide), dne _ (by decide)⟩, dne _ (by decide), dne _ (by decide)⟩
  · subst h6
    exact ⟨'+', ⟨sp, d :: ds ++ tl ++ rest, by simp, h2, by decide, by decide⟩, by decide, by decide⟩
  · omega

/-! ## Nodes -/

/-- Specification: the text of a coordinate; one that is not in the line is zero. -/
def Coord [Zero K] (stod : List Char → Out K) (f : Option (List Char)) (x : K) : Prop :=
  match f with
  | some f => stod f = .ok x
  | none => x = 0

/-- Specification: a line of NBLOCK in the format `(niw,mev.p)`: the node number, further integers, the coordinates. -/
def NodeLine [Zero K] (stod : List Char → Out K) (n w m v : Nat) (line : List Char) (node : Nat × K × K × K) : Prop :=
  ∃ f ints coords, FieldLine line (List.replicate n w ++ List.replicate m v) (f :: ints ++ coords) ∧ ints.length + 1 = n ∧
    Numeral f (node.1 : Int) ∧ 1 ≤ node.1 ∧ node.1 ≤ 2147483647 ∧
    Coord stod coords[0]? node.2.1 ∧ Coord stod coords[1]? node.2.2.1 ∧ Coord stod coords[2]? node.2.2.2

def addNodes (md : MeshData K) (nodes : List (Nat × K × K × K)) : MeshData K :=
  { md with nodesNumbers := md.nodesNumbers ++ nodes.map Prod.fst, nodesPos := md.nodesPos ++ nodes.map Prod.snd }

theorem posAt_eq [Zero K] {stod : List Char → Out K} {v : List (List Char)} {i : Nat} {x : K}
    (h : Coord stod v[i]? x) : posAt stod v i = .ok x := by
  unfold posAt
  unfold Coord at h
  cases hv : v[i]? with
  | none => rw [hv] at h; simp only at h; rw [h]
  | some f => rw [hv] at h; exact h

theorem field_first {line : List Char} {widths : List Nat} {f : List Char} {fs : List (List Char)} (h : FieldLine line widths (f :: fs)) {z : Nat}
    (hz : Numeral f z) (h1 : 1 ≤ z) : ∃ c, sfirstNotBlank line = .ok c ∧ ¬(c = '-' ∨ c = 'N') := by
  obtain ⟨_, extra, rfl, _⟩ := h
  rw [List.flatten_cons, List.append_assoc]
  obtain ⟨c, h2, h3, h4⟩ := numeral_first hz h1 (fs.flatten ++ extra)
  exact ⟨c, firstNotBlank_eq h2, by simp [h3, h4]⟩

theorem endLine_char {line : List Char} (h : EndLine line) : ∃ c, sfirstNotBlank line = .ok c ∧ (c = '-' ∨ c = 'N') := by
  rcases h with h | h
  · exact ⟨_, firstNotBlank_eq h, .inl rfl⟩
  · exact ⟨_, firstNotBlank_eq h, .inr rfl⟩

/-- C71. The nodes of a block are read, in their order, up to the end line. -/
theorem C71_nodes [Zero K] (stod : List Char → Out K) (fmt : List Char) (n w m v : Nat) (hf : NFormat fmt n w m v) (hw : 1 ≤ w) (hv : 1 ≤ v)
    (lines : List (List Char)) (nodes : List (Nat × K × K × K)) (hlines : List.Forall₂ (NodeLine stod n w m v) lines nodes)
    (last : List Char) (hlast : EndLine last) (is is' : Stream) (hfeed : Feeds is (fmt :: lines ++ [last]) is') (md : MeshData K) (fuel : Nat)
    (hfuel : nodes.length < fuel) : nblock stod fuel md is = .ok (addNodes md nodes, is') := by
  obtain ⟨is1, g1, _, g2⟩ := hfeed
  obtain ⟨A, B, C, D, m1, m2, m3, m4, m5⟩ := matchN_format hf
  unfold nblock
  rw [g1]
  simp only [m1, m2, m3, m4, m5, out_bind, Int.toNat_natCast]
  have hws : ∀ x ∈ List.replicate n w ++ List.replicate m v, 1 ≤ x := by
    intro x hx
    rw [List.mem_append, List.mem_replicate, List.mem_replicate] at hx
    omega
  clear g1 m1 m2 m3 m4 m5
  induction hlines generalizing is1 md fuel with
  | nil =>
    obtain ⟨is2, k1, k2, rfl⟩ := g2
    obtain ⟨fuel, rfl⟩ : ∃ k, fuel = k + 1 := ⟨fuel - 1, by omega⟩
    obtain ⟨c, c1, c2⟩ := endLine_char hlast
    unfold nblockLoop
    rw [k1]
    simp only [k2, Bool.false_eq_true, if_false, c1]
    rw [show lift (Res.ok c) = .ok c from rfl, out_bind, if_pos c2]
    simp [addNodes]
  | @cons line node lines nodes hl _ ih =>
    obtain ⟨is2, k1, k2, k3⟩ := g2
    obtain ⟨fuel, rfl⟩ : ∃ k, fuel = k + 1 := ⟨fuel - 1, by omega⟩
    obtain ⟨f, ints, coords, q1, q2, q3, q4, q5, q6, q7, q8⟩ := hl
    obtain ⟨c, c1, c2⟩ := field_first q1 q3 q4
    unfold nblockLoop
    rw [k1]
    simp only [k2, Bool.false_eq_true, if_false, c1]
    rw [show lift (Res.ok c) = .ok c from rfl, out_bind, if_neg c2, ssplit_fields hws q1]
    have hget : ∀ i, (f :: ints ++ coords)[n + i]? = coords[i]? := by
      intro i
      rw [← q2, List.getElem?_append_right (by simp only [List.length_cons]; omega)]
      congr 1
      simp only [List.length_cons]; omega
    rw [show lift (Res.ok (f :: ints ++ coords)) = .ok (f :: ints ++ coords) from rfl, out_bind, read_some (a := f) (by simp), out_bind,
      stoi_numeral q3 (by omega), out_bind, posAt_eq (i := n) (by rw [show n = n + 0 by omega, hget]; exact q6), out_bind,
      posAt_eq (i := n + 1) (by rw [hget]; exact q7), out_bind, posAt_eq (i := n + 2) (by rw [hget]; exact q8), out_bind, toU32_nat q5]
    rw [ih _ fuel (by simp at hfuel; omega) is2 k2 k3]
    simp [addNodes]

/-- A blank line in a block of nodes is undefined behaviour. -/
theorem C71_blank_violated [Zero K] (stod : List Char → Out K) (fmt : List Char) (n w m v : Nat) (hf : NFormat fmt n w m v) (line : List Char)
    (hl : Blanks line) (is is' : Stream) (hfeed : Feeds is [fmt, line] is') (md : MeshData K) (fuel : Nat) :
    nblock stod (fuel + 1) md is = .error .ub := by
  obtain ⟨is1, g1, _, is2, g2, g3, rfl⟩ := hfeed
  obtain ⟨A, B, C, D, m1, m2, m3, m4, m5⟩ := matchN_format hf
  unfold nblock
  rw [g1]
  simp only [m1, m2, m3, m4, m5, out_bind, Int.toNat_natCast]
  unfold nblockLoop
  rw [g2]
  have : sfirstNotBlank line = .ub := by
    rw [(C57_firstNotBlank _).2, C57_strim]
    exact ⟨line, [], by simp, hl, by simp, by simp, by simp⟩
  simp only [g3, Bool.false_eq_true, if_false, this]
  rfl

/-! ## Elements -/

/-- Specification: an element. -/
structure Cell where
  number : Nat
  type : Nat
  mat : Nat
  real : Nat
  sect : Nat
  cs : Nat
  shape : Nat
  nodes : List Nat

/-- Specification: a field with a non-negative number. -/
def Field (f : List Char) (n : Nat) : Prop := Numeral f (n : Int) ∧ n ≤ 2147483647

/-- Specification: a line of EBLOCK with SOLID in the format `(niw)`. -/
def SolidLine (n w : Nat) (line : List Char) (c : Cell) : Prop :=
  ∃ f0 f1 f2 f3 f4 f5 f6 f7 f8 f9 f10 fs,
    FieldLine line (List.replicate n w) ([f0, f1, f2, f3, f4, f5, f6, f7, f8, f9, f10] ++ fs) ∧
    Field f0 c.mat ∧ Field f1 c.type ∧ Field f2 c.real ∧ Field f3 c.sect ∧ Field f4 c.cs ∧ Field f7 c.shape ∧
    Field f8 c.nodes.length ∧ Field f10 c.number ∧ List.Forall₂ Field fs c.nodes ∧ 1 ≤ c.mat

/-- Specification: a line of EBLOCK without SOLID. -/
def ShellLine (n w : Nat) (line : List Char) (c : Cell) : Prop :=
  ∃ f0 f1 f2 f3 f4 fs, FieldLine line (List.replicate n w) ([f0, f1, f2, f3, f4] ++ fs) ∧
    Field f0 c.number ∧ Field f1 c.type ∧ Field f2 c.real ∧ Field f3 c.mat ∧ Field f4 c.cs ∧ List.Forall₂ Field fs c.nodes ∧
    c.sect = 0 ∧ c.shape = 0 ∧ 1 ≤ c.number

def addCells (md : MeshData K) (cells : List Cell) : MeshData K :=
  { md with
    cellNumbers := md.cellNumbers ++ cells.map Cell.number
    cellNodes := md.cellNodes ++ cells.map Cell.nodes
    cellInt := ⟨md.cellInt.mat ++ cells.map Cell.mat, md.cellInt.real ++ cells.map Cell.real, md.cellInt.sect ++ cells.map Cell.sect,
      md.cellInt.cs ++ cells.map Cell.cs, md.cellInt.shape ++ cells.map Cell.shape, md.cellInt.type ++ cells.map Cell.type⟩ }

theorem stoi_field {f : List Char} {n : Nat} (h : Field f n) : stoi f = .ok (n : Int) := stoi_numeral h.1 (by have := h.2; omega)

theorem readNodes_eq {fs : List (List Char)} {nodes : List Nat} (h : List.Forall₂ Field fs nodes) : ∀ (pre done : List (List Char)) (out : List Nat),
    readNodes (pre ++ done ++ fs) pre.length done.length nodes.length out = .ok (out ++ nodes) := by
  induction h with
  | nil => intro pre done out; simp [readNodes]
  | @cons f n fs nodes hf _ ih =>
    intro pre done out
    rw [List.length_cons]
    unfold readNodes
    rw [read_some (a := f) (by rw [List.getElem?_append_right (by simp)]; simp), out_bind, stoi_field hf, out_bind, toU32_nat hf.2]
    have := ih pre (done ++ [f]) (out ++ [n])
    rw [List.length_append, List.length_singleton] at this
    simpa using this

/-- The line says what it should. -/
def Says (isSolid : Bool) (v : List (List Char)) (c : Cell) : Prop :=
  ∃ e, elineFields isSolid v = .ok e ∧ v.length = e.st + e.nNodes ∧ readNodes v e.st 0 e.nNodes [] = .ok c.nodes ∧
    e.mat = c.mat ∧ e.etype = c.type ∧ e.real = c.real ∧ e.sect = c.sect ∧ e.cs = c.cs ∧ e.shape = c.shape ∧ e.number = c.number

theorem solid_says {n w : Nat} {line : List Char} {c : Cell} (h : SolidLine n w line c) : ∃ v, FieldLine line (List.replicate n w) v ∧
    Says true v c ∧ ∃ ch, sfirstNotBlank line = .ok ch ∧ ¬(ch = '-' ∨ ch = 'N') := by
  obtain ⟨f0, f1, f2, f3, f4, f5, f6, f7, f8, f9, f10, fs, h1, a0, a1, a2, a3, a4, a7, a8, a10, hn, hm⟩ := h
  refine ⟨_, h1, ⟨⟨c.mat, c.type, c.real, c.sect, c.cs, c.shape, c.nodes.length, c.number, 11⟩, ?_, ?_, ?_, rfl, rfl, rfl, rfl, rfl, rfl, rfl⟩,
    field_first h1 a0.1 hm⟩
  · unfold elineFields
    simp only [if_true, List.cons_append, List.nil_append, read, List.getElem?_cons_zero, List.getElem?_cons_succ, out_bind, stoi_field a0,
      stoi_field a1, stoi_field a2, stoi_field a3, stoi_field a4, stoi_field a7, stoi_field a8, stoi_field a10, toU32_nat a0.2, toU32_nat a1.2,
      toU32_nat a2.2, toU32_nat a3.2, toU32_nat a4.2, toU32_nat a7.2, toU32_nat a8.2, toU32_nat a10.2]
  · simp only [List.length_append, List.length_cons, List.length_nil, hn.length_eq]
  · have := readNodes_eq hn [f0, f1, f2, f3, f4, f5, f6, f7, f8, f9, f10] [] []
    simpa using this

theorem shell_says {n w : Nat} {line : List Char} {c : Cell} (h : ShellLine n w line c) : ∃ v, FieldLine line (List.replicate n w) v ∧
    Says false v c ∧ ∃ ch, sfirstNotBlank line = .ok ch ∧ ¬(ch = '-' ∨ ch = 'N') := by
  obtain ⟨f0, f1, f2, f3, f4, fs, h1, a0, a1, a2, a3, a4, hn, hs, hp, hm⟩ := h
  refine ⟨_, h1, ⟨⟨c.mat, c.type, c.real, 0, c.cs, 0, ([f0, f1, f2, f3, f4] ++ fs).length - 5, c.number, 5⟩, ?_, ?_, ?_, rfl, rfl, rfl, hs.symm, rfl,
    hp.symm, rfl⟩, field_first h1 a0.1 hm⟩
  · unfold elineFields
    simp only [Bool.false_eq_true, if_false, List.cons_append, List.nil_append, read, List.getElem?_cons_zero, List.getElem?_cons_succ, out_bind,
      stoi_field a0, stoi_field a1, stoi_field a2, stoi_field a3, stoi_field a4, toU32_nat a0.2, toU32_nat a1.2,
      toU32_nat a2.2, toU32_nat a3.2, toU32_nat a4.2]
  · simp only [List.length_append, List.length_cons, List.length_nil]; omega
  · have := readNodes_eq hn [f0, f1, f2, f3, f4] [] []
    rw [show ([f0, f1, f2, f3, f4] ++ fs).length - 5 = c.nodes.length by simp [hn.length_eq]]
    simpa using this

/-- C71. The elements of a block are read, in their order, up to the end line. -/
theorem C71_cells_partial (toks : List (List Char)) (key fmt : List Char) (hkey : toks[2]? = some key) (isSolid : Bool)
    (hk : isSolid = true ↔ key.map Char.toLower = "solid".toList) (n w : Nat) (hf : IFormat fmt n w) (hw : 1 ≤ w) (lines : List (List Char))
    (cells : List Cell) (hlines : List.Forall₂ (if isSolid then SolidLine n w else ShellLine n w) lines cells)
    (last : List Char) (hlast : EndLine last) (is is' : Stream) (hfeed : Feeds is (fmt :: lines ++ [last]) is') (md : MeshData K) (fuel : Nat)
    (hfuel : cells.length < fuel) : eblock toks fuel md is = .ok (addCells md cells, is') := by
  obtain ⟨is1, g1, _, g2⟩ := hfeed
  obtain ⟨A, B, m1, m2, m3⟩ := matchI_format hf
  have hs : decide (key.map Char.toLower = "SOLID".toList.map Char.toLower) = isSolid := by
    rw [show "SOLID".toList.map Char.toLower = "solid".toList by decide]
    cases isSolid with
    | true => simpa using hk
    | false => simpa using hk
  unfold eblock
  rw [read_some hkey, out_bind, lift_iequals, out_bind, hs, g1]
  simp only [m1, m2, m3, out_bind, Int.toNat_natCast]
  have hws : ∀ x ∈ List.replicate n w, 1 ≤ x := by
    intro x hx
    rw [List.mem_replicate] at hx
    omega
  have hsays : List.Forall₂ (fun line c => ∃ v, FieldLine line (List.replicate n w) v ∧ Says isSolid v c ∧
      ∃ ch, sfirstNotBlank line = .ok ch ∧ ¬(ch = '-' ∨ ch = 'N')) lines cells := by
    refine hlines.imp ?_
    intro l c h
    cases isSolid with
    | true => exact solid_says h
    | false => exact shell_says h
  clear g1 m1 m2 m3 hlines hs hk
  induction hsays generalizing is1 md fuel with
  | nil =>
    obtain ⟨is2, k1, k2, rfl⟩ := g2
    obtain ⟨fuel, rfl⟩ : ∃ k, fuel = k + 1 := ⟨fuel - 1, by omega⟩
    obtain ⟨c, c1, c2⟩ := endLine_char hlast
    unfold eblockLoop
    rw [k1]
    simp only [k2, Bool.false_eq_true, if_false, c1]
    rw [show lift (Res.ok c) = .ok c from rfl, out_bind, if_pos c2]
    simp [addCells]
  | @cons line cell lines cells hl _ ih =>
    obtain ⟨is2, k1, k2, k3⟩ := g2
    obtain ⟨fuel, rfl⟩ : ∃ k, fuel = k + 1 := ⟨fuel - 1, by omega⟩
    obtain ⟨v, q1, ⟨e, e1, e2, e3, e4⟩, c, c1, c2⟩ := hl
    unfold eblockLoop
    rw [k1]
    simp only [k2, Bool.false_eq_true, if_false, c1]
    rw [show lift (Res.ok c) = .ok c from rfl, out_bind, if_neg c2, ssplit_fields hws q1]
    rw [show lift (Res.ok v) = .ok v from rfl, out_bind, e1, out_bind, if_neg (by simpa using e2), e3, out_bind,
      ih _ fuel (by simp at hfuel; omega) is2 k2 k3]
    obtain ⟨e4, e5, e6, e7, e8, e9, e10⟩ := e4
    simp [addCells, pushCell, e4, e5, e6, e7, e8, e9, e10]

/-- C71 is violated by elements whose nodes continue on the next line: with SOLID the program stops. -/
theorem C71_solid_violated (toks : List (List Char)) (key fmt : List Char) (hkey : toks[2]? = some key)
    (hk : key.map Char.toLower = "solid".toList) (n w : Nat) (hf : IFormat fmt n w) (hw : 1 ≤ w) (line : List Char)
    (f0 f1 f2 f3 f4 f5 f6 f7 f8 f9 f10 : List Char) (fs : List (List Char)) (c : Cell)
    (hl : FieldLine line (List.replicate n w) ([f0, f1, f2, f3, f4, f5, f6, f7, f8, f9, f10] ++ fs))
    (hs : Field f0 c.mat ∧ Field f1 c.type ∧ Field f2 c.real ∧ Field f3 c.sect ∧ Field f4 c.cs ∧ Field f7 c.shape ∧
      Field f8 c.nodes.length ∧ Field f10 c.number) (hm : 1 ≤ c.mat) (hmore : fs.length < c.nodes.length)
    (is is' : Stream) (hfeed : Feeds is [fmt, line] is') (md : MeshData K) (fuel : Nat) :
    eblock toks (fuel + 1) md is = .error .fatal := by
  obtain ⟨is1, g1, _, is2, g2, g3, rfl⟩ := hfeed
  obtain ⟨A, B, m1, m2, m3⟩ := matchI_format hf
  obtain ⟨a0, a1, a2, a3, a4, a7, a8, a10⟩ := hs
  have hws : ∀ x ∈ List.replicate n w, 1 ≤ x := by
    intro x hx
    rw [List.mem_replicate] at hx
    omega
  have hd : decide (key.map Char.toLower = "SOLID".toList.map Char.toLower) = true := by
    rw [hk]; decide
  unfold eblock
  rw [read_some hkey, out_bind, lift_iequals, out_bind, hd, g1]
  simp only [m1, m2, m3, out_bind, Int.toNat_natCast]
  unfold eblockLoop
  rw [g2]
  obtain ⟨ch, c1, c2⟩ := field_first hl a0.1 hm
  simp only [g3, Bool.false_eq_true, if_false, c1]
  rw [show lift (Res.ok ch) = .ok ch from rfl, out_bind, if_neg c2, ssplit_fields hws hl]
  have he : elineFields true ([f0, f1, f2, f3, f4, f5, f6, f7, f8, f9, f10] ++ fs) =
      .ok ⟨c.mat, c.type, c.real, c.sect, c.cs, c.shape, c.nodes.length, c.number, 11⟩ := by
    unfold elineFields
    simp only [if_true, List.cons_append, List.nil_append, read, List.getElem?_cons_zero, List.getElem?_cons_succ, out_bind, stoi_field a0,
      stoi_field a1, stoi_field a2, stoi_field a3, stoi_field a4, stoi_field a7, stoi_field a8, stoi_field a10, toU32_nat a0.2, toU32_nat a1.2,
      toU32_nat a2.2, toU32_nat a3.2, toU32_nat a4.2, toU32_nat a7.2, toU32_nat a8.2, toU32_nat a10.2]
  show ((.ok _ : Out (List (List Char))) >>= _) = _
  rw [out_bind, he, out_bind, if_pos]
  simp; omega

/-- Without SOLID the continuation is taken for another element, and less than five numbers in it are undefined behaviour. -/
theorem C71_shell_violated (toks : List (List Char)) (key fmt : List Char) (hkey : toks[2]? = some key)
    (hk : key.map Char.toLower ≠ "solid".toList) (n w : Nat) (hf : IFormat fmt n w) (hw : 1 ≤ w) (line next : List Char) (c : Cell)
    (hl : ShellLine n w line c) (fs : List (List Char)) (ns : List Nat) (hn : FieldLine next (List.replicate n w) fs)
    (hns : List.Forall₂ Field fs ns) (hpos : ∀ x ∈ ns, 1 ≤ x) (h1 : 1 ≤ ns.length) (h4 : ns.length ≤ 4)
    (is is' : Stream) (hfeed : Feeds is [fmt, line, next] is') (md : MeshData K) (fuel : Nat) :
    eblock toks (fuel + 2) md is = .error .ub := by
  obtain ⟨is1, g1, _, is2, g2, g3, is3, g4, g5, rfl⟩ := hfeed
  obtain ⟨A, B, m1, m2, m3⟩ := matchI_format hf
  have hws : ∀ x ∈ List.replicate n w, 1 ≤ x := by
    intro x hx
    rw [List.mem_replicate] at hx
    omega
  have hd : decide (key.map Char.toLower = "SOLID".toList.map Char.toLower) = false := by
    rw [show "SOLID".toList.map Char.toLower = "solid".toList by decide]
    simpa using hk
  unfold eblock
  rw [read_some hkey, out_bind, lift_iequals, out_bind, hd, g1]
  simp only [m1, m2, m3, out_bind, Int.toNat_natCast]
  obtain ⟨v, q1, ⟨e, e1, e2, e3, _⟩, ch, c1, c2⟩ := shell_says hl
  unfold eblockLoop
  rw [g2]
  simp only [g3, Bool.false_eq_true, if_false, c1]
  rw [show lift (Res.ok ch) = .ok ch from rfl, out_bind, if_neg c2, ssplit_fields hws q1]
  rw [show lift (Res.ok v) = .ok v from rfl, out_bind, e1, out_bind, if_neg (by simpa using e2), e3, out_bind]
  unfold eblockLoop
  rw [g4]
  have hfs : fs.length ≤ 4 := by rw [hns.length_eq]; exact h4
  cases hns with
  | nil => simp at h1
  | @cons f x fs ns hf0 hrest =>
    obtain ⟨ch, c1, c2⟩ := field_first hn hf0.1 (hpos x (by simp))
    simp only [g5, Bool.false_eq_true, if_false, c1]
    rw [show lift (Res.ok ch) = .ok ch from rfl, out_bind, if_neg c2, ssplit_fields hws hn]
    show ((.ok _ : Out (List (List Char))) >>= _) = _
    rw [out_bind]
    have he : elineFields false (f :: fs) = .error .ub := by
      unfold elineFields
      rw [if_neg (by simp)]
      cases hrest with
      | nil => simp [read, stoi_field hf0]
      | cons b1 hrest => cases hrest with
        | nil => simp [read, stoi_field hf0, stoi_field b1]
        | cons b2 hrest => cases hrest with
          | nil => simp [read, stoi_field hf0, stoi_field b1, stoi_field b2]
          | cons b3 hrest => cases hrest with
            | nil => simp [read, stoi_field hf0, stoi_field b1, stoi_field b2, stoi_field b3]
            | cons b4 hrest => simp only [List.length_cons] at hfs; omega
    rw [he]
    rfl

end Nla3d.Cdb
