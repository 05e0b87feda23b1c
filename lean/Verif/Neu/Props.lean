import Verif.Neu.Model
import Verif.Cdb.Num
import Mathlib.Data.Fin.VecNotation

/-!
# Netgen neutral files: what the reader makes of them (C89, C90)
-/

namespace Nla3d.Neu

open Nla3d.Cdb (Out Stop isSpace digitsVal inInt toU32 Comp CompType Digits value digitsVal_eq digit_not_space takeWhile_digits)

/-! ## Specification: the file format -/

/-- A tetrahedron of the file: the number of its subdomain and its nodes. -/
structure Tet where
  mat : Nat
  nodes : Fin 4 → Nat

/-- A boundary triangle of the file: the label of its surface and its nodes. -/
structure Face where
  label : List Char
  nodes : Fin 3 → Nat

/-- What a neutral file says. -/
structure Net (K : Type) where
  points : List (K × K × K)
  tets : List Tet
  faces : List Face

inductive Tok (K : Type) where
  | int (z : Int)
  | real (x : K)
  | word (w : List Char)

/-- The words of the file in their order: three counted sections. -/
def Net.toks {K : Type} (a : Net K) : List (Tok K) :=
  .int a.points.length :: a.points.flatMap (fun p => [.real p.1, .real p.2.1, .real p.2.2]) ++
  (.int a.tets.length :: a.tets.flatMap (fun t => [.int t.mat, .int (t.nodes 0), .int (t.nodes 1), .int (t.nodes 2), .int (t.nodes 3)]) ++
  .int a.faces.length :: a.faces.flatMap (fun s => [.word s.label, .int (s.nodes 0), .int (s.nodes 1), .int (s.nodes 2)]))

/-- White space: blank, tabs, new line, form feed, carriage return. -/
def White (c : Char) : Prop := c = ' ' ∨ c = '\t' ∨ c = '\n' ∨ c = '\x0b' ∨ c = '\x0c' ∨ c = '\r'

/-- `w` is a notation of the word; notations of real numbers are given by `R`. -/
def Shows {K : Type} (R : List Char → K → Prop) : Tok K → List Char → Prop
  | .int z, w => ∃ sg ds, w = sg ++ ds ∧ Digits ds ∧ ((sg = [] ∨ sg = ['+']) ∧ z = value ds ∨ sg = ['-'] ∧ z = -(value ds : Int))
  | .real x, w => R w x
  | .word v, w => w = v ∧ v ≠ [] ∧ ∀ c ∈ v, ¬ White c

/-- `s` consists of notations of the words, with any white space around them. -/
def Written {K : Type} (R : List Char → K → Prop) : List (Tok K) → List Char → Prop
  | [], s => ∀ c ∈ s, White c
  | t :: ts, s => ∃ sp w r, s = sp ++ (w ++ r) ∧ (∀ c ∈ sp, White c) ∧ Shows R t w ∧ (∀ c, r.head? = some c → White c) ∧ Written R ts r

/-- `dbl` reads every notation of a real number, when white space or the end of the text follows. -/
def ReadsReals {K : Type} (R : List Char → K → Prop) (dbl : List Char → K × Bool × List Char) : Prop :=
  ∀ w x r, R w x → (∀ c, r.head? = some c → White c) → (∃ c v, w = c :: v ∧ ¬ White c) ∧ dbl (w ++ r) = (x, false, r)

/-- All numbers are in the range of the variables they are read into. -/
def Net.Fits {K : Type} (a : Net K) : Prop :=
  a.points.length ≤ 2147483647 ∧ a.tets.length ≤ 2147483647 ∧ a.faces.length ≤ 2147483647 ∧
  (∀ t ∈ a.tets, t.mat ≤ 2147483647 ∧ ∀ k, t.nodes k ≤ 4294967295) ∧ ∀ s ∈ a.faces, ∀ k, s.nodes k ≤ 2147483647

/-- The components hold, under each label of a face and under no other name, the nodes of the faces with that label, in file order. -/
def Grouped (faces : List Face) (comps : List Comp) : Prop :=
  (comps.map (·.name)).Nodup ∧ (∀ n, n ∈ comps.map (·.name) ↔ ∃ s ∈ faces, s.label = n) ∧
  ∀ c ∈ comps, c.list = (faces.filter (fun s => s.label = c.name)).flatMap (fun s => [s.nodes 0, s.nodes 1, s.nodes 2])

/-- The mesh data say what the file says. -/
def Same {K : Type} (a : Net K) (d : Mesh K) : Prop :=
  d.nodesNumbers = List.range' 1 a.points.length ∧ d.nodesPos = a.points ∧
  d.cellNumbers = List.range' 1 a.tets.length ∧ d.cellNodes = a.tets.map (fun t => List.ofFn t.nodes) ∧
  d.mat = a.tets.map (·.mat) ∧ Grouped a.faces d.feComps

/-! ## Words -/

theorem white_iff (c : Char) : isSpace c = true ↔ White c := by
  unfold isSpace White
  simp [List.contains_cons]

theorem not_white (c : Char) (h : ¬ White c) : isSpace c = false := by
  rw [← white_iff] at h
  simpa using h

theorem digit_not_white {c : Char} (h : White c) : c.isDigit = false := by
  rcases h with rfl | rfl | rfl | rfl | rfl | rfl <;> decide

theorem drop_white {sp r : List Char} (h : ∀ c ∈ sp, White c) : (sp ++ r).dropWhile isSpace = r.dropWhile isSpace :=
  List.dropWhile_append_of_pos (fun c hc => (white_iff c).2 (h c hc))

theorem all_white {s : List Char} (h : ∀ c ∈ s, White c) : s.dropWhile isSpace = [] :=
  List.dropWhile_eq_nil_iff.2 (fun c hc => (white_iff c).2 (h c hc))

/-- The stream stands before the words; with `fail` set no words are left. -/
def Before {K : Type} (R : List Char → K → Prop) (f : In) (ts : List (Tok K)) : Prop :=
  f.fail = true ∧ ts = [] ∨ f.fail = false ∧ Written R ts f.rest

section
variable {K : Type} {R : List Char → K → Prop} {dbl : List Char → K × Bool × List Char}

theorem Before.sentry_nil {f : In} (h : Before R f []) : f.sentry = none := by
  unfold In.sentry
  rcases h with ⟨h, _⟩ | ⟨h, hw⟩
  · simp [h]
  · rw [all_white hw]; simp

theorem Before.failed (f : In) : Before R { f with fail := true } [] := Or.inl ⟨rfl, rfl⟩

theorem Before.sentry {f : In} {t : Tok K} {ts} (h : Before R f (t :: ts))
    (hn : ∀ w, Shows R t w → ∃ c v, w = c :: v ∧ isSpace c = false) :
    ∃ w r, f.sentry = some (w ++ r) ∧ Shows R t w ∧ (∀ c, r.head? = some c → White c) ∧ Written R ts r := by
  rcases h with ⟨_, h⟩ | ⟨hf, sp, w, r, hs, hsp, hw, hr, ht⟩
  · cases h
  · refine ⟨w, r, ?_, hw, hr, ht⟩
    unfold In.sentry
    obtain ⟨c, v, rfl, hc⟩ := hn w hw
    rw [hs, drop_white hsp]
    simp [hf, hc]

theorem int_head {z : Int} {w : List Char} (h : Shows R (.int z) w) : ∃ c v, w = c :: v ∧ isSpace c = false := by
  obtain ⟨sg, ds, rfl, hd, h⟩ := h
  rcases h with ⟨rfl | rfl, _⟩ | ⟨rfl, _⟩
  · cases ds with
    | nil => exact absurd rfl hd.1
    | cons c v => exact ⟨c, v, rfl, digit_not_space (hd.2 c (by simp))⟩
  · exact ⟨'+', ds, rfl, by decide⟩
  · exact ⟨'-', ds, rfl, by decide⟩

theorem sign_digits {ds r : List Char} (h : Digits ds) : sign (ds ++ r) = (false, ds ++ r) := by
  cases ds with
  | nil => exact absurd rfl h.1
  | cons c v =>
    have hc := h.2 c (by simp)
    have h1 : c ≠ '-' := by rintro rfl; revert hc; decide
    have h2 : c ≠ '+' := by rintro rfl; revert hc; decide
    unfold sign
    simp only [List.cons_append]
    split
    · rename_i e; exact absurd (List.cons.inj e).1 h1
    · rename_i e; exact absurd (List.cons.inj e).1 h2
    · rfl

/-- What `sign` and the scan for digits make of a notation of an integer. -/
theorem int_parts {z : Int} {w r : List Char} (h : Shows R (.int z) w) (hr : ∀ c, r.head? = some c → White c) :
    ∃ neg ds, sign (w ++ r) = (neg, ds ++ r) ∧ ds ≠ [] ∧ (ds ++ r).takeWhile Char.isDigit = ds ∧ (ds ++ r).dropWhile Char.isDigit = r ∧
      z = if neg = true then -(digitsVal ds : Int) else digitsVal ds := by
  obtain ⟨sg, ds, rfl, hd, h⟩ := h
  have ht := takeWhile_digits (tl := r) hd (fun c hc => digit_not_white (hr c hc))
  rcases h with ⟨rfl | rfl, rfl⟩ | ⟨rfl, rfl⟩
  · exact ⟨false, ds, by simpa using sign_digits hd, hd.1, ht.1, ht.2, by simp [digitsVal_eq]⟩
  · exact ⟨false, ds, by simp [sign], hd.1, ht.1, ht.2, by simp [digitsVal_eq]⟩
  · exact ⟨true, ds, by simp [sign], hd.1, ht.1, ht.2, by simp [digitsVal_eq]⟩

theorem int_word {f : In} {z : Int} {ts} (h : Before R f (.int z :: ts)) (hz : -2147483648 ≤ z ∧ z ≤ 2147483647) :
    ∃ f', f.int = (some z, f') ∧ Before R f' ts := by
  obtain ⟨w, r, hs, hw, hr, ht⟩ := h.sentry (fun _ => int_head)
  obtain ⟨neg, ds, h1, h2, h3, h4, h5⟩ := int_parts hw hr
  refine ⟨⟨r, false⟩, ?_, Or.inr ⟨rfl, ht⟩⟩
  unfold In.int
  simp only [hs, h1, h3, h4]
  rw [if_neg (by simpa using h2), ← h5, if_pos (by unfold inInt; simpa using hz)]

theorem uint_word {f : In} {n : Nat} {ts} (h : Before R f (.int n :: ts)) (hn : n ≤ 4294967295) :
    ∃ f', f.uint = (some n, f') ∧ Before R f' ts := by
  obtain ⟨w, r, hs, hw, hr, ht⟩ := h.sentry (fun _ => int_head)
  obtain ⟨neg, ds, h1, h2, h3, h4, h5⟩ := int_parts hw hr
  refine ⟨⟨r, false⟩, ?_, Or.inr ⟨rfl, ht⟩⟩
  unfold In.uint
  simp only [hs, h1, h3, h4]
  rw [if_neg (by simpa using h2)]
  cases neg with
  | false =>
    have : n = digitsVal ds := by simpa using h5
    rw [if_pos (by omega)]
    simp [this]
  | true =>
    have : n = 0 ∧ digitsVal ds = 0 := by simp at h5; omega
    rw [if_pos (by omega)]
    simp [this, toU32]

theorem double_word (hd : ReadsReals R dbl) {f : In} {x : K} {ts} (h : Before R f (.real x :: ts)) :
    ∃ f', f.double dbl = (some x, f') ∧ Before R f' ts := by
  obtain ⟨w, r, hs, hw, hr, ht⟩ := h.sentry (fun w hw => by
    obtain ⟨c, v, e, hc⟩ := (hd w x [] hw (by simp)).1
    exact ⟨c, v, e, not_white c hc⟩)
  refine ⟨⟨r, false⟩, ?_, Or.inr ⟨rfl, ht⟩⟩
  unfold In.double
  simp only [hs, (hd w x r hw hr).2]

theorem word_word {f : In} {v : List Char} {ts} (h : Before R f (.word v :: ts)) (old : List Char) :
    ∃ f', f.word old = (v, f') ∧ Before R f' ts := by
  obtain ⟨w, r, hs, hw, hr, ht⟩ := h.sentry (fun w hw => by
    obtain ⟨rfl, hv, hn⟩ := hw
    cases w with
    | nil => exact absurd rfl hv
    | cons c u => exact ⟨c, u, rfl, not_white c (hn c (by simp))⟩)
  obtain ⟨rfl, hv, hn⟩ := hw
  refine ⟨⟨r, false⟩, ?_, Or.inr ⟨rfl, ht⟩⟩
  have hp : ∀ c ∈ w, (!isSpace c) = true := fun c hc => by simp [not_white c (hn c hc)]
  unfold In.word
  simp only [hs]
  rw [List.takeWhile_append_of_pos hp, List.dropWhile_append_of_pos hp]
  cases r with
  | nil => simp
  | cons c r =>
    have := (white_iff c).2 (hr c rfl)
    simp [List.takeWhile_cons, List.dropWhile_cons, this]

theorem Before.int_nil {f : In} (h : Before R f []) : f.int = (none, { f with fail := true }) := by
  unfold In.int; rw [h.sentry_nil]

theorem Before.uint_nil {f : In} (h : Before R f []) : f.uint = (none, { f with fail := true }) := by
  unfold In.uint; rw [h.sentry_nil]

theorem Before.double_nil {f : In} (h : Before R f []) : f.double dbl = (none, { f with fail := true }) := by
  unfold In.double; rw [h.sentry_nil]

theorem Before.word_nil {f : In} (h : Before R f []) (old : List Char) : f.word old = (old, { f with fail := true }) := by
  unfold In.word; rw [h.sentry_nil]

/-! ## Sections -/

variable [Zero K]

theorem nodes_read (hd : ReadsReals R dbl) (ps : List (K × K × K)) : ∀ (i : Nat) (f : In) (ts : List (Tok K)),
    Before R f (ps.flatMap (fun p => [.real p.1, .real p.2.1, .real p.2.2]) ++ ts) →
    ∃ f', nodes dbl ps.length i f = (List.range' (i + 1) ps.length, ps, f') ∧ Before R f' ts := by
  induction ps with
  | nil => intro i f ts h; exact ⟨f, rfl, h⟩
  | cons p ps ih =>
    intro i f ts h
    simp only [List.flatMap_cons, List.cons_append, List.nil_append] at h
    obtain ⟨f1, e1, h1⟩ := double_word hd h
    obtain ⟨f2, e2, h2⟩ := double_word hd h1
    obtain ⟨f3, e3, h3⟩ := double_word hd h2
    obtain ⟨f4, e4, h4⟩ := ih (i + 1) f3 ts h3
    refine ⟨f4, ?_, h4⟩
    simp only [List.length_cons, nodes, e1, e2, e3, e4, Option.getD_some, List.range'_succ]

theorem toU32_small {n : Nat} (h : n ≤ 4294967295) : toU32 (n : Int) = n := by
  unfold toU32; omega

theorem cells_read (tets : List Tet) : ∀ (i : Nat) (e : Nat × Nat × Nat × Nat) (f : In) (ts : List (Tok K)),
    (∀ t ∈ tets, t.mat ≤ 2147483647 ∧ ∀ k, t.nodes k ≤ 4294967295) →
    Before R f (tets.flatMap (fun t => [.int t.mat, .int (t.nodes 0), .int (t.nodes 1), .int (t.nodes 2), .int (t.nodes 3)]) ++ ts) →
    ∃ f', cells tets.length i e f =
      .ok (List.range' (i + 1) tets.length, tets.map (fun t => List.ofFn t.nodes), tets.map (·.mat), f') ∧ Before R f' ts := by
  induction tets with
  | nil => intro i e f ts _ h; exact ⟨f, rfl, h⟩
  | cons t tets ih =>
    intro i e f ts hr h
    obtain ⟨hm, hk⟩ := hr t (by simp)
    simp only [List.flatMap_cons, List.cons_append, List.nil_append] at h
    obtain ⟨f0, e0, h0⟩ := int_word h (by omega)
    obtain ⟨f1, e1, h1⟩ := uint_word h0 (hk 0)
    obtain ⟨f2, e2, h2⟩ := uint_word h1 (hk 1)
    obtain ⟨f3, e3, h3⟩ := uint_word h2 (hk 2)
    obtain ⟨f4, e4, h4⟩ := uint_word h3 (hk 3)
    obtain ⟨f5, e5, h5⟩ := ih (i + 1) (t.nodes 0, t.nodes 1, t.nodes 2, t.nodes 3) f4 ts (fun u hu => hr u (by simp [hu])) h4
    refine ⟨f5, ?_, h5⟩
    obtain ⟨a, b, c, d⟩ := e
    simp only [List.length_cons, cells, e0, used, e1, e2, e3, e4, Option.getD_some, e5, Cdb.out_bind, List.range'_succ, List.map_cons,
      toU32_small (show t.mat ≤ 4294967295 by omega)]
    simp [List.ofFn_succ]

/-- The components after the faces were added one by one. -/
def group (comps : List Comp) (faces : List Face) : List Comp :=
  faces.foldl (fun cs s => push s.label [s.nodes 0, s.nodes 1, s.nodes 2] cs) comps

omit [Zero K] in
theorem surfaces_read (faces : List Face) : ∀ (comps : List Comp) (f : In) (ts : List (Tok K)),
    (∀ s ∈ faces, ∀ k, s.nodes k ≤ 2147483647) →
    Before R f (faces.flatMap (fun s => [.word s.label, .int (s.nodes 0), .int (s.nodes 1), .int (s.nodes 2)]) ++ ts) →
    surfaces faces.length comps f = .ok (group comps faces) := by
  induction faces with
  | nil => intro comps f ts _ _; rfl
  | cons s faces ih =>
    intro comps f ts hr h
    have hk := hr s (by simp)
    simp only [List.flatMap_cons, List.cons_append, List.nil_append] at h
    obtain ⟨f0, e0, h0⟩ := word_word h []
    obtain ⟨f1, e1, h1⟩ := int_word h0 (by have := hk 0; omega)
    obtain ⟨f2, e2, h2⟩ := int_word h1 (by have := hk 1; omega)
    obtain ⟨f3, e3, h3⟩ := int_word h2 (by have := hk 2; omega)
    have hs : ∀ k, toU32 (s.nodes k : Int) = s.nodes k := fun k => toU32_small (by have := hk k; omega)
    simp only [List.length_cons, surfaces, e0, e1, e2, e3, used, Cdb.out_bind, hs]
    exact ih _ f3 ts (fun u hu => hr u (by simp [hu])) h3

theorem push_names (name : List Char) (ns : List Nat) (cs : List Comp) :
    (push name ns cs).map (·.name) = if name ∈ cs.map (·.name) then cs.map (·.name) else cs.map (·.name) ++ [name] := by
  induction cs with
  | nil => simp [push]
  | cons c cs ih =>
    unfold push
    by_cases h : c.name = name
    · simp [h]
    · have h' : name ≠ c.name := fun e => h e.symm
      rw [if_neg h, List.map_cons, ih]
      by_cases h2 : name ∈ cs.map (·.name)
      · rw [if_pos h2, if_pos (by simp only [List.map_cons, List.mem_cons]; exact Or.inr h2)]; rfl
      · rw [if_neg h2, if_neg (by simp only [List.map_cons, List.mem_cons]; rintro (e | e); exacts [h' e, h2 e])]; rfl

theorem push_mem (name : List Char) (ns : List Nat) (cs : List Comp) (hn : (cs.map (·.name)).Nodup) : ∀ c ∈ push name ns cs,
    (c ∈ cs ∧ c.name ≠ name) ∨ (c.name = name ∧ ∃ c' ∈ cs, c'.name = name ∧ c = { c' with list := c'.list ++ ns }) ∨
    (c = ⟨name, .ELEMENTS, ns⟩ ∧ name ∉ cs.map (·.name)) := by
  induction cs with
  | nil => intro c hc; simp [push] at hc; simp [hc]
  | cons d cs ih =>
    intro c hc
    rw [List.map_cons, List.nodup_cons] at hn
    unfold push at hc
    by_cases h : d.name = name
    · rw [if_pos h] at hc
      rcases List.mem_cons.1 hc with rfl | hc
      · exact Or.inr (Or.inl ⟨h, d, by simp, h, rfl⟩)
      · refine Or.inl ⟨by simp [hc], fun e => hn.1 ?_⟩
        rw [h, ← e]; exact List.mem_map_of_mem hc
    · rw [if_neg h] at hc
      rcases List.mem_cons.1 hc with rfl | hc
      · exact Or.inl ⟨by simp, h⟩
      · rcases ih hn.2 c hc with ⟨h1, h2⟩ | ⟨h1, c', h2, h3, h4⟩ | ⟨h1, h2⟩
        · exact Or.inl ⟨by simp [h1], h2⟩
        · exact Or.inr (Or.inl ⟨h1, c', by simp [h2], h3, h4⟩)
        · refine Or.inr (Or.inr ⟨h1, ?_⟩)
          simp only [List.map_cons, List.mem_cons]
          rintro (e | e)
          exacts [h e.symm, h2 e]

theorem group_grouped (faces : List Face) : Grouped faces (group [] faces) ∧ ∀ c ∈ group [] faces, c.type = .ELEMENTS := by
  induction faces using List.reverseRecOn with
  | nil => simp [group, Grouped]
  | append_singleton faces s ih =>
    obtain ⟨⟨hn, hm, hl⟩, ht⟩ := ih
    have hg : group [] (faces ++ [s]) = push s.label [s.nodes 0, s.nodes 1, s.nodes 2] (group [] faces) := by
      simp [group, List.foldl_append]
    rw [hg]
    have hp := push_mem s.label [s.nodes 0, s.nodes 1, s.nodes 2] _ hn
    have hnames := push_names s.label [s.nodes 0, s.nodes 1, s.nodes 2] (group [] faces)
    refine ⟨⟨?_, ?_, ?_⟩, ?_⟩
    · rw [hnames]
      split
      · exact hn
      · rename_i h
        exact List.nodup_append.2 ⟨hn, by simp, by rintro a ha b hb rfl; simp at hb; exact h (hb ▸ ha)⟩
    · intro n
      rw [hnames]
      have e : (∃ u ∈ faces ++ [s], u.label = n) ↔ (∃ u ∈ faces, u.label = n) ∨ s.label = n := by
        constructor
        · rintro ⟨u, hu, e⟩
          rcases List.mem_append.1 hu with hu | hu
          · exact Or.inl ⟨u, hu, e⟩
          · simp at hu; exact Or.inr (hu ▸ e)
        · rintro (⟨u, hu, e⟩ | e)
          · exact ⟨u, by simp [hu], e⟩
          · exact ⟨s, by simp, e⟩
      rw [e, ← hm]
      split
      · rename_i h
        constructor
        · exact Or.inl
        · rintro (e | rfl); exacts [e, h]
      · simp only [List.mem_append, List.mem_singleton, eq_comm]
    · intro c hc
      rw [List.filter_append, List.flatMap_append]
      rcases hp c hc with ⟨h1, h2⟩ | ⟨h1, c', h2, h3, rfl⟩ | ⟨rfl, h2⟩
      · rw [hl c h1]; simp [List.filter_cons, h2.symm]
      · simp only [hl c' h2, h3]; simp
      · have : faces.filter (fun u => u.label = s.label) = [] := by
          rw [List.filter_eq_nil_iff]
          intro u hu h
          exact h2 ((hm s.label).2 ⟨u, hu, by simpa using h⟩)
        simp [this]
    · intro c hc
      rcases hp c hc with ⟨h1, h2⟩ | ⟨h1, c', h2, h3, rfl⟩ | ⟨rfl, h2⟩
      · exact ht c h1
      · exact ht c' h2
      · rfl

/-! ## C89 -/

/-- What a well-formed file becomes. -/
theorem read_written (hd : ReadsReals R dbl) (a : Net K) (ha : a.Fits) (s : List Char) (hs : Written R a.toks s) :
    readNeuFile dbl (some ⟨s, false⟩) = .ok (some ⟨List.range' 1 a.points.length, a.points, List.range' 1 a.tets.length,
      a.tets.map (fun t => List.ofFn t.nodes), a.tets.map (·.mat), group [] a.faces⟩) := by
  obtain ⟨hp, ht, hf, hT, hF⟩ := ha
  have h : Before R ⟨s, false⟩ a.toks := Or.inr ⟨rfl, hs⟩
  unfold Net.toks at h
  rw [List.cons_append] at h
  obtain ⟨f0, e0, h0⟩ := int_word h (by omega)
  obtain ⟨f1, e1, h1⟩ := nodes_read hd a.points 0 f0 _ h0
  rw [List.cons_append] at h1
  obtain ⟨f2, e2, h2⟩ := int_word h1 (by omega)
  obtain ⟨f3, e3, h3⟩ := cells_read a.tets 0 (0, 0, 0, 0) f2 _ hT h2
  obtain ⟨f4, e4, h4⟩ := int_word h3 (by omega)
  have e5 := surfaces_read a.faces [] f4 [] hF (by rw [List.append_nil]; exact h4)
  have n1 : ¬ ((a.points.length : Int) < 0) := by omega
  have n2 : ¬ ((a.tets.length : Int) < 0) := by omega
  simp only [readNeuFile, e0, used, Cdb.out_bind, if_neg n1, Int.toNat_natCast, e1, e2, if_neg n2, e3, e4, e5]

/-- **C89**: every mesh, written in the format with any white space, is read back: nodes with the numbers from one on, tetrahedra with
their materials, and under each surface label the nodes of its triangles. -/
theorem C89_partial (hd : ReadsReals R dbl) (a : Net K) (ha : a.Fits) (s : List Char) (hs : Written R a.toks s) :
    ∃ d, readNeuFile dbl (some ⟨s, false⟩) = .ok (some d) ∧ Same a d :=
  ⟨_, read_written hd a ha s hs, rfl, rfl, rfl, rfl, rfl, (group_grouped a.faces).1⟩

/-- **C89**, the part that does not hold: lists of node numbers should be components of type NODES. Every component that is read
from any well-formed file is declared as a list of elements. -/
theorem C89_type_violated (hd : ReadsReals R dbl) (a : Net K) (ha : a.Fits) (s : List Char) (hs : Written R a.toks s) :
    ∃ d, readNeuFile dbl (some ⟨s, false⟩) = .ok (some d) ∧ Grouped a.faces d.feComps ∧ ∀ c ∈ d.feComps, c.type ≠ .NODES := by
  refine ⟨_, read_written hd a ha s hs, (group_grouped a.faces).1, fun c hc e => ?_⟩
  rw [(group_grouped a.faces).2 c hc] at e
  cases e

/-! ## C90 -/

/-- A proper beginning. -/
def Cut {α : Type} (p t : List α) : Prop := ∃ q, q ≠ [] ∧ p ++ q = t

theorem Cut.nil {α : Type} {t : List α} (h : t ≠ []) : Cut [] t := ⟨t, h, rfl⟩

theorem Cut.cons {α : Type} {p t : List α} {x : α} (h : Cut p (x :: t)) : p = [] ∨ ∃ p', p = x :: p' ∧ Cut p' t := by
  obtain ⟨q, hq, e⟩ := h
  cases p with
  | nil => exact Or.inl rfl
  | cons y p => simp only [List.cons_append, List.cons.injEq] at e; exact Or.inr ⟨p, by rw [e.1], q, hq, e.2⟩

omit [Zero K] in
theorem int_cut {f : In} {z : Int} {p ts : List (Tok K)} (h : Before R f p) (hc : Cut p (.int z :: ts))
    (hz : -2147483648 ≤ z ∧ z ≤ 2147483647) : f.int.1 = none ∨ ∃ f' p', f.int = (some z, f') ∧ Before R f' p' ∧ Cut p' ts := by
  rcases hc.cons with rfl | ⟨p', rfl, hc'⟩
  · rw [h.int_nil]; exact Or.inl rfl
  · obtain ⟨f', e, h'⟩ := int_word h hz
    exact Or.inr ⟨f', p', e, h', hc'⟩

omit [Zero K] in
theorem uint_cut {f : In} {n : Nat} {p ts : List (Tok K)} (h : Before R f p) (hc : Cut p (.int n :: ts)) (hn : n ≤ 4294967295)
    (ht : ts ≠ []) : ∃ p', Before R f.uint.2 p' ∧ Cut p' ts := by
  rcases hc.cons with rfl | ⟨p', rfl, hc'⟩
  · rw [h.uint_nil]; exact ⟨[], .failed f, .nil ht⟩
  · obtain ⟨f', e, h'⟩ := uint_word h hn
    rw [e]; exact ⟨p', h', hc'⟩

omit [Zero K] in
theorem double_cut (hd : ReadsReals R dbl) {f : In} {x : K} {p ts : List (Tok K)} (h : Before R f p) (hc : Cut p (.real x :: ts))
    (ht : ts ≠ []) : ∃ p', Before R (f.double dbl).2 p' ∧ Cut p' ts := by
  rcases hc.cons with rfl | ⟨p', rfl, hc'⟩
  · rw [h.double_nil]; exact ⟨[], .failed f, .nil ht⟩
  · obtain ⟨f', e, h'⟩ := double_word hd h
    rw [e]; exact ⟨p', h', hc'⟩

omit [Zero K] in
theorem word_cut {f : In} {v : List Char} {p ts : List (Tok K)} (h : Before R f p) (hc : Cut p (.word v :: ts))
    (ht : ts ≠ []) (old : List Char) : ∃ p', Before R (f.word old).2 p' ∧ Cut p' ts := by
  rcases hc.cons with rfl | ⟨p', rfl, hc'⟩
  · rw [h.word_nil]; exact ⟨[], .failed f, .nil ht⟩
  · obtain ⟨f', e, h'⟩ := word_word h old
    rw [e]; exact ⟨p', h', hc'⟩

theorem nodes_cut (hd : ReadsReals R dbl) (ps : List (K × K × K)) : ∀ (i : Nat) (f : In) (p ts : List (Tok K)), ts ≠ [] → Before R f p →
    Cut p (ps.flatMap (fun p => [.real p.1, .real p.2.1, .real p.2.2]) ++ ts) →
    ∃ p', Before R (nodes dbl ps.length i f).2.2 p' ∧ Cut p' ts := by
  induction ps with
  | nil => intro i f p ts _ h hc; exact ⟨p, h, hc⟩
  | cons x ps ih =>
    intro i f p ts ht h hc
    simp only [List.flatMap_cons, List.cons_append, List.nil_append] at hc
    obtain ⟨p1, h1, c1⟩ := double_cut hd h hc (by simp)
    obtain ⟨p2, h2, c2⟩ := double_cut hd h1 c1 (by simp)
    obtain ⟨p3, h3, c3⟩ := double_cut hd h2 c2 (by simp [ht])
    obtain ⟨p4, h4, c4⟩ := ih (i + 1) _ p3 ts ht h3 c3
    exact ⟨p4, h4, c4⟩

omit [Zero K] in
theorem cells_cut (tets : List Tet) : ∀ (i : Nat) (e : Nat × Nat × Nat × Nat) (f : In) (p ts : List (Tok K)), ts ≠ [] →
    (∀ t ∈ tets, t.mat ≤ 2147483647 ∧ ∀ k, t.nodes k ≤ 4294967295) → Before R f p →
    Cut p (tets.flatMap (fun t => [.int t.mat, .int (t.nodes 0), .int (t.nodes 1), .int (t.nodes 2), .int (t.nodes 3)]) ++ ts) →
    cells tets.length i e f = .error .ub ∨
      ∃ ns cs ms f' p', cells tets.length i e f = .ok (ns, cs, ms, f') ∧ Before R f' p' ∧ Cut p' ts := by
  induction tets with
  | nil => intro i e f p ts _ _ h hc; exact Or.inr ⟨[], [], [], f, p, rfl, h, hc⟩
  | cons t tets ih =>
    intro i e f p ts hts hr h hc
    obtain ⟨hm, hk⟩ := hr t (by simp)
    simp only [List.flatMap_cons, List.cons_append, List.nil_append] at hc
    obtain ⟨a, b, c, d⟩ := e
    rcases int_cut h hc (by omega) with e0 | ⟨f0, p0, e0, h0, c0⟩
    · left
      simp only [List.length_cons, cells, e0, used, Cdb.err_bind]
    · obtain ⟨p1, h1, c1⟩ := uint_cut h0 c0 (hk 0) (by simp)
      obtain ⟨p2, h2, c2⟩ := uint_cut h1 c1 (hk 1) (by simp)
      obtain ⟨p3, h3, c3⟩ := uint_cut h2 c2 (hk 2) (by simp)
      obtain ⟨p4, h4, c4⟩ := uint_cut h3 c3 (hk 3) (by simp [hts])
      rcases ih (i + 1) (f0.uint.1.getD a, f0.uint.2.uint.1.getD b, f0.uint.2.uint.2.uint.1.getD c, f0.uint.2.uint.2.uint.2.uint.1.getD d)
        _ p4 ts hts (fun u hu => hr u (by simp [hu])) h4 c4 with e5 | ⟨ns, cs, ms, f', p', e5, h5, c5⟩
      · left
        simp only [List.length_cons, cells, e0, used, Cdb.out_bind, e5, Cdb.err_bind]
      · right
        have e6 : ∃ ns cs ms, cells (t :: tets).length i (a, b, c, d) f = .ok (ns, cs, ms, f') := by
          simp only [List.length_cons, cells, e0, used, Cdb.out_bind, e5]
          exact ⟨_, _, _, rfl⟩
        obtain ⟨ns', cs', ms', e6⟩ := e6
        exact ⟨ns', cs', ms', f', p', e6, h5, c5⟩

omit [Zero K] in
theorem surfaces_cut (faces : List Face) : ∀ (comps : List Comp) (f : In) (p : List (Tok K)),
    (∀ s ∈ faces, ∀ k, s.nodes k ≤ 2147483647) → Before R f p →
    Cut p (faces.flatMap (fun s => [.word s.label, .int (s.nodes 0), .int (s.nodes 1), .int (s.nodes 2)])) →
    surfaces faces.length comps f = .error .ub := by
  induction faces with
  | nil =>
    rintro comps f p _ _ ⟨q, hq, e⟩
    exact absurd (List.append_eq_nil_iff.1 e).2 hq
  | cons s faces ih =>
    intro comps f p hr h hc
    have hk := hr s (by simp)
    simp only [List.flatMap_cons, List.cons_append, List.nil_append] at hc
    obtain ⟨p0, h0, c0⟩ := word_cut h hc (by simp) []
    rcases int_cut h0 c0 (by have := hk 0; omega) with e1 | ⟨f1, p1, e1, h1, c1⟩
    · simp only [List.length_cons, surfaces, e1, used, Cdb.err_bind]
    rcases int_cut h1 c1 (by have := hk 1; omega) with e2 | ⟨f2, p2, e2, h2, c2⟩
    · simp only [List.length_cons, surfaces, e1, e2, used, Cdb.err_bind, Cdb.out_bind]
    rcases int_cut h2 c2 (by have := hk 2; omega) with e3 | ⟨f3, p3, e3, h3, c3⟩
    · simp only [List.length_cons, surfaces, e1, e2, e3, used, Cdb.err_bind, Cdb.out_bind]
    simp only [List.length_cons, surfaces, e1, e2, e3, used, Cdb.out_bind]
    exact ih _ f3 p3 (fun u hu => hr u (by simp [hu])) h3 c3

/-- **C90**, violated for every mesh and every place: a file that ends too early is neither refused nor reported; a variable that was
never given a value decides what happens. -/
theorem C90_violated (hd : ReadsReals R dbl) (a : Net K) (ha : a.Fits) (p : List (Tok K)) (hc : Cut p a.toks) (s : List Char)
    (hs : Written R p s) : readNeuFile dbl (some ⟨s, false⟩) = .error .ub := by
  obtain ⟨hp, ht, hf, hT, hF⟩ := ha
  have h : Before R ⟨s, false⟩ p := Or.inr ⟨rfl, hs⟩
  unfold Net.toks at hc
  rw [List.cons_append] at hc
  have n1 : ¬ ((a.points.length : Int) < 0) := by omega
  have n2 : ¬ ((a.tets.length : Int) < 0) := by omega
  rcases int_cut h hc (by omega) with e0 | ⟨f0, p0, e0, h0, c0⟩
  · simp only [readNeuFile, e0, used, Cdb.err_bind]
  obtain ⟨p1, h1, c1⟩ := nodes_cut hd a.points 0 f0 p0 _ (by simp) h0 c0
  rw [List.cons_append] at c1
  rcases int_cut h1 c1 (by omega) with e2 | ⟨f2, p2, e2, h2, c2⟩
  · simp only [readNeuFile, e0, used, Cdb.out_bind, if_neg n1, Int.toNat_natCast, e2, Cdb.err_bind]
  rcases cells_cut a.tets 0 (0, 0, 0, 0) f2 p2 _ (by simp) hT h2 c2 with e3 | ⟨ns, cs, ms, f3, p3, e3, h3, c3⟩
  · simp only [readNeuFile, e0, used, Cdb.out_bind, if_neg n1, Int.toNat_natCast, e2, if_neg n2, e3, Cdb.err_bind]
  rcases int_cut h3 c3 (by omega) with e4 | ⟨f4, p4, e4, h4, c4⟩
  · simp only [readNeuFile, e0, used, Cdb.out_bind, if_neg n1, Int.toNat_natCast, e2, if_neg n2, e3, e4, Cdb.err_bind]
  have e5 := surfaces_cut a.faces [] f4 p4 hF h4 c4
  simp only [readNeuFile, e0, used, Cdb.out_bind, if_neg n1, Int.toNat_natCast, e2, if_neg n2, e3, e4, e5, Cdb.err_bind]

end

/-- **C90**, the part that holds: a file that cannot be opened is reported and the mesh is left alone. -/
theorem C90_partial {K : Type} [Zero K] (dbl : List Char → K × Bool × List Char) : readNeuFile dbl none = .ok none := rfl

/-! ## A file -/

/-- Whole numbers as real numbers. -/
def intDbl (s : List Char) : Int × Bool × List Char :=
  let (neg, r) := sign s
  let ds := r.takeWhile Char.isDigit
  (if neg then -(digitsVal ds : Int) else digitsVal ds, ds.isEmpty, r.dropWhile Char.isDigit)

def IntReal (w : List Char) (x : Int) : Prop := Shows (K := Int) (fun _ _ => False) (.int x) w

theorem intDbl_reads : ReadsReals IntReal intDbl := by
  intro w x r hw hr
  refine ⟨?_, ?_⟩
  · obtain ⟨c, v, e, hc⟩ := int_head hw
    exact ⟨c, v, e, fun h => by rw [(white_iff c).2 h] at hc; cases hc⟩
  · obtain ⟨neg, ds, h1, h2, h3, h4, h5⟩ := int_parts hw hr
    unfold intDbl
    simp only [h1, h3, h4]
    rw [h5]
    simp [h2]

def sample : Net Int :=
  ⟨[(0, 0, 0), (1, 0, 0), (0, 1, 0), (0, 0, -1)], [⟨7, ![1, 3, 2, 4]⟩],
    [⟨['b'], ![1, 2, 3]⟩, ⟨['2'], ![1, 2, 4]⟩, ⟨['b'], ![2, 3, 4]⟩]⟩

/-- Words with their notations and the white space behind them. -/
def sampleWords : List (Tok Int × List Char × List Char) :=
  [(.int 4, ['4'], ['\n', ' ']),
   (.real 0, ['0'], [' ']), (.real 0, ['0'], [' ']), (.real 0, ['-', '0'], ['\n']),
   (.real 1, ['1'], [' ']), (.real 0, ['0'], [' ']), (.real 0, ['0'], ['\n']),
   (.real 0, ['0'], [' ']), (.real 1, ['+', '1'], ['\t']), (.real 0, ['0'], ['\n']),
   (.real 0, ['0'], [' ']), (.real 0, ['0'], [' ']), (.real (-1), ['-', '1'], ['\r', '\n']),
   (.int 1, ['1'], ['\n']),
   (.int 7, ['7'], [' ']), (.int 1, ['1'], [' ']), (.int 3, ['0', '3'], [' ']), (.int 2, ['2'], [' ']), (.int 4, ['4'], ['\n']),
   (.int 3, ['3'], ['\n']),
   (.word ['b'], ['b'], [' ']), (.int 1, ['1'], [' ']), (.int 2, ['2'], [' ']), (.int 3, ['3'], ['\n']),
   (.word ['2'], ['2'], [' ']), (.int 1, ['1'], [' ']), (.int 2, ['2'], [' ']), (.int 4, ['4'], ['\n']),
   (.word ['b'], ['b'], [' ']), (.int 2, ['2'], [' ']), (.int 3, ['3'], [' ']), (.int 4, ['4'], ['\n'])]

def textOf (l : List (Tok Int × List Char × List Char)) : List Char := l.flatMap (fun x => x.2.1 ++ x.2.2)

def showsInt (z : Int) (w : List Char) : Bool :=
  let (neg, ds) := sign w
  !ds.isEmpty && ds.all Char.isDigit && z == (if neg then -(digitsVal ds : Int) else digitsVal ds)

def shows : Tok Int → List Char → Bool
  | .int z, w => showsInt z w
  | .real z, w => showsInt z w
  | .word v, w => w == v && !v.isEmpty && v.all (fun c => !isSpace c)

theorem showsInt_sound {R : List Char → Int → Prop} {z : Int} {w : List Char} (h : showsInt z w = true) : Shows R (.int z) w := by
  have e : ∃ sg ds, w = sg ++ ds ∧ (((sg = [] ∨ sg = ['+']) ∧ sign w = (false, ds)) ∨ (sg = ['-'] ∧ sign w = (true, ds))) := by
    unfold sign
    split
    · exact ⟨['-'], _, rfl, Or.inr ⟨rfl, rfl⟩⟩
    · exact ⟨['+'], _, rfl, Or.inl ⟨Or.inr rfl, rfl⟩⟩
    · exact ⟨[], _, rfl, Or.inl ⟨Or.inl rfl, rfl⟩⟩
  obtain ⟨sg, ds, e, e'⟩ := e
  refine ⟨sg, ds, e, ?_⟩
  unfold showsInt at h
  rcases e' with ⟨h1, h2⟩ | ⟨h1, h2⟩ <;> rw [h2] at h <;> simp [digitsVal_eq] at h
  · exact ⟨⟨h.1.1, h.1.2⟩, Or.inl ⟨h1, h.2⟩⟩
  · exact ⟨⟨h.1.1, h.1.2⟩, Or.inr ⟨h1, h.2⟩⟩

theorem shows_sound {t : Tok Int} {w : List Char} (h : shows t w = true) : Shows IntReal t w := by
  cases t with
  | int z => exact showsInt_sound h
  | real z => exact showsInt_sound (R := fun _ _ => False) h
  | word v =>
    simp only [shows, Bool.and_eq_true, beq_iff_eq, Bool.not_eq_true', List.all_eq_true] at h
    refine ⟨h.1.1, by simpa using h.1.2, fun c hc hw => ?_⟩
    have := h.2 c hc
    rw [(white_iff c).2 hw] at this
    cases this

theorem written_sound (l : List (Tok Int × List Char × List Char))
    (h : ∀ x ∈ l, shows x.1 x.2.1 = true ∧ x.2.2 ≠ [] ∧ ∀ c ∈ x.2.2, isSpace c = true) :
    ∀ sp : List Char, (∀ c ∈ sp, isSpace c = true) → Written IntReal (l.map (·.1)) (sp ++ textOf l) := by
  induction l with
  | nil => intro sp hsp c hc; exact (white_iff c).1 (hsp c (by simpa [textOf] using hc))
  | cons x l ih =>
    intro sp hsp
    obtain ⟨h1, h2, h3⟩ := h x (by simp)
    refine ⟨sp, x.2.1, x.2.2 ++ textOf l, by simp [textOf], fun c hc => (white_iff c).1 (hsp c hc), shows_sound h1, ?_, ?_⟩
    · intro c hc
      cases hx : x.2.2 with
      | nil => exact absurd hx h2
      | cons d r =>
        rw [hx] at hc h3
        simp at hc
        exact (white_iff c).1 (h3 c (by simp [hc]))
    · exact ih (fun y hy => h y (by simp [hy])) x.2.2 h3

theorem sample_shown : ∀ x ∈ sampleWords, shows x.1 x.2.1 = true ∧ x.2.2 ≠ [] ∧ ∀ c ∈ x.2.2, isSpace c = true := by decide

theorem sample_toks : sampleWords.map (·.1) = sample.toks := rfl

theorem sample_fits : sample.Fits := by
  unfold Net.Fits sample
  decide

/-- The hypotheses of `C89_partial` and `C89_type_violated` hold for a file with a tetrahedron and two surfaces. -/
example : ∃ d, readNeuFile intDbl (some ⟨textOf sampleWords, false⟩) = .ok (some d) ∧ Same sample d :=
  C89_partial intDbl_reads sample sample_fits _ (by
    have h := written_sound sampleWords sample_shown [] (by simp)
    rw [sample_toks] at h
    exact h)

theorem sample_read : readNeuFile intDbl (some ⟨textOf sampleWords, false⟩) =
    .ok (some ⟨[1, 2, 3, 4], sample.points, [1], [[1, 3, 2, 4]], [7],
      [⟨['b'], .ELEMENTS, [1, 2, 3, 2, 3, 4]⟩, ⟨['2'], .ELEMENTS, [1, 2, 4]⟩]⟩) := by
  decide

/-- **C90**, violated: the last node of the only face is not a number; the file is accepted and the face gets node 0. -/
theorem C90_malformed_violated : readNeuFile intDbl (some ⟨"0 0 1 b 1 2 x".toList, false⟩) =
    .ok (some ⟨[], [], [], [], [], [⟨['b'], .ELEMENTS, [1, 2, 0]⟩]⟩) := by
  decide

/-- The same file without its last ten words: the hypotheses of `C90_violated` hold. -/
example : readNeuFile intDbl (some ⟨textOf (sampleWords.take 22), false⟩) = .error .ub :=
  C90_violated intDbl_reads sample sample_fits ((sampleWords.take 22).map (·.1))
    ⟨(sampleWords.drop 22).map (·.1), by simp [sampleWords], by rw [← sample_toks, ← List.map_append, List.take_append_drop]⟩ _
    (written_sound (sampleWords.take 22) (fun x hx => sample_shown x (List.mem_of_mem_take hx)) [] (by simp))

end Nla3d.Neu
