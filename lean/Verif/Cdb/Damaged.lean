import Verif.Cdb.File

/-!
# Property C103: damaged cdb files
-/

namespace Nla3d.Cdb

open Nla3d.Text

variable {K : Type}

/-! ## Specification -/

/-- A format `(niw)` with any numbers, in either case and possibly between blanks. -/
def IForm (line : List Char) : Prop :=
  ∃ sp A c B tl, line = sp ++ ('(' :: A ++ c :: B ++ [')']) ++ tl ∧ Blanks sp ∧ Blanks tl ∧ Digits A ∧ Digits B ∧ (c = 'i' ∨ c = 'I')

/-- A format `(niw,mev.p)` with any numbers. -/
def NForm (line : List Char) : Prop :=
  ∃ sp A c B C e D P tl, line = sp ++ ('(' :: A ++ c :: B ++ ',' :: C ++ e :: D ++ '.' :: P ++ [')']) ++ tl ∧ Blanks sp ∧ Blanks tl ∧
    Digits A ∧ Digits B ∧ Digits C ∧ Digits D ∧ (c = 'i' ∨ c = 'I') ∧ (e = 'e' ∨ e = 'E') ∧
    P ≠ [] ∧ ∀ x ∈ P, x.isDigit = true ∨ x = 'e' ∨ x = 'E'

/-- A block with a second line that is not the format it should be. -/
def BadBlock (line fmt : List Char) : Prop :=
  (∃ toks, Header line "nblock" toks ∧ ¬ NForm fmt) ∨
  (∃ toks key, Header line "eblock" toks ∧ toks[2]? = some key ∧ ¬ IForm fmt) ∨
  ∃ toks name type n, Header line "cmblock" toks ∧ CmHead toks name type n ∧ ¬ IForm fmt

/-- The beginning of a block: its header, its format with fields of the widths `ws`, and lines that say `c`. -/
inductive Begun [Zero K] (stod : List Char → Out K) : List Nat → List (List Char) → Cmd K → Prop where
  | nblock (line : List Char) (toks : List (List Char)) (h : Header line "nblock" toks) (fmt : List Char) (n w m v : Nat)
      (hf : NFormat fmt n w m v) (hw : 1 ≤ w) (hv : 1 ≤ v) (lines : List (List Char)) (nodes : List (Nat × K × K × K))
      (hl : List.Forall₂ (NodeLine stod n w m v) lines nodes) :
      Begun stod (List.replicate n w ++ List.replicate m v) (line :: fmt :: lines) (.nodes nodes)
  | eblock (line : List Char) (toks : List (List Char)) (h : Header line "eblock" toks) (key fmt : List Char) (hkey : toks[2]? = some key)
      (isSolid : Bool) (hk : isSolid = true ↔ key.map Char.toLower = "solid".toList) (n w : Nat) (hf : IFormat fmt n w) (hw : 1 ≤ w)
      (lines : List (List Char)) (cells : List Cell) (hl : List.Forall₂ (if isSolid then SolidLine n w else ShellLine n w) lines cells) :
      Begun stod (List.replicate n w) (line :: fmt :: lines) (.cells cells)

/-- A line that ends inside one of its fields, and is not the last line of a block. -/
def Torn (ws : List Nat) (line : List Char) : Prop :=
  (∃ sp c r, line = sp ++ c :: r ∧ Blanks sp ∧ c ≠ ' ' ∧ c ≠ '\t' ∧ c ≠ '-' ∧ c ≠ 'N') ∧ line.length < ws.sum ∧ ∀ k, line.length ≠ (ws.take k).sum

/-! ## Format lines -/

theorem lower_cases (c : Char) : c.toLower = c ∨ (65 ≤ c.toNat ∧ c.toNat ≤ 90 ∧ c.toLower.toNat = c.toNat + 32) := by
  unfold Char.toLower
  split
  · rename_i h
    obtain ⟨h1, h2⟩ := h
    right
    have h1 := UInt32.le_iff_toNat_le.mp h1
    have h2 := UInt32.le_iff_toNat_le.mp h2
    simp only [Char.toNat] at *
    simp at h1 h2
    refine ⟨h1, h2, ?_⟩
    rw [UInt32.toNat_add]
    simp
    omega
  · exact .inl rfl

theorem lower_other {c d : Char} (h : c.toLower = d) (hd : d.toNat < 97 ∨ 122 < d.toNat) : c = d := by
  rcases lower_cases c with e | ⟨e1, e2, e3⟩
  · rw [← h, e]
  · rw [h] at e3; omega

theorem lower_letter {c d e : Char} (h : c.toLower = d) (hd : d.toNat = e.toNat + 32) : c = d ∨ c = e := by
  rcases lower_cases c with f | ⟨_, _, e3⟩
  · left; rw [← h, f]
  · right
    rw [h, hd] at e3
    apply Char.ext
    apply UInt32.toNat.inj
    have : c.toNat = e.toNat := by omega
    exact this

theorem digit_toNat {c : Char} (h : c.isDigit = true) : 48 ≤ c.toNat ∧ c.toNat ≤ 57 := by
  unfold Char.isDigit at h
  simp only [Bool.and_eq_true, decide_eq_true_eq, ge_iff_le] at h
  have h1 := UInt32.le_iff_toNat_le.mp h.1
  have h2 := UInt32.le_iff_toNat_le.mp h.2
  exact ⟨h1, h2⟩

theorem lower_digit {c : Char} (h : c.toLower.isDigit = true) : c.isDigit = true := by
  have := digit_toNat h
  rw [lower_other (c := c) rfl (by omega)]
  exact h

theorem digits1_some {s a r : List Char} (h : digits1 s = some (a, r)) : s = a ++ r ∧ Digits a := by
  unfold digits1 at h
  simp only at h
  split at h
  · simp at h
  · rename_i hne
    simp only [Option.some.injEq, Prod.mk.injEq] at h
    obtain ⟨rfl, rfl⟩ := h
    refine ⟨(List.takeWhile_append_dropWhile ..).symm, by simpa using hne, fun c hc => ?_⟩
    exact List.mem_takeWhile_imp hc

theorem lower_append {s a b : List Char} (h : s.map Char.toLower = a ++ b) : ∃ a' b', s = a' ++ b' ∧ a'.map Char.toLower = a ∧ b'.map Char.toLower = b := by
  obtain ⟨a', b', h1, h2, h3⟩ := List.map_eq_append_iff.mp h
  exact ⟨a', b', h1, h2, h3⟩

theorem lower_cons {s b : List Char} {a : Char} (h : s.map Char.toLower = a :: b) : ∃ a' b', s = a' :: b' ∧ a'.toLower = a ∧ b'.map Char.toLower = b := by
  obtain ⟨a', b', h1, h2, h3⟩ := List.map_eq_cons_iff.mp h
  exact ⟨a', b', h1, h2, h3⟩

theorem lower_digits {s a : List Char} (h : s.map Char.toLower = a) (ha : Digits a) : Digits s := by
  subst h
  refine ⟨by intro e; exact ha.1 (by rw [e]; rfl), fun c hc => lower_digit (ha.2 _ (List.mem_map_of_mem hc))⟩

theorem matchI_some {s a b : List Char} (h : matchI s = some (a, b)) : s = '(' :: (a ++ 'i' :: (b ++ [')'])) ∧ Digits a ∧ Digits b := by
  unfold matchI at h
  split at h
  · rename_i s
    cases h1 : digits1 s with
    | none => rw [h1] at h; simp at h
    | some p =>
      obtain ⟨a', r⟩ := p
      rw [h1] at h
      simp only [Option.bind_eq_bind, Option.bind_some] at h
      obtain ⟨rfl, d1⟩ := digits1_some h1
      split at h
      · rename_i r
        cases h2 : digits1 r with
        | none => rw [h2] at h; simp at h
        | some p =>
          obtain ⟨b', q⟩ := p
          rw [h2] at h
          simp only [Option.bind_some] at h
          obtain ⟨rfl, d2⟩ := digits1_some h2
          split at h
          · rename_i hq
            subst hq
            simp only [Option.some.injEq, Prod.mk.injEq] at h
            obtain ⟨rfl, rfl⟩ := h
            exact ⟨rfl, d1, d2⟩
          · simp at h
      · simp at h
  · simp at h

theorem matchN_some {s a b c d : List Char} (h : matchN s = some (a, b, c, d)) :
    ∃ p, s = '(' :: (a ++ 'i' :: (b ++ ',' :: (c ++ 'e' :: (d ++ '.' :: (p ++ [')']))))) ∧ Digits a ∧ Digits b ∧ Digits c ∧ Digits d ∧
      p ≠ [] ∧ ∀ x ∈ p, x.isDigit = true ∨ x = 'e' := by
  unfold matchN at h
  split at h
  · rename_i s
    cases h1 : digits1 s with
    | none => rw [h1] at h; simp at h
    | some p =>
      obtain ⟨a', r⟩ := p
      rw [h1] at h
      simp only [Option.bind_eq_bind, Option.bind_some] at h
      obtain ⟨rfl, d1⟩ := digits1_some h1
      split at h
      · rename_i r
        cases h2 : digits1 r with
        | none => rw [h2] at h; simp at h
        | some p =>
          obtain ⟨b', r⟩ := p
          rw [h2] at h
          simp only [Option.bind_some] at h
          obtain ⟨rfl, d2⟩ := digits1_some h2
          split at h
          · rename_i r
            cases h3 : digits1 r with
            | none => rw [h3] at h; simp at h
            | some p =>
              obtain ⟨c', r⟩ := p
              rw [h3] at h
              simp only [Option.bind_some] at h
              obtain ⟨rfl, d3⟩ := digits1_some h3
              split at h
              · rename_i r
                cases h4 : digits1 r with
                | none => rw [h4] at h; simp at h
                | some p =>
                  obtain ⟨d', r⟩ := p
                  rw [h4] at h
                  simp only [Option.bind_some] at h
                  obtain ⟨rfl, d4⟩ := digits1_some h4
                  split at h
                  · rename_i r
                    split at h
                    · simp at h
                    · rename_i hp
                      split at h
                      · rename_i hq
                        simp only [Option.some.injEq, Prod.mk.injEq] at h
                        obtain ⟨rfl, rfl, rfl, rfl⟩ := h
                        refine ⟨r.takeWhile fun c => c.isDigit || c == 'e', ?_, d1, d2, d3, d4, by simpa using hp, fun x hx => ?_⟩
                        · rw [← hq, List.takeWhile_append_dropWhile]
                        · have := List.mem_takeWhile_imp hx
                          simpa using this
                      · simp at h
                  · simp at h
              · simp at h
          · simp at h
      · simp at h
  · simp at h

/-- Lines that are not formats do not match. -/
theorem matchI_none {line : List Char} (h : ¬ IForm line) : matchI (stolower (strim line)) = none := by
  by_contra hne
  obtain ⟨⟨a, b⟩, hm⟩ := Option.ne_none_iff_exists'.mp hne
  obtain ⟨e1, d1, d2⟩ := matchI_some hm
  obtain ⟨sp, tl, e2, b1, b2, _, _⟩ := (C57_strim line (strim line)).mp rfl
  obtain ⟨x1, s1, f1, f2, f3⟩ := lower_cons e1
  obtain ⟨A, s2, g1, g2, g3⟩ := lower_append f3
  obtain ⟨c, s3, k1, k2, k3⟩ := lower_cons g3
  obtain ⟨B, s4, l1, l2, l3⟩ := lower_append k3
  obtain ⟨x2, s5, m1, m2, m3⟩ := lower_cons l3
  obtain rfl : s5 = [] := by simpa using m3
  obtain rfl := lower_other f2 (by decide)
  obtain rfl := lower_other m2 (by decide)
  refine h ⟨sp, A, c, B, tl, ?_, b1, b2, lower_digits g2 d1, lower_digits l2 d2, lower_letter k2 (by decide)⟩
  rw [e2, f1, g1, k1, l1, m1]
  simp

theorem matchN_none {line : List Char} (h : ¬ NForm line) : matchN (stolower (strim line)) = none := by
  by_contra hne
  obtain ⟨⟨a, b, c, d⟩, hm⟩ := Option.ne_none_iff_exists'.mp hne
  obtain ⟨p, e1, d1, d2, d3, d4, hp, hp'⟩ := matchN_some hm
  obtain ⟨sp, tl, e2, b1, b2, _, _⟩ := (C57_strim line (strim line)).mp rfl
  obtain ⟨x1, s1, f1, f2, f3⟩ := lower_cons e1
  obtain ⟨A, s2, g1, g2, g3⟩ := lower_append f3
  obtain ⟨c1, s3, k1, k2, k3⟩ := lower_cons g3
  obtain ⟨B, s4, l1, l2, l3⟩ := lower_append k3
  obtain ⟨x2, s5, m1, m2, m3⟩ := lower_cons l3
  obtain ⟨C, s6, n1, n2, n3⟩ := lower_append m3
  obtain ⟨c2, s7, o1, o2, o3⟩ := lower_cons n3
  obtain ⟨D, s8, p1, p2, p3⟩ := lower_append o3
  obtain ⟨x3, s9, q1, q2, q3⟩ := lower_cons p3
  obtain ⟨P, s10, r1, r2, r3⟩ := lower_append q3
  obtain ⟨x4, s11, t1, t2, t3⟩ := lower_cons r3
  obtain rfl : s11 = [] := by simpa using t3
  obtain rfl := lower_other f2 (by decide)
  obtain rfl := lower_other m2 (by decide)
  obtain rfl := lower_other q2 (by decide)
  obtain rfl := lower_other t2 (by decide)
  refine h ⟨sp, A, c1, B, C, c2, D, P, tl, ?_, b1, b2, lower_digits g2 d1, lower_digits l2 d2, lower_digits n2 d3, lower_digits p2 d4,
    lower_letter k2 (by decide), lower_letter o2 (by decide), ?_, ?_⟩
  · rw [e2, f1, g1, k1, l1, m1, n1, o1, p1, q1, r1, t1]
    simp
  · rintro rfl; exact hp (by rw [← r2]; rfl)
  · intro x hx
    rcases hp' x.toLower (by rw [← r2]; exact List.mem_map_of_mem hx) with h | h
    · exact .inl (lower_digit h)
    · exact .inr (lower_letter h (by decide))

/-! ## Files -/

/-- The reader after complete commands. -/
theorem cdbLoop_prefix [Zero K] (stod : List Char → Out K) (liness : List (List (List Char))) (cmds : List (Cmd K))
    (h : List.Forall₂ (Written stod) liness cmds) : ∃ f0, ∀ fuel, f0 ≤ fuel →
      ∀ (md : MeshData K) (is is' : Stream), Feeds is liness.flatten is' → ((md.feComps ++ cmds.flatMap Cmd.compList).map Comp.name).Nodup →
        cdbLoop stod (fuel + cmds.length) md is = cdbLoop stod fuel (plus md (mesh cmds)) is' := by
  induction h with
  | nil =>
    refine ⟨0, fun fuel _ md is is' hf _ => ?_⟩
    obtain rfl : is = is' := hf
    rw [plus_nil]
    rfl
  | @cons lines c liness cmds hc _ ih =>
    obtain ⟨f1, hf1⟩ := ih
    obtain ⟨line, rest, f2, rfl, hf2⟩ := command_written hc
    refine ⟨max f1 f2, fun fuel hfuel md is is' hf hnd => ?_⟩
    rw [List.flatten_cons, List.cons_append] at hf
    obtain ⟨is1, g1, g2, g3⟩ := hf
    obtain ⟨is2, g4, g5⟩ := g3.split
    have hnew : ∀ x ∈ c.compList, ∀ y ∈ md.feComps, y.name ≠ x.name := by
      intro x hx y hy
      rw [List.flatMap_cons, List.map_append, List.nodup_append] at hnd
      exact hnd.2.2 _ (List.mem_map_of_mem hy) _ (List.mem_map_of_mem (by simp [hx]))
    rw [List.length_cons, ← Nat.add_assoc]
    conv_lhs => unfold cdbLoop
    rw [g1]
    simp only [g2, Bool.false_eq_true, if_false]
    rw [hf2 _ (by omega) md is1 is2 g4 hnew, out_bind]
    simp only
    rw [hf1 fuel (by omega) _ is2 is' g5 ?_, plus_mesh]
    · simpa [plus, mesh] using hnd

theorem command_bad [Zero K] {stod : List Char → Out K} {line fmt : List Char} (h : BadBlock line fmt) {fuel : Nat} {md : MeshData K} {is is' : Stream}
    (hf : getLine is = (fmt, is')) : command stod fuel (tokensOf line) md is = .error .fatal := by
  rcases h with ⟨toks, ⟨h1, t, h2, h3⟩, hn⟩ | ⟨toks, key, ⟨h1, t, h2, h3⟩, hk, hn⟩ | ⟨toks, name, type, n, ⟨h1, t, h2, h3⟩, hh, hn⟩
  · rw [tokensOf_eq h1, command_key h2 h3 ⟨'n', "block".toList, rfl, by decide, by decide⟩, if_pos rfl]
    unfold nblock
    rw [hf]
    simp only [matchN_none hn]
  · rw [tokensOf_eq h1, command_key h2 h3 ⟨'e', "block".toList, rfl, by decide, by decide⟩, if_neg (by decide), if_pos rfl]
    unfold eblock
    rw [read_some hk, out_bind, lift_iequals, out_bind, hf]
    simp only [matchI_none hn]
  · rw [tokensOf_eq h1, command_key h2 h3 ⟨'c', "mblock".toList, rfl, by decide, by decide⟩, if_neg (by decide), if_neg (by decide),
      if_neg (by decide), if_neg (by decide), if_pos rfl]
    obtain ⟨a1, a2, ⟨t', a3, a4⟩, ⟨f, a5, a6⟩, a7⟩ := hh
    unfold cmblock tokenInt
    rw [read_some a1, out_bind, if_neg a2, read_some a3, out_bind, read_some a5, out_bind, stoi_numeral a6 (by omega), out_bind, hf]
    simp only [matchI_none hn]

theorem getLine_eof {is : Stream} (h : is.eof = true) : (getLine is).2.eof = true := by
  unfold getLine
  rw [h]
  have : ∀ (s t : List Char), (getLineLoop t true s).2.eof = true := by
    intro s
    induction s with
    | nil => intro t; unfold getLineLoop; simp
    | cons c s ih =>
      intro t
      unfold getLineLoop
      split
      · rfl
      · split
        · cases s with
          | nil => rfl
          | cons d s => simp only; split <;> rfl
        · exact ih _
  exact this _ _

/-- Specification: the file consists of the given lines. -/
def FileOf (file : List Char) (lines : List (List Char)) : Prop :=
  ∃ (ls : List (List Char × Ending)) (last : List Char), (∀ l ∈ ls, Plain l.1) ∧ Plain last ∧ NoMerge ls ∧ file = text ls ++ last ∧
    ls.map Prod.fst ++ (if last = [] then [] else [last]) = lines

theorem FileOf.feeds {file : List Char} {lines : List (List Char)} (h : FileOf file lines) :
    ∃ is', Feeds ⟨file, false⟩ lines is' ∧ (getLine is').2.eof = true := by
  obtain ⟨ls, last, h1, h2, h3, rfl, h4⟩ := h
  obtain ⟨is', h5, h6⟩ := feeds_readLines _ ⟨text ls ++ last, false⟩ le_rfl
  rw [C58_lines_partial ls last h1 h2 h3, h4] at h5
  exact ⟨is', h5, h6⟩

/-- **C103, format lines.** If the second line of a block is not a format line, the program stops with a message, whatever precedes and
follows it. Missing for the full claim: see `C103_cut_violated`. -/
theorem C103_format_partial [Zero K] (stod : List Char → Out K) (liness : List (List (List Char))) (cmds : List (Cmd K))
    (h : List.Forall₂ (Written stod) liness cmds) (hnames : ((cmds.flatMap Cmd.compList).map Comp.name).Nodup)
    {line fmt : List Char} (hbad : BadBlock line fmt) {rest : List (List Char)} {file : List Char}
    (hfile : FileOf file (liness.flatten ++ line :: fmt :: rest)) : ∃ f0, ∀ fuel, f0 ≤ fuel → readCdb stod fuel file = .error .fatal := by
  obtain ⟨is', h1, _⟩ := hfile.feeds
  obtain ⟨is1, h2, is2, h3, h4, is3, h5, h6, _⟩ := h1.split
  obtain ⟨f0, hf0⟩ := cdbLoop_prefix stod liness cmds h
  refine ⟨f0 + cmds.length + 1, fun fuel hfuel => ?_⟩
  obtain ⟨fuel, rfl⟩ : ∃ k, fuel = k + 1 + cmds.length := ⟨fuel - 1 - cmds.length, by omega⟩
  unfold readCdb
  rw [hf0 (fuel + 1) (by omega) _ _ is1 h2 (by simpa [MeshData.empty] using hnames)]
  unfold cdbLoop
  rw [h3]
  simp only [h4, Bool.false_eq_true, if_false]
  rw [command_bad hbad h5]
  rfl

theorem getLine_end {is : Stream} (h : is.eof = false) (he : (getLine is).2.eof = true) : (getLine is).1 = [] := by
  unfold getLine at *
  rw [h] at he ⊢
  have : ∀ (s t : List Char), (getLineLoop t false s).2.eof = true → (getLineLoop t false s).1 = [] := by
    intro s
    induction s with
    | nil => intro t; unfold getLineLoop; simp
    | cons c s ih =>
      intro t
      unfold getLineLoop
      split
      · simp
      · split
        · cases s with
          | nil => simp
          | cons d s => simp only; split <;> simp
        · exact ih _
  exact this _ _ he

theorem Feeds.open {lines : List (List Char)} : ∀ {is is' : Stream}, Feeds is lines is' → is.eof = false → is'.eof = false := by
  induction lines with
  | nil => intro is is' h he; obtain rfl : is = is' := h; exact he
  | cons l ls ih =>
    intro is is' h _
    obtain ⟨is1, _, h2, h3⟩ := h
    exact ih h3 h2

theorem no_format : ¬ NForm [] ∧ ¬ IForm [] := by
  constructor
  · rintro ⟨sp, A, c, B, C, e, D, P, tl, h, _⟩
    have := congrArg List.length h
    simp at this
  · rintro ⟨sp, A, c, B, tl, h, _⟩
    have := congrArg List.length h
    simp at this

/-- **C103, end after the header.** A file that ends with the header of a block stops the program with a message. -/
theorem C103_header_partial [Zero K] (stod : List Char → Out K) (liness : List (List (List Char))) (cmds : List (Cmd K))
    (h : List.Forall₂ (Written stod) liness cmds) (hnames : ((cmds.flatMap Cmd.compList).map Comp.name).Nodup) {line : List Char}
    (hhead : (∃ toks, Header line "nblock" toks) ∨ (∃ toks key, Header line "eblock" toks ∧ toks[2]? = some key) ∨
      ∃ toks name type n, Header line "cmblock" toks ∧ CmHead toks name type n) {file : List Char}
    (hfile : FileOf file (liness.flatten ++ [line])) : ∃ f0, ∀ fuel, f0 ≤ fuel → readCdb stod fuel file = .error .fatal := by
  have hbad : BadBlock line [] := by
    rcases hhead with ⟨toks, h⟩ | ⟨toks, key, h, hk⟩ | ⟨toks, name, type, n, h, hh⟩
    · exact .inl ⟨toks, h, no_format.1⟩
    · exact .inr (.inl ⟨toks, key, h, hk, no_format.2⟩)
    · exact .inr (.inr ⟨toks, name, type, n, h, hh, no_format.2⟩)
  obtain ⟨is', h1, he⟩ := hfile.feeds
  have hend : (getLine is').1 = [] := getLine_end (h1.open rfl) he
  obtain ⟨is1, h2, is2, h3, h4, h5⟩ := h1.split
  obtain rfl : is2 = is' := h5
  obtain ⟨f0, hf0⟩ := cdbLoop_prefix stod liness cmds h
  refine ⟨f0 + cmds.length + 1, fun fuel hfuel => ?_⟩
  obtain ⟨fuel, rfl⟩ : ∃ k, fuel = k + 1 + cmds.length := ⟨fuel - 1 - cmds.length, by omega⟩
  unfold readCdb
  rw [hf0 (fuel + 1) (by omega) _ _ is1 h2 (by simpa [MeshData.empty] using hnames)]
  unfold cdbLoop
  rw [h3]
  simp only [h4, Bool.false_eq_true, if_false]
  rw [command_bad hbad (Prod.ext hend rfl : getLine is2 = ([], (getLine is2).2))]
  rfl

theorem nblockLoop_prefix [Zero K] (stod : List Char → Out K) (n w m v : Nat) (hw : 1 ≤ w) (hv : 1 ≤ v)
    (lines : List (List Char)) (nodes : List (Nat × K × K × K)) (hlines : List.Forall₂ (NodeLine stod n w m v) lines nodes)
    (is is' : Stream) (hfeed : Feeds is lines is') (md : MeshData K) (fuel : Nat) :
    nblockLoop stod (List.replicate n w ++ List.replicate m v) n (fuel + nodes.length) md is =
      nblockLoop stod (List.replicate n w ++ List.replicate m v) n fuel (addNodes md nodes) is' := by
  have hws : ∀ x ∈ List.replicate n w ++ List.replicate m v, 1 ≤ x := by
    intro x hx
    rw [List.mem_append, List.mem_replicate, List.mem_replicate] at hx
    omega
  induction hlines generalizing is md with
  | nil =>
    obtain rfl : is = is' := hfeed
    simp [addNodes]
  | @cons line node lines nodes hl _ ih =>
    obtain ⟨is2, k1, k2, k3⟩ := hfeed
    obtain ⟨f, ints, coords, q1, q2, q3, q4, q5, q6, q7, q8⟩ := hl
    obtain ⟨c, c1, c2⟩ := field_first q1 q3 q4
    rw [List.length_cons, ← Nat.add_assoc]
    conv_lhs => unfold nblockLoop
    rw [k1]
    simp only [k2, Bool.false_eq_true, if_false, c1]
    rw [show lift (Res.ok c) = .ok c from rfl, out_bind, if_neg c2, ssplit_fields hws q1]
    have hget : ∀ i, (f :: ints ++ coords)[n + i]? = coords[i]? := by
      intro i
      rw [← q2, List.getElem?_append_right (by simp only [List.length_cons]; omega)]
      congr 1
      simp only [List.length_cons]; omega
    rw [show lift (Res.ok (f :: ints ++ coords)) = .ok (f :: ints ++ coords) from rfl, out_bind, read_some (a := f) (by simp), out_bind,
      stoi_numeral q3 (by omega), out_bind, posAt_eq (i := n) (by rw [show n = n + 0 by omega, hget]; exact q6), out_bind,
      posAt_eq (i := n + 1) (by rw [hget]; exact q7), out_bind, posAt_eq (i := n + 2) (by rw [hget]; exact q8), out_bind, toU32_nat q5]
    rw [ih is2 k3]
    simp [addNodes]

theorem eblockLoop_prefix (isSolid : Bool) (n w : Nat) (hw : 1 ≤ w) (lines : List (List Char))
    (cells : List Cell) (hlines : List.Forall₂ (if isSolid then SolidLine n w else ShellLine n w) lines cells)
    (is is' : Stream) (hfeed : Feeds is lines is') (md : MeshData K) (fuel : Nat) :
    eblockLoop isSolid (List.replicate n w) (fuel + cells.length) md is =
      eblockLoop isSolid (List.replicate n w) fuel (addCells md cells) is' := by
  have hws : ∀ x ∈ List.replicate n w, 1 ≤ x := by
    intro x hx
    rw [List.mem_replicate] at hx
    omega
  have hsays : List.Forall₂ (fun line c => ∃ v, FieldLine line (List.replicate n w) v ∧ Says isSolid v c ∧
      ∃ ch, sfirstNotBlank line = .ok ch ∧ ¬(ch = '-' ∨ ch = 'N')) lines cells := by
    refine hlines.imp ?_
    intro l c h
    cases isSolid with
    | true => exact solid_says h
    | false => exact shell_says h
  clear hlines
  induction hsays generalizing is md with
  | nil =>
    obtain rfl : is = is' := hfeed
    simp [addCells]
  | @cons line cell lines cells hl _ ih =>
    obtain ⟨is2, k1, k2, k3⟩ := hfeed
    obtain ⟨v, q1, ⟨e, e1, e2, e3, e4⟩, c, c1, c2⟩ := hl
    rw [List.length_cons, ← Nat.add_assoc]
    conv_lhs => unfold eblockLoop
    rw [k1]
    simp only [k2, Bool.false_eq_true, if_false, c1]
    rw [show lift (Res.ok c) = .ok c from rfl, out_bind, if_neg c2, ssplit_fields hws q1]
    rw [show lift (Res.ok v) = .ok v from rfl, out_bind, e1, out_bind, if_neg (by simpa using e2), e3, out_bind, ih is2 k3]
    obtain ⟨e4, e5, e6, e7, e8, e9, e10⟩ := e4
    simp [addCells, pushCell, e4, e5, e6, e7, e8, e9, e10]

/-- Outcomes that do not depend on the mesh. -/
inductive Next where
  | stop
  | out (e : Stop)

/-- What the line after the beginning of a block does. -/
def After (ws : List Nat) (is : Stream) : Next → Prop
  | .stop => (getLine is).2.eof = true
  | .out e => (getLine is).2.eof = false ∧ ((e = .ub ∧ Blanks (getLine is).1) ∨ (e = .fatal ∧ Torn ws (getLine is).1))

theorem first_blank {l : List Char} (h : Blanks l) : sfirstNotBlank l = .ub := by
  rw [(C57_firstNotBlank l).2]
  exact ((C57_strim l []).mpr ⟨l, [], by simp, h, by simp [Blanks], by simp, by simp⟩).symm ▸ rfl

theorem first_torn {ws : List Nat} {l : List Char} (h : Torn ws l) : ∃ c, sfirstNotBlank l = .ok c ∧ ¬(c = '-' ∨ c = 'N') := by
  obtain ⟨⟨sp, c, r, rfl, h1, h2, h3, h4, h5⟩, _⟩ := h
  exact ⟨c, firstNotBlank_eq ⟨sp, r, rfl, h1, h2, h3⟩, by simp [h4, h5]⟩

theorem nblockLoop_after [Zero K] {stod : List Char → Out K} {ws : List Nat} {n : Nat} {is : Stream} {x : Next} (h : After ws is x) (fuel : Nat)
    (md : MeshData K) : nblockLoop stod ws n (fuel + 1) md is = match x with | .stop => .ok (md, (getLine is).2) | .out e => .error e := by
  unfold nblockLoop
  cases x with
  | stop =>
    have h : (getLine is).2.eof = true := h
    simp only [h, if_true]
  | out e =>
    obtain ⟨h0, ⟨rfl, h1⟩ | ⟨rfl, h1⟩⟩ := h
    · simp only [h0, Bool.false_eq_true, if_false, first_blank h1]
      rfl
    · obtain ⟨c, c1, c2⟩ := first_torn h1
      simp only [h0, Bool.false_eq_true, if_false, c1]
      rw [show lift (Res.ok c) = .ok c from rfl, out_bind, if_neg c2, (C57_ssplit _ _).2.mpr h1.2]
      rfl

theorem eblockLoop_after {isSolid : Bool} {ws : List Nat} {is : Stream} {x : Next} (h : After ws is x) (fuel : Nat)
    (md : MeshData K) : eblockLoop isSolid ws (fuel + 1) md is = match x with | .stop => .ok (md, (getLine is).2) | .out e => .error e := by
  unfold eblockLoop
  cases x with
  | stop =>
    have h : (getLine is).2.eof = true := h
    simp only [h, if_true]
  | out e =>
    obtain ⟨h0, ⟨rfl, h1⟩ | ⟨rfl, h1⟩⟩ := h
    · simp only [h0, Bool.false_eq_true, if_false, first_blank h1]
      rfl
    · obtain ⟨c, c1, c2⟩ := first_torn h1
      simp only [h0, Bool.false_eq_true, if_false, c1]
      rw [show lift (Res.ok c) = .ok c from rfl, out_bind, if_neg c2, (C57_ssplit _ _).2.mpr h1.2]
      rfl

/-- The command whose block has begun, decided by the line after it. -/
theorem command_begun [Zero K] {stod : List Char → Out K} {ws : List Nat} {tail : List (List Char)} {c : Cmd K} (h : Begun stod ws tail c) :
    ∃ line rest f0, tail = line :: rest ∧ c.compList = [] ∧ ∀ fuel, f0 ≤ fuel → ∀ (md : MeshData K) is is', Feeds is rest is' → ∀ x, After ws is' x →
      command stod fuel (tokensOf line) md is =
        match x with | .stop => .ok (plus md (mesh [c]), (getLine is').2) | .out e => .error e := by
  cases h with
  | nblock line toks h fmt n w m v hf hw hv lines nodes hl =>
    refine ⟨line, _, nodes.length + 1, rfl, rfl, fun fuel hfuel md is is' hfe x hx => ?_⟩
    obtain ⟨fuel, rfl⟩ : ∃ k, fuel = k + 1 + nodes.length := ⟨fuel - 1 - nodes.length, by omega⟩
    obtain ⟨h1, t, h2, h3⟩ := h
    obtain ⟨is1, g1, _, g2⟩ := hfe
    obtain ⟨A, B, C, D, m1, m2, m3, m4, m5⟩ := matchN_format hf
    rw [tokensOf_eq h1, command_key h2 h3 ⟨'n', "block".toList, rfl, by decide, by decide⟩, if_pos rfl]
    unfold nblock
    rw [g1]
    simp only [m1, m2, m3, m4, m5, out_bind, Int.toNat_natCast]
    rw [nblockLoop_prefix stod n w m v hw hv lines nodes hl is1 is' g2, nblockLoop_after hx]
    cases x with
    | stop => simp [plus, mesh, addNodes, Cmd.cellList, Cmd.nodeList, Cmd.loadList, Cmd.fixList, Cmd.eqnList, Cmd.compList]
    | out e => rfl
  | eblock line toks h key fmt hkey isSolid hk n w hf hw lines cells hl =>
    refine ⟨line, _, cells.length + 1, rfl, rfl, fun fuel hfuel md is is' hfe x hx => ?_⟩
    obtain ⟨fuel, rfl⟩ : ∃ k, fuel = k + 1 + cells.length := ⟨fuel - 1 - cells.length, by omega⟩
    obtain ⟨h1, t, h2, h3⟩ := h
    obtain ⟨is1, g1, _, g2⟩ := hfe
    obtain ⟨A, B, m1, m2, m3⟩ := matchI_format hf
    have hs : decide (key.map Char.toLower = "SOLID".toList.map Char.toLower) = isSolid := by
      rw [show "SOLID".toList.map Char.toLower = "solid".toList by decide]
      cases isSolid with
      | true => simpa using hk
      | false => simpa using hk
    rw [tokensOf_eq h1, command_key h2 h3 ⟨'e', "block".toList, rfl, by decide, by decide⟩, if_neg (by decide), if_pos rfl]
    unfold eblock
    rw [read_some hkey, out_bind, lift_iequals, out_bind, hs, g1]
    simp only [m1, m2, m3, out_bind, Int.toNat_natCast]
    rw [eblockLoop_prefix isSolid n w hw lines cells hl is1 is' g2, eblockLoop_after hx]
    cases x with
    | stop => simp [plus, mesh, addCells, Cmd.cellList, Cmd.nodeList, Cmd.loadList, Cmd.fixList, Cmd.eqnList, Cmd.compList]
    | out e => rfl

/-- **C103 is violated by every file that ends inside a block of nodes or elements**: the reader takes what is there for the whole mesh. -/
theorem C103_cut_violated [Zero K] (stod : List Char → Out K) (liness : List (List (List Char))) (cmds : List (Cmd K))
    (h : List.Forall₂ (Written stod) liness cmds) (hnames : ((cmds.flatMap Cmd.compList).map Comp.name).Nodup) {ws : List Nat}
    {tail : List (List Char)} {c : Cmd K} (hcut : Begun stod ws tail c) {file : List Char} (hfile : FileOf file (liness.flatten ++ tail)) :
    ∃ f0, ∀ fuel, f0 ≤ fuel → readCdb stod fuel file = .ok (mesh (cmds ++ [c])) := by
  obtain ⟨is', h1, h2⟩ := hfile.feeds
  obtain ⟨is1, h3, h4⟩ := h1.split
  obtain ⟨f0, hf0⟩ := cdbLoop_prefix stod liness cmds h
  obtain ⟨line, rest, f1, rfl, _, hc⟩ := command_begun hcut
  obtain ⟨is2, k1, k2, k3⟩ := h4
  refine ⟨f0 + f1 + cmds.length + 2, fun fuel hfuel => ?_⟩
  obtain ⟨fuel, rfl⟩ : ∃ k, fuel = k + 2 + cmds.length := ⟨fuel - 2 - cmds.length, by omega⟩
  unfold readCdb
  rw [hf0 (fuel + 2) (by omega) _ _ is1 h3 (by simpa [MeshData.empty] using hnames), empty_plus]
  unfold cdbLoop
  rw [k1]
  simp only [k2, Bool.false_eq_true, if_false]
  rw [hc (fuel + 1) (by omega) _ is2 is' k3 .stop h2, out_bind]
  simp only
  unfold cdbLoop
  simp only [getLine_eof h2, if_true]
  simp [plus, mesh]

theorem readCdb_next [Zero K] (stod : List Char → Out K) (liness : List (List (List Char))) (cmds : List (Cmd K))
    (h : List.Forall₂ (Written stod) liness cmds) (hnames : ((cmds.flatMap Cmd.compList).map Comp.name).Nodup) {ws : List Nat}
    {tail : List (List Char)} {c : Cmd K} (hcut : Begun stod ws tail c) {line : List Char} {rest : List (List Char)} {file : List Char}
    (hfile : FileOf file (liness.flatten ++ (tail ++ line :: rest))) {e : Stop} (he : (e = .ub ∧ Blanks line) ∨ (e = .fatal ∧ Torn ws line)) :
    ∃ f0, ∀ fuel, f0 ≤ fuel → readCdb stod fuel file = .error e := by
  obtain ⟨is', h1, _⟩ := hfile.feeds
  obtain ⟨is1, h3, h4⟩ := h1.split
  obtain ⟨f0, hf0⟩ := cdbLoop_prefix stod liness cmds h
  obtain ⟨head, rest', f1, rfl, _, hc⟩ := command_begun hcut
  obtain ⟨is2, k1, k2, k3⟩ := h4
  obtain ⟨is3, k4, is4, k5, k6, _⟩ := k3.split
  refine ⟨f0 + f1 + cmds.length + 1, fun fuel hfuel => ?_⟩
  obtain ⟨fuel, rfl⟩ : ∃ k, fuel = k + 1 + cmds.length := ⟨fuel - 1 - cmds.length, by omega⟩
  unfold readCdb
  rw [hf0 (fuel + 1) (by omega) _ _ is1 h3 (by simpa [MeshData.empty] using hnames)]
  unfold cdbLoop
  rw [k1]
  simp only [k2, Bool.false_eq_true, if_false]
  rw [hc fuel (by omega) _ is2 is3 k4 (.out e) ⟨by rw [k5]; exact k6, by rw [k5]; exact he⟩]
  rfl

/-- **C103, torn lines.** A line of a block that ends inside a field stops the program with a message. Missing for the full claim: see
`C103_cut_violated`. -/
theorem C103_torn_partial [Zero K] (stod : List Char → Out K) (liness : List (List (List Char))) (cmds : List (Cmd K))
    (h : List.Forall₂ (Written stod) liness cmds) (hnames : ((cmds.flatMap Cmd.compList).map Comp.name).Nodup) {ws : List Nat}
    {tail : List (List Char)} {c : Cmd K} (hcut : Begun stod ws tail c) {line : List Char} (ht : Torn ws line) {rest : List (List Char)}
    {file : List Char} (hfile : FileOf file (liness.flatten ++ (tail ++ line :: rest))) :
    ∃ f0, ∀ fuel, f0 ≤ fuel → readCdb stod fuel file = .error .fatal :=
  readCdb_next stod liness cmds h hnames hcut hfile (.inr ⟨rfl, ht⟩)

/-- **C103 is violated by every file with a blank line in a block**: the reader looks for its first character. -/
theorem C103_blank_violated [Zero K] (stod : List Char → Out K) (liness : List (List (List Char))) (cmds : List (Cmd K))
    (h : List.Forall₂ (Written stod) liness cmds) (hnames : ((cmds.flatMap Cmd.compList).map Comp.name).Nodup) {ws : List Nat}
    {tail : List (List Char)} {c : Cmd K} (hcut : Begun stod ws tail c) {line : List Char} (hb : Blanks line) {rest : List (List Char)}
    {file : List Char} (hfile : FileOf file (liness.flatten ++ (tail ++ line :: rest))) :
    ∃ f0, ∀ fuel, f0 ≤ fuel → readCdb stod fuel file = .error .ub :=
  readCdb_next stod liness cmds h hnames hcut hfile (.inl ⟨rfl, hb⟩)

/-! ## Components -/

theorem read_none {α : Type} {v : List α} {i : Nat} (h : v[i]? = none) : read v i = .error .ub := by
  unfold read; rw [h]

theorem ssplit_empty (w n : Nat) (hw : 1 ≤ w) : ssplit [] (List.replicate n w) false = .ok [] := ssplit_row (r := []) (by simp) hw (by simp)

/-- A pass that finds no further number. -/
theorem cmPass_end {intNum w : Nat} {s : CmState} (hw : 1 ≤ w) (hin : s.fields.length ≤ s.inRow) (hend : (getLine s.is).1 = []) :
    cmPass intNum (List.replicate intNum w) s = .error .ub := by
  unfold cmPass cmLine
  by_cases h : s.inRow = intNum
  · rw [if_pos h]
    simp only [hend, ssplit_empty w intNum hw]
    rfl
  · rw [if_neg h, out_bind, read_none (List.getElem?_eq_none hin)]
    rfl

theorem cmLoop_cut {intNum w numRanges : Nat} (hw : 1 ≤ w) (hI : 1 ≤ intNum ∧ intNum ≤ 65535) (hN : numRanges ≤ 65535) (gone : List Int)
    (hgone : gone ≠ []) (zs2 : List Int) :
    ∀ (zs1 : List Int) (s : CmState) (rows : List (List (List Char))) (is' : Stream) (fuel : Nat), Wf (zs1 ++ (zs2 ++ gone)) →
      (zs1 ++ (zs2 ++ gone)).length = numRanges → s.ranges = zs1 → s.all = zs1.length → s.numEntity ≤ zs1.length * 2147483648 →
      Rows intNum (s.fields :: rows) → s.inRow ≤ s.fields.length → (∀ r ∈ rows, ∀ f ∈ r, f.length = w) →
      List.Forall₂ Numeral (s.fields.drop s.inRow ++ rows.flatten) zs2 → Feeds s.is (rows.map List.flatten) is' → (getLine is').1 = [] →
      zs2.length < fuel → cmLoop intNum (List.replicate intNum w) numRanges fuel s = .error .ub := by
  have hg : 1 ≤ gone.length := List.length_pos_iff.mpr hgone
  induction zs2 with
  | nil =>
    intro zs1 s rows is' fuel hwf hlen hr ha hE hrows hin hws hnum hfeed hend hfuel
    obtain ⟨fuel, rfl⟩ : ∃ k, fuel = k + 1 := ⟨fuel - 1, by simp at hfuel; omega⟩
    rw [List.nil_append, List.length_append] at hlen
    have hl := hnum.length_eq
    simp only [List.length_append, List.length_drop, List.length_nil] at hl
    have hrow0 : rows = [] := by
      cases rows with
      | nil => rfl
      | cons r rs =>
        have h1 := (Rows.tail (Rows.tail hrows).1).2.1
        simp only [List.length_append, List.flatten_cons] at hl
        omega
    subst hrow0
    obtain rfl : s.is = is' := hfeed
    unfold cmLoop
    rw [if_pos (by omega), cmPass_end hw (by omega) hend]
    rfl
  | cons z zs2 ih =>
    intro zs1 s rows is' fuel hwf hlen hr ha hE hrows hin hws hnum hfeed hend hfuel
    obtain ⟨fuel, rfl⟩ : ∃ k, fuel = k + 1 := ⟨fuel - 1, by simp at hfuel; omega⟩
    have hlen' : zs1.length + (zs2.length + gone.length + 1) = numRanges := by simpa using hlen
    have e1 : zs1 ++ (z :: zs2 ++ gone) = (zs1 ++ [z]) ++ (zs2 ++ gone) := by simp
    unfold cmLoop
    rw [if_pos (by omega)]
    obtain ⟨t1, t2, t3, t4⟩ := Rows.tail hrows
    by_cases hj : s.inRow < s.fields.length
    · rw [List.drop_eq_getElem_cons hj, List.cons_append] at hnum
      cases hnum with
      | cons hz hnum =>
        obtain ⟨E, p1, p2⟩ := cmPass_read (intNum := intNum) (widths := List.replicate intNum w) (by omega)
          (List.getElem?_eq_getElem hj) hz hr ha hwf (by omega) (by omega) hE
        rw [p1, out_bind]
        exact ih (zs1 ++ [z]) _ rows is' fuel (by rw [← e1]; exact hwf) (by rw [← e1]; exact hlen) rfl (by simp) (by simpa using p2)
          hrows (Nat.succ_le_of_lt hj) hws hnum hfeed hend (by simp at hfuel; omega)
    · have hj' : s.inRow = s.fields.length := by omega
      cases rows with
      | nil =>
        have := hnum.length_eq
        simp [hj'] at this
      | cons r rows =>
        have hfull := t4 (by simp)
        obtain ⟨is1, g1, _, g2⟩ := hfeed
        obtain ⟨u1, u2, u3, u4⟩ := Rows.tail t1
        rw [cmPass_line (by omega) (hws r (by simp)) hw u3 g1 (by omega)]
        rw [hj', List.drop_length, List.nil_append, List.flatten_cons] at hnum
        obtain ⟨f, r', rfl⟩ : ∃ f r', r = f :: r' := by
          cases r with
          | nil => simp at u2
          | cons f r' => exact ⟨f, r', rfl⟩
        rw [List.cons_append] at hnum
        cases hnum with
        | cons hz hnum =>
          obtain ⟨E, p1, p2⟩ := cmPass_read (intNum := intNum) (widths := List.replicate intNum w)
            (s := { s with fields := f :: r', is := is1, inRow := 0 }) (f := f) (zs1 := zs1) (by show (0 : Nat) ≠ intNum; omega) rfl hz hr ha hwf
            (by omega) (by show 0 < 65535; omega) hE
          rw [p1, out_bind]
          exact ih (zs1 ++ [z]) _ rows is' fuel (by rw [← e1]; exact hwf) (by rw [← e1]; exact hlen) rfl (by simp) (by simpa using p2)
            t1 (by simp) (fun r hr => hws r (by simp [hr])) (by simpa using hnum) g2 hend (by simp at hfuel; omega)

/-- Specification: what is left of a component when the file ends before its last number. -/
def CutComp (lines : List (List Char)) : Prop :=
  ∃ (line : List Char) (toks : List (List Char)) (name : List Char) (type : CompType) (items : List Item) (fmt : List Char) (intNum w : Nat)
    (rows : List (List (List Char))) (found missing : List Int), lines = line :: fmt :: rows.map List.flatten ∧
    Header line "cmblock" toks ∧ (∀ i ∈ items, Item.Ok i) ∧ CmHead toks name type (items.flatMap Item.codes).length ∧
    (items.flatMap Item.codes).length ≤ 65535 ∧ IFormat fmt intNum w ∧ 1 ≤ w ∧ (1 ≤ intNum ∧ intNum ≤ 65535) ∧ Rows intNum rows ∧
    (∀ r ∈ rows, ∀ f ∈ r, f.length = w) ∧ List.Forall₂ Numeral rows.flatten found ∧ items.flatMap Item.codes = found ++ missing ∧ missing ≠ []

/-- **C103 is violated by every file that ends inside a component**: the reader reads behind the end of a vector. -/
theorem C103_component_violated [Zero K] (stod : List Char → Out K) (liness : List (List (List Char))) (cmds : List (Cmd K))
    (h : List.Forall₂ (Written stod) liness cmds) (hnames : ((cmds.flatMap Cmd.compList).map Comp.name).Nodup)
    {tail : List (List Char)} (hcut : CutComp tail) {file : List Char} (hfile : FileOf file (liness.flatten ++ tail)) :
    ∃ f0, ∀ fuel, f0 ≤ fuel → readCdb stod fuel file = .error .ub := by
  obtain ⟨is', h1, h2⟩ := hfile.feeds
  have hend : (getLine is').1 = [] := getLine_end (h1.open rfl) h2
  obtain ⟨is1, h3, h4⟩ := h1.split
  obtain ⟨f0, hf0⟩ := cdbLoop_prefix stod liness cmds h
  obtain ⟨line, toks, name, type, items, fmt, intNum, w, rows, found, missing, rfl, ⟨c1, t, c2, c3⟩, c4, c5, c6, c7, c8, c9, c10, c11, c12, c13, c14⟩ :=
    hcut
  obtain ⟨is2, k1, k2, is3, k3, k4, k5⟩ := h4
  refine ⟨f0 + found.length + cmds.length + 2, fun fuel hfuel => ?_⟩
  obtain ⟨fuel, rfl⟩ : ∃ k, fuel = k + 1 + cmds.length := ⟨fuel - 1 - cmds.length, by omega⟩
  unfold readCdb
  rw [hf0 (fuel + 1) (by omega) _ _ is1 h3 (by simpa [MeshData.empty] using hnames)]
  unfold cdbLoop
  rw [k1]
  simp only [k2, Bool.false_eq_true, if_false]
  rw [tokensOf_eq c1, command_key c2 c3 ⟨'c', "mblock".toList, rfl, by decide, by decide⟩, if_neg (by decide), if_neg (by decide),
    if_neg (by decide), if_neg (by decide), if_pos rfl]
  have hloop : ∀ md : MeshData K, cmblock toks fuel md is2 = .error .ub := by
    intro md
    cases rows with
    | nil =>
      obtain rfl : is3 = is' := k5
      rw [cmblock_head c5 c7 k3 (Prod.ext hend rfl : getLine is3 = ([], (getLine is3).2)), ssplit_empty w intNum c8]
      show (cmLoop intNum (List.replicate intNum w) _ fuel ⟨0, 0, [], [], 0, (getLine is3).2⟩ >>= _) = _
      obtain ⟨fuel, rfl⟩ : ∃ k, fuel = k + 1 := ⟨fuel - 1, by omega⟩
      have hpos : 0 < (items.flatMap Item.codes).length := by
        rw [c13, List.length_append]
        have := List.length_pos_iff.mpr c14
        omega
      unfold cmLoop
      rw [if_pos hpos]
      have : cmPass intNum (List.replicate intNum w) ⟨0, 0, [], [], 0, (getLine is3).2⟩ = .error .ub := by
        unfold cmPass cmLine
        rw [if_neg (show (0 : Nat) ≠ intNum by omega)]
        rfl
      rw [this]
      rfl
    | cons r rows =>
      obtain ⟨is4, k6, _, k7⟩ := k5
      rw [cmblock_head c5 c7 k3 k6, ssplit_row (c11 r (by simp)) c8 (Rows.tail c10).2.2.1]
      show (cmLoop intNum (List.replicate intNum w) _ fuel ⟨0, 0, [], r, 0, is4⟩ >>= _) = _
      have hwf : Wf (found ++ missing) := by rw [← c13]; exact wf_codes items c4
      rw [cmLoop_cut (numRanges := (items.flatMap Item.codes).length) c8 c9 c6 missing c14 found [] ⟨0, 0, [], r, 0, is4⟩ rows is' fuel
        (by simpa using hwf) (by rw [c13]; rfl) rfl rfl (by simp) c10 (by simp) (fun r hr => c11 r (by simp [hr])) (by simpa using c12) k7 hend
        (by omega)]
      rfl
  rw [hloop]
  rfl

/-! ## Examples -/

section
private def num : List Char → Out Int := fun s => if s = " 1.5".toList then .ok 3 else .ok 0

private theorem ex_cmds : List.Forall₂ (Written num) [["! test".toList]] [.nothing] :=
  .cons (.comment _ "! test".toList [] (tokens_mk ["! test".toList] [] (by unfold Split; decide) (by decide)) (.inr (.inr rfl))) .nil

private theorem ex_header : Header "NBLOCK,3".toList "nblock" ["NBLOCK".toList, "3".toList] :=
  ⟨tokens_mk ["NBLOCK".toList, "3".toList] [','] (by unfold Split; decide) (by decide), "NBLOCK".toList, rfl, by decide⟩

private theorem ex_begun : Begun num [3, 4, 4, 4] ["NBLOCK,3".toList, "(1i3,3e4.1)".toList, "  7 1.5".toList] (.nodes [(7, 3, 0, 0)]) := by
  refine .nblock _ ["NBLOCK".toList, "3".toList] ex_header "(1i3,3e4.1)".toList 1 3 3 4 ?_ (by decide) (by decide) ["  7 1.5".toList] _ (.cons ?_ .nil)
  · exact ⟨[], "1".toList, 'i', "3".toList, "3".toList, 'e', "4".toList, "1".toList, [], rfl, by simp [Blanks], by simp [Blanks],
      ⟨by decide, by decide⟩, ⟨by decide, by decide⟩, ⟨by decide, by decide⟩, ⟨by decide, by decide⟩, .inl rfl, .inl rfl, by decide, by decide,
      by decide, by decide, by decide, by decide, by decide, by decide, by decide, by decide⟩
  · exact ⟨"  7".toList, [], [" 1.5".toList], ⟨⟨2, by decide⟩, [], by decide, .inl rfl⟩, rfl,
      ⟨"  ".toList, [], "7".toList, [], rfl, by unfold Blanks; decide, ⟨by decide, by decide⟩, by simp, .inl ⟨.inl rfl, by decide⟩⟩, by decide,
      by decide, by simp [Coord, num], by simp [Coord], by simp [Coord]⟩

/-- The hypotheses of `C103_cut_violated`: a file that ends after its first node. -/
example : ∃ f0, ∀ fuel, f0 ≤ fuel → readCdb num fuel "! test\nNBLOCK,3\n(1i3,3e4.1)\n  7 1.5\n".toList =
    .ok ⟨[], [], ⟨[], [], [], [], [], []⟩, [7], [(3, 0, 0)], [], [], [], []⟩ :=
  C103_cut_violated num _ _ ex_cmds (by decide) ex_begun
    ⟨[("! test".toList, .LF), ("NBLOCK,3".toList, .LF), ("(1i3,3e4.1)".toList, .LF), ("  7 1.5".toList, .LF)], [], by unfold Plain; decide,
      by unfold Plain; decide, by simp [NoMerge], by decide, by decide⟩

/-- The hypotheses of `C103_torn_partial`: the second node ends inside its first coordinate. -/
example : ∃ f0, ∀ fuel, f0 ≤ fuel → readCdb num fuel "! test\nNBLOCK,3\n(1i3,3e4.1)\n  7 1.5\n  8 2".toList = .error .fatal :=
  C103_torn_partial num _ _ ex_cmds (by decide) ex_begun (line := "  8 2".toList) (rest := [])
    ⟨⟨"  ".toList, '8', " 2".toList, by decide, by unfold Blanks; decide, by decide, by decide, by decide, by decide⟩, by decide, fun k => by
      match k with
      | 0 => decide
      | 1 => decide
      | 2 => decide
      | 3 => decide
      | k + 4 => simp⟩
    ⟨[("! test".toList, .LF), ("NBLOCK,3".toList, .LF), ("(1i3,3e4.1)".toList, .LF), ("  7 1.5".toList, .LF)], "  8 2".toList, by unfold Plain; decide,
      by unfold Plain; decide, by simp [NoMerge], by decide, by decide⟩

/-- The hypotheses of `C103_blank_violated`: a blank line after the first node. -/
example : ∃ f0, ∀ fuel, f0 ≤ fuel → readCdb num fuel "! test\nNBLOCK,3\n(1i3,3e4.1)\n  7 1.5\n \n-1".toList = .error .ub :=
  C103_blank_violated num _ _ ex_cmds (by decide) ex_begun (line := " ".toList) (rest := ["-1".toList]) (by unfold Blanks; decide)
    ⟨[("! test".toList, .LF), ("NBLOCK,3".toList, .LF), ("(1i3,3e4.1)".toList, .LF), ("  7 1.5".toList, .LF), (" ".toList, .LF)], "-1".toList,
      by unfold Plain; decide, by unfold Plain; decide, by simp [NoMerge], by decide, by decide⟩

private theorem ex_format : ¬ NForm "(1i3,3e4.1)x".toList := by
  rintro ⟨sp, A, c, B, C, e, D, P, tl, h, _, h2, _⟩
  have hl : (sp ++ ('(' :: A ++ c :: B ++ ',' :: C ++ e :: D ++ '.' :: P ++ [')']) ++ tl).getLast? = some 'x' := by rw [← h]; decide
  cases tl using List.reverseRecOn with
  | nil =>
    rw [List.append_nil, ← List.append_assoc, List.getLast?_concat] at hl
    simp at hl
  | append_singleton l a =>
    rw [← List.append_assoc, List.getLast?_concat] at hl
    rcases h2 a (by simp) with h | h <;> simp [h] at hl

/-- The hypotheses of `C103_format_partial`: text behind the format. -/
example : ∃ f0, ∀ fuel, f0 ≤ fuel → readCdb num fuel "! test\nNBLOCK,3\n(1i3,3e4.1)x\n  7 1.5\n-1".toList = .error .fatal :=
  C103_format_partial num _ _ ex_cmds (by decide) (line := "NBLOCK,3".toList) (fmt := "(1i3,3e4.1)x".toList)
    (rest := ["  7 1.5".toList, "-1".toList]) (.inl ⟨_, ex_header, ex_format⟩)
    ⟨[("! test".toList, .LF), ("NBLOCK,3".toList, .LF), ("(1i3,3e4.1)x".toList, .LF), ("  7 1.5".toList, .LF)], "-1".toList, by unfold Plain; decide,
      by unfold Plain; decide, by simp [NoMerge], by decide, by decide⟩

/-- The hypotheses of `C103_header_partial`. -/
example : ∃ f0, ∀ fuel, f0 ≤ fuel → readCdb num fuel "! test\nNBLOCK,3".toList = .error .fatal :=
  C103_header_partial num _ _ ex_cmds (by decide) (line := "NBLOCK,3".toList) (.inl ⟨_, ex_header⟩)
    ⟨[("! test".toList, .LF)], "NBLOCK,3".toList, by unfold Plain; decide, by unfold Plain; decide, by simp [NoMerge], by decide, by decide⟩

/-- The hypotheses of `C103_component_violated`: one of two numbers is there. -/
example : ∃ f0, ∀ fuel, f0 ≤ fuel → readCdb num fuel "! test\nCMBLOCK,A,NODE,2\n(1i2)\n 7\n".toList = .error .ub :=
  C103_component_violated num _ _ ex_cmds (by decide) (tail := ["CMBLOCK,A,NODE,2".toList, "(1i2)".toList, " 7".toList])
    ⟨"CMBLOCK,A,NODE,2".toList, ["CMBLOCK".toList, "A".toList, "NODE".toList, "2".toList], "A".toList, .NODES, [.single 7, .single 8], "(1i2)".toList, 1, 2,
      [[" 7".toList]], [7], [8], by decide,
      ⟨tokens_mk ["CMBLOCK".toList, "A".toList, "NODE".toList, "2".toList] [',', ',', ','] (by unfold Split; decide) (by decide), "CMBLOCK".toList,
        rfl, by decide⟩, by simp [Item.Ok],
      ⟨rfl, by decide, ⟨_, rfl, .inl ⟨by decide, rfl⟩⟩, ⟨_, rfl, [], [], "2".toList, [], rfl, by simp [Blanks], ⟨by decide, by decide⟩, by simp,
        .inl ⟨.inl rfl, by decide⟩⟩, by decide⟩, by decide,
      ⟨[], "1".toList, 'i', "2".toList, [], rfl, by simp [Blanks], by simp [Blanks], ⟨by decide, by decide⟩, ⟨by decide, by decide⟩, .inl rfl,
        by decide, by decide, by decide, by decide⟩, by decide, by decide, by simp [Rows], by simp,
      .cons ⟨" ".toList, [], "7".toList, [], rfl, by unfold Blanks; decide, ⟨by decide, by decide⟩, by simp, .inl ⟨.inl rfl, by decide⟩⟩ .nil,
      by decide, by decide⟩
    ⟨[("! test".toList, .LF), ("CMBLOCK,A,NODE,2".toList, .LF), ("(1i2)".toList, .LF), (" 7".toList, .LF)], [], by unfold Plain; decide,
      by unfold Plain; decide, by simp [NoMerge], by decide, by decide⟩
end

end Nla3d.Cdb
