import Verif.Cdb.Model
import Verif.Text.Props
import Mathlib.Data.Nat.Digits.Defs
import Mathlib.Tactic.Ring

/-!
# Numbers, format strings and lines: specification and what the reader makes of them
-/

namespace Nla3d.Cdb

open Nla3d.Text

/-- Specification: the number written by decimal digits. -/
def value (ds : List Char) : Nat := Nat.ofDigits 10 (ds.reverse.map fun c => c.toNat - '0'.toNat)

def Digits (ds : List Char) : Prop := ds ≠ [] ∧ ∀ c ∈ ds, c.isDigit = true

def Blanks (s : List Char) : Prop := ∀ c ∈ s, c = ' ' ∨ c = '\t'

/-- Specification: `f` is the decimal notation of `z`, possibly after blanks and before a rest that does not start with a digit. -/
def Numeral (f : List Char) (z : Int) : Prop :=
  ∃ sp sg ds tl, f = sp ++ sg ++ ds ++ tl ∧ Blanks sp ∧ Digits ds ∧ (∀ c, tl.head? = some c → c.isDigit = false) ∧
    ((sg = [] ∨ sg = ['+']) ∧ z = value ds ∨ sg = ['-'] ∧ z = -(value ds : Int))

theorem digitsVal_eq (ds : List Char) : digitsVal ds = value ds := by
  have h : ∀ (ds : List Char) (n : Nat), ds.foldl (fun n c => 10 * n + (c.toNat - 48)) n = n * 10 ^ ds.length + value ds := by
    intro ds
    induction ds with
    | nil => intro n; simp [value]
    | cons c ds ih =>
      intro n
      rw [List.foldl_cons, ih]
      unfold value
      rw [List.reverse_cons, List.map_append, Nat.ofDigits_append]
      simp only [List.length_map, List.length_reverse, List.length_cons, List.map_cons, List.map_nil, Nat.ofDigits_singleton]
      have : '0'.toNat = 48 := by decide
      rw [this]
      ring
  unfold digitsVal
  rw [h]
  simp

theorem digit_not_space {c : Char} (h : c.isDigit = true) : isSpace c = false := by
  unfold isSpace
  simp only [List.contains_cons, List.contains_nil, Bool.or_false, Bool.or_eq_false_iff, beq_eq_false_iff_ne]
  refine ⟨?_, ?_, ?_, ?_, ?_, ?_⟩ <;> (rintro rfl; revert h; decide)

theorem blank_space {c : Char} (h : c = ' ' ∨ c = '\t') : isSpace c = true := by
  rcases h with rfl | rfl <;> decide

theorem blank_not_digit {c : Char} (h : c = ' ' ∨ c = '\t') : c.isDigit = false := by
  rcases h with rfl | rfl <;> decide

theorem takeWhile_digits {ds tl : List Char} (h : Digits ds) (ht : ∀ c, tl.head? = some c → c.isDigit = false) :
    (ds ++ tl).takeWhile Char.isDigit = ds ∧ (ds ++ tl).dropWhile Char.isDigit = tl := by
  rw [List.takeWhile_append_of_pos h.2, List.dropWhile_append_of_pos h.2]
  cases tl with
  | nil => simp
  | cons c tl =>
    have := ht c rfl
    simp [List.takeWhile_cons, List.dropWhile_cons, this]

theorem leadingNat_eq {ds tl : List Char} (h : Digits ds) (ht : ∀ c, tl.head? = some c → c.isDigit = false) : leadingNat (ds ++ tl) = .ok (value ds) := by
  unfold leadingNat
  have hd := (takeWhile_digits (tl := tl) h ht).1
  simp only [hd]
  rw [if_neg (by simp [h.1]), digitsVal_eq]

theorem stoi_numeral {f : List Char} {z : Int} (h : Numeral f z) (hz : -2147483648 ≤ z ∧ z ≤ 2147483647) : stoi f = .ok z := by
  obtain ⟨sp, sg, ds, tl, rfl, hsp, hds, htl, hsg⟩ := h
  have hin : inInt z = true := by unfold inInt; simp [hz]
  have hdrop : ∀ x : List Char, (∀ c, x.head? = some c → isSpace c = false) → (sp ++ x).dropWhile isSpace = x := by
    intro x hx
    rw [List.dropWhile_append_of_pos (fun c hc => blank_space (hsp c hc))]
    cases x with
    | nil => rfl
    | cons c x => rw [List.dropWhile_cons, if_neg (by simp [hx c rfl])]
  have hl := leadingNat_eq hds htl
  unfold stoi
  rw [List.append_assoc, List.append_assoc]
  rcases hsg with ⟨rfl | rfl, rfl⟩ | ⟨rfl, rfl⟩
  · obtain ⟨c, ds', rfl⟩ := List.exists_cons_of_ne_nil hds.1
    have hc := hds.2 c (by simp)
    rw [hdrop _ (by intro c' h'; simp at h'; rw [← h']; exact digit_not_space hc)]
    have h1 : c ≠ '-' := by rintro rfl; revert hc; decide
    have h2 : c ≠ '+' := by rintro rfl; revert hc; decide
    simp only [List.nil_append, List.cons_append] at hl ⊢
    split
    · rename_i e; injection e with e1 _; exact absurd e1 h1
    · rename_i e; injection e with e1 _; exact absurd e1 h2
    · rw [hl]; show (if inInt _ then _ else _) = _; rw [if_pos hin]
  · rw [hdrop _ (by intro c' h'; simp at h'; rw [← h']; decide)]
    show ((do let z ← (leadingNat (ds ++ tl)).map fun n => (n : Int); if inInt z then Except.ok z else .error .exn) : Out Int) = _
    rw [hl]; show (if inInt _ then _ else _) = _; rw [if_pos hin]
  · rw [hdrop _ (by intro c' h'; simp at h'; rw [← h']; decide)]
    show ((do let z ← (leadingNat (ds ++ tl)).map fun n => -(n : Int); if inInt z then Except.ok z else .error .exn) : Out Int) = _
    rw [hl]; show (if inInt _ then _ else _) = _; rw [if_pos hin]

theorem stoi_digits {ds : List Char} (h : Digits ds) (hz : value ds ≤ 2147483647) : stoi ds = .ok (value ds) :=
  stoi_numeral ⟨[], [], ds, [], by simp, by simp [Blanks], h, by simp, .inl ⟨.inl rfl, rfl⟩⟩ (by omega)

theorem toU32_nat {n : Nat} (h : n ≤ 2147483647) : toU32 (n : Int) = n := by
  unfold toU32; omega

/-! ## Format strings -/

/-- Specification: a format `(niw)`, in either case and possibly between blanks. -/
def IFormat (line : List Char) (n w : Nat) : Prop :=
  ∃ sp A c B tl, line = sp ++ ('(' :: A ++ c :: B ++ [')']) ++ tl ∧ Blanks sp ∧ Blanks tl ∧ Digits A ∧ Digits B ∧
    (c = 'i' ∨ c = 'I') ∧ value A = n ∧ value B = w ∧ n ≤ 2147483647 ∧ w ≤ 2147483647

/-- Specification: a format `(niw,mev.p)`. -/
def NFormat (line : List Char) (n w m v : Nat) : Prop :=
  ∃ sp A c B C e D P tl, line = sp ++ ('(' :: A ++ c :: B ++ ',' :: C ++ e :: D ++ '.' :: P ++ [')']) ++ tl ∧ Blanks sp ∧ Blanks tl ∧
    Digits A ∧ Digits B ∧ Digits C ∧ Digits D ∧ (c = 'i' ∨ c = 'I') ∧ (e = 'e' ∨ e = 'E') ∧
    P ≠ [] ∧ (∀ x ∈ P, x.isDigit = true ∨ x = 'e' ∨ x = 'E') ∧
    value A = n ∧ value B = w ∧ value C = m ∧ value D = v ∧ n ≤ 2147483647 ∧ w ≤ 2147483647 ∧ m ≤ 2147483647 ∧ v ≤ 2147483647

theorem toLower_digit {c : Char} (h : c.isDigit = true) : c.toLower = c := by
  unfold Char.toLower
  unfold Char.isDigit at h
  simp only [Bool.and_eq_true, decide_eq_true_eq, ge_iff_le] at h
  split
  · rename_i h2
    exfalso
    obtain ⟨_, h3⟩ := h
    obtain ⟨h4, _⟩ := h2
    have := UInt32.le_iff_toNat_le.mp h3
    have := UInt32.le_iff_toNat_le.mp h4
    simp at *
    omega
  · rfl

theorem map_toLower_digits {ds : List Char} (h : Digits ds) : ds.map Char.toLower = ds := by
  exact (List.map_congr_left fun c hc => toLower_digit (h.2 c hc)).trans (List.map_id' ds)

theorem trim_format {sp body tl : List Char} (hs : Blanks sp) (ht : Blanks tl) (h1 : ∀ c, body.head? = some c → c ≠ ' ' ∧ c ≠ '\t')
    (h2 : ∀ c, body.getLast? = some c → c ≠ ' ' ∧ c ≠ '\t') : strim (sp ++ body ++ tl) = body :=
  (C57_strim _ _).mpr ⟨sp, tl, rfl, hs, ht, h1, h2⟩

theorem digits1_eq {A s : List Char} {c : Char} (h : Digits A) (hc : c.isDigit = false) : digits1 (A ++ c :: s) = some (A, c :: s) := by
  unfold digits1
  obtain ⟨h1, h2⟩ := takeWhile_digits (tl := c :: s) h (by intro c' hc'; simp at hc'; rw [← hc']; exact hc)
  simp only [h1, h2]
  rw [if_neg (by simp [h.1])]

theorem matchI_format {line : List Char} {n w : Nat} (h : IFormat line n w) : ∃ A B, matchI (stolower (strim line)) = some (A, B) ∧
    stoi A = .ok (n : Int) ∧ stoi B = .ok (w : Int) := by
  obtain ⟨sp, A, c, B, tl, rfl, hs, ht, hA, hB, hc, rfl, rfl, hn, hw⟩ := h
  refine ⟨A, B, ?_, stoi_digits hA hn, stoi_digits hB hw⟩
  rw [trim_format hs ht (by simp) (by
    intro c hc
    rw [List.getLast?_append_of_ne_nil _ (by simp)] at hc
    simp at hc
    rw [← hc]; decide)]
  unfold stolower
  have hl : ('(' :: A ++ c :: B ++ [')']).map Char.toLower = '(' :: (A ++ 'i' :: (B ++ [')'])) := by
    have h1 : '('.toLower = '(' := by decide
    have h2 : c.toLower = 'i' := by rcases hc with rfl | rfl <;> decide
    have h3 : ')'.toLower = ')' := by decide
    simp [map_toLower_digits hA, map_toLower_digits hB, h1, h2, h3]
  rw [hl]
  unfold matchI
  simp only [digits1_eq hA (c := 'i') (by decide), digits1_eq hB (c := ')') (s := []) (by decide), Option.bind_eq_bind, Option.bind_some,
    if_true]

theorem matchN_format {line : List Char} {n w m v : Nat} (h : NFormat line n w m v) :
    ∃ A B C D, matchN (stolower (strim line)) = some (A, B, C, D) ∧
      stoi A = .ok (n : Int) ∧ stoi B = .ok (w : Int) ∧ stoi C = .ok (m : Int) ∧ stoi D = .ok (v : Int) := by
  obtain ⟨sp, A, c, B, C, e, D, P, tl, rfl, hs, ht, hA, hB, hC, hD, hc, he, hP, hP', rfl, rfl, rfl, rfl, h1, h2, h3, h4⟩ := h
  refine ⟨A, B, C, D, ?_, stoi_digits hA h1, stoi_digits hB h2, stoi_digits hC h3, stoi_digits hD h4⟩
  rw [trim_format hs ht (by simp) (by
    intro c hc
    rw [List.getLast?_append_of_ne_nil _ (by simp)] at hc
    simp at hc
    rw [← hc]; decide)]
  unfold stolower
  have hl : ('(' :: A ++ c :: B ++ ',' :: C ++ e :: D ++ '.' :: P ++ [')']).map Char.toLower =
      '(' :: (A ++ 'i' :: (B ++ ',' :: (C ++ 'e' :: (D ++ '.' :: (P.map Char.toLower ++ [')']))))) := by
    have h1 : '('.toLower = '(' := by decide
    have h2 : c.toLower = 'i' := by rcases hc with rfl | rfl <;> decide
    have h3 : ')'.toLower = ')' := by decide
    have h4 : ','.toLower = ',' := by decide
    have h5 : e.toLower = 'e' := by rcases he with rfl | rfl <;> decide
    have h6 : '.'.toLower = '.' := by decide
    simp [map_toLower_digits hA, map_toLower_digits hB, map_toLower_digits hC, map_toLower_digits hD, h1, h2, h3, h4, h5, h6]
  rw [hl]
  have hQ : ∀ x ∈ P.map Char.toLower, (x.isDigit || x == 'e') = true := by
    intro x hx
    obtain ⟨y, hy, rfl⟩ := List.mem_map.mp hx
    rcases hP' y hy with h | rfl | rfl
    · rw [toLower_digit h, h]; rfl
    · decide
    · decide
  have hQ0 : P.map Char.toLower ≠ [] := by simpa using hP
  generalize P.map Char.toLower = Q at hQ hQ0
  have t1 : (Q ++ [')']).takeWhile (fun c => c.isDigit || c == 'e') = Q := by
    rw [List.takeWhile_append_of_pos hQ]
    simp
  have t2 : (Q ++ [')']).dropWhile (fun c => c.isDigit || c == 'e') = [')'] := by
    rw [List.dropWhile_append_of_pos hQ]
    simp
  unfold matchN
  simp only [digits1_eq hA (c := 'i') (by decide), digits1_eq hB (c := ',') (by decide), digits1_eq hC (c := 'e') (by decide),
    digits1_eq hD (c := '.') (by decide), Option.bind_eq_bind, Option.bind_some, t1, t2, if_true]
  rw [if_neg (by simp [hQ0])]

/-! ## Lines -/

/-- The stream `is` delivers the given lines and then is in the state `is'`. -/
def Feeds : Stream → List (List Char) → Stream → Prop
  | is, [], is' => is = is'
  | is, l :: ls, is' => ∃ is1, getLine is = (l, is1) ∧ is1.eof = false ∧ Feeds is1 ls is'

theorem Feeds.append {is is1 is2 : Stream} {a b : List (List Char)} (h1 : Feeds is a is1) (h2 : Feeds is1 b is2) : Feeds is (a ++ b) is2 := by
  induction a generalizing is with
  | nil => obtain rfl := h1; exact h2
  | cons l a ih =>
    obtain ⟨i, h3, h4, h5⟩ := h1
    exact ⟨i, h3, h4, ih h5⟩

theorem Feeds.split {is is2 : Stream} {a b : List (List Char)} (h : Feeds is (a ++ b) is2) : ∃ is1, Feeds is a is1 ∧ Feeds is1 b is2 := by
  induction a generalizing is with
  | nil => exact ⟨is, rfl, h⟩
  | cons l a ih =>
    obtain ⟨i, h3, h4, h5⟩ := h
    obtain ⟨i1, h6, h7⟩ := ih h5
    exact ⟨i1, ⟨i, h3, h4, h6⟩, h7⟩

theorem feeds_readLines (n : Nat) : ∀ (is : Stream), is.rest.length ≤ n → ∃ is', Feeds is (readLines is) is' ∧ (getLine is').2.eof = true := by
  induction n with
  | zero =>
    intro is h
    rw [readLines]
    split
    · rename_i he; exact ⟨is, rfl, he⟩
    · rename_i he
      have := getLine_length is (by simpa using he)
      omega
  | succ n ih =>
    intro is h
    rw [readLines]
    split
    · rename_i he; exact ⟨is, rfl, he⟩
    · rename_i he
      have hl := getLine_length is (by simpa using he)
      obtain ⟨is', h1, h2⟩ := ih (getLine is).2 (by omega)
      exact ⟨is', ⟨(getLine is).2, rfl, by simpa using he, h1⟩, h2⟩

/-- Specification: the tokens of a line are its pieces between commas, without the blanks around them. -/
def Tokens (line : List Char) (toks : List (List Char)) : Prop :=
  ∃ pieces ds, Split [','] line pieces ds ∧ List.Forall₂ Trimmed pieces toks

theorem tokensOf_eq {line : List Char} {toks : List (List Char)} (h : Tokens line toks) : tokensOf line = toks := by
  obtain ⟨ps, ds, h1, h2⟩ := h
  obtain ⟨ps', ds', h3, h4, h5⟩ := C57_tokenize [','] line false
  obtain ⟨rfl, rfl⟩ := h4 ps ds h1
  unfold tokensOf
  rw [h5]
  simp only [Bool.false_eq_true, if_false]
  clear h1 h3 h4 h5
  induction h2 with
  | nil => rfl
  | cons h _ ih => rw [List.map_cons, ih, (C57_strim _ _).mpr h]

theorem lift_iequals (a b : List Char) : lift (iequals a b) = .ok (decide (a.map Char.toLower = b.map Char.toLower)) := by
  rw [C57_iequals]; rfl

theorem read_some {α : Type} {v : List α} {i : Nat} {a : α} (h : v[i]? = some a) : read v i = .ok a := by
  unfold read; rw [h]

@[simp] theorem out_bind {α β : Type} (a : α) (f : α → Out β) : ((Except.ok a : Out α) >>= f) = f a := rfl
@[simp] theorem err_bind {α β : Type} (e : Stop) (f : α → Out β) : ((Except.error e : Out α) >>= f) = .error e := rfl

end Nla3d.Cdb
