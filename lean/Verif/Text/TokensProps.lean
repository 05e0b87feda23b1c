import Verif.Text.Tokens
import Mathlib.Data.List.Basic
import Mathlib.Tactic.Linarith

/-!
# C119: cutting a line into tokens
-/

namespace Nla3d.Tokens

/-! ## Specification -/

/-- Blanks only. -/
def Blank (s : List Char) : Prop := ∀ c ∈ s, c = ' '

/-- `t` is `s` without the blanks at its ends, and is not empty. -/
def Trimmed (s t : List Char) : Prop :=
  ∃ a b, Blank a ∧ Blank b ∧ s = a ++ t ++ b ∧ t ≠ [] ∧ t.head? ≠ some ' ' ∧ t.getLast? ≠ some ' '

/-- What the code makes of a piece of text: blanks only become one blank. -/
def Stripped (s t : List Char) : Prop := (s = [] ∧ t = []) ∨ (s ≠ [] ∧ Blank s ∧ t = [' ']) ∨ Trimmed s t

/-- `text` consists of the pieces `ps`, separated by the delimiters `ds`. -/
inductive Split : List Char → List (List Char) → List Char → Prop
  | last {p : List Char} : (∀ c ∈ p, c ∉ ['(', ')', ',']) → Split p [p] []
  | cons {p text : List Char} {d : Char} {ps : List (List Char)} {ds : List Char} : (∀ c ∈ p, c ∉ ['(', ')', ',']) → d ∈ ['(', ')', ','] →
      Split text ps ds → Split (p ++ d :: text) (p :: ps) (d :: ds)

/-- Tokens and delimiters in turns. -/
def weave : List (List Char) → List Char → List (List Char)
  | t :: ts, d :: ds => t :: [d] :: weave ts ds
  | ts, _ => ts

/-- The text before the comment. -/
def beforeComment (input : List Char) : List Char := input.takeWhile (· ≠ '!')

/-! ## Stripping -/

theorem charAt_lt {s : List Char} {i : Nat} (h : i < s.length) : charAt s i = .ok s[i] := by
  unfold charAt
  rw [List.getElem?_eq_getElem h]

theorem w16_small {n : Nat} (h : n < 65536) : w16 n = n := by unfold w16; omega

theorem skipFront_blank {s : List Char} (hs : s.length < 65536) (hb : Blank s) :
    ∀ (k fuel start : Nat), s.length - start = k → start < s.length → k < fuel → skipFront s fuel start = some (.ok none)
  | k, 0, _, _, _, h => by omega
  | k, fuel + 1, start, hk, h1, hf => by
    unfold skipFront
    rw [charAt_lt h1]
    simp only [hb _ (List.getElem_mem h1), if_true]
    have : w16 ((start : Int) + 1) = start + 1 := by unfold w16; omega
    rw [this]
    split
    · rfl
    · exact skipFront_blank hs hb (k - 1) fuel (start + 1) (by omega) (by omega) (by omega)

theorem skipFront_found {a r : List Char} {x : Char} (hx : x ≠ ' ') (ha : Blank a) (hs : a.length < 65536) :
    ∀ (k fuel start : Nat), a.length - start = k → start ≤ a.length → k < fuel →
      skipFront (a ++ x :: r) fuel start = some (.ok (some a.length))
  | k, 0, _, _, _, h => by omega
  | k, fuel + 1, start, hk, h1, hf => by
    unfold skipFront
    rw [charAt_lt (by simp; omega)]
    by_cases h : start < a.length
    · have e : (a ++ x :: r)[start]'(by simp; omega) = ' ' := by
        rw [List.getElem_append_left h]; exact ha _ (List.getElem_mem h)
      simp only [e, if_true]
      have : w16 ((start : Int) + 1) = start + 1 := by unfold w16; omega
      rw [this, if_neg (by simp; omega)]
      exact skipFront_found hx ha hs (k - 1) fuel (start + 1) (by omega) (by omega) (by omega)
    · have : start = a.length := by omega
      subst this
      simp [hx]

theorem skipBack_found {r b : List Char} {x : Char} (hx : x ≠ ' ') (hb : Blank b) :
    ∀ (k fuel e : Nat), e - r.length = k → r.length ≤ e → e < r.length + 1 + b.length → e < 65536 → k < fuel →
      skipBack (r ++ x :: b) fuel e = some (.ok r.length)
  | k, 0, _, _, _, _, _, h => by omega
  | k, fuel + 1, e, hk, h1, h2, h3, hf => by
    unfold skipBack
    rw [charAt_lt (by simp; omega)]
    by_cases h : e = r.length
    · subst h
      simp [hx]
    · have e1 : (r ++ x :: b)[e]'(by simp; omega) = ' ' := by
        rw [List.getElem_append_right (by omega)]
        obtain ⟨j, hj⟩ : ∃ j, e - r.length = j + 1 := ⟨e - r.length - 1, by omega⟩
        simp only [hj, List.getElem_cons_succ]
        exact hb _ (List.getElem_mem _)
      simp only [e1, if_true]
      have : w16 ((e : Int) - 1) = e - 1 := by unfold w16; omega
      rw [this]
      exact skipBack_found hx hb (k - 1) fuel (e - 1) (by omega) (by omega) (by omega) (by omega) (by omega)

/-- Every text can be stripped in one way only. -/
theorem stripped_exists (s : List Char) : ∃ t, Stripped s t := by
  by_cases h0 : s = []
  · exact ⟨[], Or.inl ⟨h0, rfl⟩⟩
  by_cases hb : Blank s
  · exact ⟨[' '], Or.inr (Or.inl ⟨h0, hb, rfl⟩)⟩
  · have front : ∀ s : List Char, ¬ Blank s → ∃ a x r, Blank a ∧ x ≠ ' ' ∧ s = a ++ x :: r := by
      intro s
      induction s with
      | nil => intro h; exact absurd (fun c hc => by simp at hc) h
      | cons c s ih =>
        intro h
        by_cases hc : c = ' '
        · obtain ⟨a, x, r, h1, h2, h3⟩ := ih (fun hb => h (fun d hd => by
            rcases List.mem_cons.mp hd with rfl | hd
            · exact hc
            · exact hb d hd))
          refine ⟨c :: a, x, r, ?_, h2, by rw [h3]; rfl⟩
          intro d hd
          rcases List.mem_cons.mp hd with rfl | hd
          · exact hc
          · exact h1 d hd
        · exact ⟨[], c, s, fun d hd => by simp at hd, hc, rfl⟩
    obtain ⟨a, x, r, h1, h2, h3⟩ := front s hb
    obtain ⟨b, y, q, g1, g2, g3⟩ := front (x :: r).reverse (fun hb' => h2 (hb' x (by simp)))
    have g4 : x :: r = q.reverse ++ [y] ++ b.reverse := by
      have := congrArg List.reverse g3
      rw [List.reverse_reverse] at this
      rw [this]
      simp
    refine ⟨q.reverse ++ [y], Or.inr (Or.inr ⟨a, b.reverse, h1, fun c hc => g1 c (by simpa using hc), ?_, by simp, ?_, ?_⟩)⟩
    · rw [h3, g4]; simp
    · cases hq : q.reverse with
      | nil =>
        rw [hq] at g4
        have := congrArg List.head? g4
        simp at this
        simp [← this, h2]
      | cons z q' =>
        rw [hq] at g4
        have := congrArg List.head? g4
        simp at this
        simp [← this, h2]
    · simp [g2]

/-- **C119, del_spaces**: texts of less than 65536 characters are stripped. -/
theorem C119_strip {s t : List Char} (h : Stripped s t) (hs : s.length < 65536) {fuel : Nat} (hf : s.length < fuel) :
    delSpaces fuel s = some (.ok t) := by
  rcases h with ⟨rfl, rfl⟩ | ⟨h0, hb, rfl⟩ | ⟨a, b, ha, hb, rfl, h0, h1, h2⟩
  · simp [delSpaces]
  · unfold delSpaces
    have : 0 < s.length := List.length_pos_iff.mpr h0
    rw [if_neg (by omega), skipFront_blank hs hb s.length fuel 0 (by omega) this hf]
  · unfold delSpaces
    obtain ⟨x, r, rfl⟩ := List.exists_cons_of_ne_nil h0
    have hx : x ≠ ' ' := by simpa using h1
    obtain ⟨q, y, hq⟩ : ∃ q y, x :: r = q ++ [y] := ⟨(x :: r).dropLast, (x :: r).getLast h0, (List.dropLast_append_getLast h0).symm⟩
    have hy : y ≠ ' ' := by rw [hq] at h2; simpa using h2
    have hlen : (x :: r).length = q.length + 1 := by rw [hq]; simp
    simp only [List.length_append, List.length_cons] at hs hf hlen
    rw [if_neg (by simp)]
    have e1 : a ++ x :: r ++ b = a ++ x :: (r ++ b) := by simp
    have e2 : a ++ x :: r ++ b = (a ++ q) ++ y :: b := by rw [hq]; simp
    have f1 := skipFront_found (r := r ++ b) hx ha (by omega) a.length fuel 0 (by omega) (by omega) (by omega)
    rw [← e1] at f1
    have e3 : w16 (((a ++ x :: r ++ b).length : Int) - 1) = (a ++ q).length + b.length := by
      rw [e2]
      unfold w16
      simp
      omega
    have f2 := skipBack_found (r := a ++ q) hy hb b.length fuel ((a ++ q).length + b.length) (by omega) (by omega) (by omega)
      (by simp; omega) (by omega)
    rw [← e2] at f2
    rw [f1, e3]
    simp only [f2]
    simp only [Res.ok_bind, Option.some.injEq, Res.ok.injEq]
    unfold cut
    rw [if_pos (by simp; omega)]
    have e4 : (a ++ q).length + 1 - a.length = (x :: r).length := by simp; omega
    rw [e4, show a ++ x :: r ++ b = a ++ (x :: r ++ b) by simp, List.drop_left, List.take_left]

/-- Stripping has one result. -/
theorem C119_unique {s t t' : List Char} (h : Stripped s t) (h' : Stripped s t') : t = t' := by
  rcases Nat.lt_or_ge s.length 65536 with hs | hs
  · have := (C119_strip h hs (Nat.lt_succ_self _)).symm.trans (C119_strip h' hs (Nat.lt_succ_self _))
    exact Res.ok.inj (Option.some.inj this)
  · -- by the same argument without a machine
    have key : ∀ {a a' r r' : List Char} {x x' : Char}, Blank a → Blank a' → x ≠ ' ' → x' ≠ ' ' → a ++ x :: r = a' ++ x' :: r' →
        x :: r = x' :: r' := by
      intro a
      induction a with
      | nil =>
        intro a' r r' x x' _ ha' hx _ he
        cases a' with
        | nil => exact he
        | cons c a' =>
          simp only [List.nil_append, List.cons_append, List.cons.injEq] at he
          exact absurd (he.1.trans (ha' c (by simp))) hx
      | cons c a ih =>
        intro a' r r' x x' ha ha' hx hx' he
        cases a' with
        | nil =>
          simp only [List.nil_append, List.cons_append, List.cons.injEq] at he
          exact absurd (he.1.symm.trans (ha c (by simp))) hx'
        | cons c' a' =>
          simp only [List.cons_append, List.cons.injEq] at he
          exact ih (fun d hd => ha d (by simp [hd])) (fun d hd => ha' d (by simp [hd])) hx hx' he.2
    have notBlank : ∀ {s t : List Char}, Trimmed s t → ¬ Blank s := by
      rintro s t ⟨a, b, _, _, rfl, h0, h1, _⟩ hb
      obtain ⟨x, r, rfl⟩ := List.exists_cons_of_ne_nil h0
      exact h1 (by simp [hb x (by simp)])
    have notNil : ∀ {s t : List Char}, Trimmed s t → s ≠ [] := by
      rintro s t ⟨a, b, _, _, rfl, h0, _⟩ he
      simp [h0] at he
    rcases h with ⟨e, rfl⟩ | ⟨h0, hb, rfl⟩ | h
    · rcases h' with ⟨_, rfl⟩ | ⟨h0, _⟩ | h'
      · rfl
      · exact absurd e h0
      · exact absurd e (notNil h')
    · rcases h' with ⟨e, _⟩ | ⟨_, _, rfl⟩ | h'
      · exact absurd e h0
      · rfl
      · exact absurd hb (notBlank h')
    · rcases h' with ⟨e, _⟩ | ⟨_, hb, _⟩ | h'
      · exact absurd e (notNil h)
      · exact absurd hb (notBlank h)
      · obtain ⟨a, b, ha, hb, he, h0, h1, h2⟩ := h
        obtain ⟨a', b', ha', hb', he', h0', h1', h2'⟩ := h'
        obtain ⟨x, r, rfl⟩ := List.exists_cons_of_ne_nil h0
        obtain ⟨x', r', rfl⟩ := List.exists_cons_of_ne_nil h0'
        have e1 : x :: (r ++ b) = x' :: (r' ++ b') := key ha ha' (by simpa using h1) (by simpa using h1') (by rw [he] at he'; simpa using he')
        obtain ⟨q, y, hq⟩ : ∃ q y, x :: r = q ++ [y] := ⟨(x :: r).dropLast, (x :: r).getLast h0, (List.dropLast_append_getLast h0).symm⟩
        obtain ⟨q', y', hq'⟩ : ∃ q y, x' :: r' = q ++ [y] :=
          ⟨(x' :: r').dropLast, (x' :: r').getLast h0', (List.dropLast_append_getLast h0').symm⟩
        have e2 : b.reverse ++ y :: q.reverse = b'.reverse ++ y' :: q'.reverse := by
          have : (x :: r) ++ b = (x' :: r') ++ b' := by simpa using e1
          rw [hq, hq'] at this
          have := congrArg List.reverse this
          simpa using this
        have e3 := key (fun c hc => hb c (by simpa using hc)) (fun c hc => hb' c (by simpa using hc)) (by rw [hq] at h2; simpa using h2)
          (by rw [hq'] at h2'; simpa using h2') e2
        rw [hq, hq']
        have := congrArg List.reverse e3
        simpa using this

/-! ## Tokens -/

theorem split_exists (text : List Char) : ∃ ps ds, Split text ps ds := by
  induction text with
  | nil => exact ⟨_, _, .last (p := []) (by simp)⟩
  | cons c text ih =>
    obtain ⟨ps, ds, h⟩ := ih
    by_cases hc : c ∈ ['(', ')', ',']
    · exact ⟨_, _, .cons (p := []) (by simp) hc h⟩
    · cases h with
      | last hp => exact ⟨_, _, .last (p := c :: text) (fun d hd => by
          rcases List.mem_cons.mp hd with rfl | hd
          · exact hc
          · exact hp d hd)⟩
      | @cons p text' d ps ds hp hd hs => exact ⟨_, _, .cons (p := c :: p) (fun d hd => by
          rcases List.mem_cons.mp hd with rfl | hd
          · exact hc
          · exact hp d hd) hd hs⟩

theorem token_ok {fuel : Nat} {pre p rest t : List Char} (hp : p.length < 32768) (ht : Stripped p t) (hf : 32768 ≤ fuel) :
    token fuel (pre ++ (p ++ rest)) pre.length (pre.length + p.length) = some (.ok t) := by
  unfold token
  have e : pre.length + p.length - pre.length = p.length := by omega
  have e2 : s16 p.length = p.length := by unfold s16; rw [Nat.mod_eq_of_lt (by omega), if_pos hp]
  simp only [e, e2]
  rw [if_neg (by omega), List.drop_left, Int.toNat_natCast, List.take_left]
  exact C119_strip ht (by omega) (by omega)

theorem scan_piece {fuel : Nat} {input : List Char} : ∀ (p rest : List Char) (start q : Nat) (vec : List (List Char)),
    (∀ c ∈ p, c ∉ ['(', ')', ',']) → (∀ c ∈ p, c ≠ '!') →
    scan fuel input (p ++ rest) start q vec = scan fuel input rest start (q + p.length) vec
  | [], _, _, _, _, _, _ => rfl
  | c :: p, rest, start, q, vec, h1, h2 => by
    rw [List.cons_append, scan, if_neg (h2 c (by simp)), if_neg (show c ∉ delimiters from h1 c (by simp)),
      scan_piece p rest start (q + 1) vec (fun d hd => h1 d (by simp [hd])) (fun d hd => h2 d (by simp [hd]))]
    congr 1
    simp only [List.length_cons]
    omega

theorem scan_split {fuel : Nat} (hf : 32768 ≤ fuel) {text : List Char} {ps : List (List Char)} {ds : List Char} (h : Split text ps ds) :
    ∀ {pre tail : List Char} {vec : List (List Char)}, (∀ c ∈ text, c ≠ '!') → (tail = [] ∨ ∃ r, tail = '!' :: r) →
    (∀ p ∈ ps, p.length < 32768) → ∃ ts, List.Forall₂ Stripped ps ts ∧
      scan fuel (pre ++ (text ++ tail)) (text ++ tail) pre.length pre.length vec = some (.ok (vec ++ weave ts ds)) := by
  induction h with
  | @last p hp =>
    intro pre tail vec hno htail hlen
    obtain ⟨t, ht⟩ := stripped_exists p
    refine ⟨[t], List.Forall₂.cons ht List.Forall₂.nil, ?_⟩
    rw [scan_piece p tail _ _ _ hp hno]
    have htok := token_ok (pre := pre) (rest := tail) (hlen p (by simp)) ht hf
    rcases htail with rfl | ⟨r, rfl⟩
    · rw [scan, htok]; rfl
    · rw [scan, if_pos rfl, htok]; rfl
  | @cons p text d ps ds hp hd hs ih =>
    intro pre tail vec hno htail hlen
    obtain ⟨t, ht⟩ := stripped_exists p
    have hno' : ∀ c ∈ text, c ≠ '!' := fun c hc => hno c (by simp [hc])
    obtain ⟨ts, h1, h2⟩ := ih (pre := pre ++ (p ++ [d])) (tail := tail) (vec := vec ++ [t, [d]]) hno' htail
      (fun q hq => hlen q (by simp [hq]))
    refine ⟨t :: ts, List.Forall₂.cons ht h1, ?_⟩
    have e1 : (p ++ d :: text) ++ tail = p ++ (d :: (text ++ tail)) := by simp
    have e2 : pre ++ (p ++ d :: (text ++ tail)) = (pre ++ (p ++ [d])) ++ (text ++ tail) := by simp
    have htok := token_ok (pre := pre) (rest := d :: (text ++ tail)) (hlen p (by simp)) ht hf
    rw [e1, scan_piece p _ _ _ _ hp (fun c hc => hno c (by simp [hc])), scan, if_neg (hno d (by simp)),
      if_pos (show d ∈ delimiters from hd)]
    simp only [htok]
    rw [e2]
    have e3 : pre.length + p.length + 1 = (pre ++ (p ++ [d])).length := by simp; omega
    rw [e3, h2]
    simp [weave]

/-- **C119, read_tokens**: the text before the comment is cut at its delimiters; the tokens are the stripped pieces, with the delimiters
between them. Proved for pieces of less than 32768 characters. -/
theorem C119_tokens_partial (input : List Char) : ∃ ps ds, Split (beforeComment input) ps ds ∧
    ((∀ p ∈ ps, p.length < 32768) → ∃ ts, List.Forall₂ Stripped ps ts ∧
      ∀ fuel, 32768 ≤ fuel → readTokens fuel input = some (.ok (weave ts ds))) := by
  obtain ⟨ps, ds, h⟩ := split_exists (beforeComment input)
  refine ⟨ps, ds, h, fun hlen => ?_⟩
  have hsplit : input = beforeComment input ++ input.dropWhile (· ≠ '!') := List.takeWhile_append_dropWhile.symm
  have hno : ∀ c ∈ beforeComment input, c ≠ '!' := by
    intro c hc
    have : ∀ l : List Char, c ∈ l.takeWhile (· ≠ '!') → c ≠ '!' := by
      intro l
      induction l with
      | nil => simp
      | cons x l ih =>
        intro h
        by_cases hx : x = '!'
        · simp [List.takeWhile, hx] at h
        · simp only [List.takeWhile, ne_eq, hx, not_false_eq_true, decide_true, List.mem_cons] at h
          rcases h with rfl | h
          · exact hx
          · exact ih h
    exact this _ hc
  have htail : input.dropWhile (· ≠ '!') = [] ∨ ∃ r, input.dropWhile (· ≠ '!') = '!' :: r := by
    cases hd : input.dropWhile (· ≠ '!') with
    | nil => exact Or.inl rfl
    | cons c r =>
      right
      have := List.head_dropWhile_not (l := input) (fun c => decide (c ≠ '!')) (by rw [hd]; simp)
      simp only [hd, List.head_cons] at this
      exact ⟨r, by simpa using this⟩
  have run : ∀ fuel, 32768 ≤ fuel → ∃ ts, List.Forall₂ Stripped ps ts ∧ readTokens fuel input = some (.ok (weave ts ds)) := by
    intro fuel hf
    obtain ⟨ts, h1, h2⟩ := scan_split hf h (pre := []) (vec := []) hno htail hlen
    refine ⟨ts, h1, ?_⟩
    unfold readTokens
    rw [← hsplit] at h2
    exact h2
  obtain ⟨ts, h1, h9⟩ := run 32768 (le_refl _)
  refine ⟨ts, h1, fun fuel hf => ?_⟩
  obtain ⟨ts', g1, g2⟩ := run fuel hf
  have : ts' = ts := by
    clear g2 h9 run hlen h
    induction h1 generalizing ts' with
    | nil => cases g1; rfl
    | cons a _ ih => cases g1 with
      | cons b g1 => rw [C119_unique b a, ih _ g1]
  rw [g2, this]

/-- A text is split in one way. -/
theorem C119_split_unique {text : List Char} {ps ps' : List (List Char)} {ds ds' : List Char} (h : Split text ps ds)
    (h' : Split text ps' ds') : ps = ps' ∧ ds = ds' := by
  have key : ∀ {p p' r r' : List Char} {d d' : Char}, (∀ c ∈ p, c ∉ ['(', ')', ',']) → (∀ c ∈ p', c ∉ ['(', ')', ',']) →
      d ∈ ['(', ')', ','] → d' ∈ ['(', ')', ','] → p ++ d :: r = p' ++ d' :: r' → p = p' ∧ d = d' ∧ r = r' := by
    intro p
    induction p with
    | nil =>
      intro p' r r' d d' _ hp' hd _ he
      cases p' with
      | nil => simpa using he
      | cons c p' =>
        simp only [List.nil_append, List.cons_append, List.cons.injEq] at he
        exact absurd (he.1 ▸ hd) (hp' c (by simp))
    | cons c p ih =>
      intro p' r r' d d' hp hp' hd hd' he
      cases p' with
      | nil =>
        simp only [List.nil_append, List.cons_append, List.cons.injEq] at he
        exact absurd (he.1.symm ▸ hd') (hp c (by simp))
      | cons c' p' =>
        simp only [List.cons_append, List.cons.injEq] at he
        obtain ⟨g1, g2, g3⟩ := ih (fun x hx => hp x (by simp [hx])) (fun x hx => hp' x (by simp [hx])) hd hd' he.2
        exact ⟨by rw [he.1, g1], g2, g3⟩
  induction h generalizing ps' ds' with
  | @last p hp =>
    cases h' with
    | last _ => exact ⟨rfl, rfl⟩
    | @cons q text d ps ds hq hd hs => exact absurd hd (hp d (by simp))
  | @cons p text d ps ds hp hd hs ih =>
    generalize hg : p ++ d :: text = T at h'
    cases h' with
    | last hq => exact absurd hd (hq d (by rw [← hg]; simp))
    | @cons q text' d' ps' ds' hq hd' hs' =>
      obtain ⟨rfl, rfl, rfl⟩ := key hp hq hd hd' hg
      obtain ⟨rfl, rfl⟩ := ih hs'
      exact ⟨rfl, rfl⟩

/-- Nothing but blanks is lost: tokens and delimiters together are the text. -/
theorem C119_restore {text : List Char} {ps ts : List (List Char)} {ds : List Char} (h : Split text ps ds)
    (hs : List.Forall₂ Stripped ps ts) : (weave ts ds).flatten.filter (· ≠ ' ') = text.filter (· ≠ ' ') := by
  have blank : ∀ {s : List Char}, Blank s → s.filter (· ≠ ' ') = [] := by
    intro s hb
    rw [List.filter_eq_nil_iff]
    intro c hc
    simp [hb c hc]
  have one : ∀ {s t : List Char}, Stripped s t → t.filter (· ≠ ' ') = s.filter (· ≠ ' ') := by
    rintro s t (⟨rfl, rfl⟩ | ⟨_, hb, rfl⟩ | ⟨a, b, ha, hb, rfl, _⟩)
    · rfl
    · rw [blank hb]; rfl
    · rw [List.filter_append, List.filter_append, blank ha, blank hb]; simp
  induction h generalizing ts with
  | last _ =>
    cases hs with
    | cons a b => cases b; simpa [weave] using one a
  | @cons p text d ps ds hp hd _ ih =>
    cases hs with
    | @cons _ t _ ts a b =>
      have := ih b
      have e1 : (weave (t :: ts) (d :: ds)).flatten = t ++ ([d] ++ (weave ts ds).flatten) := by simp [weave]
      rw [e1, List.filter_append, List.filter_append, this, one a, ← List.filter_append, ← List.filter_append]
      simp

/-! ## Violations -/

/-- **C119 is violated for blank pieces**: the token of a piece of blanks is a blank, not the empty text. -/
theorem C119_blank_violated {n : Nat} (hn : 0 < n) (hn' : n < 65536) :
    delSpaces (n + 1) (List.replicate n ' ') = some (.ok [' ']) :=
  C119_strip (Or.inr (Or.inl ⟨by simp; omega, fun c hc => List.eq_of_mem_replicate hc, rfl⟩)) (by simpa using hn') (by simp)

theorem skipFront_endless {n : Nat} (hn : 65536 ≤ n) : ∀ (fuel start : Nat), start < 65536 →
    skipFront (List.replicate n ' ') fuel start = none
  | 0, _, _ => rfl
  | fuel + 1, start, hs => by
    unfold skipFront
    rw [charAt_lt (by simp; omega)]
    have h : w16 ((start : Int) + 1) < 65536 := by unfold w16; omega
    simp only [List.getElem_replicate, if_true, List.length_replicate]
    rw [if_neg (by omega)]
    exact skipFront_endless hn fuel _ h

/-- **C119 is violated for long blank texts**: the loop of `del_spaces` never ends. -/
theorem C119_endless_violated {n : Nat} (hn : 65536 ≤ n) (fuel : Nat) : delSpaces fuel (List.replicate n ' ') = none := by
  unfold delSpaces
  rw [if_neg (by simp; omega), skipFront_endless hn fuel 0 (by omega)]

/-- **C119 is violated for long texts**: of 65537 characters without blanks one is left. -/
theorem C119_cut_violated {x : Char} {r : List Char} (hx : x ≠ ' ') (hr : r.length = 65536) : delSpaces 1 (x :: r) = some (.ok [x]) := by
  unfold delSpaces
  have e : w16 (((x :: r).length : Int) - 1) = 0 := by unfold w16; simp [hr]
  rw [if_neg (by simp), e]
  simp [skipFront, skipBack, charAt, hx, cut]

/-- **C119 is violated for long tokens**: a line of 32768 to 65535 letters ends the program. -/
theorem C119_long_violated {n : Nat} (h1 : 32768 ≤ n) (h2 : n < 65536) (fuel : Nat) :
    readTokens fuel (List.replicate n 'a') = some .fatal := by
  unfold readTokens
  have := scan_piece (fuel := fuel) (input := List.replicate n 'a') (List.replicate n 'a') [] 0 0 []
    (fun c hc => by rw [List.eq_of_mem_replicate hc]; decide) (fun c hc => by rw [List.eq_of_mem_replicate hc]; decide)
  rw [List.append_nil] at this
  rw [this, scan]
  unfold token
  have hs : s16 n < 0 := by
    unfold s16
    rw [Nat.mod_eq_of_lt h2, if_neg (by omega)]
    omega
  simp only [List.length_replicate, Nat.zero_add, Nat.sub_zero, hs, if_true]
  rfl

/-- A line as it is meant. -/
example : readTokens 32768 "fix( 1, UX ,0) ! support".toList =
    some (.ok ["fix".toList, "(".toList, "1".toList, ",".toList, "UX".toList, ",".toList, "0".toList, ")".toList, " ".toList]) := by
  decide +kernel

/-- Its pieces. -/
example : Split (beforeComment "a( b!c".toList) ["a".toList, " b".toList] ['('] :=
  .cons (p := ['a']) (by decide) (by decide) (.last (by decide))

end Nla3d.Tokens
