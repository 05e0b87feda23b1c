import Verif.Cdb.Num
import Verif.Labels.Props

/-!
# Property C56: constraint equations in cdb files
-/

namespace Nla3d.Cdb

open Nla3d.Text
open Nla3d.Dof (DofType)

variable {K : Type}

theorem label2dof_ident (t : DofType) (h : t ≠ .UNDEFINED) : label2dof (Labels.dofIdent t).toList = .ok t := by
  cases t <;> first | exact absurd rfl h | (unfold label2dof; simp only [String.ofList_toList]; rfl)

/-- Specification: the three tokens of a term. -/
def TermText (stod : List Char → Out K) (ts : List (List Char)) (t : Term K) : Prop :=
  ∃ n l c, ts = [n, l, c] ∧ Numeral n t.node ∧ (-2147483648 ≤ t.node ∧ t.node ≤ 2147483647) ∧ t.dof ≠ .UNDEFINED ∧
    l = (Labels.dofIdent t.dof).toList ∧ stod c = .ok t.coef

/-- Specification: a line `CE,R5.0,NODE,` followed by the given terms. -/
def CeLine (stod : List Char → Out K) (line : List Char) (terms : List (Term K)) : Prop :=
  ∃ a b c tss, Tokens line (a :: b :: c :: tss.flatten) ∧ List.Forall₂ (TermText stod) tss terms

/-- Specification: two terms per line, the last line may contain only one. -/
def TwoPerLine {α : Type} : List (List α) → Prop
  | [] => True
  | [r] => r.length = 1 ∨ r.length = 2
  | r :: rs => r.length = 2 ∧ TwoPerLine rs

theorem term_tokens {stod : List Char → Out K} {tss : List (List (List Char))} {terms : List (Term K)}
    (h : List.Forall₂ (TermText stod) tss terms) : ∀ (pre : List (List Char)) i (t : Term K), terms[i]? = some t →
      (∃ ts, (pre ++ tss.flatten)[pre.length + 3 * i]? = some ts ∧ stoi ts = .ok t.node) ∧
      (∃ l, (pre ++ tss.flatten)[pre.length + 3 * i + 1]? = some l ∧ label2dof l = .ok t.dof) ∧
      ∃ c, (pre ++ tss.flatten)[pre.length + 3 * i + 2]? = some c ∧ stod c = .ok t.coef := by
  induction h with
  | nil => intro pre i t h; simp at h
  | cons h1 h2 ih =>
    obtain ⟨n, l, c, rfl, g1, g2, g3, g4, g5⟩ := h1
    intro pre i t ht
    cases i with
    | zero =>
      simp only [List.getElem?_cons_zero, Option.some.injEq] at ht
      subst ht
      refine ⟨⟨n, ?_, stoi_numeral g1 g2⟩, ⟨l, ?_, by rw [g4]; exact label2dof_ident _ g3⟩, c, ?_, g5⟩
      · simp
      · rw [List.getElem?_append_right (by omega)]; simp
      · rw [List.getElem?_append_right (by omega)]; simp
    | succ i =>
      have := ih (pre ++ [n, l, c]) i t (by simpa using ht)
      rw [List.append_assoc, List.length_append] at this
      simp only [List.length_cons, List.length_nil] at this
      rw [List.flatten_cons, show pre.length + 3 * (i + 1) = pre.length + (0 + 1 + 1 + 1) + 3 * i by omega]
      exact this

theorem terms_length {stod : List Char → Out K} {tss : List (List (List Char))} {terms : List (Term K)}
    (h : List.Forall₂ (TermText stod) tss terms) : tss.flatten.length = 3 * terms.length := by
  induction h with
  | nil => rfl
  | cons h1 _ ih =>
    obtain ⟨n, l, c, rfl, _⟩ := h1
    rw [List.flatten_cons, List.length_append, ih, List.length_cons, List.length_cons]
    simp only [List.length_cons, List.length_nil]
    omega

/-- A pass of the loop over the terms of a line. -/
theorem ceTerms_step {stod : List Char → Out K} {line : List Char} {terms : List (Term K)} (h : CeLine stod line terms) (fuel i : Nat)
    (n : Int) (eq : List (Term K)) (hi : (i : Int) < max n 2) : ceTerms stod (tokensOf line) (fuel + 1) i n eq =
      match terms[i]? with
      | some t => ceTerms stod (tokensOf line) fuel (i + 1) (n - 1) (eq ++ [t])
      | none => .error .ub := by
  obtain ⟨a, b, c, tss, h1, h2⟩ := h
  rw [tokensOf_eq h1]
  rw [ceTerms, if_pos hi]
  unfold tokenInt tokenDouble
  cases ht : terms[i]? with
  | some t =>
    obtain ⟨⟨x, x1, x2⟩, ⟨y, y1, y2⟩, z, z1, z2⟩ := term_tokens h2 [a, b, c] i t ht
    simp only [List.cons_append, List.nil_append, List.length_cons, List.length_nil] at x1 y1 z1
    rw [read_some x1, out_bind, x2, out_bind, read_some y1, out_bind, y2, out_bind, read_some z1, out_bind, z2, out_bind]
  | none =>
    have hl := terms_length h2
    have hn := List.getElem?_eq_none_iff.mp ht
    have : read (a :: b :: c :: tss.flatten) (3 + 3 * i) = .error .ub := by
      unfold read
      rw [List.getElem?_eq_none (by simp only [List.length_cons, hl]; omega)]
    rw [this]; rfl

theorem ceTerms_stop {stod : List Char → Out K} {toks : List (List Char)} (fuel i : Nat)
    (n : Int) (eq : List (Term K)) (hi : ¬(i : Int) < max n 2) : ceTerms stod toks (fuel + 1) i n eq = .ok (n, eq) := by
  rw [ceTerms, if_neg hi]

theorem ceLoop_step {stod : List Char → Out K} {line : List Char} {is is1 : Stream} (hl : getLine is = (line, is1)) (fuel : Nat)
    (n : Int) (eq : List (Term K)) (hn : 0 < n) : ceLoop stod (fuel + 1) n eq is =
      (ceTerms stod (tokensOf line) (fuel + 1) 0 n eq >>= fun r => ceLoop stod fuel r.1 r.2 is1) := by
  rw [ceLoop, if_pos hn, hl]

theorem ceLoop_stop {stod : List Char → Out K} {is : Stream} (fuel : Nat) (eq : List (Term K)) :
    ceLoop stod (fuel + 1) 0 eq is = .ok (eq, is) := by
  rw [ceLoop, if_neg (by omega)]

/-- The header of CE: the number of terms in field 3 and the right-hand side in field 5. -/
def CeHead (stod : List Char → Out K) (toks : List (List Char)) (n : Nat) (b : K) : Prop :=
  ∃ f g, toks[3]? = some f ∧ Numeral f (n : Int) ∧ toks[5]? = some g ∧ stod g = .ok b

theorem ce_head {stod : List Char → Out K} {toks : List (List Char)} {n : Nat} {b : K} (h : CeHead stod toks n b) (hn : n ≤ 2147483647)
    (fuel : Nat) (md : MeshData K) (is : Stream) : ce stod toks fuel md is =
      (ceLoop stod fuel n [] is >>= fun r => .ok ({ md with mpcs := md.mpcs ++ [⟨b, r.1⟩] }, r.2)) := by
  obtain ⟨f, g, h1, h2, h3, h4⟩ := h
  unfold ce tokenInt tokenDouble
  rw [read_some h3, out_bind, h4, out_bind, read_some h1, out_bind, stoi_numeral h2 (by omega), out_bind]

/-- C56. Equations with two or four terms are read completely. Missing for the full claim: all other numbers of terms. -/
theorem C56_terms_partial (stod : List Char → Out K) (toks : List (List Char)) (b : K) (rows : List (List (Term K)))
    (lines : List (List Char)) (is is' : Stream) (md : MeshData K) (hh : CeHead stod toks rows.flatten.length b)
    (hrows : TwoPerLine rows) (hlines : List.Forall₂ (CeLine stod) lines rows) (hf : Feeds is lines is')
    (hn : rows.flatten.length = 2 ∨ rows.flatten.length = 4) (fuel : Nat) (hfuel : 6 ≤ fuel) :
    ce stod toks fuel md is = .ok ({ md with mpcs := md.mpcs ++ [⟨b, rows.flatten⟩] }, is') := by
  rw [ce_head hh (by omega)]
  obtain ⟨fuel, rfl⟩ : ∃ k, fuel = k + 6 := ⟨fuel - 6, by omega⟩
  have two : ∀ (r : List (Term K)), r.length = 2 → ∃ x y, r = [x, y] := by
    intro r hr
    match r, hr with
    | [x, y], _ => exact ⟨x, y, rfl⟩
  cases hlines with
  | nil => simp at hn
  | @cons l r ls rs hl hls =>
    obtain ⟨is1, f1, _, f2⟩ := hf
    cases hls with
    | nil =>
      obtain rfl := f2
      simp only [List.flatten_cons, List.flatten_nil, List.append_nil] at hn ⊢
      have hr : r.length = 2 := by rcases hrows with h | h <;> omega
      obtain ⟨x, y, rfl⟩ := two r hr
      rw [hr]
      rw [ceLoop_step f1 _ _ _ (by decide), ceTerms_step hl _ _ _ _ (by decide)]
      simp only [List.getElem?_cons_zero]
      rw [ceTerms_step hl _ _ _ _ (by decide)]
      simp only [List.getElem?_cons_zero, List.getElem?_cons_succ, zero_add]
      rw [ceTerms_stop _ _ _ _ (by decide), out_bind]
      exact congrArg (fun q => q >>= _) (ceLoop_stop _ _)
    | @cons l2 r2 ls2 rs2 hl2 hls2 =>
      obtain ⟨hr, hrest⟩ := hrows
      obtain ⟨x, y, rfl⟩ := two r hr
      obtain ⟨is2, f3, _, f4⟩ := f2
      cases hls2 with
      | @cons l3 r3 ls3 rs3 hl3 hls3 =>
        exfalso
        obtain ⟨hr2, hrest2⟩ := hrest
        have : 1 ≤ r3.length := by
          cases rs3 with
          | nil => rcases hrest2 with h | h <;> omega
          | cons a b => have := hrest2.1; omega
        simp only [List.flatten_cons, List.length_append] at hn
        omega
      | nil =>
        obtain rfl := f4
        have hr2 : r2.length = 2 := by
          simp only [List.flatten_cons, List.flatten_nil, List.length_append, List.length_nil] at hn
          rcases hrest with h | h <;> omega
        obtain ⟨z, w, rfl⟩ := two r2 hr2
        simp only [List.flatten_cons, List.flatten_nil, List.append_nil, List.cons_append, List.nil_append, List.length_cons, List.length_nil]
        rw [ceLoop_step f1 _ _ _ (by decide), ceTerms_step hl _ _ _ _ (by decide)]
        simp only [List.getElem?_cons_zero]
        rw [ceTerms_step hl _ _ _ _ (by decide)]
        simp only [List.getElem?_cons_zero, List.getElem?_cons_succ, zero_add]
        rw [ceTerms_stop _ _ _ _ (by decide), out_bind]
        simp only
        rw [ceLoop_step f3 _ _ _ (by decide), ceTerms_step hl2 _ _ _ _ (by decide)]
        simp only [List.getElem?_cons_zero]
        rw [ceTerms_step hl2 _ _ _ _ (by decide)]
        simp only [List.getElem?_cons_zero, List.getElem?_cons_succ, zero_add]
        rw [ceTerms_stop _ _ _ _ (by decide), out_bind]
        exact congrArg (fun q => q >>= _) (ceLoop_stop _ _)

/-- C56 is violated for every other number of terms: the loop runs past the tokens of a line. -/
theorem C56_terms_violated (stod : List Char → Out K) (toks : List (List Char)) (b : K) (rows : List (List (Term K)))
    (lines : List (List Char)) (is is' : Stream) (md : MeshData K) (hh : CeHead stod toks rows.flatten.length b)
    (hrows : TwoPerLine rows) (hlines : List.Forall₂ (CeLine stod) lines rows) (hf : Feeds is lines is')
    (hn : rows.flatten.length ≠ 2 ∧ rows.flatten.length ≠ 4) (h1 : 1 ≤ rows.flatten.length) (hm : rows.flatten.length ≤ 2147483647)
    (fuel : Nat) (hfuel : 6 ≤ fuel) : ce stod toks fuel md is = .error .ub := by
  rw [ce_head hh hm]
  obtain ⟨fuel, rfl⟩ : ∃ k, fuel = k + 6 := ⟨fuel - 6, by omega⟩
  have two : ∀ (r : List (Term K)), r.length = 2 → ∃ x y, r = [x, y] := by
    intro r hr
    match r, hr with
    | [x, y], _ => exact ⟨x, y, rfl⟩
  have one : ∀ (r : List (Term K)), r.length = 1 → ∃ x, r = [x] := by
    intro r hr
    match r, hr with
    | [x], _ => exact ⟨x, rfl⟩
  cases hlines with
  | nil => simp at h1
  | @cons l r ls rs hl hls =>
    obtain ⟨is1, f1, _, f2⟩ := hf
    cases hls with
    | nil =>
      simp only [List.flatten_cons, List.flatten_nil, List.append_nil] at hn ⊢
      have hr : r.length = 1 := by rcases hrows with h | h <;> omega
      obtain ⟨x, rfl⟩ := one r hr
      rw [hr]
      rw [ceLoop_step f1 _ _ _ (by decide), ceTerms_step hl _ _ _ _ (by decide)]
      simp only [List.getElem?_cons_zero]
      rw [ceTerms_step hl _ _ _ _ (by decide)]
      rfl
    | @cons l2 r2 ls2 rs2 hl2 hls2 =>
      obtain ⟨hr, hrest⟩ := hrows
      obtain ⟨x, y, rfl⟩ := two r hr
      obtain ⟨is2, f3, _, f4⟩ := f2
      have h2 : 1 ≤ r2.length := by
        cases rs2 with
        | nil => rcases hrest with h | h <;> omega
        | cons a b => have := hrest.1; omega
      have hlen : ([x, y] :: r2 :: rs2).flatten.length = 2 + (r2.length + rs2.flatten.length) := by
        simp only [List.flatten_cons, List.length_append, List.length_cons, List.length_nil]
      by_cases h5 : 5 ≤ ([x, y] :: r2 :: rs2).flatten.length
      · generalize ([x, y] :: r2 :: rs2).flatten.length = n at *
        rw [ceLoop_step f1 _ _ _ (by omega), ceTerms_step hl _ _ _ _ (by omega)]
        simp only [List.getElem?_cons_zero]
        rw [ceTerms_step hl _ _ _ _ (by omega)]
        simp only [List.getElem?_cons_zero, List.getElem?_cons_succ, zero_add]
        rw [ceTerms_step hl _ _ _ _ (by omega)]
        rfl
      · have h3 : ([x, y] :: r2 :: rs2).flatten.length = 3 := by omega
        have hr2 : r2.length = 1 := by omega
        rw [h3]
        obtain ⟨z, rfl⟩ := one r2 hr2
        rw [ceLoop_step f1 _ _ _ (by decide), ceTerms_step hl _ _ _ _ (by decide)]
        simp only [List.getElem?_cons_zero]
        rw [ceTerms_step hl _ _ _ _ (by decide)]
        simp only [List.getElem?_cons_zero, List.getElem?_cons_succ, zero_add]
        rw [ceTerms_stop _ _ _ _ (by decide), out_bind]
        simp only
        rw [ceLoop_step f3 _ _ _ (by decide), ceTerms_step hl2 _ _ _ _ (by decide)]
        simp only [List.getElem?_cons_zero]
        rw [ceTerms_step hl2 _ _ _ _ (by decide)]
        rfl

/-- The hypotheses on a line are met by the example in the source code. -/
example : CeLine (K := Nat) (fun _ => .ok 1) "CE,R5.0,NODE,      1700,UX  ,  1.00000000    ,      1700,UZ  ,  1.00000000  ".toList
    [⟨1700, .UX, 1⟩, ⟨1700, .UZ, 1⟩] := by
  refine ⟨"CE".toList, "R5.0".toList, "NODE".toList, [["1700".toList, "UX".toList, "1.00000000".toList],
    ["1700".toList, "UZ".toList, "1.00000000".toList]], ⟨["CE".toList, "R5.0".toList, "NODE".toList, "      1700".toList, "UX  ".toList,
    "  1.00000000    ".toList, "      1700".toList, "UZ  ".toList, "  1.00000000  ".toList], List.replicate 8 ',', ?_, ?_⟩, ?_⟩
  · exact ⟨rfl, by decide, by decide, by decide⟩
  · have ht : ∀ s t, strim s = t → Trimmed s t := fun s t => (C57_strim s t).mp
    refine .cons (ht _ _ (by decide)) <| .cons (ht _ _ (by decide)) <| .cons (ht _ _ (by decide)) <| .cons (ht _ _ (by decide)) <|
      .cons (ht _ _ (by decide)) <| .cons (ht _ _ (by decide)) <| .cons (ht _ _ (by decide)) <| .cons (ht _ _ (by decide)) <|
      .cons (ht _ _ (by decide)) .nil
  · have h1700 : Numeral "1700".toList 1700 :=
      ⟨[], [], "1700".toList, [], rfl, by simp [Blanks], ⟨by decide, by decide⟩, by simp, .inl ⟨.inl rfl, by decide⟩⟩
    exact .cons ⟨_, _, _, rfl, h1700, by decide, by decide, rfl, rfl⟩ (.cons ⟨_, _, _, rfl, h1700, by decide, by decide, rfl, rfl⟩ .nil)

end Nla3d.Cdb
