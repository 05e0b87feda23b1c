import Verif.Storage.ReportProps
import Mathlib.Data.Rat.Floor
import Mathlib.Algebra.Order.Floor.Semiring
import Mathlib.Tactic.Linarith
import Mathlib.Tactic.Ring
import Mathlib.Tactic.NormNum
import Mathlib.Tactic.FieldSimp

/-!
# C130: the text of a node tells its position

Source: src/lib/Node.cpp, `sprintf_s` in src/lib/sys.h
-/

namespace Nla3d.NodeText

open Nla3d.Report (digits digits_isDigit not_mem_digits cut_unique)

/-- Rounding to the nearest integer, to the even one of two. C library, for `%f` in src/lib/Node.cpp:18. -/
def roundEven (q : ℚ) : Nat :=
  let n := ⌊q⌋₊
  if q - n < 1 / 2 then n else if 1 / 2 < q - n then n + 1 else if n % 2 = 0 then n else n + 1

/-- `%f`: a minus sign for negative numbers, the integral part, a point, six digits. C library, for src/lib/Node.cpp:18. Infinities, NaN
and the negative zero are left out. -/
def fixed6 (x : ℚ) : List Char :=
  let n := roundEven (|x| * 1000000)
  let f := digits (n % 1000000)
  (if x < 0 then ['-'] else []) ++ (digits (n / 1000000) ++ '.' :: (List.replicate (6 - f.length) '0' ++ f))

/-- `Node::toString`: `sprintf_s` is `snprintf`, which writes at most 99 characters into a buffer of 100.
src/lib/Node.cpp:15-21, src/lib/sys.h:34-41 -/
def toText (x y z : ℚ) : List Char := (fixed6 x ++ ' ' :: (fixed6 y ++ ' ' :: fixed6 z)).take 99

/-! ## Specification -/

/-- The number written by decimal digits `a` before and `b` after the point. -/
def decimal (a b : List Char) : ℚ := Nat.ofDigitChars 10 a 0 + Nat.ofDigitChars 10 b 0 / 10 ^ b.length

/-- `t` is the decimal notation of `v`. -/
def Reads (t : List Char) (v : ℚ) : Prop :=
  ∃ sg a b, t = sg ++ (a ++ '.' :: b) ∧ a ≠ [] ∧ b ≠ [] ∧ (∀ c ∈ a, c.isDigit = true) ∧ (∀ c ∈ b, c.isDigit = true) ∧
    (sg = [] ∧ v = decimal a b ∨ sg = ['-'] ∧ v = -decimal a b)

/-- `t` is three numbers with blanks between them. -/
def ReadsThree (t : List Char) (u v w : ℚ) : Prop :=
  ∃ a b c, t = a ++ ' ' :: (b ++ ' ' :: c) ∧ Reads a u ∧ Reads b v ∧ Reads c w

/-! ## Numbers -/

theorem roundEven_near {q : ℚ} (h : 0 ≤ q) : |(roundEven q : ℚ) - q| ≤ 1 / 2 := by
  have h1 := Nat.floor_le h
  have h2 := Nat.lt_floor_add_one q
  unfold roundEven
  simp only
  rw [abs_le]
  split
  · constructor <;> linarith
  · split
    · push_cast
      constructor <;> linarith
    · split
      · constructor <;> linarith
      · push_cast
        constructor <;> linarith

theorem frac_length (n : Nat) : (List.replicate (6 - (digits (n % 1000000)).length) '0' ++ digits (n % 1000000)).length = 6 := by
  have : (digits (n % 1000000)).length ≤ 6 :=
    (Nat.length_toDigits_le_iff (by decide) (by decide)).2 (Nat.mod_lt _ (by decide))
  rw [List.length_append, List.length_replicate]
  omega

theorem value_pad (k : Nat) (l : List Char) : Nat.ofDigitChars 10 (List.replicate k '0' ++ l) 0 = Nat.ofDigitChars 10 l 0 := by
  induction k with
  | zero => rfl
  | succ k ih => rw [List.replicate_succ, List.cons_append, Nat.ofDigitChars_cons]; exact ih

theorem value_digits (n : Nat) : Nat.ofDigitChars 10 (digits n) 0 = n := Nat.ofDigitChars_toDigits (by decide) (by decide)

theorem decimal_eq (n : Nat) :
    decimal (digits (n / 1000000)) (List.replicate (6 - (digits (n % 1000000)).length) '0' ++ digits (n % 1000000)) = n / 1000000 := by
  unfold decimal
  rw [frac_length, value_pad, value_digits, value_digits]
  have h : ((1000000 * (n / 1000000) + n % 1000000 : Nat) : ℚ) = n := by rw [Nat.div_add_mod]
  push_cast at h
  rw [show ((10 : ℚ) ^ 6) = 1000000 by norm_num]
  rw [← h]
  ring

/-- `%f` writes the number to six decimals. -/
theorem fixed6_reads (x : ℚ) : ∃ v, Reads (fixed6 x) v ∧ |v - x| ≤ 1 / 2000000 := by
  have hn := roundEven_near (q := |x| * 1000000) (mul_nonneg (abs_nonneg x) (by norm_num))
  have hr : abs ((roundEven (|x| * 1000000) : ℚ) / 1000000 - |x|) ≤ 1 / 2000000 := by
    have e : (roundEven (|x| * 1000000) : ℚ) / 1000000 - |x| = ((roundEven (|x| * 1000000) : ℚ) - |x| * 1000000) / 1000000 := by ring
    rw [e, abs_div, show |(1000000 : ℚ)| = 1000000 by norm_num, div_le_iff₀ (by norm_num)]
    linarith
  have hd : ∀ c ∈ List.replicate (6 - (digits (roundEven (|x| * 1000000) % 1000000)).length) '0' ++
      digits (roundEven (|x| * 1000000) % 1000000), c.isDigit = true := by
    intro c hc
    rcases List.mem_append.1 hc with hc | hc
    · rw [List.eq_of_mem_replicate hc]; decide
    · exact digits_isDigit hc
  have hb : List.replicate (6 - (digits (roundEven (|x| * 1000000) % 1000000)).length) '0' ++
      digits (roundEven (|x| * 1000000) % 1000000) ≠ [] := by
    intro h0
    have := frac_length (roundEven (|x| * 1000000))
    rw [h0] at this
    cases this
  unfold fixed6
  simp only
  by_cases hx : x < 0
  · refine ⟨-((roundEven (|x| * 1000000) : ℚ) / 1000000), ⟨['-'], digits (roundEven (|x| * 1000000) / 1000000), _, by rw [if_pos hx], Nat.toDigits_ne_nil, hb,
      fun c hc => digits_isDigit hc, hd, .inr ⟨rfl, by rw [decimal_eq]⟩⟩, ?_⟩
    rw [abs_of_neg hx] at hr ⊢
    rw [abs_le] at hr ⊢
    constructor <;> linarith [hr.1, hr.2]
  · refine ⟨(roundEven (|x| * 1000000) : ℚ) / 1000000, ⟨[], digits (roundEven (|x| * 1000000) / 1000000), _, by rw [if_neg hx], Nat.toDigits_ne_nil, hb,
      fun c hc => digits_isDigit hc, hd, .inl ⟨rfl, by rw [decimal_eq]⟩⟩, ?_⟩
    have hx : 0 ≤ x := not_lt.1 hx
    rw [abs_of_nonneg hx] at hr ⊢
    exact hr

theorem reads_no_blank {t : List Char} {v : ℚ} (h : Reads t v) : ' ' ∉ t := by
  obtain ⟨sg, a, b, rfl, -, -, ha, hb, hs⟩ := h
  intro hm
  simp only [List.mem_append, List.mem_cons] at hm
  rcases hm with hm | hm | hm | hm
  · rcases hs with ⟨rfl, -⟩ | ⟨rfl, -⟩ <;> simp at hm
  · exact absurd (ha _ hm) (by decide)
  · exact absurd hm (by decide)
  · exact absurd (hb _ hm) (by decide)

theorem reads_unique {t : List Char} {v v' : ℚ} (h : Reads t v) (h' : Reads t v') : v = v' := by
  obtain ⟨sg, a, b, rfl, ha0, -, ha, -, hs⟩ := h
  obtain ⟨sg', a', b', e, ha0', -, ha', -, hs'⟩ := h'
  have nd : ∀ {l : List Char}, (∀ c ∈ l, c.isDigit = true) → '.' ∉ l := fun h hm => absurd (h _ hm) (by decide)
  rcases hs with ⟨rfl, rfl⟩ | ⟨rfl, rfl⟩ <;> rcases hs' with ⟨rfl, rfl⟩ | ⟨rfl, rfl⟩
  · obtain ⟨rfl, rfl⟩ := cut_unique (nd ha) (nd ha') e
    rfl
  · obtain ⟨c, a, rfl⟩ := List.exists_cons_of_ne_nil ha0
    simp only [List.nil_append, List.cons_append, List.cons.injEq] at e
    have := ha c (by simp)
    rw [e.1] at this
    exact absurd this (by decide)
  · obtain ⟨c, a', rfl⟩ := List.exists_cons_of_ne_nil ha0'
    simp only [List.nil_append, List.cons_append, List.cons.injEq] at e
    have := ha' c (by simp)
    rw [← e.1] at this
    exact absurd this (by decide)
  · simp only [List.cons_append, List.nil_append, List.cons.injEq, true_and] at e
    obtain ⟨rfl, rfl⟩ := cut_unique (nd ha) (nd ha') e
    rfl

theorem readsThree_unique {t : List Char} {u v w u' v' w' : ℚ} (h : ReadsThree t u v w) (h' : ReadsThree t u' v' w') :
    u = u' ∧ v = v' ∧ w = w' := by
  obtain ⟨a, b, c, rfl, h1, h2, h3⟩ := h
  obtain ⟨a', b', c', e, h1', h2', h3'⟩ := h'
  obtain ⟨rfl, e2⟩ := cut_unique (reads_no_blank h1) (reads_no_blank h1') e
  obtain ⟨rfl, rfl⟩ := cut_unique (reads_no_blank h2) (reads_no_blank h2') e2
  exact ⟨reads_unique h1 h1', reads_unique h2 h2', reads_unique h3 h3'⟩

theorem fixed6_length {x : ℚ} (h : |x| ≤ 10 ^ 24 - 1) : (fixed6 x).length ≤ 32 := by
  have hn := (abs_le.1 (roundEven_near (q := |x| * 1000000) (mul_nonneg (abs_nonneg x) (by norm_num)))).2
  have h1 : (roundEven (|x| * 1000000) : ℚ) < ((10 ^ 30 : Nat) : ℚ) := by
    push_cast
    nlinarith
  have h1 : roundEven (|x| * 1000000) < 10 ^ 30 := by exact_mod_cast h1
  have h2 : (digits (roundEven (|x| * 1000000) / 1000000)).length ≤ 24 := by
    refine (Nat.length_toDigits_le_iff (by decide) (by decide)).2 ?_
    rw [Nat.div_lt_iff_lt_mul (by decide)]
    exact h1
  unfold fixed6
  simp only
  rw [List.length_append, List.length_append, List.length_cons, frac_length]
  have h3 : (if x < 0 then ['-'] else []).length ≤ 1 := by split <;> simp
  omega

/-! ## C130 -/

/-- C130 for coordinates up to `10^24 - 1`: the text of a node is three decimal numbers with blanks between them, and they are the
coordinates up to half of the sixth decimal. -/
theorem C130_text_partial {x y z : ℚ} (hx : |x| ≤ 10 ^ 24 - 1) (hy : |y| ≤ 10 ^ 24 - 1) (hz : |z| ≤ 10 ^ 24 - 1) :
    ∃ u v w, ReadsThree (toText x y z) u v w ∧ |u - x| ≤ 1 / 2000000 ∧ |v - y| ≤ 1 / 2000000 ∧ |w - z| ≤ 1 / 2000000 := by
  obtain ⟨u, hu, hu'⟩ := fixed6_reads x
  obtain ⟨v, hv, hv'⟩ := fixed6_reads y
  obtain ⟨w, hw, hw'⟩ := fixed6_reads z
  refine ⟨u, v, w, ⟨_, _, _, ?_, hu, hv, hw⟩, hu', hv', hw'⟩
  unfold toText
  apply List.take_of_length_le
  have h1 := fixed6_length hx
  have h2 := fixed6_length hy
  have h3 := fixed6_length hz
  simp only [List.length_append, List.length_cons]
  omega

/-- C130: nodes with the same text are at the same place up to the sixth decimal. -/
theorem C130_apart_partial {x y z x' y' z' : ℚ} (hx : |x| ≤ 10 ^ 24 - 1) (hy : |y| ≤ 10 ^ 24 - 1) (hz : |z| ≤ 10 ^ 24 - 1)
    (hx' : |x'| ≤ 10 ^ 24 - 1) (hy' : |y'| ≤ 10 ^ 24 - 1) (hz' : |z'| ≤ 10 ^ 24 - 1) (h : toText x y z = toText x' y' z') :
    |x - x'| ≤ 1 / 1000000 ∧ |y - y'| ≤ 1 / 1000000 ∧ |z - z'| ≤ 1 / 1000000 := by
  obtain ⟨u, v, w, h1, a1, a2, a3⟩ := C130_text_partial hx hy hz
  obtain ⟨u', v', w', h2, b1, b2, b3⟩ := C130_text_partial hx' hy' hz'
  rw [h] at h1
  obtain ⟨rfl, rfl, rfl⟩ := readsThree_unique h1 h2
  simp only [abs_le] at a1 a2 a3 b1 b2 b3 ⊢
  refine ⟨⟨?_, ?_⟩, ⟨?_, ?_⟩, ⟨?_, ?_⟩⟩ <;> linarith [a1.1, a1.2, a2.1, a2.2, a3.1, a3.2, b1.1, b1.2, b2.1, b2.2, b3.1, b3.2]

/-- C130 is false for large coordinates (a `double` goes up to `10^308`): the buffer ends in the first number, and the text does not
depend on the other two. -/
theorem C130_large_violated {x : ℚ} (hx : 10 ^ 92 + 1 ≤ |x|) (y z y' z' : ℚ) :
    toText x y z = toText x y' z' ∧ ∀ u v w, ¬ ReadsThree (toText x y z) u v w := by
  have hn := (abs_le.1 (roundEven_near (q := |x| * 1000000) (mul_nonneg (abs_nonneg x) (by norm_num)))).1
  have h1 : ((10 ^ 98 : Nat) : ℚ) ≤ (roundEven (|x| * 1000000) : ℚ) := by
    push_cast
    nlinarith
  have h1 : 10 ^ 98 ≤ roundEven (|x| * 1000000) := by exact_mod_cast h1
  have h2 : ¬ (digits (roundEven (|x| * 1000000) / 1000000)).length ≤ 92 := by
    intro h
    have h := (Nat.length_toDigits_le_iff (by decide) (by decide)).1 h
    rw [Nat.div_lt_iff_lt_mul (by decide)] at h
    omega
  have hl : 99 ≤ (fixed6 x).length := by
    unfold fixed6
    simp only
    rw [List.length_append, List.length_append, List.length_cons, frac_length]
    omega
  have key : ∀ y z, toText x y z = (fixed6 x).take 99 := by
    intro y z
    unfold toText
    rw [List.take_append_of_le_length hl]
  refine ⟨by rw [key, key], fun u v w h => ?_⟩
  rw [key] at h
  obtain ⟨a, b, c, e, -⟩ := h
  obtain ⟨v, hv, -⟩ := fixed6_reads x
  apply reads_no_blank hv
  have : ' ' ∈ (fixed6 x).take 99 := by rw [e]; simp
  exact List.mem_of_mem_take this

/-! ## Examples -/

example : toText 1 (-5 / 2) (1 / 3) = "1.000000 -2.500000 0.333333".toList := by decide +kernel

example : toText 0 (1 / 2000000) (3 / 2000000) = "0.000000 0.000000 0.000002".toList := by decide +kernel

example : |(1 : ℚ)| ≤ 10 ^ 24 - 1 ∧ |(-5 / 2 : ℚ)| ≤ 10 ^ 24 - 1 := by norm_num [abs_of_neg, abs_of_pos]

example (y z : ℚ) : toText (10 ^ 100) y z = toText (10 ^ 100) 0 0 := by
  refine (C130_large_violated ?_ y z 0 0).1
  rw [abs_of_nonneg (by norm_num)]
  norm_num

end Nla3d.NodeText
