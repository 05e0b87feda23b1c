import Verif.Cdb.Num
import Mathlib.Data.List.Forall2

/-!
# Property C55: component blocks of cdb files
-/

namespace Nla3d.Cdb

open Nla3d.Text

variable {K : Type}

/-- Specification: an entry of a component. -/
inductive Item where
  | single (n : Nat)
  | range (a b : Nat)

/-- The numbers an entry is written with. -/
def Item.codes : Item → List Int
  | .single n => [(n : Int)]
  | .range a b => [(a : Int), -(b : Int)]

/-- The numbers an entry stands for. -/
def Item.members : Item → List Nat
  | .single n => [n]
  | .range a b => List.range' a (b + 1 - a)

/-- Numbers are positive and, with one added, fit `int`. -/
def Item.Ok : Item → Prop
  | .single n => 1 ≤ n ∧ n ≤ 2147483646
  | .range a b => 1 ≤ a ∧ a ≤ b ∧ b ≤ 2147483646

/-- Rows of `n` fields; the last one may be shorter. -/
def Rows {α : Type} (n : Nat) : List (List α) → Prop
  | [] => True
  | [r] => 1 ≤ r.length ∧ r.length ≤ n
  | r :: rs => r.length = n ∧ 1 ≤ r.length ∧ Rows n rs

theorem Rows.tail {α : Type} {n : Nat} {r : List α} {rs : List (List α)} (h : Rows n (r :: rs)) : Rows n rs ∧ 1 ≤ r.length ∧ r.length ≤ n ∧
    (rs ≠ [] → r.length = n) := by
  cases rs with
  | nil => exact ⟨trivial, h.1, h.2, by simp⟩
  | cons a b => exact ⟨h.2.2, h.2.1, by rw [h.1], fun _ => h.1⟩

/-- What the loops need to know about the codes. -/
def Wf (zs : List Int) : Prop := ∀ k z, zs[k]? = some z → (0 < z ∧ z ≤ 2147483646) ∨
  (z < 0 ∧ -z ≤ 2147483646 ∧ 0 < k ∧ ∃ p, zs[k - 1]? = some p ∧ 0 < p ∧ p ≤ -z)

theorem Wf.append {a b : List Int} (ha : Wf a) (hb : Wf b) : Wf (a ++ b) := by
  intro k z h
  by_cases hk : k < a.length
  · rw [List.getElem?_append_left hk] at h
    rcases ha k z h with h1 | ⟨h1, h2, h3, p, h4, h5⟩
    · exact .inl h1
    · exact .inr ⟨h1, h2, h3, p, by rw [List.getElem?_append_left (by omega)]; exact h4, h5⟩
  · rw [List.getElem?_append_right (by omega)] at h
    rcases hb _ z h with h1 | ⟨h1, h2, h3, p, h4, h5⟩
    · exact .inl h1
    · refine .inr ⟨h1, h2, by omega, p, ?_, h5⟩
      rw [List.getElem?_append_right (by omega), show k - 1 - a.length = k - a.length - 1 by omega]
      exact h4

theorem wf_codes (items : List Item) (h : ∀ i ∈ items, i.Ok) : Wf (items.flatMap Item.codes) := by
  induction items with
  | nil => intro k z h; simp at h
  | cons i items ih =>
    rw [List.flatMap_cons]
    refine Wf.append ?_ (ih fun j hj => h j (by simp [hj]))
    have hi := h i (by simp)
    intro k z hz
    cases i with
    | single n =>
      obtain ⟨h1, h2⟩ := hi
      cases k with
      | zero => simp [Item.codes] at hz; subst hz; left; omega
      | succ k => simp [Item.codes] at hz
    | range a b =>
      obtain ⟨h1, h2, h3⟩ := hi
      match k with
      | 0 => simp [Item.codes] at hz; subst hz; left; omega
      | 1 => simp [Item.codes] at hz; subst hz; right; exact ⟨by omega, by omega, by omega, a, rfl, by omega, by omega⟩
      | k + 2 => simp [Item.codes] at hz

theorem ssplit_row {w n : Nat} {r : List (List Char)} (hr : ∀ f ∈ r, f.length = w) (hw : 1 ≤ w) (h1 : r.length ≤ n) :
    ssplit r.flatten (List.replicate n w) false = .ok r := by
  have hm : r.map List.length = List.replicate r.length w := by
    rw [List.eq_replicate_iff]
    refine ⟨by simp, ?_⟩
    intro x hx
    obtain ⟨f, hf, rfl⟩ := List.mem_map.mp hx
    exact hr f hf
  rw [(C57_ssplit _ _).1]
  by_cases hn : r.length = n
  · left
    exact ⟨by rw [hm, hn], List.prefix_refl _⟩
  · right
    refine ⟨rfl, w, List.replicate (n - r.length - 1) w, ?_, hw⟩
    rw [hm, ← List.replicate_succ, List.replicate_append_replicate]
    congr 1
    omega

theorem cut_outcome (strict : Bool) (ws : List Nat) : ∀ l, cut strict l ws ≠ .assert ∧ cut strict l ws ≠ .ub := by
  induction ws with
  | nil => intro l; simp [cut]
  | cons w ws ih =>
    intro l
    unfold cut
    have := ih (l.drop w)
    split
    · split
      · simp
      · split <;> simp
    · cases hc : cut strict (l.drop w) ws <;> simp_all

/-- The part of a pass after the new line. -/
theorem cmPass_read {intNum : Nat} {widths : List Nat} {s : CmState} {f : List Char} {z : Int} {zs1 zs2 : List Int} (hne : s.inRow ≠ intNum)
    (hf : s.fields[s.inRow]? = some f) (hz : Numeral f z) (hr : s.ranges = zs1) (ha : s.all = zs1.length) (hwf : Wf (zs1 ++ z :: zs2))
    (hN : zs1.length < 65535) (hI : s.inRow < 65535) (hE : s.numEntity ≤ zs1.length * 2147483648) :
    ∃ E, cmPass intNum widths s = .ok ⟨s.inRow + 1, zs1.length + 1, zs1 ++ [z], s.fields, E, s.is⟩ ∧ E ≤ (zs1.length + 1) * 2147483648 := by
  have hk : (zs1 ++ z :: zs2)[zs1.length]? = some z := by simp
  have hw := hwf _ _ hk
  have hin : -2147483648 ≤ z ∧ z ≤ 2147483647 := by rcases hw with h | h <;> omega
  have hline : cmLine intNum widths s = .ok s := by unfold cmLine; rw [if_neg hne]
  unfold cmPass
  rw [hline, out_bind, read_some hf, out_bind, stoi_numeral hz hin, out_bind]
  simp only
  have hread : read (s.ranges ++ [z]) s.all = .ok z := read_some (by rw [hr, ha]; simp)
  unfold cmCount
  simp only [hread, out_bind]
  have m1 : (s.inRow + 1) % 65536 = s.inRow + 1 := Nat.mod_eq_of_lt (by omega)
  have m2 : (s.all + 1) % 65536 = zs1.length + 1 := by rw [ha]; exact Nat.mod_eq_of_lt (by omega)
  rcases hw with h | ⟨h1, h2, h3, p, h4, h5, h6⟩
  · rw [if_pos h.1, out_bind, m1, m2, hr]
    exact ⟨_, rfl, by omega⟩
  · rw [if_neg (by omega), if_neg (by omega)]
    have hp : read (s.ranges ++ [z]) (s.all - 1) = .ok p := by
      apply read_some
      rw [hr, ha, List.getElem?_append_left (by omega)]
      rw [List.getElem?_append_left (by omega)] at h4
      exact h4
    have i1 : intArith (-z) = .ok (-z) := by unfold intArith inInt; rw [if_pos]; simp; omega
    have i2 : intArith (-z - p) = .ok (-z - p) := by unfold intArith inInt; rw [if_pos]; simp; omega
    rw [hp, out_bind, if_pos h5, i1, out_bind, i2, out_bind, out_bind, m1, m2, hr]
    exact ⟨_, rfl, by omega⟩

theorem cmPass_line {intNum w : Nat} {s : CmState} {r : List (List Char)} {is1 : Stream} (hin : s.inRow = intNum)
    (hr : ∀ f ∈ r, f.length = w) (hw : 1 ≤ w) (h1 : r.length ≤ intNum) (hl : getLine s.is = (r.flatten, is1)) (h0 : 0 ≠ intNum) :
    cmPass intNum (List.replicate intNum w) s = cmPass intNum (List.replicate intNum w) { s with fields := r, is := is1, inRow := 0 } := by
  have e1 : cmLine intNum (List.replicate intNum w) s = .ok { s with fields := r, is := is1, inRow := 0 } := by
    unfold cmLine
    rw [if_pos hin, hl]
    simp only
    rw [ssplit_row hr hw h1]
    rfl
  have e2 : cmLine intNum (List.replicate intNum w) { s with fields := r, is := is1, inRow := 0 } =
      .ok { s with fields := r, is := is1, inRow := 0 } := by
    unfold cmLine
    rw [if_neg (by simpa using h0)]
  unfold cmPass
  rw [e1, e2]

theorem cmLoop_run {intNum w numRanges : Nat} (hw : 1 ≤ w) (hI : 1 ≤ intNum ∧ intNum ≤ 65535) (hN : numRanges ≤ 65535) (zs2 : List Int) :
    ∀ (zs1 : List Int) (s : CmState) (rows : List (List (List Char))) (is' : Stream) (fuel : Nat), Wf (zs1 ++ zs2) →
      (zs1 ++ zs2).length = numRanges → s.ranges = zs1 → s.all = zs1.length → s.numEntity ≤ zs1.length * 2147483648 →
      Rows intNum (s.fields :: rows) → s.inRow ≤ s.fields.length → (∀ r ∈ rows, ∀ f ∈ r, f.length = w) →
      List.Forall₂ Numeral (s.fields.drop s.inRow ++ rows.flatten) zs2 → Feeds s.is (rows.map List.flatten) is' → zs2.length < fuel →
      ∃ s', cmLoop intNum (List.replicate intNum w) numRanges fuel s = .ok s' ∧ s'.ranges = zs1 ++ zs2 ∧ s'.is = is' ∧
        s'.numEntity ≤ numRanges * 2147483648 := by
  induction zs2 with
  | nil =>
    intro zs1 s rows is' fuel hwf hlen hr ha hE hrows hin hws hnum hfeed hfuel
    obtain ⟨fuel, rfl⟩ : ∃ k, fuel = k + 1 := ⟨fuel - 1, by simp at hfuel; omega⟩
    rw [List.append_nil] at hlen
    unfold cmLoop
    rw [if_neg (by omega)]
    have hrow0 : rows = [] := by
      cases rows with
      | nil => rfl
      | cons r rs =>
        have h1 := (Rows.tail (Rows.tail hrows).1).2.1
        have h2 := hnum.length_eq
        simp only [List.length_append, List.flatten_cons, List.length_nil] at h2
        omega
    subst hrow0
    exact ⟨s, rfl, by rw [hr, List.append_nil], hfeed, by rw [← hlen]; exact hE⟩
  | cons z zs2 ih =>
    intro zs1 s rows is' fuel hwf hlen hr ha hE hrows hin hws hnum hfeed hfuel
    obtain ⟨fuel, rfl⟩ : ∃ k, fuel = k + 1 := ⟨fuel - 1, by simp at hfuel; omega⟩
    have hlen' : zs1.length + (zs2.length + 1) = numRanges := by simpa using hlen
    have e1 : zs1 ++ z :: zs2 = (zs1 ++ [z]) ++ zs2 := by simp
    unfold cmLoop
    rw [if_pos (by omega)]
    obtain ⟨t1, t2, t3, t4⟩ := Rows.tail hrows
    by_cases hj : s.inRow < s.fields.length
    · rw [List.drop_eq_getElem_cons hj, List.cons_append] at hnum
      cases hnum with
      | cons hz hnum =>
        obtain ⟨E, p1, p2⟩ := cmPass_read (intNum := intNum) (widths := List.replicate intNum w) (by omega)
          (List.getElem?_eq_getElem hj) hz hr ha hwf (by omega) (by omega) hE
        rw [p1, out_bind, e1]
        exact ih (zs1 ++ [z]) _ rows is' fuel (by rw [← e1]; exact hwf) (by rw [← e1]; exact hlen) rfl (by simp) (by simpa using p2)
          hrows (Nat.succ_le_of_lt hj) hws hnum hfeed (by simp at hfuel; omega)
    · have hj' : s.inRow = s.fields.length := by omega
      cases rows with
      | nil =>
        have := hnum.length_eq
        simp [hj'] at this
      | cons r rows =>
        have hfull := t4 (by simp)
        obtain ⟨is1, g1, _, g2⟩ := hfeed
        obtain ⟨u1, u2, u3, u4⟩ := Rows.tail t1
        rw [cmPass_line (by omega) (hws r (by simp)) hw u3 g1 (by omega)]
        rw [hj', List.drop_length, List.nil_append, List.flatten_cons] at hnum
        obtain ⟨f, r', rfl⟩ : ∃ f r', r = f :: r' := by
          cases r with
          | nil => simp at u2
          | cons f r' => exact ⟨f, r', rfl⟩
        rw [List.cons_append] at hnum
        cases hnum with
        | cons hz hnum =>
          obtain ⟨E, p1, p2⟩ := cmPass_read (intNum := intNum) (widths := List.replicate intNum w)
            (s := { s with fields := f :: r', is := is1, inRow := 0 }) (f := f) (zs1 := zs1) (by show (0 : Nat) ≠ intNum; omega) rfl hz hr ha hwf
            (by omega) (by show 0 < 65535; omega) hE
          rw [p1, out_bind, e1]
          exact ih (zs1 ++ [z]) _ rows is' fuel (by rw [← e1]; exact hwf) (by rw [← e1]; exact hlen) rfl (by simp) (by simpa using p2)
            t1 (by simp) (fun r hr => hws r (by simp [hr])) (by simpa using hnum) g2 (by simp at hfuel; omega)

theorem fillLoop_run {numRanges : Nat} (hN : numRanges ≤ 65535) (items : List Item) : ∀ (zs1 : List Int) (out : List Nat) (fuel : Nat),
    (∀ i ∈ items, i.Ok) → (zs1 ++ items.flatMap Item.codes).length = numRanges → (items.flatMap Item.codes).length < fuel →
      fillLoop (zs1 ++ items.flatMap Item.codes) numRanges fuel zs1.length out = .ok (out ++ items.flatMap Item.members) := by
  induction items with
  | nil =>
    intro zs1 out fuel _ hlen hfuel
    obtain ⟨fuel, rfl⟩ : ∃ k, fuel = k + 1 := ⟨fuel - 1, by simp at hfuel; omega⟩
    simp at hlen
    unfold fillLoop
    rw [if_neg (by omega)]
    simp
  | cons i items ih =>
    intro zs1 out fuel hok hlen hfuel
    have hi := hok i (by simp)
    have hok' : ∀ j ∈ items, j.Ok := fun j hj => hok j (by simp [hj])
    rw [List.flatMap_cons] at hlen hfuel ⊢
    rw [List.flatMap_cons, ← List.append_assoc]
    cases i with
    | single n =>
      obtain ⟨h1, h2⟩ := hi
      simp only [Item.codes, Item.members] at hlen hfuel ⊢
      simp only [List.length_append, List.length_cons, List.length_nil] at hlen hfuel
      obtain ⟨fuel, rfl⟩ : ∃ k, fuel = k + 1 := ⟨fuel - 1, by omega⟩
      unfold fillLoop
      rw [if_pos (by omega), read_some (a := (n : Int)) (by simp), out_bind, if_pos (by omega), Nat.mod_eq_of_lt (by omega), toU32_nat (by omega)]
      have := ih (zs1 ++ [(n : Int)]) (out ++ [n]) fuel hok' (by simp only [List.length_append, List.length_cons, List.length_nil]; omega) (by omega)
      rw [List.length_append, List.length_singleton, List.append_assoc zs1] at this
      rw [← List.append_assoc] at this ⊢
      exact this
    | range a b =>
      obtain ⟨h1, h2, h3⟩ := hi
      simp only [Item.codes, Item.members] at hlen hfuel ⊢
      simp only [List.length_append, List.length_cons, List.length_nil] at hlen hfuel
      obtain ⟨fuel, rfl⟩ : ∃ k, fuel = k + 2 := ⟨fuel - 2, by omega⟩
      have i1 : intArith ((a : Int) + 1) = .ok ((a + 1 : Nat) : Int) := by
        unfold intArith inInt
        rw [if_pos (by simp; omega)]; simp
      have i2 : intArith (-(-(b : Int))) = .ok (b : Int) := by
        unfold intArith inInt
        rw [if_pos (by simp; omega)]; simp
      have i3 : intArith ((b : Int) + 1) = .ok ((b + 1 : Nat) : Int) := by
        unfold intArith inInt
        rw [if_pos (by simp; omega)]; simp
      have r1 : read (zs1 ++ ([(a : Int), -(b : Int)] ++ items.flatMap Item.codes)) zs1.length = .ok (a : Int) := read_some (by simp)
      have r2 : read (zs1 ++ ([(a : Int), -(b : Int)] ++ items.flatMap Item.codes)) (zs1.length + 1) = .ok (-(b : Int)) :=
        read_some (by rw [List.getElem?_append_right (by omega)]; simp)
      rw [← List.append_assoc] at r1 r2
      unfold fillLoop
      rw [if_pos (by omega), r1, out_bind, if_pos (by omega), Nat.mod_eq_of_lt (by omega)]
      unfold fillLoop
      rw [if_pos (by omega), r2, out_bind, if_neg (by omega), if_neg (by omega), Nat.add_sub_cancel, r1, out_bind, i1, out_bind, i2, out_bind, i3,
        out_bind, Nat.mod_eq_of_lt (by omega), toU32_nat (by omega), toU32_nat (by omega), toU32_nat (by omega)]
      have := ih (zs1 ++ [(a : Int), -(b : Int)]) (out ++ [a] ++ List.range' (a + 1) (b + 1 - (a + 1))) fuel hok'
        (by simp only [List.length_append, List.length_cons, List.length_nil]; omega) (by omega)
      rw [List.length_append] at this
      refine this.trans ?_
      have hm : List.range' a (b + 1 - a) = [a] ++ List.range' (a + 1) (b + 1 - (a + 1)) := by
        rw [show b + 1 - a = (b + 1 - (a + 1)) + 1 by omega, List.range'_succ]; rfl
      rw [hm]
      simp

/-- The header of CMBLOCK. -/
structure CmHead (toks : List (List Char)) (name : List Char) (type : CompType) (n : Int) : Prop where
  second : toks[1]? = some name
  user : name.head? ≠ some '_'
  third : ∃ t, toks[2]? = some t ∧ (t.map Char.toUpper = "NODE".toList ∧ type = .NODES ∨ t.map Char.toUpper = "ELEM".toList ∧ type = .ELEMENTS)
  count : ∃ f, toks[3]? = some f ∧ Numeral f n
  range : 0 ≤ n ∧ n ≤ 2147483647

theorem cmblock_head {toks : List (List Char)} {name : List Char} {type : CompType} {n : Nat} (h : CmHead toks name type n)
    {fmt line1 : List Char} {intNum w : Nat} (hf : IFormat fmt intNum w) {is is1 is2 : Stream} (g1 : getLine is = (fmt, is1))
    (g2 : getLine is1 = (line1, is2)) (fuel : Nat) (md : MeshData K) : cmblock toks fuel md is = (do
      let v ← lift (ssplit line1 (List.replicate intNum w) false)
      let s ← cmLoop intNum (List.replicate intNum w) n fuel ⟨0, 0, [], v, 0, is2⟩
      if maxSize < s.numEntity then .error .exn
      else
        let list ← fillLoop s.ranges n fuel 0 []
        .ok ({ md with feComps := insertComp ⟨name, type, list⟩ md.feComps }, s.is)) := by
  obtain ⟨h1, h2, ⟨t, h3, h4⟩, ⟨f, h5, h6⟩, h7⟩ := h
  obtain ⟨A, B, m1, m2, m3⟩ := matchI_format hf
  have hty : typeFromString (stoupper t) = type := by
    unfold typeFromString stoupper
    rcases h4 with ⟨a, rfl⟩ | ⟨a, rfl⟩
    · rw [a, if_neg (by decide), if_pos rfl]
    · rw [a, if_pos rfl]
  have hn : ((n : Int) % 18446744073709551616).toNat = n := by omega
  unfold cmblock tokenInt
  rw [read_some h1, out_bind, if_neg h2, read_some h3, out_bind, read_some h5, out_bind, stoi_numeral h6 (by omega), out_bind, g1]
  simp only [m1, m2, m3, out_bind, hn, hty, Int.toNat_natCast]
  rw [if_neg (by unfold maxSize; omega), g2]

/-- C55. The component is the concatenation of its entries, for 1 to 65535 numbers in rows of any length. Missing for the full claim: no
numbers, and more than 65535 numbers. -/
theorem C55_expand_partial (toks : List (List Char)) (name : List Char) (type : CompType) (items : List Item) (hok : ∀ i ∈ items, i.Ok)
    (hh : CmHead toks name type (items.flatMap Item.codes).length) (h1 : 1 ≤ (items.flatMap Item.codes).length)
    (hN : (items.flatMap Item.codes).length ≤ 65535) (fmt : List Char) (intNum w : Nat) (hf : IFormat fmt intNum w)
    (hw : 1 ≤ w) (hI : 1 ≤ intNum ∧ intNum ≤ 65535) (rows : List (List (List Char))) (hrows : Rows intNum rows)
    (hws : ∀ r ∈ rows, ∀ f ∈ r, f.length = w) (hnum : List.Forall₂ Numeral rows.flatten (items.flatMap Item.codes)) (is is' : Stream)
    (hfeed : Feeds is (fmt :: rows.map List.flatten) is') (md : MeshData K) (fuel : Nat) (hfuel : (items.flatMap Item.codes).length < fuel) :
    cmblock toks fuel md is =
      .ok ({ md with feComps := insertComp ⟨name, type, items.flatMap Item.members⟩ md.feComps }, is') := by
  obtain ⟨is1, g1, _, g2⟩ := hfeed
  cases rows with
  | nil => rw [← hnum.length_eq] at h1; simp at h1
  | cons r rows =>
    obtain ⟨is2, g3, _, g4⟩ := g2
    rw [cmblock_head hh hf g1 g3]
    obtain ⟨t1, t2, t3, t4⟩ := Rows.tail hrows
    rw [ssplit_row (hws r (by simp)) hw t3]
    show (cmLoop intNum (List.replicate intNum w) _ fuel ⟨0, 0, [], r, 0, is2⟩ >>= _) = _
    obtain ⟨s, p1, p2, p3, p4⟩ := cmLoop_run (numRanges := (items.flatMap Item.codes).length) hw hI hN (items.flatMap Item.codes) []
      ⟨0, 0, [], r, 0, is2⟩ rows is' fuel (by simpa using wf_codes items hok) rfl rfl rfl (by simp) hrows (by simp)
      (fun r hr => hws r (by simp [hr])) (by simpa using hnum) g4 hfuel
    rw [p1, out_bind, if_neg (by unfold maxSize; omega), p2, p3]
    have := fillLoop_run hN items [] [] fuel hok rfl hfuel
    simp only [List.nil_append, List.length_nil] at this ⊢
    rw [this]
    rfl

/-- C55 is violated for more than 65535 numbers: the 16-bit counter never reaches the end, whatever the lines contain. -/
theorem C55_wrap_violated (toks : List (List Char)) (name : List Char) (type : CompType) (n : Nat) (hh : CmHead toks name type n)
    (hn : 65535 < n) (fmt : List Char) (intNum w : Nat) (hf : IFormat fmt intNum w) (is is1 : Stream)
    (hg : getLine is = (fmt, is1)) (md : MeshData K) (fuel : Nat) : ∀ r, cmblock toks fuel md is ≠ .ok r := by
  intro r
  have hloop : ∀ fuel s, s.all < 65536 → ∀ s', cmLoop intNum (List.replicate intNum w) n fuel s ≠ .ok s' := by
    intro fuel
    induction fuel with
    | zero => intro s _ s' h; simp [cmLoop] at h
    | succ fuel ih =>
      intro s hs s' h
      unfold cmLoop at h
      rw [if_pos (by omega)] at h
      cases hp : cmPass intNum (List.replicate intNum w) s with
      | error e => rw [hp] at h; simp at h
      | ok s1 =>
        rw [hp, out_bind] at h
        refine ih s1 ?_ s' h
        unfold cmPass at hp
        cases hq : cmLine intNum (List.replicate intNum w) s with
        | error e => rw [hq] at hp; simp at hp
        | ok s2 =>
          rw [hq, out_bind] at hp
          cases hr : read s2.fields s2.inRow with
          | error e => rw [hr] at hp; simp at hp
          | ok f =>
            rw [hr, out_bind] at hp
            cases ht : stoi f with
            | error e => rw [ht] at hp; simp at hp
            | ok z =>
              rw [ht, out_bind] at hp
              simp only at hp
              cases hc : cmCount { s2 with ranges := s2.ranges ++ [z] } with
              | error e => rw [hc] at hp; simp at hp
              | ok k =>
                rw [hc, out_bind] at hp
                injection hp with hp
                rw [← hp]
                exact Nat.mod_lt _ (by omega)
  rw [cmblock_head (line1 := (getLine is1).1) (is2 := (getLine is1).2) hh hf hg rfl]
  intro h
  cases hv : lift (ssplit (getLine is1).1 (List.replicate intNum w) false) with
  | error e => rw [hv] at h; simp at h
  | ok v =>
    rw [hv, out_bind] at h
    cases hs : cmLoop intNum (List.replicate intNum w) n fuel ⟨0, 0, [], v, 0, (getLine is1).2⟩ with
    | error e => rw [hs] at h; simp at h
    | ok s => exact hloop fuel _ (by show 0 < 65536; omega) s hs

/-- C55 is violated for a block without numbers: it swallows the line after its format. -/
theorem C55_empty_violated (toks : List (List Char)) (name : List Char) (type : CompType) (hh : CmHead toks name type 0)
    (fmt next : List Char) (intNum w : Nat) (hf : IFormat fmt intNum w) (is is' : Stream) (hfeed : Feeds is [fmt, next] is')
    (md : MeshData K) (fuel : Nat) : (∃ md', cmblock toks (fuel + 1) md is = .ok (md', is')) ∨ cmblock toks (fuel + 1) md is = .error .fatal := by
  obtain ⟨is1, g1, _, is2, g2, _, rfl⟩ := hfeed
  rw [cmblock_head (n := 0) hh hf g1 g2]
  cases hv : ssplit next (List.replicate intNum w) false with
  | fatal => right; rfl
  | ok v =>
    left
    rw [show lift (Res.ok v) = .ok v from rfl, out_bind]
    refine ⟨{ md with feComps := insertComp ⟨name, type, []⟩ md.feComps }, ?_⟩
    unfold cmLoop
    rw [if_neg (by simp), out_bind, if_neg (by simp [maxSize])]
    unfold fillLoop
    rw [if_neg (by simp), out_bind]
  | assert => rw [ssplit_eq] at hv; exact absurd hv (cut_outcome _ _ _).1
  | ub => rw [ssplit_eq] at hv; exact absurd hv (cut_outcome _ _ _).2

/-- The hypotheses of `C55_expand_partial` and `C55_empty_violated`: one node, and a range of elements. -/
example : (∀ i ∈ [Item.single 7, .range 10 12], i.Ok) ∧
    CmHead ["CMBLOCK".toList, "TOP".toList, "NODE".toList, "3".toList] "TOP".toList .NODES 3 ∧
    Rows 2 [["  7".toList, " 10".toList], ["-12".toList]] ∧
    List.Forall₂ Numeral [["  7".toList, " 10".toList], ["-12".toList]].flatten ([Item.single 7, .range 10 12].flatMap Item.codes) ∧
    [Item.single 7, .range 10 12].flatMap Item.members = [7, 10, 11, 12] := by
  refine ⟨?_, ⟨rfl, by decide, ⟨_, rfl, .inl ⟨by decide, rfl⟩⟩, ⟨_, rfl, [], [], "3".toList, [], rfl, by simp [Blanks], ⟨by decide, by decide⟩,
    by simp, .inl ⟨.inl rfl, by decide⟩⟩, by decide⟩, ?_, ?_, by decide⟩
  · intro i hi
    simp at hi
    rcases hi with rfl | rfl <;> simp [Item.Ok]
  · simp [Rows]
  · refine .cons ⟨"  ".toList, [], "7".toList, [], rfl, by unfold Blanks; decide, ⟨by decide, by decide⟩, by simp, .inl ⟨.inl rfl, by decide⟩⟩
      (.cons ⟨" ".toList, [], "10".toList, [], rfl, by unfold Blanks; decide, ⟨by decide, by decide⟩, by simp, .inl ⟨.inl rfl, by decide⟩⟩
      (.cons ⟨[], "-".toList, "12".toList, [], rfl, by unfold Blanks; decide, ⟨by decide, by decide⟩, by simp, .inr ⟨rfl, by decide⟩⟩ .nil))

end Nla3d.Cdb
