import Verif.Text.Model
import Mathlib.Data.List.Basic
import Mathlib.Data.List.DropRight

/-!
# Properties C57 and C58: text helpers and line reader
-/

namespace Nla3d.Text

/-! ## strim -/

theorem findFirst_eq (s : List Char) (i : Nat) : findFirstNotBlank i s =
    if s.all isBlank then none else some (i + (s.takeWhile isBlank).length) := by
  induction s generalizing i with
  | nil => rfl
  | cons c s ih =>
    unfold findFirstNotBlank
    by_cases hc : isBlank c = true
    · rw [if_pos hc, ih]
      simp only [List.all_cons, hc, Bool.true_and, List.takeWhile_cons, if_true, List.length_cons]
      split <;> simp; omega
    · rw [if_neg hc]
      simp [hc, List.takeWhile_cons]

theorem dropWhile_eq_drop (p : Char → Bool) (s : List Char) : s.dropWhile p = s.drop (s.takeWhile p).length := by
  induction s with
  | nil => rfl
  | cons c s ih =>
    by_cases h : p c = true <;> simp [List.takeWhile_cons, List.dropWhile_cons, h, ih]

theorem front_eq (s : List Char) : eraseFront s (findFirstNotBlank 0 s) = s.dropWhile isBlank := by
  rw [findFirst_eq]
  by_cases h : s.all isBlank = true
  · rw [if_pos h]
    symm
    show _ = []
    rw [List.dropWhile_eq_nil_iff]
    exact List.all_eq_true.mp h
  · rw [if_neg h, dropWhile_eq_drop]; simp [eraseFront]

theorem back_eq (s : List Char) : eraseBack s (findLastNotBlank s) = s.rdropWhile isBlank := by
  unfold findLastNotBlank
  rw [findFirst_eq, List.all_reverse]
  unfold List.rdropWhile
  by_cases h : s.all isBlank = true
  · rw [if_pos h]
    symm
    show _ = List.take 0 s
    rw [List.take_zero, List.reverse_eq_nil_iff, List.dropWhile_eq_nil_iff]
    intro x hx
    exact List.all_eq_true.mp h x (List.mem_reverse.mp hx)
  · rw [if_neg h, dropWhile_eq_drop]
    have hlt : (s.reverse.takeWhile isBlank).length < s.length := by
      by_contra hc
      apply h
      have hp := List.takeWhile_prefix (p := isBlank) (l := s.reverse)
      have he := hp.eq_of_length_le (by rw [List.length_reverse]; omega)
      rw [← List.all_reverse, ← he, List.all_takeWhile]
    simp only [Nat.zero_add, eraseBack]
    rw [List.drop_reverse, List.reverse_reverse]
    congr 1
    omega

theorem strim_eq (s : List Char) : strim s = (s.dropWhile isBlank).rdropWhile isBlank := by
  unfold strim
  simp only [front_eq]
  exact back_eq _

/-- Specification: `t` is `s` without leading and trailing blanks. -/
def Trimmed (s t : List Char) : Prop :=
  ∃ l r, s = l ++ t ++ r ∧ (∀ c ∈ l, c = ' ' ∨ c = '\t') ∧ (∀ c ∈ r, c = ' ' ∨ c = '\t') ∧
    (∀ c, t.head? = some c → c ≠ ' ' ∧ c ≠ '\t') ∧ (∀ c, t.getLast? = some c → c ≠ ' ' ∧ c ≠ '\t')

theorem isBlank_iff (c : Char) : isBlank c = true ↔ c = ' ' ∨ c = '\t' := by
  unfold isBlank; simp

theorem not_isBlank_iff (c : Char) : isBlank c = false ↔ c ≠ ' ' ∧ c ≠ '\t' := by
  unfold isBlank; simp

theorem head_dropWhile (s : List Char) (c : Char) (h : (s.dropWhile isBlank).head? = some c) : isBlank c = false := by
  have := List.head?_dropWhile_not isBlank s
  rw [h] at this
  simpa using this

theorem dropWhile_of_head (s : List Char) (h : ∀ c, s.head? = some c → isBlank c = false) : s.dropWhile isBlank = s := by
  cases s with
  | nil => rfl
  | cons c s => rw [List.dropWhile_cons, if_neg (by simp [h c rfl])]

theorem trimmed_unique {s t : List Char} (h : Trimmed s t) : t = strim s := by
  obtain ⟨l, r, rfl, hl, hr, h1, h2⟩ := h
  have hl' : ∀ c ∈ l, isBlank c = true := fun c hc => (isBlank_iff c).mpr (hl c hc)
  have hr' : ∀ c ∈ r, isBlank c = true := fun c hc => (isBlank_iff c).mpr (hr c hc)
  rw [strim_eq, List.append_assoc, List.dropWhile_append_of_pos hl']
  rcases List.eq_nil_or_concat t with rfl | ⟨t', c, rfl⟩
  · have : List.dropWhile isBlank ([] ++ r) = [] := by rw [List.nil_append, List.dropWhile_eq_nil_iff]; exact hr'
    rw [this]; rfl
  · rw [dropWhile_of_head]
    · unfold List.rdropWhile
      rw [List.reverse_append, List.dropWhile_append_of_pos (by intro c hc; exact hr' c (List.mem_reverse.mp hc)), dropWhile_of_head,
        List.reverse_reverse]
      intro c' hc'
      rw [List.head?_reverse] at hc'
      exact (not_isBlank_iff c').mpr (h2 c' hc')
    · intro c' hc'
      refine (not_isBlank_iff c').mpr (h1 c' ?_)
      cases t' with
      | nil => simpa using hc'
      | cons a t' => simpa using hc'

theorem trimmed_strim (s : List Char) : Trimmed s (strim s) := by
  refine ⟨s.takeWhile isBlank, ((s.dropWhile isBlank).reverse.takeWhile isBlank).reverse, ?_, ?_, ?_, ?_, ?_⟩
  · rw [strim_eq, List.append_assoc]
    unfold List.rdropWhile
    rw [← List.reverse_append, List.takeWhile_append_dropWhile, List.reverse_reverse, List.takeWhile_append_dropWhile]
  · intro c hc; exact (isBlank_iff c).mp (List.mem_takeWhile_imp hc)
  · intro c hc; exact (isBlank_iff c).mp (List.mem_takeWhile_imp (List.mem_reverse.mp hc))
  · intro c hc
    rw [strim_eq] at hc
    have hp : (s.dropWhile isBlank).rdropWhile isBlank <+: s.dropWhile isBlank := List.rdropWhile_prefix isBlank _
    obtain ⟨r, hr⟩ := hp
    apply (not_isBlank_iff c).mp
    apply head_dropWhile s c
    rw [← hr, List.head?_append, hc]; rfl
  · intro c hc
    rw [strim_eq] at hc
    apply (not_isBlank_iff c).mp
    unfold List.rdropWhile at hc
    rw [List.getLast?_reverse] at hc
    exact head_dropWhile _ c hc

/-- C57. `strim` removes exactly the leading and trailing blanks. -/
theorem C57_strim (s t : List Char) : strim s = t ↔ Trimmed s t :=
  ⟨fun h => h ▸ trimmed_strim s, fun h => (trimmed_unique h).symm⟩

/-- `sfirstNotBlank` returns the first character of the trimmed string, and is undefined on blank lines. -/
theorem C57_firstNotBlank (s : List Char) : (∀ c, sfirstNotBlank s = .ok c ↔ (strim s).head? = some c) ∧
    (sfirstNotBlank s = .ub ↔ strim s = []) := by
  have h1 : sfirstNotBlank s = match (s.dropWhile isBlank).head? with | some c => .ok c | none => .ub := by
    unfold sfirstNotBlank
    rw [findFirst_eq]
    by_cases h : s.all isBlank = true
    · rw [if_pos h, List.dropWhile_eq_nil_iff.mpr (List.all_eq_true.mp h)]; rfl
    · rw [if_neg h, dropWhile_eq_drop, List.head?_drop]
      simp only [Nat.zero_add]
      unfold Res.read
      cases s[(s.takeWhile isBlank).length]? <;> rfl
  have h2 : (strim s).head? = (s.dropWhile isBlank).head? := by
    rw [strim_eq]
    obtain ⟨r, hr⟩ : (s.dropWhile isBlank).rdropWhile isBlank <+: s.dropWhile isBlank := List.rdropWhile_prefix isBlank _
    cases hd : (s.dropWhile isBlank).rdropWhile isBlank with
    | cons a x => rw [hd] at hr; rw [← hr]; rfl
    | nil =>
      rw [List.rdropWhile_eq_nil_iff] at hd
      cases hx : s.dropWhile isBlank with
      | nil => rfl
      | cons a x =>
        have := head_dropWhile s a (by rw [hx]; rfl)
        rw [hd a (by rw [hx]; simp)] at this
        cases this
  rw [h1, ← h2]
  cases h : strim s with
  | nil => simp
  | cons a x => simp

example : strim [' ', '\t', 'a', ' ', 'b', ' '] = ['a', ' ', 'b'] := by decide
example : strim [' ', '\t'] = [] := by decide

/-! ## tokenizer -/

/-- Specification: pieces and delimiters alternate. -/
def interleave : List (List Char) → List Char → List Char
  | p :: ps, d :: ds => p ++ d :: interleave ps ds
  | p :: _, [] => p
  | [], _ => []

/-- Specification: `line` consists of the pieces between the delimiters `ds`, in order. -/
def Split (delims line : List Char) (pieces : List (List Char)) (ds : List Char) : Prop :=
  pieces.length = ds.length + 1 ∧ interleave pieces ds = line ∧ (∀ p ∈ pieces, ∀ c ∈ p, c ∉ delims) ∧ ∀ d ∈ ds, d ∈ delims

theorem findDelim_none {delims line : List Char} {st : Nat} (h : findDelim delims line st = none) :
    ∀ c ∈ line.drop st, c ∉ delims := by
  unfold findDelim at h
  split at h
  · rename_i hk
    rw [List.findIdx?_eq_none_iff] at hk
    intro c hc hd
    have := hk c hc
    simp [hd] at this
  · cases h

theorem findDelim_some {delims line : List Char} {st ind : Nat} (h : findDelim delims line st = some ind) :
    st ≤ ind ∧ ind < line.length ∧ (∀ c ∈ (line.drop st).take (ind - st), c ∉ delims) ∧ line.getD ind ' ' ∈ delims ∧
      line.drop st = (line.drop st).take (ind - st) ++ line.getD ind ' ' :: line.drop (ind + 1) := by
  obtain ⟨h1, h2⟩ := findDelim_lt h
  unfold findDelim at h
  split at h
  · cases h
  · rename_i k hk
    obtain rfl := Option.some.inj h
    obtain ⟨hlt, hp, hmin⟩ := List.findIdx?_eq_some_iff_getElem.mp hk
    have hg : line.getD (st + k) ' ' = line[st + k] := by
      rw [List.getD_eq_getElem?_getD, List.getElem?_eq_getElem h2]; rfl
    refine ⟨h1, h2, ?_, ?_, ?_⟩
    · intro c hc hd
      rw [Nat.add_sub_cancel_left] at hc
      obtain ⟨j, hj, rfl⟩ := List.getElem_of_mem hc
      rw [List.length_take] at hj
      have := hmin j (by omega)
      rw [List.getElem_take] at hd
      rw [List.getElem_drop] at hd
      simp [hd] at this
    · rw [hg]
      simpa using hp
    · rw [hg, Nat.add_sub_cancel_left]
      conv_lhs => rw [← List.take_append_drop k (line.drop st)]
      congr 1
      rw [List.drop_drop, List.drop_eq_getElem_cons h2]

theorem tokenizeLoop_eq (delims line : List Char) (n : Nat) : ∀ st found tokens dtokens, line.length - st ≤ n →
    ∃ pieces ds, Split delims (line.drop st) pieces ds ∧ tokenizeLoop delims line st found tokens dtokens =
      (found + pieces.length, tokens ++ pieces.map strim, dtokens ++ ds) := by
  induction n with
  | zero =>
    intro st found tokens dtokens hn
    have hd : line.drop st = [] := List.drop_eq_nil_of_le (by omega)
    refine ⟨[[]], [], ⟨rfl, by rw [hd]; rfl, by simp, by simp⟩, ?_⟩
    rw [tokenizeLoop]
    split
    · rw [hd]; simp
    · rename_i ind h
      have := findDelim_lt h
      omega
  | succ n ih =>
    intro st found tokens dtokens hn
    rw [tokenizeLoop]
    split
    · rename_i h
      exact ⟨[line.drop st], [], ⟨rfl, rfl, by simpa using findDelim_none h, by simp⟩, by simp⟩
    · rename_i ind h
      obtain ⟨h1, h2, h3, h4, h5⟩ := findDelim_some h
      obtain ⟨ps, ds, ⟨g1, g2, g3, g4⟩, g5⟩ := ih (ind + 1) (found + 1) (tokens ++ [strim ((line.drop st).take (ind - st))])
        (dtokens ++ [line.getD ind ' ']) (by omega)
      refine ⟨(line.drop st).take (ind - st) :: ps, line.getD ind ' ' :: ds, ⟨by simp [g1], ?_, ?_, ?_⟩, ?_⟩
      · unfold interleave; rw [g2]; exact h5.symm
      · intro p hp
        rcases List.mem_cons.mp hp with rfl | hp
        · exact h3
        · exact g3 p hp
      · intro d hd
        rcases List.mem_cons.mp hd with rfl | hd
        · exact h4
        · exact g4 d hd
      · rw [g5]
        simp only [List.length_cons, List.map_cons, List.append_assoc, List.singleton_append, Prod.mk.injEq, and_true]
        omega

theorem split_unique {delims : List Char} : ∀ {line pieces ds pieces' ds'}, Split delims line pieces ds → Split delims line pieces' ds' →
    pieces = pieces' ∧ ds = ds' := by
  intro line pieces
  induction pieces generalizing line with
  | nil => intro ds _ _ h; exact absurd h.1 (by simp)
  | cons p ps ih =>
    intro ds pieces' ds' h h'
    obtain ⟨h1, h2, h3, h4⟩ := h
    obtain ⟨g1, g2, g3, g4⟩ := h'
    cases pieces' with
    | nil => simp at g1
    | cons q qs =>
      have hp := h3 p (by simp)
      have hq := g3 q (by simp)
      -- the first piece is the longest prefix without delimiters
      have tw : ∀ (x : List Char) (ds : List Char) (xs : List (List Char)), (∀ c ∈ x, c ∉ delims) → (∀ d ∈ ds, d ∈ delims) →
          (interleave (x :: xs) ds).takeWhile (fun c => !delims.contains c) = x := by
        intro x ds xs hx hds
        have hx' : ∀ c ∈ x, (!delims.contains c) = true := by
          intro c hc; simpa using hx c hc
        cases ds with
        | nil =>
          show List.takeWhile _ x = x
          rw [List.takeWhile_eq_self_iff]
          exact hx'
        | cons d ds =>
          show List.takeWhile _ (x ++ d :: interleave xs ds) = x
          rw [List.takeWhile_append_of_pos hx', List.takeWhile_cons, if_neg (by simpa using hds d (by simp))]
          simp
      have hpq : p = q := by
        rw [← tw p ds ps hp h4, ← tw q ds' qs hq g4, h2, g2]
      subst hpq
      cases ds with
      | nil =>
        cases ds' with
        | nil =>
          have a : ps = [] := by simpa using h1
          have b : qs = [] := by simpa using g1
          rw [a, b]; exact ⟨rfl, rfl⟩
        | cons d' ds' =>
          exfalso
          rw [← h2] at g2
          have := congrArg List.length g2
          simp [interleave] at this
      | cons d ds =>
        cases ds' with
        | nil =>
          exfalso
          rw [← g2] at h2
          have := congrArg List.length h2
          simp [interleave] at this
        | cons d' ds' =>
          rw [← g2] at h2
          have e : d :: interleave ps ds = d' :: interleave qs ds' := by
            unfold interleave at h2
            exact List.append_cancel_left h2
          injection e with e1 e2
          have := ih (line := interleave ps ds) (ds := ds) (pieces' := qs) (ds' := ds')
            ⟨by simpa using h1, rfl, fun p hp => h3 p (by simp [hp]), fun d hd => h4 d (by simp [hd])⟩
            ⟨by simpa using g1, e2.symm, fun p hp => g3 p (by simp [hp]), fun d hd => g4 d (by simp [hd])⟩
          rw [this.1, this.2, e1]
          exact ⟨rfl, rfl⟩

/-- C57. The tokens are the trimmed (and lowered) pieces of the one decomposition of the line at its delimiters. -/
theorem C57_tokenize (delims line : List Char) (tolower : Bool) : ∃ pieces ds, Split delims line pieces ds ∧
    (∀ pieces' ds', Split delims line pieces' ds' → pieces' = pieces ∧ ds' = ds) ∧
    tokenize delims tolower line = (pieces.length,
      pieces.map (fun p => if tolower then (strim p).map Char.toLower else strim p), ds) := by
  obtain ⟨ps, ds, h1, h2⟩ := tokenizeLoop_eq delims line (line.length - 0) 0 0 [] [] (le_refl _)
  refine ⟨ps, ds, h1, fun _ _ h => split_unique h h1, ?_⟩
  unfold tokenize
  simp only [h2, List.nil_append, Nat.zero_add]
  cases tolower <;> simp [stolower]

/-! ## ssplit -/

/-- `ssplit` as a recursion on the part of the line not yet cut. -/
def cut (strict : Bool) : List Char → List Nat → Res (List (List Char))
  | _, [] => .ok []
  | s, w :: ws =>
    if s.length < w then (if strict then .fatal else if s.length ≠ 0 then .fatal else .ok [])
    else match cut strict (s.drop w) ws with
      | .ok vv => .ok (s.take w :: vv)
      | r => r

theorem ssplitLoop_eq (line : List Char) (strict : Bool) (ws : List Nat) : ∀ ind vv, ssplitLoop line strict ind vv ws =
    match cut strict (line.drop ind) ws with
    | .ok v => .ok (vv ++ v)
    | r => r := by
  induction ws with
  | nil => intro ind vv; simp [ssplitLoop, cut]
  | cons w ws ih =>
    intro ind vv
    unfold ssplitLoop cut
    rw [List.length_drop, ih]
    by_cases h : line.length - ind < w
    · rw [if_pos h, if_pos h]
      cases strict with
      | true => rfl
      | false =>
        by_cases h2 : line.length - ind ≠ 0
        · simp [h2]
        · simp [h2]
    · rw [if_neg h, if_neg h, List.drop_drop]
      cases cut strict (line.drop (ind + w)) ws <;> simp

theorem ssplit_eq (line : List Char) (ws : List Nat) (strict : Bool) : ssplit line ws strict = cut strict line ws := by
  unfold ssplit
  rw [ssplitLoop_eq, List.drop_zero]
  cases cut strict line ws <;> simp

/-- Specification of a complete cut: consecutive fields of the given widths from the start of the line. -/
def Fields (line : List Char) (ws : List Nat) (vv : List (List Char)) : Prop :=
  vv.map List.length = ws ∧ vv.flatten <+: line

/-- Specification of an incomplete cut: the line ends exactly after some of the fields and the next field is not empty. -/
def ShortFields (line : List Char) (ws : List Nat) (vv : List (List Char)) : Prop :=
  vv.flatten = line ∧ ∃ w ws', ws = vv.map List.length ++ w :: ws' ∧ 0 < w

/-- C57. `ssplit` with `strict` cuts the line into fields or reports that it is too short. -/
theorem C57_ssplit_strict (line : List Char) (ws : List Nat) :
    (∀ vv, ssplit line ws true = .ok vv ↔ Fields line ws vv) ∧ (ssplit line ws true = .fatal ↔ line.length < ws.sum) := by
  rw [ssplit_eq]
  induction ws generalizing line with
  | nil =>
    constructor
    · intro vv
      unfold cut Fields
      constructor
      · intro h; obtain rfl := Res.ok.inj h; exact ⟨rfl, List.nil_prefix⟩
      · rintro ⟨h, _⟩; rw [List.map_eq_nil_iff.mp h]
    · simp [cut]
  | cons w ws ih =>
    obtain ⟨ih1, ih2⟩ := ih (line.drop w)
    unfold cut
    by_cases h : line.length < w
    · rw [if_pos h]
      simp only [if_true, List.sum_cons]
      refine ⟨?_, fun _ => by omega, fun _ => trivial⟩
      intro vv
      constructor
      · intro h; cases h
      · rintro ⟨h1, h2⟩
        cases vv with
        | nil => simp at h1
        | cons v vv =>
          simp only [List.map_cons, List.cons.injEq] at h1
          have := h2.length_le
          simp at this
          omega
    · rw [if_neg h]
      constructor
      · intro vv
        constructor
        · intro hv
          cases hc : cut true (line.drop w) ws with
          | ok v =>
            rw [hc] at hv
            obtain rfl := Res.ok.inj hv
            obtain ⟨a, b⟩ := (ih1 v).mp hc
            refine ⟨by simp [a]; omega, ?_⟩
            obtain ⟨r, hr⟩ := b
            refine ⟨r, ?_⟩
            rw [List.flatten_cons, List.append_assoc, hr, List.take_append_drop]
          | fatal => rw [hc] at hv; cases hv
          | assert => rw [hc] at hv; cases hv
          | ub => rw [hc] at hv; cases hv
        · rintro ⟨h1, r, hr⟩
          cases vv with
          | nil => simp at h1
          | cons v vv =>
            simp only [List.map_cons, List.cons.injEq] at h1
            obtain ⟨rfl, h1⟩ := h1
            rw [List.flatten_cons, List.append_assoc] at hr
            have hd : line.drop v.length = vv.flatten ++ r := by rw [← hr]; simp
            have ht : line.take v.length = v := by rw [← hr]; simp
            rw [(ih1 vv).mpr ⟨h1, r, hd.symm⟩, ht]
      · rw [List.sum_cons]
        rw [List.length_drop] at ih2
        constructor
        · intro hv
          cases hc : cut true (line.drop w) ws with
          | fatal => have := ih2.mp hc; omega
          | ok v => rw [hc] at hv; cases hv
          | assert => rw [hc] at hv; cases hv
          | ub => rw [hc] at hv; cases hv
        · intro hl
          rw [ih2.mpr (by omega)]

/-- C57. `ssplit` without `strict` also accepts a line that ends after some of the fields, and reports a line that ends inside a
field. -/
theorem C57_ssplit (line : List Char) (ws : List Nat) :
    (∀ vv, ssplit line ws false = .ok vv ↔ Fields line ws vv ∨ ShortFields line ws vv) ∧
      (ssplit line ws false = .fatal ↔ line.length < ws.sum ∧ ∀ k, line.length ≠ (ws.take k).sum) := by
  rw [ssplit_eq]
  induction ws generalizing line with
  | nil =>
    constructor
    · intro vv
      unfold cut Fields ShortFields
      constructor
      · intro h; obtain rfl := Res.ok.inj h; exact .inl ⟨rfl, List.nil_prefix⟩
      · rintro (⟨h, _⟩ | ⟨_, w, ws', h, _⟩)
        · rw [List.map_eq_nil_iff.mp h]
        · simp at h
    · simp [cut]
  | cons w ws ih =>
    obtain ⟨ih1, ih2⟩ := ih (line.drop w)
    unfold cut
    by_cases h : line.length < w
    · rw [if_pos h]
      simp only [Bool.false_eq_true, if_false, List.sum_cons]
      have none1 : ∀ vv, (Fields line (w :: ws) vv ∨ ShortFields line (w :: ws) vv) → vv = [] ∧ line = [] := by
        rintro vv (⟨h1, h2⟩ | ⟨h1, w', ws', h2, h3⟩)
        · cases vv with
          | nil => simp at h1
          | cons v vv =>
            simp only [List.map_cons, List.cons.injEq] at h1
            have := h2.length_le
            simp at this
            omega
        · cases vv with
          | nil => exact ⟨rfl, h1.symm⟩
          | cons v vv =>
            simp only [List.map_cons, List.cons_append, List.cons.injEq] at h2
            have := congrArg List.length h1
            simp at this
            omega
      by_cases h0 : line.length ≠ 0
      · rw [if_pos h0]
        refine ⟨?_, fun _ => ⟨by omega, ?_⟩, fun _ => rfl⟩
        · intro vv
          constructor
          · intro hv; cases hv
          · intro hv; exact absurd (by rw [(none1 vv hv).2]; rfl) h0
        · intro k
          cases k with
          | zero => simpa using h0
          | succ k => rw [List.take_succ_cons, List.sum_cons]; omega
      · rw [if_neg h0]
        have hl : line = [] := List.length_eq_zero_iff.mp (by omega)
        refine ⟨?_, ?_⟩
        · intro vv
          constructor
          · intro hv
            obtain rfl := Res.ok.inj hv
            exact .inr ⟨hl.symm, w, ws, rfl, by omega⟩
          · intro hv; rw [(none1 vv hv).1]
        · constructor
          · intro hv; cases hv
          · rintro ⟨_, hk⟩; exact absurd (by simp [hl]) (hk 0)
    · rw [if_neg h]
      constructor
      · intro vv
        constructor
        · intro hv
          cases hc : cut false (line.drop w) ws with
          | ok v =>
            rw [hc] at hv
            obtain rfl := Res.ok.inj hv
            rcases (ih1 v).mp hc with ⟨a, r, hr⟩ | ⟨a, w', ws', b, c⟩
            · refine .inl ⟨by simp [a]; omega, r, ?_⟩
              rw [List.flatten_cons, List.append_assoc, hr, List.take_append_drop]
            · refine .inr ⟨by rw [List.flatten_cons, a, List.take_append_drop], w', ws', ?_, c⟩
              simp only [List.map_cons, List.length_take, List.cons_append, List.cons.injEq]
              exact ⟨by omega, b⟩
          | fatal => rw [hc] at hv; cases hv
          | assert => rw [hc] at hv; cases hv
          | ub => rw [hc] at hv; cases hv
        · rintro (⟨h1, r, hr⟩ | ⟨h1, w', ws', h2, h3⟩)
          · cases vv with
            | nil => simp at h1
            | cons v vv =>
              simp only [List.map_cons, List.cons.injEq] at h1
              obtain ⟨rfl, h1⟩ := h1
              rw [List.flatten_cons, List.append_assoc] at hr
              have hd : line.drop v.length = vv.flatten ++ r := by rw [← hr]; simp
              have ht : line.take v.length = v := by rw [← hr]; simp
              rw [(ih1 vv).mpr (.inl ⟨h1, r, hd.symm⟩), ht]
          · cases vv with
            | nil =>
              simp only [List.map_nil, List.nil_append, List.cons.injEq] at h2
              rw [← h1] at h
              simp at h
              omega
            | cons v vv =>
              simp only [List.map_cons, List.cons_append, List.cons.injEq] at h2
              obtain ⟨rfl, h2⟩ := h2
              rw [List.flatten_cons] at h1
              have hd : line.drop v.length = vv.flatten := by rw [← h1]; simp
              have ht : line.take v.length = v := by rw [← h1]; simp
              rw [(ih1 vv).mpr (.inr ⟨hd.symm, w', ws', h2, h3⟩), ht]
      · rw [List.sum_cons]
        rw [List.length_drop] at ih2
        constructor
        · intro hv
          cases hc : cut false (line.drop w) ws with
          | fatal =>
            obtain ⟨a, b⟩ := ih2.mp hc
            refine ⟨by omega, ?_⟩
            intro k
            cases k with
            | zero =>
              intro h0
              have := b 0
              simp at h0 this
              simp [h0] at this
            | succ k => have := b k; rw [List.take_succ_cons, List.sum_cons]; omega
          | ok v => rw [hc] at hv; cases hv
          | assert => rw [hc] at hv; cases hv
          | ub => rw [hc] at hv; cases hv
        · rintro ⟨a, b⟩
          rw [ih2.mpr ⟨by omega, fun k => by have := b (k + 1); rw [List.take_succ_cons, List.sum_cons] at this; omega⟩]

/-- A line of two of three fields, and a line that ends inside a field. -/
example : ssplit "  1 20".toList [3, 3, 3] false = .ok ["  1".toList, " 20".toList] ∧ ssplit "  1 2".toList [3, 3, 3] false = .fatal := by
  decide

/-! ## iequals -/

theorem iequalsLoop_eq (a b : List Char) (hl : b.length = a.length) : ∀ n i, i + n = a.length →
    iequalsLoop a b i n = .ok (decide ((a.drop i).map Char.toLower = (b.drop i).map Char.toLower)) := by
  intro n
  induction n with
  | zero =>
    intro i h
    unfold iequalsLoop
    rw [List.drop_eq_nil_of_le (by omega), List.drop_eq_nil_of_le (by omega)]
    simp
  | succ n ih =>
    intro i h
    unfold iequalsLoop
    have ha : i < a.length := by omega
    have hb : i < b.length := by omega
    rw [Res.read_of_lt ha, Res.ok_bind, Res.read_of_lt hb, Res.ok_bind, ih (i + 1) (by omega), List.drop_eq_getElem_cons ha,
      List.drop_eq_getElem_cons hb, List.map_cons, List.map_cons]
    by_cases he : a[i].toLower = b[i].toLower
    · rw [if_neg (by simpa using he), he]
      congr 1
      simp only [List.cons.injEq, true_and]
    · rw [if_pos he]
      simp only [List.cons.injEq, he, false_and, decide_false]

/-- C57. `iequals` is equality up to case. -/
theorem C57_iequals (a b : List Char) : iequals a b = .ok (decide (a.map Char.toLower = b.map Char.toLower)) := by
  unfold iequals
  by_cases h : b.length ≠ a.length
  · rw [if_pos h]
    congr 1
    symm
    rw [decide_eq_false_iff_not]
    intro he
    have := congrArg List.length he
    simp at this
    omega
  · rw [if_neg h, iequalsLoop_eq a b (by omega) a.length 0 (by omega)]
    rfl

/-- C57. `iequals` is an equivalence relation. -/
theorem C57_iequals_equiv : Equivalence (fun a b => iequals a b = .ok true) := by
  have e : ∀ a b, iequals a b = .ok true ↔ a.map Char.toLower = b.map Char.toLower := by
    intro a b; rw [C57_iequals]; simp
  exact ⟨fun a => (e a a).mpr rfl, fun h => (e _ _).mpr ((e _ _).mp h).symm, fun h h' => (e _ _).mpr (((e _ _).mp h).trans ((e _ _).mp h'))⟩

example : iequals "nBlock".toList "NBLOCK".toList = .ok true ∧ iequals "D".toList "F".toList = .ok false := by decide

/-! ## getLine -/

theorem getLineLoop_append (l s : List Char) (t : List Char) (e : Bool) (hl : ∀ c ∈ l, c ≠ '\n' ∧ c ≠ '\r') :
    getLineLoop t e (l ++ s) = getLineLoop (t ++ l) e s := by
  induction l generalizing t with
  | nil => simp
  | cons c l ih =>
    have hc := hl c (by simp)
    rw [List.cons_append, getLineLoop.eq_def]
    simp only
    rw [if_neg hc.1, if_neg hc.2, ih _ (fun c hc => hl c (by simp [hc]))]
    simp

theorem getLineLoop_length (s : List Char) : ∀ t e, (getLineLoop t e s).2.eof = false → s.length + t.length ≠ 0 ∧
    ((getLineLoop t e s).2.rest.length < s.length ∨ s = []) := by
  induction s with
  | nil =>
    intro t e h
    refine ⟨?_, .inr rfl⟩
    unfold getLineLoop at h
    intro h0
    have : t = [] := List.length_eq_zero_iff.mp (by simpa using h0)
    simp [this] at h
  | cons c s ih =>
    intro t e h
    refine ⟨by simp, .inl ?_⟩
    rw [getLineLoop.eq_def] at h ⊢
    simp only at h ⊢
    by_cases h1 : c = '\n'
    · simp [h1]
    · rw [if_neg h1] at h ⊢
      by_cases h2 : c = '\r'
      · rw [if_pos h2]
        cases s with
        | nil => simp
        | cons d s' =>
          dsimp only
          split
          · simp; omega
          · simp
      · rw [if_neg h2] at h ⊢
        rcases (ih (t ++ [c]) e h).2 with h3 | h3
        · simp only [List.length_cons]; omega
        · subst h3; simp [getLineLoop]

theorem getLine_length (is : Stream) (h : (getLine is).2.eof = false) : (getLine is).2.rest.length < is.rest.length := by
  obtain ⟨h1, h2⟩ := getLineLoop_length is.rest [] is.eof h
  rcases h2 with h2 | h2
  · exact h2
  · rw [h2] at h1; simp at h1

/-- The loop `while (!getLine(file, line).eof()) ...` of the readers (FEReaders.cpp:350): the lines its body gets. -/
def readLines (is : Stream) : List (List Char) :=
  if h : (getLine is).2.eof = true then [] else (getLine is).1 :: readLines (getLine is).2
termination_by is.rest.length
decreasing_by exact getLine_length is (by simpa using h)

/-- Line ends. -/
inductive Ending where
  | LF | CR | CRLF
  deriving DecidableEq

def Ending.chars : Ending → List Char
  | .LF => ['\n']
  | .CR => ['\r']
  | .CRLF => ['\r', '\n']

/-- The text of terminated lines. -/
def text (ls : List (List Char × Ending)) : List Char := ls.flatMap fun l => l.1 ++ l.2.chars

/-- No line that ends with CR is followed by an empty line that ends with LF: such a text has another reading, with CRLF. -/
def NoMerge : List (List Char × Ending) → Prop
  | (_, .CR) :: ([], .LF) :: _ => False
  | _ :: ls => NoMerge ls
  | [] => True

def Plain (l : List Char) : Prop := ∀ c ∈ l, c ≠ '\n' ∧ c ≠ '\r'

theorem readLines_cons {is : Stream} {l : List Char} {s : List Char} (h : getLine is = (l, ⟨s, false⟩)) :
    readLines is = l :: readLines ⟨s, false⟩ := by
  rw [readLines, h]
  simp

theorem text_head {ls : List (List Char × Ending)} {last : List Char} {d : Char} {s : List Char} (hlast : Plain last)
    (hls : ∀ l ∈ ls, Plain l.1) (h : text ls ++ last = d :: s) (hd : d = '\n') : ∃ ls', ls = ([], .LF) :: ls' := by
  subst hd
  cases ls with
  | nil =>
    exfalso
    have : last = '\n' :: s := h
    exact (hlast '\n' (by rw [this]; simp)).1 rfl
  | cons l ls =>
    obtain ⟨l, e⟩ := l
    cases l with
    | cons c l =>
      exfalso
      have hc := (hls (c :: l, e) (by simp) c (by simp)).1
      have h' : c :: (l ++ e.chars ++ text ls ++ last) = '\n' :: s := by
        rw [← h]; simp [text]
      injection h' with h1 _
      exact hc h1
    | nil =>
      have h' : e.chars ++ (text ls ++ last) = '\n' :: s := by rw [← h]; simp [text]
      cases e with
      | LF => exact ⟨ls, rfl⟩
      | CR => injection h' with h1 _; exact absurd h1 (by decide)
      | CRLF => injection h' with h1 _; exact absurd h1 (by decide)

/-- C58. Lines that end with LF, CR or CRLF are read back, the last one also if it is not terminated. Missing for the full claim:
an empty line ending with LF after a line ending with CR. -/
theorem C58_lines_partial (ls : List (List Char × Ending)) (last : List Char) (hls : ∀ l ∈ ls, Plain l.1) (hlast : Plain last)
    (hm : NoMerge ls) : readLines ⟨text ls ++ last, false⟩ = ls.map Prod.fst ++ if last = [] then [] else [last] := by
  induction ls with
  | nil =>
    have hg : getLineLoop [] false last = (last, ⟨[], if last.isEmpty then true else false⟩) := by
      have := getLineLoop_append last [] [] false hlast
      rw [List.append_nil, List.nil_append] at this
      rw [this]; rfl
    have hg' : getLine ⟨text [] ++ last, false⟩ = (last, ⟨[], if last.isEmpty then true else false⟩) := hg
    cases last with
    | nil => rw [readLines, hg']; simp
    | cons c last =>
      rw [readLines_cons (l := c :: last) (s := []) hg']
      rw [readLines]
      simp [getLine, getLineLoop]
  | cons l ls ih =>
    obtain ⟨l, e⟩ := l
    have hl := hls (l, e) (by simp)
    have hm' : NoMerge ls := by
      cases e <;> cases ls with
      | nil => trivial
      | cons m ls =>
        obtain ⟨m, f⟩ := m
        cases m <;> cases f <;> first | exact hm | exact absurd hm (by simp [NoMerge])
    have ih' := ih (fun l hl => hls l (by simp [hl])) hm'
    have hg : getLine ⟨text ((l, e) :: ls) ++ last, false⟩ = (l, ⟨text ls ++ last, false⟩) := by
      unfold getLine
      have ht : text ((l, e) :: ls) ++ last = l ++ (e.chars ++ (text ls ++ last)) := by simp [text]
      show getLineLoop [] false (text ((l, e) :: ls) ++ last) = _
      rw [ht, getLineLoop_append l _ _ _ hl, List.nil_append]
      cases e with
      | LF => show getLineLoop l false ('\n' :: _) = _; rw [getLineLoop.eq_def]; simp
      | CRLF => show getLineLoop l false ('\r' :: '\n' :: _) = _; rw [getLineLoop.eq_def]; simp
      | CR =>
        show getLineLoop l false ('\r' :: (text ls ++ last)) = _
        rw [getLineLoop.eq_def]
        cases hd : text ls ++ last with
        | nil => simp
        | cons d s =>
          have hdn : d ≠ '\n' := by
            intro h
            obtain ⟨ls', rfl⟩ := text_head hlast (fun l hl => hls l (by simp [hl])) hd h
            exact hm
          simp [hdn]
    rw [readLines_cons hg, ih']
    simp

/-- The reading of a text with such pairs of lines. -/
def merge : List (List Char × Ending) → List (List Char × Ending)
  | (l, .CR) :: ([], .LF) :: ls => (l, .CRLF) :: merge ls
  | l :: ls => l :: merge ls
  | [] => []

theorem text_merge (ls : List (List Char × Ending)) : text (merge ls) = text ls := by
  fun_induction merge ls with
  | case1 l ls ih => simp only [text, List.flatMap_cons] at ih ⊢; rw [ih]; simp [Ending.chars]
  | case2 l ls h ih => simp only [text, List.flatMap_cons] at ih ⊢; rw [ih]
  | case3 => rfl

theorem merge_length (ls : List (List Char × Ending)) : (merge ls).length ≤ ls.length ∧ (¬NoMerge ls → (merge ls).length < ls.length) := by
  fun_induction merge ls with
  | case1 l ls ih => simp; omega
  | case2 l ls h ih =>
    refine ⟨by simp [ih.1], ?_⟩
    intro hn
    simp only [List.length_cons, Nat.add_lt_add_iff_right]
    apply ih.2
    intro hc
    apply hn
    unfold NoMerge
    split
    · rename_i a b c; injection c with c1 c2; exact h _ _ c1 c2
    · rename_i a b c; injection c with c1 c2; rw [← c2]; exact hc
    · trivial
  | case3 => exact ⟨le_refl _, fun h => absurd trivial h⟩

theorem merge_head {l : List Char} {ls ls' : List (List Char × Ending)} (h : merge ls = ([], .LF) :: ls') : ∃ ls'', ls = ([], .LF) :: ls'' := by
  unfold merge at h
  split at h
  · simp at h
  · rename_i a b c; injection h with h1 h2; subst h1; exact ⟨_, rfl⟩
  · cases h

theorem merge_noMerge (ls : List (List Char × Ending)) : NoMerge (merge ls) := by
  fun_induction merge ls with
  | case1 l ls ih => exact ih
  | case2 l ls h ih =>
    unfold NoMerge
    split
    · rename_i a b c
      injection c with c1 c2
      obtain ⟨ls'', e⟩ := merge_head (l := []) c2
      exact absurd e (h _ _ c1)
    · rename_i a b c; injection c with c1 c2; rw [← c2]; exact ih
    · trivial
  | case3 => trivial

/-- C58. Exactly these pairs of lines break the claim: then a line gets lost. -/
theorem C58_lines_iff (ls : List (List Char × Ending)) (last : List Char) (hls : ∀ l ∈ ls, Plain l.1) (hlast : Plain last) :
    readLines ⟨text ls ++ last, false⟩ = ls.map Prod.fst ++ (if last = [] then [] else [last]) ↔ NoMerge ls := by
  refine ⟨fun h => ?_, C58_lines_partial ls last hls hlast⟩
  by_contra hn
  have hp : ∀ l ∈ merge ls, Plain l.1 := by
    clear h hn
    fun_induction merge ls with
    | case1 l ls ih =>
      intro x hx
      rcases List.mem_cons.mp hx with rfl | hx
      · exact hls (l, .CR) (by simp)
      · exact ih (fun y hy => hls y (by simp [hy])) x hx
    | case2 l ls h ih =>
      intro x hx
      rcases List.mem_cons.mp hx with rfl | hx
      · exact hls x (by simp)
      · exact ih (fun y hy => hls y (by simp [hy])) x hx
    | case3 => simp
  have := C58_lines_partial (merge ls) last hp hlast (merge_noMerge ls)
  rw [text_merge, h] at this
  have := congrArg List.length (List.append_cancel_right this)
  simp only [List.length_map] at this
  have := (merge_length ls).2 hn
  omega

/-- C58 is violated: the empty line is lost. -/
theorem C58_lines_violated : readLines ⟨text [("a".toList, .CR), ([], .LF), ("b".toList, .LF)], false⟩ = ["a".toList, "b".toList] := by
  have := C58_lines_partial [("a".toList, .CRLF), ("b".toList, .LF)] [] (by simp [Plain]) (by simp [Plain]) (by simp [NoMerge])
  simpa [text, Ending.chars] using this

example : readLines ⟨"a\r\nb\rc\n\nd".toList, false⟩ = ["a".toList, "b".toList, "c".toList, [], "d".toList] := by
  have := C58_lines_partial [("a".toList, .CRLF), ("b".toList, .CR), ("c".toList, .LF), ([], .LF)] "d".toList
    (by simp [Plain]) (by simp [Plain]) (by simp [NoMerge])
  simpa [text, Ending.chars] using this

end Nla3d.Text
