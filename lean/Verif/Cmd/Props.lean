import Verif.Cmd.Model
import Mathlib.Tactic.Ring
import Mathlib.Tactic.Linarith
import Mathlib.Algebra.Order.Field.Basic
import Mathlib.Algebra.Order.BigOperators.Group.List
import Mathlib.Data.Rat.Defs
import Mathlib.Data.List.Forall2
import Mathlib.Data.List.TakeWhile
import Mathlib.Tactic.Positivity
import Mathlib.Algebra.Order.Ring.Rat
import Mathlib.Algebra.Field.Rat
import Mathlib.Tactic.NormNum

/-! # Properties of the command line: C61, C75, C76, C77, C78, C79 -/

namespace Nla3d.Cmd

open Nla3d.Dof Nla3d.Labels

variable {K : Type}

/-! ## C61: helpers -/

theorem find_append {opt : String} (pre post : List String) (h : opt ∉ pre) :
    find opt (pre ++ opt :: post) = opt :: post := by
  induction pre with
  | nil => simp [find]
  | cons a as ih =>
    rw [List.mem_cons, not_or] at h
    rw [List.cons_append, find, if_neg (fun e => h.1 e.symm), ih h.2]

theorem find_absent {opt : String} (args : List String) (h : opt ∉ args) : find opt args = [] := by
  induction args with
  | nil => rfl
  | cons a as ih =>
    rw [List.mem_cons, not_or] at h
    rw [find, if_neg (fun e => h.1 e.symm), ih h.2]

/-- Every argument list either lacks an option or splits at its first occurrence. -/
theorem split_first (opt : String) (args : List String) :
    opt ∉ args ∨ ∃ pre post, args = pre ++ opt :: post ∧ opt ∉ pre := by
  induction args with
  | nil => exact Or.inl (List.not_mem_nil)
  | cons a as ih =>
    by_cases e : a = opt
    · exact Or.inr ⟨[], as, by rw [e]; rfl, List.not_mem_nil⟩
    · rcases ih with h | ⟨pre, post, h, hp⟩
      · exact Or.inl (by simp [h, Ne.symm e])
      · exact Or.inr ⟨a :: pre, post, by rw [h]; rfl, by simp [hp, Ne.symm e]⟩

/-- **C61.** `cmdOptionExists` is membership. -/
theorem C61_exists (args : List String) (opt : String) : cmdOptionExists args opt = true ↔ opt ∈ args := by
  unfold cmdOptionExists
  rcases split_first opt args with h | ⟨pre, post, rfl, hp⟩
  · simp [find_absent args h, h]
  · simp [find_append pre post hp]

/-- **C61.** `getCmdOption` returns `v` exactly when `v` follows the first occurrence of the option. -/
theorem C61_option (args : List String) (opt v : String) :
    getCmdOption args opt = some v ↔ ∃ pre post, args = pre ++ opt :: v :: post ∧ opt ∉ pre := by
  unfold getCmdOption
  constructor
  · intro h
    rcases split_first opt args with hn | ⟨pre, post, rfl, hp⟩
    · rw [find_absent args hn] at h
      cases h
    · rw [find_append pre post hp] at h
      cases post with
      | nil => cases h
      | cons w ws =>
        simp only [Option.some.injEq] at h
        subst h
        exact ⟨pre, ws, rfl, hp⟩
  · rintro ⟨pre, post, rfl, hp⟩
    rw [find_append pre _ hp]

/-- **C61.** `getCmdOption` returns nothing exactly when the option is absent or its first occurrence is the last
argument. -/
theorem C61_option_none (args : List String) (opt : String) :
    getCmdOption args opt = none ↔ opt ∉ args ∨ ∃ pre, args = pre ++ [opt] ∧ opt ∉ pre := by
  unfold getCmdOption
  rcases split_first opt args with hn | ⟨pre, post, rfl, hp⟩
  · rw [find_absent args hn]
    simp [hn]
  · rw [find_append pre post hp]
    cases post with
    | nil => simp only [true_iff]; exact Or.inr ⟨pre, rfl, hp⟩
    | cons w ws =>
      simp only [reduceCtorEq, false_iff, not_or, not_exists, not_and]
      refine ⟨by simp, ?_⟩
      intro pre' e hp'
      have h1 := find_append pre (w :: ws) hp
      have h2 := find_append pre' [] hp'
      rw [e, h2] at h1
      simp at h1

/-- A maximal run: a prefix without members of `P`, after which the list ends or a member of `P` comes. -/
def MaximalRun (P : String → Prop) (run rest : List String) : Prop :=
  (∀ a ∈ run, ¬ P a) ∧ ∀ b, rest.head? = some b → P b

/-- An argument that names an option: it begins with a minus and no digit follows it. -/
def NamesOption (a : String) : Prop :=
  ∃ cs, a.toList = '-' :: cs ∧ ∀ c, cs.head? = some c → ¬ ('0' ≤ c ∧ c ≤ '9')

theorem isOption_iff (a : String) : isOption a = true ↔ NamesOption a := by
  unfold isOption NamesOption
  rcases hl : a.toList with _ | ⟨x, cs⟩
  · simp
  · by_cases hx : x = '-'
    · subst hx
      cases cs with
      | nil => simp
      | cons c cs =>
        simp only [Bool.or_eq_true, decide_eq_true_eq, List.cons.injEq, true_and, exists_eq_left', List.head?_cons,
          Option.some.injEq, forall_eq', not_and_or, Char.not_le]
    · have : ∀ ds, x :: cs ≠ '-' :: ds := fun ds e => hx (List.cons.inj e).1
      cases cs <;> simp [hx]

theorem takeWhile_run (P : String → Prop) (p : String → Bool) (hp : ∀ a, p a = true ↔ ¬ P a) (run rest : List String)
    (h : MaximalRun P run rest) : (run ++ rest).takeWhile p = run := by
  induction run with
  | nil =>
    cases rest with
    | nil => rfl
    | cons b bs =>
      have : p b = false := by
        rw [← Bool.not_eq_true, hp, not_not]
        exact h.2 b rfl
      simp [this]
  | cons a as ih =>
    have : p a = true := (hp a).2 (h.1 a List.mem_cons_self)
    simp only [List.cons_append, List.takeWhile_cons, this, if_true]
    rw [ih ⟨fun x hx => h.1 x (List.mem_cons_of_mem _ hx), h.2⟩]

theorem many_eq (args : List String) (opt : String) (pre run rest : List String)
    (e : args = pre ++ opt :: (run ++ rest)) (hp : opt ∉ pre) (h : MaximalRun NamesOption run rest) :
    getCmdManyOptions args opt = run := by
  unfold getCmdManyOptions
  rw [e, find_append pre _ hp]
  exact takeWhile_run NamesOption _ (fun a => by rw [Bool.not_eq_true', ← Bool.not_eq_true, isOption_iff]) run rest h

/-- **C61.** `getCmdManyOptions` returns the maximal run of arguments after the first occurrence of the option that do not
name an option; negative numbers that begin with a digit belong to it. -/
theorem C61_many (args : List String) (opt : String) (pre run rest : List String)
    (e : args = pre ++ opt :: (run ++ rest)) (hp : opt ∉ pre) (h : MaximalRun NamesOption run rest) :
    getCmdManyOptions args opt = run := many_eq args opt pre run rest e hp h

/-- **C61.** Without the option there is nothing. -/
theorem C61_many_none (args : List String) (opt : String) (h : opt ∉ args) : getCmdManyOptions args opt = [] := by
  unfold getCmdManyOptions
  rw [find_absent args h]

/-- A numeral of the command line: an optional minus, then a digit, or a point and a digit. -/
def Numeral (a : String) : Prop :=
  ∃ sign ds, a.toList = sign ++ ds ∧ (sign = [] ∨ sign = ['-']) ∧
    ((∃ d r, ds = d :: r ∧ '0' ≤ d ∧ d ≤ '9') ∨ ∃ d r, ds = '.' :: d :: r ∧ '0' ≤ d ∧ d ≤ '9')

/-- **C61.** Numerals with a digit right after the sign do not end the run. -/
theorem C61_digit (a : String) (sign r : List Char) (d : Char) (ha : a.toList = sign ++ d :: r)
    (hs : sign = [] ∨ sign = ['-']) (h0 : '0' ≤ d) (h9 : d ≤ '9') : ¬ NamesOption a := by
  rintro ⟨cs, h, hc⟩
  rw [ha] at h
  rcases hs with rfl | rfl
  · simp only [List.nil_append, List.cons.injEq] at h
    rw [h.1] at h0
    exact absurd h0 (by decide)
  · simp only [List.cons_append, List.nil_append, List.cons.injEq, true_and] at h
    exact hc d (by rw [← h]; rfl) ⟨h0, h9⟩

/-- **C61, negation.** The full claim, that the run contains every negative numeral, fails: `-.5` is taken for an
option. -/
theorem C61_negative_violated : Numeral "-.5" ∧
    getCmdManyOptions ["-material", "Hooke", "1", "-.5", "2"] "-material" = ["Hooke", "1"] :=
  ⟨⟨['-'], ['.', '5'], by decide, Or.inr rfl, Or.inr ⟨'5', [], rfl, by decide, by decide⟩⟩, by decide⟩

example : getCmdManyOptions ["-novtk", "-material", "Hooke", "1", "-2", "-element", "TRUSS3"] "-material"
    = ["Hooke", "1", "-2"] :=
  C61_many _ _ ["-novtk"] ["Hooke", "1", "-2"] ["-element", "TRUSS3"] rfl (by decide)
    ⟨fun a ha => by rw [← isOption_iff]; revert a; decide, fun b hb => by
      rw [← isOption_iff]; obtain rfl : "-element" = b := by simpa using hb
      decide⟩

theorem npowLoop_eq (x : Int) (n : Nat) (r : Int) (h : ∀ i, i ≤ n → inInt32 (r * x ^ i) = true) :
    npowLoop x n r = .ok (r * x ^ n) := by
  induction n generalizing r with
  | zero => simp [npowLoop]
  | succ n ih =>
    have h1 := h 1 (by omega)
    rw [pow_one] at h1
    rw [npowLoop, if_pos h1, ih _ (fun i hi => by
      have := h (i + 1) (by omega)
      rw [pow_succ', ← mul_assoc] at this
      exact this)]
    congr 1
    ring

theorem abs_pow_le (x : Int) {i n : Nat} (h : i ≤ n) (hx : x ≠ 0) : |x ^ i| ≤ |x ^ n| := by
  rw [abs_pow, abs_pow]
  exact pow_le_pow_right₀ (Int.one_le_abs hx) h

/-- **C61.** `npow(x, n)` is `x ^ n` whenever the power is less than `2 ^ 31` in absolute value. -/
theorem C61_npow (x : Int) (n : Nat) (h : |x ^ n| < 2 ^ 31) : npow x n = .ok (x ^ n) := by
  unfold npow
  rw [npowLoop_eq, one_mul]
  intro i hi
  rw [one_mul]
  have hb : |x ^ i| < 2 ^ 31 := by
    rcases eq_or_ne x 0 with rfl | hx
    · rcases i with _ | i <;> simp
    · exact (abs_pow_le x hi hx).trans_lt h
  rw [abs_lt] at hb
  unfold inInt32
  simp only [decide_eq_true_eq]
  omega

/-- **C61.** The use in `Mat.h`: the sign of a cofactor, for every exponent. -/
theorem C61_npow_sign (n : Nat) : npow (-1) n = .ok ((-1) ^ n) :=
  C61_npow _ _ (by rw [abs_pow]; simp)

/-- **C61, negation.** Without a bound the claim fails: `npow(2, 31)` overflows. -/
theorem C61_npow_violated : npow 2 31 = .ub := by decide

example : npow (-3) 5 = .ok (-243) := C61_npow (-3) 5 (by decide)

/-! ## C75: `parse_args` -/

/-- A command line as its author sees it: options with their values. -/
abbrev Groups := List (String × List String)

/-- The arguments. -/
def Groups.flat (gs : Groups) : List String := gs.flatMap fun g => g.1 :: g.2

/-- Names begin like options, values do not. -/
def Groups.WF (gs : Groups) : Prop := ∀ g ∈ gs, NamesOption g.1 ∧ ∀ a ∈ g.2, ¬ NamesOption a

/-- Options that take one value. -/
def valued : List String := ["-iterations", "-loadsteps", "-element", "-refcurve", "-threshold", "-reaction"]

/-- Options that take a value have one. -/
def Groups.Complete (gs : Groups) : Prop := ∀ g ∈ gs, g.1 ∈ valued → g.2 ≠ []

theorem flat_cons (g : String × List String) (gs : Groups) : Groups.flat (g :: gs) = g.1 :: (g.2 ++ Groups.flat gs) := by
  simp [Groups.flat]

theorem head_flat (gs : Groups) (h : gs.WF) (b : String) (hb : gs.flat.head? = some b) : NamesOption b := by
  cases gs with
  | nil => cases hb
  | cons g gs =>
    rw [flat_cons] at hb
    simp only [List.head?_cons, Option.some.injEq] at hb
    rw [← hb]
    exact (h g List.mem_cons_self).1

/-- The group of an option: the first with its name. -/
theorem flat_split (gs : Groups) (h : gs.WF) (opt : String) (ho : NamesOption opt) :
    (gs.lookup opt = none ∧ opt ∉ gs.flat) ∨
    ∃ pre vs gs', gs.lookup opt = some vs ∧ gs.flat = pre ++ opt :: (vs ++ Groups.flat gs') ∧ opt ∉ pre ∧
      (opt, vs) ∈ gs ∧ Groups.WF gs' := by
  induction gs with
  | nil => exact Or.inl ⟨rfl, by simp [Groups.flat]⟩
  | cons g gs ih =>
    obtain ⟨k, vs⟩ := g
    by_cases e : opt = k
    · subst e
      exact Or.inr ⟨[], vs, gs, by simp [List.lookup], by rw [flat_cons]; rfl, List.not_mem_nil, List.mem_cons_self,
        fun g hg => h g (List.mem_cons_of_mem _ hg)⟩
    · have hne : (opt == k) = false := by simp [e]
      have hv : opt ∉ vs := fun hm => (h (k, vs) List.mem_cons_self).2 opt hm ho
      rcases ih (fun g hg => h g (List.mem_cons_of_mem _ hg)) with ⟨h1, h2⟩ | ⟨pre, ws, gs', h1, h2, h3, h4, h5⟩
      · refine Or.inl ⟨by simp [List.lookup, hne, h1], ?_⟩
        rw [flat_cons]
        simp [e, hv, h2]
      · refine Or.inr ⟨k :: (vs ++ pre), ws, gs', by simp [List.lookup, hne, h1], ?_, ?_, List.mem_cons_of_mem _ h4, h5⟩
        · rw [flat_cons, h2]
          simp
        · simp [e, hv, h3]

theorem many_flat (gs : Groups) (h : gs.WF) (opt : String) (ho : NamesOption opt) :
    getCmdManyOptions gs.flat opt = (gs.lookup opt).getD [] := by
  rcases flat_split gs h opt ho with ⟨h1, h2⟩ | ⟨pre, vs, gs', h1, h2, h3, h4, h5⟩
  · rw [h1, C61_many_none _ _ h2]
    rfl
  · rw [h1, many_eq gs.flat opt pre vs gs'.flat h2 h3 ⟨(h _ h4).2, head_flat gs' h5⟩]
    rfl

theorem option_flat (gs : Groups) (h : gs.WF) (hc : gs.Complete) (opt : String) (ho : NamesOption opt) (hv : opt ∈ valued) :
    getCmdOption gs.flat opt = (gs.lookup opt).bind List.head? := by
  rcases flat_split gs h opt ho with ⟨h1, h2⟩ | ⟨pre, vs, gs', h1, h2, h3, h4, h5⟩
  · rw [h1, (C61_option_none _ _).2 (Or.inl h2)]
    rfl
  · rw [h1]
    cases vs with
    | nil => exact absurd rfl (hc _ h4 hv)
    | cons v vs =>
      exact (C61_option _ _ _).2 ⟨pre, vs ++ gs'.flat, h2, h3⟩

theorem exists_flat (gs : Groups) (h : gs.WF) (opt : String) (ho : NamesOption opt) :
    cmdOptionExists gs.flat opt = (gs.lookup opt).isSome := by
  rw [Bool.eq_iff_iff, C61_exists]
  rcases flat_split gs h opt ho with ⟨h1, h2⟩ | ⟨pre, vs, gs', h1, h2, h3, h4, h5⟩
  · simp [h1, h2]
  · simp [h1, h2]

/-- The meaning of a command line by the text of `usage`: `val k` are the values of option `k`, `none` if it is not
given. -/
structure Means [Zero K] (cv : Conv K) (model : String) (val : String → Option (List String)) (o : Options K) : Prop where
  model : o.model = model
  vtk : o.useVtk = (val "-novtk").isNone
  iterations : o.iterations = match val "-iterations" with
    | some (v :: _) => toU16 (cv.atoi v)
    | _ => 15
  loadsteps : o.loadsteps = match val "-loadsteps" with
    | some (v :: _) => toU16 (cv.atoi v)
    | _ => 10
  element : o.element = match val "-element" with
    | some (v :: _) => elOf v
    | _ => .SOLID81
  refCurve : o.refCurve = match val "-refcurve" with
    | some (v :: _) => v
    | _ => ""
  threshold : o.threshold = match val "-threshold" with
    | some (v :: _) => cv.atof v
    | _ => 0
  material : some (o.material :: []) = (val "-material").map (List.take 1)
  constants : some o.constants = (val "-material").map fun vs => vs.tail.map cv.atof
  reaction : o.reaction = match val "-reaction" with
    | some (v :: _) => v
    | _ => ""
  reactionDofs : o.reactionDofs = match val "-reaction" with
    | some (_ :: ds) => ds.map dofOf
    | _ => []
  rigidMaster : o.rigidMaster = match val "-rigidbody" with
    | some (m :: _) => toU32 (cv.atoi m)
    | _ => 0
  rigidSlaves : o.rigidSlaves = match val "-rigidbody" with
    | some (_ :: s :: _) => s
    | _ => ""
  rigidDofs : o.rigidDofs = match val "-rigidbody" with
    | some (_ :: _ :: d :: ds) => (d :: ds).map dofOf
    | some [_, _] => [.UX, .UY, .UZ]
    | _ => []

/-- The command lines that are refused: no material, or a rigid body without slaves. -/
def Refused (val : String → Option (List String)) : Prop :=
  (val "-material").getD [] = [] ∨ ∃ m, val "-rigidbody" = some [m]

theorem names_lit (s : String) (h : isOption s = true) : NamesOption s := (isOption_iff s).1 h

theorem valueOr_flat {β : Type} (gs : Groups) (h : gs.WF) (hc : gs.Complete) (opt : String) (ho : isOption opt = true)
    (hv : opt ∈ valued) (d : β) (f : String → β) :
    valueOr gs.flat opt d f = match gs.lookup opt with
      | some (v :: _) => f v
      | _ => d := by
  unfold valueOr
  rw [option_flat gs h hc opt (names_lit _ ho) hv]
  rcases gs.lookup opt with _ | _ | _ <;> rfl

/-- **C75.** `parse_args` reads every command line made of options with their values: it is refused exactly when the
material or the slaves of a rigid body are missing, and otherwise each option has its stated effect. The options come in
any order; of two groups with one name the first counts. -/
theorem C75_parse [Zero K] (cv : Conv K) (prog model : String) (gs : Groups) (h : gs.WF) (hc : gs.Complete) :
    (Refused (fun k => gs.lookup k) ∧ parseArgs cv (prog :: model :: gs.flat) = .exit) ∨
    (¬ Refused (fun k => gs.lookup k) ∧
      ∃ o, parseArgs cv (prog :: model :: gs.flat) = .ok o ∧ Means cv model (fun k => gs.lookup k) o) := by
  have hm := many_flat gs h "-material" (names_lit _ (by decide))
  have hr := many_flat gs h "-reaction" (names_lit _ (by decide))
  have hb := many_flat gs h "-rigidbody" (names_lit _ (by decide))
  have hre := valueOr_flat gs h hc "-reaction" (by decide) (by decide) "" id
  unfold parseArgs withMaterial withRigid withReaction Refused
  dsimp only
  rw [hm, hb, hr]
  rcases em : gs.lookup "-material" with _ | _ | ⟨m, cs⟩
  · exact Or.inl ⟨Or.inl rfl, rfl⟩
  · exact Or.inl ⟨Or.inl rfl, rfl⟩
  · have build : ∀ o : Options K, o.model = model →
        o.useVtk = (scalarOptions cv gs.flat model).useVtk →
        o.iterations = (scalarOptions cv gs.flat model).iterations →
        o.loadsteps = (scalarOptions cv gs.flat model).loadsteps →
        o.element = (scalarOptions cv gs.flat model).element →
        o.refCurve = (scalarOptions cv gs.flat model).refCurve →
        o.threshold = (scalarOptions cv gs.flat model).threshold →
        o.material = m → o.constants = cs.map cv.atof →
        o.reaction = (match gs.lookup "-reaction" with
          | some (v :: _) => v
          | _ => "") →
        o.reactionDofs = (match gs.lookup "-reaction" with
          | some (_ :: ds) => ds.map dofOf
          | _ => []) →
        o.rigidMaster = (match gs.lookup "-rigidbody" with
          | some (m :: _) => toU32 (cv.atoi m)
          | _ => 0) →
        o.rigidSlaves = (match gs.lookup "-rigidbody" with
          | some (_ :: s :: _) => s
          | _ => "") →
        o.rigidDofs = (match gs.lookup "-rigidbody" with
          | some (_ :: _ :: d :: ds) => (d :: ds).map dofOf
          | some [_, _] => [.UX, .UY, .UZ]
          | _ => []) →
        Means cv model (fun k => gs.lookup k) o := by
      intro o h1 h2 h3 h4 h5 h6 h7 h8 h9 h10 h11 h12 h13 h14
      refine ⟨h1, ?_, ?_, ?_, ?_, ?_, ?_, ?_, ?_, h10, h11, h12, h13, h14⟩
      · rw [h2]
        show (if cmdOptionExists gs.flat "-novtk" then false else true) = _
        rw [exists_flat gs h "-novtk" (names_lit _ (by decide))]
        rcases gs.lookup "-novtk" with _ | _ <;> rfl
      · exact h3.trans (valueOr_flat gs h hc "-iterations" (by decide) (by decide) _ _)
      · exact h4.trans (valueOr_flat gs h hc "-loadsteps" (by decide) (by decide) _ _)
      · exact h5.trans (valueOr_flat gs h hc "-element" (by decide) (by decide) _ _)
      · exact h6.trans (valueOr_flat gs h hc "-refcurve" (by decide) (by decide) _ _)
      · exact h7.trans (valueOr_flat gs h hc "-threshold" (by decide) (by decide) _ _)
      · rw [em, h8]
        rfl
      · rw [em, h9]
        rfl
    rcases eb : gs.lookup "-rigidbody" with _ | _ | ⟨b, _ | ⟨s, _ | ⟨d, ds⟩⟩⟩ <;> rw [eb] at build
    case some.cons.nil => exact Or.inl ⟨Or.inr ⟨b, rfl⟩, rfl⟩
    all_goals
      refine Or.inr ⟨by simp, ?_⟩
      rcases er : gs.lookup "-reaction" with _ | _ | ⟨r, rs⟩ <;> rw [er] at build hre <;>
        exact ⟨_, rfl, build _ rfl rfl rfl rfl rfl rfl rfl rfl rfl (by first | exact hre | rfl) rfl rfl rfl rfl⟩

theorem means_unique [Zero K] (cv : Conv K) (model : String) (val : String → Option (List String)) (o o' : Options K)
    (h : Means cv model val o) (h' : Means cv model val o') : o = o' := by
  have hm : o.material = o'.material := by
    have := h.material.trans h'.material.symm
    simpa using this
  have hk : o.constants = o'.constants := by
    have := h.constants.trans h'.constants.symm
    simpa using this
  have h1 := h.model.trans h'.model.symm
  have h2 := h.vtk.trans h'.vtk.symm
  have h3 := h.iterations.trans h'.iterations.symm
  have h4 := h.loadsteps.trans h'.loadsteps.symm
  have h5 := h.element.trans h'.element.symm
  have h6 := h.refCurve.trans h'.refCurve.symm
  have h7 := h.threshold.trans h'.threshold.symm
  have h8 := h.reaction.trans h'.reaction.symm
  have h9 := h.reactionDofs.trans h'.reactionDofs.symm
  have ha := h.rigidMaster.trans h'.rigidMaster.symm
  have hb := h.rigidSlaves.trans h'.rigidSlaves.symm
  have hc := h.rigidDofs.trans h'.rigidDofs.symm
  cases o
  cases o'
  simp only [Options.mk.injEq]
  exact ⟨h3, h4, hm, h5, h2, h1, hk, h6, h7, h8, h9, ha, hb, hc⟩

theorem lookup_mem (gs : Groups) (hn : (gs.map Prod.fst).Nodup) (k : String) (vs : List String) :
    gs.lookup k = some vs ↔ (k, vs) ∈ gs := by
  induction gs with
  | nil => simp
  | cons g gs ih =>
    obtain ⟨k', ws⟩ := g
    rw [List.map_cons, List.nodup_cons] at hn
    by_cases e : k = k'
    · subst e
      have hnot : ∀ ws, (k, ws) ∉ gs := fun ws hm => hn.1 (List.mem_map.2 ⟨_, hm, rfl⟩)
      simp [List.lookup, hnot, eq_comm]
    · have hne : (k == k') = false := by simp [e]
      simp [List.lookup, hne, ih hn.2, e]

theorem lookup_perm (gs gs' : Groups) (hp : gs.Perm gs') (hn : (gs.map Prod.fst).Nodup) (k : String) :
    gs.lookup k = gs'.lookup k := by
  have hn' : (gs'.map Prod.fst).Nodup := (hp.map Prod.fst).nodup_iff.1 hn
  have key : ∀ vs, gs.lookup k = some vs ↔ gs'.lookup k = some vs := fun vs => by
    rw [lookup_mem gs hn, lookup_mem gs' hn', hp.mem_iff]
  exact Option.ext key

/-- **C75.** The order of the options does not matter. -/
theorem C75_order [Zero K] (cv : Conv K) (prog model : String) (gs gs' : Groups) (hp : gs.Perm gs')
    (hn : (gs.map Prod.fst).Nodup) (h : gs.WF) (hc : gs.Complete) :
    parseArgs cv (prog :: model :: gs.flat) = parseArgs cv (prog :: model :: gs'.flat) := by
  have h' : gs'.WF := fun g hg => h g (hp.mem_iff.2 hg)
  have hc' : gs'.Complete := fun g hg => hc g (hp.mem_iff.2 hg)
  have el : (fun k => gs.lookup k) = fun k => gs'.lookup k := funext fun k => lookup_perm gs gs' hp hn k
  rcases C75_parse cv prog model gs h hc with ⟨a, b⟩ | ⟨a, o, b, c⟩ <;>
    rcases C75_parse cv prog model gs' h' hc' with ⟨a', b'⟩ | ⟨a', o', b', c'⟩
  · rw [b, b']
  · exact absurd (el ▸ a) a'
  · exact absurd (el.symm ▸ a') a
  · rw [b, b', means_unique cv model _ o o' c (el.symm ▸ c')]

/-- **C75, negation.** The full claim, that an option without its value is refused, fails: the value of `-element` is the
name of the next option. -/
theorem C75_missing_value_violated [Zero K] (cv : Conv K) :
    ∃ o, parseArgs cv ["nla3d", "m.cdb", "-material", "Hooke", "-element", "-novtk"] = .ok o ∧ o.element = .UNDEFINED :=
  ⟨_, rfl, by show elOf "-novtk" = _; decide⟩

/-- **C75, negation.** Numbers of iterations are taken modulo `2 ^ 16`. -/
theorem C75_wrap_violated [Zero K] (cv : Conv K) (h : cv.atoi "65537" = 65537) :
    ∃ o, parseArgs cv ["nla3d", "m.cdb", "-material", "Hooke", "-iterations", "65537"] = .ok o ∧ o.iterations = 1 :=
  ⟨_, rfl, by show toU16 (cv.atoi "65537") = 1; rw [h]; decide⟩

/-- **C75, negation.** A word that is no option is ignored without a message. -/
theorem C75_unknown_violated [Zero K] (cv : Conv K) :
    parseArgs cv ["nla3d", "m.cdb", "-material", "Hooke", "-elemnt", "TRUSS3"]
      = parseArgs cv ["nla3d", "m.cdb", "-material", "Hooke"] := rfl

/-- A command line with several options. -/
def demoGroups : Groups := [("-element", ["TETRA1"]), ("-material", ["Hooke", "2e5", "-3"]), ("-novtk", []),
  ("-rigidbody", ["7", "SLAVES"])]

theorem demoGroups_wf : demoGroups.WF := by
  intro g hg
  simp only [demoGroups, List.mem_cons, List.not_mem_nil, or_false] at hg
  rcases hg with rfl | rfl | rfl | rfl <;> refine ⟨names_lit _ (by decide), ?_⟩ <;> intro a ha <;>
    rw [← isOption_iff] <;> revert a <;> decide

theorem demoGroups_complete : demoGroups.Complete := by
  intro g hg
  simp only [demoGroups, List.mem_cons, List.not_mem_nil, or_false] at hg
  rcases hg with rfl | rfl | rfl | rfl <;> decide

example (cv : Conv ℚ) : ∃ o, parseArgs cv ("nla3d" :: "m.cdb" :: demoGroups.flat) = .ok o ∧
    o.rigidDofs = [.UX, .UY, .UZ] ∧ o.useVtk = false ∧ o.element = .TETRA1 := by
  rcases C75_parse cv "nla3d" "m.cdb" demoGroups demoGroups_wf demoGroups_complete with ⟨hr, _⟩ | ⟨_, o, ho, hm⟩
  · rcases hr with hr | ⟨m, hr⟩
    · exact absurd hr (by decide)
    · have h2 : (some 2 : Option Nat) = some 1 := congrArg (Option.map List.length) hr
      exact absurd h2 (by decide)
  · exact ⟨o, ho, hm.rigidDofs, hm.vtk, hm.element.trans (by show elOf "TETRA1" = _; decide)⟩

example (cv : Conv ℚ) : parseArgs cv ("nla3d" :: "m.cdb" :: demoGroups.flat)
    = parseArgs cv ("nla3d" :: "m.cdb" :: Groups.flat demoGroups.reverse) :=
  C75_order cv _ _ _ _ (List.reverse_perm _).symm (by decide) demoGroups_wf demoGroups_complete

/-! ## C76: constants of the material -/

theorem setConstants_loop (given : List K) (n k : Nat) (h : k + n ≤ given.length) :
    ((List.range n).map (k + ·)).foldr (fun i r => do
      let v ← Res.read given i
      let vs ← r
      .ok (v :: vs)) (.ok []) = Res.ok ((given.drop k).take n) := by
  induction n generalizing k with
  | zero => simp
  | succ n ih =>
    rw [List.range_succ_eq_map, List.map_cons, List.foldr_cons, List.map_map]
    have e : ((k + ·) ∘ Nat.succ) = ((k + 1) + ·) := by
      funext i
      simp only [Function.comp_apply]
      omega
    rw [e, ih (k + 1) (by omega), Nat.add_zero, Res.read_of_lt (by omega)]
    simp only [Res.ok_bind]
    rw [List.drop_eq_getElem_cons (by omega : k < given.length), List.take_succ_cons]

/-- **C76.** With enough constants on the command line the material gets the first of them, in order. -/
theorem C76_constants_partial (numC : Nat) (given : List K) (h : numC ≤ given.length) :
    setConstants numC given = .ok (given.take numC) := by
  have := setConstants_loop given numC 0 (by omega)
  simpa [setConstants] using this

/-- **C76, negation.** The full claim, that another number of constants is refused, fails: surplus constants are ignored. -/
theorem C76_surplus_violated : setConstants 2 [(1 : Int), 2, 3] = .ok [1, 2] := by decide

/-- **C76, negation.** With too few constants the program always reads past the end of the list. -/
theorem C76_few_violated (numC : Nat) (given : List K) (h : given.length < numC) : setConstants numC given = .ub := by
  unfold setConstants
  have key : ∀ l : List Nat, given.length ∈ l → l.foldr (fun i r => do
      let v ← Res.read given i
      let vs ← r
      .ok (v :: vs)) (.ok []) = (Res.ub : Res (List K)) := by
    intro l
    induction l with
    | nil => intro h; cases h
    | cons a as ih =>
      intro hm
      rw [List.foldr_cons]
      by_cases ha : a < given.length
      · rcases List.mem_cons.1 hm with e | hm
        · omega
        · rw [ih hm, Res.read_of_lt ha]
          rfl
      · rw [show Res.read given a = .ub from by
          unfold Res.read
          rw [List.getElem?_eq_none (by omega)]]
        rfl
  exact key _ (List.mem_range.2 h)

example : setConstants 2 [(5 : Int), 7] = .ok [5, 7] := C76_constants_partial 2 [5, 7] (by decide)

/-! ## C77: comparison of curves -/

section Curves

variable [Field K] [LinearOrder K] [IsStrictOrderedRing K]

/-- Sum of the absolute differences. -/
def totalDiff (a b : List K) : K := (List.zipWith (fun x y => |x - y|) a b).sum

theorem curveError_eq (len : K) (a b : List K) (acc : K) (h : a.length = b.length) :
    curveError abs len a b acc = acc + totalDiff a b / len := by
  induction a generalizing b acc with
  | nil => simp [curveError, totalDiff]
  | cons x xs ih =>
    cases b with
    | nil => simp at h
    | cons y ys =>
      rw [curveError, ih ys _ (by simpa using h)]
      simp only [totalDiff, List.zipWith_cons_cons, List.sum_cons]
      rw [add_div]
      ring

/-- **C77.** `compareCurves` returns the mean absolute difference of two curves of equal length and stops the program
for curves of different lengths. -/
theorem C77_mean (a b : List K) :
    compareCurves abs a b = if a.length = b.length then some (totalDiff a b / b.length) else none := by
  unfold compareCurves
  by_cases h : a.length = b.length
  · rw [if_neg (not_not.2 h), if_pos h, curveError_eq _ _ _ _ h, zero_add]
  · rw [if_pos h, if_neg h]

theorem totalDiff_nonneg (a b : List K) : 0 ≤ totalDiff a b := by
  induction a generalizing b with
  | nil => simp [totalDiff]
  | cons x xs ih =>
    cases b with
    | nil => simp [totalDiff]
    | cons y ys =>
      have := ih ys
      simp only [totalDiff, List.zipWith_cons_cons, List.sum_cons] at *
      have := abs_nonneg (x - y)
      linarith

theorem totalDiff_zero (a b : List K) (h : a.length = b.length) : totalDiff a b = 0 ↔ a = b := by
  induction a generalizing b with
  | nil => cases b with
    | nil => simp [totalDiff]
    | cons y ys => simp at h
  | cons x xs ih =>
    cases b with
    | nil => simp at h
    | cons y ys =>
      have h' : xs.length = ys.length := by simpa using h
      have e : totalDiff (x :: xs) (y :: ys) = |x - y| + totalDiff xs ys := by simp [totalDiff]
      rw [e, add_eq_zero_iff_of_nonneg (abs_nonneg _) (totalDiff_nonneg _ _), abs_eq_zero, sub_eq_zero, ih ys h',
        List.cons.injEq]

/-- **C77.** The error is zero exactly for equal curves. -/
theorem C77_zero (a b : List K) : compareCurves abs a b = some 0 ↔ a = b := by
  rw [C77_mean]
  by_cases h : a.length = b.length
  · rw [if_pos h, Option.some.injEq]
    cases b with
    | nil =>
      have : a = [] := List.length_eq_zero_iff.1 h
      subst this
      simp
    | cons y ys =>
      have hl : ((y :: ys).length : K) ≠ 0 := by
        rw [List.length_cons]
        exact_mod_cast Nat.succ_ne_zero ys.length
      rw [div_eq_zero_iff, or_iff_left hl, totalDiff_zero _ _ h]
  · rw [if_neg h]
    simp only [reduceCtorEq, false_iff]
    rintro rfl
    exact h rfl

/-- **C77.** The error is symmetric. -/
theorem C77_symm (a b : List K) : compareCurves abs a b = compareCurves abs b a := by
  rw [C77_mean, C77_mean]
  by_cases h : a.length = b.length
  · rw [if_pos h, if_pos h.symm, h]
    have : totalDiff a b = totalDiff b a := by
      unfold totalDiff
      rw [List.zipWith_comm]
      simp only [abs_sub_comm]
    rw [this]
  · rw [if_neg h, if_neg (Ne.symm h)]

/-- **C77.** A uniform bound of the difference bounds the error; so a curve within the threshold at every point passes. -/
theorem C77_bound (a b : List K) (t e : K) (ht : 0 ≤ t) (hb : ∀ (i : Nat) x y, a[i]? = some x → b[i]? = some y → |x - y| ≤ t)
    (he : compareCurves abs a b = some e) : e ≤ t := by
  rw [C77_mean] at he
  by_cases h : a.length = b.length
  · rw [if_pos h, Option.some.injEq] at he
    have key : ∀ a b : List K, a.length = b.length → (∀ (i : Nat) x y, a[i]? = some x → b[i]? = some y → |x - y| ≤ t) →
        totalDiff a b ≤ b.length * t := by
      intro a
      induction a with
      | nil => intro b h _; simp [totalDiff]; positivity
      | cons x xs ih =>
        intro b h hb
        cases b with
        | nil => simp at h
        | cons y ys =>
          have e : totalDiff (x :: xs) (y :: ys) = |x - y| + totalDiff xs ys := by simp [totalDiff]
          have h1 := hb 0 x y rfl rfl
          have h2 := ih ys (by simpa using h) (fun i u v hu hv => hb (i + 1) u v (by simpa using hu) (by simpa using hv))
          rw [e, List.length_cons]
          push_cast
          linarith
    rw [← he]
    cases b with
    | nil => simpa using ht
    | cons y ys =>
      have hl : (0 : K) < ((y :: ys).length : K) := by
        rw [List.length_cons]
        exact_mod_cast Nat.succ_pos ys.length
      rw [div_le_iff₀ hl]
      have := key a _ h hb
      linarith
  · rw [if_neg h] at he
    cases he

end Curves

example : compareCurves (K := ℚ) abs [1, 2, 3] [1, 4, 2] = some 1 := by
  rw [C77_mean]
  norm_num [totalDiff]

/-! ## C78: the reference curve -/

section RefCurve

variable [DecidableEq K] [Zero K] [Neg K] [One K]

/-- The text of a table: three names and rows of two words and a numeral. `trail`: the file ends with a newline. -/
def tableFile (h1 h2 h3 : String) (rows : List (String × String × String)) (trail : Bool) : In :=
  ⟨h1 :: h2 :: h3 :: rows.flatMap (fun r => [r.1, r.2.1, r.2.2]), trail, false, false⟩

/-- Repetitions of the value before are dropped. -/
def squeeze (pre : K) : List K → List K
  | [] => []
  | v :: vs => if v = pre then squeeze pre vs else v :: squeeze v vs

theorem curveLoop_table (num : String → Option K) (rows : List (String × String × String)) (vs : List K)
    (hr : List.Forall₂ (fun (r : String × String × String) v => num r.2.2 = some v) rows vs) (trail : Bool) (fuel : Nat)
    (hf : 3 * rows.length + 1 < fuel) (hne : trail = true ∨ rows ≠ []) (tmp : Option K) (pre : K) (res : List K)
    (ht : tmp = some pre ∨ rows ≠ []) :
    curveLoop num fuel ⟨rows.flatMap (fun r => [r.1, r.2.1, r.2.2]), trail, false, false⟩ tmp pre res
      = .ok (res ++ squeeze pre vs) := by
  induction hr generalizing fuel tmp pre res with
  | nil =>
    have htr : trail = true := by simpa using hne
    have htp : tmp = some pre := by simpa using ht
    subst htr htp
    obtain ⟨f, rfl⟩ : ∃ f, fuel = f + 2 := ⟨fuel - 2, by simp at hf; omega⟩
    simp [curveLoop, In.word, In.number, squeeze]
  | @cons r v rows vs h hs ih =>
    obtain ⟨a, b, c⟩ := r
    obtain ⟨f, rfl⟩ : ∃ f, fuel = f + 1 := ⟨fuel - 1, by omega⟩
    have h' : num c = some v := h
    by_cases hl : rows = [] ∧ trail = false
    · obtain ⟨rfl, rfl⟩ := hl
      cases hs
      obtain ⟨f, rfl⟩ : ∃ f', f = f' + 1 := ⟨f - 1, by simp at hf; omega⟩
      by_cases e : v = pre <;> simp [curveLoop, In.word, In.number, h', squeeze, e]
    · have hcond : trail = true ∨ rows ≠ [] := by
        rcases Bool.eq_false_or_eq_true trail with ht | ht
        · exact Or.inl ht
        · exact Or.inr fun hr => hl ⟨hr, ht⟩
      have hemp : ((rows.flatMap fun r => [r.1, r.2.1, r.2.2]).isEmpty && !trail) = false := by
        rcases hcond with ht | hr
        · simp [ht]
        · cases rows with
          | nil => exact absurd rfl hr
          | cons r rs => simp
      have step : curveLoop num (f + 1) ⟨((a, b, c) :: rows).flatMap (fun r => [r.1, r.2.1, r.2.2]), trail, false, false⟩
          tmp pre res = curveLoop num f ⟨rows.flatMap (fun r => [r.1, r.2.1, r.2.2]), trail, false, false⟩ (some v)
            (if v = pre then pre else v) (if v = pre then res else res ++ [v]) := by
        rw [curveLoop]
        simp [In.word, In.number, h']
        rw [hemp]
      rw [step]
      by_cases e : v = pre
      · subst e
        rw [if_pos rfl, if_pos rfl, ih f (by simp at hf; omega) hcond _ _ _ (Or.inl rfl), squeeze, if_pos rfl]
      · rw [if_neg e, if_neg e, ih f (by simp at hf; omega) hcond _ _ _ (Or.inl rfl), squeeze, if_neg e]
        simp

/-- **C78.** From a table with at least one row the function returns the third column without repetitions, whether or not
the file ends with a newline. -/
theorem C78_squeezed (num : String → Option K) (h1 h2 : String) (rows : List (String × String × String)) (vs : List K)
    (hr : List.Forall₂ (fun (r : String × String × String) v => num r.2.2 = some v) rows vs) (hn : rows ≠ [])
    (trail : Bool) : readRefCurve num (tableFile h1 h2 "force" rows trail) = .ok (squeeze (-1) vs) := by
  have hlen : (rows.flatMap fun r => [r.1, r.2.1, r.2.2]).length = 3 * rows.length := by
    induction rows with
    | nil => rfl
    | cons r rs ih => simp; omega
  have hemp : (rows.flatMap fun r => [r.1, r.2.1, r.2.2]).isEmpty = false := by
    cases rows with
    | nil => exact absurd rfl hn
    | cons r rs => simp
  have key := curveLoop_table num rows vs hr trail ((tableFile h1 h2 "force" rows trail).toks.length + 1)
    (by simp only [tableFile, List.length_cons, hlen]; omega) (Or.inr hn) none (-1) [] (Or.inr hn)
  rw [List.nil_append] at key
  rw [← key]
  unfold readRefCurve
  rw [if_neg (by simp [tableFile]), if_pos (by simp [tableFile])]
  congr 1
  simp [tableFile, In.word, hemp]

theorem squeeze_id (vs : List K) (pre : K) (h : List.IsChain (· ≠ ·) (pre :: vs)) : squeeze pre vs = vs := by
  induction vs generalizing pre with
  | nil => rfl
  | cons v vs ih =>
    rw [List.isChain_cons_cons] at h
    rw [squeeze, if_neg (fun e => h.1 e.symm), ih v h.2]

/-- **C78.** The third column is returned when no value equals the one before it and the first is not `-1`. Missing:
curves with a plateau, see `C78_plateau_violated`. -/
theorem C78_column_partial (num : String → Option K) (h1 h2 : String) (rows : List (String × String × String)) (vs : List K)
    (hr : List.Forall₂ (fun (r : String × String × String) v => num r.2.2 = some v) rows vs) (hn : rows ≠ [])
    (trail : Bool) (hc : List.IsChain (· ≠ ·) ((-1) :: vs)) :
    readRefCurve num (tableFile h1 h2 "force" rows trail) = .ok vs := by
  rw [C78_squeezed num h1 h2 rows vs hr hn trail, squeeze_id vs _ hc]

/-- **C78.** Another third name stops the program. -/
theorem C78_header (num : String → Option K) (h1 h2 h3 : String) (rows : List (String × String × String)) (trail : Bool)
    (h : h3 ≠ "force") : readRefCurve num (tableFile h1 h2 h3 rows trail) = .exit := by
  unfold readRefCurve
  rw [if_neg (by simp [tableFile]), if_neg (by simpa [tableFile] using h)]

/-- **C78, negation.** A word in place of a number makes the loop endless. -/
theorem C78_malformed_violated (num : String → Option K) (h1 h2 a b c : String) (rest : List (String × String × String))
    (trail : Bool) (hc : num c = none) : readRefCurve num (tableFile h1 h2 "force" ((a, b, c) :: rest) trail) = .hang := by
  unfold readRefCurve
  rw [if_neg (by simp [tableFile]), if_pos (by simp [tableFile]), curveLoop]
  simp [tableFile, In.word, In.number, hc]

/-- **C78, negation.** A table without rows whose header ends with a newline: an unset variable is read. -/
theorem C78_empty_violated (num : String → Option K) (h1 h2 : String) :
    readRefCurve num (tableFile h1 h2 "force" [] true) = .ub := by
  unfold readRefCurve
  rw [if_neg (by simp [tableFile]), if_pos (by simp [tableFile]), curveLoop]
  simp [tableFile, In.word, In.number]

end RefCurve

/-- Numerals of the examples. -/
def demoNum (s : String) : Option Int := if s = "0" then some 0 else if s = "5" then some 5 else if s = "7" then some 7 else none

/-- **C78, negation.** A plateau of the curve is lost. -/
theorem C78_plateau_violated :
    readRefCurve demoNum (tableFile "step" "disp" "force" [("1", "0.1", "5"), ("2", "0.2", "5")] true) = .ok [5] := by
  decide

example : readRefCurve demoNum (tableFile "step" "disp" "force" [("1", "0.1", "5"), ("2", "0.2", "7")] true) = .ok [5, 7] :=
  C78_column_partial demoNum _ _ _ _ (.cons rfl (.cons rfl .nil)) (by decide) _ (by decide)

/-! ## C79: the names of the output files -/

/-- **C79.** A name with an extension loses the extension, and nothing else. -/
theorem C79_stem (base ext : List Char) (h : '.' ∉ ext) : fileStem (base ++ '.' :: ext) = base := by
  unfold fileStem
  have e : (base ++ '.' :: ext).reverse = ext.reverse ++ '.' :: base.reverse := by simp
  have hd : (ext.reverse ++ '.' :: base.reverse).dropWhile (· ≠ '.') = '.' :: base.reverse := by
    rw [List.dropWhile_append_of_pos (by
      intro a ha
      simp only [ne_eq, decide_eq_true_eq]
      rintro rfl
      exact h (List.mem_reverse.1 ha))]
    simp
  rw [e, hd]
  simp

/-- **C79.** A path without a point is kept. -/
theorem C79_plain (s : List Char) (h : '.' ∉ s) : fileStem s = s := by
  unfold fileStem
  rw [show s.reverse.dropWhile (· ≠ '.') = [] from List.dropWhile_eq_nil_iff.2 (by
    intro a ha
    simp only [ne_eq, decide_eq_true_eq]
    rintro rfl
    exact h (List.mem_reverse.1 ha))]

/-- **C79.** Two paths with one extension have output names that differ. -/
theorem C79_injective (a b ext : List Char) (h : '.' ∉ ext) (e : fileStem (a ++ '.' :: ext) = fileStem (b ++ '.' :: ext)) :
    a = b := by
  rwa [C79_stem a ext h, C79_stem b ext h] at e

/-- **C79, negation.** A path without an extension does not keep its name when a directory contains a point. -/
theorem C79_directory_violated : fileStem "../work/model".toList = ".".toList ∧ fileStem "./model".toList = [] := by
  decide

example : fileStem "run.1/model.cdb".toList = "run.1/model".toList := C79_stem "run.1/model".toList "cdb".toList (by decide)

end Nla3d.Cmd
