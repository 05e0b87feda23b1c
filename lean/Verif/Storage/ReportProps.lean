import Verif.Storage.Report
import Verif.Storage.Props
import Verif.Labels.Props

/-!
# C120: the reports of the storage can be read back

`FEStorage::printDofInfo` writes one line for each registered DoF; from the text one can tell which DoFs are registered, their equation
numbers and which of them are fixed. `Mpc::print` writes an equation; the text decides nodes, DoFs and the texts of the numbers.
-/

namespace Nla3d.Report

open Nla3d.Dof Nla3d.Storage Nla3d.Labels

variable {K : Type}

/-! ## Specification -/

/-- What the line of a DoF says: `N12:UX eq = 3 constrained = 0`. -/
def Line (k : Key) (eq : Nat) (fixed : Bool) : List Char :=
  (match k.1 with | .elem => "E" | .node => "N").toList ++ (toString k.2.1).toList ++ ":".toList ++ (dofIdent k.2.2).toList ++
    " eq = ".toList ++ (toString eq).toList ++ " constrained = ".toList ++ (if fixed then "1" else "0").toList ++ "\n".toList

/-- The order of the lines: elements before nodes, ascending numbers. -/
def Before (a b : Key) : Prop := a.1 = .elem ∧ b.1 = .node ∨ a.1 = b.1 ∧ a.2.1 ≤ b.2.1

/-- What a term of an equation says: `1 * 12:UX`. -/
def TermText (num : K → List Char) (t : MpcTerm K) : List Char :=
  num t.coef ++ " * ".toList ++ (toString t.node).toList ++ ":".toList ++ (dofIdent t.dof).toList

/-- What an equation says: its terms with plus signs between them, an equals sign, the right-hand side. -/
def MpcText (num : K → List Char) (m : Mpc K) : List Char :=
  " + ".toList.intercalate (m.eq.map (TermText num)) ++ " = ".toList ++ num m.b

/-! ## Texts -/

theorem toString_digits (n : Nat) : (toString n).toList = digits n := by
  rw [Nat.toString_eq_repr, Nat.toList_repr]; rfl

theorem digits_inj {i j : Nat} (h : digits i = digits j) : i = j := by
  have h2 := congrArg (fun l => Nat.ofDigitChars 10 l 0) h
  simpa only [digits, Nat.ofDigitChars_toDigits (by decide : 1 < 10) (by decide : 10 ≤ 10)] using h2

theorem digits_isDigit {n : Nat} {c : Char} (h : c ∈ digits n) : c.isDigit :=
  Nat.isDigit_of_mem_toDigits (by decide) (by decide) h

theorem not_mem_digits {c : Char} (hc : c.isDigit = false) (n : Nat) : c ∉ digits n := by
  intro h
  rw [digits_isDigit h] at hc
  cases hc

/-- A text up to the first occurrence of a character. -/
theorem cut_unique {c : Char} : ∀ {a a' r r' : List Char}, c ∉ a → c ∉ a' → a ++ c :: r = a' ++ c :: r' → a = a' ∧ r = r'
  | [], [], _, _, _, _, h => ⟨rfl, by simpa using h⟩
  | [], x :: a', _, _, _, h2, h => by simp at h; simp [h.1] at h2
  | x :: a, [], _, _, h1, _, h => by simp at h; simp [h.1] at h1
  | x :: a, y :: a', r, r', h1, h2, h => by
    simp only [List.cons_append, List.cons.injEq] at h
    simp only [List.mem_cons, not_or] at h1 h2
    obtain ⟨e1, e2⟩ := cut_unique h1.2 h2.2 h.2
    exact ⟨by rw [h.1, e1], e2⟩

theorem ident_no {c : Char} (hc : c = ' ' ∨ c = '\n' ∨ c = ':') (t : DofType) : c ∉ (dofIdent t).toList := by
  rcases hc with rfl | rfl | rfl <;> cases t <;> decide

theorem ident_inj {t t' : DofType} (h : (dofIdent t).toList = (dofIdent t').toList) : t = t' := by
  cases t <;> cases t' <;> first | rfl | exact absurd h (by decide)

/-- The line without the line feed. -/
def body (k : Key) (eq : Nat) (fixed : Bool) : List Char :=
  letter k.1 :: (digits k.2.1 ++ ':' :: ((dofIdent k.2.2).toList ++ ' ' :: ("eq = ".toList ++ (digits eq ++ ' ' ::
    ("constrained = ".toList ++ [bit fixed])))))

theorem line_eq (k : Key) (eq : Nat) (fixed : Bool) : Line k eq fixed = body k eq fixed ++ ['\n'] := by
  unfold Line body
  rw [toString_digits, toString_digits]
  obtain ⟨s, n, t⟩ := k
  cases s <;> cases fixed <;> simp [letter, bit]

theorem body_no_lf (k : Key) (eq : Nat) (fixed : Bool) : '\n' ∉ body k eq fixed := by
  unfold body
  obtain ⟨s, n, t⟩ := k
  have h1 := not_mem_digits (c := '\n') (by decide) n
  have h2 := not_mem_digits (c := '\n') (by decide) eq
  have h3 := ident_no (c := '\n') (by simp) t
  cases s <;> cases fixed <;> simp [letter, bit, h1, h2, h3]

theorem body_inj {k k' : Key} {e e' : Nat} {c c' : Bool} (h : body k e c = body k' e' c') : k = k' ∧ e = e' ∧ c = c' := by
  obtain ⟨s, n, t⟩ := k
  obtain ⟨s', n', t'⟩ := k'
  unfold body at h
  rw [List.cons.injEq] at h
  obtain ⟨h1, h⟩ := h
  obtain ⟨h2, h⟩ := cut_unique (not_mem_digits (by decide) _) (not_mem_digits (by decide) _) h
  obtain ⟨h3, h⟩ := cut_unique (ident_no (by simp) _) (ident_no (by simp) _) h
  rw [List.append_cancel_left_eq] at h
  obtain ⟨h4, h⟩ := cut_unique (not_mem_digits (by decide) _) (not_mem_digits (by decide) _) h
  rw [List.append_cancel_left_eq] at h
  have e1 : s = s' := by
    replace h1 : letter s = letter s' := h1
    cases s <;> cases s' <;> first | rfl | exact absurd h1 (by decide)
  have e5 : c = c' := by cases c <;> cases c' <;> first | rfl | exact absurd h (by decide)
  obtain rfl := digits_inj h2
  obtain rfl := digits_inj h4
  obtain rfl := ident_inj h3
  exact ⟨by rw [e1], rfl, e5⟩

/-- Lines that end with their only line feed can be told apart. -/
theorem lines_unique : ∀ {ls ls' : List (List Char)}, (∀ l ∈ ls, '\n' ∉ l) → (∀ l ∈ ls', '\n' ∉ l) →
    (ls.map (· ++ ['\n'])).flatten = (ls'.map (· ++ ['\n'])).flatten → ls = ls'
  | [], [], _, _, _ => rfl
  | [], l :: ls', _, _, h => by simp at h
  | l :: ls, [], _, _, h => by simp at h
  | l :: ls, l' :: ls', h1, h2, h => by
    simp only [List.map_cons, List.flatten_cons, List.append_assoc, List.singleton_append] at h
    obtain ⟨e1, e2⟩ := cut_unique (h1 l (by simp)) (h2 l' (by simp)) h
    rw [e1, lines_unique (fun x hx => h1 x (by simp [hx])) (fun x hx => h2 x (by simp [hx])) e2]

theorem foldlM'_append {α : Type} {f : List Char → α → Res (List Char)} {g : α → List Char} :
    ∀ (l : List α) (out : List Char), (∀ x ∈ l, ∀ out, f out x = .ok (out ++ g x)) →
      Res.foldlM' f out l = .ok (out ++ l.flatMap g)
  | [], out, _ => by simp [Res.foldlM']
  | x :: l, out, h => by
    simp only [Res.foldlM', h x (by simp), Res.ok_bind, List.flatMap_cons]
    rw [foldlM'_append l _ (fun y hy => h y (by simp [hy])), List.append_assoc]

/-! ## The lines of the DoFs -/

theorem printDof_eq (s : Side) (n : Nat) (out : List Char) {d : Dof} (hd : d.type ≠ .UNDEFINED) :
    printDof s n out d = .ok (out ++ Line (s, n, d.type) d.eq d.constrained) := by
  unfold printDof
  rw [C12_identifiers.2 _ hd, Res.ok_bind, line_eq]
  simp [body]

/-- The keys of the lines of one element or node. -/
def keysOf (row : Side → Nat → List Dof) (s : Side) (n : Nat) : List Key := (row s n).map fun d => (s, n, d.type)

theorem report {S : Storage K} {A : Side → Spec} (h : SimS S A) (hu : ∀ s n, A s n .UNDEFINED = none) (out : List Char) :
    ∃ ks : List Key, printDofInfo S out = .ok (out ++ (ks.map fun k => Line k (num A k) (flag A true k)).flatten) ∧ ks.Nodup ∧
      (∀ k, k ∈ ks ↔ (at' A k).isSome) ∧ ks.Pairwise Before := by
  have hrow : ∀ s n, ∃ r : List Dof, (0 < n → n ≤ S.size s → (S.tab s).entityDofs n = .ok r) ∧ (r.map Dof.type).Nodup ∧
      (0 < n → n ≤ S.size s → ∀ d, d ∈ r ↔ A s n d.type = some (d.eq, d.constrained)) := by
    intro s n
    by_cases hn : 0 < n ∧ n ≤ S.size s
    · obtain ⟨r, h1, h2, h3⟩ := (sim_answers (h s)).entity n hn.1 hn.2
      exact ⟨r, fun _ _ => h1, h2, fun _ _ => h3⟩
    · exact ⟨[], fun a b => absurd ⟨a, b⟩ hn, by simp, fun a b => absurd ⟨a, b⟩ hn⟩
  choose row hent hnd hmem using hrow
  -- one entity
  have hone : ∀ s n, 0 < n → n ≤ S.size s → ∀ out, printEntity S s out n =
      .ok (out ++ ((keysOf row s n).map fun k => Line k (num A k) (flag A true k)).flatten) := by
    intro s n h1 h2 out
    unfold printEntity
    rw [hent s n h1 h2, Res.ok_bind]
    have hd : ∀ d ∈ row s n, ∀ out, printDof s n out d = .ok (out ++ Line (s, n, d.type) d.eq d.constrained) := by
      intro d hd out
      apply printDof_eq
      intro he
      have := (hmem s n h1 h2 d).mp hd
      rw [he, hu] at this
      cases this
    rw [foldlM'_append _ _ hd, keysOf, List.map_map, ← List.flatMap_def]
    congr 2
    apply List.flatMap_congr
    intro d hd
    have := (hmem s n h1 h2 d).mp hd
    simp [num, flag, at', this]
  have hside : ∀ s out, Res.foldlM' (printEntity S s) out ((List.range (S.size s)).map (· + 1)) =
      .ok (out ++ ((((List.range (S.size s)).map (· + 1)).flatMap (keysOf row s)).map
        fun k => Line k (num A k) (flag A true k)).flatten) := by
    intro s out
    rw [foldlM'_append (g := fun n => ((keysOf row s n).map fun k => Line k (num A k) (flag A true k)).flatten)]
    · rw [List.map_flatMap, List.flatMap_def, List.flatMap_def, List.flatten_flatten, List.map_map, List.map_map, List.map_map]
      rfl
    · intro n hn out
      simp only [List.mem_map, List.mem_range] at hn
      obtain ⟨i, hi, rfl⟩ := hn
      exact hone s _ (by omega) (by omega) out
  have hk : ∀ s k, k ∈ ((List.range (S.size s)).map (· + 1)).flatMap (keysOf row s) ↔ k.1 = s ∧ (at' A k).isSome := by
    intro s k
    obtain ⟨s', n, t⟩ := k
    simp only [List.mem_flatMap, List.mem_map, List.mem_range, keysOf, Prod.mk.injEq, at']
    constructor
    · rintro ⟨m, ⟨i, hi, rfl⟩, d, hd, rfl, rfl, rfl⟩
      refine ⟨rfl, ?_⟩
      rw [(hmem _ _ (by omega) (by omega) d).mp hd]; rfl
    · rintro ⟨rfl, hs⟩
      have hr := sim_range (h s') hs
      obtain ⟨⟨e, c⟩, he⟩ := Option.isSome_iff_exists.mp hs
      exact ⟨n, ⟨n - 1, by omega, by omega⟩, ⟨e, c, t⟩, (hmem s' n hr.1 hr.2 ⟨e, c, t⟩).mpr he, rfl, rfl, rfl⟩
  have hnodup : ∀ s, (((List.range (S.size s)).map (· + 1)).flatMap (keysOf row s)).Nodup := by
    intro s
    rw [List.nodup_flatMap]
    constructor
    · intro n _
      have : keysOf row s n = ((row s n).map Dof.type).map fun t => (s, n, t) := by
        rw [List.map_map]; rfl
      rw [this]
      exact (hnd s n).map (fun a b hab => by simpa using hab)
    · have : ((List.range (S.size s)).map (· + 1)).Nodup := List.nodup_range.map (fun a b hab => by simpa using hab)
      refine this.imp ?_
      intro a b hab k h1 h2
      simp only [keysOf, List.mem_map] at h1 h2
      obtain ⟨_, _, rfl⟩ := h1
      obtain ⟨_, _, h⟩ := h2
      simp only [Prod.mk.injEq] at h
      exact hab h.2.1.symm
  have hpair : ∀ s, (((List.range (S.size s)).map (· + 1)).flatMap (keysOf row s)).Pairwise Before := by
    intro s
    rw [List.pairwise_flatMap]
    constructor
    · intro n _
      unfold keysOf
      rw [List.pairwise_map]
      exact List.pairwise_of_forall (fun _ _ => Or.inr ⟨rfl, Nat.le_refl _⟩)
    · rw [List.pairwise_map]
      refine List.pairwise_lt_range.imp ?_
      intro a b hab x hx y hy
      simp only [keysOf, List.mem_map] at hx hy
      obtain ⟨_, _, rfl⟩ := hx
      obtain ⟨_, _, rfl⟩ := hy
      exact Or.inr ⟨rfl, by simp only; omega⟩
  refine ⟨((List.range S.nElements).map (· + 1)).flatMap (keysOf row .elem) ++
    ((List.range S.nNodes).map (· + 1)).flatMap (keysOf row .node), ?_, ?_, ?_, ?_⟩
  · unfold printDofInfo
    have e1 := hside .elem out
    rw [show S.size .elem = S.nElements from rfl] at e1
    rw [e1, Res.ok_bind]
    have e2 := hside .node
    rw [show S.size .node = S.nNodes from rfl] at e2
    rw [e2, List.map_append, List.flatten_append, List.append_assoc]
  · rw [List.nodup_append]
    refine ⟨hnodup .elem, hnodup .node, ?_⟩
    intro a ha b hb he
    subst he
    have h1 := (hk .elem a).mp ha
    have h2 := (hk .node a).mp hb
    rw [h1.1] at h2
    cases h2.1
  · intro k
    rw [List.mem_append]
    have h1 := hk .elem k
    have h2 := hk .node k
    rw [show S.size .elem = S.nElements from rfl] at h1
    rw [show S.size .node = S.nNodes from rfl] at h2
    rw [h1, h2]
    cases k.1 <;> simp
  · rw [List.pairwise_append]
    refine ⟨hpair .elem, hpair .node, ?_⟩
    intro a ha b hb
    exact Or.inl ⟨((hk .elem a).mp ha).1, ((hk .node b).mp hb).1⟩

/-- **C120, the report of the DoFs.** After the preparation of any legal model with a free DoF, `printDofInfo` writes exactly one line for
each registered DoF, elements before nodes and each in ascending order, with the equation number that the storage uses and with a one
exactly for the fixed DoFs. -/
theorem C120_dofs {S : Storage K} {calls : List RegCall} {new : List (Mpc K)} {cs : List Key} (h : LegalSetup S calls new cs)
    (hfree : ∃ k ∈ regKeys calls, k ∉ cs) (out : List Char) :
    ∃ (S' : Storage K) (num : Key → Nat) (ks : List Key), S.setup calls new cs = .ok S' ∧
      (∀ k ∈ regKeys calls, S'.eqNumber k.1 k.2.1 k.2.2 = .ok (num k)) ∧
      printDofInfo S' out = .ok (out ++ (ks.map fun k => Line k (num k) (decide (k ∈ cs))).flatten) ∧
      ks.Nodup ∧ (∀ k, k ∈ ks ↔ k ∈ regKeys calls) ∧ ks.length = S'.nDofs ∧ ks.Pairwise Before := by
  rcases setup_cases h with ⟨_, S', A, e1, e2⟩ | ⟨hc, _⟩
  · have hu : ∀ s n, A s n .UNDEFINED = none := by
      intro s n
      have := e2.map (s, n, .UNDEFINED)
      rw [if_neg] at this
      · simpa [at'] using this
      · intro hk
        obtain ⟨ts, hc, ht⟩ := mem_regKeys.mp hk
        exact h.proper _ hc ht
    obtain ⟨ks, h1, h2, h3, h4⟩ := report e2.sim hu out
    have h3' : ∀ k, k ∈ ks ↔ k ∈ regKeys calls := fun k => (h3 k).trans (e2.isSome k)
    refine ⟨S', num A, ks, e1, fun k hk => eqNumber_num e2.sim ((e2.isSome k).mpr hk), ?_, h2, h3', ?_, h4⟩
    · rw [h1]
      congr 3
      apply List.map_congr_left
      intro k hk
      have := e2.map k
      rw [if_pos ((h3' k).mp hk)] at this
      congr 1
      unfold flag
      rw [this]
      by_cases hcs : k ∈ cs <;> simp [hcs]
    · rw [e2.nDofs, ← List.toFinset_card_of_nodup h2]
      congr 1
      ext k
      rw [List.mem_toFinset, List.mem_toFinset, h3' k]
  · exfalso
    obtain ⟨k, hk, hkc⟩ := hfree
    have hsub : cs.toFinset ⊆ (regKeys calls).toFinset := by
      intro x; rw [List.mem_toFinset, List.mem_toFinset]; exact h.cons x
    have := Finset.eq_of_subset_of_card_le hsub (by omega)
    exact hkc (by rw [← List.mem_toFinset, this, List.mem_toFinset]; exact hk)

/-- **C120, reading the report back.** Two prepared models with the same report have the same registered DoFs, the same equation numbers
and the same fixed DoFs. -/
theorem C120_read_back {S₁ S₂ T₁ T₂ : Storage K} {calls₁ calls₂ : List RegCall} {new₁ new₂ : List (Mpc K)} {cs₁ cs₂ : List Key}
    (h₁ : LegalSetup S₁ calls₁ new₁ cs₁) (h₂ : LegalSetup S₂ calls₂ new₂ cs₂) (s₁ : S₁.setup calls₁ new₁ cs₁ = .ok T₁)
    (s₂ : S₂.setup calls₂ new₂ cs₂ = .ok T₂) (he : printDofInfo T₁ [] = printDofInfo T₂ []) (k : Key) :
    (k ∈ regKeys calls₁ ↔ k ∈ regKeys calls₂) ∧ (k ∈ cs₁ ↔ k ∈ cs₂) ∧
      (k ∈ regKeys calls₁ → T₁.eqNumber k.1 k.2.1 k.2.2 = T₂.eqNumber k.1 k.2.1 k.2.2) := by
  have free : ∀ {S T : Storage K} {calls new cs}, LegalSetup S calls new cs → S.setup calls new cs = .ok T →
      ∃ k ∈ regKeys calls, k ∉ cs := by
    intro S T calls new cs h hs
    by_contra hn
    push Not at hn
    rw [C13_nothing_to_solve h hn] at hs
    cases hs
  obtain ⟨T₁', n₁, ks₁, a1, a2, a3, _, a5, _, _⟩ := C120_dofs h₁ (free h₁ s₁) []
  obtain ⟨T₂', n₂, ks₂, b1, b2, b3, _, b5, _, _⟩ := C120_dofs h₂ (free h₂ s₂) []
  obtain rfl := Res.ok.inj (a1.symm.trans s₁)
  obtain rfl := Res.ok.inj (b1.symm.trans s₂)
  rw [a3, b3, Res.ok.injEq, List.nil_append, List.nil_append] at he
  simp only [line_eq] at he
  have key : (ks₁.map fun k => body k (n₁ k) (decide (k ∈ cs₁))) = ks₂.map fun k => body k (n₂ k) (decide (k ∈ cs₂)) := by
    apply lines_unique
    · intro l hl
      obtain ⟨k, _, rfl⟩ := List.mem_map.mp hl
      exact body_no_lf _ _ _
    · intro l hl
      obtain ⟨k, _, rfl⟩ := List.mem_map.mp hl
      exact body_no_lf _ _ _
    · rw [List.map_map, List.map_map]; exact he
  have go : ∀ k ∈ ks₁, k ∈ ks₂ ∧ n₁ k = n₂ k ∧ (k ∈ cs₁ ↔ k ∈ cs₂) := by
    intro k hk
    have : body k (n₁ k) (decide (k ∈ cs₁)) ∈ ks₂.map fun k => body k (n₂ k) (decide (k ∈ cs₂)) := by
      rw [← key]; exact List.mem_map.mpr ⟨k, hk, rfl⟩
    obtain ⟨k', hk', e⟩ := List.mem_map.mp this
    obtain ⟨rfl, e2, e3⟩ := body_inj e
    exact ⟨hk', e2.symm, by rw [decide_eq_decide] at e3; exact e3.symm⟩
  have og : ∀ k ∈ ks₂, k ∈ ks₁ := by
    intro k hk
    have : body k (n₂ k) (decide (k ∈ cs₂)) ∈ ks₁.map fun k => body k (n₁ k) (decide (k ∈ cs₁)) := by
      rw [key]; exact List.mem_map.mpr ⟨k, hk, rfl⟩
    obtain ⟨k', hk', e⟩ := List.mem_map.mp this
    obtain ⟨rfl, _, _⟩ := body_inj e
    exact hk'
  have hreg : k ∈ regKeys calls₁ ↔ k ∈ regKeys calls₂ := by
    rw [← a5, ← b5]; exact ⟨fun hk => (go k hk).1, og k⟩
  refine ⟨hreg, ?_, ?_⟩
  · constructor
    · intro hc
      exact (go k ((a5 k).mpr (h₁.cons k hc))).2.2.mp hc
    · intro hc
      exact (go k ((a5 k).mpr (hreg.mpr (h₂.cons k hc)))).2.2.mpr hc
  · intro hk
    rw [a2 k hk, b2 k (hreg.mp hk), (go k ((a5 k).mpr hk)).2.1]

/-- The hypotheses hold for the example of `Verif/Storage/Props.lean`; the line of a fixed DoF. -/
example : (∃ S', demo.setup demoCalls [] demoFix = .ok S' ∧ ∃ text, printDofInfo S' [] = .ok text) ∧
    LegalSetup demo demoCalls [] demoFix ∧ (∃ k ∈ regKeys demoCalls, k ∉ demoFix) ∧
    Line (.node, 12, .UX) 3 true = "N12:UX eq = 3 constrained = 1\n".toList := by
  have hf : ∃ k ∈ regKeys demoCalls, k ∉ demoFix := ⟨(.node, 2, .UX), by decide, by decide⟩
  obtain ⟨S', _, _, h1, _, h2, _⟩ := C120_dofs demo_legal.setup hf []
  exact ⟨⟨S', h1, _, h2⟩, demo_legal.setup, hf, by decide⟩

/-! ## Equations -/

theorem labels_read (t : DofType) : Res.read dofTypeLabels (dofToNat t) = .ok (dofIdent t) := by cases t <;> rfl

theorem printTerm_eq (num : K → List Char) (out : List Char) (t : MpcTerm K) : printTerm num out t = .ok (out ++ TermText num t) := by
  unfold printTerm TermText
  rw [labels_read, Res.ok_bind, toString_digits]
  simp

theorem printTerms_rest (num : K → List Char) : ∀ (ts : List (MpcTerm K)) (out : List Char),
    printTerms num false out ts = .ok (out ++ ts.flatMap fun t => " + ".toList ++ TermText num t)
  | [], out => by simp [printTerms]
  | t :: ts, out => by
    simp only [printTerms, printTerm_eq, Res.ok_bind, printTerms_rest num ts]
    simp

/-- The text of the terms after the first. -/
theorem intercalate_cons (sep a : List Char) (l : List (List Char)) :
    sep.intercalate (a :: l) = a ++ l.flatMap fun x => sep ++ x := by
  induction l generalizing a with
  | nil => simp [List.intercalate]
  | cons b l ih =>
    rw [List.intercalate_cons_cons, ih]
    simp

/-- **C120, an equation.** `Mpc::print` writes the terms of the equation in their order with plus signs between them, and the right-hand
side behind an equals sign; `printEquations` writes each equation of a collection on a line of its own. -/
theorem C120_mpc (num : K → List Char) (out : List Char) (m : Mpc K) (ms : List (Mpc K)) :
    printMpc num out m = .ok (out ++ MpcText num m) ∧
    printEquations num ms out = .ok (out ++ (ms.map fun m => MpcText num m ++ "\n".toList).flatten) := by
  have one : ∀ (out : List Char) (m : Mpc K), printMpc num out m = .ok (out ++ MpcText num m) := by
    intro out m
    obtain ⟨eq, b, e⟩ := m
    unfold printMpc MpcText
    cases eq with
    | nil => simp [printTerms, List.intercalate]
    | cons t ts =>
      simp only [printTerms, printTerm_eq, Res.ok_bind, printTerms_rest, List.map_cons, intercalate_cons, if_true]
      simp [List.flatMap_map]
  refine ⟨one out m, ?_⟩
  unfold printEquations
  rw [foldlM'_append (g := fun m => MpcText num m ++ "\n".toList), List.flatMap_def]
  intro m _ out
  simp only [one, Res.ok_bind, List.append_assoc]
  rfl

/-- What the text of a number leaves of a term. -/
def Seen (num : K → List Char) (t : MpcTerm K) : Nat × DofType × List Char := (t.node, t.dof, num t.coef)

theorem term_read {num : K → List Char} (hn : ∀ x, ' ' ∉ num x) {t t' : MpcTerm K} {r r' : List Char}
    (h : TermText num t ++ ' ' :: r = TermText num t' ++ ' ' :: r') : Seen num t = Seen num t' ∧ r = r' := by
  have e : ∀ (t : MpcTerm K) (r : List Char), TermText num t ++ ' ' :: r =
      num t.coef ++ ' ' :: ("* ".toList ++ (digits t.node ++ ':' :: ((dofIdent t.dof).toList ++ ' ' :: r))) := by
    intro t r
    unfold TermText
    rw [toString_digits]
    simp
  rw [e, e] at h
  obtain ⟨h1, h⟩ := cut_unique (hn _) (hn _) h
  rw [List.append_cancel_left_eq] at h
  obtain ⟨h2, h⟩ := cut_unique (not_mem_digits (by decide) _) (not_mem_digits (by decide) _) h
  obtain ⟨h3, h⟩ := cut_unique (ident_no (by simp) _) (ident_no (by simp) _) h
  exact ⟨by rw [Seen, Seen, h1, digits_inj h2, ident_inj h3], h⟩

/-- The text behind a term. -/
def tail (num : K → List Char) (b : K) : List (MpcTerm K) → List Char
  | [] => " = ".toList ++ num b
  | t :: ts => ' ' :: ("+ ".toList ++ (TermText num t ++ tail num b ts))

theorem tail_blank (num : K → List Char) (b : K) (ts : List (MpcTerm K)) : ∃ r, tail num b ts = ' ' :: r := by
  cases ts with
  | nil => exact ⟨"= ".toList ++ num b, rfl⟩
  | cons t ts => exact ⟨_, rfl⟩

theorem tail_read {num : K → List Char} (hn : ∀ x, ' ' ∉ num x) {b b' : K} : ∀ {ts ts' : List (MpcTerm K)},
    tail num b ts = tail num b' ts' → ts.map (Seen num) = ts'.map (Seen num) ∧ num b = num b'
  | [], [], h => by simpa [tail] using h
  | [], t :: ts', h => by simp [tail] at h
  | t :: ts, [], h => by simp [tail] at h
  | t :: ts, t' :: ts', h => by
    simp only [tail, List.cons.injEq, true_and, List.append_cancel_left_eq] at h
    obtain ⟨r, hr⟩ := tail_blank num b ts
    obtain ⟨r', hr'⟩ := tail_blank num b' ts'
    rw [hr, hr'] at h
    obtain ⟨h1, h2⟩ := term_read hn h
    obtain ⟨h3, h4⟩ := tail_read hn (show tail num b ts = tail num b' ts' by rw [hr, hr', h2])
    exact ⟨by rw [List.map_cons, List.map_cons, h1, h3], h4⟩

theorem tail_eq (num : K → List Char) (b : K) : ∀ ts : List (MpcTerm K),
    (ts.flatMap fun t => " + ".toList ++ TermText num t) ++ (" = ".toList ++ num b) = tail num b ts
  | [] => rfl
  | t :: ts => by
    rw [List.flatMap_cons, tail, ← tail_eq num b ts]
    simp

theorem text_eq (num : K → List Char) (m : Mpc K) : MpcText num m = match m.eq with
    | [] => " = ".toList ++ num m.b
    | t :: ts => TermText num t ++ tail num m.b ts := by
  obtain ⟨eq, b, e⟩ := m
  unfold MpcText
  cases eq with
  | nil => simp [List.intercalate]
  | cons t ts =>
    simp only [List.map_cons, intercalate_cons, ← tail_eq]
    simp [List.flatMap_map]

/-- **C120, reading an equation back.** If the texts of the numbers have no blanks (those of `toStr` have none), two equations have the
same text exactly if their terms agree in order, node, DoF and the text of the coefficient, and their right-hand sides in their text. -/
theorem C120_mpc_read_back {num : K → List Char} (hn : ∀ x, ' ' ∉ num x) (m m' : Mpc K) :
    printMpc num [] m = printMpc num [] m' ↔
      m.eq.map (fun t => (t.node, t.dof, num t.coef)) = m'.eq.map (fun t => (t.node, t.dof, num t.coef)) ∧ num m.b = num m'.b := by
  rw [(C120_mpc num [] m []).1, (C120_mpc num [] m' []).1, Res.ok.injEq, List.nil_append, List.nil_append]
  constructor
  · intro h
    rw [text_eq, text_eq] at h
    obtain ⟨eq, b, e⟩ := m
    obtain ⟨eq', b', e'⟩ := m'
    have hb : ∀ (t : MpcTerm K) (ts : List (MpcTerm K)) (b b' : K), TermText num t ++ tail num b ts ≠ " = ".toList ++ num b' := by
      intro t ts b b' h
      unfold TermText at h
      simp only [List.append_assoc] at h
      have h' : num t.coef ++ ' ' :: ("* ".toList ++ ((toString t.node).toList ++ (":".toList ++ ((dofIdent t.dof).toList ++
          tail num b ts)))) = [] ++ ' ' :: ("= ".toList ++ num b') := h
      obtain ⟨_, h'⟩ := cut_unique (hn _) (by simp) h'
      simp at h'
    cases eq with
    | nil =>
      cases eq' with
      | nil => simpa using h
      | cons t' ts' => exact absurd h.symm (hb _ _ _ _)
    | cons t ts =>
      cases eq' with
      | nil => exact absurd h (hb _ _ _ _)
      | cons t' ts' =>
        obtain ⟨r, hr⟩ := tail_blank num b ts
        obtain ⟨r', hr'⟩ := tail_blank num b' ts'
        simp only [hr, hr'] at h
        obtain ⟨h1, h2⟩ := term_read hn h
        obtain ⟨h3, h4⟩ := tail_read hn (show tail num b ts = tail num b' ts' by rw [hr, hr', h2])
        exact ⟨congrArg₂ List.cons h1 h3, h4⟩
  · rintro ⟨h1, h2⟩
    unfold MpcText
    have : ∀ ts : List (MpcTerm K), ts.map (TermText num) =
        (ts.map (fun t => (t.node, t.dof, num t.coef))).map fun x => x.2.2 ++ " * ".toList ++ (toString x.1).toList ++ ":".toList ++
          (dofIdent x.2.1).toList := by
      intro ts
      rw [List.map_map]
      rfl
    rw [this, this, h1, h2]

/-- **C120, coefficients, negation.** What the text of a number loses the text of the equation loses: two equations with different
coefficients of the same text cannot be told apart. -/
theorem C120_mpc_violated {num : K → List Char} {x y b : K} (hxy : x ≠ y) (h : num x = num y) (n : Nat) (t : DofType) :
    ∃ m m' : Mpc K, m.eq ≠ m'.eq ∧ printMpc num [] m = printMpc num [] m' := by
  refine ⟨⟨[⟨n, t, x⟩], b, 0⟩, ⟨[⟨n, t, y⟩], b, 0⟩, by simpa using hxy, ?_⟩
  rw [(C120_mpc num [] _ []).1, (C120_mpc num [] _ []).1]
  simp [MpcText, TermText, h]

/-- A way to write integers. -/
def intText (x : Int) : List Char := if x < 0 then '-' :: digits x.natAbs else digits x.natAbs

/-- The hypotheses hold for it; the text of an equation. -/
example : (∀ x, ' ' ∉ intText x) ∧
    MpcText intText ⟨[⟨12, .UX, 1⟩, ⟨3, .TEMP, -2⟩], 5, 0⟩ = "1 * 12:UX + -2 * 3:TEMP = 5".toList := by
  refine ⟨?_, by decide +kernel⟩
  intro x
  have := not_mem_digits (c := ' ') (by decide) x.natAbs
  unfold intText
  split <;> simp [this]

/-- Hypotheses of the negation: rounding to tens. -/
example : (12 : Int) ≠ 13 ∧ intText ((12 : Int) / 10) = intText ((13 : Int) / 10) := by decide

end Nla3d.Report
