import Verif.Storage.Lookup
import Verif.Storage.ReportProps

/-!
# C121: lookups of the storage return what was asked for
-/

namespace Nla3d.Lookup

open Nla3d.Cdb (Comp CompType)
open Nla3d.Report (digits)

variable {N : Type}

/-! ## Components -/

theorem byNameLoop_spec (name : List Char) : ∀ (pre post : List Comp),
    (byNameLoop (pre ++ post) name pre.length post.length = .ok none ∧ ∀ c ∈ post, c.name ≠ name) ∨
    ∃ a c b, post = a ++ c :: b ∧ c.name = name ∧ (∀ x ∈ a, x.name ≠ name) ∧
      byNameLoop (pre ++ post) name pre.length post.length = .ok (some c)
  | pre, [] => Or.inl ⟨rfl, by simp⟩
  | pre, c :: post => by
    have hr : Res.read (pre ++ c :: post) pre.length = .ok c := by rw [Res.read_eq_ok]; simp
    simp only [List.length_cons, byNameLoop, hr, Res.ok_bind]
    by_cases hc : name = c.name
    · right
      exact ⟨[], c, post, rfl, hc.symm, by simp, by rw [if_pos hc]⟩
    · rw [if_neg hc]
      have ih := byNameLoop_spec name (pre ++ [c]) post
      simp only [List.append_assoc, List.singleton_append, List.length_append, List.length_singleton] at ih
      rcases ih with ⟨h1, h2⟩ | ⟨a, d, b, h1, h2, h3, h4⟩
      · left
        refine ⟨h1, ?_⟩
        intro x hx
        rcases List.mem_cons.mp hx with rfl | hx
        · exact fun e => hc e.symm
        · exact h2 x hx
      · right
        refine ⟨c :: a, d, b, by rw [h1]; rfl, h2, ?_, h4⟩
        intro x hx
        rcases List.mem_cons.mp hx with rfl | hx
        · exact fun e => hc e.symm
        · exact h3 x hx

/-- **C121, components by name.** The search by name always ends; it returns the first component of that name, and the null pointer
exactly if there is none. -/
theorem C121_name (comps : List Comp) (name : List Char) :
    ∃ r, byName comps name = .ok r ∧ (r = none ↔ ∀ c ∈ comps, c.name ≠ name) ∧
      ∀ c, r = some c ↔ ∃ a b, comps = a ++ c :: b ∧ c.name = name ∧ ∀ x ∈ a, x.name ≠ name := by
  have := byNameLoop_spec name [] comps
  simp only [List.nil_append, List.length_nil] at this
  rcases this with ⟨h1, h2⟩ | ⟨a, c, b, h1, h2, h3, h4⟩
  · refine ⟨none, h1, by simpa using h2, ?_⟩
    intro c
    simp only [reduceCtorEq, false_iff]
    rintro ⟨a, b, e, hn, _⟩
    exact h2 c (by rw [e]; simp) hn
  · refine ⟨some c, h4, ?_, ?_⟩
    · simp only [reduceCtorEq, false_iff]
      intro hh
      exact hh c (by rw [h1]; simp) h2
    · intro d
      constructor
      · intro e
        obtain rfl := Option.some.inj e
        exact ⟨a, b, h1, h2, h3⟩
      · rintro ⟨a', b', e, hn, hall⟩
        rw [h1] at e
        congr 1
        rcases List.append_eq_append_iff.mp e with ⟨x, e1, e2⟩ | ⟨x, e1, e2⟩
        · cases x with
          | nil => simp at e2; exact e2.1
          | cons y x =>
            simp only [List.cons_append, List.cons.injEq] at e2
            exact absurd h2 (hall c (by rw [e1, e2.1]; simp))
        · cases x with
          | nil => simp at e2; exact e2.1.symm
          | cons y x =>
            simp only [List.cons_append, List.cons.injEq] at e2
            exact absurd hn (h3 d (by rw [e1, e2.1]; simp))

/-- **C121, components by number.** A component by its number of registration: the numbers that exist, and no others, are accepted. -/
theorem C121_index (comps : List Comp) (i : Nat) :
    (∀ c, byIndex comps i = .ok c ↔ comps[i]? = some c) ∧ (comps.length ≤ i → byIndex comps i = .assert) := by
  constructor
  · intro c
    unfold byIndex
    by_cases h : i < comps.length
    · rw [if_pos h, Res.read_eq_ok]
    · rw [if_neg h, List.getElem?_eq_none (by omega)]; simp
  · intro h
    unfold byIndex
    rw [if_neg (by omega)]

/-- **C121, names of types.** The word written for a type of components is read as that type. -/
theorem C121_type (t : CompType) : Cdb.typeFromString (compLabel t) = t := by cases t <;> decide

/-- **C121, a name given twice, negation.** Of two components with the same name the second cannot be had by its name. -/
theorem C121_name_violated (a : List Comp) (c d : Comp) (b : List Comp) (hn : c.name = d.name) (hcd : c ≠ d)
    (h : ∀ x ∈ a, x.name ≠ c.name) : byName (a ++ c :: b ++ [d]) d.name ≠ .ok (some d) := by
  obtain ⟨r, h1, _, h3⟩ := C121_name (a ++ c :: b ++ [d]) d.name
  have := (h3 c).mpr ⟨a, b ++ [d], by simp, hn, by rwa [← hn]⟩
  rw [h1, this]
  intro e
  exact hcd (Option.some.inj (Res.ok.inj e))

/-! ## Nodes and elements -/

/-- **C121, nodes.** A node by its number, from one to their count; other numbers are refused. -/
theorem C121_node (nodes : List N) (n : Nat) :
    (∀ i, (h : i < nodes.length) → n = i + 1 → getNode nodes n = .ok nodes[i]) ∧
    (n = 0 ∨ nodes.length < n → getNode nodes n = .assert) := by
  constructor
  · rintro i h rfl
    unfold getNode
    rw [if_pos (by omega), Res.read_eq_ok]
    simp [h]
  · intro h
    unfold getNode
    rw [if_neg (by omega)]

theorem nodePtrs_eq (nodes : List N) : ∀ (ns : List Nat) (ps : List N), List.Forall₂ (fun n p => 0 < n ∧ nodes[n - 1]? = some p) ns ps →
    nodePtrs nodes ns = .ok ps
  | [], [], _ => rfl
  | n :: ns, p :: ps, h => by
    cases h with
    | cons h1 h2 =>
      simp only [nodePtrs, nodePtrs_eq nodes ns ps h2, Res.read_eq_ok.mpr h1.2, if_neg (show ¬ n = 0 by omega), Res.ok_bind]

/-- **C121, elements.** An element and its nodes by the number of the element, from one to their count: the nodes come in the order of
the element, each the one that `getNode` gives. Numbers beyond the count are refused. Missing: the number 0 (`C121_zero_violated`). -/
theorem C121_element_partial (nodes : List N) (els : List (List Nat)) (el : Nat) :
    (∀ i, (h : i < els.length) → el = i + 1 → getElement els el = .ok els[i] ∧
      ((∀ n ∈ els[i], 0 < n ∧ n ≤ nodes.length) → ∃ ps, getElementNodes nodes els el = .ok ps ∧ ps.length = els[i].length ∧
        ∀ j, (hj : j < els[i].length) → ∃ p, ps[j]? = some p ∧ getNode nodes els[i][j] = .ok p)) ∧
    (els.length < el → getElement els el = .assert ∧ getElementNodes nodes els el = .assert) := by
  constructor
  · rintro i h rfl
    have hr : Res.read els (i + 1 - 1) = .ok els[i] := by rw [Res.read_eq_ok]; simp [h]
    constructor
    · unfold getElement
      rw [if_pos (by omega), if_neg (by omega), hr]
    · intro hn
      have hex : ∀ ns : List Nat, (∀ n ∈ ns, 0 < n ∧ n ≤ nodes.length) →
          ∃ ps, List.Forall₂ (fun n p => 0 < n ∧ nodes[n - 1]? = some p) ns ps := by
        intro ns
        induction ns with
        | nil => intro _; exact ⟨[], .nil⟩
        | cons n ns ih =>
          intro hh
          obtain ⟨ps, hps⟩ := ih (fun m hm => hh m (by simp [hm]))
          have hb := hh n (by simp)
          exact ⟨nodes[n - 1] :: ps, .cons ⟨hb.1, List.getElem?_eq_getElem (by omega)⟩ hps⟩
      obtain ⟨ps, hps⟩ := hex _ hn
      refine ⟨ps, ?_, hps.length_eq.symm, ?_⟩
      · unfold getElementNodes
        rw [if_pos (by omega), if_neg (by omega), hr, Res.ok_bind, nodePtrs_eq nodes _ _ hps]
      · intro j hj
        have hj' : j < ps.length := by rw [← hps.length_eq]; exact hj
        have := hps.get hj hj'
        simp only [List.get_eq_getElem] at this
        refine ⟨ps[j], List.getElem?_eq_getElem hj', ?_⟩
        have hb := hn _ (List.getElem_mem hj)
        unfold getNode
        rw [if_pos hb, Res.read_eq_ok]
        exact this.2
  · intro h
    unfold getElement getElementNodes
    rw [if_neg (by omega), if_neg (by omega)]
    exact ⟨rfl, rfl⟩

/-- **C121, number 0, negation.** Nodes of number 0 are refused, but elements of number 0 pass the assertion: whatever the mesh, memory
before the array of elements is read. -/
theorem C121_zero_violated (nodes : List N) (els : List (List Nat)) :
    getNode nodes 0 = .assert ∧ getElement els 0 = .ub ∧ getElementNodes nodes els 0 = .ub := by
  refine ⟨?_, ?_, ?_⟩
  · unfold getNode; simp
  · unfold getElement; simp
  · unfold getElementNodes; simp

/-! ## Copies and texts of elements -/

/-- **C121, copies.** Assigning an element to one with the same number of nodes copies the nodes. Missing: other numbers of nodes
(`C121_copy_violated`). -/
theorem C121_copy_partial (a b : List Nat) (h : a.length = b.length) : assign (some a) (some b) = .ok b := by
  simp only [assign]
  rw [if_pos (by omega), h, List.take_length]

/-- **C121, copies, negation.** From an element with more nodes the first ones are copied without a message; from one with fewer nodes
memory after its array is read. -/
theorem C121_copy_violated (a b : List Nat) :
    (a.length < b.length → ∃ c, assign (some a) (some b) = .ok c ∧ c ≠ b) ∧ (b.length < a.length → assign (some a) (some b) = .ub) := by
  constructor
  · intro h
    refine ⟨b.take a.length, by simp only [assign]; rw [if_pos (by omega)], ?_⟩
    intro e
    have := congrArg List.length e
    rw [List.length_take] at this
    omega
  · intro h
    simp only [assign]
    rw [if_neg (by omega)]

theorem print_eq (out : List Char) (elNum : Nat) (nodes : List Nat) :
    printElement out elNum nodes = out ++ "E ".toList ++ digits elNum ++ ':' :: nodes.flatMap fun n => '\t' :: digits n := by
  have : ∀ (ns : List Nat) (o : List Char), ns.foldl (fun out n => out ++ '\t' :: digits n) o = o ++ ns.flatMap fun n => '\t' :: digits n := by
    intro ns
    induction ns with
    | nil => simp
    | cons n ns ih => intro o; simp [ih]
  unfold printElement
  rw [this]
  simp

/-- **C121, the text of an element.** The text of an element is its number and the numbers of its nodes, each behind a tabulator; it
decides the number, the nodes and their order. -/
theorem C121_print (e e' : Nat) (ns ns' : List Nat) :
    printElement [] e ns = ("E " ++ toString e ++ ":").toList ++ (ns.map fun n => ("\t" ++ toString n).toList).flatten ∧
    (printElement [] e ns = printElement [] e' ns' ↔ e = e' ∧ ns = ns') := by
  refine ⟨?_, ?_, by rintro ⟨rfl, rfl⟩; rfl⟩
  · rw [print_eq, List.flatMap_def]
    simp only [String.toList_append, Report.toString_digits, List.nil_append]
    simp
  · intro h
    rw [print_eq, print_eq] at h
    simp only [List.append_assoc, List.append_cancel_left_eq] at h
    obtain ⟨h1, h2⟩ := Report.cut_unique (Report.not_mem_digits (by decide) _) (Report.not_mem_digits (by decide) _) h
    refine ⟨Report.digits_inj h1, ?_⟩
    clear h h1
    have cut : ∀ (n : Nat) (r : List Char), (r = [] ∨ ∃ t, r = '\t' :: t) → ∀ (m : Nat) (r' : List Char),
        (r' = [] ∨ ∃ t, r' = '\t' :: t) → digits n ++ r = digits m ++ r' → n = m ∧ r = r' := by
      intro n r hr m r' hr' he
      have h1 := Report.not_mem_digits (c := '\t') (by decide) n
      have h2 := Report.not_mem_digits (c := '\t') (by decide) m
      rcases hr with rfl | ⟨t, rfl⟩ <;> rcases hr' with rfl | ⟨t', rfl⟩
      · rw [List.append_nil, List.append_nil] at he
        exact ⟨Report.digits_inj he, rfl⟩
      · rw [List.append_nil] at he
        exact absurd (by rw [he]; simp) h1
      · rw [List.append_nil] at he
        exact absurd (by rw [← he]; simp) h2
      · obtain ⟨e1, e2⟩ := Report.cut_unique h1 h2 he
        exact ⟨Report.digits_inj e1, by rw [e2]⟩
    have tab : ∀ ns : List Nat, (ns.flatMap fun n => '\t' :: digits n) = [] ∨ ∃ t, (ns.flatMap fun n => '\t' :: digits n) = '\t' :: t := by
      intro ns
      cases ns with
      | nil => exact Or.inl rfl
      | cons n ns => exact Or.inr ⟨_, rfl⟩
    induction ns generalizing ns' with
    | nil =>
      cases ns' with
      | nil => rfl
      | cons n ns' => simp at h2
    | cons n ns ih =>
      cases ns' with
      | nil => simp at h2
      | cons m ns' =>
        simp only [List.flatMap_cons, List.cons_append, List.cons.injEq, true_and] at h2
        obtain ⟨e1, e2⟩ := cut n _ (tab ns) m _ (tab ns') h2
        rw [e1, ih _ e2]

/-! ## Examples -/

/-- Three components, two of the same name. -/
def demoComps : List Comp := [⟨"A".toList, .NODES, [1, 2]⟩, ⟨"B".toList, .ELEMENTS, [3]⟩, ⟨"A".toList, .NODES, [7]⟩]

/-- The hypotheses hold: the name `B` is found, `C` is not, the second `A` is hidden. -/
example : byName demoComps "B".toList = .ok (some ⟨"B".toList, .ELEMENTS, [3]⟩) ∧ byName demoComps "C".toList = .ok none ∧
    byName demoComps "A".toList = .ok (some ⟨"A".toList, .NODES, [1, 2]⟩) ∧ byIndex demoComps 3 = .assert ∧
    compText ⟨"B".toList, .ELEMENTS, [3]⟩ = "B: 1 ELEM".toList := by decide +kernel

/-- Two elements over three nodes. -/
example : getElementNodes ["p", "q", "r"] [[1, 2], [3, 2]] 2 = .ok ["r", "q"] ∧ (∀ n ∈ [3, 2], 0 < n ∧ n ≤ ["p", "q", "r"].length) ∧
    [1, 2].length = [3, 4].length ∧ [1].length < [3, 4].length ∧
    printElement [] 2 [3, 12] = "E 2:\t3\t12".toList := by decide +kernel

end Nla3d.Lookup
