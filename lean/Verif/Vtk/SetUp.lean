import Verif.Vtk.Props

/-!
# What the processor writes: `pre` (C60) and `revealAllResults` (C74)
-/

namespace Nla3d.Vtk

open Nla3d.Dof Nla3d.Storage Nla3d.Labels Nla3d.Post

variable {K : Type}

theorem mem_revealCodes (f : Nat → Bool) : ∀ (codes set : List Nat) (q : Nat),
    q ∈ revealCodes f codes set ↔ q ∈ set ∨ (q ∈ codes ∧ f q = true) := by
  intro codes
  induction codes with
  | nil => intro set q; simp [revealCodes]
  | cons c codes ih =>
    intro set q
    have : revealCodes f (c :: codes) set = revealCodes f codes (if f c then setInsert c set else set) := rfl
    rw [this, ih]
    by_cases hc : f c
    · rw [if_pos hc, mem_setInsert, List.mem_cons]
      constructor
      · rintro ((rfl | h) | h)
        · exact Or.inr ⟨Or.inl rfl, hc⟩
        · exact Or.inl h
        · exact Or.inr ⟨Or.inr h.1, h.2⟩
      · rintro (h | ⟨rfl | h, h'⟩)
        · exact Or.inl (Or.inr h)
        · exact Or.inl (Or.inl rfl)
        · exact Or.inr ⟨h, h'⟩
    · rw [if_neg hc, List.mem_cons]
      constructor
      · rintro (h | h)
        · exact Or.inl h
        · exact Or.inr ⟨Or.inr h.1, h.2⟩
      · rintro (h | ⟨rfl | h, h'⟩)
        · exact Or.inl h
        · exact absurd h' hc
        · exact Or.inr ⟨h, h'⟩

/-- Which queries are relevant depends on the type of the element only: `R t q`. -/
structure ByType (ask : Ask K) (i : Nat) (es : List Elem) (Rs Rv Rt : ElementType → Nat → Prop) : Prop where
  scalar : ∀ j e, es[j]? = some e → ∀ q, (ask.scalar (i + j) q).isSome ↔ Rs e.type q
  vector : ∀ j e, es[j]? = some e → ∀ q, (ask.vector (i + j) q).isSome ↔ Rv e.type q
  tensor : ∀ j e, es[j]? = some e → ∀ q, (ask.tensor (i + j) q).isSome ↔ Rt e.type q

theorem ByType.tail {ask : Ask K} {i : Nat} {e : Elem} {es : List Elem} {Rs Rv Rt : ElementType → Nat → Prop}
    (h : ByType ask i (e :: es) Rs Rv Rt) : ByType ask (i + 1) es Rs Rv Rt := by
  refine ⟨?_, ?_, ?_⟩
  · intro j e' hj q
    have := h.scalar (j + 1) e' hj q
    rwa [show i + 1 + j = i + (j + 1) by omega]
  · intro j e' hj q
    have := h.vector (j + 1) e' hj q
    rwa [show i + 1 + j = i + (j + 1) by omega]
  · intro j e' hj q
    have := h.tensor (j + 1) e' hj q
    rwa [show i + 1 + j = i + (j + 1) by omega]

/-- What the codes collected so far and the elements to come amount to. -/
def Gathered (set codes : List Nat) (seen : List ElementType) (es : List Elem) (R : ElementType → Nat → Prop) (q : Nat) :
    Prop := q ∈ set ∨ (q ∈ codes ∧ ∃ e ∈ es, e.type ∉ seen ∧ R e.type q)

theorem gathered_skip {set codes : List Nat} {seen : List ElementType} {e : Elem} {es : List Elem}
    {R : ElementType → Nat → Prop} {q : Nat} (h : e.type ∈ seen) :
    Gathered set codes seen es R q ↔ Gathered set codes seen (e :: es) R q := by
  unfold Gathered
  refine or_congr Iff.rfl (and_congr Iff.rfl ?_)
  constructor
  · rintro ⟨e', h1, h2⟩; exact ⟨e', by simp [h1], h2⟩
  · rintro ⟨e', h1, h2, h3⟩
    rcases List.mem_cons.mp h1 with rfl | h1
    · exact absurd h h2
    · exact ⟨e', h1, h2, h3⟩

theorem gathered_step {set codes : List Nat} {seen : List ElementType} {e : Elem} {es : List Elem}
    {R : ElementType → Nat → Prop} {f : Nat → Bool} {q : Nat} (h : e.type ∉ seen) (hf : ∀ q, f q = true ↔ R e.type q) :
    Gathered (revealCodes f codes set) codes (e.type :: seen) es R q ↔ Gathered set codes seen (e :: es) R q := by
  unfold Gathered
  rw [mem_revealCodes]
  constructor
  · rintro ((h1 | ⟨h1, h2⟩) | ⟨h1, e', h2, h3, h4⟩)
    · exact Or.inl h1
    · exact Or.inr ⟨h1, e, by simp, h, (hf q).mp h2⟩
    · exact Or.inr ⟨h1, e', by simp [h2], fun hh => h3 (by simp [hh]), h4⟩
  · rintro (h1 | ⟨h1, e', h2, h3, h4⟩)
    · exact Or.inl (Or.inl h1)
    · by_cases ht : e'.type = e.type
      · exact Or.inl (Or.inr ⟨h1, (hf q).mpr (ht ▸ h4)⟩)
      · rcases List.mem_cons.mp h2 with rfl | h2
        · exact absurd rfl ht
        · refine Or.inr ⟨h1, e', h2, ?_, h4⟩
          rw [List.mem_cons]
          rintro (hh | hh)
          · exact ht hh
          · exact h3 hh

theorem reveal_run {ask : Ask K} {Rs Rv Rt : ElementType → Nat → Prop} : ∀ (es : List Elem) (i : Nat)
    (seen : List ElementType) (P : Proc), ByType ask i es Rs Rv Rt →
    (∀ q, q ∈ (reveal ask i seen es P).scalarQ ↔ Gathered P.scalarQ scalarCodes seen es Rs q) ∧
    (∀ q, q ∈ (reveal ask i seen es P).vectorQ ↔ Gathered P.vectorQ vectorCodes seen es Rv q) ∧
    (∀ q, q ∈ (reveal ask i seen es P).tensorQ ↔ Gathered P.tensorQ tensorCodes seen es Rt q) ∧
    (reveal ask i seen es P).useDisp = P.useDisp ∧ (reveal ask i seen es P).nodal = P.nodal ∧
    (reveal ask i seen es P).elemental = P.elemental := by
  intro es
  induction es with
  | nil =>
    intro i seen P _
    simp [reveal, Gathered]
  | cons e es ih =>
    intro i seen P h
    unfold reveal
    by_cases hs : e.type ∈ seen
    · rw [if_pos hs]
      obtain ⟨h1, h2, h3, h4⟩ := ih (i + 1) seen P h.tail
      exact ⟨fun q => (h1 q).trans (gathered_skip hs), fun q => (h2 q).trans (gathered_skip hs),
        fun q => (h3 q).trans (gathered_skip hs), h4⟩
    · rw [if_neg hs]
      have f1 := h.scalar 0 e rfl
      have f2 := h.vector 0 e rfl
      have f3 := h.tensor 0 e rfl
      rw [Nat.add_zero] at f1 f2 f3
      obtain ⟨h1, h2, h3, h4⟩ := ih (i + 1) (e.type :: seen) { P with
        scalarQ := revealCodes (fun q => (ask.scalar i q).isSome) scalarCodes P.scalarQ
        vectorQ := revealCodes (fun q => (ask.vector i q).isSome) vectorCodes P.vectorQ
        tensorQ := revealCodes (fun q => (ask.tensor i q).isSome) tensorCodes P.tensorQ } h.tail
      exact ⟨fun q => (h1 q).trans (gathered_step hs f1), fun q => (h2 q).trans (gathered_step hs f2),
        fun q => (h3 q).trans (gathered_step hs f3), h4⟩

/-- **C74.** With `writeAllResults`, if the relevance of a query depends on the element type only, `pre` adds exactly the
query codes that some element of the model answers. -/
theorem C74_reveal {V : View K} {Rs Rv Rt : ElementType → Nat → Prop} (h : ByType V.ask 0 V.elems Rs Rv Rt) {P : Proc}
    (hw : P.writeAll = true) (q : Nat) :
    (q ∈ (setUp V P).scalarQ ↔ q ∈ P.scalarQ ∨
      (q ∈ scalarCodes ∧ ∃ i < V.elems.length, (V.ask.scalar i q).isSome)) ∧
    (q ∈ (setUp V P).vectorQ ↔ q ∈ P.vectorQ ∨
      (q ∈ vectorCodes ∧ ∃ i < V.elems.length, (V.ask.vector i q).isSome)) ∧
    (q ∈ (setUp V P).tensorQ ↔ q ∈ P.tensorQ ∨
      (q ∈ tensorCodes ∧ ∃ i < V.elems.length, (V.ask.tensor i q).isSome)) := by
  have hs : setUp V P = reveal V.ask 0 [] V.elems { P with
      useDisp := V.S.nodeT.uniqueTypes.any isDisp
      nodal := V.S.nodeT.uniqueTypes.filter (fun t => !isDisp t)
      elemental := V.S.elemT.uniqueTypes } := by
    unfold setUp
    dsimp only
    rw [if_pos hw]
  obtain ⟨h1, h2, h3, _⟩ := reveal_run V.elems 0 [] { P with
      useDisp := V.S.nodeT.uniqueTypes.any isDisp
      nodal := V.S.nodeT.uniqueTypes.filter (fun t => !isDisp t)
      elemental := V.S.elemT.uniqueTypes } h
  have key : ∀ (R : ElementType → Nat → Prop) (b : Nat → Bool),
      (∀ j e, V.elems[j]? = some e → (b j = true ↔ R e.type q)) →
      ((∃ e ∈ V.elems, e.type ∉ ([] : List ElementType) ∧ R e.type q) ↔ ∃ i < V.elems.length, b i = true) := by
    intro R b hb
    constructor
    · rintro ⟨e, he, _, hr⟩
      obtain ⟨j, hj⟩ := List.mem_iff_getElem?.mp he
      have hlt : j < V.elems.length := by
        by_contra hc
        rw [List.getElem?_eq_none (by omega)] at hj
        cases hj
      exact ⟨j, hlt, (hb j e hj).mpr hr⟩
    · rintro ⟨i, hi, hbi⟩
      have hj := List.getElem?_eq_getElem hi
      exact ⟨_, List.getElem_mem hi, by simp, (hb i _ hj).mp hbi⟩
  rw [hs]
  refine ⟨(h1 q).trans (or_congr Iff.rfl (and_congr Iff.rfl (key Rs _ ?_))),
    (h2 q).trans (or_congr Iff.rfl (and_congr Iff.rfl (key Rv _ ?_))),
    (h3 q).trans (or_congr Iff.rfl (and_congr Iff.rfl (key Rt _ ?_)))⟩
  · intro j e hj
    have := h.scalar j e hj q
    rwa [Nat.zero_add] at this
  · intro j e hj
    have := h.vector j e hj q
    rwa [Nat.zero_add] at this
  · intro j e hj
    have := h.tensor j e hj q
    rwa [Nat.zero_add] at this

theorem reveal_fields (ask : Ask K) : ∀ (es : List Elem) (i : Nat) (seen : List ElementType) (P : Proc),
    (reveal ask i seen es P).useDisp = P.useDisp ∧ (reveal ask i seen es P).nodal = P.nodal ∧
    (reveal ask i seen es P).elemental = P.elemental ∧
    ((∀ q ∈ P.scalarQ, q ∈ scalarCodes) → ∀ q ∈ (reveal ask i seen es P).scalarQ, q ∈ scalarCodes) ∧
    ((∀ q ∈ P.vectorQ, q ∈ vectorCodes) → ∀ q ∈ (reveal ask i seen es P).vectorQ, q ∈ vectorCodes) ∧
    ((∀ q ∈ P.tensorQ, q ∈ tensorCodes) → ∀ q ∈ (reveal ask i seen es P).tensorQ, q ∈ tensorCodes) := by
  intro es
  induction es with
  | nil => intro i seen P; exact ⟨rfl, rfl, rfl, id, id, id⟩
  | cons e es ih =>
    intro i seen P
    unfold reveal
    split
    · exact ih _ _ _
    · obtain ⟨h1, h2, h3, h4, h5, h6⟩ := ih (i + 1) (e.type :: seen) { P with
        scalarQ := revealCodes (fun q => (ask.scalar i q).isSome) scalarCodes P.scalarQ
        vectorQ := revealCodes (fun q => (ask.vector i q).isSome) vectorCodes P.vectorQ
        tensorQ := revealCodes (fun q => (ask.tensor i q).isSome) tensorCodes P.tensorQ }
      refine ⟨h1, h2, h3, fun h => h4 ?_, fun h => h5 ?_, fun h => h6 ?_⟩
      · intro q hq
        rcases (mem_revealCodes _ _ _ q).mp hq with hq | hq
        · exact h q hq
        · exact hq.1
      · intro q hq
        rcases (mem_revealCodes _ _ _ q).mp hq with hq | hq
        · exact h q hq
        · exact hq.1
      · intro q hq
        rcases (mem_revealCodes _ _ _ q).mp hq with hq | hq
        · exact h q hq
        · exact hq.1

/-- **C60, choice of the fields.** `pre` chooses the displacement and reaction vectors iff some node uses UX, UY or UZ, a
scalar field for each other DoF type used at some node, a cell field for each DoF type used at some element, each once.
The result is legal whenever the registered queries are. -/
theorem C60_setup {V : View K} {A : Side → Spec} (h : Legal V A) (hA : ∀ s n, A s n .UNDEFINED = none) {P : Proc}
    (h1 : ∀ q ∈ P.scalarQ, q ∈ scalarCodes) (h2 : ∀ q ∈ P.vectorQ, q ∈ vectorCodes)
    (h3 : ∀ q ∈ P.tensorQ, q ∈ tensorCodes) :
    LegalProc (setUp V P) ∧
    ((setUp V P).useDisp = true ↔ ∃ n t, (t = .UX ∨ t = .UY ∨ t = .UZ) ∧ (A .node n t).isSome) ∧
    (∀ t, t ∈ (setUp V P).nodal ↔ (t ≠ .UX ∧ t ≠ .UY ∧ t ≠ .UZ) ∧ ∃ n, (A .node n t).isSome) ∧
    (∀ t, t ∈ (setUp V P).elemental ↔ ∃ n, (A .elem n t).isSome) ∧
    (setUp V P).nodal.Nodup ∧ (setUp V P).elemental.Nodup := by
  have an := sim_answers (h.solved.sim .node)
  have ae := sim_answers (h.solved.sim .elem)
  have tn : ∀ t, t ∈ V.S.nodeT.uniqueTypes ↔ ∃ n, (A .node n t).isSome := by
    intro t
    rw [show V.S.nodeT = V.S.tab .node from rfl, an.types]
    constructor
    · rintro ⟨n, _, _, hh⟩; exact ⟨n, hh⟩
    · rintro ⟨n, hh⟩
      have := sim_range (h.solved.sim .node) hh
      exact ⟨n, this.1, this.2, hh⟩
  have te : ∀ t, t ∈ V.S.elemT.uniqueTypes ↔ ∃ n, (A .elem n t).isSome := by
    intro t
    rw [show V.S.elemT = V.S.tab .elem from rfl, ae.types]
    constructor
    · rintro ⟨n, _, _, hh⟩; exact ⟨n, hh⟩
    · rintro ⟨n, hh⟩
      have := sim_range (h.solved.sim .elem) hh
      exact ⟨n, this.1, this.2, hh⟩
  have hf : (setUp V P).useDisp = V.S.nodeT.uniqueTypes.any isDisp ∧
      (setUp V P).nodal = V.S.nodeT.uniqueTypes.filter (fun t => !isDisp t) ∧
      (setUp V P).elemental = V.S.elemT.uniqueTypes ∧ (∀ q ∈ (setUp V P).scalarQ, q ∈ scalarCodes) ∧
      (∀ q ∈ (setUp V P).vectorQ, q ∈ vectorCodes) ∧ (∀ q ∈ (setUp V P).tensorQ, q ∈ tensorCodes) := by
    unfold setUp
    dsimp only
    split
    · obtain ⟨r1, r2, r3, r4, r5, r6⟩ := reveal_fields V.ask V.elems 0 [] { P with
        useDisp := V.S.nodeT.uniqueTypes.any isDisp
        nodal := V.S.nodeT.uniqueTypes.filter (fun t => !isDisp t)
        elemental := V.S.elemT.uniqueTypes }
      exact ⟨r1, r2, r3, r4 h1, r5 h2, r6 h3⟩
    · exact ⟨rfl, rfl, rfl, h1, h2, h3⟩
  obtain ⟨f1, f2, f3, f4, f5, f6⟩ := hf
  have hnodal : ∀ t, t ∈ (setUp V P).nodal ↔ (t ≠ .UX ∧ t ≠ .UY ∧ t ≠ .UZ) ∧ ∃ n, (A .node n t).isSome := by
    intro t
    rw [f2, List.mem_filter, tn, and_comm]
    refine and_congr ?_ Iff.rfl
    cases t <;> simp [isDisp]
  refine ⟨⟨?_, ?_, f4, f5, f6⟩, ?_, hnodal, fun t => by rw [f3, te], ?_, ?_⟩
  · rw [hnodal]
    rintro ⟨_, n, hh⟩
    rw [hA] at hh
    simp at hh
  · rw [f3, te]
    rintro ⟨n, hh⟩
    rw [hA] at hh
    simp at hh
  · rw [f1, List.any_eq_true]
    constructor
    · rintro ⟨t, h1, h2⟩
      obtain ⟨n, hn⟩ := (tn t).mp h1
      exact ⟨n, t, by simpa [isDisp] using h2, hn⟩
    · rintro ⟨n, t, h1, h2⟩
      exact ⟨t, (tn t).mpr ⟨n, h2⟩, by simpa [isDisp] using h1⟩
  · rw [f2]; exact an.typesOnce.filter _
  · rw [f3]; exact ae.typesOnce

/-! ### Example -/

/-- The example of `Verif/Storage` as two trusses; both answer the scalar query 5. -/
theorem demo_legal : ∃ (V : View ℚ) (A : Side → Spec), Legal V A ∧ V.elems = [⟨.TRUSS3, .LINE, [1, 2]⟩, ⟨.TRUSS3, .LINE, [2, 3]⟩] ∧
    V.pos = [⟨0, 0, 0⟩, ⟨1, 0, 0⟩, ⟨2, 0, 0⟩] ∧ (∀ s n, A s n .UNDEFINED = none) ∧
    (∀ n t, (A .node n t).isSome ↔ (Side.node, n, t) ∈ regKeys demoCalls) ∧
    V.ask = ⟨fun i q => if q = 5 then some (i : ℚ) else none, fun _ _ => none, fun _ _ => none⟩ := by
  obtain ⟨S1, nm, h⟩ := demo_session
  obtain ⟨A, hp⟩ := prepared h.legal h.prep
  have hel : S1.elements = [[1, 2], [2, 3]] := hp.ready.mesh.elements
  have hnn : S1.nNodes = 3 := hp.ready.mesh.nNodes
  have hrow : ∀ s n t e c, A s n t = some (e, c) → 0 < e ∧ e ≤ S1.nDofs := by
    intro s n t e c ha
    have hk : (s, n, t) ∈ regKeys demoCalls := (hp.ready.isSome (s, n, t)).mp (by
      show (A s n t).isSome = true
      rw [ha]; rfl)
    have := hp.ready.num_range hk
    have hn : num A (s, n, t) = e := by unfold num at'; rw [ha]; rfl
    rw [hn] at this
    omega
  have hU : ∀ s n, A s n .UNDEFINED = none := by
    intro s n
    cases ha : A s n .UNDEFINED with
    | none => rfl
    | some p =>
      have hk : (s, n, DofType.UNDEFINED) ∈ regKeys demoCalls := (hp.ready.isSome (s, n, .UNDEFINED)).mp (by
        show (A s n .UNDEFINED).isSome = true
        rw [ha]; rfl)
      obtain ⟨ts, h1, h2⟩ := mem_regKeys.mp hk
      exact absurd h2 (h.legal.setup.proper _ h1)
  refine ⟨⟨{ S1 with vecU := List.replicate S1.nDofs 0, vecR := List.replicate S1.nDofs 0 },
      [⟨0, 0, 0⟩, ⟨1, 0, 0⟩, ⟨2, 0, 0⟩], [⟨.TRUSS3, .LINE, [1, 2]⟩, ⟨.TRUSS3, .LINE, [2, 3]⟩],
      ⟨fun i q => if q = 5 then some (i : ℚ) else none, fun _ _ => none, fun _ _ => none⟩⟩, A,
    ⟨⟨hp.ready.sim.congr rfl rfl rfl rfl, ?_, ?_⟩, ?_, ?_, ?_, ?_, ?_⟩, rfl, rfl, hU, fun n t => hp.ready.isSome (Side.node, n, t), rfl⟩
  · intro s n t e c ha
    have := hrow s n t e c ha
    simpa using this
  · intro s n t e c ha
    have := hrow s n t e c ha
    simpa using this
  · exact hnn.symm
  · exact hel
  · intro e he
    simp only [List.mem_cons, List.not_mem_nil, or_false] at he
    rcases he with rfl | rfl <;> rfl
  · intro e he
    simp only [List.mem_cons, List.not_mem_nil, or_false] at he
    rcases he with rfl | rfl <;> rfl
  · intro e he n hn
    show 0 < n ∧ n ≤ S1.nNodes
    rw [hnn]
    simp only [List.mem_cons, List.not_mem_nil, or_false] at he
    rcases he with rfl | rfl <;>
      · simp only [List.mem_cons, List.not_mem_nil, or_false] at hn
        omega

/-- Hypotheses of `C60_roundtrip`, `C60_setup` and `C74_reveal` hold for the example: the reader gets two lines and a
displacement field, and the query 5 is revealed. -/
example : ∃ (V : View ℚ) (lines : List (List (Tok ℚ))) (D : Data ℚ),
    file V (setUp V ⟨false, [], [], [], [], [], true⟩) = .ok lines ∧ readVtk lines = some D ∧
    D.cells = [[0, 1], [1, 2]] ∧ D.types = [3, 3] ∧ (setUp V ⟨false, [], [], [], [], [], true⟩).useDisp = true ∧
    5 ∈ (setUp V ⟨false, [], [], [], [], [], true⟩).scalarQ := by
  obtain ⟨V, A, h, he, hp, hU, hu, ha⟩ := demo_legal
  obtain ⟨c1, c2, _⟩ := C60_setup h hU (P := ⟨false, [], [], [], [], [], true⟩) (by simp) (by simp) (by simp)
  obtain ⟨lines, l1, l2⟩ := C60_roundtrip h c1
  refine ⟨V, lines, _, l1, l2, by rw [he]; rfl, by rw [he]; rfl,
    c2.mpr ⟨1, .UX, Or.inl rfl, (hu 1 .UX).mpr (by decide)⟩, ?_⟩
  refine ((C74_reveal (V := V) (Rs := fun _ q => q = 5) (Rv := fun _ _ => False) (Rt := fun _ _ => False) ?_ rfl 5).1).mpr
    (Or.inr ⟨by decide, 0, by rw [he]; decide, by rw [ha]; rfl⟩)
  rw [ha]
  refine ⟨?_, ?_, ?_⟩
  · intro j e _ q
    by_cases hq : q = 5 <;> simp [hq]
  · intro j e _ q; simp
  · intro j e _ q; simp

/-- Shapes the factory does not make get no line in CELL_TYPES: with a pyramid in the mesh the reader rejects the file,
whatever the point data are. -/
theorem C60_pyramid (p : Pt ℚ) (n : Nat) (rest : List (List (Tok ℚ))) : ∃ lines,
    geometry (⟨Storage.fresh 5 [[1, 2, 3, 4, 5]] [] false, [p, p, p, p, p],
      [⟨.UNDEFINED, .PYRAMID, [1, 2, 3, 4, 5]⟩], ⟨fun _ _ => none, fun _ _ => none, fun _ _ => none⟩⟩ : View ℚ) false =
      .ok lines ∧ readVtk (header ++ lines ++ [.w "POINT_DATA", .i n] :: rest) = none := by
  refine ⟨_, rfl, ?_⟩
  rfl

end Nla3d.Vtk
