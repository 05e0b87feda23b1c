import Verif.Storage.Setup
import Verif.Block.Props

/-!
# `initSolutionData`: topology and registered entries
-/

namespace Nla3d.Storage

open Nla3d.Dof Nla3d.Block

variable {K : Type}

/-! ## Topology -/

theorem mem_setInsert {x y : Nat} : ∀ {l : List Nat}, y ∈ setInsert x l ↔ y = x ∨ y ∈ l := by
  intro l
  induction l with
  | nil => simp [setInsert]
  | cons z l ih =>
    unfold setInsert
    split
    · simp
    · split
      · rename_i h; subst h; simp
      · simp only [List.mem_cons, ih]; tauto

theorem setInsert_sorted {x : Nat} : ∀ {l : List Nat}, l.Pairwise (· < ·) → (setInsert x l).Pairwise (· < ·) := by
  intro l
  induction l with
  | nil => intro _; simp [setInsert]
  | cons z l ih =>
    intro h
    rw [List.pairwise_cons] at h
    unfold setInsert
    split
    · rename_i hx
      rw [List.pairwise_cons]
      refine ⟨?_, List.pairwise_cons.mpr h⟩
      intro y hy
      rcases List.mem_cons.mp hy with rfl | hy
      · exact hx
      · exact lt_trans hx (h.1 y hy)
    · split
      · exact List.pairwise_cons.mpr h
      · rw [List.pairwise_cons]
        refine ⟨?_, ih h.2⟩
        intro y hy
        rw [mem_setInsert] at hy
        rcases hy with rfl | hy
        · omega
        · exact h.1 y hy

theorem topo_run {N : Nat} : ∀ (ps : List (Nat × Nat)) (T : List (List Nat)), T.length = N →
    (∀ p ∈ ps, 0 < p.2 ∧ p.2 ≤ N) → (∀ s ∈ T, s.Pairwise (· < ·)) →
    ∃ T', Res.foldlM' topoInsert T ps = .ok T' ∧ T'.length = N ∧ (∀ s ∈ T', s.Pairwise (· < ·)) ∧
      ∀ i s', T'[i]? = some s' → ∃ s, T[i]? = some s ∧ ∀ e, e ∈ s' ↔ e ∈ s ∨ (e, i + 1) ∈ ps := by
  intro ps
  induction ps with
  | nil => intro T h _ hs; exact ⟨T, rfl, h, hs, fun i s' h' => ⟨s', h', by simp⟩⟩
  | cons p ps ih =>
    intro T h hp hs
    obtain ⟨en, n⟩ := p
    have hn := hp (en, n) (by simp)
    simp only at hn
    have hlt : n - 1 < T.length := by omega
    have hstep : topoInsert T (en, n) = .ok (T.set (n - 1) (setInsert en T[n - 1])) := by
      unfold topoInsert
      simp only
      rw [if_neg (by omega), Res.read_of_lt hlt]
      rfl
    obtain ⟨T', e1, e2, e3, e4⟩ := ih (T.set (n - 1) (setInsert en T[n - 1])) (by simpa using h)
      (fun q hq => hp q (by simp [hq])) (by
        intro s hs'
        rcases List.mem_or_eq_of_mem_set hs' with h1 | rfl
        · exact hs s h1
        · exact setInsert_sorted (hs _ (List.getElem_mem hlt)))
    refine ⟨T', by rw [Res.foldlM'_cons, hstep]; exact e1, e2, e3, ?_⟩
    intro i s' hi
    obtain ⟨s, f1, f2⟩ := e4 i s' hi
    by_cases hin : i = n - 1
    · subst hin
      rw [List.getElem?_set_self hlt, Option.some.injEq] at f1
      refine ⟨T[n - 1], List.getElem?_eq_getElem hlt, ?_⟩
      intro e
      rw [f2, ← f1, mem_setInsert, List.mem_cons, Prod.mk.injEq, Nat.sub_add_cancel hn.1]
      tauto
    · rw [List.getElem?_set_ne (by omega)] at f1
      refine ⟨s, f1, ?_⟩
      intro e
      rw [f2, List.mem_cons, Prod.mk.injEq]
      have : ¬ (e = en ∧ i + 1 = n) := by omega
      tauto

theorem mem_incidences {els : List (List Nat)} {en n : Nat} :
    (en, n) ∈ incidences els ↔ 0 < en ∧ ∃ ns, els[en - 1]? = some ns ∧ n ∈ ns := by
  unfold incidences
  simp only [List.mem_flatMap, List.mem_map, Prod.mk.injEq, Prod.exists, List.mem_zipIdx_iff_getElem?]
  constructor
  · rintro ⟨ns, i, h1, n', h2, rfl, rfl⟩; exact ⟨by omega, ns, by simpa using h1, h2⟩
  · rintro ⟨h0, ns, h1, h2⟩; exact ⟨ns, en - 1, h1, n, h2, by omega, rfl⟩

/-- Nodes of an element (empty for a number that does not exist). -/
def elNodes (els : List (List Nat)) (en : Nat) : List Nat := if en = 0 then [] else (els[en - 1]?).getD []

theorem mem_incidences' {els : List (List Nat)} {en n : Nat} : (en, n) ∈ incidences els ↔ n ∈ elNodes els en := by
  rw [mem_incidences]
  unfold elNodes
  by_cases h0 : en = 0
  · simp [h0]
  · rw [if_neg h0]
    cases h : els[en - 1]? with
    | none => simp
    | some ns => simp; omega

/-- All node numbers exist. -/
def MeshOk (S : Storage K) : Prop := ∀ ns ∈ S.elements, ∀ n ∈ ns, 0 < n ∧ n ≤ S.nNodes

theorem learnTopology_ok {S : Storage K} (h : MeshOk S) :
    ∃ T, S.learnTopology = .ok { S with topology := T } ∧ T.length = S.nNodes ∧ (∀ s ∈ T, s.Pairwise (· < ·)) ∧
      ∀ n, 0 < n → n ≤ S.nNodes → ∃ s, T[n - 1]? = some s ∧ ∀ e, e ∈ s ↔ n ∈ elNodes S.elements e := by
  obtain ⟨T, e1, e2, e3, e4⟩ := topo_run (N := S.nNodes) (incidences S.elements) (List.replicate S.nNodes []) (by simp) (by
    rintro ⟨en, n⟩ hp
    obtain ⟨_, ns, h1, h2⟩ := mem_incidences.mp hp
    exact h ns (List.mem_of_getElem? h1) n h2) (by
    intro s hs
    rw [List.eq_of_mem_replicate hs]; simp)
  refine ⟨T, ?_, e2, e3, ?_⟩
  · unfold Storage.learnTopology
    rw [e1]; rfl
  · intro n hn hle
    have hlt : n - 1 < T.length := by omega
    obtain ⟨s, f1, f2⟩ := e4 (n - 1) _ (List.getElem?_eq_getElem hlt)
    refine ⟨T[n - 1], List.getElem?_eq_getElem hlt, ?_⟩
    intro e
    rw [List.getElem?_replicate_of_lt (by omega), Option.some.injEq] at f1
    rw [f2, ← f1, Nat.sub_add_cancel hn, mem_incidences']
    simp

/-! ## Registered entries -/

/-- The DoFs of an entity. -/
def ents (S : Storage K) (s : Side) (n : Nat) : List Dof :=
  match (S.tab s).entityDofs n with
  | .ok r => r
  | _ => []

theorem SimS.ents {S : Storage K} {A : Side → Spec} (h : SimS S A) {s : Side} {n : Nat} (hn : 0 < n ∧ n ≤ S.size s) :
    (S.tab s).entityDofs n = .ok (ents S s n) ∧
    ∀ d, d ∈ Storage.ents S s n ↔ at' A (s, n, d.type) = some (d.eq, d.constrained) := by
  obtain ⟨r, h1, _, h3⟩ := (sim_answers (h s)).entity n hn.1 hn.2
  have : Storage.ents S s n = r := by unfold Storage.ents; rw [h1]
  rw [this]
  exact ⟨h1, h3⟩

/-- `f` registers the entries `g` or is fatal because they do not fit. -/
def Adds (sizes : List Nat) (k : Nat) (f : Family K → Res (Family K)) (g : List (Nat × Nat)) : Prop :=
  ∀ F es Q, 0 < Q → Inv1 F sizes k es Q →
    (∃ F', f F = .ok F' ∧ Inv1 F' sizes k (es ++ g) Q) ∨ (¬ Fits sizes k (es ++ g) ∧ f F = .fatal)

theorem Adds.nil {sizes : List Nat} {k : Nat} : Adds sizes k (fun F : Family K => .ok F) [] := by
  intro F es Q _ h
  exact Or.inl ⟨F, rfl, by simpa using h⟩

theorem Adds.seq {sizes : List Nat} {k : Nat} {f f' : Family K → Res (Family K)} {g g' : List (Nat × Nat)}
    (h : Adds sizes k f g) (h' : Adds sizes k f' g') : Adds sizes k (fun F => f F >>= f') (g ++ g') := by
  intro F es Q hQ hF
  rcases h F es Q hQ hF with ⟨F1, e1, e2⟩ | ⟨e1, e2⟩
  · rcases h' F1 _ Q hQ e2 with ⟨F2, e3, e4⟩ | ⟨e3, e4⟩
    · exact Or.inl ⟨F2, by simp only [e1, Res.ok_bind, e3], by simpa using e4⟩
    · exact Or.inr ⟨by simpa using e3, by simp only [e1, Res.ok_bind, e4]⟩
  · refine Or.inr ⟨?_, by simp only [e2, Res.fatal_bind]⟩
    intro hf
    apply e1
    apply Fits.mono _ hf
    intro x hx
    rw [← List.append_assoc]
    exact List.mem_append_left _ hx

theorem Adds.fold {ι : Type} {sizes : List Nat} {k : Nat} {f : Family K → ι → Res (Family K)} {g : ι → List (Nat × Nat)} :
    ∀ (L : List ι), (∀ x ∈ L, Adds sizes k (fun F => f F x) (g x)) →
      Adds sizes k (fun F => Res.foldlM' f F L) (L.flatMap g) := by
  intro L
  induction L with
  | nil => intro _; exact Adds.nil
  | cons x L ih =>
    intro h
    have := (h x (by simp)).seq (ih (fun y hy => h y (by simp [hy])))
    simpa using this

theorem Adds.entry {sizes : List Nat} {k : Nat} [Zero K] (hs : nUpper sizes.length ≤ 65536) {i j : Nat}
    (hi : 0 < i ∧ i ≤ sizes.sum) (hj : 0 < j ∧ j ≤ sizes.sum) :
    Adds sizes k (fun F : Family K => F.addEntry 0 i j) [(i, j)] := by
  intro F es Q hQ hF
  exact step_entry hs hF hQ hi hj

theorem Adds.entries {sizes : List Nat} {k : Nat} [Zero K] (hs : nUpper sizes.length ≤ 65536) {ps : List (Nat × Nat)}
    (hp : ∀ p ∈ ps, (0 < p.1 ∧ p.1 ≤ sizes.sum) ∧ (0 < p.2 ∧ p.2 ≤ sizes.sum)) :
    Adds sizes k (fun F : Family K => addEntries F ps) ps := by
  have := Adds.fold (K := K) (sizes := sizes) (k := k) (f := fun (F : Family K) (p : Nat × Nat) => F.addEntry 0 p.1 p.2)
    (g := fun p => [p]) ps (fun p hp' => Adds.entry hs (hp p hp').1 (hp p hp').2)
  have he : ps.flatMap (fun p => [p]) = ps := by simp
  rw [he] at this
  exact this

theorem Adds.congr {sizes : List Nat} {k : Nat} {f f' : Family K → Res (Family K)} {g : List (Nat × Nat)}
    (h : Adds sizes k f g) (he : ∀ F, f' F = f F) : Adds sizes k f' g := by
  intro F es Q hQ hF
  rw [he]
  exact h F es Q hQ hF

/-- Entries registered for nodes `nn`, `nn2` of an element. -/
def gNode (S : Storage K) (nn nn2 : Nat) : List (Nat × Nat) :=
  if nn2 < nn then [] else eqPairs (ents S .node nn2) (ents S .node nn)

/-- Entries registered for node `nn` and element `en`. -/
def gElem (S : Storage K) (nn en : Nat) : List (Nat × Nat) :=
  eqPairs (ents S .elem en) (ents S .node nn) ++ (elNodes S.elements en).flatMap (gNode S nn)

/-- Entries registered for node `nn`. -/
def gAt (S : Storage K) (nn : Nat) : List (Nat × Nat) := ((S.topology[nn - 1]?).getD []).flatMap (gElem S nn)

/-- Entries registered for the DoFs of element `en` alone. -/
def gOwn (S : Storage K) (en : Nat) : List (Nat × Nat) := eqPairs (ents S .elem en) (ents S .elem en)

/-- Entries registered for an MPC. -/
def gMpc (A : Side → Spec) (m : Mpc K) : List (Nat × Nat) := m.eq.map (fun t => (m.eqNum, num A (.node, t.node, t.dof)))

/-- All registered entries. -/
def gAll (S : Storage K) (A : Side → Spec) : List (Nat × Nat) :=
  ((List.range S.nNodes).map (· + 1)).flatMap (gAt S) ++ (((List.range S.nElements).map (· + 1)).flatMap (gOwn S) ++
    S.mpcs.flatMap (gMpc A))

/-- The state `initSolutionData` is called in, after the topology is known. -/
structure Pre (S : Storage K) (A : Side → Spec) : Prop where
  sim : SimS S A
  mesh : MeshOk S
  dofs : S.nConstr + S.nUnknown = S.nDofs
  range : ∀ k v, at' A k = some v → 0 < v.1 ∧ v.1 ≤ S.nDofs
  topo : ∀ n, 0 < n → n ≤ S.nNodes → ∃ s, S.topology[n - 1]? = some s ∧ ∀ e, e ∈ s ↔ n ∈ elNodes S.elements e
  eqNum : ∀ m ∈ S.mpcs, S.nDofs < m.eqNum ∧ m.eqNum ≤ S.nDofs + S.nMpc
  terms : ∀ m ∈ S.mpcs, m.eq ≠ [] ∧ ∀ t ∈ m.eq, (at' A (.node, t.node, t.dof)).isSome

/-- Block sizes of the global matrix. -/
abbrev bsizes (S : Storage K) : List Nat := [S.nConstr, S.nUnknown + S.nMpc]

theorem mem_ents_range {S : Storage K} {A : Side → Spec} (h : Pre S A) {s : Side} {n : Nat} (hn : 0 < n ∧ n ≤ S.size s)
    {d : Dof} (hd : d ∈ ents S s n) : 0 < d.eq ∧ d.eq ≤ (bsizes S).sum := by
  have := h.range _ _ (((h.sim.ents hn).2 d).mp hd)
  have h2 := h.dofs
  simp only [List.sum_cons, List.sum_nil]
  simp only at this
  omega

theorem eqPairs_range {S : Storage K} {A : Side → Spec} (h : Pre S A) {s s' : Side} {n n' : Nat}
    (hn : 0 < n ∧ n ≤ S.size s) (hn' : 0 < n' ∧ n' ≤ S.size s') :
    ∀ p ∈ eqPairs (ents S s n) (ents S s' n'), (0 < p.1 ∧ p.1 ≤ (bsizes S).sum) ∧ (0 < p.2 ∧ p.2 ≤ (bsizes S).sum) := by
  rintro ⟨i, j⟩ hp
  unfold eqPairs at hp
  simp only [List.mem_flatMap, List.mem_map, Prod.mk.injEq] at hp
  obtain ⟨d1, h1, d2, h2, rfl, rfl⟩ := hp
  exact ⟨mem_ents_range h hn h1, mem_ents_range h hn' h2⟩

theorem hsmall (S : Storage K) : nUpper (bsizes S).length ≤ 65536 := by simp [nUpper]

theorem elNodes_ok {S : Storage K} (h : MeshOk S) {en n : Nat} (hn : n ∈ elNodes S.elements en) :
    (0 < n ∧ n ≤ S.nNodes) ∧ (0 < en ∧ en ≤ S.nElements) ∧ Res.read S.elements (en - 1) = .ok (elNodes S.elements en) := by
  unfold elNodes at hn ⊢
  by_cases h0 : en = 0
  · simp [h0] at hn
  · rw [if_neg h0] at hn ⊢
    cases hh : S.elements[en - 1]? with
    | none => rw [hh] at hn; simp at hn
    | some ns =>
      rw [hh] at hn
      have hlt := (List.getElem?_eq_some_iff.mp hh).1
      refine ⟨h ns (List.mem_of_getElem? hh) n hn, ⟨by omega, ?_⟩, Res.read_eq_ok.mpr (by rw [hh]; rfl)⟩
      unfold Storage.nElements
      omega

theorem adds_node [Zero K] {S : Storage K} {A : Side → Spec} (h : Pre S A) {nn nn2 : Nat}
    (hn : 0 < nn ∧ nn ≤ S.nNodes) (hn2 : 0 < nn2 ∧ nn2 ≤ S.nNodes) :
    Adds (bsizes S) 100 (fun F => S.entriesNode nn (ents S .node nn) F nn2) (gNode S nn nn2) := by
  unfold gNode
  by_cases hlt : nn2 < nn
  · rw [if_pos hlt]
    exact Adds.nil.congr (fun F => by unfold Storage.entriesNode; rw [if_pos hlt])
  · rw [if_neg hlt]
    refine (Adds.entries (hsmall S) (eqPairs_range h (s := .node) (s' := .node) hn2 hn)).congr (fun F => ?_)
    unfold Storage.entriesNode
    rw [if_neg hlt]
    have := (h.sim.ents (s := .node) (n := nn2) hn2).1
    simp only [Storage.tab] at this
    rw [this]; rfl

theorem adds_elem [Zero K] {S : Storage K} {A : Side → Spec} (h : Pre S A) {nn en : Nat}
    (hn : 0 < nn ∧ nn ≤ S.nNodes) (hen : nn ∈ elNodes S.elements en) :
    Adds (bsizes S) 100 (fun F => S.entriesElem nn (ents S .node nn) F en) (gElem S nn en) := by
  obtain ⟨_, he, hread⟩ := elNodes_ok h.mesh hen
  unfold gElem
  refine ((Adds.entries (hsmall S) (eqPairs_range h (s := .elem) (s' := .node) he hn)).seq
    (Adds.fold (f := S.entriesNode nn (ents S .node nn)) (g := gNode S nn) (elNodes S.elements en) (fun n2 hn2 =>
      adds_node h hn (elNodes_ok h.mesh hn2).1))).congr (fun F => ?_)
  unfold Storage.entriesElem
  have := (h.sim.ents (s := .elem) (n := en) he).1
  simp only [Storage.tab] at this
  rw [this, hread]
  rfl

theorem adds_at [Zero K] {S : Storage K} {A : Side → Spec} (h : Pre S A) {nn : Nat} (hn : 0 < nn ∧ nn ≤ S.nNodes) :
    Adds (bsizes S) 100 (fun F => S.entriesAt F nn) (gAt S nn) := by
  obtain ⟨s, h1, h2⟩ := h.topo nn hn.1 hn.2
  unfold gAt
  rw [h1]
  simp only [Option.getD_some]
  refine (Adds.fold (f := S.entriesElem nn (ents S .node nn)) (g := gElem S nn) s (fun e he =>
    adds_elem h hn ((h2 e).mp he))).congr (fun F => ?_)
  unfold Storage.entriesAt
  have := (h.sim.ents (s := .node) (n := nn) hn).1
  simp only [Storage.tab] at this
  rw [this, Res.ok_bind, Res.read_eq_ok.mpr h1]
  rfl

theorem adds_own [Zero K] {S : Storage K} {A : Side → Spec} (h : Pre S A) {en : Nat} (hn : 0 < en ∧ en ≤ S.nElements) :
    Adds (bsizes S) 100 (fun F => S.entriesOwn F en) (gOwn S en) := by
  refine (Adds.entries (hsmall S) (eqPairs_range h (s := .elem) (s' := .elem) hn hn)).congr (fun F => ?_)
  unfold Storage.entriesOwn
  have := (h.sim.ents (s := .elem) (n := en) hn).1
  simp only [Storage.tab] at this
  rw [this]; rfl

theorem num_eq {A : Side → Spec} {k : Key} {v : Nat × Bool} (h : at' A k = some v) : num A k = v.1 := by
  unfold num; rw [h]; rfl

theorem eqNumber_num {S : Storage K} {A : Side → Spec} (h : SimS S A) {s : Side} {n : Nat} {t : DofType}
    (hk : (at' A (s, n, t)).isSome) : S.eqNumber s n t = .ok (num A (s, n, t)) := by
  obtain ⟨⟨e, c⟩, hv⟩ := Option.isSome_iff_exists.mp hk
  rw [num_eq hv]
  exact h.eqNumber hv

theorem adds_mpc [Zero K] {S : Storage K} {A : Side → Spec} (h : Pre S A) {m : Mpc K} (hm : m ∈ S.mpcs) :
    Adds (bsizes S) 100 (fun F => S.entriesMpc F m) (gMpc A m) := by
  obtain ⟨t1, t2⟩ := h.terms m hm
  have hq := h.eqNum m hm
  have hd := h.dofs
  have := Adds.fold (K := K) (sizes := bsizes S) (k := 100) (f := S.entryTerm m.eqNum)
    (g := fun t => [(m.eqNum, num A (.node, t.node, t.dof))]) m.eq (fun t ht => by
      obtain ⟨v, hv⟩ := Option.isSome_iff_exists.mp (t2 t ht)
      have hr := h.range _ _ hv
      have hsum : (bsizes S).sum = S.nDofs + S.nMpc := by simp only [List.sum_cons, List.sum_nil]; omega
      rw [num_eq hv]
      refine (Adds.entry (K := K) (hsmall S) (i := m.eqNum) (j := v.1) (by omega) (by omega)).congr (fun F => ?_)
      unfold Storage.entryTerm
      rw [eqNumber_num h.sim (t2 t ht), num_eq hv]
      simp only [Res.ok_bind]
      rw [if_pos (by omega)])
  unfold gMpc
  rw [show m.eq.map (fun t => (m.eqNum, num A (.node, t.node, t.dof))) =
    m.eq.flatMap (fun t => [(m.eqNum, num A (.node, t.node, t.dof))]) from List.map_eq_flatMap]
  refine this.congr (fun F => ?_)
  unfold Storage.entriesMpc
  rw [if_neg t1]

theorem adds_all [Zero K] {S : Storage K} {A : Side → Spec} (h : Pre S A) :
    Adds (bsizes S) 100 (fun F => S.entriesAll F) (gAll S A) := by
  unfold gAll
  refine ((Adds.fold (f := S.entriesAt) (g := gAt S) ((List.range S.nNodes).map (· + 1)) (fun n hn => by
      simp only [List.mem_map, List.mem_range] at hn
      obtain ⟨a, ha, rfl⟩ := hn
      exact adds_at h ⟨by omega, by omega⟩)).seq
    ((Adds.fold (f := S.entriesOwn) (g := gOwn S) ((List.range S.nElements).map (· + 1)) (fun n hn => by
      simp only [List.mem_map, List.mem_range] at hn
      obtain ⟨a, ha, rfl⟩ := hn
      exact adds_own h ⟨by omega, by omega⟩)).seq
    (Adds.fold (f := S.entriesMpc) (g := gMpc A) S.mpcs (fun m hm => adds_mpc h hm)))).congr (fun F => ?_)
  unfold Storage.entriesAll
  rfl

/-- Number of matrices. -/
def Storage.nMats (S : Storage K) : Nat := if S.transient then 3 else 1

theorem newMats_ok [Zero K] {S : Storage K} (hsz : ∀ n ∈ bsizes S, n < Sparse.invalid) :
    ∃ F, S.newMats = .ok F ∧ Inv1 F (bsizes S) 100 [] S.nMats := by
  obtain ⟨F, e1, e2⟩ := create_ok (K := K) (sizes := bsizes S) (k := 100) (hsmall S) (by omega) hsz
  unfold Storage.newMats Storage.nMats
  rw [show Family.create [S.nConstr, S.nUnknown + S.nMpc] 100 = Res.ok F from e1]
  simp only [Res.ok_bind]
  by_cases ht : S.transient
  · rw [if_pos ht, if_pos ht]
    obtain ⟨F1, f1, f2⟩ := step_copy1 (q := 0) (hsmall S) e2 (by omega)
    obtain ⟨F2, g1, g2⟩ := step_copy1 (q := 0) (hsmall S) f2 (by omega)
    rw [f1]
    exact ⟨F2, g1, g2⟩
  · rw [if_neg ht, if_neg ht]
    exact ⟨F, rfl, e2⟩

/-- Topology and zero vectors in place. -/
def Storage.prep [Zero K] (S : Storage K) (T : List (List Nat)) : Storage K :=
  { S with topology := T, vecU := List.replicate (S.nDofs + S.nMpc) 0, vecR := List.replicate (S.nDofs + S.nMpc) 0,
           vecF := List.replicate (S.nDofs + S.nMpc) 0 }

/-- Matrices in place. -/
def Storage.withMat (S : Storage K) (F : Family K) : Storage K := { S with mat := some F }

/-- `initSolutionData`: it succeeds exactly when the entries fit into the rows; then the storage has compressed, zero
matrices with these entries. -/
theorem initSolution_cases [AddMonoid K] {S : Storage K} {A : Side → Spec} {T : List (List Nat)}
    (t1 : S.learnTopology = .ok { S with topology := T }) (h : Pre (S.prep T) A)
    (hsz : ∀ n ∈ bsizes S, n < Sparse.invalid) :
    (Fits (bsizes S) 100 (gAll (S.prep T) A) ∧ ∃ F, S.initSolution = .ok ((S.prep T).withMat F) ∧
        Inv3 F (bsizes S) (gAll (S.prep T) A) (List.replicate S.nMats []) S.nMats) ∨
      (¬ Fits (bsizes S) 100 (gAll (S.prep T) A) ∧ S.initSolution = .fatal) := by
  obtain ⟨F0, n1, n2⟩ := newMats_ok (S := { S with topology := T }) hsz
  have hQ : 0 < S.nMats := by unfold Storage.nMats; split <;> omega
  have hinit : S.initSolution = ((S.prep T).entriesAll F0 >>= fun F => F.compress 0 >>= fun F =>
      if S.transient then do
        let F ← F.compress 1
        let F ← F.compress 2
        .ok ((S.prep T).withMat F)
      else .ok ((S.prep T).withMat F)) := by
    unfold Storage.initSolution
    rw [t1]
    simp only [Res.ok_bind]
    rw [n1]
    rfl
  rcases adds_all h F0 [] S.nMats hQ n2 with ⟨F1, e1, e2⟩ | ⟨e1, e2⟩
  · rw [List.nil_append] at e2
    left
    refine ⟨e2.fits, ?_⟩
    obtain ⟨F2, p1, p2⟩ := phase2 (hsmall S) e2 hQ
    refine ⟨F2, ?_, p2⟩
    rw [hinit]
    simp only at e1
    rw [e1]
    simp only [Res.ok_bind]
    unfold Storage.nMats at p1
    by_cases ht : S.transient
    · simp only [ht, if_true] at p1 ⊢
      simp only [List.range_succ, List.range_zero, List.nil_append, List.cons_append, Res.foldlM'_cons,
        Res.foldlM'_nil, Res.bind_eq_ok] at p1
      obtain ⟨a, p1, b, p2', c, p3, p4⟩ := p1
      rw [Res.ok.injEq] at p4
      rw [p1, Res.ok_bind, p2', Res.ok_bind, p3, p4]
      rfl
    · simp only [ht, Bool.false_eq_true, if_false] at p1 ⊢
      simp only [List.range_succ, List.range_zero, List.nil_append, Res.foldlM'_cons,
        Res.foldlM'_nil, Res.bind_eq_ok] at p1
      obtain ⟨a, p1, p4⟩ := p1
      rw [Res.ok.injEq] at p4
      rw [p1, p4]
      rfl
  · right
    rw [List.nil_append] at e1
    refine ⟨e1, ?_⟩
    rw [hinit]
    simp only at e2
    rw [e2]
    rfl

/-! ## Coverage -/

/-- The DoF belongs to element `en` or to one of its nodes. -/
def Attached (els : List (List Nat)) (en : Nat) (k : Key) : Prop :=
  match k with
  | (.elem, n, _) => n = en
  | (.node, n, _) => n ∈ elNodes els en

theorem mem_eqPairs {l1 l2 : List Dof} {d1 d2 : Dof} (h1 : d1 ∈ l1) (h2 : d2 ∈ l2) : (d1.eq, d2.eq) ∈ eqPairs l1 l2 := by
  unfold eqPairs
  simp only [List.mem_flatMap, List.mem_map, Prod.mk.injEq]
  exact ⟨d1, h1, d2, h2, rfl, rfl⟩

theorem mem_ents_of_key {S : Storage K} {A : Side → Spec} (h : Pre S A) {s : Side} {n : Nat} {t : DofType}
    (hk : (at' A (s, n, t)).isSome) : (0 < n ∧ n ≤ S.size s) ∧ ∃ d ∈ ents S s n, d.eq = num A (s, n, t) := by
  obtain ⟨v, hv⟩ := Option.isSome_iff_exists.mp hk
  have hr := sim_range (h.sim s) (n := n) (t := t) (by simp only [at'] at hk; exact hk)
  refine ⟨hr, ⟨v.1, v.2, t⟩, ((h.sim.ents hr).2 _).mpr hv, ?_⟩
  rw [num_eq hv]

theorem cover_at {S : Storage K} {A : Side → Spec} (h : Pre S A) {en n : Nat} (hn : n ∈ elNodes S.elements en)
    {p : Nat × Nat} (hp : p ∈ gElem S n en) : p ∈ gAll S A := by
  obtain ⟨hr, _, _⟩ := elNodes_ok h.mesh hn
  obtain ⟨s, h1, h2⟩ := h.topo n hr.1 hr.2
  unfold gAll
  refine List.mem_append_left _ (List.mem_flatMap.mpr ⟨n, ?_, ?_⟩)
  · simp only [List.mem_map, List.mem_range]
    exact ⟨n - 1, by omega, by omega⟩
  · unfold gAt
    rw [h1]
    exact List.mem_flatMap.mpr ⟨en, (h2 en).mpr hn, hp⟩

theorem cover_pair {S : Storage K} {A : Side → Spec} (h : Pre S A) {en : Nat} {k1 k2 : Key}
    (h1 : (at' A k1).isSome) (h2 : (at' A k2).isSome) (a1 : Attached S.elements en k1) (a2 : Attached S.elements en k2) :
    Reg (gAll S A) (num A k1) (num A k2) := by
  obtain ⟨s1, n1, t1⟩ := k1
  obtain ⟨s2, n2, t2⟩ := k2
  obtain ⟨r1, d1, m1, q1⟩ := mem_ents_of_key h h1
  obtain ⟨r2, d2, m2, q2⟩ := mem_ents_of_key h h2
  rw [← q1, ← q2]
  have elemNode : ∀ (n : Nat) (d d' : Dof), d ∈ ents S .elem en → d' ∈ ents S .node n → n ∈ elNodes S.elements en →
      (d.eq, d'.eq) ∈ gAll S A := fun n d d' hd hd' hn => cover_at h hn (by
        unfold gElem; exact List.mem_append_left _ (mem_eqPairs hd hd'))
  have nodeNode : ∀ (n n' : Nat) (d d' : Dof), n ≤ n' → d ∈ ents S .node n' → d' ∈ ents S .node n →
      n ∈ elNodes S.elements en → n' ∈ elNodes S.elements en → (d.eq, d'.eq) ∈ gAll S A :=
    fun n n' d d' hle hd hd' hn hn' => cover_at h hn (by
      unfold gElem
      refine List.mem_append_right _ (List.mem_flatMap.mpr ⟨n', hn', ?_⟩)
      unfold gNode
      rw [if_neg (by omega)]
      exact mem_eqPairs hd hd')
  cases s1 <;> cases s2 <;> simp only [Attached] at a1 a2
  · subst a1; subst a2
    left
    unfold gAll
    refine List.mem_append_right _ (List.mem_append_left _ (List.mem_flatMap.mpr ⟨n2, ?_, mem_eqPairs m1 m2⟩))
    simp only [List.mem_map, List.mem_range]
    exact ⟨n2 - 1, by simp only [Storage.size] at r1; omega, by omega⟩
  · subst a1
    exact Or.inl (elemNode n2 d1 d2 m1 m2 a2)
  · subst a2
    exact Or.inr (elemNode n1 d2 d1 m2 m1 a1)
  · rcases Nat.le_total n1 n2 with hle | hle
    · exact Or.inr (nodeNode n1 n2 d2 d1 hle m2 m1 a1 a2)
    · exact Or.inl (nodeNode n2 n1 d1 d2 hle m1 m2 a2 a1)

theorem cover_mpc {S : Storage K} {A : Side → Spec} {m : Mpc K} (hm : m ∈ S.mpcs) {t : MpcTerm K} (ht : t ∈ m.eq) :
    Reg (gAll S A) m.eqNum (num A (.node, t.node, t.dof)) := by
  left
  unfold gAll
  refine List.mem_append_right _ (List.mem_append_right _ (List.mem_flatMap.mpr ⟨m, hm, ?_⟩))
  unfold gMpc
  exact List.mem_map.mpr ⟨t, ht, rfl⟩

end Nla3d.Storage
