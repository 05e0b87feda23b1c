import Verif.Newton.Model
import Verif.Mixed.Props
import Verif.Solver.Setting

/-!
# Model of the hyperelastic elements as the elements of a solver

`buildK` of an element as the list of additions it makes to the global matrix and vector, in their order, and `updateResults` as a
function of the state of all elements. This is the form in which the models of the solvers take elements.
-/

namespace Nla3d.Newton

open Nla3d.Storage Nla3d.Dof Nla3d.Iso Nla3d.Hyper Nla3d.Material Nla3d.Mixed Nla3d.Solver

noncomputable section

/-- The number of the equation of a DoF, as `getNodeEqNumber` and `getElementEqNumber` give it. src/lib/FEStorage.h:602-609
Simplification: 0 where they fail; the additions are only used for elements whose DoFs are registered. -/
def eqAt (S : Storage ℝ) (k : Key) : Nat :=
  match S.eqNumber k.1 k.2.1 k.2.2 with
  | .ok i => i
  | _ => 0

/-- The additions of `assemble3`: matrix `Kuu`, border, `Kpp`, then `Fu`, `Fp`. src/lib/elements/SOLID81.h:55-94 -/
def hexAdds (eq : Nat → Nat) (s : Sys81) : List (Contrib ℝ) :=
  List.zipWith (fun p x => .mat .K (eq p.1) (eq p.2) x) (packed 24 ++ border 24 ++ [(24, 24)]) (s.Kuu ++ s.Kup ++ [s.Kpp]) ++
  List.zipWith (fun a x => .load (eq a) x) (List.range 25) (s.Fu ++ [s.Fp])

/-- The additions of `assembleK` of PLANE41. src/lib/elements/PLANE41.h:55-97 -/
def planeAdds (eq : Nat → Nat) (s : (Fin 9 → Fin 9 → ℝ) × (Fin 9 → ℝ)) : List (Contrib ℝ) :=
  adds eq (ext s.1) (planePairs ++ border 8 ++ [(8, 8)]) ++ (List.range 9).map (fun a => .load (eq a) (extV s.2 a))

/-- The additions of `buildK` of an element. src/lib/elements/SOLID81.cpp:29-82, src/lib/elements/PLANE41.cpp:31-104
Simplification: none where `buildK` fails before the assembly; that it does not fail is proved with the properties. -/
def El.adds (S : Storage ℝ) : El → List (Contrib ℝ)
  | .hex e =>
    match (do
      let p ← Post.solution S .elem e.en .HYDRO_PRESSURE
      solidK e.E e.k e.g e.pts p) with
    | .ok s => hexAdds (fun a => eqAt S (mixedKey (List.ofFn e.nodes) solidDofs e.en a)) s
    | _ => []
  | .plane e =>
    match (do
      let p ← Post.solution S .elem e.en .HYDRO_PRESSURE
      planeK e.E e.k e.g e.pts p) with
    | .ok s => planeAdds (fun a => eqAt S (mixedKey (List.ofFn e.nodes) planeDofs e.en a)) s
    | _ => []

/-- The same element, with any state at its integration points. -/
def El.Kin : El → El → Prop
  | .hex e, .hex e' => ∃ pts, e' = { e with pts := pts }
  | .plane e, .plane e' => ∃ pts, e' = { e with pts := pts }
  | _, _ => False

theorem El.Kin.refl (e : El) : El.Kin e e := by
  cases e with
  | hex e => exact ⟨e.pts, rfl⟩
  | plane e => exact ⟨e.pts, rfl⟩

theorem El.Kin.trans {a b c : El} (h1 : El.Kin a b) (h2 : El.Kin b c) : El.Kin a c := by
  cases a <;> cases b <;> cases c <;> try first | exact h1.elim | exact h2.elim
  · obtain ⟨p, rfl⟩ := h1
    obtain ⟨q, rfl⟩ := h2
    exact ⟨q, rfl⟩
  · obtain ⟨p, rfl⟩ := h1
    obtain ⟨q, rfl⟩ := h2
    exact ⟨q, rfl⟩

theorem update_kin {S : Storage ℝ} {e e' : El} (h : update S e = .ok e') : El.Kin e e' := by
  cases e with
  | hex e =>
    unfold update at h
    obtain ⟨U, _, h⟩ := Res.bind_eq_ok.mp h
    obtain ⟨p, _, h⟩ := Res.bind_eq_ok.mp h
    obtain ⟨pts, _, h⟩ := Res.bind_eq_ok.mp h
    rw [Res.ok.injEq] at h
    subst h
    exact ⟨pts, rfl⟩
  | plane e =>
    unfold update at h
    obtain ⟨U, _, h⟩ := Res.bind_eq_ok.mp h
    obtain ⟨p, _, h⟩ := Res.bind_eq_ok.mp h
    obtain ⟨pts, _, h⟩ := Res.bind_eq_ok.mp h
    rw [Res.ok.injEq] at h
    subst h
    exact ⟨pts, rfl⟩

theorem updateAll_kin {S : Storage ℝ} : ∀ {l acc l' : List El}, Res.foldlM' (fun l e => do
      let e ← update S e
      .ok (l ++ [e])) acc l = .ok l' → ∃ l2, l' = acc ++ l2 ∧ List.Forall₂ El.Kin l l2 := by
  intro l
  induction l with
  | nil =>
    intro acc l' h
    rw [Res.foldlM'_nil, Res.ok.injEq] at h
    exact ⟨[], by simp [h], .nil⟩
  | cons e l ih =>
    intro acc l' h
    rw [Res.foldlM'_cons] at h
    obtain ⟨a, h1, h2⟩ := Res.bind_eq_ok.mp h
    obtain ⟨e', h3, h4⟩ := Res.bind_eq_ok.mp h1
    rw [Res.ok.injEq] at h4
    subst h4
    obtain ⟨l2, h5, h6⟩ := ih h2
    exact ⟨e' :: l2, by rw [h5]; simp, .cons (update_kin h3) h6⟩

theorem kin_trans : ∀ {a b c : List El}, List.Forall₂ El.Kin a b → List.Forall₂ El.Kin b c → List.Forall₂ El.Kin a c := by
  intro a b c h1
  induction h1 generalizing c with
  | nil => intro h2; cases h2; exact .nil
  | cons h _ ih =>
    intro h2
    cases h2 with
    | cons g g2 => exact .cons (h.trans g) (ih g2)

/-- The elements of a model with any states at their integration points. -/
def Group (els : List El) : Type := {l : List El // List.Forall₂ El.Kin els l}

/-- The elements as they are given. -/
def Group.given (els : List El) : Group els :=
  ⟨els, List.forall₂_same.mpr fun e _ => El.Kin.refl e⟩

/-- `updateResults`. src/lib/FEStorage.cpp:571-577
Simplification: no change where an update fails; that it does not fail is proved with the properties. -/
def Group.update {els : List El} (e : Group els) (S : Storage ℝ) : Group els :=
  match h : updateAll S e.1 with
  | .ok l => ⟨l, by
      unfold updateAll at h
      obtain ⟨l2, h1, h2⟩ := updateAll_kin h
      rw [List.nil_append] at h1
      rw [h1]
      exact kin_trans e.2 h2⟩
  | _ => e

theorem Group.update_val {els : List El} {e : Group els} {S : Storage ℝ} {l : List El} (h : updateAll S e.1 = .ok l) :
    (e.update S).1 = l := by
  unfold Group.update
  split
  · next l' h' => rw [h, Res.ok.injEq] at h'; exact h'.symm
  · next h' => exact absurd h (h' l)

/-- The hyperelastic elements as the elements of a solver. `upd` is what the MPC collections do. src/lib/FEStorage.cpp:26-62, 571-577 -/
def hyper (els : List El) (upd : Group els → Storage ℝ → List (Mpc ℝ) → List (Mpc ℝ)) : Elems (Group els) ℝ where
  build e S := e.1.flatMap (El.adds S)
  upd := upd
  cm _ _ := []
  update := Group.update

/-! ## Storages with the same numbering -/

theorem Alike.number {S1 S : Storage ℝ} (h : Alike S1 S) (s : Side) (n : Nat) (t : DofType) : S.eqNumber s n t = S1.eqNumber s n t := by
  rw [show S = _ from h]
  cases s <;> rfl

theorem solution_alike {S1 S : Storage ℝ} (h : Alike S1 S) (s : Side) (n : Nat) (t : DofType) :
    Post.solution S s n t = Post.solution { S1 with vecU := S.vecU } s n t := by
  unfold Post.solution
  rw [Alike.number h]
  cases s <;> rfl

theorem eqAt_alike {S1 S : Storage ℝ} (h : Alike S1 S) (k : Key) : eqAt S k = eqAt { S1 with vecU := S.vecU } k := by
  unfold eqAt
  rw [Alike.number h]
  obtain ⟨s, n, t⟩ := k
  cases s <;> rfl

theorem adds_alike {S1 S : Storage ℝ} (h : Alike S1 S) (e : El) : El.adds S e = El.adds { S1 with vecU := S.vecU } e := by
  cases e with
  | hex e =>
    unfold El.adds
    simp only [solution_alike h, eqAt_alike h]
  | plane e =>
    unfold El.adds
    simp only [solution_alike h, eqAt_alike h]

theorem update_alike {S1 S : Storage ℝ} (h : Alike S1 S) (e : El) : update S e = update { S1 with vecU := S.vecU } e := by
  cases e with
  | hex e =>
    unfold update readU
    simp only [solution_alike h]
  | plane e =>
    unfold update readU
    simp only [solution_alike h]

theorem updateAll_alike {S1 S : Storage ℝ} (h : Alike S1 S) (l : List El) : updateAll S l = updateAll { S1 with vecU := S.vecU } l := by
  unfold updateAll
  simp only [update_alike h]

/-! ## The additions -/

/-- Each unordered pair once. -/
theorem solid_norm (n : Nat) : ((packed n ++ border n ++ [(n, n)]).map Mixed.norm).Perm (packed (n + 1)) := by
  have : (packed n ++ border n ++ [(n, n)]).map Mixed.norm = packed n ++ border n ++ [(n, n)] := by
    conv_rhs => rw [← List.map_id (packed n ++ border n ++ [(n, n)])]
    apply List.map_congr_left
    rintro ⟨a, b⟩ hp
    have := mem_packed.mp ((solid_perm n).subset hp)
    unfold Mixed.norm
    rw [if_pos this.1]
    rfl
  rw [this]
  exact solid_perm n

theorem mixed_sums {eq : Nat → Nat} {Ke : Nat → Nat → ℝ} (Fe : Nat → ℝ) {m : Nat} (hinj : ∀ a < m, ∀ b < m, eq a = eq b → a = b)
    (hsym : ∀ a < m, ∀ b < m, Ke a b = Ke b a) {L : List (Nat × Nat)} (hL : (L.map Mixed.norm).Perm (packed m)) (i j : Nat) :
    matSum 0 i j (adds eq Ke L ++ (List.range m).map (fun a => .load (eq a) (Fe a))) = scatter m eq Ke i j ∧
    loadSum i (adds eq Ke L ++ (List.range m).map (fun a => .load (eq a) (Fe a))) = scatterV m eq Fe i := by
  have hLm : ∀ p ∈ L, p.1 < m ∧ p.2 < m := by
    intro p hpL
    have : Mixed.norm p ∈ packed m := hL.subset (List.mem_map.mpr ⟨p, hpL, rfl⟩)
    unfold Mixed.norm at this
    split at this
    · have := mem_packed.mp this; omega
    · have := mem_packed.mp this; omega
  constructor
  · rw [matSum_append, matSum_norm _ _ _ _ L (fun p hpL => hsym _ (hLm p hpL).1 _ (hLm p hpL).2), matSum_perm _ _ _ _ _ hL]
    have e0 : matSum 0 i j ((List.range m).map (fun a => Contrib.load (eq a) (Fe a))) = 0 := matSum_load 0 i j eq Fe m
    have e2 : adds eq Ke (packed m) = elemContribs .K eq Ke m := rfl
    rw [e0, add_zero, e2, matSum_scatter (q := 0) (w := .K) hinj hsym rfl]
    rfl
  · rw [loadSum_append, loadSum_adds, zero_add]
    exact loadSum_load i eq Fe m

theorem bordered_lists (n : Nat) (Kuu : Nat → Nat → ℝ) (Kup : Nat → ℝ) (Kpp : ℝ) (Fu : Nat → ℝ) (Fp : ℝ) :
    (packed n).map (fun p => Kuu p.1 p.2) = (packed n).map (fun p => bordered n Kuu Kup Kpp p.1 p.2) ∧
    (List.range n).map Kup = (List.range n).map (fun a => bordered n Kuu Kup Kpp a n) ∧
    Kpp = bordered n Kuu Kup Kpp n n ∧ (List.range n).map Fu = (List.range n).map (extended n Fu Fp) ∧ Fp = extended n Fu Fp n := by
  refine ⟨?_, ?_, ?_, ?_, ?_⟩
  · apply List.map_congr_left
    rintro ⟨a, b⟩ hp
    have := mem_packed.mp hp
    simp only [bordered]
    rw [if_pos (by omega), if_pos this.2]
  · apply List.map_congr_left
    intro a ha
    rw [List.mem_range] at ha
    simp only [bordered]
    rw [if_pos ha, if_neg (by omega)]
  · unfold bordered; rw [if_neg (by omega), if_neg (by omega)]
  · apply List.map_congr_left
    intro a ha
    rw [List.mem_range] at ha
    unfold extended
    rw [if_pos ha]
  · unfold extended; rw [if_neg (by omega)]

theorem zip_map {α β γ : Type} (f : α → β → γ) (g : α → β) : ∀ l : List α, List.zipWith f l (l.map g) = l.map (fun x => f x (g x)) := by
  intro l
  induction l with
  | nil => rfl
  | cons x l ih => rw [List.map_cons, List.zipWith_cons_cons, ih, List.map_cons]

/-- The additions of `assemble3` are those of the bordered matrix and vector. -/
theorem hexAdds_eq (eq : Nat → Nat) (Kuu : Nat → Nat → ℝ) (Kup : Nat → ℝ) (Kpp : ℝ) (Fu : Nat → ℝ) (Fp : ℝ) :
    hexAdds eq ⟨(packed 24).map (fun p : Nat × Nat => Kuu p.1 p.2), (List.range 24).map Kup, Kpp, (List.range 24).map Fu, Fp⟩ =
    adds eq (bordered 24 Kuu Kup Kpp) (packed 24 ++ border 24 ++ [(24, 24)]) ++
      (List.range 25).map (fun a => .load (eq a) (extended 24 Fu Fp a)) := by
  obtain ⟨c1, c2, c3, c4, c5⟩ := bordered_lists 24 Kuu Kup Kpp Fu Fp
  have e1 : (packed 24).map (fun p => Kuu p.1 p.2) ++ (List.range 24).map Kup ++ [Kpp] =
      (packed 24 ++ border 24 ++ [(24, 24)]).map (fun p : Nat × Nat => bordered 24 Kuu Kup Kpp p.1 p.2) := by
    rw [List.map_append, List.map_append, c1, c2]
    unfold border
    rw [List.map_map]
    conv_lhs => rw [c3]
    rfl
  have e2 : (List.range 24).map Fu ++ [Fp] = (List.range 25).map (extended 24 Fu Fp) := by
    rw [c4]
    conv_lhs => rw [c5]
    rw [List.range_succ, List.map_append]
    rfl
  unfold hexAdds
  simp only
  rw [e1, e2, zip_map, zip_map]
  rfl

theorem eqAt_num {S : Storage ℝ} {num : Key → Nat} {k : Key} (h : S.eqNumber k.1 k.2.1 k.2.2 = .ok (num k)) : eqAt S k = num k := by
  unfold eqAt
  rw [h]

/-- Additions at the DoFs of an element. -/
theorem adds_legal {S1 : Storage ℝ} {regs : List Key} {num : Key → Nat} {en : Nat} {nodes : List Nat} {dofs : List DofType}
    (ho : OnMixed S1 regs en nodes dofs) {eq : Nat → Nat} (heq : ∀ a, eq a = num (mixedKey nodes dofs en a)) {c : Contrib ℝ}
    (hc : (∃ a b x, c = .mat .K (eq a) (eq b) x) ∨ ∃ a x, c = .load (eq a) x) : ElemContrib S1 regs num c := by
  rcases hc with ⟨a, b, x, rfl⟩ | ⟨a, x, rfl⟩
  · exact ⟨Or.inl rfl, en, _, _, (mixedKey_mem ho a).1, (mixedKey_mem ho b).1, (mixedKey_mem ho a).2, (mixedKey_mem ho b).2,
      heq a, heq b⟩
  · exact ⟨_, (mixedKey_mem ho a).1, heq a⟩

theorem mem_zipWith {α β γ : Type} {f : α → β → γ} {c : γ} : ∀ {l : List α} {l' : List β}, c ∈ List.zipWith f l l' →
    ∃ a b, c = f a b := by
  intro l
  induction l with
  | nil => intro l' h; simp at h
  | cons x l ih =>
    intro l' h
    cases l' with
    | nil => simp at h
    | cons y l' =>
      rw [List.zipWith_cons_cons, List.mem_cons] at h
      rcases h with h | h
      · exact ⟨x, y, h⟩
      · exact ih h

/-- The DoFs of an element are registered. -/
def El.Placed (S : Storage ℝ) (regs : List Key) : El → Prop
  | .hex e => OnMixed S regs e.en (List.ofFn e.nodes) solidDofs
  | .plane e => OnMixed S regs e.en (List.ofFn e.nodes) planeDofs

theorem El.Placed.kin {S : Storage ℝ} {regs : List Key} {e e' : El} (h : e.Placed S regs) (hk : El.Kin e e') : e'.Placed S regs := by
  cases e <;> cases e' <;> try exact hk.elim
  · obtain ⟨p, rfl⟩ := hk
    exact h
  · obtain ⟨p, rfl⟩ := hk
    exact h

theorem el_legal {S1 S : Storage ℝ} {regs : List Key} {num : Key → Nat} (hn : ∀ k ∈ regs, S.eqNumber k.1 k.2.1 k.2.2 = .ok (num k))
    {e : El} (he : e.Placed S1 regs) : ∀ c ∈ El.adds S e, ElemContrib S1 regs num c := by
  intro c hc
  cases e with
  | hex e =>
    have heq : ∀ a, eqAt S (mixedKey (List.ofFn e.nodes) solidDofs e.en a) = num (mixedKey (List.ofFn e.nodes) solidDofs e.en a) :=
      fun a => eqAt_num (hn _ (mixedKey_mem he a).1)
    refine adds_legal he heq ?_
    simp only [El.adds] at hc
    split at hc
    · unfold hexAdds at hc
      rcases List.mem_append.mp hc with hc | hc
      · obtain ⟨p, x, rfl⟩ := mem_zipWith hc
        exact Or.inl ⟨_, _, _, rfl⟩
      · obtain ⟨p, x, rfl⟩ := mem_zipWith hc
        exact Or.inr ⟨_, _, rfl⟩
    · simp at hc
  | plane e =>
    have heq : ∀ a, eqAt S (mixedKey (List.ofFn e.nodes) planeDofs e.en a) = num (mixedKey (List.ofFn e.nodes) planeDofs e.en a) :=
      fun a => eqAt_num (hn _ (mixedKey_mem he a).1)
    refine adds_legal he heq ?_
    simp only [El.adds] at hc
    split at hc
    · unfold planeAdds at hc
      rcases List.mem_append.mp hc with hc | hc
      · obtain ⟨p, _, rfl⟩ := List.mem_map.mp hc
        exact Or.inl ⟨_, _, _, rfl⟩
      · obtain ⟨p, _, rfl⟩ := List.mem_map.mp hc
        exact Or.inr ⟨_, _, rfl⟩
    · simp at hc

end

end Nla3d.Newton
