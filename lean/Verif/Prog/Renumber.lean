import Verif.Prog.RenSpec
import Verif.Prog.Unique
import Mathlib.Algebra.BigOperators.Group.List.Basic

/-!
# Renumbering a model does not change its equations
-/

namespace Nla3d.Prog

open Nla3d.Dof Nla3d.Storage Nla3d.Iso Nla3d.Newton Nla3d.Labels
open Nla3d.Solver (Bc keyOf lastFix fixKeys loadsOn)
open Nla3d.Rigid (offset theta norm3 arm transl Plain disp)
open Nla3d.Main (Job RigidJob)
open Nla3d.Cmd (Options)

noncomputable section

/-- Values in the numbering of the other job. -/
def pull (σ τ : Equiv.Perm Nat) (x : Vals) : Vals := fun f => x (ren σ τ f)

theorem ren_ren (σ τ : Equiv.Perm Nat) (f : Key) : ren σ τ (ren σ⁻¹ τ⁻¹ f) = f := by
  obtain ⟨a, n, d⟩ := f
  cases a <;> simp [ren]

theorem ren_inv (σ τ : Equiv.Perm Nat) (f : Key) : ren σ⁻¹ τ⁻¹ (ren σ τ f) = f := by
  obtain ⟨a, n, d⟩ := f
  cases a <;> simp [ren]

theorem ren_inj (σ τ : Equiv.Perm Nat) {f g : Key} (h : ren σ τ f = ren σ τ g) : f = g := by
  rw [← ren_inv σ τ f, h, ren_inv]

theorem pull_pull (σ τ : Equiv.Perm Nat) (x : Vals) : pull σ τ (pull σ⁻¹ τ⁻¹ x) = x := by
  funext f
  simp only [pull, ren_inv]

variable {o : Options ℝ} {ref : List ℝ} {j j' : Job ℝ} {W : ℝ → ℝ → ℝ} {k : ℝ} {σ τ : Equiv.Perm Nat}

section
variable (R : Renumbers σ τ j j')
include R

/-! ## Elements -/

theorem elems_iff (ns' : List Nat) : ns' ∈ j'.elems ↔ ∃ ns ∈ j.elems, ns' = ns.map σ := by
  constructor
  · intro h
    obtain ⟨i, hi, rfl⟩ := List.getElem_of_mem h
    have : (j'.elems[i], 1 + i) ∈ j'.elems.zipIdx 1 := by
      rw [List.mem_iff_getElem]
      exact ⟨i, by simpa using hi, by simp⟩
    obtain ⟨⟨ns, e⟩, h1, h2⟩ := List.mem_map.mp (R.elems.mem_iff.mp this)
    rw [Prod.mk.injEq] at h2
    refine ⟨ns, ?_, h2.1.symm⟩
    obtain ⟨i, hi, he⟩ := List.mem_iff_getElem.mp h1
    simp only [List.getElem_zipIdx, Prod.mk.injEq] at he
    rw [← he.1]
    exact List.getElem_mem _
  · rintro ⟨ns, h, rfl⟩
    obtain ⟨i, hi, rfl⟩ := List.getElem_of_mem h
    have : (j.elems[i], 1 + i) ∈ j.elems.zipIdx 1 := by
      rw [List.mem_iff_getElem]
      exact ⟨i, by simpa using hi, by simp⟩
    have := R.elems.mem_iff.mpr (List.mem_map.mpr ⟨_, this, rfl⟩)
    obtain ⟨i, hi, he⟩ := List.mem_iff_getElem.mp this
    simp only [List.getElem_zipIdx, Prod.mk.injEq] at he
    rw [← he.1]
    exact List.getElem_mem _

theorem elem_numbers (e : Nat) : (0 < τ e ∧ τ e ≤ j'.elems.length) ↔ (0 < e ∧ e ≤ j.elems.length) := by
  have h1 : (j'.elems.zipIdx 1).map Prod.snd = List.range' 1 j'.elems.length := by simp
  have h2 : (j.elems.zipIdx 1).map Prod.snd = List.range' 1 j.elems.length := by simp
  have h3 := R.elems.map Prod.snd
  rw [h1, List.map_map, show (Prod.snd ∘ fun e : List Nat × Nat => (e.1.map σ, τ e.2)) = τ ∘ Prod.snd from rfl, ← List.map_map, h2] at h3
  have h4 := h3.mem_iff (a := τ e)
  rw [List.mem_map] at h4
  simp only [List.mem_range'_1, EmbeddingLike.apply_eq_iff_eq, exists_eq_right] at h4
  omega

theorem nodePos_ren (h : Runnable o ref j) {ns : List Nat} (hns : ns ∈ j.elems) {nn : Nat} (hl : ns.length = nn) :
    (nodePos j'.pos (ns.map σ) : Fin nn → Fin 3 → ℝ) = nodePos j.pos ns := by
  funext a
  have ha : (a : Nat) < ns.length := by rw [hl]; exact a.2
  have hmem := (h.nodes ns hns).2 ns[a] (List.getElem_mem _)
  unfold nodePos
  rw [List.getD_eq_getElem?_getD, List.getD_eq_getElem?_getD, List.getElem?_map, List.getElem?_eq_getElem ha]
  exact R.pos _ hmem.1 hmem.2

omit R in
theorem nodeDisp_ren (x : Vals) {ns : List Nat} {nn : Nat} (hl : ns.length = nn) :
    (nodeDisp x (ns.map σ) : Fin nn → Fin 3 → ℝ) = nodeDisp (pull σ τ x) ns := by
  funext a c
  have ha : (a : Nat) < ns.length := by rw [hl]; exact a.2
  unfold nodeDisp pull
  rw [List.getD_eq_getElem?_getD, List.getD_eq_getElem?_getD, List.getElem?_map, List.getElem?_eq_getElem ha]
  rfl

theorem element_ren (h : Runnable o ref j) {ns : List Nat} (hns : ns ∈ j.elems) (x : Vals) (p : ℝ) :
    elementEnergy j'.type W k j'.pos (ns.map σ) x p = elementEnergy j.type W k j.pos ns (pull σ τ x) p := by
  obtain ⟨nn, hnn, hlen⟩ := h.type
  have hl := hlen ns hns
  rw [R.type]
  revert hnn
  cases j.type <;> intro hnn <;> try rfl
  all_goals
    simp only [nodeCount, Option.some.injEq] at hnn
    subst hnn
    simp only [elementEnergy, hexEnergy, quadEnergy, nodePos_ren R h hns hl, nodeDisp_ren (τ := τ) x hl]

theorem sound_element_ren (h : Runnable o ref j) {ns : List Nat} (hns : ns ∈ j.elems) (x : Vals) :
    elementSound j'.type j'.pos (ns.map σ) x ↔ elementSound j.type j.pos ns (pull σ τ x) := by
  obtain ⟨nn, hnn, hlen⟩ := h.type
  have hl := hlen ns hns
  rw [R.type]
  revert hnn
  cases j.type <;> intro hnn <;> try rfl
  all_goals
    simp only [nodeCount, Option.some.injEq] at hnn
    subst hnn
    simp only [elementSound, nodePos_ren R h hns hl, nodeDisp_ren (τ := τ) x hl]

theorem energy_ren (h : Runnable o ref j) (x : Vals) : storedEnergy W k j' x = storedEnergy W k j (pull σ τ x) := by
  unfold storedEnergy
  rw [(R.elems.map _).sum_eq, List.map_map]
  congr 1
  refine List.map_congr_left fun e he => ?_
  have hns : e.1 ∈ j.elems := by
    obtain ⟨i, hi, rfl⟩ := List.mem_iff_getElem.mp he
    simp
  simp only [Function.comp_apply]
  exact element_ren R h hns x _

theorem slope_ren (h : Runnable o ref j) (x v : Vals) : slope W k j' x v = slope W k j (pull σ τ x) (pull σ τ v) := by
  unfold slope
  congr 1
  funext s
  exact energy_ren R h _

theorem sound_ren (h : Runnable o ref j) (x : Vals) : Sound j' x ↔ Sound j (pull σ τ x) := by
  constructor
  · intro hs ns hns
    exact (sound_element_ren R h hns x).mp (hs _ ((elems_iff R _).mpr ⟨ns, hns, rfl⟩))
  · intro hs ns' hns'
    obtain ⟨ns, hns, rfl⟩ := (elems_iff R _).mp hns'
    exact (sound_element_ren R h hns x).mpr (hs ns hns)

/-! ## Unknowns, fixes and loads -/

theorem rigid_some {r' : RigidJob} (hr : j'.rigid = some r') : ∃ r, j.rigid = some r ∧ SameBody σ r r' := by
  rcases R.rigid with ⟨_, h⟩ | ⟨r, r2, h1, h2, h3⟩
  · rw [hr] at h; simp at h
  · rw [hr, Option.some.injEq] at h2
    subst h2
    exact ⟨r, h1, h3⟩

theorem rigid_some' {r : RigidJob} (hr : j.rigid = some r) : ∃ r', j'.rigid = some r' ∧ SameBody σ r r' := by
  rcases R.rigid with ⟨h, _⟩ | ⟨r1, r2, h1, h2, h3⟩
  · rw [hr] at h; simp at h
  · rw [hr, Option.some.injEq] at h1
    subst h1
    exact ⟨r2, h2, h3⟩

theorem has_ren (f : Key) : Has j' (ren σ τ f) ↔ Has j f := by
  constructor
  · intro h
    obtain ⟨a, n, d⟩ := f
    cases a with
    | node =>
      generalize hg : ren σ τ (.node, n, d) = g at h
      cases h with
      | node h1 h2 h3 =>
        simp only [ren, Prod.mk.injEq, true_and] at hg
        obtain ⟨ns, hns, rfl⟩ := (elems_iff R _).mp h1
        rw [← hg.1, ] at h2
        rw [← hg.2, R.type] at h3
        exact .node hns (by simpa using h2) h3
      | pressure h1 h2 => simp [ren] at hg
      | master h1 h2 =>
        simp only [ren, Prod.mk.injEq, true_and] at hg
        obtain ⟨r, hr, hb⟩ := rigid_some R h1
        rw [hb.master, EmbeddingLike.apply_eq_iff_eq] at hg
        rw [hg.1]
        exact .master hr (by rw [hg.2]; exact h2)
    | elem =>
      generalize hg : ren σ τ (.elem, n, d) = g at h
      cases h with
      | node h1 h2 h3 => simp [ren] at hg
      | pressure h1 h2 =>
        simp only [ren, Prod.mk.injEq, true_and] at hg
        obtain ⟨hg, rfl⟩ := hg
        subst hg
        have := (elem_numbers R n).mp ⟨h1, h2⟩
        exact .pressure this.1 this.2
      | master h1 h2 => simp [ren] at hg
  · intro h
    cases h with
    | @node ns n d h1 h2 h3 =>
      exact .node ((elems_iff R _).mpr ⟨ns, h1, rfl⟩) (List.mem_map.mpr ⟨n, h2, rfl⟩) (by rw [R.type]; exact h3)
    | pressure h1 h2 =>
      have := (elem_numbers R _).mpr ⟨h1, h2⟩
      exact .pressure this.1 this.2
    | @master r d h1 h2 =>
      obtain ⟨r', hr, hb⟩ := rigid_some' R h1
      have : Has j' (.node, r'.master, d) := .master hr h2
      rw [hb.master] at this
      exact this

theorem fix_ren (f : Key) : ren σ τ f ∈ fixKeys j'.fixs ↔ f ∈ fixKeys j.fixs := by
  rw [← Solver.lastFix_isSome, R.fixs, Solver.lastFix_isSome]

theorem free_ren (f : Key) : Free j' (ren σ τ f) ↔ Free j f := and_congr (has_ren R f) (not_congr (fix_ren R f))

omit R in
theorem keyOf_ren (b : Bc ℝ) : keyOf (renBc σ b) = ren σ τ (keyOf b) := rfl

theorem loadsOn_ren (f : Key) : loadsOn (ren σ τ f) j'.loads = loadsOn f j.loads := by
  unfold loadsOn
  rw [((R.loads.filter _).map _).sum_eq, List.filter_map, List.map_map]
  congr 1
  have : (fun b : Bc ℝ => decide (keyOf b = ren σ τ f)) ∘ renBc σ = fun b => decide (keyOf b = f) := by
    funext b
    simp only [Function.comp_apply, keyOf_ren (τ := τ), decide_eq_decide]
    exact ⟨ren_inj σ τ, fun h => by rw [h]⟩
  rw [this]
  rfl

theorem loadWork_ren (t : ℝ) (v : Vals) : loadWork j' t v = loadWork j t (pull σ τ v) := by
  unfold loadWork
  rw [((R.loads.filter _).map _).sum_eq, List.filter_map, List.map_map]
  congr 3
  have : (fun b : Bc ℝ => decide (keyOf b ∉ fixKeys j'.fixs)) ∘ renBc σ = fun b => decide (keyOf b ∉ fixKeys j.fixs) := by
    funext b
    simp only [Function.comp_apply, keyOf_ren (τ := τ), decide_eq_decide, fix_ren R]
  rw [this]

theorem reactionWork_ren (r v : Vals) : reactionWork j' r v = reactionWork j (pull σ τ r) (pull σ τ v) := by
  unfold reactionWork
  symm
  refine Finset.sum_nbij (ren σ τ) (fun f hf => ?_) (fun f _ g _ h => ren_inj σ τ h) (fun f hf => ?_) (fun _ _ => rfl)
  · exact List.mem_toFinset.mpr ((fix_ren R f).mpr (List.mem_toFinset.mp hf))
  · refine ⟨ren σ⁻¹ τ⁻¹ f, ?_, ren_ren σ τ f⟩
    have hf := List.mem_toFinset.mp (Finset.mem_coe.mp hf)
    rw [← ren_ren σ τ f, fix_ren R] at hf
    exact Finset.mem_coe.mpr (List.mem_toFinset.mpr hf)

omit R in
theorem lhs_ren {m m' : Mpc ℝ} (h : SameEq σ m m') (v : Vals) : lhsOf m' v = lhsOf m (pull σ τ v) := by
  unfold lhsOf
  rw [(h.2.map _).sum_eq, List.map_map]
  rfl

/-! ## The rigid body -/

omit R in
/-- Nodes with unknowns exist. -/
theorem has_range {o : Options ℝ} {ref : List ℝ} {j : Job ℝ} (h : Runnable o ref j) {n : Nat} {d : DofType} (hn : Has j (.node, n, d)) :
    0 < n ∧ n ≤ j.pos.length := by
  cases hn with
  | node h1 h2 _ => exact (h.nodes _ h1).2 _ h2
  | master h1 _ => exact h.master _ h1

theorem away_ren (h : Runnable o ref j) {r r' : RigidJob} (hr : j.rigid = some r) (hb : SameBody σ r r') {n : Nat} {i : Fin 3}
    (hn : n ∈ r.slaves) (hi : transl i ∈ r.dofs) (x : Vals) : away j' r' (σ n) i x = away j r n i (pull σ τ x) := by
  have hm := h.master r hr
  have hs := has_range h ((h.slaves r hr).2.2 n hn _ hi)
  unfold away offset theta disp
  rw [hb.master, R.pos _ hm.1 hm.2, R.pos _ hs.1 hs.2]
  rfl

theorem arm_ren (h : Runnable o ref j) {r r' : RigidJob} (hr : j.rigid = some r) (hb : SameBody σ r r') {n : Nat} {i : Fin 3}
    (hn : n ∈ r.slaves) (hi : transl i ∈ r.dofs) : arm (posOf j'.pos) r'.master (σ n) = arm (posOf j.pos) r.master n := by
  have hm := h.master r hr
  have hs := has_range h ((h.slaves r hr).2.2 n hn _ hi)
  unfold arm
  rw [hb.master, R.pos _ hm.1 hm.2, R.pos _ hs.1 hs.2]

omit R in
theorem turn_ren {r r' : RigidJob} (hb : SameBody σ r r') (x : Vals) : turn r' x = turn r (pull σ τ x) := by
  unfold turn theta
  rw [hb.master]
  rfl

theorem plain_ren (x : Vals) : (∀ b, j'.rigid = some b → Plain (turn b x)) ↔ ∀ b, j.rigid = some b → Plain (turn b (pull σ τ x)) := by
  constructor
  · intro h b hb
    obtain ⟨b', h1, h2⟩ := rigid_some' R hb
    rw [← turn_ren h2]
    exact h b' h1
  · intro h b hb
    obtain ⟨b', h1, h2⟩ := rigid_some R hb
    rw [turn_ren (τ := τ) h2]
    exact h b' h1

/-- Slaves and directions of the other job. -/
theorem slave_ren {r r' : RigidJob} (hb : SameBody σ r r') {n' : Nat} {d : DofType} (hn : n' ∈ r'.slaves) (hd : d ∈ r'.dofs) :
    ∃ n ∈ r.slaves, n' = σ n ∧ d ∈ r.dofs := by
  refine ⟨σ⁻¹ n', ?_, by simp, (hb.dofs d).mp hd⟩
  rw [← hb.slaves]
  simpa using hn

theorem compatible_ren (h : Runnable o ref j) {x v : Vals} (hv : Compatible j' x v) : Compatible j (pull σ τ x) (pull σ τ v) := by
  refine ⟨fun m hm => ?_, fun r hr n hn i hi => ?_⟩
  · obtain ⟨m', h1, h2⟩ := R.mpcs.2 m hm
    rw [← lhs_ren h2]
    exact hv.eqs m' h1
  · obtain ⟨r', h1, h2⟩ := rigid_some' R hr
    have := hv.rigid r' h1 (σ n) ((h2.slaves n).mpr hn) i ((h2.dofs _).mpr hi)
    refine this.congr_of_eventuallyEq (Filter.Eventually.of_forall fun s => ?_)
    exact (away_ren R h hr h2 hn hi (x + s • v)).symm

/-! ## Steps -/

theorem small_ren (x y : Vals) : Small j' x y ↔ Small j (pull σ τ x) (pull σ τ y) := by
  constructor
  · rintro ⟨free, h1, h2⟩
    refine ⟨free.image (ren σ⁻¹ τ⁻¹), fun f => ?_, ?_⟩
    · rw [Finset.mem_image]
      constructor
      · rintro ⟨g, hg, rfl⟩
        rw [h1, ← ren_ren σ τ g, ] at hg
        exact (free_ren R _).mp hg
      · intro hf
        exact ⟨ren σ τ f, (h1 _).mpr ((free_ren R f).mpr hf), ren_inv σ τ f⟩
    · have hinj : Set.InjOn (ren σ⁻¹ τ⁻¹) free := fun f _ g _ hfg => ren_inj _ _ hfg
      rw [Finset.sum_image hinj, Finset.card_image_of_injOn hinj]
      simp only [pull, ren_ren]
      exact h2
  · rintro ⟨free, h1, h2⟩
    refine ⟨free.image (ren σ τ), fun f => ?_, ?_⟩
    · rw [Finset.mem_image]
      constructor
      · rintro ⟨g, hg, rfl⟩
        exact (free_ren R _).mpr ((h1 g).mp hg)
      · intro hf
        rw [← ren_ren σ τ f] at hf
        exact ⟨_, (h1 _).mpr ((free_ren R _).mp hf), ren_ren σ τ f⟩
    · have hinj : Set.InjOn (ren σ τ) free := fun f _ g _ hfg => ren_inj _ _ hfg
      rw [Finset.sum_image hinj, Finset.card_image_of_injOn hinj]
      exact h2

theorem fine_ren (h : Runnable o ref j) {x y : Vals} (hf : Fine j (pull σ τ x) (pull σ τ y)) : Fine j' x y := by
  refine ⟨(sound_ren R h x).mpr hf.sound, (plain_ren R x).mpr hf.plain, fun f hff => ?_⟩
  rw [← ren_ren σ τ f] at hff ⊢
  exact hf.big _ ((fix_ren R _).mp hff)

theorem linearised_ren (h : Runnable o ref j) {t : ℝ} {x y r : Vals}
    (hl : Linearised W k j t (pull σ τ x) (pull σ τ y) (pull σ τ r)) : Linearised W k j' t x y r := by
  refine ⟨fun f a hf => ?_, fun f hf hff => ?_, fun f hf => ?_, fun m hm => ?_, fun b hb hp n hn i hi => ?_, fun b hb n hn i hi => ?_,
    fun hs hp v hv hc => ?_⟩
  · rw [← ren_ren σ τ f] at hf ⊢
    rw [R.fixs] at hf
    exact hl.fixed _ a hf
  · rw [← ren_ren σ τ f] at hf hff ⊢
    rw [loadsOn_ren R]
    exact hl.loads _ ((has_ren R _).mp hf) fun hc => hff ((fix_ren R _).mpr hc)
  · rw [← ren_ren σ τ f] at hf ⊢
    exact hl.outside _ fun hc => hf ((has_ren R _).mpr hc)
  · obtain ⟨m0, h1, h2⟩ := R.mpcs.1 m hm
    rw [lhs_ren (τ := τ) h2, h2.1]
    exact hl.eqs m0 h1
  · obtain ⟨b0, h1, h2⟩ := rigid_some R hb
    obtain ⟨n0, hn0, rfl, hd⟩ := slave_ren R h2 hn hi
    rw [turn_ren (τ := τ) h2] at hp
    have := hl.rigid b0 h1 hp n0 hn0 i hd
    rw [away_ren R h h1 h2 hn0 hd]
    refine this.congr_of_eventuallyEq (Filter.Eventually.of_forall fun s => ?_)
    exact away_ren R h h1 h2 hn0 hd (x + s • (y - x))
  · obtain ⟨b0, h1, h2⟩ := rigid_some R hb
    obtain ⟨n0, hn0, rfl, hd⟩ := slave_ren R h2 hn hi
    rw [away_ren R h h1 h2 hn0 hd, turn_ren (τ := τ) h2, arm_ren R h h1 h2 hn0 hd]
    exact hl.close b0 h1 n0 hn0 i hd
  · have := hl.balance ((sound_ren R h x).mp hs) ((plain_ren R x).mp hp) (pull σ τ v) (compatible_ren R h hv) (by
      rcases hc with hc | hc
      · exact .inl fun f hf => hc _ ((fix_ren R f).mpr hf)
      · exact .inr fun f hf => hc _ ((fix_ren R f).mpr hf))
    rw [loadWork_ren R, reactionWork_ren R, slope_ren R h]
    refine this.congr_of_eventuallyEq (Filter.Eventually.of_forall fun s => ?_)
    exact slope_ren R h (x + s • (y - x)) v

/-! ## Load steps -/

/-- A step of the renumbered job is the step of the job. -/
theorem step_ren (h : Runnable o ref j) (h' : Runnable o ref j') {t : ℝ} {x' y' r' y r : Vals} (hn : NewtonStep W k j' t x' y' r')
    (hl : Linearised W k j t (pull σ τ x') y r) (hf : Fine j (pull σ τ x') y) : pull σ τ y' = y ∧ pull σ τ r' = r := by
  rw [← pull_pull σ τ y] at hl hf
  rw [← pull_pull σ τ r] at hl
  have hl' := linearised_ren R h hl
  have hf' := fine_ren R h hf
  have e := values_unique h' hf'.sound hf'.plain hn hl'
  have e1 : pull σ τ y' = y := by rw [← e, pull_pull]
  refine ⟨e1, ?_⟩
  rw [e] at hl' hf'
  rw [← reactions_unique h' hf'.sound hf'.plain hf'.big hn hl', pull_pull]

theorem run_ren (h : Runnable o ref j) (h' : Runnable o ref j') {t : ℝ} {x' : Vals} {l' l : List (Vals × Vals)}
    (hn : NewtonRun W k j' t x' l') (hc : CleanRun W k j t (pull σ τ x') l) :
    l = l'.map (fun e => (pull σ τ e.1, pull σ τ e.2)) := by
  induction hn generalizing l with
  | last h1 h2 =>
    cases hc with
    | last c1 c2 c3 =>
      obtain ⟨e1, e2⟩ := step_ren R h h' h1 c1 c2
      simp [e1, e2]
    | more c1 c2 c3 c4 =>
      obtain ⟨e1, e2⟩ := step_ren R h h' h1 c1 c2
      subst e1
      exact absurd ((small_ren R _ _).mp h2) c3
  | more h1 h2 _ ih =>
    cases hc with
    | last c1 c2 c3 =>
      obtain ⟨e1, e2⟩ := step_ren R h h' h1 c1 c2
      subst e1
      exact absurd ((small_ren R _ _).mpr c3) h2
    | more c1 c2 c3 c4 =>
      obtain ⟨e1, e2⟩ := step_ren R h h' h1 c1 c2
      subst e1 e2
      rw [List.map_cons, ih c4]

theorem path_ren (h : Runnable o ref j) (h' : Runnable o ref j') {i : Nat} {x' : Vals} {es' es : List (Vals × Vals)}
    (hn : LoadPath W k j' i x' es') (hc : CleanPath W k j i (pull σ τ x') es) (hlen : es'.length = es.length) :
    es = es'.map (fun e => (pull σ τ e.1, pull σ τ e.2)) := by
  induction hn generalizing es with
  | done => simpa using hlen.symm
  | @step i x' l' e' es' h1 _ h3 _ ih =>
    cases hc with
    | done => simp at hlen
    | step c1 c2 c3 =>
      rw [R.loadsteps] at h1
      have := run_ren R h h' h1 c1
      rw [this, List.getLast?_map, h3, Option.map_some, Option.some.injEq] at c2
      subst c2
      rw [List.map_cons, ih c3 (by simpa using hlen)]

/-! ## The report -/

theorem force_ren {ns ns' : List Nat} (hp : ns'.Perm (ns.map σ)) (r : Vals) (d : DofType) :
    force ns' r d = force ns (pull σ τ r) d := by
  unfold force
  rw [(hp.map _).sum_eq, List.map_map]
  rfl

theorem reported_ren (h : Runnable o ref j) {es' : List (Vals × Vals)} {table : Option (List (List ℝ))} {code : Nat}
    (hr : Reported o ref j' es' table code) : Reported o ref j (es'.map (fun e => (pull σ τ e.1, pull σ τ e.2))) table code := by
  unfold Reported at hr ⊢
  rcases R.react with ⟨h1, h2⟩ | ⟨⟨ns, ds⟩, ⟨ns', ds'⟩, h1, h2, h3, h4, h5⟩
  · rw [h1]
    rw [h2] at hr
    exact hr
  · simp only at h3 h4 h5
    subst h3
    have hcol : columns j' ns' ds' = columns j ns ds' := by
      unfold columns
      by_cases hd : ds' = []
      · rw [if_pos hd, if_pos hd]
        have hne := (h.react ns ds' h1).1
        obtain ⟨a, l, rfl⟩ := List.exists_cons_of_ne_nil hne
        have hh := h5 hd
        simp only [List.head?_cons, Option.map_some] at hh
        have : ns'.headD 0 = σ a := by
          rw [List.headD_eq_head?_getD, hh]
          rfl
        rw [this]
        refine List.filter_congr fun d _ => ?_
        rw [decide_eq_decide]
        exact fix_ren R (.node, a, d)
      · rw [if_neg hd, if_neg hd]
    rw [h1]
    rw [h2] at hr
    simp only [hcol] at hr
    simp only [List.map_map]
    have e1 : es'.map (fun e => (columns j ns ds').map (force ns' e.2)) =
        es'.map ((fun e => (columns j ns ds').map (force ns e.2)) ∘ fun e => (pull σ τ e.1, pull σ τ e.2)) := by
      refine List.map_congr_left fun e _ => ?_
      exact List.map_congr_left fun d _ => force_ren R h4 e.2 d
    have e2 : ∀ d, es'.map (fun e => force ns' e.2 d) =
        es'.map ((fun e => force ns e.2 d) ∘ fun e => (pull σ τ e.1, pull σ τ e.2)) := by
      intro d
      exact List.map_congr_left fun e _ => force_ren R h4 e.2 d
    rw [e1] at hr
    simp only [e2] at hr
    exact hr

end

end

end Nla3d.Prog
