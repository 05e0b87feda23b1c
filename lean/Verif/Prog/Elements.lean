import Verif.Prog.Spec
import Verif.Newton.Lemmas
import Verif.Newton.Solve

/-!
# The elements of a job
-/

namespace Nla3d.Prog

open Nla3d.Dof Nla3d.Storage Nla3d.Iso Nla3d.Newton Nla3d.Labels Nla3d.Material Nla3d.Hyper
open Nla3d.Solver (Bc keyOf lastFix fixKeys)
open Nla3d.Rigid (transl RigidBody made)
open Nla3d.Main (Job)

noncomputable section

/-! ## Material -/

/-- The energy function of the code is the one of the specification. -/
def IsLaw (W : ℝ → ℝ → ℝ) (E : Energy) : Prop := E.Consistent ∧ ∀ a b z, E.W a b z = W a b

theorem energyOf_ok {name : String} {cs : List ℝ} {W : ℝ → ℝ → ℝ} {k : ℝ} (h : MatLaw name cs W k) :
    ∃ E, energyOf name cs = .ok (E, k) ∧ IsLaw W E := by
  cases h with
  | neoHookean G k =>
    have h1 : matName2matId "Neo-Hookean" = .ok .NEO_HOOKEAN_COMP := by decide
    refine ⟨_, by unfold energyOf; rw [h1, Res.ok_bind]; rfl, C46_neoHookean _, fun a b z => ?_⟩
    simp only [neoHookean]
    show 1 / 2 * G * (a - 3) = _
    ring
  | mooneyRivlin c₁₀ c₀₁ k =>
    have h1 : matName2matId "Mooney-Rivlin" = .ok .MOONEYRIVLIN_COMP := by decide
    refine ⟨_, by unfold energyOf; rw [h1, Res.ok_bind]; rfl, C46_mooneyRivlin _, fun a b z => ?_⟩
    rfl
  | biderman c₁₀ c₂₀ c₃₀ c₀₁ k =>
    have h1 : matName2matId "Biderman" = .ok .BIDERMAN_COMP := by decide
    refine ⟨_, by unfold energyOf; rw [h1, Res.ok_bind]; rfl, C46_biderman _, fun a b z => ?_⟩
    simp only [biderman]
    show c₁₀ * (a - 3) + c₂₀ * (a - 3) * (a - 3) + c₃₀ * (a - 3) * (a - 3) * (a - 3) + c₀₁ * (b - 3) = _
    ring

/-! ## One element -/

/-- What is needed of an element of a job. -/
structure Made (t : ElementType) (W : ℝ → ℝ → ℝ) (k : ℝ) (pos : List (ℝ × ℝ × ℝ)) (en : Nat) (ns : List Nat) (el : El) : Prop where
  fresh : el.Fresh
  ready : ∀ (S : Storage ℝ) (regs : List Key), ns = elNodes S.elements en → (∀ n ∈ ns, ∀ d ∈ displ t, (Side.node, n, d) ∈ regs) →
    (Side.elem, en, DofType.HYDRO_PRESSURE) ∈ regs → el.Ready S regs
  pot : ∀ (z : ℝ) (num : Key → Nat) (u : Nat → ℝ), el.potential z num u =
    elementEnergy t W k pos ns (fun f => u (num f)) (u (num (.elem, en, .HYDRO_PRESSURE)))
  sound : ∀ (num : Key → Nat) (u : Nat → ℝ), el.Sound num u ↔ elementSound t pos ns (fun f => u (num f))
  hex : t = .SOLID81 → ∃ E g, IsLaw W E ∧ (∀ q ∈ hexa.table (schemeIndex 2), (jac hexa (nodePos pos ns) q.xi).det ≠ 0) ∧
    makeJacob hexa 2 (nodePos pos ns) = .ok g ∧
    el = .hex ⟨E, k, 2, nodePos pos ns, g, List.replicate (nOfIntPoints hexa g) Point.initial, en, fun a => ns.getD a 0⟩
  plane : t = .PLANE41 → ∃ E g, (∀ q ∈ quad.table (schemeIndex 2), (jac quad (flat (nodePos pos ns)) q.xi).det ≠ 0) ∧
    makeJacob quad 2 (flat (nodePos pos ns)) = .ok g ∧
    el = .plane ⟨E, k, 2, flat (nodePos pos ns), g, List.replicate (nOfIntPoints quad g) Point2.initial, en, fun a => ns.getD a 0⟩

theorem ofFn_getD {ns : List Nat} {nn : Nat} (h : ns.length = nn) : List.ofFn (fun a : Fin nn => ns.getD a 0) = ns := by
  subst h
  apply List.ext_getElem (by simp)
  intro i h1 h2
  simp

theorem transl_castSucc (c : Fin 2) : transl c.castSucc = (![.UX, .UY] : Fin 2 → DofType) c := by
  fin_cases c <;> rfl

theorem zero_disp (ns : List Nat) {nn : Nat} : (nodeDisp (0 : Vals) ns : Fin nn → Fin 3 → ℝ) = 0 := rfl

theorem density_eq {W : ℝ → ℝ → ℝ} {E : Energy} (hE : IsLaw W E) (k z p : ℝ) (F : Matrix (Fin 3) (Fin 3) ℝ) :
    energy E p z (F.transpose * F) - p ^ 2 / (2 * k) = density W k p F := by
  unfold energy density
  simp only [hE.2]

theorem elementOf_ok {t : ElementType} {nn : Nat} (ht : nodeCount t = some nn) {W : ℝ → ℝ → ℝ} {E : Energy} (hE : IsLaw W E) (k : ℝ)
    {pos : List (ℝ × ℝ × ℝ)} (en : Nat) {ns : List Nat} (hl : ns.length = nn) (hd : ns.Nodup)
    (hn : ∀ n ∈ ns, 0 < n ∧ n ≤ pos.length) (hs : elementSound t pos ns 0) :
    ∃ el, elementOf t E k pos en ns = .ok el ∧ Made t W k pos en ns el := by
  have hall : ns.all (fun n => decide (0 < n ∧ n ≤ pos.length)) = true := by
    rw [List.all_eq_true]
    intro n h
    simpa using hn n h
  cases t <;> simp only [nodeCount, Option.some.injEq, reduceCtorEq] at ht
  · -- PLANE41
    subst ht
    have hs' : ∀ q ∈ quad.table (schemeIndex 2), (jac quad (flat (nodePos pos ns)) q.xi).det ≠ 0 := by
      intro q hq
      have := hs q hq
      rw [show flat (nodePos pos ns) + flat (nodeDisp (0 : Vals) ns) = flat (nodePos (nn := 4) pos ns) from by
        rw [zero_disp]; exact add_zero _] at this
      exact this
    obtain ⟨g, g1, g2, g3⟩ := makeJacob_good hs'
    refine ⟨.plane ⟨E, k, 2, flat (nodePos pos ns), g, List.replicate (nOfIntPoints quad g) Point2.initial, en, fun a => ns.getD a 0⟩,
      ?_, ?_⟩
    · unfold elementOf
      rw [if_pos hall]
      show (do
        let g ← makeJacob quad 2 (flat (nodePos pos ns))
        Res.ok (El.plane ⟨E, k, 2, flat (nodePos pos ns), g, List.replicate (nOfIntPoints quad g) Point2.initial, en,
          fun a => ns.getD a 0⟩)) = _
      rw [g1, Res.ok_bind]
    · refine ⟨rfl, ?_, ?_, ?_, ?_, ?_⟩
      · intro S regs h1 h2 h3
        refine ⟨hE.1, ⟨?_, ?_, by decide, ?_, h3⟩, hs', g1, by simp⟩
        · rw [ofFn_getD hl]; exact h1
        · rw [ofFn_getD hl]; exact hd
        · rw [ofFn_getD hl]; exact h2
      · intro z num u
        have hdisp : Quad.disp num u ⟨E, k, 2, flat (nodePos pos ns), g, List.replicate (nOfIntPoints quad g) Point2.initial, en,
            fun a => ns.getD a 0⟩ = flat (nodeDisp (fun f => u (num f)) ns) := by
          funext a c
          simp only [Quad.disp, flat, nodeDisp, transl_castSucc]
        show planePotential E k z 2 _ _ _ = quadEnergy W k pos ns _ _
        rw [hdisp]
        unfold planePotential quadEnergy
        simp only [density_eq hE]
      · intro num u
        have hdisp : Quad.disp num u ⟨E, k, 2, flat (nodePos pos ns), g, List.replicate (nOfIntPoints quad g) Point2.initial, en,
            fun a => ns.getD a 0⟩ = flat (nodeDisp (fun f => u (num f)) ns) := by
          funext a c
          simp only [Quad.disp, flat, nodeDisp, transl_castSucc]
        show (∀ q ∈ quad.table (schemeIndex 2), (jac quad (flat (nodePos pos ns) + Quad.disp num u _) q.xi).det ≠ 0) ↔ _
        rw [hdisp]
        exact Iff.rfl
      · simp
      · intro _
        exact ⟨E, g, hs', g1, rfl⟩
  · -- SOLID81
    subst ht
    have hs' : ∀ q ∈ hexa.table (schemeIndex 2), (jac hexa (nodePos pos ns) q.xi).det ≠ 0 := by
      intro q hq
      have := hs q hq
      rw [zero_disp, add_zero] at this
      exact this
    obtain ⟨g, g1, g2, g3⟩ := makeJacob_good hs'
    refine ⟨.hex ⟨E, k, 2, nodePos pos ns, g, List.replicate (nOfIntPoints hexa g) Point.initial, en, fun a => ns.getD a 0⟩, ?_, ?_⟩
    · unfold elementOf
      rw [if_pos hall]
      show (do
        let g ← makeJacob hexa 2 (nodePos pos ns)
        Res.ok (El.hex ⟨E, k, 2, nodePos pos ns, g, List.replicate (nOfIntPoints hexa g) Point.initial, en,
          fun a => ns.getD a 0⟩)) = _
      rw [g1, Res.ok_bind]
    · refine ⟨rfl, ?_, ?_, ?_, ?_, ?_⟩
      · intro S regs h1 h2 h3
        refine ⟨hE.1, ⟨?_, ?_, by decide, ?_, h3⟩, hs', g1, by simp⟩
        · rw [ofFn_getD hl]; exact h1
        · rw [ofFn_getD hl]; exact hd
        · rw [ofFn_getD hl]; exact h2
      · intro z num u
        show solidPotential E k z 2 _ (nodeDisp (fun f => u (num f)) ns) _ = hexEnergy W k pos ns _ _
        unfold solidPotential hexEnergy
        simp only [density_eq hE]
      · intro num u
        exact Iff.rfl
      · intro _
        exact ⟨E, g, hE, hs', g1, rfl⟩
      · simp

/-! ## All elements -/

/-- The elements are those of the list, numbered from `en` on. -/
inductive AllMade (t : ElementType) (W : ℝ → ℝ → ℝ) (k : ℝ) (pos : List (ℝ × ℝ × ℝ)) : Nat → List (List Nat) → List El → Prop
  | nil {en : Nat} : AllMade t W k pos en [] []
  | cons {en : Nat} {ns : List Nat} {nss : List (List Nat)} {el : El} {els : List El} : Made t W k pos en ns el →
      AllMade t W k pos (en + 1) nss els → AllMade t W k pos en (ns :: nss) (el :: els)

theorem elementsOf_ok {t : ElementType} {nn : Nat} (ht : nodeCount t = some nn) {W : ℝ → ℝ → ℝ} {E : Energy} (hE : IsLaw W E) (k : ℝ)
    {pos : List (ℝ × ℝ × ℝ)} : ∀ (nss : List (List Nat)) (en : Nat), (∀ ns ∈ nss, ns.length = nn ∧ ns.Nodup ∧
      (∀ n ∈ ns, 0 < n ∧ n ≤ pos.length) ∧ elementSound t pos ns 0) →
    ∃ els, elementsOf t E k pos en nss = .ok els ∧ AllMade t W k pos en nss els := by
  intro nss
  induction nss with
  | nil => intro en _; exact ⟨[], rfl, .nil⟩
  | cons ns nss ih =>
    intro en h
    obtain ⟨h1, h2, h3, h4⟩ := h ns (by simp)
    obtain ⟨el, e1, e2⟩ := elementOf_ok ht hE k en h1 h2 h3 h4
    obtain ⟨els, f1, f2⟩ := ih (en + 1) (fun x hx => h x (by simp [hx]))
    exact ⟨el :: els, by unfold elementsOf; rw [e1, Res.ok_bind, f1, Res.ok_bind], .cons e2 f2⟩

theorem AllMade.fresh {t : ElementType} {W : ℝ → ℝ → ℝ} {k : ℝ} {pos : List (ℝ × ℝ × ℝ)} {en : Nat} {nss : List (List Nat)}
    {els : List El} (h : AllMade t W k pos en nss els) : ∀ el ∈ els, el.Fresh := by
  induction h with
  | nil => simp
  | cons h1 _ ih =>
    intro el hel
    rcases List.mem_cons.mp hel with rfl | hel
    · exact h1.fresh
    · exact ih el hel

theorem AllMade.pot {t : ElementType} {W : ℝ → ℝ → ℝ} {k : ℝ} {pos : List (ℝ × ℝ × ℝ)} {en : Nat} {nss : List (List Nat)}
    {els : List El} (h : AllMade t W k pos en nss els) (z : ℝ) (num : Key → Nat) (u : Nat → ℝ) :
    (els.map (El.potential z num u)).sum = ((nss.zipIdx en).map (fun e => elementEnergy t W k pos e.1 (fun f => u (num f))
      (u (num (.elem, e.2, .HYDRO_PRESSURE))))).sum := by
  induction h with
  | nil => simp
  | cons h1 _ ih =>
    simp only [List.map_cons, List.sum_cons, List.zipIdx_cons]
    rw [ih, h1.pot]

theorem AllMade.sound {t : ElementType} {W : ℝ → ℝ → ℝ} {k : ℝ} {pos : List (ℝ × ℝ × ℝ)} {en : Nat} {nss : List (List Nat)}
    {els : List El} (h : AllMade t W k pos en nss els) (num : Key → Nat) (u : Nat → ℝ) :
    (∀ el ∈ els, el.Sound num u) ↔ ∀ ns ∈ nss, elementSound t pos ns (fun f => u (num f)) := by
  induction h with
  | nil => simp
  | cons h1 _ ih =>
    simp only [List.forall_mem_cons]
    rw [ih, h1.sound]

theorem AllMade.ready {t : ElementType} {W : ℝ → ℝ → ℝ} {k : ℝ} {pos : List (ℝ × ℝ × ℝ)} {en : Nat} {nss : List (List Nat)}
    {els : List El} (h : AllMade t W k pos en nss els) (S : Storage ℝ) (regs : List Key)
    (h1 : ∀ (i : Nat) ns, nss[i]? = some ns → ns = elNodes S.elements (en + i))
    (h2 : ∀ ns ∈ nss, ∀ n ∈ ns, ∀ d ∈ displ t, (Side.node, n, d) ∈ regs)
    (h3 : ∀ i, i < nss.length → (Side.elem, en + i, DofType.HYDRO_PRESSURE) ∈ regs) : ∀ el ∈ els, el.Ready S regs := by
  induction h with
  | nil => simp
  | @cons en ns nss el els hm _ ih =>
    intro x hx
    rcases List.mem_cons.mp hx with rfl | hx
    · exact hm.ready S regs (h1 0 ns rfl) (h2 ns (by simp)) (h3 0 (by simp))
    · refine ih (fun i ns' hi => ?_) (fun ns' hns => h2 ns' (by simp [hns])) (fun i hi => ?_) x hx
      · have := h1 (i + 1) ns' (by simpa using hi)
        rw [show en + 1 + i = en + (i + 1) by omega]
        exact this
      · have := h3 (i + 1) (by simpa using hi)
        rw [show en + 1 + i = en + (i + 1) by omega]
        exact this

/-! ## Registered DoFs -/

theorem mem_elementCalls {ds : List DofType} : ∀ (nss : List (List Nat)) (en : Nat) (c : RegCall),
    c ∈ elementCalls ds en nss ↔ (∃ ns ∈ nss, ∃ n ∈ ns, c = (.node, n, ds)) ∨
      ∃ e, en ≤ e ∧ e < en + nss.length ∧ c = (.elem, e, [.HYDRO_PRESSURE]) := by
  intro nss
  induction nss with
  | nil =>
    intro en c
    simp only [elementCalls, List.not_mem_nil, false_and, exists_false, false_or, List.length_nil, false_iff]
    rintro ⟨e, h1, h2, _⟩
    omega
  | cons ns nss ih =>
    intro en c
    simp only [elementCalls, List.mem_append, List.mem_map, List.mem_cons, ih, List.length_cons]
    constructor
    · rintro (⟨n, h1, rfl⟩ | rfl | ⟨ns', h1, h2⟩ | ⟨e, h1, h2, rfl⟩)
      · exact Or.inl ⟨ns, Or.inl rfl, n, h1, rfl⟩
      · exact Or.inr ⟨en, le_refl _, by omega, rfl⟩
      · exact Or.inl ⟨ns', Or.inr h1, h2⟩
      · exact Or.inr ⟨e, by omega, by omega, rfl⟩
    · rintro (⟨ns', rfl | h1, n, h2, rfl⟩ | ⟨e, h1, h2, rfl⟩)
      · exact Or.inl ⟨n, h2, rfl⟩
      · exact Or.inr (Or.inr (Or.inl ⟨ns', h1, n, h2, rfl⟩))
      · by_cases he : e = en
        · subst he; exact Or.inr (Or.inl rfl)
        · exact Or.inr (Or.inr (Or.inr ⟨e, by omega, by omega, rfl⟩))

theorem bodyCalls_eq (r : RigidBody) : bodyCalls r = [(.node, r.master, [.UX, .UY, .UZ, .ROTX, .ROTY, .ROTZ])] := by
  obtain ⟨r', h, _⟩ := Rigid.pre_shaped r
  unfold bodyCalls
  rw [h]

theorem mem_callsOf {j : Job ℝ} {ds : List DofType} (c : RegCall) : c ∈ callsOf ds j ↔
    (∃ ns ∈ j.elems, ∃ n ∈ ns, c = (.node, n, ds)) ∨ (∃ e, 0 < e ∧ e ≤ j.elems.length ∧ c = (.elem, e, [.HYDRO_PRESSURE])) ∨
      ∃ r, j.rigid = some r ∧ c = (.node, r.master, [.UX, .UY, .UZ, .ROTX, .ROTY, .ROTZ]) := by
  unfold callsOf
  rw [List.mem_append, mem_elementCalls, or_assoc]
  refine or_congr_right (or_congr ?_ ?_)
  · constructor
    · rintro ⟨e, h1, h2, h3⟩; exact ⟨e, by omega, by omega, h3⟩
    · rintro ⟨e, h1, h2, h3⟩; exact ⟨e, by omega, by omega, h3⟩
  · unfold bodiesOf
    cases hr : j.rigid with
    | none => simp
    | some r => simp [bodyCalls_eq]

theorem dofsOf_displ {t : ElementType} {nn : Nat} (h : nodeCount t = some nn) : dofsOf t = some (displ t) := by
  cases t <;> simp [nodeCount] at h <;> rfl

theorem regKeys_has (j : Job ℝ) (f : Key) : f ∈ regKeys (callsOf (displ j.type) j) ↔ Has j f := by
  obtain ⟨s, n, d⟩ := f
  rw [mem_regKeys]
  simp only [mem_callsOf, Prod.mk.injEq]
  constructor
  · rintro ⟨ts, (⟨ns, h1, n', h2, rfl, rfl, rfl⟩ | ⟨e, h1, h2, rfl, rfl, rfl⟩ | ⟨r, h1, rfl, rfl, rfl⟩), hd⟩
    · exact .node h1 h2 hd
    · rw [List.mem_singleton] at hd
      subst hd
      exact .pressure h1 h2
    · exact .master h1 hd
  · intro h
    cases h with
    | node h1 h2 h3 => exact ⟨_, Or.inl ⟨_, h1, _, h2, rfl, rfl, rfl⟩, h3⟩
    | pressure h1 h2 => exact ⟨_, Or.inr (Or.inl ⟨_, h1, h2, rfl, rfl, rfl⟩), by simp⟩
    | master h1 h2 => exact ⟨_, Or.inr (Or.inr ⟨_, h1, rfl, rfl, rfl⟩), h2⟩

end

end Nla3d.Prog
