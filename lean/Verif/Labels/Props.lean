import Verif.Labels.Model
import Mathlib.Data.List.Basic
import Mathlib.Tactic.IntervalCases

/-! # Property C12: labels -/

namespace Nla3d.Labels

open Nla3d.Dof (DofType)

/-- The search returns the first position whose label equals the string. -/
theorem findLabel_spec (labels : List String) (s : String) : ∀ (n i : Nat), i + n ≤ labels.length →
    (∃ k, i ≤ k ∧ k < i + n ∧ labels[k]? = some s ∧ (∀ k', i ≤ k' → k' < k → labels[k']? ≠ some s) ∧
      findLabel labels s i n = .ok (some k)) ∨
    ((∀ k, i ≤ k → k < i + n → labels[k]? ≠ some s) ∧ findLabel labels s i n = .ok none) := by
  intro n
  induction n with
  | zero => intro i _; right; exact ⟨by omega, rfl⟩
  | succ n ih =>
    intro i h
    have hlt : i < labels.length := by omega
    have hi : labels[i]? = some labels[i] := List.getElem?_eq_getElem hlt
    simp only [findLabel, Res.read_of_lt hlt, Res.ok_bind]
    by_cases he : s = labels[i]
    · left
      exact ⟨i, le_refl _, by omega, by rw [hi, he], by omega, by rw [if_pos he]⟩
    · rw [if_neg he]
      have hne : labels[i]? ≠ some s := by
        rw [hi]; simp only [ne_eq, Option.some.injEq]; exact fun e => he e.symm
      rcases ih (i + 1) (by omega) with ⟨k, k1, k2, k3, k4, k5⟩ | ⟨k1, k2⟩
      · left
        refine ⟨k, by omega, by omega, k3, ?_, k5⟩
        intro k' q1 q2
        by_cases hk : k' = i
        · subst hk; exact hne
        · exact k4 k' (by omega) q2
      · right
        refine ⟨?_, k2⟩
        intro k q1 q2
        by_cases hk : k = i
        · subst hk; exact hne
        · exact k1 k (by omega) (by omega)

/-- **C12, DoF types.** `label2dofType s = t` for a proper type `t` exactly when `s` is the label of `t`; all other
strings give `UNDEFINED`. Hence the round trip, and labels are distinct. -/
theorem C12_dof (s : String) :
    ∃ r, label2dofType s = .ok r ∧ (∀ t, t ≠ .UNDEFINED → (r = t ↔ dofType2label t = .ok s)) ∧
      (r = .UNDEFINED ↔ ∀ t, dofType2label t ≠ .ok s) := by
  unfold label2dofType
  rcases findLabel_spec dofTypeLabels s 8 0 (by decide) with ⟨k, _, k2, k3, _, k5⟩ | ⟨k1, k2⟩
  · rw [k5]
    have hk : k < 8 := by omega
    clear k2 k5
    interval_cases k <;> simp [dofTypeLabels] at k3 <;> subst k3 <;>
      refine ⟨_, rfl, ?_, ?_⟩ <;> (try (intro t ht; cases t <;> first | exact absurd rfl ht | decide)) <;>
      simp only [reduceCtorEq, false_iff, not_forall, ne_eq, not_not]
    · exact ⟨.UX, by decide⟩
    · exact ⟨.UY, by decide⟩
    · exact ⟨.UZ, by decide⟩
    · exact ⟨.ROTX, by decide⟩
    · exact ⟨.ROTY, by decide⟩
    · exact ⟨.ROTZ, by decide⟩
    · exact ⟨.HYDRO_PRESSURE, by decide⟩
    · exact ⟨.TEMP, by decide⟩
  · rw [k2]
    have hno : ∀ t, dofType2label t ≠ .ok s := by
      intro t ht
      unfold dofType2label at ht
      split at ht
      · rename_i hlt
        exact k1 _ (by omega) (by omega) (Res.read_eq_ok.mp ht)
      · simp at ht
    refine ⟨.UNDEFINED, rfl, ?_, by simp only [true_iff]; exact hno⟩
    intro t ht
    constructor
    · intro he; exact absurd he.symm ht
    · intro he; exact absurd he (hno t)

/-- **C12, element types.** -/
theorem C12_element (s : String) :
    ∃ r, elName2elType s = .ok r ∧ (∀ t, t ≠ .UNDEFINED → (r = t ↔ elType2label t = .ok s)) ∧
      (r = .UNDEFINED ↔ ∀ t, t ≠ .UNDEFINED → elType2label t ≠ .ok s) := by
  unfold elName2elType
  rcases findLabel_spec elTypeLabels s 10 0 (by decide) with ⟨k, _, k2, k3, _, k5⟩ | ⟨k1, k2⟩
  · rw [k5]
    have hk : k < 10 := by omega
    clear k2 k5
    interval_cases k <;> simp [elTypeLabels] at k3 <;> subst k3 <;>
      refine ⟨_, rfl, ?_, ?_⟩ <;> (try (intro t ht; cases t <;> first | exact absurd rfl ht | decide)) <;>
      simp only [reduceCtorEq, false_iff, not_forall, ne_eq, not_not]
    · exact ⟨.TRUSS3, by decide, by decide⟩
    · exact ⟨.PLANE41, by decide, by decide⟩
    · exact ⟨.SOLID81, by decide, by decide⟩
    · exact ⟨.TETRA0, by decide, by decide⟩
    · exact ⟨.TETRA1, by decide, by decide⟩
    · exact ⟨.QUADTH, by decide, by decide⟩
    · exact ⟨.SurfaceLINETH, by decide, by decide⟩
    · exact ⟨.TRIANGLE4, by decide, by decide⟩
    · exact ⟨.INTER0, by decide, by decide⟩
    · exact ⟨.INTER3, by decide, by decide⟩
  · rw [k2]
    have hno : ∀ t, t ≠ .UNDEFINED → elType2label t ≠ .ok s := by
      intro t htu ht
      unfold elType2label at ht
      refine k1 _ (by omega) ?_ (Res.read_eq_ok.mp ht)
      cases t <;> first | exact absurd rfl htu | decide
    refine ⟨.UNDEFINED, rfl, ?_, by simp only [true_iff]; exact hno⟩
    intro t ht
    constructor
    · intro he; exact absurd he.symm ht
    · intro he; exact absurd he (hno t ht)

/-- **C12, material types.** -/
theorem C12_material (s : String) :
    ∃ r, matName2matId s = .ok r ∧ (∀ t, t ≠ .NOT_DEFINED → (r = t ↔ matId2label t = .ok s)) ∧
      (r = .NOT_DEFINED ↔ ∀ t, t ≠ .NOT_DEFINED → matId2label t ≠ .ok s) := by
  unfold matName2matId
  rcases findLabel_spec matModelLabels s 4 0 (by decide) with ⟨k, _, k2, k3, _, k5⟩ | ⟨k1, k2⟩
  · rw [k5]
    have hk : k < 4 := by omega
    clear k2 k5
    interval_cases k <;> simp [matModelLabels] at k3 <;> subst k3 <;>
      refine ⟨_, rfl, ?_, ?_⟩ <;> (try (intro t ht; cases t <;> first | exact absurd rfl ht | decide)) <;>
      simp only [reduceCtorEq, false_iff, true_iff, not_forall, ne_eq, not_not]
    · intro t ht; cases t <;> first | exact absurd rfl ht | decide
    · exact ⟨.NEO_HOOKEAN_COMP, by decide, by decide⟩
    · exact ⟨.BIDERMAN_COMP, by decide, by decide⟩
    · exact ⟨.MOONEYRIVLIN_COMP, by decide, by decide⟩
  · rw [k2]
    have hno : ∀ t, t ≠ .NOT_DEFINED → matId2label t ≠ .ok s := by
      intro t htu ht
      unfold matId2label at ht
      refine k1 _ (by omega) ?_ (Res.read_eq_ok.mp ht)
      cases t <;> first | exact absurd rfl htu | decide
    refine ⟨.NOT_DEFINED, rfl, ?_, by simp only [true_iff]; exact hno⟩
    intro t ht
    constructor
    · intro he; exact absurd he.symm ht
    · intro he; exact absurd he (hno t ht)

/-- What a user writes for an element type: the identifier of the enumerator. -/
def ElementType.ident : ElementType → String
  | .TRUSS3 => "TRUSS3" | .PLANE41 => "PLANE41" | .SOLID81 => "SOLID81" | .TETRA0 => "TETRA0" | .TETRA1 => "TETRA1"
  | .QUADTH => "QUADTH" | .SurfaceLINETH => "SurfaceLINETH" | .TRIANGLE4 => "TRIANGLE4" | .INTER0 => "INTER0"
  | .INTER3 => "INTER3" | .UNDEFINED => "UNDEFINED"

/-- What a user writes for a DoF type. -/
def dofIdent : DofType → String
  | .UX => "UX" | .UY => "UY" | .UZ => "UZ" | .ROTX => "ROTX" | .ROTY => "ROTY" | .ROTZ => "ROTZ"
  | .HYDRO_PRESSURE => "HYDRO_PRESSURE" | .TEMP => "TEMP" | .UNDEFINED => "UNDEFINED"

/-- **C12, labels are the identifiers.** The label of a type is its identifier (two entries of a table exchanged would
keep the round trip but mean another type). -/
theorem C12_identifiers : (∀ t : ElementType, elType2label t = .ok t.ident) ∧
    ∀ t : DofType, t ≠ .UNDEFINED → dofType2label t = .ok (dofIdent t) := by
  constructor
  · intro t; cases t <;> rfl
  · intro t ht; cases t <;> first | exact absurd rfl ht | rfl

/-- Round trip as a corollary. -/
theorem C12_dof_round_trip (t : DofType) (ht : t ≠ .UNDEFINED) :
    ∃ s, dofType2label t = .ok s ∧ label2dofType s = .ok t := by
  have h : ∃ s, dofType2label t = .ok s := by cases t <;> first | exact absurd rfl ht | exact ⟨_, rfl⟩
  obtain ⟨s, hs⟩ := h
  obtain ⟨r, h1, h2, _⟩ := C12_dof s
  exact ⟨s, hs, by rw [h1, (h2 t ht).mpr hs]⟩

/-- Distinct types have distinct labels. -/
theorem C12_labels_distinct (a b : ElementType) (s : String) (ha : elType2label a = .ok s) (hb : elType2label b = .ok s) :
    a = b := by
  by_cases h1 : a = .UNDEFINED <;> by_cases h2 : b = .UNDEFINED
  · rw [h1, h2]
  · subst h1; revert ha hb; cases b <;> simp [elType2label, ElementType.toNat, elTypeLabels, Res.read] <;>
      (rintro rfl; decide)
  · subst h2; revert ha hb; cases a <;> simp [elType2label, ElementType.toNat, elTypeLabels, Res.read] <;>
      (rintro rfl; decide)
  · obtain ⟨r, _, hr, _⟩ := C12_element s
    rw [← (hr a h1).mpr ha, ← (hr b h2).mpr hb]

/-- **C12, materials the factory creates: what holds.** For the labels "Neo-Hookean" and "Biderman" the created object's
name is the label, so the factory can create it again. The missing part is "Mooney-Rivlin", see `C12_mooney_name`. -/
theorem C12_factory_name_partial (s : String) (m : MatObj) (h : createMaterial s = .ok (some m)) (hs : s ≠ "Mooney-Rivlin") :
    m.name = s ∧ createMaterial m.name = .ok (some m) := by
  obtain ⟨r, h1, h2, _⟩ := C12_material s
  have hrec := h
  unfold createMaterial at h
  rw [h1] at h
  cases r with
  | NOT_DEFINED => simp at h
  | NEO_HOOKEAN_COMP =>
    have := (h2 .NEO_HOOKEAN_COMP (by decide)).mp rfl
    simp [matId2label, MatId.toNat, matModelLabels, Res.read] at this
    simp at h
    subst this; subst h
    exact ⟨rfl, hrec⟩
  | BIDERMAN_COMP =>
    have := (h2 .BIDERMAN_COMP (by decide)).mp rfl
    simp [matId2label, MatId.toNat, matModelLabels, Res.read] at this
    simp at h
    subst this; subst h
    exact ⟨rfl, hrec⟩
  | MOONEYRIVLIN_COMP =>
    have := (h2 .MOONEYRIVLIN_COMP (by decide)).mp rfl
    simp [matId2label, MatId.toNat, matModelLabels, Res.read] at this
    exact absurd this.symm hs

/-- **C12, what fails.** The object created for "Mooney-Rivlin" calls itself "Money-Rivlin", a name the factory does
not know. -/
theorem C12_mooney_name : ∃ m, createMaterial "Mooney-Rivlin" = .ok (some m) ∧ createMaterial m.name = .ok none :=
  ⟨⟨"Money-Rivlin", ["C10", "C01", "K"], 3⟩, by decide, by decide⟩

/-- The hypotheses of `C12_factory_name_partial` are met. -/
example : createMaterial "Biderman" = .ok (some ⟨"Biderman", ["C10", "C20", "C30", "C01", "K"], 2⟩) := by decide

example : label2dofType "ROTY" = .ok .ROTY ∧ label2dofType "ux" = .ok .UNDEFINED := by decide

end Nla3d.Labels
