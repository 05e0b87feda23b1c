import Verif.Prog.Props
import Verif.Prog.Renumber

/-!
# C106: the report depends on the model, not on numbering and order
-/

namespace Nla3d.Prog

open Nla3d.Main (Job)
open Nla3d.Cmd (Options)

noncomputable section

variable {o : Options ℝ} {ref : List ℝ} {j j' : Job ℝ} {W : ℝ → ℝ → ℝ} {k : ℝ} {σ τ : Equiv.Perm Nat}

/-- What is reported determines table and return value. -/
theorem reported_unique {ends : List (Vals × Vals)} {t t' : Option (List (List ℝ))} {c c' : Nat} (h : Reported o ref j ends t c)
    (h' : Reported o ref j ends t' c') : t' = t ∧ c' = c := by
  unfold Reported at h h'
  cases hr : j.react with
  | none =>
    rw [hr] at h h'
    exact ⟨by rw [h.1, h'.1], by rw [h.2, h'.2]⟩
  | some a =>
    rw [hr] at h h'
    obtain ⟨h1, h2, h3⟩ := h
    obtain ⟨g1, g2, g3⟩ := h'
    refine ⟨by rw [h1, g1], ?_⟩
    have := h3.trans g3.symm
    omega

/-- **C106.** Values and reactions that satisfy the equations of Newton's method for a job, in fine steps, are what the program finds: a
finished run for the job, or for any job that differs from it in numbering and order only, reports them. -/
theorem C106_report (h : Runnable o ref j) (h' : Runnable o ref j') (R : Renumbers σ τ j j') (hview : Viewable j')
    (hlaw : MatLaw o.material j.constants W k) {ends : List (Vals × Vals)} (hc : CleanPath W k j 0 0 ends)
    (hlen : ends.length = j.loadsteps) {inner fuel : Nat} (hin : max 1 j'.iterations ≤ inner) (hfuel : j'.loadsteps < fuel)
    {table : Option (List (List ℝ))} {code : Nat} {files : Files}
    (hrun : runJob o ref j' inner fuel = .ok (.done table code files)) : Reported o ref j ends table code := by
  rcases C101_job h' hview (R.constants ▸ hlaw) hin hfuel with ⟨hf, _⟩ | ⟨table', code', files', ends', g1, g2, g3, g4, _⟩
  · rw [hrun] at hf; simp at hf
  rw [hrun] at g1
  simp only [Except.ok.injEq, Ending.done.injEq] at g1
  obtain ⟨rfl, rfl, rfl⟩ := g1
  have := path_ren R h h' g2 hc (by rw [g3, hlen, R.loadsteps])
  rw [this]
  exact reported_ren R h g4

/-- **C106, files.** The files of such a run show these values and reactions at the new numbers. -/
theorem C106_files (h : Runnable o ref j) (h' : Runnable o ref j') (R : Renumbers σ τ j j') (hview : Viewable j')
    (hlaw : MatLaw o.material j.constants W k) {ends : List (Vals × Vals)} (hc : CleanPath W k j 0 0 ends)
    (hlen : ends.length = j.loadsteps) {inner fuel : Nat} (hin : max 1 j'.iterations ≤ inner) (hfuel : j'.loadsteps < fuel)
    {table : Option (List (List ℝ))} {code : Nat} {files : Files}
    (hrun : runJob o ref j' inner fuel = .ok (.done table code files)) :
    Written W k j' (ends.map (fun e => (fun f => e.1 (ren σ⁻¹ τ⁻¹ f), fun f => e.2 (ren σ⁻¹ τ⁻¹ f)))) files := by
  rcases C101_job h' hview (R.constants ▸ hlaw) hin hfuel with ⟨hf, _⟩ | ⟨table', code', files', ends', g1, g2, g3, g4, g5⟩
  · rw [hrun] at hf; simp at hf
  rw [hrun] at g1
  simp only [Except.ok.injEq, Ending.done.injEq] at g1
  obtain ⟨rfl, rfl, rfl⟩ := g1
  have := path_ren R h h' g2 hc (by rw [g3, hlen, R.loadsteps])
  rw [this, List.map_map]
  have e : ((fun e : Vals × Vals => ((fun f => e.1 (ren σ⁻¹ τ⁻¹ f), fun f => e.2 (ren σ⁻¹ τ⁻¹ f)) : Vals × Vals)) ∘
      fun e : Vals × Vals => (pull σ τ e.1, pull σ τ e.2)) = id := by
    funext e
    simp only [Function.comp, pull, ren_ren, id]
  rw [e, List.map_id]
  exact g5

/-- Every job is the same model as itself. -/
theorem Renumbers.refl (j : Job ℝ) : Renumbers 1 1 j j where
  constants := rfl
  type := rfl
  loadsteps := rfl
  pos := fun _ _ _ => rfl
  elems := by simp
  loads := by
    have : renBc 1 = id := rfl
    rw [this, List.map_id]
  fixs := by
    rintro ⟨s, n, d⟩
    cases s <;> rfl
  mpcs := by
    have e : renTerm 1 = id := rfl
    exact ⟨fun m hm => ⟨m, hm, rfl, by rw [e, List.map_id]⟩, fun m hm => ⟨m, hm, rfl, by rw [e, List.map_id]⟩⟩
  rigid := by
    cases h : j.rigid with
    | none => exact .inl ⟨rfl, rfl⟩
    | some r => exact .inr ⟨r, r, rfl, rfl, rfl, fun _ => Iff.rfl, fun _ => Iff.rfl⟩
  react := by
    cases h : j.react with
    | none => exact .inl ⟨rfl, rfl⟩
    | some a => exact .inr ⟨a, a, rfl, rfl, rfl, by simp, by simp⟩

/-- **C106, two runs.** Two finished runs, for jobs that differ in numbering and order only, print the same table and return the same
value, if there are such steps for the model. -/
theorem C106_same {j₁ j₂ : Job ℝ} {σ₁ τ₁ σ₂ τ₂ : Equiv.Perm Nat} (h : Runnable o ref j) (h₁ : Runnable o ref j₁) (h₂ : Runnable o ref j₂)
    (R₁ : Renumbers σ₁ τ₁ j j₁) (R₂ : Renumbers σ₂ τ₂ j j₂) (v₁ : Viewable j₁) (v₂ : Viewable j₂)
    (hlaw : MatLaw o.material j.constants W k) (hc : ∃ ends, CleanPath W k j 0 0 ends ∧ ends.length = j.loadsteps) {inner fuel : Nat}
    (hin : max 1 (max j₁.iterations j₂.iterations) ≤ inner) (hfuel : j.loadsteps < fuel) {t₁ t₂ : Option (List (List ℝ))} {c₁ c₂ : Nat}
    {f₁ f₂ : Files} (e₁ : runJob o ref j₁ inner fuel = .ok (.done t₁ c₁ f₁))
    (e₂ : runJob o ref j₂ inner fuel = .ok (.done t₂ c₂ f₂)) : t₁ = t₂ ∧ c₁ = c₂ := by
  obtain ⟨ends, g1, g2⟩ := hc
  have r₁ := C106_report h h₁ R₁ v₁ hlaw g1 g2 (by omega) (by rw [R₁.loadsteps]; exact hfuel) e₁
  have r₂ := C106_report h h₂ R₂ v₂ hlaw g1 g2 (by omega) (by rw [R₂.loadsteps]; exact hfuel) e₂
  exact reported_unique r₂ r₁

end

end Nla3d.Prog
