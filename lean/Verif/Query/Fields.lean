import Verif.Query.Props

/-!
# C115: the fields of the linear elements in the files with results
-/

noncomputable section

namespace Nla3d.Query

open Nla3d.Labels Nla3d.Vtk Nla3d.Post Nla3d.Storage Nla3d.Tetra

/-- The answer of an element with `GP_MEAN` and scale 1; an undefined one counts as none. src/lib/VtkProcessor.cpp:245-272 -/
def answer {α : Type} : Res (Option α) → Option α
  | .ok r => r
  | _ => none

/-- What `VtkProcessor` gets from the elements of a list. src/lib/VtkProcessor.cpp:245-272 -/
def askOf (els : List LEl) : Ask ℝ where
  scalar i q := els[i]?.bind fun e => answer (scalar e q gpMean 1 0)
  vector i q := els[i]?.bind fun e => (answer (vector e q gpMean 1 0)).map fun v => ⟨v 0, v 1, v 2⟩
  tensor i q := els[i]?.bind fun e => answer (tensor e q gpMean 1 0)

/-! ## Specification -/

/-- The volume of a tetrahedron; 0 for other elements. -/
def volumeOf : LEl → ℝ
  | .tetra0 e _ => e.vol
  | .tetra1 v _ _ => v
  | _ => 0

/-- The flux of a heat tetrahedron, times `c`; 0 for other elements. -/
def fluxOf (c : ℝ → ℝ) : LEl → Pt ℝ
  | .tetra1 _ k f => ⟨f 0 * c k, f 1 * c k, f 2 * c k⟩
  | _ => ⟨0, 0, 0⟩

/-- What is shown under the name `C`: strains of tetrahedra, displacement jumps of INTER0. -/
def strainsOf : LEl → Fin 6 → ℝ
  | .tetra0 e _ => ![e.strains 0, e.strains 3, e.strains 5, e.strains 1, e.strains 4, e.strains 2]
  | .inter0 s => ![s 0, 0, 0, s 1, 0, s 2]
  | _ => 0

/-- What is shown under the name `E`: stresses of tetrahedra. -/
def stressOf : LEl → Fin 6 → ℝ
  | .tetra0 e _ => ![e.stress 0, e.stress 3, e.stress 5, e.stress 1, e.stress 4, e.stress 2]
  | _ => 0

/-- Thermal strain. -/
def thermalOf : LEl → Fin 6 → ℝ
  | .tetra0 e _ => sym6 ((e.alpha * e.T) • 1)
  | _ => 0

/-! ## Lemmas -/

theorem map_range {α β : Type} (l : List α) (g : Nat → β) (f : α → β) (h : ∀ i a, l[i]? = some a → g i = f a) :
    (List.range l.length).map g = l.map f := by
  apply List.ext_getElem
  · simp
  · intro i h1 h2
    have hi : i < l.length := by simpa using h2
    rw [List.getElem_map, List.getElem_map, List.getElem_range]
    exact h i _ (List.getElem?_eq_getElem hi)

/-! ## C115 -/

/-- **C115, fields, partial.** The fields of a file for elements that can be asked: a line for every element, with the volume, the flux
and so on of it, and 0 for elements that do not know the query. Missing: `E`, `C` and `GRADT` do not show what their names say, see
`C115_strain_violated` and `C115_gradient_violated`. -/
theorem C115_fields_partial {els : List LEl} (hr : ∀ e ∈ els, e.Ready) {V : View ℝ} (ha : V.ask = askOf els)
    (hl : V.elems.length = els.length) :
    scalarField V 5 = .ok (scalarLines "VOL" (els.map volumeOf)) ∧
    vectorField V 2 = .ok (vectorLines "FLUX" (els.map (fluxOf fun _ => 1))) ∧
    vectorField V 3 = .ok (vectorLines "GRADT" (els.map (fluxOf fun k => 1 / k))) ∧
    tensorField V 3 = .ok (tensorLines "E" (els.map stressOf)) ∧
    tensorField V 4 = .ok (tensorLines "C" (els.map strainsOf)) ∧
    tensorField V 5 = .ok (tensorLines "TSTRAIN" (els.map thermalOf)) := by
  have hmem : ∀ {i : Nat} {e : LEl}, els[i]? = some e → e.Ready := fun h => hr _ (List.mem_iff_getElem?.mpr ⟨_, h⟩)
  refine ⟨?_, ?_, ?_, ?_, ?_, ?_⟩
  · unfold scalarField
    rw [show queryLabel scalarLabels 5 = .ok "VOL" by decide, Res.ok_bind, hl]
    congr 2
    refine map_range _ _ _ fun i e he => ?_
    have hrd := hmem he
    rw [ha]
    simp only [askOf, he, Option.bind_some]
    cases e with
    | tetra0 e b =>
      obtain rfl : b = true := hrd
      simp [scalar, answer, volumeOf]
    | tetra1 v k f => simp [scalar, answer, volumeOf]
    | inter0 s => simp [scalar, answer, volumeOf]
    | inter3 s t => simp [scalar, answer, volumeOf]
    | plain t => simp [scalar, answer, volumeOf]
  · unfold vectorField
    rw [show queryLabel vectorLabels 2 = .ok "FLUX" by decide, Res.ok_bind, hl]
    congr 2
    refine map_range _ _ _ fun i e he => ?_
    rw [ha]
    simp only [askOf, he, Option.bind_some]
    cases e <;> simp [vector, answer, fluxOf, Pt.zero]
  · unfold vectorField
    rw [show queryLabel vectorLabels 3 = .ok "GRADT" by decide, Res.ok_bind, hl]
    congr 2
    refine map_range _ _ _ fun i e he => ?_
    rw [ha]
    simp only [askOf, he, Option.bind_some]
    cases e <;> simp [vector, answer, fluxOf, Pt.zero]
  · unfold tensorField
    rw [show queryLabel tensorLabels 3 = .ok "E" by decide, Res.ok_bind, hl]
    congr 2
    refine map_range _ _ _ fun i e he => ?_
    have hrd := hmem he
    rw [ha]
    simp only [askOf, he, Option.bind_some]
    cases e with
    | inter3 s t => exact absurd hrd id
    | tetra0 e b =>
      simp only [tensor, answer, stressOf, addSix_eq]
      funext j
      simp
    | _ =>
      simp only [tensor, answer, stressOf]
      funext j
      simp
  · unfold tensorField
    rw [show queryLabel tensorLabels 4 = .ok "C" by decide, Res.ok_bind, hl]
    congr 2
    refine map_range _ _ _ fun i e he => ?_
    have hrd := hmem he
    rw [ha]
    simp only [askOf, he, Option.bind_some]
    cases e with
    | inter3 s t => exact absurd hrd id
    | tetra0 e b =>
      simp only [tensor, answer, strainsOf, addSix_eq]
      funext j
      simp
    | inter0 s =>
      simp only [tensor, answer, strainsOf, addSix_eq]
      funext j
      simp
    | _ =>
      simp only [tensor, answer, strainsOf]
      funext j
      simp
  · unfold tensorField
    rw [show queryLabel tensorLabels 5 = .ok "TSTRAIN" by decide, Res.ok_bind, hl]
    congr 2
    refine map_range _ _ _ fun i e he => ?_
    have hrd := hmem he
    rw [ha]
    simp only [askOf, he, Option.bind_some]
    cases e with
    | inter3 s t => exact absurd hrd id
    | tetra0 e b =>
      simp only [tensor, answer, thermalOf, addSix_eq]
      funext j
      fin_cases j <;> simp [sym6]
    | _ =>
      simp only [tensor, answer, thermalOf]
      funext j
      simp

/-! ## Cases -/

/-- A tetrahedron of steel. -/
def steel : Elem0 := { E := 2, my := 1 / 4, alpha := 1 / 100, T := 50 }

/-! The hypotheses about tetrahedra hold for the unit tetrahedron, with a linear field that is not constant. -/
example : (matS unitTet).det ≠ 0 ∧ Admissible steel ∧ ∃ T : Fin 4 → ℝ, (∀ a, T a = 3 + ∑ j, (![1, 0, 2] : Fin 3 → ℝ) j * unitTet a j) ∧
    (![1, 0, 2] : Fin 3 → ℝ) ≠ 0 := by
  refine ⟨by rw [unitTet_det]; norm_num, ⟨by norm_num [steel], by norm_num [steel], by norm_num [steel]⟩, _, fun a => rfl, fun h => ?_⟩
  have := congrFun h 0
  simp at this

/-! `E` of the stretched unit tetrahedron is not its strain: with `E = 2` and Poisson's ratio 1/4 the answer is 12/5 where the strain is 1. -/
example (gp : Nat) : ∃ e1 K F e2, buildK0 unitTet steel = .ok (e1, K, F) ∧
    update0 unitTet (affineField unitTet 0 (Matrix.of ![![1, 0, 0], ![0, 0, 0], ![0, 0, 0]])) e1 = .ok e2 ∧
    ∃ r, tensor (.tetra0 e2 true) 3 gp 1 0 = .ok (some r) ∧ r 0 = 12 / 5 := by
  obtain ⟨e1, K, F, e2, h1, h2, h3, _⟩ := C115_strain_violated (pos := unitTet) (by rw [unitTet_det]; norm_num)
    (e := steel) ⟨by norm_num [steel], by norm_num [steel], by norm_num [steel]⟩ 0 (Matrix.of ![![1, 0, 0], ![0, 0, 0], ![0, 0, 0]]) gp
  refine ⟨e1, K, F, e2, h1, h2, _, h3 0, ?_⟩
  simp [sym6, hookeStress, smallStrain, lameLam, lameMu, steel, Matrix.trace, Fin.sum_univ_succ]
  norm_num

/-- A model with elements of several kinds. -/
def several : List LEl := [.tetra1 (1 / 6) 3 ![1, 2, 3], .inter0 ![0, 0, 1], .plain .TRUSS3]

example : (∀ e ∈ several, e.WellTyped) ∧ (∀ e ∈ several, e.Ready) ∧ ∃ V : View ℝ, V.ask = askOf several ∧ V.elems.length = several.length := by
  refine ⟨?_, ?_, ⟨Storage.fresh 0 [] [] false, [], [⟨.TETRA1, .TETRA, []⟩, ⟨.INTER0, .TWIN_VERTEX, []⟩, ⟨.TRUSS3, .LINE, []⟩], _⟩, rfl, rfl⟩
  · intro e he
    simp only [several, List.mem_cons, List.not_mem_nil, or_false] at he
    rcases he with rfl | rfl | rfl
    · trivial
    · trivial
    · exact Or.inl rfl
  · intro e he
    simp only [several, List.mem_cons, List.not_mem_nil, or_false] at he
    rcases he with rfl | rfl | rfl <;> trivial

/-! A fresh model with a TETRA0 element. -/
example : ∃ els : List LEl, (∀ e ∈ els, e.WellTyped) ∧ (∀ e b, LEl.tetra0 e b ∈ els → b = false) ∧ ∃ e ∈ els, e.type = .TETRA0 := by
  refine ⟨[.tetra0 steel false], ?_, ?_, _, List.mem_singleton_self _, rfl⟩
  · intro e he
    rw [List.mem_singleton] at he
    subst he
    trivial
  · intro e b he
    rw [List.mem_singleton] at he
    injection he

end Nla3d.Query
