import Verif.Prog.Translate
import Verif.Prog.Example

/-!
# Models that meet the hypotheses of C106 and C107
-/

namespace Nla3d.Prog

open Nla3d.Dof Nla3d.Storage Nla3d.Iso Nla3d.Labels
open Nla3d.Solver (Bc keyOf fixKeys lastFix)
open Nla3d.Rigid (transl)
open Nla3d.Main (Job)

noncomputable section

/-- The square of C101 without load: its fixed nodes, and the rigid body, are moved to the right by 2. -/
def squareMoved : Job ℝ :=
  { square with
    loads := []
    fixs := [⟨1, .UX, 2⟩, ⟨1, .UY, 0⟩, ⟨5, .UX, 2⟩, ⟨5, .UY, 0⟩, ⟨5, .UZ, 0⟩, ⟨5, .ROTX, 0⟩, ⟨5, .ROTY, 0⟩, ⟨5, .ROTZ, 0⟩] }

/-- The same model with other numbers: 1 for 5 and 5 for 1, and another order of terms, fixes, slave nodes and nodes of the report. -/
def squareNumbers : Job ℝ where
  constants := [1, 100]
  pos := [(1, 0, 0), (1, -1, 0), (1, 1, 0), (-1, 1, 0), (-1, -1, 0)]
  type := .PLANE41
  elems := [[5, 2, 3, 4]]
  mpcs := [⟨[⟨4, .UX, -1⟩, ⟨5, .UX, 1⟩], 0, 0⟩]
  loads := []
  fixs := [⟨1, .UX, 2⟩, ⟨1, .UY, 0⟩, ⟨1, .UZ, 0⟩, ⟨1, .ROTX, 0⟩, ⟨1, .ROTY, 0⟩, ⟨1, .ROTZ, 0⟩, ⟨5, .UY, 0⟩, ⟨5, .UX, 2⟩]
  iterations := 15
  loadsteps := 10
  vtk := none
  react := some ([5, 4], [])
  rigid := some ⟨1, [3, 2], [.UY, .UX]⟩

theorem squareMoved_has {f : Key} : Has squareMoved f ↔ Has square f := by
  constructor
  · rintro (⟨h1, h2, h3⟩ | ⟨h1, h2⟩ | ⟨h1, h2⟩)
    · exact .node h1 h2 h3
    · exact .pressure h1 h2
    · exact .master h1 h2
  · rintro (⟨h1, h2, h3⟩ | ⟨h1, h2⟩ | ⟨h1, h2⟩)
    · exact .node h1 h2 h3
    · exact .pressure h1 h2
    · exact .master h1 h2

theorem squareMoved_runnable : Runnable squareOptions [] squareMoved where
  type := square_runnable.type
  nonempty := square_runnable.nonempty
  nodes := square_runnable.nodes
  sound := square_runnable.sound
  loads := by simp [squareMoved]
  fixs := by
    intro f hf
    rw [squareMoved_has]
    simp only [squareMoved, List.mem_cons, List.not_mem_nil, or_false] at hf
    rcases hf with rfl | rfl | rfl | rfl | rfl | rfl | rfl | rfl
    · exact square_node (by decide) (by decide)
    · exact square_node (by decide) (by decide)
    all_goals exact square_master (by decide)
  mpcs := fun m hm => ⟨(square_runnable.mpcs m hm).1, fun t ht => squareMoved_has.mpr ((square_runnable.mpcs m hm).2 t ht)⟩
  master := square_runnable.master
  slaves := fun r hr => ⟨(square_runnable.slaves r hr).1, (square_runnable.slaves r hr).2.1,
    fun n hn d hd => squareMoved_has.mpr ((square_runnable.slaves r hr).2.2 n hn d hd)⟩
  size := square_runnable.size
  iterations := square_runnable.iterations
  loadsteps := square_runnable.loadsteps
  react := by
    intro ns ds h
    have : ([1, 4], ([] : List DofType)) = (ns, ds) := by simpa [squareMoved, square] using h
    rw [Prod.mk.injEq] at this
    obtain ⟨rfl, rfl⟩ := this
    refine ⟨by simp, by simp [squareMoved, square], by simp, fun _ d hd n hn => ?_⟩
    rw [squareMoved_has]
    have hd' : d = .UX ∨ d = .UY := by simpa [fixKeys, squareMoved, keyOf] using hd
    have hn' : n = 1 ∨ n = 4 := by simpa using hn
    rcases hn' with rfl | rfl <;> rcases hd' with rfl | rfl <;> exact square_node (by decide) (by decide)

theorem squareMoved_carried : Carried squareMoved ![2, 0, 0] where
  loads := rfl
  fixs := by
    intro f hf
    simp only [squareMoved, List.mem_cons, List.not_mem_nil, or_false] at hf
    rcases hf with rfl | rfl | rfl | rfl | rfl | rfl | rfl | rfl <;> simp [keyOf, dir]
  mpcs := by
    intro m hm
    have : m = ⟨[⟨1, .UX, 1⟩, ⟨4, .UX, -1⟩], 0, 0⟩ := by simpa [squareMoved, square] using hm
    subst this
    exact ⟨rfl, by simp [lhsOf, dir]⟩
  big := by
    intro i
    fin_cases i
    · right; norm_num
    · left; rfl
    · left; rfl

theorem numbers_node {n : Nat} (hn : n ∈ [5, 2, 3, 4]) {d : DofType} (hd : d ∈ [DofType.UX, .UY]) : Has squareNumbers (.node, n, d) :=
  .node (ns := [5, 2, 3, 4]) (by simp [squareNumbers]) hn hd

theorem numbers_master {d : DofType} (hd : d ∈ [DofType.UX, .UY, .UZ, .ROTX, .ROTY, .ROTZ]) : Has squareNumbers (.node, 1, d) :=
  .master (r := ⟨1, [3, 2], [.UY, .UX]⟩) rfl hd

theorem squareNumbers_runnable : Runnable squareOptions [] squareNumbers where
  type := ⟨4, rfl, by simp [squareNumbers]⟩
  nonempty := by simp [squareNumbers]
  nodes := by simp [squareNumbers]
  sound := by
    intro ns hns
    have hns : ns = [5, 2, 3, 4] := by simpa [squareNumbers] using hns
    subst hns
    intro q _
    have e : (flat (nodePos squareNumbers.pos [5, 2, 3, 4]) + flat (nodeDisp 0 [5, 2, 3, 4]) : Fin 4 → Fin 2 → ℝ) = affine 1 0 quadNodes := by
      funext a c
      fin_cases a <;> fin_cases c <;> simp [flat, nodePos, nodeDisp, posOf, squareNumbers, affine, quadNodes]
    show (jac quad (flat (nodePos squareNumbers.pos [5, 2, 3, 4]) + flat (nodeDisp 0 [5, 2, 3, 4]) : Fin 4 → Fin 2 → ℝ) q.xi).det ≠ 0
    rw [e, jac_affine C34_quad _ _ _ (quad_repr _)]
    simp
  loads := by simp [squareNumbers]
  fixs := by
    intro f hf
    simp only [squareNumbers, List.mem_cons, List.not_mem_nil, or_false] at hf
    rcases hf with rfl | rfl | rfl | rfl | rfl | rfl | rfl | rfl
    iterate 6 exact numbers_master (by decide)
    all_goals exact numbers_node (by decide) (by decide)
  mpcs := by
    intro m hm
    have : m = ⟨[⟨4, .UX, -1⟩, ⟨5, .UX, 1⟩], 0, 0⟩ := by simpa [squareNumbers] using hm
    subst this
    refine ⟨by simp, fun t ht => ?_⟩
    simp only [List.mem_cons, List.not_mem_nil, or_false] at ht
    rcases ht with rfl | rfl <;> exact numbers_node (by decide) (by decide)
  master := by
    intro r hr
    have : (⟨1, [3, 2], [.UY, .UX]⟩ : Main.RigidJob) = r := by simpa [squareNumbers] using hr
    subst this
    simp [squareNumbers]
  slaves := by
    intro r hr
    have : (⟨1, [3, 2], [.UY, .UX]⟩ : Main.RigidJob) = r := by simpa [squareNumbers] using hr
    subst this
    refine ⟨by decide, ?_, ?_⟩
    · intro d hd
      simp only [List.mem_cons, List.not_mem_nil, or_false] at hd
      rcases hd with rfl | rfl
      · exact ⟨1, rfl⟩
      · exact ⟨0, rfl⟩
    · intro n hn d hd
      simp only [List.mem_cons, List.not_mem_nil, or_false] at hn hd
      rcases hn with rfl | rfl <;> rcases hd with rfl | rfl <;> exact numbers_node (by decide) (by decide)
  size := by simp [squareNumbers, Sparse.invalid]
  iterations := by simp [squareNumbers]
  loadsteps := by simp [squareNumbers, squareOptions]
  react := by
    intro ns ds h
    have : ([5, 4], ([] : List DofType)) = (ns, ds) := by simpa [squareNumbers] using h
    rw [Prod.mk.injEq] at this
    obtain ⟨rfl, rfl⟩ := this
    refine ⟨by simp, by simp [squareNumbers], by simp, fun _ d hd n hn => ?_⟩
    have hd' : d = .UX ∨ d = .UY := by
      have : d = .UY ∨ d = .UX := by simpa [fixKeys, squareNumbers, keyOf] using hd
      exact this.symm
    have hn' : n = 5 ∨ n = 4 := by simpa using hn
    rcases hn' with rfl | rfl <;> rcases hd' with rfl | rfl <;> exact numbers_node (by decide) (by decide)

theorem square_renumbers : Renumbers (Equiv.swap 1 5) 1 squareMoved squareNumbers where
  constants := rfl
  type := rfl
  loadsteps := rfl
  pos := by
    intro n h1 h2
    have h2 : n ≤ 5 := h2
    interval_cases n <;> rfl
  elems := by
    have e : squareNumbers.elems.zipIdx 1 = (squareMoved.elems.zipIdx 1).map (fun e => (e.1.map (Equiv.swap 1 5), (1 : Equiv.Perm Nat) e.2)) := rfl
    rw [e]
  loads := .nil
  fixs := by
    rintro ⟨s, n, d⟩
    cases s with
    | elem => rfl
    | node =>
      by_cases h1 : n = 1
      · subst h1
        show lastFix (.node, 5, d) squareNumbers.fixs = _
        cases d <;> rfl
      by_cases h5 : n = 5
      · subst h5
        show lastFix (.node, 1, d) squareNumbers.fixs = _
        cases d <;> rfl
      have e : ren (Equiv.swap 1 5) 1 (.node, n, d) = (.node, n, d) := by
        show ((.node, Equiv.swap 1 5 n, d) : Key) = _
        rw [Equiv.swap_apply_of_ne_of_ne h1 h5]
      rw [e]
      have a1 : ∀ (b : Bc ℝ), b.node = 1 ∨ b.node = 5 → keyOf b ≠ (.node, n, d) := by
        rintro ⟨m, e, v⟩ hm he
        simp only [keyOf, Prod.mk.injEq] at he
        rcases hm with hm | hm <;> simp only at hm <;> omega
      have a2 : ∀ l : List (Bc ℝ), (∀ b ∈ l, b.node = 1 ∨ b.node = 5) → lastFix (.node, n, d) l = none := by
        intro l hl
        unfold lastFix
        rw [List.filter_eq_nil_iff.mpr fun b hb => by simpa using a1 b (hl b hb)]
        rfl
      rw [a2 squareNumbers.fixs (by simp [squareNumbers]), a2 squareMoved.fixs (by simp [squareMoved])]
  mpcs := by
    have e : SameEq (Equiv.swap 1 5) ⟨[⟨1, .UX, 1⟩, ⟨4, .UX, -1⟩], 0, 0⟩ ⟨[⟨4, .UX, -1⟩, ⟨5, .UX, 1⟩], 0, 0⟩ := by
      refine ⟨rfl, ?_⟩
      have : ([⟨1, .UX, 1⟩, ⟨4, .UX, -1⟩] : List (MpcTerm ℝ)).map (renTerm (Equiv.swap 1 5)) = [⟨5, .UX, 1⟩, ⟨4, .UX, -1⟩] := rfl
      show List.Perm _ (List.map (renTerm (Equiv.swap 1 5)) ([⟨1, .UX, 1⟩, ⟨4, .UX, -1⟩] : List (MpcTerm ℝ)))
      rw [this]
      exact .swap ..
    constructor
    · intro m hm
      have : m = ⟨[⟨4, .UX, -1⟩, ⟨5, .UX, 1⟩], 0, 0⟩ := by simpa [squareNumbers] using hm
      exact ⟨_, List.mem_singleton.mpr rfl, this ▸ e⟩
    · intro m hm
      have : m = ⟨[⟨1, .UX, 1⟩, ⟨4, .UX, -1⟩], 0, 0⟩ := by simpa [squareMoved, square] using hm
      exact ⟨_, List.mem_singleton.mpr rfl, this ▸ e⟩
  rigid := by
    refine .inr ⟨_, _, rfl, rfl, rfl, ?_, ?_⟩
    · intro n
      simp only [List.mem_cons, List.not_mem_nil, or_false]
      by_cases h1 : n = 1
      · subst h1; decide
      by_cases h5 : n = 5
      · subst h5; decide
      rw [Equiv.swap_apply_of_ne_of_ne h1 h5]
      omega
    · intro d
      simp only [List.mem_cons, List.not_mem_nil, or_false]
      exact or_comm
  react := by
    refine .inr ⟨_, _, rfl, rfl, rfl, ?_, fun _ => rfl⟩
    exact .refl _

/-- The jobs meet the hypotheses of `C106_same`: the runs agree if they finish. -/
example {t₁ t₂ : Option (List (List ℝ))} {c₁ c₂ : Nat} {f₁ f₂ : Files} (h₁ : runJob squareOptions [] squareMoved 15 11 = .ok (.done t₁ c₁ f₁))
    (h₂ : runJob squareOptions [] squareNumbers 15 11 = .ok (.done t₂ c₂ f₂)) : t₁ = t₂ ∧ c₁ = c₂ :=
  C106_same squareMoved_runnable squareMoved_runnable squareNumbers_runnable (.refl _) square_renumbers (.inl rfl) (.inl rfl)
    (.neoHookean 1 100) ⟨_, carried_path squareMoved_runnable (.neoHookean 1 100) squareMoved_carried, by simp [carriedEnds]⟩
    (by decide) (by decide) h₁ h₂

/-- The job meets the hypotheses of `C107_carried`: no forces. -/
example {t : List (List ℝ)} {c : Nat} {f : Files} (h : runJob squareOptions [] squareMoved 15 11 = .ok (.done (some t) c f)) :
    t.length = 11 ∧ ∀ row ∈ t, ∀ v ∈ row, v = 0 :=
  (C107_carried squareMoved_runnable (.inl rfl) (.neoHookean 1 100) squareMoved_carried (by decide) (by decide) h).1 t rfl

/-- The cube of C105 without load, moved. -/
def cubeMoved : Job ℝ :=
  { cube with
    loads := []
    fixs := [1, 2, 3, 4].flatMap (fun n => [⟨n, .UX, 1⟩, ⟨n, .UY, 0⟩, ⟨n, .UZ, -3⟩]) }

theorem cubeMoved_has {f : Key} (hf : Has cube f) : Has cubeMoved f := by
  rcases hf with ⟨h1, h2, h3⟩ | ⟨h1, h2⟩ | ⟨h1, h2⟩
  · exact .node h1 h2 h3
  · exact .pressure h1 h2
  · exact .master h1 h2

theorem cubeMoved_runnable : Runnable cubeOptions [] cubeMoved where
  type := cube_runnable.type
  nonempty := cube_runnable.nonempty
  nodes := cube_runnable.nodes
  sound := cube_runnable.sound
  loads := by simp [cubeMoved]
  fixs := by
    intro f hf
    refine cubeMoved_has ?_
    obtain ⟨n, hn, hf⟩ := List.mem_flatMap.mp hf
    have hn' : n ∈ [1, 2, 3, 4, 5, 6, 7, 8] := by
      simp only [List.mem_cons, List.not_mem_nil, or_false] at hn ⊢
      omega
    simp only [List.mem_cons, List.not_mem_nil, or_false] at hf
    rcases hf with rfl | rfl | rfl <;> exact cube_node hn' (by simp)
  mpcs := by simp [cubeMoved, cube]
  master := by simp [cubeMoved, cube]
  slaves := by simp [cubeMoved, cube]
  size := cube_runnable.size
  iterations := cube_runnable.iterations
  loadsteps := cube_runnable.loadsteps
  react := by simp [cubeMoved, cube]

theorem cubeMoved_carried : Carried cubeMoved ![1, 0, -3] where
  loads := rfl
  fixs := by
    intro f hf
    obtain ⟨n, _, hf⟩ := List.mem_flatMap.mp hf
    simp only [List.mem_cons, List.not_mem_nil, or_false] at hf
    rcases hf with rfl | rfl | rfl <;> simp [keyOf, dir]
  mpcs := by simp [cubeMoved, cube]
  big := by
    intro i
    fin_cases i
    · right; norm_num
    · left; rfl
    · right; norm_num

theorem cube_volume : volumeOf cube.pos [1, 2, 3, 4, 5, 6, 7, 8] ≠ 0 := by
  have hj : ∀ q : QuadPt 3, jac hexa (nodePos cube.pos [1, 2, 3, 4, 5, 6, 7, 8]) q.xi = 1 := by
    intro q
    rw [cube_pos, jac_affine C34_hexa _ _ _ (hexa_repr _)]
    simp
  unfold volumeOf
  simp only [hj, Matrix.det_one, mul_one]
  have := (C35_hexa_weights 2).2 (by decide)
  unfold weights at this
  rw [this]
  norm_num

/-- The file after the fifth of ten load steps shows half of the translation, and no stress. -/
example {t : Option (List (List ℝ))} {c : Nat} {f : Files} (h : runJob cubeOptions [] cubeMoved 15 11 = .ok (.done t c f)) :
    ∃ lines d, f "cube5.vtk" = some lines ∧ Vtk.readVtk lines = some d ∧
      ("disp", .vectors ((List.range 8).map (fun _ => ⟨1 / 2, 0, -3 / 2⟩))) ∈ d.pointData ∧
      ("COUCHY_XX", .scalars [0]) ∈ d.cellData := by
  obtain ⟨lines, d, h1, h2, h3, _, h5⟩ := (C107_carried cubeMoved_runnable (.inr rfl) (.neoHookean 1 100) cubeMoved_carried (by decide)
    (by decide) h).2 _ rfl 5 (by decide)
  refine ⟨lines, d, h1, h2, ?_, ?_⟩
  · have e : atNodes cubeMoved (shift cubeMoved ![1, 0, -3] (((5 : Nat) : ℝ) / cubeMoved.loadsteps)) =
        (List.range 8).map (fun _ => ⟨1 / 2, 0, -3 / 2⟩) := by
      refine List.map_congr_left fun n hn => ?_
      have hn : n < 8 := List.mem_range.mp hn
      have hm : n + 1 ∈ [1, 2, 3, 4, 5, 6, 7, 8] := by interval_cases n <;> decide
      rw [shift_has (cubeMoved_has (cube_node hm (by simp))), shift_has (cubeMoved_has (cube_node hm (by simp))),
        shift_has (cubeMoved_has (cube_node hm (by simp)))]
      simp only [dir, cubeMoved, cube]
      have e2 : (![1, 0, -3] : Fin 3 → ℝ) 2 = -3 := rfl
      rw [e2]
      norm_num
    rw [← e]
    exact h3
  · have hv : ∀ ns ∈ cubeMoved.elems, volumeOf cubeMoved.pos ns ≠ 0 := by
      intro ns hns
      have hns : ns = [1, 2, 3, 4, 5, 6, 7, 8] := by simpa [cubeMoved, cube] using hns
      subst hns
      exact cube_volume
    rw [h5 hv]
    simp [cellArrays, comps, restCell, cubeMoved, cube]

end

end Nla3d.Prog
