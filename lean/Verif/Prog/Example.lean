import Verif.Prog.Files

/-!
# Jobs, meshes and files that meet the hypotheses of C101 and C105
-/

namespace Nla3d.Prog

open Nla3d.Dof Nla3d.Storage Nla3d.Iso Nla3d.Labels
open Nla3d.Solver (Bc keyOf fixKeys)
open Nla3d.Rigid (transl)
open Nla3d.Main (Job)
open Nla3d.Cmd (Options)
open Nla3d.Vtk (readVtk)

noncomputable section

/-- A square in plane strain whose right side is turned by a node in its middle: nodes 2 and 3 are rigidly connected to node 5, node 1
is fixed, nodes 1 and 4 have the same horizontal displacement. -/
def square : Job ℝ where
  constants := [1, 100]
  pos := [(-1, -1, 0), (1, -1, 0), (1, 1, 0), (-1, 1, 0), (1, 0, 0)]
  type := .PLANE41
  elems := [[1, 2, 3, 4]]
  mpcs := [⟨[⟨1, .UX, 1⟩, ⟨4, .UX, -1⟩], 0, 0⟩]
  loads := [⟨4, .UY, 3⟩]
  fixs := [⟨1, .UX, 0⟩, ⟨1, .UY, 0⟩, ⟨5, .UX, 0⟩, ⟨5, .UY, 0⟩, ⟨5, .UZ, 0⟩, ⟨5, .ROTX, 0⟩, ⟨5, .ROTY, 0⟩, ⟨5, .ROTZ, 1⟩]
  iterations := 15
  loadsteps := 10
  vtk := none
  react := some ([1, 4], [])
  rigid := some ⟨5, [2, 3], [.UX, .UY]⟩

def squareOptions : Options ℝ :=
  ⟨15, 10, "Neo-Hookean", .PLANE41, false, "a.cdb", [1, 100], "", 0, "LEFT", [], 5, "RIGHT", [.UX, .UY]⟩

theorem square_sound : Sound square 0 := by
  intro ns hns
  have hns : ns = [1, 2, 3, 4] := by simpa [square] using hns
  subst hns
  intro q _
  have e : (flat (nodePos square.pos [1, 2, 3, 4]) + flat (nodeDisp 0 [1, 2, 3, 4]) : Fin 4 → Fin 2 → ℝ) = affine 1 0 quadNodes := by
    funext a c
    fin_cases a <;> fin_cases c <;> simp [flat, nodePos, nodeDisp, posOf, square, affine, quadNodes]
  show (jac quad (flat (nodePos square.pos [1, 2, 3, 4]) + flat (nodeDisp 0 [1, 2, 3, 4]) : Fin 4 → Fin 2 → ℝ) q.xi).det ≠ 0
  rw [e, jac_affine C34_quad _ _ _ (quad_repr _)]
  simp

theorem square_node {n : Nat} (hn : n ∈ [1, 2, 3, 4]) {d : DofType} (hd : d ∈ [DofType.UX, .UY]) : Has square (.node, n, d) :=
  .node (ns := [1, 2, 3, 4]) (by simp [square]) hn hd

theorem square_master {d : DofType} (hd : d ∈ [DofType.UX, .UY, .UZ, .ROTX, .ROTY, .ROTZ]) : Has square (.node, 5, d) :=
  .master (r := ⟨5, [2, 3], [.UX, .UY]⟩) rfl hd

/-- The job meets the hypotheses of `C101_job`. -/
theorem square_runnable : Runnable squareOptions [] square where
  type := ⟨4, rfl, by simp [square]⟩
  nonempty := by simp [square]
  nodes := by simp [square]
  sound := square_sound
  loads := by
    intro l hl
    have : l = ⟨4, .UY, 3⟩ := by simpa [square] using hl
    subst this
    exact square_node (by decide) (by decide)
  fixs := by
    intro f hf
    simp only [square, List.mem_cons, List.not_mem_nil, or_false] at hf
    rcases hf with rfl | rfl | rfl | rfl | rfl | rfl | rfl | rfl
    · exact square_node (by decide) (by decide)
    · exact square_node (by decide) (by decide)
    all_goals exact square_master (by decide)
  mpcs := by
    intro m hm
    have : m = ⟨[⟨1, .UX, 1⟩, ⟨4, .UX, -1⟩], 0, 0⟩ := by simpa [square] using hm
    subst this
    refine ⟨by simp, fun t ht => ?_⟩
    simp only [List.mem_cons, List.not_mem_nil, or_false] at ht
    rcases ht with rfl | rfl <;> exact square_node (by decide) (by decide)
  master := by
    intro r hr
    have : (⟨5, [2, 3], [.UX, .UY]⟩ : Main.RigidJob) = r := by simpa [square] using hr
    subst this
    simp [square]
  slaves := by
    intro r hr
    have : (⟨5, [2, 3], [.UX, .UY]⟩ : Main.RigidJob) = r := by simpa [square] using hr
    subst this
    refine ⟨by decide, ?_, ?_⟩
    · intro d hd
      simp only [List.mem_cons, List.not_mem_nil, or_false] at hd
      rcases hd with rfl | rfl
      · exact ⟨0, rfl⟩
      · exact ⟨1, rfl⟩
    · intro n hn d hd
      refine square_node ?_ hd
      simp only [List.mem_cons, List.not_mem_nil, or_false] at hn
      rcases hn with rfl | rfl <;> decide
  size := by simp [square, Sparse.invalid]
  iterations := by simp [square]
  loadsteps := by simp [square, squareOptions]
  react := by
    intro ns ds h
    have : ([1, 4], ([] : List DofType)) = (ns, ds) := by simpa [square] using h
    rw [Prod.mk.injEq] at this
    obtain ⟨rfl, rfl⟩ := this
    refine ⟨by simp, by simp [square], by simp, fun _ d hd n hn => ?_⟩
    have hd' : d = .UX ∨ d = .UY := by simpa [fixKeys, square, keyOf] using hd
    have hn' : n = 1 ∨ n = 4 := by simpa using hn
    rcases hn' with rfl | rfl <;> rcases hd' with rfl | rfl <;> exact square_node (by decide) (by decide)

/-- The square is small enough: only Newton's method can stop the program. -/
theorem square_not_crowded : ¬ Crowded square := by
  rintro ⟨f, _, P, Q, hP, hQ, hc⟩
  have h1 : P.card ≤ 31 := by
    refine (Finset.card_le_card (t := (regKeys (regsOf square)).toFinset) fun g hg => ?_).trans (reg_card square_runnable)
    exact List.mem_toFinset.mpr ((regKeys_has square g).mpr (hP g hg).1)
  have h2 : Q.card ≤ 5 := by
    refine (Finset.card_le_card (t := Finset.range 5) fun q hq => ?_).trans (by simp)
    obtain ⟨ks, k1, _⟩ := hQ q hq
    have := (List.getElem?_eq_some_iff.mp k1).1
    simpa [conditionKeys, square] using this
  omega

example (h : runJob squareOptions [] square 15 11 = .error .fatal) : ∃ ends,
    LoadPath (fun I₁ _ => 1 / 2 * (I₁ - 3)) 100 square 0 0 ends ∧ ends.length < 10 ∧
    NewtonFails (fun I₁ _ => 1 / 2 * (I₁ - 3)) 100 square (((ends.length : ℝ) + 1) / 10) 0 ((ends.getLast?.map Prod.fst).getD 0) := by
  rcases C101_job square_runnable (.inl rfl) (.neoHookean 1 100) (inner := 15) (fuel := 11) (by decide) (by decide) with
    ⟨_, hc | hf⟩ | ⟨_, _, _, _, he, _⟩
  · exact absurd hc square_not_crowded
  · simpa [square] using hf
  · rw [h] at he; cases he

example : Outcome (fun I₁ _ => 1 / 2 * (I₁ - 3)) 100 squareOptions [] square (runJob squareOptions [] square 15 11) :=
  C101_job square_runnable (.inl rfl) (.neoHookean 1 100) (by decide) (by decide)

/-! ## Files with results -/

/-- The same square with files, which is the default. -/
def squareShown : Job ℝ := { square with vtk := some "a".toList }

theorem squareShown_has {f : Key} : Has squareShown f ↔ Has square f := by
  constructor
  · rintro (⟨h1, h2, h3⟩ | ⟨h1, h2⟩ | ⟨h1, h2⟩)
    · exact .node h1 h2 h3
    · exact .pressure h1 h2
    · exact .master h1 h2
  · rintro (⟨h1, h2, h3⟩ | ⟨h1, h2⟩ | ⟨h1, h2⟩)
    · exact .node h1 h2 h3
    · exact .pressure h1 h2
    · exact .master h1 h2

theorem squareShown_runnable : Runnable squareOptions [] squareShown where
  type := square_runnable.type
  nonempty := square_runnable.nonempty
  nodes := square_runnable.nodes
  sound := square_runnable.sound
  loads := fun l hl => squareShown_has.mpr (square_runnable.loads l hl)
  fixs := fun l hl => squareShown_has.mpr (square_runnable.fixs l hl)
  mpcs := fun m hm => ⟨(square_runnable.mpcs m hm).1, fun t ht => squareShown_has.mpr ((square_runnable.mpcs m hm).2 t ht)⟩
  master := square_runnable.master
  slaves := fun r hr => ⟨(square_runnable.slaves r hr).1, (square_runnable.slaves r hr).2.1,
    fun n hn d hd => squareShown_has.mpr ((square_runnable.slaves r hr).2.2 n hn d hd)⟩
  size := square_runnable.size
  iterations := square_runnable.iterations
  loadsteps := square_runnable.loadsteps
  react := fun ns ds h => ⟨(square_runnable.react ns ds h).1, (square_runnable.react ns ds h).2.1, (square_runnable.react ns ds h).2.2.1,
    fun h0 d hd n hn => squareShown_has.mpr ((square_runnable.react ns ds h).2.2.2 h0 d hd n hn)⟩

example : runJob squareOptions [] squareShown 15 11 = .error .ub := by
  rcases C105_plane_violated squareShown_runnable rfl (by simp [squareShown]) (.neoHookean 1 100) 15 11 with h | ⟨_, f, h1, P, Q, hP, hQ, hc⟩
  · exact h
  · exact absurd ⟨f, squareShown_has.mp h1, P, Q, fun g hg => ⟨squareShown_has.mp (hP g hg).1, (hP g hg).2⟩, hQ, hc⟩ square_not_crowded

/-- A cube that stands on nodes 1 to 4 and is pulled at node 7. -/
def cube : Job ℝ where
  constants := [1, 100]
  pos := [(-1, -1, -1), (1, -1, -1), (1, 1, -1), (-1, 1, -1), (-1, -1, 1), (1, -1, 1), (1, 1, 1), (-1, 1, 1)]
  type := .SOLID81
  elems := [[1, 2, 3, 4, 5, 6, 7, 8]]
  mpcs := []
  loads := [⟨7, .UZ, 3⟩]
  fixs := [1, 2, 3, 4].flatMap (fun n => [⟨n, .UX, 0⟩, ⟨n, .UY, 0⟩, ⟨n, .UZ, 0⟩])
  iterations := 15
  loadsteps := 10
  vtk := some "cube".toList
  react := none
  rigid := none

def cubeOptions : Options ℝ :=
  ⟨15, 10, "Neo-Hookean", .SOLID81, true, "cube.cdb", [1, 100], "", 0, "", [], 0, "", []⟩

theorem cube_pos : (nodePos cube.pos [1, 2, 3, 4, 5, 6, 7, 8] : Fin 8 → Fin 3 → ℝ) = affine 1 0 hexaNodes := by
  funext a c
  fin_cases a <;> fin_cases c <;> simp [nodePos, posOf, cube, affine, hexaNodes]

theorem cube_node {n : Nat} (hn : n ∈ [1, 2, 3, 4, 5, 6, 7, 8]) {d : DofType} (hd : d ∈ [DofType.UX, .UY, .UZ]) : Has cube (.node, n, d) :=
  .node (ns := [1, 2, 3, 4, 5, 6, 7, 8]) (by simp [cube]) hn hd

theorem cube_runnable : Runnable cubeOptions [] cube where
  type := ⟨8, rfl, by simp [cube]⟩
  nonempty := by simp [cube]
  nodes := by simp [cube]
  sound := by
    intro ns hns
    have hns : ns = [1, 2, 3, 4, 5, 6, 7, 8] := by simpa [cube] using hns
    subst hns
    intro q _
    show (jac hexa (nodePos cube.pos [1, 2, 3, 4, 5, 6, 7, 8] + nodeDisp 0 [1, 2, 3, 4, 5, 6, 7, 8] : Fin 8 → Fin 3 → ℝ) q.xi).det ≠ 0
    rw [zero_disp, add_zero, cube_pos, jac_affine C34_hexa _ _ _ (hexa_repr _)]
    simp
  loads := by
    intro l hl
    have : l = ⟨7, .UZ, 3⟩ := by simpa [cube] using hl
    subst this
    exact cube_node (by decide) (by decide)
  fixs := by
    intro f hf
    obtain ⟨n, hn, hf⟩ := List.mem_flatMap.mp hf
    have hn' : n ∈ [1, 2, 3, 4, 5, 6, 7, 8] := by
      simp only [List.mem_cons, List.not_mem_nil, or_false] at hn ⊢
      omega
    simp only [List.mem_cons, List.not_mem_nil, or_false] at hf
    rcases hf with rfl | rfl | rfl <;> exact cube_node hn' (by simp)
  mpcs := by simp [cube]
  master := by simp [cube]
  slaves := by simp [cube]
  size := by simp [cube, Sparse.invalid]
  iterations := by simp [cube]
  loadsteps := by simp [cube, cubeOptions]
  react := by simp [cube]

example {files : Files} (hr : runJob cubeOptions [] cube 15 11 = .ok (.done none 0 files)) : ∃ ends,
    LoadPath (fun I₁ _ => 1 / 2 * (I₁ - 3)) 100 cube 0 0 ends ∧ ends.length = 10 ∧ ∃ e lines d, ((0, 0) :: ends)[10]? = some e ∧
      files "cube10.vtk" = some lines ∧ readVtk lines = some d ∧ Shows (fun I₁ _ => 1 / 2 * (I₁ - 3)) 100 cube e.1 e.2 d := by
  obtain ⟨ends, h1, h2, h3, _⟩ := C105_files_partial cube_runnable rfl (.neoHookean 1 100) (base := "cube".toList) rfl (inner := 15) (fuel := 11)
    (by decide) (by decide) hr
  exact ⟨ends, h1, h2, h3 10 (by decide)⟩

/-- The hypotheses of `C105_stress_violated` hold for the cube at rest under a pressure of 1. -/
example : ∃ (c : CellData) (S : QuadPt 3 → Material.Mat3), volumeOf cube.pos [1, 2, 3, 4, 5, 6, 7, 8] ≠ 0 ∧
    MeansOf (fun I₁ _ => 1 / 2 * (I₁ - 3)) 100 cube.pos 0 1 [1, 2, 3, 4, 5, 6, 7, 8] c ∧
    (∀ q ∈ hexa.table (schemeIndex 2), 0 < (gradAt cube.pos 0 [1, 2, 3, 4, 5, 6, 7, 8] q).det) ∧
    ∀ q ∈ hexa.table (schemeIndex 2), IsStress (fun I₁ _ => 1 / 2 * (I₁ - 3)) 100 1 (gradAt cube.pos 0 [1, 2, 3, 4, 5, 6, 7, 8] q) (S q) := by
  obtain ⟨E, _, hE⟩ := energyOf_ok (.neoHookean 1 100)
  have hj : ∀ q : QuadPt 3, jac hexa (nodePos cube.pos [1, 2, 3, 4, 5, 6, 7, 8]) q.xi = 1 := by
    intro q
    rw [cube_pos, jac_affine C34_hexa _ _ _ (hexa_repr _)]
    simp
  have hF : ∀ q : QuadPt 3, gradAt cube.pos 0 [1, 2, 3, 4, 5, 6, 7, 8] q = 1 := by
    intro q
    unfold gradAt
    rw [zero_disp]
    unfold Newton.defGrad
    rw [add_zero, hj]
    simp
  have hv : volumeOf cube.pos [1, 2, 3, 4, 5, 6, 7, 8] ≠ 0 := by
    unfold volumeOf
    simp only [hj, Matrix.det_one, mul_one]
    have := (C35_hexa_weights 2).2 (by decide)
    unfold weights at this
    rw [this]
    norm_num
  have hd : ∀ q ∈ hexa.table (schemeIndex 2), 0 < (gradAt cube.pos 0 [1, 2, 3, 4, 5, 6, 7, 8] q).det := by
    intro q _
    rw [hF, Matrix.det_one]
    exact one_pos
  set S : QuadPt 3 → Material.Mat3 := fun q => Material.unpack6 (Material.stressEntry E (Material.pack6
    ((gradAt cube.pos 0 [1, 2, 3, 4, 5, 6, 7, 8] q).transpose * gradAt cube.pos 0 [1, 2, 3, 4, 5, 6, 7, 8] q)) 1)
  have hS : ∀ q ∈ hexa.table (schemeIndex 2), IsStress (fun I₁ _ => 1 / 2 * (I₁ - 3)) 100 1 (gradAt cube.pos 0 [1, 2, 3, 4, 5, 6, 7, 8] q) (S q) :=
    fun q hq => isStress hE 100 1 (hd q hq).ne'
  exact ⟨⟨1, 1, _, _, _, _, _, _, _, _⟩, S, hv, ⟨rfl, rfl, rfl, rfl, rfl, rfl, rfl, fun _ => ⟨S, hS, rfl, rfl⟩⟩, hd, hS⟩

/-! ## A file -/

/-- The conversion of numbers, as far as the file needs it. -/
def fileStod (s : List Char) : Cdb.Out ℝ := if '-' ∈ s then .ok (-1) else if '1' ∈ s then .ok 1 else .ok 0

/-- Lines of a file with a square, two fixed nodes and a load. -/
def squareLines : List (List (List Char)) :=
  [["NBLOCK,3".toList, "(1i3,3e4.1)".toList, "  1  -1  -1".toList, "  2   1  -1".toList, "  3   1   1".toList, "  4  -1   1".toList,
      " -1".toList],
    ["EBLOCK,19,SOLID".toList, "(15i3)".toList, "  1  1  1  1  0  0  0  0  4  0  1  1  2  3  4".toList, " -1".toList],
    ["D,1,UX,0".toList], ["D,1,UY,0".toList], ["D,2,UY,0".toList], ["F,3,FX,1".toList]]

def squareFile : List Char := Text.text (squareLines.flatten.map (fun l => (l, Text.Ending.LF)))

def squareCmds : List (Cdb.Cmd ℝ) :=
  [.nodes [(1, -1, -1, 0), (2, 1, -1, 0), (3, 1, 1, 0), (4, -1, 1, 0)], .cells [⟨1, 1, 1, 1, 1, 0, 0, [1, 2, 3, 4]⟩],
    .fix ⟨1, .UX, 0⟩, .fix ⟨1, .UY, 0⟩, .fix ⟨2, .UY, 0⟩, .load ⟨3, .UX, 1⟩]

theorem field_mk (sp ds : List Char) (hs : Cdb.Blanks sp) (hd : Cdb.Digits ds) : Cdb.Numeral (sp ++ ds) (Cdb.value ds : Int) :=
  ⟨sp, [], ds, [], by simp, hs, hd, by simp, .inl ⟨.inl rfl, rfl⟩⟩

theorem squareFile_ok : FileOf fileStod squareCmds squareFile := by
  have num : ∀ (f : List Char) (n : Nat), (∃ sp ds, f = sp ++ ds ∧ Cdb.Blanks sp ∧ Cdb.Digits ds ∧ Cdb.value ds = n) →
      Cdb.Numeral f (n : Int) := by
    rintro f n ⟨sp, ds, rfl, h1, h2, rfl⟩
    exact field_mk sp ds h1 h2
  have dig : ∀ c : Char, c.isDigit = true → Cdb.Digits [c] := fun c hc => ⟨by simp, by simpa using hc⟩
  have n1 : Cdb.Numeral "  1".toList ((1 : Nat) : Int) := num _ _ ⟨"  ".toList, "1".toList, rfl, by unfold Cdb.Blanks; decide, dig _ (by decide), by decide⟩
  have n2 : Cdb.Numeral "  2".toList ((2 : Nat) : Int) := num _ _ ⟨"  ".toList, "2".toList, rfl, by unfold Cdb.Blanks; decide, dig _ (by decide), by decide⟩
  have n3 : Cdb.Numeral "  3".toList ((3 : Nat) : Int) := num _ _ ⟨"  ".toList, "3".toList, rfl, by unfold Cdb.Blanks; decide, dig _ (by decide), by decide⟩
  have n4 : Cdb.Numeral "  4".toList ((4 : Nat) : Int) := num _ _ ⟨"  ".toList, "4".toList, rfl, by unfold Cdb.Blanks; decide, dig _ (by decide), by decide⟩
  have n0 : Cdb.Numeral "  0".toList ((0 : Nat) : Int) := num _ _ ⟨"  ".toList, "0".toList, rfl, by unfold Cdb.Blanks; decide, dig _ (by decide), by decide⟩
  have m1 : Cdb.Numeral "1".toList ((1 : Nat) : Int) := num _ _ ⟨[], "1".toList, rfl, by simp [Cdb.Blanks], dig _ (by decide), by decide⟩
  have m2 : Cdb.Numeral "2".toList ((2 : Nat) : Int) := num _ _ ⟨[], "2".toList, rfl, by simp [Cdb.Blanks], dig _ (by decide), by decide⟩
  have m3 : Cdb.Numeral "3".toList ((3 : Nat) : Int) := num _ _ ⟨[], "3".toList, rfl, by simp [Cdb.Blanks], dig _ (by decide), by decide⟩
  have sm : fileStod "  -1".toList = .ok (-1) := by unfold fileStod; rw [if_pos (by decide)]
  have sp : fileStod "   1".toList = .ok 1 := by unfold fileStod; rw [if_neg (by decide), if_pos (by decide)]
  have s0 : fileStod "0".toList = .ok 0 := by unfold fileStod; rw [if_neg (by decide), if_neg (by decide)]
  have s1 : fileStod "1".toList = .ok 1 := by unfold fileStod; rw [if_neg (by decide), if_pos (by decide)]
  have hend : Cdb.EndLine " -1".toList := .inl ⟨" ".toList, "1".toList, rfl, by unfold Cdb.Blanks; decide, by decide⟩
  refine ⟨squareLines, squareLines.flatten.map (fun l => (l, Text.Ending.LF)), [], ?_, by simp [squareCmds, Cdb.Cmd.compList], ?_,
    by simp [Text.Plain], ?_, rfl, by simp [squareFile]⟩
  · refine .cons ?_ (.cons ?_ (.cons ?_ (.cons ?_ (.cons ?_ (.cons ?_ .nil)))))
    · refine .nblock _ ["NBLOCK".toList, "3".toList] ⟨Cdb.tokens_mk ["NBLOCK".toList, "3".toList] [','] (by unfold Text.Split; decide) (by decide),
        "NBLOCK".toList, rfl, by decide⟩ "(1i3,3e4.1)".toList 1 3 3 4 ?_ (by decide) (by decide) ["  1  -1  -1".toList, "  2   1  -1".toList,
        "  3   1   1".toList, "  4  -1   1".toList] _ ?_ _ hend
      · exact ⟨[], "1".toList, 'i', "3".toList, "3".toList, 'e', "4".toList, "1".toList, [], rfl, by simp [Cdb.Blanks], by simp [Cdb.Blanks],
          ⟨by decide, by decide⟩, ⟨by decide, by decide⟩, ⟨by decide, by decide⟩, ⟨by decide, by decide⟩, .inl rfl, .inl rfl, by decide,
          by decide, by decide, by decide, by decide, by decide, by decide, by decide, by decide, by decide⟩
      · refine .cons ?_ (.cons ?_ (.cons ?_ (.cons ?_ .nil)))
        · exact ⟨"  1".toList, [], ["  -1".toList, "  -1".toList], ⟨⟨3, by decide⟩, [], by decide, .inl rfl⟩, rfl, n1, by decide, by decide,
            sm, sm, rfl⟩
        · exact ⟨"  2".toList, [], ["   1".toList, "  -1".toList], ⟨⟨3, by decide⟩, [], by decide, .inl rfl⟩, rfl, n2, by decide, by decide,
            sp, sm, rfl⟩
        · exact ⟨"  3".toList, [], ["   1".toList, "   1".toList], ⟨⟨3, by decide⟩, [], by decide, .inl rfl⟩, rfl, n3, by decide, by decide,
            sp, sp, rfl⟩
        · exact ⟨"  4".toList, [], ["  -1".toList, "   1".toList], ⟨⟨3, by decide⟩, [], by decide, .inl rfl⟩, rfl, n4, by decide, by decide,
            sm, sp, rfl⟩
    · refine .eblock _ ["EBLOCK".toList, "19".toList, "SOLID".toList] ⟨Cdb.tokens_mk ["EBLOCK".toList, "19".toList, "SOLID".toList] [',', ',']
        (by unfold Text.Split; decide) (by decide), "EBLOCK".toList, rfl, by decide⟩ "SOLID".toList "(15i3)".toList rfl true (by decide) 15 3
        ⟨[], "15".toList, 'i', "3".toList, [], rfl, by simp [Cdb.Blanks], by simp [Cdb.Blanks], ⟨by decide, by decide⟩, ⟨by decide, by decide⟩,
          .inl rfl, by decide, by decide, by decide, by decide⟩ (by decide) ["  1  1  1  1  0  0  0  0  4  0  1  1  2  3  4".toList] _ ?_ _ hend
      rw [if_pos rfl]
      refine .cons ?_ .nil
      exact ⟨"  1".toList, "  1".toList, "  1".toList, "  1".toList, "  0".toList, "  0".toList, "  0".toList, "  0".toList, "  4".toList,
        "  0".toList, "  1".toList, ["  1".toList, "  2".toList, "  3".toList, "  4".toList], ⟨⟨15, by decide⟩, [], by decide, .inl rfl⟩,
        ⟨n1, by decide⟩, ⟨n1, by decide⟩, ⟨n1, by decide⟩, ⟨n1, by decide⟩, ⟨n0, by decide⟩, ⟨n0, by decide⟩, ⟨n4, by decide⟩, ⟨n1, by decide⟩,
        .cons ⟨n1, by decide⟩ (.cons ⟨n2, by decide⟩ (.cons ⟨n3, by decide⟩ (.cons ⟨n4, by decide⟩ .nil))), by decide⟩
    · exact .fix _ ["D".toList, "1".toList, "UX".toList, "0".toList] ⟨Cdb.tokens_mk ["D".toList, "1".toList, "UX".toList, "0".toList] [',', ',', ',']
        (by unfold Text.Split; decide) (by decide), "D".toList, rfl, by decide⟩ _ ⟨⟨_, rfl, m1⟩, by decide, _, rfl, s0⟩ (by decide) (by decide)
    · exact .fix _ ["D".toList, "1".toList, "UY".toList, "0".toList] ⟨Cdb.tokens_mk ["D".toList, "1".toList, "UY".toList, "0".toList] [',', ',', ',']
        (by unfold Text.Split; decide) (by decide), "D".toList, rfl, by decide⟩ _ ⟨⟨_, rfl, m1⟩, by decide, _, rfl, s0⟩ (by decide) (by decide)
    · exact .fix _ ["D".toList, "2".toList, "UY".toList, "0".toList] ⟨Cdb.tokens_mk ["D".toList, "2".toList, "UY".toList, "0".toList] [',', ',', ',']
        (by unfold Text.Split; decide) (by decide), "D".toList, rfl, by decide⟩ _ ⟨⟨_, rfl, m2⟩, by decide, _, rfl, s0⟩ (by decide) (by decide)
    · exact .load _ ["F".toList, "3".toList, "FX".toList, "1".toList] ⟨Cdb.tokens_mk ["F".toList, "3".toList, "FX".toList, "1".toList] [',', ',', ',']
        (by unfold Text.Split; decide) (by decide), "F".toList, rfl, by decide⟩ _ ⟨⟨_, rfl, m3⟩, by decide, _, rfl, s1⟩ "FX".toList rfl
        (.inr (.inl ⟨by decide, rfl⟩))
  · unfold Text.Plain squareLines; decide
  · simp [Text.NoMerge, squareLines]

/-- The command line. -/
def squareGroups : Cmd.Groups := [("-element", ["PLANE41"]), ("-material", ["Neo-Hookean", "1", "100"]), ("-novtk", [])]

theorem same_number {x y : Nat} (h : Main.Denotes [1, 2, 3, 4] x y) : y = x := by
  obtain ⟨h1, h2⟩ := h
  have h3 : y - 1 < 4 := (List.getElem?_eq_some_iff.mp h2).1
  obtain ⟨y, rfl⟩ : ∃ z, y = z + 1 := ⟨y - 1, by omega⟩
  rw [Nat.add_sub_cancel] at h2 h3
  interval_cases y <;> simpa using h2

theorem same_node {z : Int} {y : Nat} (h : Main.DenotesI [1, 2, 3, 4] z y) : (y : Int) = z := by
  obtain ⟨x, h1, h2⟩ := h
  rw [same_number h1, h2]

theorem same_bc {b : Cdb.Bc ℝ} {b' : Bc ℝ} (h : Main.SameBc [1, 2, 3, 4] b b') : b' = ⟨b.node.toNat, b.dof, b.value⟩ := by
  obtain ⟨h1, h2, h3⟩ := h
  have := same_node h1
  cases b'
  simp only at h2 h3 this ⊢
  subst h2 h3
  congr
  omega

theorem same_bcs {l : List (Cdb.Bc ℝ)} {l' : List (Bc ℝ)} (h : List.Forall₂ (Main.SameBc [1, 2, 3, 4]) l l') :
    l' = l.map (fun b => ⟨b.node.toNat, b.dof, b.value⟩) := by
  induction h with
  | nil => rfl
  | cons h _ ih => rw [same_bc h, ih]; rfl

theorem same_nodes {l l' : List Nat} (h : List.Forall₂ (Main.Denotes [1, 2, 3, 4]) l l') : l' = l := by
  induction h with
  | nil => rfl
  | cons h _ ih => rw [same_number h, ih]

/-- The options and the file describe this job. -/
theorem squareFile_job {o : Options ℝ} {j : Job ℝ} (ho : o.element = .PLANE41 ∧ o.iterations = 15 ∧ o.loadsteps = 10 ∧ o.reaction = "" ∧
    o.rigidMaster = 0) (h : Main.Faithful o (Cdb.mesh squareCmds) j) :
    j = ⟨j.constants, [(-1, -1, 0), (1, -1, 0), (1, 1, 0), (-1, 1, 0)], .PLANE41, [[1, 2, 3, 4]], [], [⟨3, .UX, 1⟩],
      [⟨1, .UX, 0⟩, ⟨1, .UY, 0⟩, ⟨2, .UY, 0⟩], 15, 10, j.vtk, none, none⟩ := by
  have h1 := h.pos
  have h2 := h.type.trans ho.1
  have h3 := h.mpcs
  have h4 := same_bcs h.loads
  have h5 := same_bcs h.fixs
  have h6 := h.settings
  rw [ho.2.1, ho.2.2.1] at h6
  have h7 := h.noReact ho.2.2.2.1
  have h8 := h.noRigid (.inl ho.2.2.2.2)
  obtain ⟨idx, i1, i2, i3⟩ := h.elems
  have e1 : (Cdb.mesh squareCmds).cellInt.type = [1] := rfl
  have e2 : (Cdb.mesh squareCmds).cellNodes = [[1, 2, 3, 4]] := rfl
  have hidx : idx = [0] := by
    have hm : ∀ i, i ∈ idx ↔ i = 0 := by
      intro i
      rw [i2, e1]
      cases i <;> simp
    cases idx with
    | nil => simpa using (hm 0).mpr rfl
    | cons a l =>
      have ha := (hm a).mp (by simp)
      subst ha
      cases l with
      | nil => rfl
      | cons b l =>
        have hb := (hm b).mp (by simp)
        subst hb
        simp at i1
  subst hidx
  have hel : j.elems = [[1, 2, 3, 4]] := by
    generalize j.elems = els at i3
    cases i3 with
    | cons a b =>
      cases b
      obtain ⟨c, c1, c2⟩ := a
      rw [e2] at c1
      have hc : [1, 2, 3, 4] = c := by simpa using c1
      subst hc
      rw [same_nodes c2]
  cases j
  simp only at h1 h2 h3 h4 h5 h6 h7 h8 hel
  subst h1 h2 h7 h8 hel h4 h5
  obtain ⟨rfl, rfl⟩ := h6
  cases h3
  rfl

theorem squareFile_runnable {o : Options ℝ} {j : Job ℝ} (ho : o.loadsteps = 10)
    (h : j = ⟨j.constants, [(-1, -1, 0), (1, -1, 0), (1, 1, 0), (-1, 1, 0)], .PLANE41, [[1, 2, 3, 4]], [], [⟨3, .UX, 1⟩],
      [⟨1, .UX, 0⟩, ⟨1, .UY, 0⟩, ⟨2, .UY, 0⟩], 15, 10, j.vtk, none, none⟩) : Runnable o [] j := by
  generalize j.constants = cs at h
  generalize j.vtk = v at h
  subst h
  have hnode : ∀ n ∈ [1, 2, 3, 4], ∀ d ∈ [DofType.UX, .UY], Has (⟨cs, [(-1, -1, 0), (1, -1, 0), (1, 1, 0), (-1, 1, 0)], .PLANE41,
      [[1, 2, 3, 4]], [], [⟨3, .UX, 1⟩], [⟨1, .UX, 0⟩, ⟨1, .UY, 0⟩, ⟨2, .UY, 0⟩], 15, 10, v, none, none⟩ : Job ℝ) (.node, n, d) :=
    fun n hn d hd => .node (ns := [1, 2, 3, 4]) (by simp) hn hd
  constructor
  · exact ⟨4, rfl, by simp⟩
  · simp
  · simp
  · intro ns hns
    have hns : ns = [1, 2, 3, 4] := by simpa using hns
    subst hns
    intro q _
    have e : (flat (nodePos [(-1, -1, 0), (1, -1, 0), (1, 1, 0), (-1, 1, 0)] [1, 2, 3, 4]) + flat (nodeDisp 0 [1, 2, 3, 4]) :
        Fin 4 → Fin 2 → ℝ) = affine 1 0 quadNodes := by
      funext a c
      fin_cases a <;> fin_cases c <;> simp [flat, nodePos, nodeDisp, posOf, affine, quadNodes]
    show (jac quad (flat (nodePos [(-1, -1, 0), (1, -1, 0), (1, 1, 0), (-1, 1, 0)] [1, 2, 3, 4]) + flat (nodeDisp 0 [1, 2, 3, 4]) :
      Fin 4 → Fin 2 → ℝ) q.xi).det ≠ 0
    rw [e, jac_affine C34_quad _ _ _ (quad_repr _)]
    simp
  · intro l hl
    have : l = ⟨3, .UX, 1⟩ := by simpa using hl
    subst this
    exact hnode _ (by decide) _ (by decide)
  · intro f hf
    simp only [List.mem_cons, List.not_mem_nil, or_false] at hf
    rcases hf with rfl | rfl | rfl <;> exact hnode _ (by decide) _ (by decide)
  · simp
  · simp
  · simp
  · simp [Sparse.invalid]
  · simp
  · simp [ho]
  · simp

theorem mesh_eq : Cdb.mesh squareCmds = ⟨[1], [[1, 2, 3, 4]], ⟨[1], [1], [1], [0], [0], [1]⟩, [1, 2, 3, 4],
    [(-1, -1, 0), (1, -1, 0), (1, 1, 0), (-1, 1, 0)], [⟨3, .UX, 1⟩], [⟨1, .UX, 0⟩, ⟨1, .UY, 0⟩, ⟨2, .UY, 0⟩], [], []⟩ := rfl

/-- The hypotheses of `C101_program_partial` hold for this file and this command line. -/
example (cv : Cmd.Conv ℝ) (num : String → Option ℝ) (curve : String → Cmd.In) (disk : String → Option (List Char))
    (hd : disk "a.cdb" = some squareFile) : ∃ o W k j, MatLaw "Neo-Hookean" [cv.atof "1", cv.atof "100"] W k ∧ j.elems = [[1, 2, 3, 4]] ∧
      ∃ f0, ∀ reads, f0 ≤ reads → Outcome W k o [] j
        (program cv fileStod num disk curve ["nla3d", "a.cdb", "-element", "PLANE41", "-material", "Neo-Hookean", "1", "100",
          "-novtk"] reads 15 11) := by
  obtain ⟨o, ho, h⟩ := C101_program_partial cv fileStod num disk curve "nla3d" "a.cdb" squareGroups (by
      intro g hg
      simp only [squareGroups, List.mem_cons, List.not_mem_nil, or_false] at hg
      rcases hg with rfl | rfl | rfl <;> refine ⟨Cmd.names_lit _ (by decide), ?_⟩ <;> intro a ha <;> rw [← Cmd.isOption_iff] <;> revert a <;> decide) (by
      intro g hg
      simp only [squareGroups, List.mem_cons, List.not_mem_nil, or_false] at hg
      rcases hg with rfl | rfl | rfl <;> decide) (by
      rintro (hr | ⟨m, hr⟩)
      · exact absurd hr (by decide)
      · exact absurd hr (by simp [squareGroups, List.lookup])) hd squareFile_ok
  have he : o.element = .PLANE41 := ho.element.trans (by show Cmd.elOf "PLANE41" = _; decide)
  have hi : o.iterations = 15 := ho.iterations
  have hl : o.loadsteps = 10 := ho.loadsteps
  have hr : o.reaction = "" := ho.reaction
  have hb : o.rigidMaster = 0 := ho.rigidMaster
  have hm : o.material = "Neo-Hookean" := by
    have := ho.material
    simpa [squareGroups, List.lookup] using this
  have hc : o.constants = [cv.atof "1", cv.atof "100"] := by
    have := ho.constants
    simpa [squareGroups, List.lookup] using this
  obtain ⟨j, W, k, h1, _, h2, h3⟩ := h [] (.inl ⟨ho.refCurve, rfl⟩) (by
      rw [mesh_eq]
      refine ⟨⟨?_, ?_, ?_, ?_, ?_, ?_, ?_⟩, ?_, ?_, ?_, ?_, ?_, ?_, ?_, ?_, ?_⟩ <;> simp) (by
      unfold Main.Numbered
      left
      rw [mesh_eq]
      decide) ⟨⟨2, by rw [hm]; decide, by rw [hc]; simp⟩, ⟨4, by rw [he]; rfl, by
      intro i c c1 c2
      have e2 : (Cdb.mesh squareCmds).cellNodes = [[1, 2, 3, 4]] := rfl
      rw [e2] at c2
      cases i <;> simp at c2
      rw [← c2]
      rfl⟩, fun hne => absurd hr hne, fun hpos => absurd hb (by omega)⟩
  have hj := squareFile_job ⟨he, hi, hl, hr, hb⟩ h1
  refine ⟨o, W, k, j, ?_, by rw [hj], ?_⟩
  · obtain ⟨n, n1, n2⟩ := h1.constants
    rw [hm] at n1 h2
    have : n = 2 := by
      have e : Main.constsOf "Neo-Hookean" = some 2 := by decide
      rw [e] at n1
      simpa using n1.symm
    subst this
    rw [n2, hc] at h2
    exact h2
  · have hno : j.vtk = none := by
      have := h1.vtk
      rw [ho.vtk] at this
      simpa [squareGroups, List.lookup] using this
    obtain ⟨f0, hf⟩ := h3 (squareFile_runnable hl hj) (.inl hno)
    refine ⟨f0, fun reads hreads => hf reads 15 11 hreads ?_ ?_⟩ <;> rw [hj] <;> simp

end

end Nla3d.Prog
