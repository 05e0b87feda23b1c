import Verif.Prog.Props

/-!
# C105: the files with results
-/

namespace Nla3d.Prog

open Nla3d.Dof Nla3d.Storage Nla3d.Newton Nla3d.Labels Nla3d.Material Nla3d.Hyper Nla3d.TimeCtl
open Nla3d.Iso hiding Good
open Nla3d.Solver (Bc keyOf fixKeys EqSolver Reached NState Base prepare_or_fatal gauss_exact)
open Nla3d.Main (Job)
open Nla3d.Cmd (Options)
open Nla3d.Cdb (Out)
open Nla3d.Vtk (readVtk)

noncomputable section

variable {o : Options ℝ} {ref : List ℝ} {j : Job ℝ} {W : ℝ → ℝ → ℝ} {k : ℝ}

/-- **C105, files.** A run with SOLID81 elements that ends with files has made all load steps, and the files are those of the state before
the first load step and of the ends of the load steps: the numbers in them are the values, the reactions and the means over the elements.
Missing: PLANE41 elements (`C105_plane_violated`); stresses are wrong (`C105_stress_violated`). -/
theorem C105_files_partial (h : Runnable o ref j) (ht : j.type = .SOLID81) (hlaw : MatLaw o.material j.constants W k) {base : List Char}
    (hv : j.vtk = some base) {inner fuel : Nat} (hin : max 1 j.iterations ≤ inner) (hfuel : j.loadsteps < fuel)
    {table : Option (List (List ℝ))} {code : Nat} {files : Files} (hr : runJob o ref j inner fuel = .ok (.done table code files)) :
    ∃ ends, LoadPath W k j 0 0 ends ∧ ends.length = j.loadsteps ∧
      (∀ i ≤ j.loadsteps, ∃ e lines d, ((0, 0) :: ends)[i]? = some e ∧ files (String.ofList base ++ toString i ++ ".vtk") = some lines ∧
        readVtk lines = some d ∧ Shows W k j e.1 e.2 d) ∧
      ∀ name, (∀ i ≤ j.loadsteps, name ≠ String.ofList base ++ toString i ++ ".vtk") → files name = none := by
  rcases C101_job h (.inr ht) hlaw hin hfuel with ⟨hf, _⟩ | ⟨t, c, fs, ends, h1, h2, h3, _, h5⟩
  · rw [hr] at hf; simp at hf
  rw [hr, Except.ok.injEq, Ending.done.injEq] at h1
  obtain ⟨rfl, rfl, rfl⟩ := h1
  unfold Written at h5
  rw [hv] at h5
  refine ⟨ends, h2, h3, fun i hi => ?_, by rw [← h3]; exact h5.2⟩
  have hl : i < ((0, 0) :: ends).length := by rw [List.length_cons]; omega
  have he := List.getElem?_eq_getElem hl
  obtain ⟨lines, d, q⟩ := h5.1 i _ he
  exact ⟨_, lines, d, he, q⟩

/-! ## Stress -/

/-- The stress is determined by the energy. -/
theorem IsStress.unique {p : ℝ} {F S S' : Mat3} (hF : F.det ≠ 0) (h : IsStress W k p F S) (h' : IsStress W k p F S') : S = S' := by
  have hFS : F * S = F * S' := by
    ext a b
    have hu := (h.2 (Matrix.single a b 1)).unique (h'.2 (Matrix.single a b 1))
    have e : ∀ M : Mat3, ∑ c, ∑ d, M c d * Matrix.single a b (1 : ℝ) c d = M a b := by
      intro M
      rw [Finset.sum_eq_single a, Finset.sum_eq_single b]
      · simp
      · intro d _ hd
        simp [Matrix.single, hd.symm]
      · simp
      · intro c _ hc
        refine Finset.sum_eq_zero fun d _ => ?_
        simp [Matrix.single, hc.symm]
      · simp
    rwa [e, e] at hu
  have hu : IsUnit F.det := isUnit_iff_ne_zero.mpr hF
  calc S = F⁻¹ * (F * S) := by rw [← mul_assoc, Matrix.nonsing_inv_mul _ hu, one_mul]
    _ = F⁻¹ * (F * S') := by rw [hFS]
    _ = S' := by rw [← mul_assoc, Matrix.nonsing_inv_mul _ hu, one_mul]

/-- **C105, stresses, negation.** What the files show as Cauchy stress (`COUCHY`) of an element differs from the mean of the Cauchy
stress by the pressure: for every element that is not inside out at an integration point, the pressure is counted twice. -/
theorem C105_stress_violated {pos : List (ℝ × ℝ × ℝ)} {x : Vals} {p : ℝ} {ns : List Nat} {c : CellData} (hv : volumeOf pos ns ≠ 0)
    (h : MeansOf W k pos x p ns c) (hd : ∀ q ∈ hexa.table (schemeIndex 2), 0 < (gradAt pos x ns q).det) {S : QuadPt 3 → Mat3}
    (hS : ∀ q ∈ hexa.table (schemeIndex 2), IsStress W k p (gradAt pos x ns q) (S q)) :
    c.couchy = meanOf pos ns (fun q => (1 / (gradAt pos x ns q).det) • (gradAt pos x ns q * S q * (gradAt pos x ns q).transpose)) +
      p • (1 : Mat3) ∧
    (p ≠ 0 → c.couchy ≠
      meanOf pos ns (fun q => (1 / (gradAt pos x ns q).det) • (gradAt pos x ns q * S q * (gradAt pos x ns q).transpose))) := by
  obtain ⟨S', h1, h2, _⟩ := h.stress hd
  have hmean : ∀ X Y : QuadPt 3 → Mat3, (∀ q ∈ hexa.table (schemeIndex 2), X q = Y q) → meanOf pos ns X = meanOf pos ns Y := by
    intro X Y hXY
    unfold meanOf Hyper.mean
    congr 1
    refine List.map_congr_left fun q hq => ?_
    rw [hXY q hq]
  have hadd : ∀ (X : QuadPt 3 → Mat3) (y : Mat3), meanOf pos ns (fun q => X q + y) = meanOf pos ns X + y := by
    intro X y
    have hc : meanOf pos ns (fun _ => y) = y := mean_const hexa 2 (nodePos pos ns) hv y
    conv_rhs => rw [← hc]
    unfold meanOf Hyper.mean
    simp only [smul_add]
    exact List.sum_map_add
  have key : c.couchy = meanOf pos ns (fun q => (1 / (gradAt pos x ns q).det) •
      (gradAt pos x ns q * S q * (gradAt pos x ns q).transpose)) + p • (1 : Mat3) := by
    rw [h2, ← hadd]
    refine hmean _ _ fun q hq => ?_
    rw [(h1 q hq).unique (hd q hq).ne' (hS q hq)]
  refine ⟨key, fun hp hc => hp ?_⟩
  rw [key, add_eq_left] at hc
  have := congrFun (congrFun hc 0) 0
  simpa using this

/-! ## PLANE41 -/

theorem planeIC_ub (pts : List Point2) (gp : Nat) (hg : gp < pts.length) (s : ℝ) (vs : List (Fin 3 → ℝ)) : planeIC pts gp s vs = .ub := by
  unfold planeIC
  rw [Res.read_of_lt hg, Res.ok_bind]
  rfl

theorem plane_answers {S : Storage ℝ} {en : Nat} {ns : List Nat} {pos : List (ℝ × ℝ × ℝ)} {el : El} (hm : Made .PLANE41 W k pos en ns el)
    {p : ℝ} (hp : Post.solution S .elem en .HYDRO_PRESSURE = .ok p) : answersOf S el = .ub := by
  obtain ⟨E, g, hs, g1, rfl⟩ := hm.plane rfl
  obtain ⟨g', g2, g3, g4⟩ := makeJacob_good hs
  rw [g1, Res.ok.injEq] at g2
  subst g2
  have hpos : 0 < (quad.table g.scheme).length := by rw [g3]; decide
  have hnone : ∀ (α : Type) (q : Nat → ℝ → α → Res (Option α)), (∀ k s x, q k s x = .ok none) → ∀ x, askMean quad g q x = .ok none :=
    fun α q hq x => askMean_none g4 q hq hpos x
  set e : Quad := ⟨E, k, 2, flat (nodePos pos ns), g, List.replicate (nOfIntPoints quad g) Point2.initial, en, fun a => ns.getD a 0⟩
  have h1 : scalarOf S (.plane e) 1 = .ok (some (mean quad 2 (flat (nodePos pos ns)) (fun _ => p))) := by
    refine askMean_eq g4 id _ _ g3 (fun k hk s T => ?_) rfl
    show (do
      let p ← Post.solution S .elem en .HYDRO_PRESSURE
      Res.ok (some (T + p * s))) = _
    rw [hp, Res.ok_bind]
    simp [mul_comm]
  have h2 : scalarOf S (.plane e) 2 = .ok none := hnone _ _ (fun _ _ _ => rfl) _
  have h3 : scalarOf S (.plane e) 3 = .ok none := hnone _ _ (fun _ _ _ => rfl) _
  have h4 : scalarOf S (.plane e) 4 = .ok none := hnone _ _ (fun _ _ _ => rfl) _
  have h5 : scalarOf S (.plane e) 5 = .ok none := hnone _ _ (fun _ _ _ => rfl) _
  have hv : vectorOf (.plane e) 1 = .ub := by
    show askMean quad g (quadVector e 1) 0 = .ub
    unfold askMean
    rw [g4.volume, Res.ok_bind]
    show askLoop _ _ _ (List.range (quad.table g.scheme).length) _ = _
    obtain ⟨n, hn'⟩ : ∃ n, (quad.table g.scheme).length = n + 1 := ⟨_, (Nat.succ_pred_eq_of_pos hpos).symm⟩
    rw [hn', List.range_succ_eq_map]
    unfold askLoop
    rw [g4.intWeight (np := 0) (by omega), Res.ok_bind]
    unfold quadVector
    simp only
    rw [planeIC_ub _ _ (by simpa [e, nOfIntPoints] using hpos)]
    rfl
  unfold answersOf
  simp only [Vtk.scalarCodes, Vtk.vectorCodes, Vtk.collect, h1, h2, h3, h4, h5, hv, Res.ok_bind]
  rfl

/-- **C105, PLANE41, negation.** With PLANE41 elements and files wanted, which is the default, the behaviour of the program is undefined
before the first load step: asked for the invariants, the element writes beyond the vector it was given and reads beyond its numbers. Only
a matrix with too long rows stops the program before that. -/
theorem C105_plane_violated (h : Runnable o ref j) (ht : j.type = .PLANE41) (hv : j.vtk ≠ none)
    (hlaw : MatLaw o.material j.constants W k) (inner fuel : Nat) :
    runJob o ref j inner fuel = .error .ub ∨ runJob o ref j inner fuel = .error .fatal ∧ Crowded j := by
  obtain ⟨ls, hls⟩ := labels_ok h
  obtain ⟨E, hE1, hE2⟩ := energyOf_ok hlaw
  obtain ⟨nn, hnn, hlen⟩ := h.type
  obtain ⟨els, hels, ha⟩ := elementsOf_ok hnn hE2 k (pos := j.pos) j.elems 1 (fun ns hns =>
    ⟨hlen ns hns, (h.nodes ns hns).1, (h.nodes ns hns).2, h.sound ns hns⟩)
  have hrun := runJob_eq (ref := ref) inner fuel hls hE1 hnn hels
  rw [hrun]
  have hm := job_model h ha
  rcases prepare_or_fatal hm.legal with hf | ⟨S1, num, A, hprep, hnum, hb⟩
  · right
    refine ⟨?_, crowded_of_fatal h hf⟩
    unfold solve
    rw [hf]
    rfl
  left
  have hs : Reached Gauss.solveEquations (hyper els (updOf j els)) j.loads j.fixs S1 (Group.given els)
    ⟨S1, Group.given els, List.replicate S1.nConstr 0, List.replicate (S1.nConstr + S1.nUnknown + S1.nMpc) 0, TimeControl.fresh, []⟩ :=
    .start _
  have hp := reached_solution h ha gauss_exact hprep hnum hs (first_pressure h)
  obtain ⟨base, hbase⟩ := Option.ne_none_iff_exists'.mp hv
  have hpre : vtkPre j S1 els = .ub := by
    unfold vtkPre viewOf asksOf
    rw [hbase, ht]
    have hne := h.nonempty
    rw [ht] at ha
    generalize hn : j.elems = nss at ha hne
    generalize hen : (1 : Nat) = en at ha
    cases ha with
    | nil => exact absurd rfl hne
    | cons h1 _ =>
      subst hen
      show (do
        let V ← (do
          let ask ← (do
            let l ← Vtk.collect (answersOf S1) _
            Res.ok _)
          Res.ok _)
        _) = _
      unfold Vtk.collect
      rw [plane_answers h1 hp]
      rfl
  unfold solve
  rw [hprep, Res.ok_bind]
  unfold watchPre
  rw [show (Group.given els).1 = els from rfl, hpre]
  rfl

end

end Nla3d.Prog
