import Verif.Prog.Same
import Verif.Prog.Files
import Verif.Prog.Rest

/-!
# C107: a model that is carried along

All fixed DoFs are moved as by one translation, there are no loads, and the constraint equations hold for the translation. Then the
translation, in equal parts, is what the program finds, without reactions, pressures and stresses.
-/

namespace Nla3d.Prog

open Nla3d.Dof Nla3d.Storage Nla3d.Iso Nla3d.Newton Nla3d.Labels
open Nla3d.Solver (Bc keyOf lastFix fixKeys loadsOn lastFix_mem)
open Nla3d.Rigid (transl Plain offset theta norm3 arm rodrigues)
open Nla3d.Main (Job RigidJob)
open Nla3d.Cmd (Options)

noncomputable section

/-- Values of the unknowns for a translation by `c`: no rotations and no pressures. -/
def dir (c : Fin 3 → ℝ) : Vals
  | (.node, _, .UX) => c 0
  | (.node, _, .UY) => c 1
  | (.node, _, .UZ) => c 2
  | _ => 0

/-- The model is moved by `c`, and by nothing else. -/
structure Carried (j : Job ℝ) (c : Fin 3 → ℝ) : Prop where
  loads : j.loads = []
  fixs : ∀ f ∈ j.fixs, f.value = dir c (keyOf f)
  mpcs : ∀ m ∈ j.mpcs, m.b = 0 ∧ lhsOf m (dir c) = 0
  big : ∀ i, c i = 0 ∨ 1 / 10 ^ 15 < |c i|

open Classical in
/-- The part `t` of the translation; values that are not unknowns of the model are 0. -/
def shift (j : Job ℝ) (c : Fin 3 → ℝ) (t : ℝ) : Vals := fun f => if Has j f then t * dir c f else 0

/-- The ends of the load steps. -/
def carriedEnds (j : Job ℝ) (c : Fin 3 → ℝ) : List (Vals × Vals) :=
  (List.range j.loadsteps).map (fun i : Nat => (shift j c (((i : ℝ) + 1) / j.loadsteps), 0))

variable {o : Options ℝ} {ref : List ℝ} {j : Job ℝ} {W : ℝ → ℝ → ℝ} {k : ℝ} {c : Fin 3 → ℝ}

theorem shift_has {f : Key} (hf : Has j f) (t : ℝ) : shift j c t f = t * dir c f := if_pos hf

theorem shift_not {f : Key} (hf : ¬ Has j f) (t : ℝ) : shift j c t f = 0 := if_neg hf

theorem shift_add (s t : ℝ) : shift j c s + shift j c t = shift j c (s + t) := by
  funext f
  by_cases hf : Has j f
  · simp [shift_has hf]; ring
  · simp [shift_not hf]

theorem shift_sub (s t : ℝ) : shift j c s - shift j c t = shift j c (s - t) := by
  funext f
  by_cases hf : Has j f
  · simp [shift_has hf]; ring
  · simp [shift_not hf]

theorem shift_smul (s t : ℝ) : s • shift j c t = shift j c (s * t) := by
  funext f
  by_cases hf : Has j f
  · simp [shift_has hf]; ring
  · simp [shift_not hf]

theorem shift_zero : shift j c 0 = 0 := by
  funext f
  by_cases hf : Has j f
  · simp [shift_has hf]
  · simp [shift_not hf]

theorem dir_transl (n : Nat) (i : Fin 3) : dir c (.node, n, transl i) = c i := by
  fin_cases i <;> rfl

theorem shift_moved (t : ℝ) : Moved j (t • c) (shift j c t) where
  disp := by
    intro ns hns n hn i hi
    rw [shift_has (.node hns hn hi), dir_transl]
    rfl
  pressure := by
    intro e
    by_cases hf : Has j (.elem, e, .HYDRO_PRESSURE)
    · rw [shift_has hf]; exact mul_zero _
    · exact shift_not hf t

theorem shift_turn (r : RigidJob) (t : ℝ) : turn r (shift j c t) = 0 := by
  have e : ∀ d ∈ [DofType.ROTX, .ROTY, .ROTZ], shift j c t (.node, r.master, d) = 0 := by
    intro d hd
    by_cases hf : Has j (.node, r.master, d)
    · rw [shift_has hf]
      simp only [List.mem_cons, List.not_mem_nil, or_false] at hd
      rcases hd with rfl | rfl | rfl <;> exact mul_zero _
    · exact shift_not hf t
  unfold turn theta
  beta_reduce
  rw [e _ (by simp), e _ (by simp), e _ (by simp)]
  funext i
  fin_cases i <;> rfl

theorem norm3_zero : norm3 0 = 0 := by simp [norm3]

theorem shift_away (h : Runnable o ref j) {r : RigidJob} (hr : j.rigid = some r) {n : Nat} (hn : n ∈ r.slaves) {i : Fin 3}
    (hi : transl i ∈ r.dofs) (t : ℝ) : away j r n i (shift j c t) = 0 := by
  have h1 := (h.slaves r hr).2.2 n hn _ hi
  have h2 : Has j (.node, r.master, transl i) := .master hr (by fin_cases i <;> simp [transl])
  have e1 := shift_has (c := c) h1 t
  have e2 := shift_has (c := c) h2 t
  rw [dir_transl] at e1 e2
  have ht : theta (fun n d => shift j c t (.node, n, d)) r.master = 0 := shift_turn r t
  unfold away offset
  have hd : ∀ m, Rigid.disp (fun n d => shift j c t (.node, n, d)) m i = shift j c t (.node, m, transl i) := by
    intro m; fin_cases i <;> rfl
  rw [Pi.sub_apply, Pi.add_apply, Pi.add_apply, Pi.add_apply, hd, hd, e1, e2, ht]
  simp only [rodrigues, norm3_zero]
  simp
  ring

theorem lhs_shift (h : Runnable o ref j) (hc : Carried j c) {m : Mpc ℝ} (hm : m ∈ j.mpcs) (t : ℝ) : lhsOf m (shift j c t) = 0 := by
  have e : lhsOf m (shift j c t) = t * lhsOf m (dir c) := by
    unfold lhsOf
    rw [← List.sum_map_mul_left]
    congr 1
    refine List.map_congr_left fun a ha => ?_
    rw [shift_has ((h.mpcs m hm).2 a ha)]
    ring
  rw [e, (hc.mpcs m hm).2, mul_zero]

theorem shift_fix (h : Runnable o ref j) (hc : Carried j c) {f : Key} {a : ℝ} (hf : lastFix f j.fixs = some a) (t : ℝ) :
    Has j f ∧ shift j c t f = t * a := by
  obtain ⟨b, hb, e1, e2⟩ := lastFix_mem hf
  have hh : Has j f := e1 ▸ h.fixs b hb
  exact ⟨hh, by rw [shift_has hh, ← e2, hc.fixs b hb, e1]⟩

/-- The step from one part of the translation to another satisfies the equations of Newton's method, without reactions. -/
theorem shift_step (h : Runnable o ref j) (hW : MatLaw o.material j.constants W k) (hc : Carried j c) (s t : ℝ) :
    Linearised W k j t (shift j c s) (shift j c t) 0 where
  fixed := fun f a hf => (shift_fix h hc hf t).2
  loads := by
    intro f _ _
    rw [hc.loads]
    simp [loadsOn]
  outside := fun f hf => ⟨shift_not hf t, rfl⟩
  eqs := by
    intro m hm
    rw [shift_sub, lhs_shift h hc hm, (hc.mpcs m hm).1]
  rigid := by
    intro b hb _ n hn i hi
    have e : (fun u : ℝ => away j b n i (shift j c s + u • (shift j c t - shift j c s))) = fun _ => 0 := by
      funext u
      rw [shift_sub, shift_smul, shift_add, shift_away h hb hn hi]
    rw [e, shift_away h hb hn hi, neg_zero]
    exact hasDerivAt_const _ _
  close := by
    intro b hb n hn i hi
    rw [shift_away h hb hn hi, shift_sub, shift_turn, norm3_zero, abs_zero]
    refine mul_nonneg (by norm_num) ?_
    unfold arm
    positivity
  balance := by
    intro _ _ v _ _
    have e : (fun u : ℝ => slope W k j (shift j c s + u • (shift j c t - shift j c s)) v) = fun _ => 0 := by
      funext u
      rw [shift_sub, shift_smul, shift_add]
      exact slope_moved h hW (shift_moved _) v
    rw [e, slope_moved h hW (shift_moved s) v]
    have e1 : loadWork j t v = 0 := by simp [loadWork, hc.loads]
    have e2 : reactionWork j 0 v = 0 := by simp [reactionWork]
    rw [e1, e2]
    simpa using hasDerivAt_const (0 : ℝ) (0 : ℝ)

theorem shift_fine (h : Runnable o ref j) (hc : Carried j c) {s t : ℝ} (hst : t - s = 0 ∨ 1 / 10 ^ 5 ≤ t - s) :
    Fine j (shift j c s) (shift j c t) where
  sound := sound_moved h (shift_moved s)
  plain := by
    intro b _
    rw [shift_turn]
    exact .inl norm3_zero
  big := by
    intro f hf
    obtain ⟨a, ha⟩ := Option.isSome_iff_exists.mp (Solver.lastFix_isSome.mpr hf)
    have hh := (shift_fix h hc ha 0).1
    have e : shift j c t f - shift j c s f = (t - s) * dir c f := by
      rw [shift_has hh, shift_has hh]; ring
    rw [e]
    rcases hst with h0 | h0
    · left; rw [h0, zero_mul]
    have hd : dir c f = 0 ∨ 1 / 10 ^ 15 < |dir c f| := by
      unfold dir
      split
      · exact hc.big 0
      · exact hc.big 1
      · exact hc.big 2
      · exact .inl rfl
    rcases hd with h1 | h1
    · left; rw [h1, mul_zero]
    · right
      rw [abs_mul]
      have h2 : 1 / 10 ^ 5 ≤ |t - s| := h0.trans (le_abs_self _)
      have h3 : (1 / 10 ^ 20 : ℝ) = 1 / 10 ^ 5 * (1 / 10 ^ 15) := by norm_num
      rw [h3]
      calc (1 / 10 ^ 5 * (1 / 10 ^ 15) : ℝ) < 1 / 10 ^ 5 * |dir c f| := mul_lt_mul_of_pos_left h1 (by norm_num)
        _ ≤ |t - s| * |dir c f| := mul_le_mul_of_nonneg_right h2 (abs_nonneg _)

/-- A step without increments is accepted. -/
theorem small_refl (h : Runnable o ref j) (x : Vals) : Small j x x := by
  classical
  refine ⟨(regKeys (callsOf (displ j.type) j)).toFinset.filter (fun f => f ∉ fixKeys j.fixs), fun f => ?_, ?_⟩
  · rw [Finset.mem_filter, List.mem_toFinset, regKeys_has]
  · have : 0 < ((regKeys (callsOf (displ j.type) j)).toFinset.filter (fun f => f ∉ fixKeys j.fixs)).card := by
      refine Finset.card_pos.mpr ⟨(.elem, 1, .HYDRO_PRESSURE), ?_⟩
      rw [Finset.mem_filter, List.mem_toFinset, regKeys_has]
      refine ⟨.pressure one_pos (List.length_pos_iff.mpr h.nonempty), ?_⟩
      simp [fixKeys]
    simp only [sub_self, abs_zero, Finset.sum_const_zero]
    have h2 : (0 : ℝ) < ((regKeys (callsOf (displ j.type) j)).toFinset.filter (fun f => f ∉ fixKeys j.fixs)).card := by exact_mod_cast this
    positivity

/-- A load step: one or two iterations. -/
theorem shift_run (h : Runnable o ref j) (hW : MatLaw o.material j.constants W k) (hc : Carried j c) {s t : ℝ} (hst : 1 / 10 ^ 5 ≤ t - s) :
    ∃ l, CleanRun W k j t (shift j c s) l ∧ l.getLast? = some (shift j c t, 0) := by
  by_cases hs : Small j (shift j c s) (shift j c t)
  · exact ⟨[(shift j c t, 0)], .last (shift_step h hW hc s t) (shift_fine h hc (.inr hst)) hs, rfl⟩
  · refine ⟨[(shift j c t, 0), (shift j c t, 0)], .more (shift_step h hW hc s t) (shift_fine h hc (.inr hst)) hs ?_, rfl⟩
    exact .last (shift_step h hW hc t t) (shift_fine h hc (.inl (sub_self t))) (small_refl h _)

theorem shift_path (h : Runnable o ref j) (hW : MatLaw o.material j.constants W k) (hc : Carried j c) (m i : Nat) :
    CleanPath W k j i (shift j c ((i : ℝ) / j.loadsteps))
      ((List.range' i m).map (fun i : Nat => (shift j c (((i : ℝ) + 1) / j.loadsteps), 0))) := by
  induction m generalizing i with
  | zero => exact .done
  | succ m ih =>
    have hn : (0 : ℝ) < j.loadsteps := by exact_mod_cast h.loadsteps.1
    have hb : (j.loadsteps : ℝ) ≤ 10 ^ 5 := by
      have : j.loadsteps ≤ 10 ^ 5 := by have := h.loadsteps.2.1; omega
      exact_mod_cast this
    obtain ⟨l, l1, l2⟩ := shift_run h hW hc (s := (i : ℝ) / j.loadsteps) (t := ((i : ℝ) + 1) / j.loadsteps) (by
      rw [← sub_div, add_sub_cancel_left]
      exact one_div_le_one_div_of_le hn hb)
    rw [List.range'_succ, List.map_cons]
    refine .step l1 l2 ?_
    have := ih (i + 1)
    push_cast at this
    exact this

/-- The translation is a load path. -/
theorem carried_path (h : Runnable o ref j) (hW : MatLaw o.material j.constants W k) (hc : Carried j c) :
    CleanPath W k j 0 0 (carriedEnds j c) := by
  have := shift_path h hW hc j.loadsteps 0
  rw [Nat.cast_zero, zero_div, shift_zero] at this
  unfold carriedEnds
  rw [List.range_eq_range']
  exact this

/-! ## What the program does -/

/-- A finished run for a model with a load path of fine steps has these steps. -/
theorem outcome_clean (h : Runnable o ref j) (hview : Viewable j) (hW : MatLaw o.material j.constants W k) {ends : List (Vals × Vals)}
    (hp : CleanPath W k j 0 0 ends) (hlen : ends.length = j.loadsteps) {inner fuel : Nat} (hin : max 1 j.iterations ≤ inner)
    (hfuel : j.loadsteps < fuel) {table : Option (List (List ℝ))} {code : Nat} {files : Files}
    (hrun : runJob o ref j inner fuel = .ok (.done table code files)) : Reported o ref j ends table code ∧ Written W k j ends files :=
  ⟨C106_report h h (Renumbers.refl j) hview hW hp hlen hin hfuel hrun, by
    have hr : ∀ f, ren 1 1 f = f := by rintro ⟨s, n, d⟩; cases s <;> rfl
    simpa [hr] using C106_files h h (Renumbers.refl j) hview hW hp hlen hin hfuel hrun⟩

theorem law_rest {m : String} {cs : List ℝ} (hW : MatLaw m cs W k) : W 3 3 = 0 := by
  cases hW <;> norm_num

/-- What is shown of an element that is not strained. -/
def restCell (V : ℝ) : CellData := ⟨0, 0, 0, 0, V, ![3, 3, 1], 0, 0, 0, 1⟩

/-- An element that is moved is shown without stress and strain. -/
theorem moved_cell (hW : MatLaw o.material j.constants W k) {x : Vals} (hx : Moved j c x) (ht : j.type = .SOLID81) {ns : List Nat}
    (hns : ns ∈ j.elems) (hl : ns.length = 8) (hs : elementSound .SOLID81 j.pos ns 0) {e : Nat} {d : CellData}
    (hd : CellOf W k j.pos x e ns d) (hv : volumeOf j.pos ns ≠ 0) : d = restCell (volumeOf j.pos ns) := by
  have hF : ∀ q ∈ hexa.table (schemeIndex 2), gradAt j.pos x ns q = 1 := by
    intro q hq
    have e1 := disp_moved hx 0 0 hns ht hl
    have e0 : (nodeDisp 0 ns : Fin 8 → Fin 3 → ℝ) = 0 := rfl
    have h1 := hs q hq
    rw [e0, add_zero] at h1
    rw [smul_zero, add_zero] at e1
    unfold gradAt
    rw [e1, defGrad_rest C34_hexa _ _ _ _ h1, zero_smul, add_zero]
  have hp : x (.elem, e, .HYDRO_PRESSURE) = 0 := hx.pressure e
  obtain ⟨hd1, hd2⟩ := hd
  have hm := hd2 hv
  rw [hp] at hm hd1
  have hcong : ∀ {M : Type} [AddCommGroup M] [Module ℝ M] (X : QuadPt 3 → M) (y : M), (∀ q ∈ hexa.table (schemeIndex 2), X q = y) →
      meanOf j.pos ns X = y := by
    intro M _ _ X y hX
    have hc : meanOf j.pos ns (fun _ => y) = y := Hyper.mean_const hexa 2 (nodePos j.pos ns) hv y
    rw [← hc]
    unfold meanOf Hyper.mean
    congr 1
    refine List.map_congr_left fun q hq => ?_
    rw [hX q hq]
  have hI : invariants (1 : Material.Mat3) = ![3, 3, 1] := by
    unfold invariants
    simp only [Matrix.trace_one, Fintype.card_fin, Matrix.mul_one, Matrix.det_one, Real.sqrt_one]
    norm_num
  have hWz : W 3 3 = 0 := law_rest hW
  obtain ⟨S, hS1, hS2, hS3⟩ := hm.stress (fun q hq => by rw [hF q hq, Matrix.det_one]; exact one_pos)
  have hS : ∀ q ∈ hexa.table (schemeIndex 2), S q = 0 := by
    intro q hq
    have h1 := hS1 q hq
    rw [hF q hq] at h1
    refine IsStress.unique (by rw [Matrix.det_one]; exact one_ne_zero) h1 ⟨Matrix.isSymm_zero, fun H => ?_⟩
    have := density_rest hW H 0
    simpa using this
  obtain ⟨p, sp, wu, wp, vol, ic, couchy, pk2, green, cg⟩ := d
  have a1 := hm.sp
  have a2 := hm.wu
  have a3 := hm.wp
  have a4 := hm.vol
  have a5 := hm.ic
  have a6 := hm.green
  have a7 := hm.cauchyGreen
  simp only at hd1 a1 a2 a3 a4 a5 a6 a7 hS2 hS3
  rw [hcong _ (0 : ℝ) (fun q hq => by rw [hF q hq, Matrix.transpose_one, Matrix.one_mul, hI]; exact hWz)] at a2
  rw [hcong _ (0 : ℝ) (fun q hq => by rw [hF q hq, Matrix.det_one]; norm_num)] at a3
  rw [hcong _ _ (fun q hq => by rw [hF q hq, Matrix.transpose_one, Matrix.one_mul, hI])] at a5
  rw [hcong _ (0 : Material.Mat3) (fun q hq => by rw [hF q hq, Matrix.transpose_one, Matrix.one_mul, sub_self, smul_zero])] at a6
  rw [hcong _ (1 : Material.Mat3) (fun q hq => by rw [hF q hq, Matrix.transpose_one, Matrix.one_mul])] at a7
  rw [hcong _ (0 : Material.Mat3) (fun q hq => by rw [hS q hq, Matrix.mul_zero, Matrix.zero_mul, smul_zero, zero_smul, add_zero])] at hS2
  rw [hcong _ (0 : Material.Mat3) (fun q hq => by rw [hS q hq, zero_mul, zero_smul, add_zero])] at hS3
  subst hd1 a1 a2 a3 a4 a5 a6 a7 hS2 hS3
  rfl

/-- **C107.** A model that is moved by a translation: a finished run reports no forces in any load step, and the files show the
translation, in equal parts, no reactions, and elements without stress and strain. -/
theorem C107_carried (h : Runnable o ref j) (hview : Viewable j) (hW : MatLaw o.material j.constants W k) (hc : Carried j c)
    {inner fuel : Nat} (hin : max 1 j.iterations ≤ inner) (hfuel : j.loadsteps < fuel) {table : Option (List (List ℝ))} {code : Nat}
    {files : Files} (hrun : runJob o ref j inner fuel = .ok (.done table code files)) :
    (∀ t, table = some t → t.length = j.loadsteps + 1 ∧ ∀ row ∈ t, ∀ v ∈ row, v = 0) ∧
    ∀ base, j.vtk = some base → ∀ i ≤ j.loadsteps, ∃ lines d, files (String.ofList base ++ toString i ++ ".vtk") = some lines ∧
      Vtk.readVtk lines = some d ∧ ("disp", .vectors (atNodes j (shift j c ((i : ℝ) / j.loadsteps)))) ∈ d.pointData ∧
      ("reaction", .vectors (j.pos.map (fun _ => ⟨0, 0, 0⟩))) ∈ d.pointData ∧
      ((∀ ns ∈ j.elems, volumeOf j.pos ns ≠ 0) → d.cellData = cellArrays (j.elems.map (fun ns => restCell (volumeOf j.pos ns)))) := by
  have hlen : (carriedEnds j c).length = j.loadsteps := by simp [carriedEnds]
  obtain ⟨h1, h2⟩ := outcome_clean h hview hW (carried_path h hW hc) hlen hin hfuel hrun
  constructor
  · intro t ht
    subst ht
    unfold Reported at h1
    cases hr : j.react with
    | none => rw [hr] at h1; simp at h1
    | some a =>
      rw [hr] at h1
      have e := h1.1
      rw [Option.some.injEq] at e
      subst e
      refine ⟨by simp [hlen], fun row hrow v hv => ?_⟩
      rcases List.mem_cons.mp hrow with rfl | hrow
      · obtain ⟨_, _, rfl⟩ := List.mem_map.mp hv; rfl
      · obtain ⟨e, he, rfl⟩ := List.mem_map.mp hrow
        obtain ⟨d, _, rfl⟩ := List.mem_map.mp hv
        obtain ⟨i, _, rfl⟩ := List.mem_map.mp he
        simp [force]
  · intro base hb i hi
    have ht : j.type = .SOLID81 := by
      rcases hview with hv | hv
      · rw [hb] at hv; cases hv
      · exact hv
    unfold Written at h2
    rw [hb] at h2
    have he : ((0, 0) :: carriedEnds j c)[i]? = some (shift j c ((i : ℝ) / j.loadsteps), 0) := by
      cases i with
      | zero => simp [shift_zero]
      | succ i =>
        rw [List.getElem?_cons_succ]
        unfold carriedEnds
        rw [List.getElem?_map, List.getElem?_range (by omega)]
        simp
    obtain ⟨lines, d, d1, d2, d3⟩ := h2.1 i _ he
    refine ⟨lines, d, d1, d2, ?_, ?_, fun hvol => ?_⟩
    · obtain ⟨ds, _, _, hpd⟩ := d3.nodes
      rw [hpd]; simp
    · obtain ⟨ds, _, _, hpd⟩ := d3.nodes
      have e : atNodes j 0 = j.pos.map (fun _ => ⟨0, 0, 0⟩) := by
        refine List.ext_getElem (by simp [atNodes]) fun m h1 h2 => ?_
        simp [atNodes]
      rw [hpd, ← e]; simp
    · obtain ⟨cs, hcs, hcd⟩ := d3.elems
      rw [hcd]
      congr 1
      obtain ⟨nn, hnn, hl⟩ := h.type
      rw [ht] at hnn
      simp only [nodeCount, Option.some.injEq] at hnn
      subst hnn
      refine List.ext_getElem (by have := hcs.length_eq; simpa using this.symm) fun m m1 m2 => ?_
      have hm : m < (j.elems.zipIdx 1).length := by rw [hcs.length_eq]; exact m1
      have hcell := hcs.get hm m1
      simp only [List.get_eq_getElem, List.getElem_zipIdx] at hcell
      have hme : m < j.elems.length := by simpa using hm
      rw [List.getElem_map]
      exact moved_cell hW (shift_moved _) ht (List.getElem_mem hme) (hl _ (List.getElem_mem hme))
        (by have := h.sound _ (List.getElem_mem hme); rwa [ht] at this) hcell (hvol _ (List.getElem_mem hme))

end

end Nla3d.Prog
