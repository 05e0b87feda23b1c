import Verif.Prog.Fail
import Verif.Prog.Show

/-!
# C101: the whole program
-/

namespace Nla3d.Prog

open Nla3d.Dof Nla3d.Storage Nla3d.Iso Nla3d.Newton Nla3d.Labels Nla3d.Material Nla3d.Hyper Nla3d.TimeCtl
open Nla3d.Solver (Bc keyOf lastFix fixKeys EqSolver Reached iteration NState Accepted base_of_prepare Base comp reached_inv
  StepFails prepare_or_fatal gauss_exact)
open Nla3d.Main (Job Table curve Fails report)
open Nla3d.Cmd (Options)
open Nla3d.Cdb (Out MeshData out_bind)
open Nla3d.Post (Proc rowOf Fixed)

noncomputable section

variable {o : Options ℝ} {ref : List ℝ} {j : Job ℝ} {els : List El} {num : Key → Nat} {W : ℝ → ℝ → ℝ} {k : ℝ} {S1 : Storage ℝ}

/-! ## Report -/

/-- A table is determined by the curves. -/
theorem table_eq {a : Spec} {ns : List Nat} {Ss : List (Storage ℝ)} {ds : List DofType} {t : List (List ℝ)}
    (h : Table a ns Ss ds t) :
    t = ds.map (fun _ => 0) :: Ss.map (fun S => ds.map (fun d => (ns.map (fun n => rowOf a S.vecR n d)).sum)) := by
  obtain ⟨h1, h2⟩ := h
  apply List.ext_getElem (by simp [h1])
  intro ls l1 l2
  obtain ⟨r1, r2⟩ := h2 ls t[ls] (List.getElem?_eq_getElem l1)
  have hrow : ∀ g : DofType → ℝ, (∀ d, (curve a ns Ss d)[ls]? = some (g d)) → t[ls] = ds.map g := by
    intro g hg
    apply List.ext_getElem (by simp [r1])
    intro q q1 q2
    have := r2 q ds[q] (List.getElem?_eq_getElem (by simpa using q2))
    rw [hg, List.getElem?_eq_getElem q1, Option.some.injEq] at this
    rw [this]
    simp
  cases ls with
  | zero => exact hrow _ fun d => rfl
  | succ ls =>
    have hl : ls < Ss.length := by omega
    rw [hrow (fun d => (ns.map (fun n => rowOf a Ss[ls].vecR n d)).sum) fun d => by simp [curve, hl]]
    simp

section
variable (h : Runnable o ref j) (ha : AllMade j.type W k j.pos 1 j.elems els)
  {A : Side → Spec} (hb : Base (storeOf j) S1 (regsOf j) (newOf j) j.fixs num A)

include hb in
theorem fixed_iff (n : Nat) (t : DofType) : Fixed (A .node) n t ↔ (Side.node, n, t) ∈ fixKeys j.fixs := by
  have hm := hb.prep.ready.map (Side.node, n, t)
  have hat : at' A (Side.node, n, t) = A .node n t := rfl
  rw [hat] at hm
  constructor
  · rintro ⟨e, he⟩
    rw [he] at hm
    by_contra hc
    split at hm <;> simp [hc] at hm
  · intro hc
    have hreg : (Side.node, n, t) ∈ regKeys (regsOf j) := by
      obtain ⟨f, f1, f2⟩ := List.mem_map.mp hc
      rw [← f2]
      exact hb.fixes f f1
    rw [if_pos hreg] at hm
    cases hA : A .node n t with
    | none => rw [hA] at hm; simp at hm
    | some p =>
      rw [hA] at hm
      obtain ⟨e, c⟩ := p
      simp [hc] at hm
      exact ⟨e, by rw [hA, hm]⟩

include hb in
/-- The row of the reaction vector is the reaction of the DoF. -/
theorem rowOf_eq (s : NState (Group els) ℝ) (n : Nat) (t : DofType) :
    rowOf (A .node) s.S.vecR n t = reactionsOf j num s (.node, n, t) :=
  rowOf_vals hb _ _ _ _

include h hb in
/-- `pre` of the processor. -/
theorem pre_ok : ∃ P, preProc S1 (procOf j) = .ok P ∧ Good (storeOf j).nNodes P ∧
    (j.react = none → P = none) ∧
    ∀ ns ds, j.react = some (ns, ds) → ∃ P', P = some P' ∧ Post.pre S1 ⟨ns, ds, false, [], []⟩ true = .ok P' ∧
      P'.dofs = columns j ns ds := by
  cases hr : j.react with
  | none => exact ⟨none, by unfold procOf; rw [hr]; rfl, trivial, fun _ => rfl, by simp⟩
  | some p =>
    obtain ⟨ns, ds⟩ := p
    obtain ⟨h1, h2, _, h4⟩ := h.react ns ds hr
    have hN : S1.nNodes = (storeOf j).nNodes := hb.prep.ready.mesh.nNodes
    have hex : Post.Exist S1 ns := by
      intro n hn
      rw [hN]
      exact h2 n hn
    have hpre : ∃ P', Post.pre S1 ⟨ns, ds, false, [], []⟩ true = .ok P' ∧ P'.dofs = columns j ns ds := by
      by_cases hds : ds = []
      · subst hds
        obtain ⟨n, ns', hns⟩ := List.exists_cons_of_ne_nil h1
        have hcol : columns j ns [] = DofType.list.filter (fun t => Fixed (A .node) n t) := by
          unfold columns
          rw [if_pos rfl, hns]
          refine List.filter_congr fun d _ => ?_
          rw [decide_eq_decide]
          exact (fixed_iff hb n d).symm
        rcases Post.C59_select_cases (P := (⟨ns, [], false, [], []⟩ : Proc ℝ)) hb.prep.ready.sim hex n (by rw [hns]; rfl) rfl with
          ⟨_, P', q1, q2⟩ | ⟨⟨m, m1, t, _, m3, m4⟩, _⟩
        · exact ⟨P', q1, q2.trans hcol.symm⟩
        · exfalso
          have := h4 rfl t (by rw [hns]; exact (fixed_iff hb n t).mp m3) m m1
          have := (hb.prep.ready.isSome (Side.node, m, t)).mpr ((regKeys_has j _).mpr this)
          rw [show at' A (Side.node, m, t) = A .node m t from rfl, m4] at this
          simp at this
      · obtain ⟨P', q1, q2⟩ := Post.C59_given (P := (⟨ns, ds, false, [], []⟩ : Proc ℝ)) hb.prep.ready.sim hex h1 hds
        refine ⟨P', q1, q2.trans ?_⟩
        unfold columns
        rw [if_neg hds]
    obtain ⟨P', q1, q2⟩ := hpre
    refine ⟨some P', ?_, ?_, by simp, ?_⟩
    · unfold procOf preProc
      rw [hr]
      simp only [q1, Res.ok_bind]
    · obtain ⟨n, ns', rfl⟩ := List.exists_cons_of_ne_nil h1
      have q1' := q1
      unfold Post.pre at q1'
      simp only [Bool.false_eq_true, if_false] at q1'
      obtain ⟨ds', _, q3⟩ := Res.bind_eq_ok.mp q1'
      rw [Res.ok.injEq] at q3
      subst q3
      exact ⟨h2, _, rfl⟩
    · intro ns' ds' he
      simp only [Option.some.injEq, Prod.mk.injEq] at he
      obtain ⟨rfl, rfl⟩ := he
      exact ⟨P', rfl, q1, q2⟩

include h hb in
/-- The report after the load steps. -/
theorem report_ok {L : List (NState (Group els) ℝ)} (hL : L.length = j.loadsteps)
    (hS : ∀ s ∈ L, Post.Solved s.S A ∧ s.S.nNodes = (storeOf j).nNodes) {P Q : Option (Proc ℝ)} (hP : preProc S1 (procOf j) = .ok P)
    (hQ : runOpt 1 (L.map (·.S)) P = .ok Q) :
    ∃ t code, report o ref Q = .ok (t, code) ∧ Reported o ref j (L.map (fun s => (valuesOf j num s, reactionsOf j num s))) t code := by
  obtain ⟨P0, p1, _, p3, p4⟩ := pre_ok h hb
  rw [hP, Res.ok.injEq] at p1
  subst p1
  cases hr : j.react with
  | none =>
    have := p3 hr
    subst this
    simp only [runOpt, Res.ok.injEq] at hQ
    subst hQ
    refine ⟨none, 0, rfl, ?_⟩
    unfold Reported
    rw [hr]
    exact ⟨rfl, rfl⟩
  | some p =>
    obtain ⟨ns, ds⟩ := p
    obtain ⟨h1, h2, h3, _⟩ := h.react ns ds hr
    obtain ⟨P', rfl, q1, q2⟩ := p4 ns ds hr
    obtain ⟨R, t, code, r1, r2, r3, r4, r5⟩ := Main.C92_partial (A := A) (Ss := L.map (·.S)) o ref h1 (by
      intro S hS'
      obtain ⟨s, s1, rfl⟩ := List.mem_map.mp hS'
      refine ⟨(hS s s1).1, fun n hn => ?_⟩
      rw [(hS s s1).2]
      exact h2 n hn) (by rw [List.length_map, hL, h.loadsteps.2.2]) q1 (by rw [q2]; exact h3)
    simp only [runOpt, r1, Res.ok_bind, Res.ok.injEq] at hQ
    subst hQ
    refine ⟨some t, code, r2, ?_⟩
    have hforce : ∀ (s : NState (Group els) ℝ) d, (ns.map (fun n => rowOf (A .node) s.S.vecR n d)).sum =
        force ns (reactionsOf j num s) d := by
      intro s d
      unfold force
      congr 1
      exact List.map_congr_left fun n _ => rowOf_eq hb s n d
    have hcurve : ∀ d, curve (A .node) ns (L.map (·.S)) d =
        0 :: (L.map (fun s => (valuesOf j num s, reactionsOf j num s))).map (fun e => force ns e.2 d) := by
      intro d
      unfold curve
      rw [List.map_map, List.map_map]
      congr 1
      exact List.map_congr_left fun s _ => hforce s d
    unfold Reported
    rw [hr]
    refine ⟨?_, r4, ?_⟩
    · rw [table_eq r3, q2, List.map_map, List.map_map]
      congr 2
      refine List.map_congr_left fun s _ => List.map_congr_left fun d _ => ?_
      exact hforce s d
    · rw [r5, q2]
      simp only [hcurve]

end

/-! ## A job -/

theorem labels_ok (h : Runnable o ref j) : ∃ ls, labelsOf j = .ok ls := by
  unfold labelsOf
  cases hr : j.rigid with
  | none => exact ⟨[], rfl⟩
  | some r =>
    have hl := (h.slaves r hr).1
    simp only
    unfold Main.slaveLabels
    generalize r.dofs.length = n at hl
    interval_cases n <;> exact ⟨_, rfl⟩

theorem runJob_eq {ls : List String} {E : Energy} {nn : Nat} (inner fuel : Nat) (hls : labelsOf j = .ok ls)
    (hE : energyOf o.material j.constants = .ok (E, k)) (hnn : nodeCount j.type = some nn)
    (hels : elementsOf j.type E k j.pos 1 j.elems = .ok els) : runJob o ref j inner fuel = (do
      let r ← bounded (solve Gauss.solveEquations (hyper els (updOf j els)) j.loads j.fixs (settingsOf j) TimeControl.fresh (regsOf j)
        (newOf j) (storeOf j) (Group.given els) (watchPre j) (watchStep j) inner fuel)
      let rep ← Cdb.lift (report o ref r.2.react)
      .ok (.done rep.1 rep.2 r.2.files)) := by
  unfold runJob
  rw [hls, hE]
  show (match dofsOf j.type with
    | none => (.ok .other : Out Ending)
    | some ds => _) = _
  rw [dofsOf_displ hnn]
  simp only [hels]
  rfl

/-- C101, positions: node `n` is at the `n`-th position of the file, x before y before z. -/
theorem C101_positions (pos : List (ℝ × ℝ × ℝ)) (n : Nat) (x y z : ℝ) (h : pos[n]? = some (x, y, z)) :
    posOf pos (n + 1) 0 = x ∧ posOf pos (n + 1) 1 = y ∧ posOf pos (n + 1) 2 = z := by
  unfold posOf
  rw [Nat.add_sub_cancel, List.getD, h]
  exact ⟨rfl, rfl, rfl⟩

/-- **C101, a job.** The program follows the load path of the model, reports the reactions of its steps and writes its files, or it stops with an error
message, because a row of the matrix is too long or because Newton's method fails in a load step. -/
theorem C101_job (h : Runnable o ref j) (hview : Viewable j) (hlaw : MatLaw o.material j.constants W k) {inner fuel : Nat}
    (hin : max 1 j.iterations ≤ inner) (hfuel : j.loadsteps < fuel) :
    Outcome W k o ref j (runJob o ref j inner fuel) := by
  unfold Outcome
  obtain ⟨ls, hls⟩ := labels_ok h
  obtain ⟨E, hE1, hE2⟩ := energyOf_ok hlaw
  obtain ⟨nn, hnn, hlen⟩ := h.type
  obtain ⟨els, hels, ha⟩ := elementsOf_ok hnn hE2 k (pos := j.pos) j.elems 1 (fun ns hns =>
    ⟨hlen ns hns, (h.nodes ns hns).1, (h.nodes ns hns).2, h.sound ns hns⟩)
  have hrun := runJob_eq (ref := ref) inner fuel hls hE1 hnn hels
  rw [hrun]
  have hm := job_model h ha
  have hprob := hyper_problem hm
  rcases prepare_or_fatal hm.legal with hf | ⟨S1, num, A, hprep, hnum, hb⟩
  · left
    refine ⟨?_, .inl (crowded_of_fatal h hf)⟩
    unfold solve
    rw [hf]
    rfl
  obtain ⟨P, hP, hgood, _, _⟩ := pre_ok h hb
  obtain ⟨v, hv, hgood', hup⟩ := vtk_pre h ha hprep hnum hb hview
  have hel := hprob.elems S1 num hprep hnum
  have hnK : (0 : ℝ) < j.loadsteps := by exact_mod_cast h.loadsteps.1
  have hd : (0 : ℝ) < (1 - 0) / j.loadsteps := by positivity
  have hlen0 : (TimeControl.fresh : TimeControl ℝ).record.converged.length = 0 := by
    simp [TimeControl.record, TimeControl.fresh]
  have hun : solve Gauss.solveEquations (hyper els (updOf j els)) j.loads j.fixs (settingsOf j) TimeControl.fresh (regsOf j)
        (newOf j) (storeOf j) (Group.given els) (watchPre j) (watchStep j) inner fuel =
      stepLoop Gauss.solveEquations (hyper els (updOf j els)) j.loads j.fixs (settingsOf j) ((1 - 0) / j.loadsteps) (watchStep j) inner fuel
        ⟨S1, Group.given els, List.replicate S1.nConstr 0, List.replicate (S1.nConstr + S1.nUnknown + S1.nMpc) 0,
          TimeControl.fresh, []⟩ ⟨v, P⟩ := by
    unfold solve
    rw [hprep, Res.ok_bind, show watchPre j S1 (Group.given els) = .ok ⟨v, P⟩ from by
      unfold watchPre
      rw [show (Group.given els).1 = els from rfl, hv, Res.ok_bind, hP, Res.ok_bind], Res.ok_bind]
    rfl
  rw [hun]
  rcases stepLoop_ok (st := settingsOf j) hb hm.loads hel gauss_exact h.iterations hin hd h.loadsteps.2.1
      (watch_good h ha gauss_exact hprep hnum hb hview) j.loadsteps 0 fuel
      ⟨S1, Group.given els, List.replicate S1.nConstr 0, List.replicate (S1.nConstr + S1.nUnknown + S1.nMpc) 0, TimeControl.fresh, []⟩
      ⟨v, P⟩ ⟨hgood, hgood'⟩ (by omega) hfuel (.start _) (show (1 : ℝ) = _ by field_simp; ring) rfl (show (0 : ℝ) = _ by simp) hlen0 with
    ⟨g, L, tc, k1, k2, k3, k4, k5⟩ | ⟨s', P', L, g1, _, g3, g4, g5, g6⟩
  · left
    have hlast : Reached Gauss.solveEquations (hyper els (updOf j els)) j.loads j.fixs S1 (Group.given els) (L.getLast?.getD
        ⟨S1, Group.given els, List.replicate S1.nConstr 0, List.replicate (S1.nConstr + S1.nUnknown + S1.nMpc) 0, TimeControl.fresh, []⟩) := by
      cases hl : L.getLast? with
      | none => exact .start _
      | some s => exact k2 s (List.mem_of_getLast? hl)
    have hnf := newton_fails h ha hprep hnum (.time tc hlast) k5
    have hpath := load_path h ha gauss_exact hprep hnum (fun _ _ => Solver.gauss_succeeds) (.start _) k2 k3
    rw [start_values j hb] at hpath
    have hval : ((L.map (fun s => (valuesOf j num s, reactionsOf j num s))).getLast?.map Prod.fst).getD 0 = valuesOf j num (L.getLast?.getD
        ⟨S1, Group.given els, List.replicate S1.nConstr 0, List.replicate (S1.nConstr + S1.nUnknown + S1.nMpc) 0, TimeControl.fresh, []⟩) := by
      rw [List.getLast?_map]
      cases L.getLast? with
      | none => exact (start_values j hb _ _ _ _).symm
      | some s => rfl
    refine ⟨by rw [g]; rfl, .inr ⟨_, hpath, by rwa [List.length_map], ?_⟩⟩
    rw [hval, List.length_map, ← Nat.zero_add L.length, ← k4]
    exact hnf
  · right
    obtain ⟨w1, w2⟩ := watch_run h ha gauss_exact hprep hnum hb hview L 1 ⟨v, P⟩ P' [(0, 0)] g5 ⟨hgood, hgood'⟩ rfl hup g3
    obtain ⟨t, code, r1, r2⟩ := report_ok h hb g4 (fun s hs => solved_reached hb hm.loads hel gauss_exact (g5 s hs)) hP w1
    refine ⟨t, code, P'.files, _, ?_, ?_, by rw [List.length_map, g4], r2, upto_written w2⟩
    · rw [g1]
      show (do let rep ← Cdb.lift (report o ref P'.react); (.ok (.done rep.1 rep.2 P'.files) : Out Ending)) = _
      rw [r1]
      rfl
    · have := load_path h ha gauss_exact hprep hnum (fun _ _ => Solver.gauss_succeeds) (.start _) g5 g6
      rwa [start_values j hb] at this

/-! ## From the mesh and from files -/

theorem law_of {name : String} {n : Nat} (h : Main.constsOf name = some n) {cs : List ℝ} (hc : cs.length = n) :
    ∃ W k, MatLaw name cs W k := by
  unfold Main.constsOf at h
  split at h
  · rename_i e
    rw [Option.some.injEq] at h
    subst h e
    obtain ⟨a, b, rfl⟩ := List.length_eq_two.mp hc
    exact ⟨_, _, .neoHookean a b⟩
  split at h
  · rename_i e
    rw [Option.some.injEq] at h
    subst h e
    match cs, hc with
    | [a, b, c, d, e], _ => exact ⟨_, _, .biderman a b c d e⟩
  split at h
  · rename_i e
    rw [Option.some.injEq] at h
    subst h e
    obtain ⟨a, b, c, rfl⟩ := List.length_eq_three.mp hc
    exact ⟨_, _, .mooneyRivlin a b c⟩
  · simp at h

/-- **C101, a mesh.** For a complete mesh and fitting options the job is the one the mesh and the options describe. -/
theorem C101_run (o : Options ℝ) (ref : List ℝ) (md : MeshData ℝ) (h : Main.Complete md) (hnum : Main.Numbered md)
    (ho : Main.Fitting o md) :
    ∃ j W k, Main.Faithful o md j ∧ (0 < o.rigidMaster → o.rigidSlaves ≠ "" → j.rigid.map (·.master) = some o.rigidMaster) ∧
      MatLaw o.material j.constants W k ∧ (Runnable o ref j → Viewable j → ∀ inner fuel, max 1 j.iterations ≤ inner → j.loadsteps < fuel →
        Outcome W k o ref j (run o ref md inner fuel)) := by
  obtain ⟨j, h1, h2, h3⟩ := Main.C91_partial o md h hnum ho
  obtain ⟨n, n1, n2⟩ := h2.constants
  obtain ⟨n', n3, n4⟩ := ho.mat
  rw [n1, Option.some.injEq] at n3
  subst n3
  obtain ⟨W, k, hlaw⟩ := law_of n1 (cs := j.constants) (by rw [n2, List.length_take, min_eq_left n4])
  refine ⟨j, W, k, h2, h3, hlaw, fun hr hv inner fuel hi hf => ?_⟩
  have : run o ref md inner fuel = runJob o ref j inner fuel := by
    unfold run
    rw [h1, out_bind]
  rw [this]
  exact C101_job hr hv hlaw hi hf

theorem refOf_given {num : String → Option ℝ} {curve : String → Cmd.In} (h : CurveGiven num curve o ref) :
    refOf num curve o = .ok (some ref) := by
  unfold refOf
  rcases h with ⟨h1, h2⟩ | ⟨h1, h2, n1, n2, rows, trail, h3, h4, h5, h6⟩
  · rw [if_pos h1, h2]
  · rw [if_neg h1, if_neg h2, h3, @Cmd.C78_column_partial ℝ (Classical.decEq ℝ) _ _ _ num n1 n2 rows ref h5 h4 trail h6]

/-- **C101.** The program, started with options and a file of commands: the options mean what the text of `usage` says, the job is the
one that the commands and the options describe, and the program follows its load path or stops with an error message for one of the
reasons in `MayStop`. Missing: what is excluded in C71 and C91, jobs that are not `Runnable`, and files for PLANE41 elements
(`C105_plane_violated`). -/
theorem C101_program_partial (cv : Cmd.Conv ℝ) (stod : List Char → Out ℝ) (num : String → Option ℝ) (disk : String → Option (List Char))
    (curve : String → Cmd.In) (prog model : String) (gs : Cmd.Groups) (hg : gs.WF) (hgc : gs.Complete)
    (hgr : ¬ Cmd.Refused (fun k => gs.lookup k)) {cmds : List (Cdb.Cmd ℝ)} {file : List Char} (hd : disk model = some file)
    (hf : FileOf stod cmds file) :
    ∃ o, Cmd.Means cv model (fun k => gs.lookup k) o ∧
      ∀ ref, CurveGiven num curve o ref → Main.Complete (Cdb.mesh cmds) → Main.Numbered (Cdb.mesh cmds) →
      Main.Fitting o (Cdb.mesh cmds) →
      ∃ j W k, Main.Faithful o (Cdb.mesh cmds) j ∧
        (0 < o.rigidMaster → o.rigidSlaves ≠ "" → j.rigid.map (·.master) = some o.rigidMaster) ∧
        MatLaw o.material j.constants W k ∧ (Runnable o ref j → Viewable j → ∃ f0, ∀ reads inner fuel, f0 ≤ reads → max 1 j.iterations ≤ inner →
          j.loadsteps < fuel → Outcome W k o ref j (program cv stod num disk curve (prog :: model :: gs.flat) reads inner fuel)) := by
  rcases Cmd.C75_parse cv prog model gs hg hgc with ⟨hr, _⟩ | ⟨_, o, h1, h2⟩
  · exact absurd hr hgr
  refine ⟨o, h2, fun ref href hc hnum ho => ?_⟩
  obtain ⟨j, W, k, q1, q2, q3, q4⟩ := C101_run o ref _ hc hnum ho
  refine ⟨j, W, k, q1, q2, q3, fun hr hv => ?_⟩
  obtain ⟨liness, ls, last, w1, w2, w3, w4, w5, w6, rfl⟩ := hf
  obtain ⟨f0, hf0⟩ := Cdb.C71_file_partial stod liness cmds w1 w2 ls last w3 w4 w5 w6
  refine ⟨f0, fun reads inner fuel hreads hi hfu => ?_⟩
  have : program cv stod num disk curve (prog :: model :: gs.flat) reads inner fuel = run o ref (Cdb.mesh cmds) inner fuel := by
    unfold program
    rw [h1]
    simp only
    rw [refOf_given href, out_bind]
    simp only
    rw [h2.model, hd]
    simp only
    rw [hf0 reads hreads, out_bind]
  rw [this]
  exact q4 hr hv inner fuel hi hfu

end

end Nla3d.Prog
