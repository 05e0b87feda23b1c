import Verif.Prog.Path
import Verif.Gauss.Near
import Verif.Storage.Rows

/-!
# Why an iteration stops
-/

namespace Nla3d.Prog

open Nla3d.Dof Nla3d.Storage Nla3d.Iso Nla3d.Newton Nla3d.Labels Nla3d.Material Nla3d.Hyper
open Nla3d.Solver (Bc keyOf lastFix fixKeys EqSolver Reached iteration NState Books Accepted C21_iteration base_of_prepare Base zeroR kept
  unknowns meanAbs comp seg gauss_exact gauss_succeeds
  Again StepFails)
open Nla3d.Rigid hiding pre update
open Nla3d.Main (Job)
open Nla3d.Cmd (Options)

noncomputable section

variable {o : Options ℝ} {ref : List ℝ} {j : Job ℝ} {els : List El} {num : Key → Nat} {W : ℝ → ℝ → ℝ} {k : ℝ}
  {S1 : Storage ℝ}

section
variable (h : Runnable o ref j) (ha : AllMade j.type W k j.pos 1 j.elems els)
  (hp : (storeOf j).prepare (regsOf j) (newOf j) (fixKeys j.fixs) = .ok S1)
  (hn : ∀ f ∈ regKeys (regsOf j), S1.eqNumber f.1 f.2.1 f.2.2 = .ok (num f))

include h ha hp hn

/-- An iteration stops only for values where Newton's method has no way on. -/
theorem hopeless {s : NState (Group els) ℝ}
    (hs : Reached Gauss.solveEquations (hyper els (updOf j els)) j.loads j.fixs S1 (Group.given els) s)
    (hit : iteration Gauss.solveEquations (hyper els (updOf j els)) j.loads j.fixs s = .fatal) : Hopeless W k j (valuesOf j num s) := by
  by_cases hsound : Sound j (valuesOf j num s)
  swap
  · exact Or.inl hsound
  by_cases hplain : ∀ b, j.rigid = some b → Plain (turn b (valuesOf j num s))
  swap
  · push Not at hplain
    exact Or.inr (Or.inl hplain)
  refine Or.inr (Or.inr ?_)
  have hm := job_model h ha
  have hprob := hyper_problem hm
  obtain ⟨A, hb⟩ := base_of_prepare hm.legal hp hn
  obtain ⟨K, F, h1, h2, h3, h4, h5, h6⟩ := newton_core hm gauss_exact hp hn
  rcases h6 s hs with ⟨_, hst⟩ | ⟨s2, g1, _⟩
  swap
  · rw [hit] at g1; simp at g1
  obtain ⟨hrun, _⟩ := Solver.reached_inv hb hm.loads (hprob.elems S1 num hp hn) gauss_exact hs
  obtain ⟨_, _, _, _, hrun⟩ := hrun
  have hsh : SameShape S1.mpcs (updOf j els s.e (zeroR s.S) s.S.mpcs) := Eq.trans (hm.shape s.e (zeroR s.S) s.S.mpcs) hrun.during.shape
  obtain ⟨hml, hmn⟩ := mpc_number hb hsh
  have hms := shape_mpcs hb hsh
  have hcat := fun q m => conditions_at (q := q) (m := m) h ha gauss_exact hp hn hs hplain
  have hcl : (updOf j els s.e (zeroR s.S) s.S.mpcs).length = (conditions j (valuesOf j num s)).length := by rw [hml, conditions_length]
  have hnM : S1.nMpc = (conditions j (valuesOf j num s)).length := by rw [← hcl, hsh.length]; rfl
  have hdofs := hb.prep.pre.dofs
  generalize updOf j els s.e (zeroR s.S) s.S.mpcs = ms at *
  obtain ⟨B, rhs, guess, b1, b2, b3, b4, b5⟩ := hst
  rw [← b1] at b2 b3 b4
  have hrep : Gauss.RepV B.si.nRows rhs (fun i => rhs.getD i 0) := by
    refine ⟨b3, fun i hi => ?_⟩
    rw [List.getD_eq_getElem?_getD, List.getElem?_eq_getElem (by omega)]
    rfl
  rcases Gauss.C20_stops b2 hrep b4 b5 with hbig | ⟨w, ⟨i0, i1, i2⟩, hw⟩
  · right
    refine ⟨freeOf j, mem_freeOf, ?_⟩
    rw [free_card hb, ← hnM]
    omega
  left
  rw [b1] at i1 hw
  have hrow : ∀ i, S1.nConstr < i → i ≤ S1.nDofs + S1.nMpc →
      |∑ jj ∈ Finset.range (S1.nDofs + S1.nMpc), (K (comp s.S.vecU) i (jj + 1) +
        matSum 0 i (jj + 1) (ms.flatMap (mpcContribs num))) * lift S1.nConstr w (jj + 1)| < 1 / 10 ^ 20 := by
    intro i hi1 hi2
    have := hw (i - S1.nConstr - 1) (by omega)
    beta_reduce at this
    rw [show S1.nConstr + (i - S1.nConstr - 1 + 1) = i by omega,
      sum_lift S1.nConstr (S1.nUnknown + S1.nMpc) (fun jj => K (comp s.S.vecU) i jj + matSum 0 i jj (ms.flatMap (mpcContribs num))) w,
      ← Nat.add_assoc, hdofs] at this
    exact this
  have hK0 : ∀ i, ∑ jj ∈ Finset.range (S1.nDofs + S1.nMpc), K (comp s.S.vecU) i (jj + 1) * lift S1.nConstr w (jj + 1) =
      ∑ jj ∈ Finset.Icc 1 S1.nDofs, K (comp s.S.vecU) i jj * lift S1.nConstr w jj := by
    intro i
    rw [← sum_icc (S1.nDofs + S1.nMpc) (fun jj => K (comp s.S.vecU) i jj * lift S1.nConstr w jj), sum_to fun jj hjj => by rw [h2 _ _ _ hjj, zero_mul]]
  have hreg : ∀ f, Has j f → f ∈ regKeys (regsOf j) := fun f hf => (regKeys_has j f).mpr hf
  have hdir : ∀ f, Has j f → valsAt (regKeys (regsOf j)) num (lift S1.nConstr w) f = lift S1.nConstr w (num f) := fun f hf => valsAt_has hf
  refine ⟨valsAt (regKeys (regsOf j)) num (lift S1.nConstr w), fun m => lift S1.nConstr w (S1.nDofs + 1 + m), ?_, ?_, ?_, ?_⟩
  · intro f hf
    by_cases hh : Has j f
    · rw [hdir f hh]
      have hfix : f ∈ fixKeys j.fixs := by
        by_contra hc
        exact hf ⟨hh, hc⟩
      have := hb.fixRange hfix
      rw [lift, if_neg (by omega)]
    · exact if_neg fun hc => hh ((regKeys_has j f).mp hc)
  · by_cases hi : S1.nConstr + (i0 + 1) ≤ S1.nDofs
    · left
      obtain ⟨f, f1, f2⟩ := dofOf hb (i := S1.nConstr + (i0 + 1)) (by omega) hi
      have hh := (regKeys_has j f).mp f1
      refine ⟨f, ⟨hh, fun hc => ?_⟩, ?_⟩
      · have := hb.fixRange hc
        omega
      · rw [hdir f hh, f2, lift, if_pos (by omega), show S1.nConstr + (i0 + 1) - S1.nConstr - 1 = i0 by omega, i2]
    · right
      refine ⟨S1.nConstr + i0 - S1.nDofs, by omega, ?_⟩
      beta_reduce
      rw [lift, if_pos (by omega), show S1.nDofs + 1 + (S1.nConstr + i0 - S1.nDofs) - S1.nConstr - 1 = i0 by omega, i2]
  · intro f hf
    have hr := hb.freeRange (hreg f hf.1) hf.2
    have hF : ∀ (z : ℝ) (u v : Nat → ℝ), (∀ e ∈ els, e.Sound num u) →
        HasDerivAt (fun s : ℝ => (els.map (El.potential z num (fun j => u j + s * v j))).sum)
          (-∑ i ∈ Finset.Icc 1 S1.nDofs, F u i * v i) 0 := by
      intro z u v hu
      rw [← sum_to (m := S1.nMpc) fun i hi => by rw [h4 u i hi, zero_mul]]
      exact h5 z u v hu
    have hK : ∀ u v : Nat → ℝ, (∀ e ∈ els, e.Sound num u) → ∀ i,
        HasDerivAt (fun s : ℝ => F (fun j => u j + s * v j) i) (-∑ j ∈ Finset.Icc 1 S1.nDofs, K u i j * v j) 0 := by
      intro u v hu i
      rw [← sum_to (m := S1.nMpc) fun j hj => by rw [h2 u i j hj, zero_mul]]
      exact h3 u v hu i
    refine ⟨∑ jj ∈ Finset.Icc 1 S1.nDofs, K (comp s.S.vecU) (num f) jj * lift S1.nConstr w jj, ?_, ?_⟩
    · refine (slope_deriv h ha hF hK (fun g hg => valsAt_has hg) (fun g hg => (vecOf_has hb (Pi.single f 1) hg).symm) hdir
        hsound).congr_deriv ?_
      rw [Finset.sum_eq_single (num f)]
      · rw [vecOf_has hb _ hf.1, Pi.single_eq_same, one_mul]
      · intro i hi hne
        have hi := Finset.mem_Icc.mp hi
        obtain ⟨g, g1, g2⟩ := dofOf hb (i := i) (by omega) hi.2
        rw [← g2, vecOf_has hb _ ((regKeys_has j g).mp g1), Pi.single_eq_of_ne (by rintro rfl; exact hne g2.symm), zero_mul]
      · intro hni
        exact absurd (Finset.mem_Icc.mpr ⟨by omega, by omega⟩) hni
    · rw [← force_conditions hcl hmn hcat f]
      have := hrow (num f) hr.1 (by omega)
      simp only [add_mul, Finset.sum_add_distrib] at this
      rw [hK0, Struct.row_mpcs (lift S1.nConstr w) (hreg f hf.1) hb.inj (fun k hk => hb.range hk) (Nat.le_add_right _ _) ms hms] at this
      exact this
  · intro c hc
    obtain ⟨q, hq⟩ := List.getElem?_of_mem hc
    have hlt := (List.getElem?_eq_some_iff.mp hq).1
    have hmq : ms[q]? = some ms[q] := List.getElem?_eq_getElem _
    have hmem : ms[q] ∈ ms := List.getElem_mem _
    obtain ⟨c', c1, c2⟩ := hcat q _ hmq
    rw [hq, Option.some.injEq] at c1
    subst c1
    have hrange := hms _ hmem
    have := hrow (ms[q]).eqNum (by omega) hrange.1.2
    simp only [add_mul, Finset.sum_add_distrib] at this
    rw [hK0, Finset.sum_eq_zero fun jj _ => by rw [h1, h2 _ _ _ hrange.1.1, zero_mul], zero_add,
      row_condition (n := S1.nDofs) (fun m hm => (hms m hm).1) ?_ (fun m hm t ht => hb.range ((hms m hm).2 t ht)) hmem] at this
    · rw [c2]
      refine lt_of_eq_of_lt (congrArg _ ?_) this
      unfold lhs
      congr 1
      refine List.map_congr_left fun t ht => ?_
      exact congrArg _ (hdir _ ((regKeys_has j _).mp (hrange.2 t ht)))
    · have e : ms.map Mpc.eqNum = S1.mpcs.map Mpc.eqNum := by
        have := congrArg (List.map Prod.fst) hsh
        rw [List.map_map, List.map_map] at this
        exact this
      rw [e, hb.prep.ready.eqNums]
      exact List.nodup_range'

theorem large_of {s s' : NState (Group els) ℝ}
    (hs : Reached Gauss.solveEquations (hyper els (updOf j els)) j.loads j.fixs S1 (Group.given els) s)
    (hit : iteration Gauss.solveEquations (hyper els (updOf j els)) j.loads j.fixs s = .ok s')
    (hl : 10 ^ 6 < meanAbs (unknowns S1 s'.deltaU) / (1 / 1000)) : Large j (valuesOf j num s) (valuesOf j num s') := by
  obtain ⟨A, hb⟩ := base_of_prepare (job_legal h) hp hn
  obtain ⟨_, h2, h3⟩ := iteration_facts h ha gauss_exact hp hn hs hit
  have hpos : (0 : ℝ) < (freeOf j).card := by exact_mod_cast free_pos h
  rw [mean_eq hb h2 h3, lt_div_iff₀ (by norm_num), lt_div_iff₀ hpos] at hl
  refine ⟨freeOf j, mem_freeOf, lt_of_eq_of_lt ?_ hl⟩
  norm_num

theorem again_facts {s s1 : NState (Group els) ℝ} {n : Nat}
    (hs : Reached Gauss.solveEquations (hyper els (updOf j els)) j.loads j.fixs S1 (Group.given els) s)
    (hag : Again Gauss.solveEquations (hyper els (updOf j els)) j.loads j.fixs (settingsOf j) S1 s n s1) :
    Reached Gauss.solveEquations (hyper els (updOf j els)) j.loads j.fixs S1 (Group.given els) s1 ∧
      s1.tc.normalized = s.tc.normalized ∧ ∀ c, NewtonFails W k j s.tc.normalized (c + n) (valuesOf j num s1) →
        NewtonFails W k j s.tc.normalized c (valuesOf j num s) := by
  induction hag with
  | zero => exact ⟨hs, rfl, fun c hc => hc⟩
  | @succ n s1 s2 _ hit hna ih =>
    obtain ⟨i1, i2, i3⟩ := ih
    have ht := (iteration_facts h ha gauss_exact hp hn i1 hit).1
    refine ⟨.iter i1 hit, ht.trans i2, fun c hc => i3 c ?_⟩
    have hst := newton_step h ha gauss_exact hp hn i1 hit (regular_of h ha gauss_exact hp hn i1 hit (fun _ _ => gauss_succeeds))
    rw [i2] at hst
    exact .more hst (fun h4 => hna ((accepted_iff h ha gauss_exact hp hn i1 hit).mpr h4)) hc

/-- A load step that stops the program. -/
theorem newton_fails {s : NState (Group els) ℝ} {c : Nat}
    (hs : Reached Gauss.solveEquations (hyper els (updOf j els)) j.loads j.fixs S1 (Group.given els) s)
    (hf : StepFails Gauss.solveEquations (hyper els (updOf j els)) j.loads j.fixs (settingsOf j) S1 s c) :
    NewtonFails W k j s.tc.normalized c (valuesOf j num s) := by
  obtain ⟨n, s1, h1, h2⟩ := hf
  obtain ⟨i1, i2, i3⟩ := again_facts h ha hp hn hs h1
  refine i3 c ?_
  rcases h2 with h2 | ⟨s2, h2, h3, h4⟩
  · exact .hopeless (hopeless h ha hp hn i1 h2)
  · have hst := newton_step h ha gauss_exact hp hn i1 h2 (regular_of h ha gauss_exact hp hn i1 h2 (fun _ _ => gauss_succeeds))
    rw [i2] at hst
    rcases h4 with h4 | h4
    · exact .diverged hst (large_of h ha hp hn i1 h2 h4)
    · exact .limit hst (fun h5 => h3 ((accepted_iff h ha gauss_exact hp hn i1 h2).mpr h5)) h4

end

/-! ## Rows that are too long -/

theorem conditionKeys_at {q : Nat} {m : Mpc ℝ} (hq : (j.mpcs ++ newOf j)[q]? = some m) :
    (conditionKeys j)[q]? = some (m.eq.map (fun t => (.node, t.node, t.dof))) := by
  unfold conditionKeys
  by_cases hql : q < j.mpcs.length
  · rw [List.getElem?_append_left hql] at hq
    rw [List.getElem?_append_left (by simpa using hql), List.getElem?_map, hq]
    rfl
  · rw [List.getElem?_append_right (by omega)] at hq
    rw [List.getElem?_append_right (by simpa using hql), List.length_map]
    revert hq
    unfold newOf bodiesOf
    cases hr : j.rigid with
    | none => simp
    | some r =>
      intro hq
      simp only [List.flatMap_cons, List.flatMap_nil, List.append_nil] at hq
      have hsh := made_shaped ⟨r.master, r.slaves, r.dofs, []⟩
      have hlt := (List.getElem?_eq_some_iff.mp hq).1
      have hlt : q - j.mpcs.length < r.slaves.length * r.dofs.length := lt_of_lt_of_eq hlt hsh.count
      obtain ⟨a, d, n, t, p1, p2, p3⟩ := grid_pos r.slaves r.dofs hlt
      obtain ⟨a', b', q', e⟩ := hsh.entry a d n t p2 p3
      simp only at e
      rw [← p1, List.getElem?_map, hq, Option.map_some, Option.some.injEq, Option.some.injEq] at e
      rw [p1, Option.elim_some, e]
      exact grid_get r.slaves r.dofs (fun n d => [((.node, n, d) : Key), (.node, r.master, d), (.node, r.master, .ROTX),
        (.node, r.master, .ROTY), (.node, r.master, .ROTZ)]) p2 p3

/-- The preparation stops only if a row of the matrix is too long. -/
theorem crowded_of_fatal (h : Runnable o ref j)
    (hf : (storeOf j).prepare (regsOf j) (newOf j) (fixKeys j.fixs) = .fatal) : Crowded j := by
  rcases C14_prepare_stops (job_legal h) hf with hc | ⟨f, f1, P, Q, hP, hQ, hcard⟩
  · obtain ⟨g, hg⟩ := Finset.card_pos.mp (free_pos h)
    obtain ⟨g1, g2⟩ := (mem_freeOf g).mp hg
    exact absurd (hc g ((regKeys_has j g).mpr g1)) g2
  · refine ⟨f, (regKeys_has j f).mp f1, P, Q, fun g hg => ⟨(regKeys_has j g).mp (hP g hg).1, (hP g hg).2⟩, fun q hq => ?_, hcard⟩
    obtain ⟨m, m1, t, m2, m3⟩ := hQ q hq
    exact ⟨_, conditionKeys_at m1, List.mem_map.mpr ⟨t, m2, m3.symm⟩⟩

end

end Nla3d.Prog
