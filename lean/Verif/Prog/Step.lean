import Verif.Prog.Energy

/-!
# An iteration of the solver is a Newton step for the energy of the job
-/

namespace Nla3d.Prog

open Nla3d.Dof Nla3d.Storage Nla3d.Iso Nla3d.Newton Nla3d.Labels Nla3d.Material Nla3d.Hyper
open Nla3d.Solver (Bc keyOf lastFix fixKeys EqSolver Reached iteration NState Books Accepted C21_iteration base_of_prepare Base zeroR kept
  unknowns meanAbs comp seg)
open Nla3d.Rigid hiding pre update
open Nla3d.Main (Job)
open Nla3d.Cmd (Options)

noncomputable section

/-! ## The equations of the rigid body -/

/-- The left-hand side of the equation of the code is the derivative of the condition of the rigid body. -/
theorem deriv_lhs {u v : Nat → DofType → ℝ} {pos : Nat → Fin 3 → ℝ} {m s : Nat} {i : Fin 3} (b : ℝ) (q : Nat)
    (hp : Plain (theta u m)) :
    HasDerivAt (fun τ : ℝ => offset pos m s (u + τ • v) i) (lhs (withRot m s (transl i) (newA u pos m s i) b q).eq v) 0 := by
  rw [lhs_withRot, newA_sum]
  have hf : (fun τ : ℝ => offset pos m s (u + τ • v) i) = fun τ : ℝ => (u s (transl i) + τ * v s (transl i)) -
      (u m (transl i) + τ * v m (transl i)) + (pos s i - pos m i) -
      ∑ j, rodM (theta u m + τ • theta v m) i j * (pos s j - pos m j) := by
    funext τ
    rw [offset_rodM, theta_add]
    rfl
  rw [hf]
  have hl : ∀ n, HasDerivAt (fun τ : ℝ => u n (transl i) + τ * v n (transl i)) (v n (transl i)) 0 := by
    intro n
    have := ((hasDerivAt_id (0 : ℝ)).mul_const (v n (transl i))).const_add (u n (transl i))
    simpa using this
  have hsum : HasDerivAt (fun τ : ℝ => ∑ j, rodM (theta u m + τ • theta v m) i j * (pos s j - pos m j))
      (∑ j, (∑ l, cDeriv (theta u m) i j l * theta v m l) * (pos s j - pos m j)) 0 :=
    HasDerivAt.fun_sum fun j _ => (deriv_plain hp (theta v m) i j).mul_const _
  refine ((((hl s).fun_sub (hl m)).add_const (pos s i - pos m i)).fun_sub hsum).congr_deriv ?_
  ring

variable {o : Options ℝ} {ref : List ℝ} {j : Job ℝ} {els : List El} {num : Key → Nat} {W : ℝ → ℝ → ℝ} {k : ℝ} {eqs : EqSolver ℝ}
  {S1 : Storage ℝ}

/-- The constraint equations after an iteration: those of the file, and those of the rigid body for the values before it. -/
theorem mpcs_after (h : Runnable o ref j) (ha : AllMade j.type W k j.pos 1 j.elems els) (he : Solver.Exact eqs)
    (hp : (storeOf j).prepare (regsOf j) (newOf j) (fixKeys j.fixs) = .ok S1)
    (hn : ∀ f ∈ regKeys (regsOf j), S1.eqNumber f.1 f.2.1 f.2.2 = .ok (num f)) {s s' : NState (Group els) ℝ}
    (hs : Reached eqs (hyper els (updOf j els)) j.loads j.fixs S1 (Group.given els) s)
    (hit : iteration eqs (hyper els (updOf j els)) j.loads j.fixs s = .ok s') {m : Mpc ℝ} (hmm : m ∈ s'.S.mpcs) :
    (∃ m0 ∈ j.mpcs, m.eq = m0.eq ∧ m.b = m0.b) ∨
    ∃ r, j.rigid = some r ∧ ∃ n ∈ r.slaves, ∃ i, transl i ∈ r.dofs ∧
      ∃ b q, m = withRot r.master n (transl i) (newA (values num s.S) (posOf j.pos) r.master n i) b q := by
  have hm := job_model h ha
  have hbod := job_bodies h els
  obtain ⟨A, hbase⟩ := base_of_prepare hm.legal hp hn
  obtain ⟨hlen, hheld⟩ := held_reached (hyper_problem hm) he hbod hp hn hs
  have hfile := file_eqs hm he hp hn (.iter hs hit)
  obtain ⟨hrun, _⟩ := Solver.reached_inv hbase hm.loads ((hyper_problem hm).elems S1 num hp hn) he hs
  obtain ⟨_, _, _, _, hrun⟩ := hrun
  have hl1 : s.S.mpcs.length = j.mpcs.length + (newOf j).length := by
    rw [hrun.during.shape.length]
    have := congrArg List.length hbase.prep.ready.terms
    simp [storeOf, Storage.fresh] at this
    exact this
  obtain ⟨hbk, hor⟩ := C21_iteration (hyper_problem hm) he hp hn hs
  rcases hor with ⟨hf, _⟩ | ⟨s'', g1, _, hsv⟩
  · rw [hit] at hf; simp at hf
  rw [hit, Res.ok.injEq] at g1
  subst g1
  have hmp : s'.S.mpcs = s.S.mpcs.take j.mpcs.length ++
      updBodies (solOf (zeroR s.S)) (posOf j.pos) (bodiesOf j) (s.S.mpcs.drop j.mpcs.length) := hsv.mpcs
  have hlt : (s.S.mpcs.take j.mpcs.length).length = j.mpcs.length := by rw [List.length_take]; omega
  rw [hmp] at hmm hfile
  rw [List.take_left' hlt] at hfile
  rcases List.mem_append.mp hmm with hmm | hmm
  · left
    have : (m.eq, m.b) ∈ j.mpcs.map (fun m => (m.eq, m.b)) := by
      rw [← hfile]
      exact List.mem_map.mpr ⟨m, hmm, rfl⟩
    obtain ⟨m0, h1, h2⟩ := List.mem_map.mp this
    rw [Prod.mk.injEq] at h2
    exact ⟨m0, h1, h2.1.symm, h2.2.symm⟩
  · right
    cases hr : j.rigid with
    | none =>
      exfalso
      have hb0 : bodiesOf j = [] := by unfold bodiesOf; rw [hr]
      have hn0 : newOf j = [] := by unfold newOf; rw [hb0]; rfl
      rw [hb0] at hmm
      rw [hn0] at hl1
      rw [show updBodies (solOf (zeroR s.S)) (posOf j.pos) [] (s.S.mpcs.drop j.mpcs.length) = s.S.mpcs.drop j.mpcs.length from rfl,
        List.drop_eq_nil_of_le (by simp at hl1; omega)] at hmm
      simp at hmm
    | some r =>
      have hb0 : bodiesOf j = [⟨r.master, r.slaves, r.dofs, []⟩] := by unfold bodiesOf; rw [hr]
      have hn0 : (newOf j).length = RigidBody.count ⟨r.master, r.slaves, r.dofs, []⟩ := by
        unfold newOf; rw [hb0]
        simp only [List.flatMap_cons, List.flatMap_nil, List.append_nil, made_length]
      have hrb : (⟨r.master, r.slaves, r.dofs, []⟩ : RigidBody) ∈ bodiesOf j := by rw [hb0]; simp
      rw [hb0] at hmm hheld
      have hm2 : m ∈ updBody (solOf (zeroR s.S)) (posOf j.pos) ⟨r.master, r.slaves, r.dofs, []⟩
          ((s.S.mpcs.drop j.mpcs.length).take (RigidBody.count ⟨r.master, r.slaves, r.dofs, []⟩)) := by
        rcases List.mem_append.mp hmm with h1 | h1
        · exact h1
        · exfalso
          rw [show updBodies (solOf (zeroR s.S)) (posOf j.pos) [] _ = List.drop _ (s.S.mpcs.drop j.mpcs.length) from rfl,
            List.drop_eq_nil_of_le (by rw [List.length_drop]; omega)] at h1
          simp at h1
      obtain ⟨n, h1, i, h2, q, h3⟩ := updBody_mem (body_ok h _ hrb) hheld.1 _ _ hm2
      obtain ⟨_, _, t3, t4, t5⟩ := terms_reg (hyper_problem hm) hbod hrb h1 h2
      have hth : theta (solOf (zeroR s.S)) r.master = theta (values num s.S) r.master := by
        unfold theta
        rw [solOf_eq hbase hn hbk t3, solOf_eq hbase hn hbk t4, solOf_eq hbase hn hbk t5]
      have hA : newA (solOf (zeroR s.S)) (posOf j.pos) r.master n i = newA (values num s.S) (posOf j.pos) r.master n i := by
        unfold newA
        rw [hth]
      exact ⟨r, rfl, n, h1, i, h2, _, q, by rw [h3, ← hA]⟩

/-! ## Loads and reactions -/

section
variable {fixs loads : List (Bc ℝ)} {S0 : Storage ℝ} {calls : List RegCall} {new : List (Mpc ℝ)} {A : Side → Spec}

theorem atEq_free (hb : Base S0 S1 calls new fixs num A) : ∀ (l : List (Bc ℝ)) (i : Nat), (∀ b ∈ l, keyOf b ∈ regKeys calls) →
      atEq (fun b => num (keyOf b)) Bc.value (l.filter (fun b => keyOf b ∉ fixKeys fixs)) i =
        if i ≤ S1.nConstr then 0 else atEq (fun b => num (keyOf b)) Bc.value l i := by
  intro l i hl
  induction l with
  | nil => simp [atEq]
  | cons b l ih =>
    have ih := ih (fun y hy => hl y (by simp [hy]))
    have hbr := hl b (by simp)
    by_cases hb' : keyOf b ∈ fixKeys fixs
    · rw [List.filter_cons, if_neg (by simpa using hb'), ih]
      by_cases hi : i ≤ S1.nConstr
      · simp [hi]
      · have : num (keyOf b) ≠ i := by have := hb.fixRange hb'; omega
        simp [atEq, this]
    · rw [List.filter_cons, if_pos (by simpa using hb')]
      by_cases hi : i ≤ S1.nConstr
      · have : num (keyOf b) ≠ i := by have := hb.freeRange hbr hb'; omega
        rw [if_pos hi] at ih ⊢
        simp only [atEq, List.map_cons, List.sum_cons] at ih ⊢
        rw [ih]
        simp [this]
      · rw [if_neg hi] at ih ⊢
        simp only [atEq, List.map_cons, List.sum_cons] at ih ⊢
        rw [ih]

/-- The work of loads on free DoFs and of reactions on fixed ones. -/
theorem forces_work (hb : Base S0 S1 calls new fixs num A) (hl : ∀ l ∈ loads, keyOf l ∈ regKeys calls) (t : ℝ) (R w : Nat → ℝ) :
    ∑ i ∈ Finset.Icc 1 S1.nDofs, (if i ≤ S1.nConstr then R i else t * atEq (fun b => num (keyOf b)) Bc.value loads i) * w i =
      t * ((loads.filter (fun l => keyOf l ∉ fixKeys fixs)).map (fun l => l.value * w (num (keyOf l)))).sum +
      ∑ f ∈ (fixKeys fixs).toFinset, R (num f) * w (num f) := by
  rw [← sum_atEq (fun b => num (keyOf b)) Bc.value w S1.nDofs (loads.filter (fun l => keyOf l ∉ fixKeys fixs)) (fun l hl' =>
    hb.range (hl l (List.mem_filter.mp hl').1)), Finset.mul_sum]
  have hd := hb.prep.pre.dofs
  have hfix : ∀ f ∈ fixKeys fixs, f ∈ regKeys calls := by
    intro f hf
    obtain ⟨b, h1, rfl⟩ := List.mem_map.mp hf
    exact hb.fixes b h1
  have hr : ∑ f ∈ (fixKeys fixs).toFinset, R (num f) * w (num f) = ∑ i ∈ Finset.Icc 1 S1.nConstr, R i * w i := by
    refine Finset.sum_nbij num ?_ ?_ ?_ (fun _ _ => rfl)
    · intro f hf
      exact Finset.mem_Icc.mpr (hb.fixRange (List.mem_toFinset.mp hf))
    · intro f hf g hg hfg
      exact hb.inj f (hfix f (List.mem_toFinset.mp hf)) g (hfix g (List.mem_toFinset.mp hg)) hfg
    · intro i hi
      have := Finset.mem_Icc.mp (Finset.mem_coe.mp hi)
      obtain ⟨f, h1, _, h3⟩ := hb.fixOf (by omega) this.2
      exact ⟨f, List.mem_toFinset.mpr h1, h3⟩
  have hc : ∑ i ∈ Finset.Icc 1 S1.nConstr, R i * w i = ∑ i ∈ Finset.Icc 1 S1.nDofs, if i ≤ S1.nConstr then R i * w i else 0 := by
    rw [← Finset.sum_filter]
    refine Finset.sum_congr ?_ fun _ _ => rfl
    ext i
    simp only [Finset.mem_filter, Finset.mem_Icc]
    omega
  rw [hr, hc, ← Finset.sum_add_distrib]
  refine Finset.sum_congr rfl fun i _ => ?_
  rw [atEq_free hb loads i hl]
  by_cases hi : i ≤ S1.nConstr
  · simp [hi]
  · simp [hi, mul_assoc]

end

/-! ## A step -/

theorem kept_eq {x : ℝ} (h : x = 0 ∨ 1 / 10 ^ 20 < |x|) : kept x = x := by
  unfold kept
  rcases h with h | h
  · subst h; simp
  · rw [if_pos h]

theorem valsAt_has {V : Nat → ℝ} {f : Key} (hf : Has j f) : valsAt (regKeys (regsOf j)) num V f = V (num f) := by
  exact if_pos ((regKeys_has j f).mpr hf)

theorem vecOf_has {S0 : Storage ℝ} {new : List (Mpc ℝ)} {fixs : List (Bc ℝ)} {A : Side → Spec}
    (hb : Base S0 S1 (regsOf j) new fixs num A) (v : Vals) {f : Key} (hf : Has j f) : vecOf (regKeys (regsOf j)) num v (num f) = v f :=
  vecOf_num hb.inj v ((regKeys_has j f).mpr hf)

/-- The values of a state. -/
def valuesOf (j : Job ℝ) (num : Key → Nat) (s : NState (Group els) ℝ) : Vals := valsAt (regKeys (regsOf j)) num (comp s.S.vecU)

/-- The reactions of a state. -/
def reactionsOf (j : Job ℝ) (num : Key → Nat) (s : NState (Group els) ℝ) : Vals := valsAt (regKeys (regsOf j)) num (comp s.S.vecR)

/-- An iteration is a step of Newton's method for the energy of the job. -/
theorem newton_step (h : Runnable o ref j) (ha : AllMade j.type W k j.pos 1 j.elems els) (he : Solver.Exact eqs)
    (hp : (storeOf j).prepare (regsOf j) (newOf j) (fixKeys j.fixs) = .ok S1)
    (hn : ∀ f ∈ regKeys (regsOf j), S1.eqNumber f.1 f.2.1 f.2.2 = .ok (num f)) {s s' : NState (Group els) ℝ}
    (hs : Reached eqs (hyper els (updOf j els)) j.loads j.fixs S1 (Group.given els) s)
    (hit : iteration eqs (hyper els (updOf j els)) j.loads j.fixs s = .ok s')
    (hdet : Sound j (valuesOf j num s) → (∀ b, j.rigid = some b → Plain (turn b (valuesOf j num s))) → Regular W k j (valuesOf j num s)) :
    NewtonStep W k j s.tc.normalized (valuesOf j num s) (valuesOf j num s') (reactionsOf j num s') := by
  have hm := job_model h ha
  have hbod := job_bodies h els
  have hprob := hyper_problem hm
  obtain ⟨A, hb⟩ := base_of_prepare hm.legal hp hn
  obtain ⟨K, F, h1, h2, h3, h4, h5, h6⟩ := newton_core hm he hp hn
  rcases h6 s hs with ⟨hf, _⟩ | ⟨s2, g1, hst, _, hsh, _⟩
  · rw [hit] at hf; simp at hf
  rw [hit, Res.ok.injEq] at g1
  subst g1
  obtain ⟨_, hor⟩ := C21_iteration hprob he hp hn hs
  rcases hor with ⟨hf, _⟩ | ⟨s'', g1, _, hsv⟩
  · rw [hit] at hf; simp at hf
  rw [hit, Res.ok.injEq] at g1
  subst g1
  have htime : s'.tc.normalized = s.tc.normalized := by
    rw [hsv.tc]
    rfl
  have hreg : ∀ f, Has j f → f ∈ regKeys (regsOf j) := fun f hf => (regKeys_has j f).mpr hf
  have hx : ∀ f, Has j f → valuesOf j num s f = comp s.S.vecU (num f) := fun f hf => valsAt_has hf
  have hy : ∀ f, Has j f → valuesOf j num s' f = comp s'.S.vecU (num f) := fun f hf => valsAt_has hf
  have hd : ∀ f, Has j f → (valuesOf j num s' - valuesOf j num s) f = comp s'.deltaU (num f) := by
    intro f hf
    have hr := hb.range (hreg f hf)
    rw [Pi.sub_apply, hx f hf, hy f hf, hst.dofs _ hr.1 hr.2]
    ring
  have hfixhas : ∀ f ∈ fixKeys j.fixs, Has j f := by
    intro f hf
    obtain ⟨b, b1, rfl⟩ := List.mem_map.mp hf
    exact h.fixs b b1
  have hval : ∀ n d, Has j (.node, n, d) → valuesOf j num s (.node, n, d) = values num s.S n d := fun n d hf => hx _ hf
  have hstp : ∀ n d, Has j (.node, n, d) → (valuesOf j num s' - valuesOf j num s) (.node, n, d) = steps num s' n d :=
    fun n d hf => hd _ hf
  have hbm : ∀ r : Main.RigidJob, j.rigid = some r → (⟨r.master, r.slaves, r.dofs, []⟩ : RigidBody) ∈ bodiesOf j :=
    fun r hr => mem_bodiesOf.mpr ⟨r, hr, rfl⟩
  have hturn : ∀ r : Main.RigidJob, j.rigid = some r → ∀ {x : Vals} {u : Nat → DofType → ℝ},
      (∀ n d, Has j (.node, n, d) → x (.node, n, d) = u n d) → turn r x = theta u r.master := by
    intro r hr x u hxu
    have e1 := hxu r.master .ROTX (.master hr (by simp))
    have e2 := hxu r.master .ROTY (.master hr (by simp))
    have e3 := hxu r.master .ROTZ (.master hr (by simp))
    simp only [turn, theta, e1, e2, e3]
  refine ⟨⟨?_, ?_, ?_, ?_, ?_, ?_, ?_⟩, hdet⟩
  rotate_left
  · intro f hf hff
    rw [← htime, ← hsv.loads f (hreg f hf) hff]
    exact valsAt_has hf
  · intro f hf
    have hnr : f ∉ regKeys (regsOf j) := fun hc => hf ((regKeys_has j f).mp hc)
    exact ⟨if_neg hnr, if_neg hnr⟩
  rotate_right
  · intro f a hf
    have hff : Has j f := by
      refine hfixhas f ?_
      unfold lastFix at hf
      have hne : j.fixs.filter (fun b => keyOf b = f) ≠ [] := by
        intro h0; rw [h0] at hf; simp at hf
      obtain ⟨b, l, hbl⟩ := List.exists_cons_of_ne_nil hne
      have : b ∈ j.fixs.filter (fun b => keyOf b = f) := by rw [hbl]; simp
      obtain ⟨b1, b2⟩ := List.mem_filter.mp this
      exact List.mem_map.mpr ⟨b, b1, of_decide_eq_true b2⟩
    rw [hy f hff, hst.fixed f (hreg f hff) a hf, htime]
  · intro m0 hm0
    have hfile := file_eqs hm he hp hn (.iter hs hit)
    have : (m0.eq, m0.b) ∈ (s'.S.mpcs.take j.mpcs.length).map (fun m => (m.eq, m.b)) := by
      rw [hfile]; exact List.mem_map.mpr ⟨m0, hm0, rfl⟩
    obtain ⟨m, m1, m2⟩ := List.mem_map.mp this
    rw [Prod.mk.injEq] at m2
    rw [← m2.2, ← hst.constraints m (List.mem_of_mem_take m1), m2.1]
    unfold lhsOf
    congr 1
    refine List.map_congr_left fun t ht => ?_
    rw [hd _ ((h.mpcs m0 hm0).2 t ht)]
  · intro b hbr hpl n hsl i hi
    obtain ⟨c1, _⟩ := C99_newton_partial hprob he hbod hp hn hs hit (hbm b hbr) hsl hi (by rw [← hturn b hbr hval]; exact hpl)
    refine (c1.congr_of_eventuallyEq (Filter.Eventually.of_forall fun τ => ?_)).congr_deriv ?_
    · refine offset_reg hprob hbod (hbm b hbr) hsl hi fun n d hnd => ?_
      have hnd := (regKeys_has j _).mp hnd
      have e1 := hval n d hnd
      have e2 := hstp n d hnd
      simp only [Pi.add_apply, Pi.smul_apply] at e2 ⊢
      rw [e1, e2]
    · rw [neg_inj]
      exact (offset_reg hprob hbod (hbm b hbr) hsl hi fun n d hnd => hval n d ((regKeys_has j _).mp hnd)).symm
  · intro b hbr n hsl i hi
    have c1 := C99_close hprob he hbod hp hn hs hit (hbm b hbr) hsl hi
    rw [hturn b hbr hstp]
    refine le_trans (le_of_eq (congrArg _ ?_)) c1
    exact offset_reg hprob hbod (hbm b hbr) hsl hi fun n d hnd => hy _ ((regKeys_has j _).mp hnd)
  · intro hsound hplain v hv hcond
    have hF : ∀ (z : ℝ) (u v : Nat → ℝ), (∀ e ∈ els, e.Sound num u) →
        HasDerivAt (fun s : ℝ => (els.map (El.potential z num (fun j => u j + s * v j))).sum)
          (-∑ i ∈ Finset.Icc 1 S1.nDofs, F u i * v i) 0 := by
      intro z u v hu
      rw [← sum_to (m := S1.nMpc) fun i hi => by rw [h4 u i hi, zero_mul]]
      exact h5 z u v hu
    have hK : ∀ u v : Nat → ℝ, (∀ e ∈ els, e.Sound num u) → ∀ i,
        HasDerivAt (fun s : ℝ => F (fun j => u j + s * v j) i) (-∑ j ∈ Finset.Icc 1 S1.nDofs, K u i j * v j) 0 := by
      intro u v hu i
      rw [← sum_to (m := S1.nMpc) fun j hj => by rw [h2 u i j hj, zero_mul]]
      exact h3 u v hu i
    have hw : ∀ f, Has j f → v f = vecOf (regKeys (regsOf j)) num v (num f) := fun f hf => (vecOf_has hb v hf).symm
    have hcon : ∀ m ∈ s'.S.mpcs, (m.eq.map (fun t => t.coef * vecOf (regKeys (regsOf j)) num v (num (.node, t.node, t.dof)))).sum = 0 := by
      intro m hmm
      have hreg' := (shape_mpcs hb hsh m hmm).2
      have e1 : (m.eq.map (fun t => t.coef * vecOf (regKeys (regsOf j)) num v (num (.node, t.node, t.dof)))).sum =
          lhs m.eq (fun n d => v (.node, n, d)) := by
        unfold lhs
        congr 1
        refine List.map_congr_left fun t ht => ?_
        rw [vecOf_has hb v ((regKeys_has j _).mp (hreg' t ht))]
      rw [e1]
      rcases mpcs_after h ha he hp hn hs hit hmm with ⟨m0, q1, q2, _⟩ | ⟨r, hr, n, q1, i, q2, b, q, rfl⟩
      · rw [q2]
        exact hv.eqs m0 q1
      · have d1 := hv.rigid r hr n q1 i q2
        have d2 : HasDerivAt (fun τ : ℝ => away j r n i (valuesOf j num s + τ • v)) _ 0 :=
          (deriv_lhs (pos := posOf j.pos) (s := n) (i := i) (v := fun n d => v (.node, n, d)) b q
            (by rw [← hturn r hr hval]; exact hplain r hr)).congr_of_eventuallyEq (Filter.Eventually.of_forall fun τ => ?_)
        · exact d2.unique d1
        · refine offset_reg hprob hbod (hbm r hr) q1 q2 fun n d hnd => ?_
          have e1 := hval n d ((regKeys_has j _).mp hnd)
          simp only [Pi.add_apply, Pi.smul_apply] at e1 ⊢
          rw [e1]
    have hwork := work hb hm.loads h2 hst hsh hcon (comp s'.S.vecR) (fun f hf => by
      rcases hcond with hc | hc
      · left
        rw [vecOf_has hb v (hfixhas f hf)]
        exact hc f hf
      · right
        refine hst.reaction f (hreg f (hfixhas f hf)) hf fun g hg => kept_eq ?_
        have e := hd g (hfixhas g hg)
        rw [Pi.sub_apply] at e
        rw [← e]
        exact hc g hg)
    refine (slope_deriv h ha hF hK hx hw hd hsound).congr_deriv ?_
    rw [slope_eq h ha hF hx hw hsound, hwork, forces_work hb hm.loads, htime]
    have eR : reactionWork j (reactionsOf j num s') v =
        ∑ f ∈ (fixKeys j.fixs).toFinset, comp s'.S.vecR (num f) * vecOf (regKeys (regsOf j)) num v (num f) := by
      unfold reactionWork
      refine Finset.sum_congr rfl fun f hf => ?_
      have hff := hfixhas f (List.mem_toFinset.mp hf)
      rw [← hw f hff]
      congr 1
      exact valsAt_has hff
    have eL : loadWork j s.tc.normalized v = s.tc.normalized * ((j.loads.filter (fun l => keyOf l ∉ fixKeys j.fixs)).map (fun l =>
        l.value * vecOf (regKeys (regsOf j)) num v (num (keyOf l)))).sum := by
      unfold loadWork
      congr 2
      refine List.map_congr_left fun l hl => ?_
      rw [← hw _ (h.loads l (List.mem_filter.mp hl).1)]
    rw [eR, eL]
    ring

end

end Nla3d.Prog
