import Verif.Newton.Props
import Verif.Solver.NonlinearProps
import Verif.Struct.Rows

/-!
# The nonlinear solver on hyperelastic elements is Newton's method: C94
-/

namespace Nla3d.Newton

open Nla3d.Storage Nla3d.Dof Nla3d.Iso Nla3d.Hyper Nla3d.Material Nla3d.Solver
open Nla3d.Mixed hiding comp
open Nla3d.Struct (mpcForce)

noncomputable section

/-! ## Specification -/

/-- A model of SOLID81 and PLANE41 elements, loads, fixes and constraints. The MPC collections may change coefficients and
right-hand sides of the constraints (`upd`). -/
structure Model (S0 : Storage ℝ) (calls : List RegCall) (new : List (Mpc ℝ)) (loads fixs : List (Bc ℝ)) (els : List El)
    (upd : Group els → Storage ℝ → List (Mpc ℝ) → List (Mpc ℝ)) : Prop where
  legal : LegalModel S0 calls new (fixKeys fixs)
  loads : ∀ l ∈ loads, keyOf l ∈ regKeys calls
  elems : ∀ e ∈ els, e.Ready S0 (regKeys calls)
  fresh : ∀ e ∈ els, e.Fresh
  shape : ∀ e S ms, SameShape ms (upd e S ms)

/-- A step of Newton's method for the equations `F u + t * loads = constraint forces`, from state `s` to state `s'`. `K u` is the
matrix at the values `u` of the state before, `δ` are the increments. -/
structure Step (K : (Nat → ℝ) → Nat → Nat → ℝ) (F : (Nat → ℝ) → Nat → ℝ) (S1 : Storage ℝ) (regs : List Key) (num : Key → Nat)
    (loads fixs : List (Bc ℝ)) {E : Type} (s s' : NState E ℝ) : Prop where
  dofs : ∀ i, 0 < i → i ≤ S1.nDofs → comp s'.S.vecU i = comp s.S.vecU i + comp s'.deltaU i
  mult : ∀ i, S1.nDofs < i → i ≤ S1.nDofs + S1.nMpc → comp s'.S.vecU i = comp s'.deltaU i
  free : ∀ k ∈ regs, k ∉ fixKeys fixs →
    ∑ j ∈ Finset.Icc 1 (S1.nDofs + S1.nMpc), K (comp s.S.vecU) (num k) j * comp s'.deltaU j + mpcForce s'.S.mpcs (comp s'.S.vecU) k =
      F (comp s.S.vecU) (num k) + s'.tc.normalized * loadsOn k loads
  fixed : ∀ k ∈ regs, ∀ x, lastFix k fixs = some x → comp s'.S.vecU (num k) = s'.tc.normalized * x
  reaction : ∀ k ∈ regs, k ∈ fixKeys fixs → (∀ k' ∈ fixKeys fixs, kept (comp s'.deltaU (num k')) = comp s'.deltaU (num k')) →
    ∑ j ∈ Finset.Icc 1 (S1.nDofs + S1.nMpc), K (comp s.S.vecU) (num k) j * comp s'.deltaU j + mpcForce s'.S.mpcs (comp s'.S.vecU) k =
      F (comp s.S.vecU) (num k) + comp s'.S.vecR (num k)
  constraints : ∀ m ∈ s'.S.mpcs, (m.eq.map (fun t => t.coef * comp s'.deltaU (num (.node, t.node, t.dof)))).sum = m.b

/-! ## Lemmas -/

variable {S0 S1 : Storage ℝ} {calls : List RegCall} {new : List (Mpc ℝ)} {loads fixs : List (Bc ℝ)} {num : Key → Nat} {els : List El}
  {upd : Group els → Storage ℝ → List (Mpc ℝ) → List (Mpc ℝ)} {eqs : EqSolver ℝ}

theorem El.Ready.congr {S S' : Storage ℝ} {regs : List Key} {e : El} (h : e.Ready S regs) (he : S'.elements = S.elements) :
    e.Ready S' regs := by
  cases e with
  | hex e => exact ⟨h.material, ⟨by rw [he]; exact h.mesh.elem, h.mesh.distinct, h.mesh.dofsNodup, h.mesh.dofsReg, h.mesh.pressure⟩,
      h.shape, h.made, h.points⟩
  | plane e => exact ⟨h.material, ⟨by rw [he]; exact h.mesh.elem, h.mesh.distinct, h.mesh.dofsNodup, h.mesh.dofsReg, h.mesh.pressure⟩,
      h.shape, h.made, h.points⟩

theorem El.Ready.placed {S : Storage ℝ} {regs : List Key} {e : El} (h : e.Ready S regs) : e.Placed S regs := by
  cases e with
  | hex e => exact h.mesh
  | plane e => exact h.mesh

theorem El.Same.refl (e : El) : El.Same e e := by
  cases e with
  | hex e => exact ⟨e.pts, rfl, rfl⟩
  | plane e => exact ⟨e.pts, rfl, rfl⟩

theorem forall₂_mem {R : El → El → Prop} : ∀ {l l' : List El}, List.Forall₂ R l l' → ∀ e' ∈ l', ∃ e ∈ l, R e e' := by
  intro l l' h
  induction h with
  | nil => intro e' he; simp at he
  | cons h _ ih =>
    intro e' he
    rcases List.mem_cons.mp he with rfl | he
    · exact ⟨_, by simp, h⟩
    · obtain ⟨e, h1, h2⟩ := ih e' he
      exact ⟨e, by simp [h1], h2⟩

/-- A model is a problem for the solver. -/
theorem hyper_problem (hm : Model S0 calls new loads fixs els upd) : Problem S0 calls new loads fixs (hyper els upd) := by
  refine ⟨hm.legal, hm.loads, ?_⟩
  intro S1 num hprep hnum e S hS
  obtain ⟨A, hpr⟩ := prepared hm.legal hprep
  refine ⟨?_, fun c hc => by simp [hyper] at hc, fun ms => hm.shape e S ms⟩
  intro c hc
  obtain ⟨x, hx, hc⟩ := List.mem_flatMap.mp hc
  obtain ⟨x0, h1, h2⟩ := forall₂_mem e.2 x hx
  have hr := ((hm.elems x0 h1).congr hpr.ready.mesh.elements).placed.kin h2
  exact el_legal (fun k hk => by rw [Alike.number hS]; exact hnum k hk) hr c hc

theorem holds_comp {U : List ℝ} {n : Nat} (h : U.length = n) : Holds n U (comp U) := by
  refine ⟨h, fun i h1 h2 => ?_⟩
  unfold comp
  rw [List.getD_eq_getElem?_getD, List.getElem?_eq_getElem (by omega)]
  rfl

theorem adds_numbers {S S' : Storage ℝ} (hn : ∀ s n t, S'.eqNumber s n t = S.eqNumber s n t) (hU : S'.vecU = S.vecU) (e : El) :
    El.adds S' e = El.adds S e := by
  have h1 : ∀ s n t, Post.solution S' s n t = Post.solution S s n t := by
    intro s n t
    unfold Post.solution
    rw [hn, hU]
  have h2 : ∀ k, eqAt S' k = eqAt S k := by
    intro k
    unfold eqAt
    rw [hn]
  cases e with
  | hex e => simp only [El.adds, h1, h2]
  | plane e => simp only [El.adds, h1, h2]

/-- All elements after an update: their additions add up to the matrix and the vector of the model, and are what `buildK` does. -/
theorem updateAll_list {cs : List Key} {U : List ℝ} {u : Nat → ℝ} (h : Session S0 calls new cs S1 num S1)
    (hU : Holds (S1.nDofs + S1.nMpc) U u) {ps : List Part}
    (hl : List.Forall₂ (fun e p => Law S0 calls new cs S1 num e p.m p.eq p.Ke p.Fe) els ps) :
    ∀ els', List.Forall₂ El.Same els els' → ∃ els'', updateAll { S1 with vecU := U } els' = .ok els'' ∧ List.Forall₂ El.Same els els'' ∧
      (∀ i j, matSum 0 i j (els''.flatMap (El.adds { S1 with vecU := U })) = sumK ps u i j ∧
        loadSum i (els''.flatMap (El.adds { S1 with vecU := U })) = sumF ps u i) ∧
      ∀ S, Session S0 calls new cs S1 num S → Res.foldlM' (build U) S els'' =
        Res.foldlM' Storage.contribute S (els''.flatMap (El.adds { S1 with vecU := U })) := by
  have key : ∀ els', List.Forall₂ El.Same els els' → ∀ acc, ∃ els'', Res.foldlM' (fun l e => do
        let e ← update { S1 with vecU := U } e
        .ok (l ++ [e])) acc els' = .ok (acc ++ els'') ∧ List.Forall₂ El.Same els els'' ∧
      (∀ i j, matSum 0 i j (els''.flatMap (El.adds { S1 with vecU := U })) = sumK ps u i j ∧
        loadSum i (els''.flatMap (El.adds { S1 with vecU := U })) = sumF ps u i) ∧
      ∀ S, Session S0 calls new cs S1 num S → Res.foldlM' (build U) S els'' =
        Res.foldlM' Storage.contribute S (els''.flatMap (El.adds { S1 with vecU := U })) := by
    induction hl with
    | nil =>
      intro els' hs acc
      cases hs
      exact ⟨[], by simp, .nil, fun i j => ⟨rfl, rfl⟩, fun S _ => rfl⟩
    | @cons e p els ps hp hps ih =>
      intro els' hs acc
      cases hs with
      | cons s1 s2 =>
        obtain ⟨e'', r1, r2, r3⟩ := hp.run _ s1 U u hU S1 h
        obtain ⟨els'', t1, t2, t3, t4⟩ := ih _ s2 (acc ++ [e''])
        refine ⟨e'' :: els'', ?_, .cons r2 t2, ?_, ?_⟩
        · rw [Res.foldlM'_cons, r1]
          simp only [Res.ok_bind]
          rw [t1]
          simp
        · intro i j
          obtain ⟨_, g⟩ := hp.list _ s1 U u hU S1 h e'' r1 S1 h
          rw [List.flatMap_cons, matSum_append, loadSum_append, (g i j).1, (g i j).2, (t3 i j).1, (t3 i j).2]
          exact ⟨by simp [sumK], by simp [sumF]⟩
        · intro S hS
          obtain ⟨g, _⟩ := hp.list _ s1 U u hU S1 h e'' r1 S hS
          obtain ⟨A, M, v, _, _, hd⟩ := session_during hS
          have hadd : El.adds { S with vecU := U } e'' = El.adds { S1 with vecU := U } e'' := by
            refine adds_numbers (S := { S1 with vecU := U }) (S' := { S with vecU := U }) (fun s n t => ?_) rfl e''
            have := hd.frame.eqNumber s n t
            cases s <;> exact this
          rw [hadd] at g
          obtain ⟨S'', q1, q2, _⟩ := r3 S hS
          rw [Res.foldlM'_cons, g, List.flatMap_cons, Res.foldlM'_append]
          rw [g] at q1
          rw [q1, Res.ok_bind, Res.ok_bind]
          exact t4 S'' q2
  intro els' hs
  obtain ⟨els'', h1, h2⟩ := key els' hs []
  exact ⟨els'', h1, h2⟩

theorem fresh_updateAll {cs : List Key} {U : List ℝ} (h : Session S0 calls new cs S1 num S1)
    (hU : Holds (S1.nDofs + S1.nMpc) U (fun _ => 0)) {ps : List Part}
    (hl : List.Forall₂ (fun e p => Law S0 calls new cs S1 num e p.m p.eq p.Ke p.Fe) els ps) (hf : ∀ e ∈ els, e.Fresh) :
    updateAll { S1 with vecU := U } els = .ok els := by
  have key : ∀ acc, Res.foldlM' (fun l e => do
        let e ← update { S1 with vecU := U } e
        .ok (l ++ [e])) acc els = .ok (acc ++ els) := by
    induction hl with
    | nil => intro acc; simp
    | @cons e p els ps hp _ ih =>
      intro acc
      rw [Res.foldlM'_cons, hp.start (hf e (by simp)) U hU S1 h]
      simp only [Res.ok_bind]
      rw [ih (fun x hx => hf x (by simp [hx]))]
      simp
  exact key []

theorem sum_icc (N : Nat) (f : Nat → ℝ) : ∑ j ∈ Finset.Icc 1 N, f j = ∑ j ∈ Finset.range N, f (j + 1) := by
  rw [Finset.range_eq_Ico, Finset.sum_Ico_add']
  rfl

/-- In a state that was reached, the elements are those of the model, updated with the current unknowns. -/
def Current (S1 : Storage ℝ) (els : List El) (s : NState (Group els) ℝ) : Prop :=
  ∃ l, List.Forall₂ El.Same els l ∧ updateAll { S1 with vecU := s.S.vecU } l = .ok s.e.1

theorem shape_mpcs {A : Side → Spec} (hb : Base S0 S1 calls new fixs num A) {ms : List (Mpc ℝ)} (hsh : SameShape S1.mpcs ms) :
    ∀ m ∈ ms, (S1.nDofs < m.eqNum ∧ m.eqNum ≤ S1.nDofs + S1.nMpc) ∧ ∀ t ∈ m.eq, (Side.node, t.node, t.dof) ∈ regKeys calls := by
  intro m hm
  obtain ⟨m0, h1, h2, h3⟩ := hsh.mem hm
  have := hb.prep.pre.eqNum m0 h1
  rw [h2] at this
  refine ⟨this, fun t ht => ?_⟩
  obtain ⟨t0, h4, h5, h6⟩ := h3 t ht
  have := (hb.prep.ready.isSome _).mp ((hb.prep.pre.terms m0 h1).2 t0 h4)
  rwa [h5, h6] at this

theorem mpcForce_congr {ms : List (Mpc ℝ)} {v w : Nat → ℝ} (h : ∀ m ∈ ms, v m.eqNum = w m.eqNum) (k : Key) :
    mpcForce ms v k = mpcForce ms w k := by
  unfold mpcForce
  congr 1
  apply List.map_congr_left
  intro m hm
  rw [h m hm]

theorem reached_current (hm : Model S0 calls new loads fixs els upd) (he : Exact eqs)
    (hp : S0.prepare calls new (fixKeys fixs) = .ok S1) (hn : ∀ k ∈ regKeys calls, S1.eqNumber k.1 k.2.1 k.2.2 = .ok (num k))
    {ps : List Part} (hl : List.Forall₂ (fun e p => Law S0 calls new (fixKeys fixs) S1 num e p.m p.eq p.Ke p.Fe) els ps)
    {s : NState (Group els) ℝ} (hs : Reached eqs (hyper els upd) loads fixs S1 (Group.given els) s) : Current S1 els s := by
  have hses : Session S0 calls new (fixKeys fixs) S1 num S1 := ⟨hm.legal, hp, hn, [], by simp, rfl⟩
  have hsame : List.Forall₂ El.Same els els := List.forall₂_same.mpr fun e _ => El.Same.refl e
  induction hs with
  | start tc =>
    obtain ⟨A, hb⟩ := base_of_prepare hm.legal hp hn
    refine ⟨els, hsame, fresh_updateAll hses ?_ hl hm.fresh⟩
    show Holds _ S1.vecU _
    rw [hb.U]
    exact ⟨by simp, fun i h1 h2 => by rw [List.getElem?_replicate, if_pos (by omega)]⟩
  | time tc _ ih => exact ih
  | @iter s s' hr hit ih =>
    obtain ⟨l, l1, l2⟩ := ih
    obtain ⟨hbk, hc⟩ := C21_iteration (hyper_problem hm) he hp hn hr
    rcases hc with ⟨hf, _⟩ | ⟨s2, g1, g2, g3⟩
    · rw [hit] at hf; simp at hf
    · rw [hit, Res.ok.injEq] at g1
      subst g1
      obtain ⟨l', a1, a2, _⟩ := updateAll_list hses (holds_comp hbk.sizes.1) hl l l1
      rw [l2, Res.ok.injEq] at a1
      subst a1
      obtain ⟨l'', b1, _⟩ := updateAll_list hses (holds_comp g2.sizes.1) hl _ a2
      refine ⟨s.e.1, a2, ?_⟩
      have := g3.results
      have hv : s'.e.1 = l'' := by
        rw [this]
        refine Group.update_val ?_
        rw [updateAll_alike g2.alike]
        exact b1
      rw [hv]
      exact b1

theorem El.Same.kin {e e' : El} (h : El.Same e e') : El.Kin e e' := by
  cases e <;> cases e' <;> try exact h.elim
  · obtain ⟨p, _, rfl⟩ := h
    exact ⟨p, rfl⟩
  · obtain ⟨p, _, rfl⟩ := h
    exact ⟨p, rfl⟩

/-- The elements contribute nothing to the equations of constraints. -/
theorem sum_dofs {A : Side → Spec} (hb : Base S0 S1 calls new fixs num A) (hses : Session S0 calls new (fixKeys fixs) S1 num S1)
    (hr : ∀ e ∈ els, e.Ready S1 (regKeys calls)) {ps : List Part}
    (hl : List.Forall₂ (fun e p => Law S0 calls new (fixKeys fixs) S1 num e p.m p.eq p.Ke p.Fe) els ps) (u : Nat → ℝ) (i j : Nat)
    (hj : S1.nDofs < j) : sumK ps u i j = 0 ∧ sumF ps u j = 0 := by
  have hU : Holds (S1.nDofs + S1.nMpc) ((List.range (S1.nDofs + S1.nMpc)).map (fun i => u (i + 1))) u := by
    refine ⟨by simp, fun i h1 h2 => ?_⟩
    rw [List.getElem?_map, List.getElem?_range (by omega)]
    simp only [Option.map_some]
    rw [Nat.sub_add_cancel h1]
  obtain ⟨l, _, l2, l3, _⟩ := updateAll_list hses hU hl els (List.forall₂_same.mpr fun e _ => El.Same.refl e)
  rw [sumK_symm hl, ← (l3 j i).1, ← (l3 j i).2]
  refine elem_matSum hb hj _ ?_
  intro c hc
  obtain ⟨x, hx, hc⟩ := List.mem_flatMap.mp hc
  obtain ⟨x0, h1, h2⟩ := forall₂_mem l2 x hx
  refine el_legal (fun k hk => ?_) ((hr x0 h1).placed.kin h2.kin) c hc
  rw [← hses.numbers k hk]
  obtain ⟨a, n, t⟩ := k
  cases a <;> rfl

/-! ## C94 -/

/-- What C94, C100 and C114 say, of the same functions `K` and `F`. -/
theorem newton_all (hm : Model S0 calls new loads fixs els upd) (he : Exact eqs)
    (hp : S0.prepare calls new (fixKeys fixs) = .ok S1) (hn : ∀ k ∈ regKeys calls, S1.eqNumber k.1 k.2.1 k.2.2 = .ok (num k)) :
    ∃ (K : (Nat → ℝ) → Nat → Nat → ℝ) (F : (Nat → ℝ) → Nat → ℝ),
      (∀ u i j, K u i j = K u j i) ∧ (∀ u i j, S1.nDofs < j → K u i j = 0) ∧
      (∀ u v : Nat → ℝ, (∀ e ∈ els, e.Sound num u) → ∀ i,
        HasDerivAt (fun s : ℝ => F (fun j => u j + s * v j) i) (-∑ j ∈ Finset.Icc 1 (S1.nDofs + S1.nMpc), K u i j * v j) 0) ∧
      (∀ u i, S1.nDofs < i → F u i = 0) ∧
      (∀ (z : ℝ) (u v : Nat → ℝ), (∀ e ∈ els, e.Sound num u) →
        HasDerivAt (fun s : ℝ => (els.map (El.potential z num (fun j => u j + s * v j))).sum)
          (-∑ i ∈ Finset.Icc 1 (S1.nDofs + S1.nMpc), F u i * v i) 0) ∧
      ((∀ e ∈ els, e.Smooth) → ∀ u : Nat → ℝ, (∀ e ∈ els, e.Sound num u) → ∀ i j, ContinuousAt (fun u => K u i j) u) ∧
      (∀ u u' : Nat → ℝ, (∀ i, 0 < i → i ≤ S1.nDofs → u i = u' i) →
        K u = K u' ∧ F u = F u' ∧ ((∀ e ∈ els, e.Sound num u) → ∀ e ∈ els, e.Sound num u')) ∧
      (∀ u : Nat → ℝ, (∀ e ∈ els, e.Sound num u) → ∀ᶠ u' in nhds u, ∀ e ∈ els, e.Sound num u') ∧
      ∀ s, Reached eqs (hyper els upd) loads fixs S1 (Group.given els) s →
        (iteration eqs (hyper els upd) loads fixs s = .fatal ∧ Stops eqs (S1.nUnknown + S1.nMpc) (fun i j =>
          K (comp s.S.vecU) (S1.nConstr + (i + 1)) (S1.nConstr + (j + 1)) +
            matSum 0 (S1.nConstr + (i + 1)) (S1.nConstr + (j + 1)) ((upd s.e (zeroR s.S) s.S.mpcs).flatMap (mpcContribs num)))) ∨
        ∃ s', iteration eqs (hyper els upd) loads fixs s = .ok s' ∧ Step K F S1 (regKeys calls) num loads fixs s s' ∧
          updateAll s'.S s.e.1 = .ok s'.e.1 ∧ SameShape S1.mpcs s'.S.mpcs ∧ Succeeds eqs (S1.nUnknown + S1.nMpc) (fun i j =>
          K (comp s.S.vecU) (S1.nConstr + (i + 1)) (S1.nConstr + (j + 1)) +
            matSum 0 (S1.nConstr + (i + 1)) (S1.nConstr + (j + 1)) ((upd s.e (zeroR s.S) s.S.mpcs).flatMap (mpcContribs num))) := by
  have hses : Session S0 calls new (fixKeys fixs) S1 num S1 := ⟨hm.legal, hp, hn, [], by simp, rfl⟩
  obtain ⟨A, hb⟩ := base_of_prepare hm.legal hp hn
  have hready : ∀ e ∈ els, e.Ready S1 (regKeys calls) := fun e hx => (hm.elems e hx).congr hb.prep.ready.mesh.elements
  obtain ⟨ps, hl⟩ := els_law hses els hready
  refine ⟨sumK ps, sumF ps, sumK_symm hl, fun u i j hj => (sum_dofs hb hses hready hl u i j hj).1, sumF_deriv hl,
    fun u i hi => (sum_dofs hb hses hready hl u i i hi).2, sumF_potential hl,
    sumK_cont hl, sum_loc hl, sound_near hl, ?_⟩
  intro s hs
  obtain ⟨l, l1, l2⟩ := reached_current hm he hp hn hl hs
  obtain ⟨hbk, hc⟩ := C21_iteration (hyper_problem hm) he hp hn hs
  obtain ⟨hrun, _⟩ := reached_inv hb hm.loads ((hyper_problem hm).elems S1 num hp hn) he hs
  have hU := holds_comp hbk.sizes.1
  obtain ⟨l', a1, a2, a3, _⟩ := updateAll_list hses hU hl l l1
  rw [l2, Res.ok.injEq] at a1
  subst a1
  have hbuild : (hyper els upd).build s.e (zeroR s.S) = s.e.1.flatMap (El.adds { S1 with vecU := s.S.vecU }) := by
    show s.e.1.flatMap (El.adds (zeroR s.S)) = _
    congr 1
    funext e
    rw [← adds_alike hbk.alike e]
    exact adds_numbers (S := s.S) (S' := zeroR s.S) (fun a n t => by cases a <;> rfl) rfl e
  have hM : ∀ ms i j, asmM S1.transient num ((hyper els upd).build s.e (zeroR s.S)) ms ((hyper els upd).cm s.e (zeroR s.S)) 0 i j =
      sumK ps (comp s.S.vecU) i j + matSum 0 i j (ms.flatMap (mpcContribs num)) := by
    intro ms i j
    rw [hbuild, ← (a3 i j).1]
    unfold asmM hyper
    cases S1.transient <;> simp [matSum_append, matSum]
  rcases hc with ⟨hf, hst⟩ | ⟨s', g1, g2, g3⟩
  · left
    refine ⟨hf, ?_⟩
    simp only [hM] at hst
    exact hst
  right
  have hsuc := Solver.iteration_succeeds (hyper_problem hm) he hp hn hs g1
  simp only [hM] at hsuc
  obtain ⟨l'', b1, _⟩ := updateAll_list hses (holds_comp g2.sizes.1) hl _ a2
  rw [← updateAll_alike g2.alike] at b1
  obtain ⟨M, v, u, r, hrun⟩ := hrun
  have hsh : SameShape S1.mpcs s'.S.mpcs := by
    rw [g3.mpcs]
    exact Eq.trans (hm.shape s.e (zeroR s.S) s.S.mpcs) hrun.during.shape
  refine ⟨s', g1, ?_, by rw [b1, g3.results]; exact congrArg Res.ok (Group.update_val b1).symm, hsh, hsuc⟩
  have htot : ∀ i, 0 < i → i ≤ S1.nDofs → comp s'.S.vecU i = comp s.S.vecU i + comp s'.deltaU i := by
    intro i h1 h2
    rw [g2.sums i h1 h2, hbk.sums i h1 h2, g3.trace, total_append]
  have hmul : ∀ i, S1.nDofs < i → i ≤ S1.nDofs + S1.nMpc → comp s'.S.vecU i = comp s'.deltaU i := by
    intro i h1 h2
    rw [g2.mult i h1 h2, g3.trace, lastDelta_append]
  have hms := shape_mpcs hb hsh
  obtain ⟨kk, ff, _, _, hkk, hff, hrow, hcon⟩ := g3.system
  have hf : ∀ k ∈ regKeys calls, ff (num k) = sumF ps (comp s.S.vecU) (num k) := by
    intro k hk
    have hkr := hb.range hk
    rw [hff, hbuild, ← (a3 (num k) 0).2]
    unfold asmV hyper
    rw [mpcLoad_other fun m hmm => by have := (hms m hmm).1; omega]
    cases S1.transient <;> simp [loadSum]
  have hr : ∀ (w : Nat → ℝ), (∀ i, S1.nDofs < i → i ≤ S1.nDofs + S1.nMpc → w i = comp s'.S.vecU i) → ∀ k ∈ regKeys calls,
      rowMul kk w (S1.nDofs + S1.nMpc) (num k) =
        ∑ j ∈ Finset.Icc 1 (S1.nDofs + S1.nMpc), sumK ps (comp s.S.vecU) (num k) j * w j + mpcForce s'.S.mpcs (comp s'.S.vecU) k := by
    intro w hw k hk
    unfold rowMul
    simp only [hkk, hM, add_mul, Finset.sum_add_distrib]
    rw [Struct.row_mpcs w hk hb.inj (fun k hk => hb.range hk) (Nat.le_add_right _ _) s'.S.mpcs hms, sum_icc]
    congr 1
    exact mpcForce_congr (fun m hmm => hw _ (hms m hmm).1.1 (hms m hmm).1.2) k
  refine ⟨htot, hmul, ?_, ?_, ?_, g3.mpcRows⟩
  · intro k hk hkf
    have hfr := hb.freeRange hk hkf
    rw [← hr (comp s'.deltaU) (fun i h1 h2 => (hmul i h1 h2).symm) k hk, hrow (num k) hfr.1 (by omega), hf k hk, g3.loads k hk hkf]
  · intro k hk x hx
    have := g2.fixed k hk x hx
    rw [g3.trace, lastTime_append] at this
    exact this
  · intro k hk hkf hkept
    have hfr := hb.fixRange hkf
    have hd := hb.prep.pre.dofs
    rw [← hf k hk, ← hcon (num k) hfr.1 hfr.2]
    have hw : (fun j => if j ≤ S1.nConstr then kept (comp s'.deltaU j) else comp s'.deltaU j) = fun j =>
        if j = 0 then (if j ≤ S1.nConstr then kept (comp s'.deltaU j) else comp s'.deltaU j) else comp s'.deltaU j := by
      funext j
      by_cases h0 : j = 0
      · rw [if_pos h0]
      · rw [if_neg h0]
        by_cases hj : j ≤ S1.nConstr
        · obtain ⟨k', h1, _, h3⟩ := hb.fixOf (Nat.pos_of_ne_zero h0) hj
          rw [if_pos hj, ← h3]
          exact hkept k' h1
        · rw [if_neg hj]
    rw [hw, hr _ (fun i h1 h2 => by rw [if_neg (by omega)]; exact (hmul i h1 h2).symm) k hk]
    congr 1
    refine Finset.sum_congr rfl fun j hj => ?_
    rw [if_neg (by have := Finset.mem_Icc.mp hj; omega)]

theorem newton_core (hm : Model S0 calls new loads fixs els upd) (he : Exact eqs)
    (hp : S0.prepare calls new (fixKeys fixs) = .ok S1) (hn : ∀ k ∈ regKeys calls, S1.eqNumber k.1 k.2.1 k.2.2 = .ok (num k)) :
    ∃ (K : (Nat → ℝ) → Nat → Nat → ℝ) (F : (Nat → ℝ) → Nat → ℝ),
      (∀ u i j, K u i j = K u j i) ∧ (∀ u i j, S1.nDofs < j → K u i j = 0) ∧
      (∀ u v : Nat → ℝ, (∀ e ∈ els, e.Sound num u) → ∀ i,
        HasDerivAt (fun s : ℝ => F (fun j => u j + s * v j) i) (-∑ j ∈ Finset.Icc 1 (S1.nDofs + S1.nMpc), K u i j * v j) 0) ∧
      (∀ u i, S1.nDofs < i → F u i = 0) ∧
      (∀ (z : ℝ) (u v : Nat → ℝ), (∀ e ∈ els, e.Sound num u) →
        HasDerivAt (fun s : ℝ => (els.map (El.potential z num (fun j => u j + s * v j))).sum)
          (-∑ i ∈ Finset.Icc 1 (S1.nDofs + S1.nMpc), F u i * v i) 0) ∧
      ∀ s, Reached eqs (hyper els upd) loads fixs S1 (Group.given els) s →
        (iteration eqs (hyper els upd) loads fixs s = .fatal ∧ Stops eqs (S1.nUnknown + S1.nMpc) (fun i j =>
          K (comp s.S.vecU) (S1.nConstr + (i + 1)) (S1.nConstr + (j + 1)) +
            matSum 0 (S1.nConstr + (i + 1)) (S1.nConstr + (j + 1)) ((upd s.e (zeroR s.S) s.S.mpcs).flatMap (mpcContribs num)))) ∨
        ∃ s', iteration eqs (hyper els upd) loads fixs s = .ok s' ∧ Step K F S1 (regKeys calls) num loads fixs s s' ∧
          updateAll s'.S s.e.1 = .ok s'.e.1 ∧ SameShape S1.mpcs s'.S.mpcs ∧ Succeeds eqs (S1.nUnknown + S1.nMpc) (fun i j =>
          K (comp s.S.vecU) (S1.nConstr + (i + 1)) (S1.nConstr + (j + 1)) +
            matSum 0 (S1.nConstr + (i + 1)) (S1.nConstr + (j + 1)) ((upd s.e (zeroR s.S) s.S.mpcs).flatMap (mpcContribs num))) := by
  obtain ⟨K, F, h1, h2, h3, h4, h5, _, _, _, h6⟩ := newton_all hm he hp hn
  exact ⟨K, F, h1, h2, h3, h4, h5, h6⟩

/-- **C94.** For every model of SOLID81 and PLANE41 elements there are a matrix function `K` and a vector function `F` of the
unknowns, `K` symmetric and exactly minus the derivative of `F` wherever the displaced elements are not degenerate, such that every
iteration of the nonlinear solver, from every state it can reach, either stops because the equation solver stops on the reduced
matrix, or is a step of Newton's method for the equilibrium `F u + t * loads = constraint forces`. The update of the elements after
it succeeds, and the elements of the next state are the updated ones. -/
theorem C94_newton (hm : Model S0 calls new loads fixs els upd) (he : Exact eqs)
    (hp : S0.prepare calls new (fixKeys fixs) = .ok S1) (hn : ∀ k ∈ regKeys calls, S1.eqNumber k.1 k.2.1 k.2.2 = .ok (num k)) :
    ∃ (K : (Nat → ℝ) → Nat → Nat → ℝ) (F : (Nat → ℝ) → Nat → ℝ),
      (∀ u i j, K u i j = K u j i) ∧ (∀ u i j, S1.nDofs < j → K u i j = 0) ∧
      (∀ u v : Nat → ℝ, (∀ e ∈ els, e.Sound num u) → ∀ i,
        HasDerivAt (fun s : ℝ => F (fun j => u j + s * v j) i) (-∑ j ∈ Finset.Icc 1 (S1.nDofs + S1.nMpc), K u i j * v j) 0) ∧
      ∀ s, Reached eqs (hyper els upd) loads fixs S1 (Group.given els) s →
        (iteration eqs (hyper els upd) loads fixs s = .fatal ∧ Stops eqs (S1.nUnknown + S1.nMpc) (fun i j =>
          K (comp s.S.vecU) (S1.nConstr + (i + 1)) (S1.nConstr + (j + 1)) +
            matSum 0 (S1.nConstr + (i + 1)) (S1.nConstr + (j + 1)) ((upd s.e (zeroR s.S) s.S.mpcs).flatMap (mpcContribs num)))) ∨
        ∃ s', iteration eqs (hyper els upd) loads fixs s = .ok s' ∧ Step K F S1 (regKeys calls) num loads fixs s s' ∧
          updateAll s'.S s.e.1 = .ok s'.e.1 := by
  obtain ⟨K, F, h1, h2, h3, _, _, h4⟩ := newton_core hm he hp hn
  refine ⟨K, F, h1, h2, h3, fun s hs => (h4 s hs).imp id fun ⟨s', a, b, c, _⟩ => ⟨s', a, b, c⟩⟩

/-- **C94, the loop over the elements.** In every state the solver can reach, `buildK` of all elements, run on the storage of any
session, makes exactly the additions that the solver model takes from the elements. -/
theorem C94_code (hm : Model S0 calls new loads fixs els upd) (he : Exact eqs)
    (hp : S0.prepare calls new (fixKeys fixs) = .ok S1) (hn : ∀ k ∈ regKeys calls, S1.eqNumber k.1 k.2.1 k.2.2 = .ok (num k))
    {s : NState (Group els) ℝ} (hs : Reached eqs (hyper els upd) loads fixs S1 (Group.given els) s) {S : Storage ℝ}
    (hS : Session S0 calls new (fixKeys fixs) S1 num S) :
    Res.foldlM' (build s.S.vecU) S s.e.1 = Res.foldlM' Storage.contribute S ((hyper els upd).build s.e (zeroR s.S)) ∧
    ∃ S', Res.foldlM' (build s.S.vecU) S s.e.1 = .ok S' := by
  have hses : Session S0 calls new (fixKeys fixs) S1 num S1 := ⟨hm.legal, hp, hn, [], by simp, rfl⟩
  obtain ⟨A, hb⟩ := base_of_prepare hm.legal hp hn
  have hready : ∀ e ∈ els, e.Ready S1 (regKeys calls) := fun e hx => (hm.elems e hx).congr hb.prep.ready.mesh.elements
  obtain ⟨ps, hl⟩ := els_law hses els hready
  obtain ⟨l, l1, l2⟩ := reached_current hm he hp hn hl hs
  obtain ⟨hbk, _⟩ := C21_iteration (hyper_problem hm) he hp hn hs
  obtain ⟨l', a1, a2, _, a4⟩ := updateAll_list hses (holds_comp hbk.sizes.1) hl l l1
  rw [l2, Res.ok.injEq] at a1
  subst a1
  have hbuild : (hyper els upd).build s.e (zeroR s.S) = s.e.1.flatMap (El.adds { S1 with vecU := s.S.vecU }) := by
    show s.e.1.flatMap (El.adds (zeroR s.S)) = _
    congr 1
    funext e
    rw [← adds_alike hbk.alike e]
    exact adds_numbers (S := s.S) (S' := zeroR s.S) (fun a n t => by cases a <;> rfl) rfl e
  rw [hbuild, a4 S hS]
  refine ⟨rfl, ?_⟩
  obtain ⟨S', c1, _⟩ := contribs_session hS (l := s.e.1.flatMap (El.adds { S1 with vecU := s.S.vecU })) (fun c hc => by
    have h1 : c ∈ (hyper els upd).build s.e (zeroR s.S) := by rw [hbuild]; exact hc
    obtain ⟨g, _, _⟩ := (hyper_problem hm).elems S1 num hp hn s.e (zeroR s.S) (by
      have := hbk.alike
      unfold Alike at this ⊢
      unfold zeroR
      rw [this])
    exact (g c h1).wanted hb)
  exact ⟨S', c1⟩

/-- **C94, linearisation.** In a step of Newton's method the residual of a free DoF, continued in the direction of the increments
with the new multipliers, has a derivative that is exactly minus its value: its linearisation at the state before vanishes at the
state after. -/
theorem C94_linearised {K : (Nat → ℝ) → Nat → Nat → ℝ} {F : (Nat → ℝ) → Nat → ℝ}
    (hd : ∀ u v : Nat → ℝ, (∀ e ∈ els, e.Sound num u) → ∀ i,
      HasDerivAt (fun s : ℝ => F (fun j => u j + s * v j) i) (-∑ j ∈ Finset.Icc 1 (S1.nDofs + S1.nMpc), K u i j * v j) 0)
    {E : Type} {s s' : NState E ℝ} (h : Step K F S1 (regKeys calls) num loads fixs s s')
    (hu : ∀ e ∈ els, e.Sound num (comp s.S.vecU)) {k : Key} (hk : k ∈ regKeys calls) (hf : k ∉ fixKeys fixs) :
    HasDerivAt (fun x : ℝ => F (fun j => comp s.S.vecU j + x * comp s'.deltaU j) (num k) + s'.tc.normalized * loadsOn k loads -
        mpcForce s'.S.mpcs (comp s'.S.vecU) k)
      (-(F (comp s.S.vecU) (num k) + s'.tc.normalized * loadsOn k loads - mpcForce s'.S.mpcs (comp s'.S.vecU) k)) 0 := by
  have d := ((hd (comp s.S.vecU) (comp s'.deltaU) hu (num k)).add_const (s'.tc.normalized * loadsOn k loads)).sub_const
    (mpcForce s'.S.mpcs (comp s'.S.vecU) k)
  refine d.congr_deriv ?_
  have := h.free k hk hf
  linarith

/-- **C94, equilibrium.** A step of Newton's method that changes no DoF was made from a state of equilibrium: at every free DoF the
internal forces, the applied loads at the current time and the constraint forces balance. -/
theorem C94_equilibrium {K : (Nat → ℝ) → Nat → Nat → ℝ} {F : (Nat → ℝ) → Nat → ℝ} (hK : ∀ u i j, S1.nDofs < j → K u i j = 0)
    {E : Type} {s s' : NState E ℝ} (h : Step K F S1 (regKeys calls) num loads fixs s s')
    (h0 : ∀ i, 0 < i → i ≤ S1.nDofs → comp s'.deltaU i = 0) {k : Key} (hk : k ∈ regKeys calls) (hf : k ∉ fixKeys fixs) :
    F (comp s.S.vecU) (num k) + s'.tc.normalized * loadsOn k loads = mpcForce s'.S.mpcs (comp s'.S.vecU) k := by
  have := h.free k hk hf
  rw [Finset.sum_eq_zero, zero_add] at this
  · exact this.symm
  · intro j hj
    have hj' := Finset.mem_Icc.mp hj
    by_cases hjn : j ≤ S1.nDofs
    · rw [h0 j (by omega) hjn, mul_zero]
    · rw [hK _ _ _ (by omega), zero_mul]

/-! The cube with a plane element on its lower face, held at one node and loaded at another one, meets the hypotheses. -/
example : ∃ (els : List El) (S1 : Storage ℝ) (num : Key → Nat),
    els.length = 2 ∧ Model demo demoCalls [] [⟨7, .UX, 3⟩] [⟨1, .UX, 0⟩] els (fun _ _ ms => ms) ∧
    demo.prepare demoCalls [] (fixKeys [(⟨1, .UX, 0⟩ : Bc ℝ)]) = .ok S1 ∧
    (∀ k ∈ regKeys demoCalls, S1.eqNumber k.1 k.2.1 k.2.2 = .ok (num k)) ∧
    (∀ e ∈ els, El.Sound num (comp S1.vecU) e) ∧ Exact (Gauss.solveEquations (K := ℝ)) ∧
    Reached Gauss.solveEquations (hyper els (fun _ _ ms => ms)) [⟨7, .UX, 3⟩] [⟨1, .UX, 0⟩] S1 (Group.given els)
      ⟨S1, Group.given els, List.replicate S1.nConstr 0, List.replicate (S1.nConstr + S1.nUnknown + S1.nMpc) 0, ⟨[], [], 0, 0, 1, 1, 0, 0⟩, []⟩ := by
  obtain ⟨S1, num, h, m1, m2⟩ := demo_session
  have hk : fixKeys [(⟨1, .UX, 0⟩ : Bc ℝ)] = [(.node, 1, .UX)] := rfl
  obtain ⟨A, hpr⟩ := prepared h.legal h.prep
  obtain ⟨A', hb⟩ := base_of_prepare (fixs := [(⟨1, .UX, 0⟩ : Bc ℝ)]) h.legal h.prep h.numbers
  have j1 : ∀ x, (jac hexa (affine 1 0 hexaNodes) x).det ≠ 0 := by
    intro x
    rw [jac_affine C34_hexa _ _ _ (hexa_repr x)]
    simp
  have j2 : ∀ x, (jac quad (affine 1 0 quadNodes) x).det ≠ 0 := by
    intro x
    rw [jac_affine C34_quad _ _ _ (quad_repr x)]
    simp
  obtain ⟨g1, a1, _, _⟩ := makeJacob_good (S := hexa) (o := 2) (fun q _ => j1 q.xi)
  obtain ⟨g2, a2, _, _⟩ := makeJacob_good (S := quad) (o := 2) (fun q _ => j2 q.xi)
  have hel := hpr.ready.mesh.elements
  refine ⟨[.hex ⟨neoHookean ![2, 1], 7, 2, affine 1 0 hexaNodes, g1,
      List.replicate (nOfIntPoints hexa g1) Point.initial, 1, ![1, 2, 3, 4, 5, 6, 7, 8]⟩,
    .plane ⟨mooneyRivlin ![2, 1, 5], 9, 2, affine 1 0 quadNodes, g2,
      List.replicate (nOfIntPoints quad g2) Point2.initial, 2, ![1, 2, 3, 4]⟩], S1, num, rfl,
    ⟨h.legal, ?_, ?_, ?_, fun _ _ _ => rfl⟩, h.prep, h.numbers, ?_, gauss_exact, .start _⟩
  · intro l hl
    simp only [List.mem_cons, List.not_mem_nil, or_false] at hl
    subst hl
    decide
  · intro e he
    simp only [List.mem_cons, List.not_mem_nil, or_false] at he
    rcases he with rfl | rfl
    · exact El.Ready.congr (S := S1) (e := .hex _) ⟨C46_neoHookean _, m1, fun q _ => j1 q.xi, a1, by simp⟩ hel.symm
    · exact El.Ready.congr (S := S1) (e := .plane _) ⟨C46_mooneyRivlin _, m2, fun q _ => j2 q.xi, a2, by simp⟩ hel.symm
  · intro e he
    simp only [List.mem_cons, List.not_mem_nil, or_false] at he
    rcases he with rfl | rfl <;> rfl
  · have hz : comp S1.vecU = fun _ => (0 : ℝ) := by
      funext i
      rw [hb.U]
      exact getD_replicate _ _
    rw [hz]
    intro e he
    simp only [List.mem_cons, List.not_mem_nil, or_false] at he
    rcases he with rfl | rfl
    · intro q _
      rw [show Hex.disp num (fun _ => 0) _ = 0 from rfl, add_zero]
      exact j1 q.xi
    · intro q _
      rw [show Quad.disp num (fun _ => 0) _ = 0 from rfl, add_zero]
      exact j2 q.xi

end

end Nla3d.Newton
