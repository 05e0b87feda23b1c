import Verif.Newton.Solve

/-!
# The nonlinear solver looks for stationary points of the potential energy: C100
-/

namespace Nla3d.Newton

open Nla3d.Storage Nla3d.Dof Nla3d.Iso Nla3d.Hyper Nla3d.Material Nla3d.Solver
open Nla3d.Mixed hiding comp
open Nla3d.Struct (mpcForce)

noncomputable section

/-! ## Specification -/

/-- The potential energy of a model under `t` times the loads: the potentials of the elements minus the work of the loads. -/
def potentialEnergy (z : ℝ) (els : List El) (num : Key → Nat) (t : ℝ) (loads : List (Bc ℝ)) (u : Nat → ℝ) : ℝ :=
  (els.map (El.potential z num u)).sum - t * (loads.map (fun l => l.value * u (num (keyOf l)))).sum

/-- A direction in which the unknowns can move: the fixed DoFs and the left-hand sides of the constraints do not change. -/
structure Admissible (num : Key → Nat) (fixs : List (Bc ℝ)) (ms : List (Mpc ℝ)) (v : Nat → ℝ) : Prop where
  fixed : ∀ k ∈ fixKeys fixs, v (num k) = 0
  constraints : ∀ m ∈ ms, (m.eq.map (fun t => t.coef * v (num (.node, t.node, t.dof)))).sum = 0

/-! ## Lemmas -/

variable {S0 S1 : Storage ℝ} {calls : List RegCall} {new : List (Mpc ℝ)} {loads fixs : List (Bc ℝ)} {num : Key → Nat} {els : List El}
  {upd : Group els → Storage ℝ → List (Mpc ℝ) → List (Mpc ℝ)} {eqs : EqSolver ℝ}

/-- Sum over the items of a list that belong to equation `i`. -/
def atEq {α : Type} (key : α → Nat) (f : α → ℝ) (l : List α) (i : Nat) : ℝ := (l.map (fun x => if key x = i then f x else 0)).sum

theorem sum_atEq {α : Type} (key : α → Nat) (f : α → ℝ) (v : Nat → ℝ) (n : Nat) : ∀ l : List α, (∀ x ∈ l, 0 < key x ∧ key x ≤ n) →
    ∑ i ∈ Finset.Icc 1 n, atEq key f l i * v i = (l.map (fun x => f x * v (key x))).sum := by
  intro l
  induction l with
  | nil => simp [atEq]
  | cons x l ih =>
    intro h
    have hx := h x (by simp)
    simp only [atEq, List.map_cons, List.sum_cons, add_mul, Finset.sum_add_distrib]
    rw [← ih (fun y hy => h y (by simp [hy]))]
    congr 1
    rw [Finset.sum_eq_single (key x)]
    · simp
    · intro i _ hi
      simp [Ne.symm hi]
    · intro hn
      exact absurd (Finset.mem_Icc.mpr ⟨hx.1, hx.2⟩) hn

theorem loadsOn_atEq {regs : List Key} (hinj : ∀ k ∈ regs, ∀ k' ∈ regs, num k = num k' → k = k') {k : Key} (hk : k ∈ regs) :
    ∀ l : List (Bc ℝ), (∀ b ∈ l, keyOf b ∈ regs) → loadsOn k l = atEq (fun b => num (keyOf b)) Bc.value l (num k) := by
  intro l
  induction l with
  | nil => intro _; rfl
  | cons b l ih =>
    intro h
    have ih := ih (fun y hy => h y (by simp [hy]))
    unfold loadsOn at ih ⊢
    unfold atEq at ih ⊢
    rw [List.map_cons, List.sum_cons, ← ih]
    by_cases hb : keyOf b = k
    · simp [List.filter_cons, hb]
    · have : num (keyOf b) ≠ num k := fun hh => hb (hinj _ (h b (by simp)) _ hk hh)
      simp [List.filter_cons, hb, this]

theorem mpcForce_atEq {regs : List Key} (hinj : ∀ k ∈ regs, ∀ k' ∈ regs, num k = num k' → k = k') {k : Key} (hk : k ∈ regs)
    (w : Nat → ℝ) (ms : List (Mpc ℝ)) (h : ∀ m ∈ ms, ∀ t ∈ m.eq, (Side.node, t.node, t.dof) ∈ regs) :
    mpcForce ms w k = (ms.map (fun m => atEq (fun t => num (.node, t.node, t.dof)) (fun t => t.coef * w m.eqNum) m.eq (num k))).sum := by
  unfold mpcForce atEq
  congr 1
  refine List.map_congr_left fun m hm => ?_
  congr 1
  refine List.map_congr_left fun t ht => ?_
  by_cases hb : (Side.node, t.node, t.dof) = k
  · rw [if_pos hb, if_pos (congrArg num hb)]
  · rw [if_neg hb, if_neg (fun hh => hb (hinj _ (h m hm t ht) _ hk hh))]

theorem mpc_work (w v : Nat → ℝ) (n : Nat) : ∀ ms : List (Mpc ℝ),
    (∀ m ∈ ms, ∀ t ∈ m.eq, 0 < num (.node, t.node, t.dof) ∧ num (.node, t.node, t.dof) ≤ n) →
    (∀ m ∈ ms, (m.eq.map (fun t => t.coef * v (num (.node, t.node, t.dof)))).sum = 0) →
    ∑ i ∈ Finset.Icc 1 n, (ms.map (fun m => atEq (fun t => num (.node, t.node, t.dof)) (fun t => t.coef * w m.eqNum) m.eq i)).sum * v i
      = 0 := by
  intro ms
  induction ms with
  | nil => simp
  | cons m ms ih =>
    intro h h0
    simp only [List.map_cons, List.sum_cons, add_mul, Finset.sum_add_distrib]
    rw [ih (fun y hy => h y (by simp [hy])) (fun y hy => h0 y (by simp [hy])), add_zero, sum_atEq _ _ _ _ _ (h m (by simp))]
    have := h0 m (by simp)
    rw [show (fun t : MpcTerm ℝ => t.coef * w m.eqNum * v (num (.node, t.node, t.dof))) =
      fun t => w m.eqNum * (t.coef * v (num (.node, t.node, t.dof))) from funext fun t => by ring, List.sum_map_mul_left, this, mul_zero]

/-- Each equation of a DoF belongs to a fixed or to a free DoF. -/
theorem dofOf {A : Side → Spec} (hb : Base S0 S1 calls new fixs num A) {i : Nat} (h1 : 0 < i) (h2 : i ≤ S1.nDofs) :
    ∃ k ∈ regKeys calls, num k = i := by
  by_cases hi : i ≤ S1.nConstr
  · obtain ⟨k, _, hk, e⟩ := hb.fixOf h1 hi
    exact ⟨k, hk, e⟩
  · obtain ⟨k, ⟨hk, _⟩, he⟩ := hb.prep.ready.unk.surjOn (show i ∈ Set.Ico (S1.nConstr + 1) (S1.nDofs + 1) from ⟨by omega, by omega⟩)
    exact ⟨k, hk, by rw [hb.agree k hk]; exact he⟩

theorem sum_to {n m : Nat} {f : Nat → ℝ} (h : ∀ i, n < i → f i = 0) : ∑ i ∈ Finset.Icc 1 (n + m), f i = ∑ i ∈ Finset.Icc 1 n, f i := by
  refine (Finset.sum_subset (fun i hi => ?_) (fun i _ hi => ?_)).symm
  · have := Finset.mem_Icc.mp hi
    exact Finset.mem_Icc.mpr ⟨this.1, by omega⟩
  · by_cases h0 : i = 0
    · simp_all
    · exact h i (by
        by_contra hh
        exact hi (Finset.mem_Icc.mpr ⟨by omega, by omega⟩))

/-- The work of the forces `F` of the state before a step in a direction. -/
theorem work {A : Side → Spec} (hb : Base S0 S1 calls new fixs num A) (hl : ∀ l ∈ loads, keyOf l ∈ regKeys calls)
    {K : (Nat → ℝ) → Nat → Nat → ℝ} {F : (Nat → ℝ) → Nat → ℝ} (hK : ∀ u i j, S1.nDofs < j → K u i j = 0)
    {E : Type} {s s' : NState E ℝ} (h : Step K F S1 (regKeys calls) num loads fixs s s') (hsh : SameShape S1.mpcs s'.S.mpcs)
    {v : Nat → ℝ} (hv : ∀ m ∈ s'.S.mpcs, (m.eq.map (fun t => t.coef * v (num (.node, t.node, t.dof)))).sum = 0)
    (rest : Nat → ℝ) (hr : ∀ k ∈ fixKeys fixs, v (num k) = 0 ∨
      ∑ j ∈ Finset.Icc 1 (S1.nDofs + S1.nMpc), K (comp s.S.vecU) (num k) j * comp s'.deltaU j + mpcForce s'.S.mpcs (comp s'.S.vecU) k =
        F (comp s.S.vecU) (num k) + rest (num k)) :
    ∑ i ∈ Finset.Icc 1 S1.nDofs, F (comp s.S.vecU) i * v i =
      ∑ i ∈ Finset.Icc 1 S1.nDofs, v i * ∑ j ∈ Finset.Icc 1 S1.nDofs, K (comp s.S.vecU) i j * comp s'.deltaU j -
      ∑ i ∈ Finset.Icc 1 S1.nDofs, (if i ≤ S1.nConstr then rest i else
        s'.tc.normalized * atEq (fun b => num (keyOf b)) Bc.value loads i) * v i := by
  have hms := shape_mpcs hb hsh
  have h0 := mpc_work (num := num) (comp s'.S.vecU) v S1.nDofs s'.S.mpcs (fun m hm t ht => hb.range ((hms m hm).2 t ht)) hv
  have e : ∀ i ∈ Finset.Icc 1 S1.nDofs, F (comp s.S.vecU) i * v i =
      v i * ∑ j ∈ Finset.Icc 1 S1.nDofs, K (comp s.S.vecU) i j * comp s'.deltaU j -
        (if i ≤ S1.nConstr then rest i else s'.tc.normalized * atEq (fun b => num (keyOf b)) Bc.value loads i) * v i +
        (s'.S.mpcs.map (fun m => atEq (fun t => num (.node, t.node, t.dof)) (fun t => t.coef * comp s'.S.vecU m.eqNum) m.eq i)).sum * v i := by
    intro i hi
    have hi' := Finset.mem_Icc.mp hi
    obtain ⟨k, hk, rfl⟩ := dofOf hb (by omega) hi'.2
    have hs : ∑ j ∈ Finset.Icc 1 (S1.nDofs + S1.nMpc), K (comp s.S.vecU) (num k) j * comp s'.deltaU j =
        ∑ j ∈ Finset.Icc 1 S1.nDofs, K (comp s.S.vecU) (num k) j * comp s'.deltaU j :=
      sum_to fun j hj => by rw [hK _ _ _ hj, zero_mul]
    rw [← mpcForce_atEq hb.inj hk (comp s'.S.vecU) s'.S.mpcs (fun m hm => (hms m hm).2)]
    by_cases hf : k ∈ fixKeys fixs
    · rw [if_pos (hb.fixRange hf).2]
      rcases hr k hf with h1 | h1
      · rw [h1]; ring
      · rw [hs] at h1
        linear_combination (-v (num k)) * h1
    · rw [if_neg (by have := (hb.freeRange hk hf).1; omega), ← loadsOn_atEq hb.inj hk loads hl]
      have h1 := h.free k hk hf
      rw [hs] at h1
      linear_combination (-v (num k)) * h1
  rw [Finset.sum_congr rfl e, Finset.sum_add_distrib, Finset.sum_sub_distrib, h0, add_zero]

/-! ## C100 -/

/-- **C100.** For every model of SOLID81 and PLANE41 elements there are a matrix function `K` and a vector function `F` of the
unknowns such that `F` is minus the gradient of the potential of all elements, `K` is minus the derivative of `F`, that is, the second
derivative of the potential, and every iteration of the nonlinear solver, from every state it can reach, either stops because the
equation solver stops, or is a step of Newton's method for `F` with the matrix `K`. -/
theorem C100_newton (hm : Model S0 calls new loads fixs els upd) (he : Exact eqs)
    (hp : S0.prepare calls new (fixKeys fixs) = .ok S1) (hn : ∀ k ∈ regKeys calls, S1.eqNumber k.1 k.2.1 k.2.2 = .ok (num k)) :
    ∃ (K : (Nat → ℝ) → Nat → Nat → ℝ) (F : (Nat → ℝ) → Nat → ℝ),
      (∀ u i j, K u i j = K u j i) ∧
      (∀ u v : Nat → ℝ, (∀ e ∈ els, e.Sound num u) → ∀ i,
        HasDerivAt (fun s : ℝ => F (fun j => u j + s * v j) i) (-∑ j ∈ Finset.Icc 1 S1.nDofs, K u i j * v j) 0) ∧
      (∀ (z : ℝ) (u v : Nat → ℝ), (∀ e ∈ els, e.Sound num u) →
        HasDerivAt (fun s : ℝ => potentialEnergy z els num 0 [] (fun j => u j + s * v j))
          (-∑ i ∈ Finset.Icc 1 S1.nDofs, F u i * v i) 0) ∧
      ∀ s, Reached eqs (hyper els upd) loads fixs S1 (Group.given els) s →
        (iteration eqs (hyper els upd) loads fixs s = .fatal ∧ Stops eqs (S1.nUnknown + S1.nMpc) (fun i j =>
          K (comp s.S.vecU) (S1.nConstr + (i + 1)) (S1.nConstr + (j + 1)) +
            matSum 0 (S1.nConstr + (i + 1)) (S1.nConstr + (j + 1)) ((upd s.e (zeroR s.S) s.S.mpcs).flatMap (mpcContribs num)))) ∨
        ∃ s', iteration eqs (hyper els upd) loads fixs s = .ok s' ∧ Step K F S1 (regKeys calls) num loads fixs s s' ∧
          SameShape S1.mpcs s'.S.mpcs ∧
          ∀ z v, (∀ e ∈ els, e.Sound num (comp s.S.vecU)) → Admissible num fixs s'.S.mpcs v →
            HasDerivAt (fun x : ℝ => potentialEnergy z els num s'.tc.normalized loads (fun j => comp s.S.vecU j + x * v j))
              (-∑ i ∈ Finset.Icc 1 S1.nDofs, v i * ∑ j ∈ Finset.Icc 1 S1.nDofs, K (comp s.S.vecU) i j * comp s'.deltaU j) 0 := by
  obtain ⟨A, hb⟩ := base_of_prepare hm.legal hp hn
  obtain ⟨K, F, h1, h2, h3, h4, h5, h6⟩ := newton_core hm he hp hn
  have hpot : ∀ (z : ℝ) (u v : Nat → ℝ), (∀ e ∈ els, e.Sound num u) →
      HasDerivAt (fun s : ℝ => (els.map (El.potential z num (fun j => u j + s * v j))).sum)
        (-∑ i ∈ Finset.Icc 1 S1.nDofs, F u i * v i) 0 := by
    intro z u v hu
    rw [← sum_to (m := S1.nMpc) fun i hi => by rw [h4 u i hi, zero_mul]]
    exact h5 z u v hu
  refine ⟨K, F, h1, ?_, ?_, ?_⟩
  · intro u v hu i
    rw [← sum_to (m := S1.nMpc) fun j hj => by rw [h2 u i j hj, zero_mul]]
    exact h3 u v hu i
  · intro z u v hu
    refine (hpot z u v hu).congr_of_eventuallyEq (Filter.Eventually.of_forall fun s => ?_)
    simp [potentialEnergy]
  · intro s hs
    rcases h6 s hs with h7 | ⟨s', g1, g2, _, g4, _⟩
    · exact Or.inl h7
    · refine Or.inr ⟨s', g1, g2, g4, ?_⟩
      intro z v hu hv
      have hw := work hb hm.loads h2 g2 g4 hv.constraints (fun i => s'.tc.normalized * atEq (fun b => num (keyOf b)) Bc.value loads i)
        (fun k hk => Or.inl (hv.fixed k hk))
      simp only [ite_self] at hw
      rw [Finset.sum_congr rfl (fun i _ => mul_assoc _ _ _), ← Finset.mul_sum,
        sum_atEq _ _ _ _ loads (fun l hl => hb.range (hm.loads l hl))] at hw
      have hlin : ∀ l : List (Bc ℝ), HasDerivAt (fun x : ℝ => (l.map (fun l => l.value * (comp s.S.vecU (num (keyOf l)) +
          x * v (num (keyOf l))))).sum) ((l.map (fun l => l.value * v (num (keyOf l)))).sum) 0 := by
        intro l
        induction l with
        | nil => simpa using hasDerivAt_const (0 : ℝ) (0 : ℝ)
        | cons b l ih =>
          have d : HasDerivAt (fun x : ℝ => b.value * (comp s.S.vecU (num (keyOf b)) + x * v (num (keyOf b)))) _ 0 :=
            (((hasDerivAt_id (0 : ℝ)).mul_const (v (num (keyOf b)))).const_add (comp s.S.vecU (num (keyOf b)))).const_mul b.value
          refine ((d.add ih).congr_of_eventuallyEq (Filter.Eventually.of_forall fun x => ?_)).congr_deriv ?_
          · simp
          · simp
      have d := (hpot z (comp s.S.vecU) v hu).fun_sub ((hlin loads).const_mul s'.tc.normalized)
      refine d.congr_deriv ?_
      rw [hw]
      ring

/-- **C100, stationary points.** If an iteration changes no DoF, the state it was made from is a stationary point of the potential
energy under the loads of the current time: the derivative vanishes in every direction that respects fixes and constraints. -/
theorem C100_stationary (hm : Model S0 calls new loads fixs els upd) (he : Exact eqs)
    (hp : S0.prepare calls new (fixKeys fixs) = .ok S1) (hn : ∀ k ∈ regKeys calls, S1.eqNumber k.1 k.2.1 k.2.2 = .ok (num k))
    {s s' : NState (Group els) ℝ} (hs : Reached eqs (hyper els upd) loads fixs S1 (Group.given els) s)
    (hi : iteration eqs (hyper els upd) loads fixs s = .ok s') (h0 : ∀ i, 0 < i → i ≤ S1.nDofs → comp s'.deltaU i = 0)
    (hu : ∀ e ∈ els, e.Sound num (comp s.S.vecU)) {z : ℝ} {v : Nat → ℝ} (hv : Admissible num fixs s'.S.mpcs v) :
    HasDerivAt (fun x : ℝ => potentialEnergy z els num s'.tc.normalized loads (fun j => comp s.S.vecU j + x * v j)) 0 0 := by
  obtain ⟨K, F, _, _, _, h⟩ := C100_newton hm he hp hn
  rcases h s hs with ⟨hf, _⟩ | ⟨s2, g1, _, _, g4⟩
  · rw [hi] at hf; simp at hf
  rw [hi, Res.ok.injEq] at g1
  subst g1
  refine (g4 z v hu hv).congr_deriv ?_
  rw [neg_eq_zero]
  refine Finset.sum_eq_zero fun i _ => ?_
  rw [Finset.sum_eq_zero, mul_zero]
  intro j hj
  have := Finset.mem_Icc.mp hj
  rw [h0 j (by omega) this.2, mul_zero]

/-- **C100, reactions.** If an iteration changes no DoF, the derivative of the potential of the elements in a direction that respects
the constraints but moves the fixed DoFs is the work of the loads on free DoFs and of the reactions. -/
theorem C100_reactions (hm : Model S0 calls new loads fixs els upd) (he : Exact eqs)
    (hp : S0.prepare calls new (fixKeys fixs) = .ok S1) (hn : ∀ k ∈ regKeys calls, S1.eqNumber k.1 k.2.1 k.2.2 = .ok (num k))
    {s s' : NState (Group els) ℝ} (hs : Reached eqs (hyper els upd) loads fixs S1 (Group.given els) s)
    (hi : iteration eqs (hyper els upd) loads fixs s = .ok s') (h0 : ∀ i, 0 < i → i ≤ S1.nDofs → comp s'.deltaU i = 0)
    (hu : ∀ e ∈ els, e.Sound num (comp s.S.vecU)) {z : ℝ} {v : Nat → ℝ}
    (hv : ∀ m ∈ s'.S.mpcs, (m.eq.map (fun t => t.coef * v (num (.node, t.node, t.dof)))).sum = 0) :
    HasDerivAt (fun x : ℝ => potentialEnergy z els num 0 [] (fun j => comp s.S.vecU j + x * v j))
      (∑ i ∈ Finset.Icc 1 S1.nConstr, comp s'.S.vecR i * v i +
        s'.tc.normalized * ((loads.filter (fun l => keyOf l ∉ fixKeys fixs)).map (fun l => l.value * v (num (keyOf l)))).sum) 0 := by
  obtain ⟨A, hb⟩ := base_of_prepare hm.legal hp hn
  obtain ⟨K, F, h1, h2, h3, h4, h5, h6⟩ := newton_core hm he hp hn
  rcases h6 s hs with ⟨hf, _⟩ | ⟨s2, g1, g2, _, g4, _⟩
  · rw [hi] at hf; simp at hf
  rw [hi, Res.ok.injEq] at g1
  subst g1
  have hk0 : ∀ k ∈ fixKeys fixs, kept (comp s'.deltaU (num k)) = comp s'.deltaU (num k) := by
    intro k hk
    have := hb.fixRange hk
    have hd := hb.prep.pre.dofs
    rw [h0 _ this.1 (by omega)]
    unfold kept
    simp
  have hw := work hb hm.loads h2 g2 g4 hv (comp s'.S.vecR) (fun k hk => by
    obtain ⟨f, hf, rfl⟩ := List.mem_map.mp hk
    exact Or.inr (g2.reaction _ (hb.fixes f hf) hk hk0))
  have d := h5 z (comp s.S.vecU) v hu
  rw [sum_to fun i hi => by rw [h4 _ i hi, zero_mul], hw] at d
  refine (d.congr_of_eventuallyEq (Filter.Eventually.of_forall fun x => by simp [potentialEnergy])).congr_deriv ?_
  have hz : ∑ i ∈ Finset.Icc 1 S1.nDofs, v i * ∑ j ∈ Finset.Icc 1 S1.nDofs, K (comp s.S.vecU) i j * comp s'.deltaU j = 0 := by
    refine Finset.sum_eq_zero fun i _ => ?_
    rw [Finset.sum_eq_zero, mul_zero]
    intro j hj
    have := Finset.mem_Icc.mp hj
    rw [h0 j (by omega) this.2, mul_zero]
  rw [hz, zero_sub, neg_neg]
  have hfil : ∀ (l : List (Bc ℝ)) (i : Nat), (∀ b ∈ l, keyOf b ∈ regKeys calls) →
      atEq (fun b => num (keyOf b)) Bc.value (l.filter (fun b => keyOf b ∉ fixKeys fixs)) i =
        if i ≤ S1.nConstr then 0 else atEq (fun b => num (keyOf b)) Bc.value l i := by
    intro l i hl
    induction l with
    | nil => simp [atEq]
    | cons b l ih =>
      have ih := ih (fun y hy => hl y (by simp [hy]))
      have hbr := hl b (by simp)
      by_cases hb' : keyOf b ∈ fixKeys fixs
      · rw [List.filter_cons, if_neg (by simpa using hb'), ih]
        by_cases hi : i ≤ S1.nConstr
        · simp [hi]
        · have : num (keyOf b) ≠ i := by have := hb.fixRange hb'; omega
          simp [atEq, this]
      · rw [List.filter_cons, if_pos (by simpa using hb')]
        by_cases hi : i ≤ S1.nConstr
        · have : num (keyOf b) ≠ i := by have := hb.freeRange hbr hb'; omega
          rw [if_pos hi] at ih ⊢
          simp only [atEq, List.map_cons, List.sum_cons] at ih ⊢
          rw [ih]
          simp [this]
        · rw [if_neg hi] at ih ⊢
          simp only [atEq, List.map_cons, List.sum_cons] at ih ⊢
          rw [ih]
  rw [← sum_atEq (fun b => num (keyOf b)) Bc.value v S1.nDofs (loads.filter (fun l => keyOf l ∉ fixKeys fixs)) (fun l hl =>
    hb.range (hm.loads l (List.mem_filter.mp hl).1)), Finset.mul_sum]
  have hd := hb.prep.pre.dofs
  have hc : ∑ i ∈ Finset.Icc 1 S1.nConstr, comp s'.S.vecR i * v i =
      ∑ i ∈ Finset.Icc 1 S1.nDofs, if i ≤ S1.nConstr then comp s'.S.vecR i * v i else 0 := by
    rw [← Finset.sum_filter]
    refine Finset.sum_congr ?_ fun _ _ => rfl
    ext i
    simp only [Finset.mem_filter, Finset.mem_Icc]
    omega
  rw [hc, ← Finset.sum_add_distrib]
  refine Finset.sum_congr rfl fun i _ => ?_
  rw [hfil loads i hm.loads]
  by_cases hi : i ≤ S1.nConstr
  · simp [hi]
  · simp [hi, mul_assoc]

end

end Nla3d.Newton
