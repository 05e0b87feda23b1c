import Verif.Newton.Converge

/-!
# Load steps close to regular equilibria: C114
-/

namespace Nla3d.Newton

open Nla3d.Storage Nla3d.Dof Nla3d.Iso Nla3d.Hyper Nla3d.Material Nla3d.Solver Nla3d.TimeCtl
open Nla3d.Mixed hiding comp
open Nla3d.Struct (mpcForce)

noncomputable section

variable {S0 S1 : Storage ℝ} {calls : List RegCall} {new : List (Mpc ℝ)} {loads fixs : List (Bc ℝ)} {num : Key → Nat} {els : List El}
  {eqs : EqSolver ℝ} {K : (Nat → ℝ) → Nat → Nat → ℝ} {F : (Nat → ℝ) → Nat → ℝ}

/-! ## Lemmas -/

theorem unknowns_length {d : List ℝ} (hd : S1.nDofs = S1.nConstr + S1.nUnknown) (hl : d.length = S1.nDofs + S1.nMpc) :
    (unknowns S1 d).length = S1.nUnknown := by
  unfold unknowns seg
  rw [List.length_take, List.length_drop]
  omega

theorem mem_unknowns {d : List ℝ} (hd : S1.nDofs = S1.nConstr + S1.nUnknown) (hl : d.length = S1.nDofs + S1.nMpc) {x : ℝ} :
    x ∈ unknowns S1 d ↔ ∃ i, S1.nConstr < i ∧ i ≤ S1.nDofs ∧ comp d i = x := by
  have hlen := unknowns_length hd hl
  have hget : ∀ (j : Nat) (h : j < (unknowns S1 d).length), (unknowns S1 d)[j] = comp d (S1.nConstr + (j + 1)) := by
    intro j h
    unfold comp
    have hj : S1.nConstr + (j + 1) - 1 < d.length := by omega
    rw [List.getD, List.getElem?_eq_getElem hj]
    simp only [unknowns, seg, List.getElem_take, List.getElem_drop]
    rfl
  rw [List.mem_iff_getElem]
  constructor
  · rintro ⟨j, hj, rfl⟩
    exact ⟨S1.nConstr + (j + 1), by omega, by omega, (hget j hj).symm⟩
  · rintro ⟨i, i1, i2, rfl⟩
    refine ⟨i - S1.nConstr - 1, by omega, ?_⟩
    rw [hget _ (by omega), show S1.nConstr + (i - S1.nConstr - 1 + 1) = i by omega]

theorem meanAbs_le {l : List ℝ} {b : ℝ} (hb : 0 ≤ b) (h : ∀ x ∈ l, |x| ≤ b) : meanAbs l ≤ b := by
  unfold meanAbs
  refine div_le_of_le_mul₀ (by positivity) hb ?_
  have := List.sum_le_card_nsmul (l.map fun x => |x|) b (by simpa using h)
  rw [List.length_map, nsmul_eq_mul] at this
  linarith

theorem le_meanAbs {l : List ℝ} {x : ℝ} (hx : x ∈ l) : |x| ≤ l.length * meanAbs l := by
  have hpos : (0 : ℝ) < l.length := by exact_mod_cast List.length_pos_of_mem hx
  unfold meanAbs
  rw [mul_div_cancel₀ _ hpos.ne']
  exact List.single_le_sum (by simp) _ (List.mem_map.mpr ⟨x, hx, rfl⟩)

/-- The largest distance. -/
theorem exists_largest (n : Nat) (u v : Nat → ℝ) : ∃ ρ, 0 ≤ ρ ∧ Within n u ρ v ∧ ∀ b, 0 ≤ b → Within n u b v → ρ ≤ b := by
  by_cases hn : n = 0
  · exact ⟨0, le_refl _, fun i _ _ => by omega, fun b hb _ => hb⟩
  obtain ⟨i, hi, hmax⟩ := Finset.exists_max_image (Finset.Icc 1 n) (fun i => |v i - u i|) ⟨1, Finset.mem_Icc.mpr (by omega)⟩
  have hi' := Finset.mem_Icc.mp hi
  exact ⟨|v i - u i|, abs_nonneg _, fun j a b => hmax j (Finset.mem_Icc.mpr ⟨by omega, b⟩), fun b _ h => h i (by omega) hi'.2⟩

theorem load_step_near (hm : Model S0 calls new loads fixs els (same els)) (he : Exact eqs)
    (hp : S0.prepare calls new (fixKeys fixs) = .ok S1) (hn : ∀ k ∈ regKeys calls, S1.eqNumber k.1 k.2.1 k.2.2 = .ok (num k))
    {st : Settings ℝ} (hcc : 0 < st.cc) (hit : st.nIter < 65536) {t r δ : ℝ} {u : Nat → ℝ} (hδ : S1.nUnknown * st.cc ^ 2 ≤ δ)
    (hcon : ∀ s ρ, Reached eqs (hyper els (same els)) loads fixs S1 (Group.given els) s → s.tc.normalized = t → 0 ≤ ρ → ρ ≤ r →
      Within S1.nDofs u ρ (comp s.S.vecU) →
      (iteration eqs (hyper els (same els)) loads fixs s = .fatal ∧ Refuses eqs K S1 num (comp s.S.vecU)) ∨
      ∃ s', iteration eqs (hyper els (same els)) loads fixs s = .ok s' ∧
        Within (S1.nDofs + S1.nMpc) u (1 / 2 * ρ) (comp s'.S.vecU)) :
    ∀ (k fuel : Nat) (s : NState (Group els) ℝ) (ρ : ℝ),
      Reached eqs (hyper els (same els)) loads fixs S1 (Group.given els) s → s.tc.normalized = t → 0 ≤ ρ → ρ ≤ r →
      Within S1.nDofs u ρ (comp s.S.vecU) → 3 / 2 * ρ ≤ 10 ^ 6 * st.cc → 3 / 2 * ρ < 2 ^ k * st.cc ^ 2 →
      s.tc.curEq + k < max 1 st.nIter → k < fuel →
      (loadStep eqs (hyper els (same els)) loads fixs st fuel s = some .fatal ∧
        ∃ s1, Reached eqs (hyper els (same els)) loads fixs S1 (Group.given els) s1 ∧ s1.tc.normalized = t ∧
          Within S1.nDofs u ρ (comp s1.S.vecU) ∧ Refuses eqs K S1 num (comp s1.S.vecU)) ∨
      ∃ s', loadStep eqs (hyper els (same els)) loads fixs st fuel s = some (.ok s') ∧ s'.tc.curEq ≤ s.tc.curEq + k + 1 ∧
        Within (S1.nDofs + S1.nMpc) u (1 / 2 * ρ) (comp s'.S.vecU) ∧
        ((∀ k ∈ regKeys calls, ∀ x, lastFix k fixs = some x → |t * x - comp s.S.vecU (num k)| ≤ δ) →
          Within (S1.nDofs + S1.nMpc) u δ (comp s'.S.vecU)) := by
  obtain ⟨A, hb⟩ := base_of_prepare hm.legal hp hn
  have hdofs := hb.prep.pre.dofs.symm
  have hδ0 : 0 ≤ δ := le_trans (by positivity) hδ
  -- one iteration
  have one : ∀ s ρ, Reached eqs (hyper els (same els)) loads fixs S1 (Group.given els) s → s.tc.normalized = t → 0 ≤ ρ → ρ ≤ r →
      Within S1.nDofs u ρ (comp s.S.vecU) →
      (iteration eqs (hyper els (same els)) loads fixs s = .fatal ∧ Refuses eqs K S1 num (comp s.S.vecU)) ∨
      ∃ s', iteration eqs (hyper els (same els)) loads fixs s = .ok s' ∧
        Within (S1.nDofs + S1.nMpc) u (1 / 2 * ρ) (comp s'.S.vecU) ∧ s'.tc = s.tc.nextEquilibriumStep ∧ Alike S1 s'.S ∧
        meanAbs (unknowns S1 s'.deltaU) ≤ 3 / 2 * ρ ∧
        (∀ k ∈ regKeys calls, ∀ x, lastFix k fixs = some x → comp s'.S.vecU (num k) = t * x) ∧
        (Accepted st.cc S1 s'.deltaU →
          (∀ k ∈ regKeys calls, ∀ x, lastFix k fixs = some x → |t * x - comp s.S.vecU (num k)| ≤ δ) →
          Within (S1.nDofs + S1.nMpc) u δ (comp s'.S.vecU)) := by
    intro s ρ hs ht hρ0 hρ hin
    rcases hcon s ρ hs ht hρ0 hρ hin with hf | ⟨s', g1, g2⟩
    · exact Or.inl hf
    right
    obtain ⟨f1, f2, f3, f4⟩ := iter_facts hm he hp hn hs g1
    have f4' : ∀ k ∈ regKeys calls, ∀ x, lastFix k fixs = some x → comp s'.S.vecU (num k) = t * x := by
      intro k hk x hx
      rw [f4 k hk x hx, ht]
    have hlen := f2.sizes.2.2
    refine ⟨s', g1, g2, f1, f2.alike, meanAbs_le (by positivity) fun x hx => ?_, f4', fun hacc hfix => ?_⟩
    · obtain ⟨i, i1, i2, rfl⟩ := (mem_unknowns hdofs hlen).mp hx
      have e : comp s'.deltaU i = (comp s'.S.vecU i - u i) - (comp s.S.vecU i - u i) := by
        rw [f3 i (by omega) i2]; ring
      rw [e]
      have a1 := g2 i (by omega) (by omega)
      have a2 := hin i (by omega) i2
      exact (abs_sub _ _).trans (by linarith)
    · have hsmall : ∀ i, 0 < i → i ≤ S1.nDofs → |comp s'.deltaU i| ≤ δ := by
        intro i i1 i2
        by_cases hi : i ≤ S1.nConstr
        · obtain ⟨k, k1, k2, rfl⟩ := hb.fixOf i1 hi
          obtain ⟨x, hx⟩ := Option.isSome_iff_exists.mp (lastFix_isSome.mpr k1)
          have e : comp s'.deltaU (num k) = t * x - comp s.S.vecU (num k) := by
            rw [← f4' k k2 x hx, f3 _ i1 i2]; ring
          rw [e]
          exact hfix k k2 x hx
        · have h1 := le_meanAbs ((mem_unknowns hdofs hlen).mpr ⟨i, by omega, i2, rfl⟩)
          rw [unknowns_length hdofs hlen] at h1
          unfold Accepted at hacc
          rw [div_lt_iff₀ hcc] at hacc
          refine h1.trans (le_trans ?_ hδ)
          exact mul_le_mul_of_nonneg_left (by nlinarith) (by positivity)
      obtain ⟨b, b0, b1, b2⟩ := exists_largest S1.nDofs u (comp s.S.vecU)
      have hbρ := b2 ρ hρ0 hin
      rcases hcon s b hs ht b0 (hbρ.trans hρ) b1 with ⟨hf, _⟩ | ⟨s2, q1, q2⟩
      · rw [g1] at hf; simp at hf
      rw [g1, Res.ok.injEq] at q1
      subst q1
      have hle := b2 (1 / 2 * b + δ) (by positivity) (by
        intro i i1 i2
        have e : comp s.S.vecU i - u i = (comp s'.S.vecU i - u i) - comp s'.deltaU i := by
          rw [f3 i i1 i2]; ring
        rw [e]
        exact (abs_sub _ _).trans (add_le_add (q2 i i1 (by omega)) (hsmall i i1 i2)))
      intro i i1 i2
      exact (q2 i i1 i2).trans (by linarith)
  intro k
  induction k with
  | zero =>
    intro fuel s ρ hs ht hρ0 hρ hin _ hk hcur hfuel
    obtain ⟨fuel, rfl⟩ : ∃ f, fuel = f + 1 := ⟨fuel - 1, by omega⟩
    rcases one s ρ hs ht hρ0 hρ hin with ⟨hf, hst⟩ | ⟨s', g1, g2, g3, g4, g5, g6, g7⟩
    · exact Or.inl ⟨by unfold loadStep; rw [hf], s, hs, ht, hin, hst⟩
    right
    obtain ⟨j1, _⟩ := judge_spec (st := st) g4
    have hacc : Accepted st.cc S1 s'.deltaU := by
      unfold Accepted
      rw [div_lt_iff₀ hcc]
      refine lt_of_le_of_lt g5 ?_
      rw [pow_zero, one_mul] at hk
      nlinarith
    refine ⟨s', by unfold loadStep; rw [g1]; simp only [j1.mpr hacc], ?_, g2, g7 hacc⟩
    rw [g3]
    show u16 (s.tc.curEq + 1) ≤ _
    unfold u16; omega
  | succ k ih =>
    intro fuel s ρ hs ht hρ0 hρ hin hdiv hk hcur hfuel
    obtain ⟨fuel, rfl⟩ : ∃ f, fuel = f + 1 := ⟨fuel - 1, by omega⟩
    rcases one s ρ hs ht hρ0 hρ hin with ⟨hf, hst⟩ | ⟨s', g1, g2, g3, g4, g5, g6, g7⟩
    · exact Or.inl ⟨by unfold loadStep; rw [hf], s, hs, ht, hin, hst⟩
    obtain ⟨j1, j2, j3, j4⟩ := judge_spec (st := st) g4
    have hcur' : s'.tc.curEq = s.tc.curEq + 1 := by
      rw [g3]
      show u16 (s.tc.curEq + 1) = _
      unfold u16; omega
    cases hj : judge st s' with
    | converged =>
      right
      have hacc := j1.mp hj
      exact ⟨s', by unfold loadStep; rw [g1]; simp only [hj], by omega, g2, g7 hacc⟩
    | diverged =>
      exfalso
      have := j2 hj
      rw [lt_div_iff₀ hcc] at this
      linarith
    | giveUp =>
      exfalso
      have := j3 hj
      omega
    | again =>
      have hstep : loadStep eqs (hyper els (same els)) loads fixs st (fuel + 1) s =
          loadStep eqs (hyper els (same els)) loads fixs st fuel s' := by
        conv_lhs => unfold loadStep
        rw [g1]; simp only [hj]
      rw [hstep]
      have hle : 1 / 2 * ρ ≤ ρ := by linarith
      rcases ih fuel s' (1 / 2 * ρ) (.iter hs g1) (by rw [g3, normalized_next, ht]) (by positivity) (hle.trans hρ)
          (fun i i1 i2 => g2 i i1 (by omega)) (by linarith) (by rw [pow_succ] at hk; linarith) (by omega) (by omega) with
        ⟨f1, s1, f2, f3, f4, f5⟩ | ⟨s2, f1, f2, f3, f4⟩
      · exact Or.inl ⟨f1, s1, f2, f3, fun i i1 i2 => (f4 i i1 i2).trans hle, f5⟩
      · right
        refine ⟨s2, f1, by omega, fun i i1 i2 => (f3 i i1 i2).trans (by linarith), fun _ => f4 fun k hk x hx => ?_⟩
        rw [g6 k hk x hx, sub_self, abs_zero]
        exact hδ0

/-! ## C114 -/

/-- **C114, a load step.** Around every regular equilibrium there is a distance `r`: a load step at the time of the equilibrium that
starts with all DoFs within `ρ ≤ r` of it, where `1.5 ρ ≤ 10⁶ cc` and `1.5 ρ < 2ᵏ cc²`, is accepted after at most `k + 1` iterations
if so many are allowed, unless the equation solver stops on the reduced matrix at one of the states between. All DoFs and multipliers
are then within `ρ / 2` of the equilibrium. They are also within every `δ` that is not less than `cc²` times the number of unknown
DoFs and not less than any change of a prescribed value in this load step. -/
theorem C114_load_step (hm : Model S0 calls new loads fixs els (same els)) (he : Exact eqs)
    (hp : S0.prepare calls new (fixKeys fixs) = .ok S1) (hn : ∀ k ∈ regKeys calls, S1.eqNumber k.1 k.2.1 k.2.2 = .ok (num k))
    (hsm : ∀ e ∈ els, e.Smooth) (h0 : ∀ m ∈ S1.mpcs, m.b = 0) (hT : Tangent S1 num els K F) {t : ℝ} {u : Nat → ℝ}
    (hu : Equilibrium K F S1 (regKeys calls) num loads fixs els t u) :
    ∃ r > 0, ∀ (st : Settings ℝ) (k fuel : Nat) (s : NState (Group els) ℝ) (ρ : ℝ), 0 < st.cc → st.nIter < 65536 →
      Reached eqs (hyper els (same els)) loads fixs S1 (Group.given els) s → s.tc.normalized = t → s.tc.curEq = 0 → 0 ≤ ρ → ρ ≤ r →
      Within S1.nDofs u ρ (comp s.S.vecU) → 3 / 2 * ρ ≤ 10 ^ 6 * st.cc → 3 / 2 * ρ < 2 ^ k * st.cc ^ 2 → k < max 1 st.nIter →
      k < fuel →
      (loadStep eqs (hyper els (same els)) loads fixs st fuel s = some .fatal ∧
        ∃ s1, Reached eqs (hyper els (same els)) loads fixs S1 (Group.given els) s1 ∧ s1.tc.normalized = t ∧
          Within S1.nDofs u ρ (comp s1.S.vecU) ∧ Refuses eqs K S1 num (comp s1.S.vecU)) ∨
      ∃ s', loadStep eqs (hyper els (same els)) loads fixs st fuel s = some (.ok s') ∧ s'.tc.curEq ≤ k + 1 ∧
        Within (S1.nDofs + S1.nMpc) u (1 / 2 * ρ) (comp s'.S.vecU) ∧
        ∀ δ, S1.nUnknown * st.cc ^ 2 ≤ δ →
          (∀ k ∈ regKeys calls, ∀ x, lastFix k fixs = some x → |t * x - comp s.S.vecU (num k)| ≤ δ) →
          Within (S1.nDofs + S1.nMpc) u δ (comp s'.S.vecU) := by
  obtain ⟨r, hr, h⟩ := C114_iteration hm he hp hn hsm h0 hT hu (c := 1 / 2) (by norm_num)
  refine ⟨r, hr, fun st k fuel s ρ hcc hit hs ht hcur hρ0 hρ hin h1 h2 h3 h4 => ?_⟩
  rcases load_step_near hm he hp hn hcc hit (le_refl (S1.nUnknown * st.cc ^ 2)) h k fuel s ρ hs ht hρ0 hρ hin h1 h2 (by omega) h4
    with hf | ⟨s', g1, g2, g3, _⟩
  · exact Or.inl hf
  · refine Or.inr ⟨s', g1, by omega, g3, fun δ hδ => ?_⟩
    rcases load_step_near hm he hp hn hcc hit hδ h k fuel s ρ hs ht hρ0 hρ hin h1 h2 (by omega) h4
      with ⟨hf, _⟩ | ⟨s2, q1, _, _, q4⟩
    · rw [g1] at hf; simp at hf
    · rw [g1, Option.some.injEq, Res.ok.injEq] at q1
      subst q1
      exact q4

/-- Along a path of regular equilibria one distance will do. -/
theorem contracts_path (hm : Model S0 calls new loads fixs els (same els)) (he : Exact eqs)
    (hp : S0.prepare calls new (fixKeys fixs) = .ok S1) (hn : ∀ k ∈ regKeys calls, S1.eqNumber k.1 k.2.1 k.2.2 = .ok (num k))
    (hsm : ∀ e ∈ els, e.Smooth) (h0 : ∀ m ∈ S1.mpcs, m.b = 0) (hT : Tangent S1 num els K F) {u : ℝ → Nat → ℝ}
    (hu : ∀ t ∈ Set.Icc (0 : ℝ) 1, Equilibrium K F S1 (regKeys calls) num loads fixs els t (u t))
    (hc : ∀ i, 0 < i → i ≤ S1.nDofs → ContinuousOn (fun t => u t i) (Set.Icc 0 1)) :
    ∃ r > 0, ∀ t ∈ Set.Icc (0 : ℝ) 1, ∀ s ρ, Reached eqs (hyper els (same els)) loads fixs S1 (Group.given els) s →
      s.tc.normalized = t → 0 ≤ ρ → ρ ≤ r → Within S1.nDofs (u t) ρ (comp s.S.vecU) →
      (iteration eqs (hyper els (same els)) loads fixs s = .fatal ∧ Refuses eqs K S1 num (comp s.S.vecU)) ∨
      ∃ s', iteration eqs (hyper els (same els)) loads fixs s = .ok s' ∧
        Within (S1.nDofs + S1.nMpc) (u t) (1 / 2 * ρ) (comp s'.S.vecU) := by
  refine isCompact_Icc.induction_on (p := fun I => ∃ r > 0, ∀ t ∈ I, ∀ s ρ,
      Reached eqs (hyper els (same els)) loads fixs S1 (Group.given els) s →
      s.tc.normalized = t → 0 ≤ ρ → ρ ≤ r → Within S1.nDofs (u t) ρ (comp s.S.vecU) →
      (iteration eqs (hyper els (same els)) loads fixs s = .fatal ∧ Refuses eqs K S1 num (comp s.S.vecU)) ∨
      ∃ s', iteration eqs (hyper els (same els)) loads fixs s = .ok s' ∧
        Within (S1.nDofs + S1.nMpc) (u t) (1 / 2 * ρ) (comp s'.S.vecU)) ⟨1, one_pos, by simp⟩ ?_ ?_ ?_
  · rintro I J hIJ ⟨r, hr, h⟩
    exact ⟨r, hr, fun t ht => h t (hIJ ht)⟩
  · rintro I J ⟨r, hr, h⟩ ⟨r', hr', h'⟩
    refine ⟨min r r', lt_min hr hr', fun t ht s ρ hs hn h0 hρ => ?_⟩
    rcases ht with ht | ht
    · exact h t ht s ρ hs hn h0 (hρ.trans (min_le_left _ _))
    · exact h' t ht s ρ hs hn h0 (hρ.trans (min_le_right _ _))
  · intro t₀ ht₀
    obtain ⟨r, hr, h⟩ := contracts hm he hp hn hsm h0 hT (hu t₀ ht₀) (c := 1 / 2) (by norm_num)
    have hev : ∀ᶠ t in nhdsWithin t₀ (Set.Icc 0 1), t ∈ Set.Icc (0 : ℝ) 1 ∧
        ∀ i ∈ Finset.Icc 1 S1.nDofs, |u t i - u t₀ i| ≤ r / 2 := by
      refine Filter.Eventually.and self_mem_nhdsWithin ?_
      rw [Finset.eventually_all]
      intro i hi
      have hi' := Finset.mem_Icc.mp hi
      filter_upwards [Metric.tendsto_nhds.mp (hc i (by omega) hi'.2 t₀ ht₀) (r / 2) (by positivity)] with t ht
      rw [Real.dist_eq] at ht
      exact ht.le
    refine ⟨_, hev, r / 2, by positivity, fun t ht s ρ hs hnorm hρ0 hρ hin => ?_⟩
    have hd : ∀ i, 0 < i → i ≤ S1.nDofs → |u t i - u t₀ i| ≤ r / 2 := fun i a b => ht.2 i (Finset.mem_Icc.mpr ⟨by omega, b⟩)
    refine h t (u t) (hu t ht.1) (fun i a b => (hd i a b).trans (by linarith)) s ρ hs hnorm hρ0 hin fun i a b => ?_
    have e : comp s.S.vecU i - u t₀ i = (comp s.S.vecU i - u t i) + (u t i - u t₀ i) := by ring
    rw [e]
    exact (abs_add_le _ _).trans (by linarith [hin i a b, hd i a b])

/-- **C114, a whole solution.** Along every path of regular equilibria that depends continuously on the time and starts at rest there
is a distance `r₀`. For every `r ≤ r₀` and every `k` with `1.5 r ≤ 10⁶ cc` and `1.5 r < 2ᵏ cc²`: if the equilibria of consecutive
load steps differ by at most `r / 2`, and more than `k` iterations are allowed, the solver makes all load steps and ends with all DoFs
and multipliers within `r / 2` of the last equilibrium, unless the equation solver stops on the reduced matrix of a state within `r`
of an equilibrium of the path. -/
theorem C114_solution (hm : Model S0 calls new loads fixs els (same els)) (he : Exact eqs)
    (hp : S0.prepare calls new (fixKeys fixs) = .ok S1) (hn : ∀ k ∈ regKeys calls, S1.eqNumber k.1 k.2.1 k.2.2 = .ok (num k))
    (hsm : ∀ e ∈ els, e.Smooth) (h0 : ∀ m ∈ S1.mpcs, m.b = 0) (hT : Tangent S1 num els K F) {u : ℝ → Nat → ℝ}
    (hu : ∀ t ∈ Set.Icc (0 : ℝ) 1, Equilibrium K F S1 (regKeys calls) num loads fixs els t (u t))
    (hc : ∀ i, 0 < i → i ≤ S1.nDofs → ContinuousOn (fun t => u t i) (Set.Icc 0 1))
    (hrest : ∀ i, 0 < i → i ≤ S1.nDofs → u 0 i = 0) :
    ∃ r₀ > 0, ∀ (r : ℝ) (k : Nat) (st : Settings ℝ) (tend : ℝ) (inner fuel : Nat), 0 < r → r ≤ r₀ → 0 < st.cc →
      3 / 2 * r ≤ 10 ^ 6 * st.cc → 3 / 2 * r < 2 ^ k * st.cc ^ 2 → k < max 1 st.nIter → st.nIter < 65536 → 0 < st.nSteps →
      (∀ j < st.nSteps, Within S1.nDofs (u (((j : ℝ) + 1) / st.nSteps)) (r / 2) (u ((j : ℝ) / st.nSteps))) →
      0 < tend → max 1 st.nIter ≤ inner → st.nSteps < fuel →
      (nonlinearSolve eqs (hyper els (same els)) loads fixs st (TimeControl.fresh.setEndTime tend) calls new S0 (Group.given els)
          inner fuel = some .fatal ∧
        ∃ j < st.nSteps, ∃ s, Reached eqs (hyper els (same els)) loads fixs S1 (Group.given els) s ∧
          s.tc.normalized = ((j : ℝ) + 1) / st.nSteps ∧ Within S1.nDofs (u (((j : ℝ) + 1) / st.nSteps)) r (comp s.S.vecU) ∧
          Refuses eqs K S1 num (comp s.S.vecU)) ∨
      ∃ s, nonlinearSolve eqs (hyper els (same els)) loads fixs st (TimeControl.fresh.setEndTime tend) calls new S0 (Group.given els)
          inner fuel = some (.ok (s, (List.range' 1 st.nSteps).map u16)) ∧
        Within (S1.nDofs + S1.nMpc) (u 1) (r / 2) (comp s.S.vecU) := by
  obtain ⟨r₀, hr₀, h⟩ := contracts_path hm he hp hn hsm h0 hT hu hc
  obtain ⟨A, hb⟩ := base_of_prepare hm.legal hp hn
  refine ⟨r₀, hr₀, fun r k st tend inner fuel hr hrr hcc q1 q2 hk hit hsteps hfine hend hin hfuel => ?_⟩
  have hnK : (0 : ℝ) < st.nSteps := by exact_mod_cast hsteps
  have key := solution_follow (hyper_problem hm) he hp hn hit hsteps hend (Group.given els) hin hfuel
      (Inv := fun j S => Within S1.nDofs (u ((j : ℝ) / st.nSteps)) (r / 2) (comp S.vecU) ∧
        (0 < j → Within (S1.nDofs + S1.nMpc) (u ((j : ℝ) / st.nSteps)) (r / 2) (comp S.vecU)))
      (Q := ∃ j < st.nSteps, ∃ s, Reached eqs (hyper els (same els)) loads fixs S1 (Group.given els) s ∧
          s.tc.normalized = ((j : ℝ) + 1) / st.nSteps ∧ Within S1.nDofs (u (((j : ℝ) + 1) / st.nSteps)) r (comp s.S.vecU) ∧
          Refuses eqs K S1 num (comp s.S.vecU)) ⟨(by
      intro i a b
      have hz : comp S1.vecU i = (0 : ℝ) := by
        rw [hb.U]
        exact getD_replicate _ _
      rw [hz, Nat.cast_zero, zero_div, hrest i a b, sub_zero, abs_zero]
      positivity), fun hh => absurd hh (lt_irrefl 0)⟩ (by
      intro j hj s hs hI hcur hnorm
      have hjK : (j : ℝ) + 1 ≤ st.nSteps := by exact_mod_cast hj
      have hmem : ((j : ℝ) + 1) / st.nSteps ∈ Set.Icc (0 : ℝ) 1 := ⟨by positivity, (div_le_one hnK).mpr hjK⟩
      have hin1 : Within S1.nDofs (u (((j : ℝ) + 1) / st.nSteps)) r (comp s.S.vecU) := by
        intro i a b
        have e : comp s.S.vecU i - u (((j : ℝ) + 1) / st.nSteps) i = (comp s.S.vecU i - u ((j : ℝ) / st.nSteps) i) +
            (u ((j : ℝ) / st.nSteps) i - u (((j : ℝ) + 1) / st.nSteps) i) := by ring
        rw [e]
        exact (abs_add_le _ _).trans (by linarith [hI.1 i a b, hfine j hj i a b])
      rcases load_step_near hm he hp hn hcc hit (le_refl (S1.nUnknown * st.cc ^ 2)) (h _ hmem) k inner s r hs hnorm hr.le hrr hin1 q1 q2
          (by omega) (by omega) with ⟨f1, s1, f2, f3, f4, f5⟩ | ⟨s', f1, _, f3, _⟩
      · exact Or.inl ⟨f1, j, hj, s1, f2, f3, f4, f5⟩
      · refine Or.inr ⟨s', f1, ?_⟩
        have e : (((j + 1 : Nat) : ℝ)) = (j : ℝ) + 1 := by push_cast; ring
        simp only [e]
        have f3' : Within (S1.nDofs + S1.nMpc) (u (((j : ℝ) + 1) / st.nSteps)) (r / 2) (comp s'.S.vecU) :=
          fun i a b => (f3 i a b).trans (by linarith)
        exact ⟨fun i a b => f3' i a (by omega), fun _ => f3'⟩)
  rcases key with hf | ⟨s, g1, _, g3⟩
  · exact Or.inl hf
  · refine Or.inr ⟨s, g1, ?_⟩
    have := g3.2 hsteps
    rwa [div_self hnK.ne'] at this

/-- **C114, enough load steps.** However small `ε`, with enough load steps the solver makes all of them and ends with all DoFs and
multipliers within `ε` of the equilibrium at the end of the path, whatever the number of iterations allowed, unless the equation solver
stops on the reduced matrix of a state within `ε` of an equilibrium of the path. -/
theorem C114_enough_steps (hm : Model S0 calls new loads fixs els (same els)) (he : Exact eqs)
    (hp : S0.prepare calls new (fixKeys fixs) = .ok S1) (hn : ∀ k ∈ regKeys calls, S1.eqNumber k.1 k.2.1 k.2.2 = .ok (num k))
    (hsm : ∀ e ∈ els, e.Smooth) (h0 : ∀ m ∈ S1.mpcs, m.b = 0) (hT : Tangent S1 num els K F) {u : ℝ → Nat → ℝ}
    (hu : ∀ t ∈ Set.Icc (0 : ℝ) 1, Equilibrium K F S1 (regKeys calls) num loads fixs els t (u t))
    (hc : ∀ i, 0 < i → i ≤ S1.nDofs → ContinuousOn (fun t => u t i) (Set.Icc 0 1))
    (hrest : ∀ i, 0 < i → i ≤ S1.nDofs → u 0 i = 0) {cc ε : ℝ} (hcc : 0 < cc) (hε : 0 < ε) :
    ∃ n₀ > 0, ∀ (n nIter : Nat) (tend : ℝ) (inner fuel : Nat), n₀ ≤ n → nIter < 65536 → 0 < tend → max 1 nIter ≤ inner → n < fuel →
      (nonlinearSolve eqs (hyper els (same els)) loads fixs ⟨nIter, n, cc⟩ (TimeControl.fresh.setEndTime tend) calls new S0
          (Group.given els) inner fuel = some .fatal ∧
        ∃ t ∈ Set.Icc (0 : ℝ) 1, ∃ s, Reached eqs (hyper els (same els)) loads fixs S1 (Group.given els) s ∧
          s.tc.normalized = t ∧ Within S1.nDofs (u t) ε (comp s.S.vecU) ∧ Refuses eqs K S1 num (comp s.S.vecU)) ∨
      ∃ s, nonlinearSolve eqs (hyper els (same els)) loads fixs ⟨nIter, n, cc⟩ (TimeControl.fresh.setEndTime tend) calls new S0
          (Group.given els) inner fuel = some (.ok (s, (List.range' 1 n).map u16)) ∧
        Within (S1.nDofs + S1.nMpc) (u 1) ε (comp s.S.vecU) := by
  obtain ⟨r₀, hr₀, h⟩ := C114_solution hm he hp hn hsm h0 hT hu hc hrest
  obtain ⟨r, hr, hr1, hr2, hr3, hr4⟩ : ∃ r > 0, r ≤ r₀ ∧ r ≤ ε ∧ 3 / 2 * r ≤ 10 ^ 6 * cc ∧ 3 / 2 * r < cc ^ 2 := by
    refine ⟨min (min r₀ ε) (min cc (cc ^ 2 / 2)), by positivity, ?_, ?_, ?_, ?_⟩
    · exact (min_le_left _ _).trans (min_le_left _ _)
    · exact (min_le_left _ _).trans (min_le_right _ _)
    · have : min (min r₀ ε) (min cc (cc ^ 2 / 2)) ≤ cc := (min_le_right _ _).trans (min_le_left _ _)
      nlinarith
    · have : min (min r₀ ε) (min cc (cc ^ 2 / 2)) ≤ cc ^ 2 / 2 := (min_le_right _ _).trans (min_le_right _ _)
      have : 0 < cc ^ 2 := by positivity
      linarith
  -- the path is uniformly continuous
  have hfine : ∃ δ > 0, ∀ i ∈ Finset.Icc 1 S1.nDofs, ∀ t ∈ Set.Icc (0 : ℝ) 1, ∀ t' ∈ Set.Icc (0 : ℝ) 1, |t - t'| < δ →
      |u t i - u t' i| ≤ r / 2 := by
    have each : ∀ i ∈ Finset.Icc 1 S1.nDofs, ∃ δ > 0, ∀ t ∈ Set.Icc (0 : ℝ) 1, ∀ t' ∈ Set.Icc (0 : ℝ) 1, |t - t'| < δ →
        |u t i - u t' i| ≤ r / 2 := by
      intro i hi
      have hi' := Finset.mem_Icc.mp hi
      have huc := isCompact_Icc.uniformContinuousOn_of_continuous (hc i (by omega) hi'.2)
      obtain ⟨δ, hδ, h⟩ := Metric.uniformContinuousOn_iff.mp huc (r / 2) (by positivity)
      refine ⟨δ, hδ, fun t ht t' ht' hlt => ?_⟩
      have := h t ht t' ht' (by rwa [Real.dist_eq])
      rw [Real.dist_eq] at this
      exact this.le
    revert each
    generalize Finset.Icc 1 S1.nDofs = I
    intro each
    induction I using Finset.induction_on with
    | empty => exact ⟨1, one_pos, by simp⟩
    | insert a I _ ih =>
      obtain ⟨δ, hδ, h1⟩ := ih fun i hi => each i (Finset.mem_insert_of_mem hi)
      obtain ⟨δ', hδ', h2⟩ := each a (Finset.mem_insert_self _ _)
      refine ⟨min δ δ', lt_min hδ hδ', fun i hi t ht t' ht' hlt => ?_⟩
      rcases Finset.mem_insert.mp hi with rfl | hi
      · exact h2 t ht t' ht' (lt_of_lt_of_le hlt (min_le_right _ _))
      · exact h1 i hi t ht t' ht' (lt_of_lt_of_le hlt (min_le_left _ _))
  obtain ⟨δ, hδ, hfine⟩ := hfine
  obtain ⟨n₁, hn₁⟩ := exists_nat_gt (1 / δ)
  refine ⟨n₁ + 1, by omega, fun n nIter tend inner fuel hn0 hit hend hin hfuel => ?_⟩
  have hnK : (0 : ℝ) < n := by
    have : 0 < n := by omega
    exact_mod_cast this
  have hgt : 1 / δ < n := lt_of_lt_of_le hn₁ (by exact_mod_cast (by omega : n₁ ≤ n))
  have hlt : 1 / (n : ℝ) < δ := by
    rw [div_lt_iff₀ hnK]
    rw [div_lt_iff₀ hδ] at hgt
    linarith
  have hmem : ∀ j : Nat, j ≤ n → (j : ℝ) / n ∈ Set.Icc (0 : ℝ) 1 := fun j hj =>
    ⟨by positivity, (div_le_one hnK).mpr (by exact_mod_cast hj)⟩
  have hmem' : ∀ j : Nat, j < n → ((j : ℝ) + 1) / n ∈ Set.Icc (0 : ℝ) 1 := by
    intro j hj
    have := hmem (j + 1) hj
    push_cast at this
    exact this
  rcases h r 0 ⟨nIter, n, cc⟩ tend inner fuel hr hr1 hcc hr3 (by simpa using hr4) (by simp) hit (show 0 < n by omega) (by
      intro j hj i a b
      refine hfine i (Finset.mem_Icc.mpr ⟨by omega, b⟩) _ (hmem j (le_of_lt hj)) _ (hmem' j hj) ?_
      have e : (j : ℝ) / n - ((j : ℝ) + 1) / n = -(1 / n) := by ring
      show |(j : ℝ) / n - ((j : ℝ) + 1) / n| < δ
      rw [e, abs_neg, abs_of_pos (by positivity)]
      exact hlt) hend hin hfuel with ⟨f1, j, hj, s, f2, f3, f4, f5⟩ | ⟨s, f1, f2⟩
  · exact Or.inl ⟨f1, _, hmem' j hj, s, f2, f3, fun i a b => (f4 i a b).trans hr2, f5⟩
  · exact Or.inr ⟨s, f1, fun i a b => (f2 i a b).trans (by linarith)⟩

end

end Nla3d.Newton
