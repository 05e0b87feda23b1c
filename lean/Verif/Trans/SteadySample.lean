import Verif.Trans.Steady
import Verif.Trans.Reaction

/-!
# A plate with one free node
-/

noncomputable section

namespace Nla3d.Trans

open Nla3d.Dof Nla3d.Block Nla3d.Sparse Nla3d.Storage Nla3d.Solver Nla3d.Struct Finset

/-- The nodes 1, 3 and 4 are held at `x`. -/
def wallFix (x : ℝ) : List (Bc ℝ) := [⟨1, .TEMP, x⟩, ⟨3, .TEMP, x⟩, ⟨4, .TEMP, x⟩]

/-- Heat `F` at node 2. -/
def wallLoad (F : ℝ) : List (Bc ℝ) := [⟨2, .TEMP, F⟩]

/-- `n` steps of length 1 from the temperature `y`. -/
def wallSettings (n : Nat) (y : ℝ) : TSettings ℝ := ⟨n, 1 / 4, 1 / 2, 0, n, y⟩

theorem wall_step {n : Nat} (hn : 0 < n) (y : ℝ) : stepOf (wallSettings n y) = 1 := by
  have : (n : ℝ) ≠ 0 := by exact_mod_cast hn.ne'
  show ((n : ℝ) - 0) / (n : ℝ) = 1
  rw [sub_zero, div_self this]

theorem wall_keys (x : ℝ) : fixKeys (wallFix x) = [(.node, 1, .TEMP), (.node, 3, .TEMP), (.node, 4, .TEMP)] := rfl

theorem wall_free {x : ℝ} {k : Key} (hk : k ∈ regKeys hotCalls) (hf : k ∉ fixKeys (wallFix x)) : k = (.node, plateN 1, .TEMP) := by
  rw [wall_keys] at hf
  revert hk hf
  have : ∀ k ∈ regKeys hotCalls, k ∉ [(Side.node, 1, DofType.TEMP), (.node, 3, .TEMP), (.node, 4, .TEMP)] → k = (.node, 2, .TEMP) := by decide
  exact this k

theorem wall_legal (x : ℝ) : LegalModel { hotStorage with transient := true } hotCalls [] (fixKeys (wallFix x)) := by
  rw [wall_keys]
  refine ⟨⟨?_, ?_, ?_, ?_, ?_, rfl⟩, ?_, ?_, ?_⟩
  · unfold LegalReg; decide
  · decide
  · decide
  · decide
  · intro m hm; simp [hotStorage, Storage.fresh] at hm
  · unfold MeshOk; decide
  · intro m hm; simp [hotStorage, Storage.fresh] at hm
  · decide

theorem wall_legal' (x : ℝ) : LegalModel hotStorage hotCalls [] (fixKeys (wallFix x)) := by
  rw [wall_keys]
  refine ⟨⟨?_, ?_, ?_, ?_, ?_, rfl⟩, ?_, ?_, ?_⟩
  · unfold LegalReg; decide
  · decide
  · decide
  · decide
  · intro m hm; simp [hotStorage, Storage.fresh] at hm
  · unfold MeshOk; decide
  · intro m hm; simp [hotStorage, Storage.fresh] at hm
  · decide

theorem wall_placed {y : LinEl ℝ} (h : Placed { hotStorage with transient := true } hotCalls y) : Placed hotStorage hotCalls y :=
  ⟨⟨h.on.1, h.on.2, h.on.3⟩, h.distinct, h.symm⟩

theorem wall_load (F : ℝ) : ∀ l ∈ wallLoad F, keyOf l ∈ regKeys hotCalls := by
  simp only [wallLoad, List.forall_mem_cons, keyOf]
  exact ⟨by decide, by simp⟩

theorem wall_model (x F y : ℝ) {n : Nat} (hn : 0 < n) :
    AnyModel hotStorage hotCalls [] (wallLoad F) (wallFix x) (coldEls 1) coldCaps (wallSettings n y) (n + 1) where
  legal := wall_legal x
  loads := wall_load F
  placed := (cold_model 1).placed
  placedCaps := (cold_model 1).placedCaps
  noMpc := rfl
  alpha := by show (1 / 4 : ℝ) ≠ 0; norm_num
  delta := rfl
  steps := hn
  time := by show (0 : ℝ) < n; exact_mod_cast hn
  fuel := Nat.lt_succ_self n

/-- The sums at the free node. -/
theorem wall_cap (D : Key → ℝ) : (coldCaps.map fun x => capOn x D (.node, plateN 1, .TEMP)).sum =
    1 / 4 * (D (.node, 1, .TEMP) + D (.node, 2, .TEMP) + D (.node, 3, .TEMP) + D (.node, 4, .TEMP)) := by
  have := cold_row (M := capMat plateGeo coldBody) D (x := bodyEl plateGeo coldBody) rfl rfl (fun _ _ => rfl) 1
  rw [cold_cap, Fin.sum_univ_four] at this
  unfold coldCaps
  simp only [List.map_cons, List.map_nil, List.sum_cons, List.sum_nil, add_zero]
  rw [this]
  simp only [plateN, Matrix.cons_val, Matrix.of_apply]
  ring

theorem wall_cond (D : Key → ℝ) : ((coldEls 1).map fun x => capOn x D (.node, plateN 1, .TEMP)).sum =
    1 / 2 * (D (.node, 2, .TEMP) - D (.node, 4, .TEMP)) := by
  have := cold_row (M := condMat plateGeo plateN 1 1) D (x := condEl plateGeo plateN 1 1 0) rfl rfl (fun _ _ => rfl) 1
  rw [cold_cond, Fin.sum_univ_four] at this
  unfold coldEls
  simp only [List.map_cons, List.map_nil, List.sum_cons, List.sum_nil, add_zero]
  rw [this]
  simp [plateN]
  ring

theorem wall_force (D : Key → ℝ) : ((coldEls 1).map fun x => x.forceOn D (.node, plateN 1, .TEMP)).sum =
    1 / 2 * (D (.node, 2, .TEMP) - D (.node, 4, .TEMP)) := by
  rw [← wall_cond]
  unfold coldEls
  simp only [List.map_cons, List.map_nil, List.sum_cons, List.sum_nil, condEl_cap]

theorem wall_sum {x : ℝ} {D : Key → ℝ} (hD : ∀ k ∈ fixKeys (wallFix x), D k = 0) (g : Key → ℝ) :
    ∑ k ∈ (regKeys hotCalls).toFinset, D k * g k = D (.node, 2, .TEMP) * g (.node, plateN 1, .TEMP) := by
  have d1 : D (.node, 1, .TEMP) = 0 := hD _ (by rw [wall_keys]; decide)
  have d3 : D (.node, 3, .TEMP) = 0 := hD _ (by rw [wall_keys]; decide)
  have d4 : D (.node, 4, .TEMP) = 0 := hD _ (by rw [wall_keys]; decide)
  have e1 : (regKeys hotCalls).toFinset = {(Side.node, 1, DofType.TEMP), (Side.node, 2, DofType.TEMP), (Side.node, 3, DofType.TEMP),
      (Side.node, 4, DofType.TEMP)} := by decide
  rw [e1, Finset.sum_insert (by decide), Finset.sum_insert (by decide), Finset.sum_insert (by decide), Finset.sum_singleton, d1, d3, d4]
  simp [plateN]

theorem wall_zero {x : ℝ} {D : Key → ℝ} (hD : ∀ k ∈ fixKeys (wallFix x), D k = 0) :
    D (.node, 1, .TEMP) = 0 ∧ D (.node, 3, .TEMP) = 0 ∧ D (.node, 4, .TEMP) = 0 :=
  ⟨hD _ (by rw [wall_keys]; decide), hD _ (by rw [wall_keys]; decide), hD _ (by rw [wall_keys]; decide)⟩

theorem wall_resists (x : ℝ) : Resists (regKeys hotCalls) (wallFix x) coldCaps ∧ Resists (regKeys hotCalls) (wallFix x) (coldEls 1) := by
  have key : ∀ D : Key → ℝ, (∀ k, k ∉ regKeys hotCalls ∨ k ∈ fixKeys (wallFix x) → D k = 0) → (∃ k, D k ≠ 0) → D (.node, 2, .TEMP) ≠ 0 := by
    intro D hD hne h2
    obtain ⟨k, hk⟩ := hne
    apply hk
    by_cases hr : k ∈ regKeys hotCalls
    · by_cases hf : k ∈ fixKeys (wallFix x)
      · exact hD k (Or.inr hf)
      · rw [wall_free hr hf]; exact h2
    · exact hD k (Or.inl hr)
  constructor
  · intro D hD hne
    have h0 := wall_zero (x := x) fun k hk => hD k (Or.inr hk)
    rw [wall_sum (x := x) (fun k hk => hD k (Or.inr hk)) fun k => (coldCaps.map fun x => capOn x D k).sum]
    beta_reduce
    rw [wall_cap, h0.1, h0.2.1, h0.2.2]
    have := sq_pos_of_ne_zero (key D hD hne)
    nlinarith
  · intro D hD hne
    have h0 := wall_zero (x := x) fun k hk => hD k (Or.inr hk)
    rw [wall_sum (x := x) (fun k hk => hD k (Or.inr hk)) fun k => ((coldEls 1).map fun x => capOn x D k).sum]
    beta_reduce
    rw [wall_cond, h0.2.2]
    have := sq_pos_of_ne_zero (key D hD hne)
    nlinarith

theorem wall_safe (x y : ℝ) {n : Nat} (hn : 0 < n) : Safe (regKeys hotCalls) (wallFix x) (coldEls 1) coldCaps (wallSettings n y) 1 := by
  intro D hD
  have h0 := wall_zero hD
  rw [wall_step hn]
  simp only [pow_two]
  rw [wall_sum hD D, wall_sum hD fun k => (wallSettings n y).delta / ((wallSettings n y).alpha * 1) * (coldCaps.map fun x => capOn x D k).sum +
    ((coldEls 1).map fun x => capOn x D k).sum]
  beta_reduce
  rw [wall_cap, wall_cond, h0.1, h0.2.1, h0.2.2]
  show _ ≤ _ * ((1 / 2 : ℝ) / (1 / 4 * 1) * _ + _)
  simp only [plateN, Matrix.cons_val]
  nlinarith

theorem wall_runs (x F y : ℝ) {n : Nat} (hn : 0 < n) :
    ∃ seen, transientSolve Gauss.solveEquations (evolving (coldEls 1) coldCaps (fun _ _ => ())) (wallLoad F) (wallFix x) (wallSettings n y) hotCalls []
      hotStorage () (n + 1) = some (.ok (seen, TimeCtl.u16 (n + 1))) ∧ seen.length = n :=
  C102_runs (update := fun _ _ => ()) (e := ()) (wall_model x F y hn) (by decide) (by rw [wall_keys]; decide) (m := 1) (by
    have : (regKeys hotCalls).toFinset.card = 4 := by decide
    rw [this]; norm_num) (wall_safe x y hn)

theorem work_diff {z : LinEl ℝ} (w : Key → ℝ) : z.work w w - z.work w (fun _ => 0) = capWork z w w := by
  unfold capWork LinEl.work LinEl.force LinEl.load
  rw [← Finset.sum_sub_distrib]
  refine Finset.sum_congr rfl fun a _ => ?_
  simp only [mul_zero, Finset.sum_const_zero, sub_zero]
  show w (localKey z.nodes z.dofs a) * _ - w (localKey z.nodes z.dofs a) * _ = w (localKey z.nodes z.dofs a) * _
  ring_nf

/-- The linear solver. -/
theorem wall_linear (x F : ℝ) (hx : x = 0 ∨ (1 / 10 ^ 20 : ℝ) < |x|) :
    ∃ S', linearSolve Gauss.solveEquations (linear (coldEls 1) fun (_ : Unit) _ => ()) (wallLoad F) (wallFix x) hotCalls [] hotStorage () = .ok (S', ()) ∧
      Post.solution S' .node 2 .TEMP = .ok (x + 2 * F) := by
  have hp : ∀ z ∈ coldEls 1, Placed hotStorage hotCalls z := fun z hz => wall_placed ((cold_model 1).placed z hz)
  obtain ⟨S', e', h⟩ := C109_stiff (E := Unit) (update := fun _ _ => ()) (e := ()) (wall_legal' x) (wall_load F) hp rfl (by
      obtain ⟨S1, _, h1, _⟩ := prepare_small (wall_legal' x) (by rw [wall_keys]; decide) (by decide)
      intro hc
      rw [hc] at h1
      simp at h1) (by
      have : freeKeys hotCalls (wallFix x) ⊆ (regKeys hotCalls).toFinset := Finset.sdiff_subset
      have h2 := Finset.card_le_card this
      have : (regKeys hotCalls).toFinset.card = 4 := by decide
      omega) (by
      intro w h1 h2
      have hz : ∀ k ∈ fixKeys (wallFix x), w k = 0 := fun k hk => h1 k fun hc => (mem_free.mp hc).2 hk
      have hfree : freeKeys hotCalls (wallFix x) = {(.node, plateN 1, .TEMP)} := by
        ext k
        rw [Finset.mem_singleton]
        refine ⟨fun hk => wall_free (mem_free.mp hk).1 (mem_free.mp hk).2, ?_⟩
        rintro rfl
        rw [mem_free, wall_keys]
        decide
      rw [hfree] at h2 ⊢
      obtain ⟨k, hk, h2⟩ := h2
      obtain rfl := Finset.mem_singleton.mp hk
      have e1 : ((coldEls 1).map fun z => z.work w w - z.work w (fun _ => 0)).sum = ((coldEls 1).map fun z => capWork z w w).sum :=
        congrArg List.sum (List.map_congr_left fun z _ => work_diff w)
      have h2' : w (.node, 2, .TEMP) = 1 := h2
      have e2 : ((coldEls 1).map fun z => capWork z w w).sum = capForm (coldEls 1) w w := rfl
      rw [e1, e2, ← capForm_sum hp, wall_sum hz fun k => ((coldEls 1).map fun x => capOn x w k).sum, Finset.sum_singleton, h2, h2']
      beta_reduce
      rw [wall_cond, h2', (wall_zero hz).2.2]
      norm_num)
  refine ⟨S', h, ?_⟩
  obtain ⟨u, u1, u2, u3⟩ := linear_report (wall_legal' x) (wall_load F) hp rfl (by simpa [wallFix] using hx) gauss_exact h
  have h4 := u2 (.node, 4, .TEMP) (by decide) (by rw [wall_keys]; decide)
  have h2 := u3 (.node, plateN 1, .TEMP) (by decide) (by rw [wall_keys]; decide)
  rw [wall_force, h4] at h2
  have e4 : given (wallFix x) (.node, 4, .TEMP) = x := rfl
  have e5 : loadsOn (Side.node, plateN 1, DofType.TEMP) (wallLoad F) = F := by simp [loadsOn, wallLoad, keyOf, plateN]
  rw [e4, e5] at h2
  rw [u1 2 .TEMP (by decide)]
  congr 1
  linarith

/-! ## Heat at the free node -/

def heatedT (i : Nat) (k : Key) : ℝ := if k ∈ fixKeys (wallFix 0) then 0 else if i = 0 then 2 else if i = 1 then 5 else 8
def heatedV (i : Nat) (k : Key) : ℝ := if k ∈ fixKeys (wallFix 0) then 0 else if i = 1 then 6 else 0
def heatedA (i : Nat) (k : Key) : ℝ := if k ∈ fixKeys (wallFix 0) then 0 else if i = 0 then 0 else if i = 1 then 12 else 24 * (-1) ^ (i + 1)

theorem heated_history (n : Nat) : History (regKeys hotCalls) (wallFix 0) n 2 (1 / 4) (1 / 2) 1 heatedT heatedV heatedA := by
  refine ⟨fun k _ hf => by simp [heatedT, hf], fun k _ => ⟨by simp [heatedV], by simp [heatedA]⟩, fun i _ k _ hf => by simp [heatedT, hf], ?_⟩
  intro i _ k _
  by_cases hf : k ∈ fixKeys (wallFix 0)
  · simp only [NewmarkU, newmarkV, heatedT, heatedV, heatedA, hf]
    norm_num
  · simp only [NewmarkU, newmarkV, heatedT, heatedV, heatedA, hf, if_false]
    rcases i with _ | _ | i
    · norm_num
    · norm_num
    · simp only [pow_succ]
      norm_num

theorem heated_clear {n : Nat} (hn : 0 < n) : AllClear (regKeys hotCalls) (wallFix 0) (wallSettings n 2) heatedT heatedV heatedA := by
  intro i hi k _ hf
  rw [wall_step hn]
  simp only [wallSettings, NotTiny, heatedT, heatedV, heatedA, hf, if_false]
  rcases i with _ | _ | i
  · norm_num
  · norm_num
  · rcases neg_one_pow_eq_or ℝ (i + 1 + 1 + 1) with h | h <;> rw [h] <;> norm_num

/-- **Heat 4 at the free node**, the others held at 0, temperature 2 at the beginning. The steady temperature is 8; it is reported after the second step
and all later ones, and the linear solver reports it. -/
theorem C111_heated {n : Nat} (hn : 0 < n) :
    (∃ seen, transientSolve Gauss.solveEquations (evolving (coldEls 1) coldCaps (fun _ _ => ())) (wallLoad 4) (wallFix 0) (wallSettings n 2) hotCalls []
      hotStorage () (n + 1) = some (.ok (seen, TimeCtl.u16 (n + 1))) ∧ seen.length = n ∧
      Traced (regKeys hotCalls) (wallFix 0) (wallSettings n 2) seen heatedT heatedV heatedA ∧
      ∀ (i : Nat) (p : Nat × ℝ × TState Unit ℝ), seen[i]? = some p → Post.solution p.2.2.S .node 2 .TEMP = .ok (if i = 0 then 5 else 8)) ∧
    ∃ S', linearSolve Gauss.solveEquations (linear (coldEls 1) fun (_ : Unit) _ => ()) (wallLoad 4) (wallFix 0) hotCalls [] hotStorage () = .ok (S', ()) ∧
      Post.solution S' .node 2 .TEMP = .ok 8 := by
  constructor
  · obtain ⟨seen, h1, h2⟩ := wall_runs 0 4 2 hn
    have hM : TransientModel hotStorage hotCalls [] (wallLoad 4) (wallFix 0) (coldEls 1) coldCaps (wallSettings n 2) (n + 1) :=
      { wall_model 0 4 2 hn with fixed := by simp [wallFix] }
    have ht := C102_unique hM h1 (T' := heatedT) (V' := heatedV) (A' := heatedA) (by rw [wall_step hn]; exact heated_history n) (by
      intro i hi k hk hf
      rw [wall_free hk hf, wall_cap, wall_force]
      have e5 : loadsOn (Side.node, plateN 1, DofType.TEMP) (wallLoad 4) = 4 := by simp [loadsOn, wallLoad, keyOf, plateN]
      rw [e5]
      simp only [heatedT, heatedV, wall_keys]
      rcases i with _ | i <;> simp <;> norm_num) (heated_clear hn)
    refine ⟨seen, h1, h2, ht, fun i p hp => ?_⟩
    rw [ht.reported i p hp 2 .TEMP (by decide)]
    simp only [heatedT, wall_keys]
    rcases i with _ | i <;> simp
  · obtain ⟨S', h1, h2⟩ := wall_linear 0 4 (Or.inl rfl)
    refine ⟨S', h1, ?_⟩
    rw [h2]
    norm_num

/-- The hypotheses of `C111_linear_partial` are met and every run is clear. -/
example : ∃ S', linearSolve Gauss.solveEquations (linear (coldEls 1) fun (_ : Unit) _ => ()) (wallLoad 4) (wallFix 0) hotCalls [] hotStorage () = .ok (S', ()) ∧
    ∃ B ρ : ℝ, 0 ≤ B ∧ 0 ≤ ρ ∧ ρ < 1 ∧ ∀ n > 0, ∃ seen T V A,
      transientSolve Gauss.solveEquations (evolving (coldEls 1) coldCaps (fun _ _ => ())) (wallLoad 4) (wallFix 0) (wallSettings n 2) hotCalls []
        hotStorage () (n + 1) = some (.ok (seen, TimeCtl.u16 (n + 1))) ∧
      Traced (regKeys hotCalls) (wallFix 0) (wallSettings n 2) seen T V A ∧ AllClear (regKeys hotCalls) (wallFix 0) (wallSettings n 2) T V A ∧
      ∀ (i : Nat) (p : Nat × ℝ × TState Unit ℝ), seen[i]? = some p →
        ∃ v w, Post.solution p.2.2.S .node 2 .TEMP = .ok v ∧ Post.solution S' .node 2 .TEMP = .ok w ∧ |v - w| ≤ B * ρ ^ i := by
  obtain ⟨S', h1, _⟩ := wall_linear 0 4 (Or.inl rfl)
  obtain ⟨B, ρ, b, r0, r1, hB⟩ := C111_linear_partial (caps := coldCaps) (wall_legal' 0) (wall_load 4)
    (fun z hz => wall_placed ((cold_model 1).placed z hz)) (fun z hz => wall_placed ((cold_model 1).placedCaps z hz)) rfl (by simp [wallFix]) gauss_exact h1
    (wall_resists 0).1 (wall_resists 0).2 (show (0 : ℝ) < 1 by norm_num) 2
  refine ⟨S', h1, B, ρ, b, r0, r1, fun n hn => ?_⟩
  obtain ⟨⟨seen, s1, _, s3, _⟩, _⟩ := C111_heated hn
  obtain ⟨T, V, A, t1, t2⟩ := hB (wall_model 0 4 2 hn) gauss_exact rfl (wall_step hn 2) rfl s1
  have hc := AllClear.congr (t1.unique (by decide) (wall_model 0 4 2 hn).alpha hn (wall_model 0 4 2 hn).time s3) (heated_clear hn)
  exact ⟨seen, T, V, A, s1, t1, hc, fun i p hp => t2 hc i p hp 2 .TEMP (by decide)⟩

/-! ## A cold corner between hot ones -/

/-- **Three corners at 100**, temperature 0 at the beginning. The fourth corner should warm up to the 100 that the linear solver reports. In every
transient run, however long, it stays at 0. -/
theorem C111_wall_violated :
    (∃ S', linearSolve Gauss.solveEquations (linear (coldEls 1) fun (_ : Unit) _ => ()) (wallLoad 0) (wallFix 100) hotCalls [] hotStorage () = .ok (S', ()) ∧
      Post.solution S' .node 2 .TEMP = .ok 100) ∧
    ∀ n > 0, ∃ seen, transientSolve Gauss.solveEquations (evolving (coldEls 1) coldCaps (fun _ _ => ())) (wallLoad 0) (wallFix 100) (wallSettings n 0)
        hotCalls [] hotStorage () (n + 1) = some (.ok (seen, TimeCtl.u16 (n + 1))) ∧ seen.length = n ∧
      Blind (regKeys hotCalls) (wallFix 100) (wallSettings n 0) seen (fun _ _ => 0) (fun _ _ => 0) (fun _ _ => 0) ∧
      ∀ p ∈ seen, (∀ m ∈ [1, 3, 4], Post.solution p.2.2.S .node m .TEMP = .ok 100) ∧ Post.solution p.2.2.S .node 2 .TEMP = .ok 0 := by
  constructor
  · obtain ⟨S', h1, h2⟩ := wall_linear 100 0 (Or.inr (by norm_num))
    refine ⟨S', h1, ?_⟩
    rw [h2]
    norm_num
  · intro n hn
    obtain ⟨seen, h1, h2⟩ := wall_runs 100 0 0 hn
    have hb := unique_any (wall_model 100 0 0 hn) h1 (T' := fun _ _ => 0) (V' := fun _ _ => 0) (A' := fun _ _ => 0)
      ⟨fun _ _ _ => rfl, fun _ _ => ⟨rfl, rfl⟩, fun _ _ _ _ _ => rfl, fun i _ k _ => by simp [NewmarkU, newmarkV]⟩ (by
        intro i hi k hk hf
        rw [wall_free hk hf, wall_cap, wall_force]
        simp [loadsOn, wallLoad, keyOf, plateN]) (by
        intro i hi k _ hf
        simp [NotTiny])
    refine ⟨seen, h1, h2, hb, fun p hp => ?_⟩
    obtain ⟨i, hi, hip⟩ := List.mem_iff_getElem.mp hp
    have hip' : seen[i]? = some p := by rw [List.getElem?_eq_getElem hi, hip]
    refine ⟨fun m hm => ?_, hb.free i p hip' 2 .TEMP (by decide) (by rw [wall_keys]; decide)⟩
    simp only [List.mem_cons, List.not_mem_nil, or_false] at hm
    rcases hm with rfl | rfl | rfl <;> exact hb.fixed i p hip' _ .TEMP (by decide) 100 rfl

theorem wall_felt : ∃ k ∈ regKeys hotCalls, k ∉ fixKeys (wallFix 100) ∧ ((coldEls 1).map fun x => capOn x (given (wallFix 100)) k).sum ≠ 0 := by
  refine ⟨(.node, plateN 1, .TEMP), by decide, by rw [wall_keys]; decide, ?_⟩
  rw [wall_cond]
  have e4 : given (wallFix 100) (.node, 4, .TEMP) = 100 := rfl
  have e2 : given (wallFix 100) (.node, 2, .TEMP) = 0 := rfl
  rw [e4, e2]
  norm_num

/-- The hypotheses of `C111_linear_violated` are met, with heat at the free node and any temperature at the beginning. -/
example (F y : ℝ) : ∃ S', linearSolve Gauss.solveEquations (linear (coldEls 1) fun (_ : Unit) _ => ()) (wallLoad F) (wallFix 100) hotCalls [] hotStorage () =
      .ok (S', ()) ∧ ∃ δ > 0, ∃ N : Nat, ∀ n > 0, ∃ seen T V A,
      transientSolve Gauss.solveEquations (evolving (coldEls 1) coldCaps (fun _ _ => ())) (wallLoad F) (wallFix 100) (wallSettings n y) hotCalls []
        hotStorage () (n + 1) = some (.ok (seen, TimeCtl.u16 (n + 1))) ∧
      Blind (regKeys hotCalls) (wallFix 100) (wallSettings n y) seen T V A ∧ (AllClear (regKeys hotCalls) (wallFix 100) (wallSettings n y) T V A →
      ∀ (i : Nat) (p : Nat × ℝ × TState Unit ℝ), N ≤ i → seen[i]? = some p →
        ∃ v w, Post.solution p.2.2.S .node 2 .TEMP = .ok v ∧ Post.solution S' .node 2 .TEMP = .ok w ∧ δ ≤ |v - w|) := by
  obtain ⟨S', h1, _⟩ := wall_linear 100 F (Or.inr (by norm_num))
  obtain ⟨m, d, hk, hf, δ, hδ, N, hN⟩ := C111_linear_violated (caps := coldCaps) (by decide) (wall_legal' 100) (wall_load F)
    (fun z hz => wall_placed ((cold_model 1).placed z hz)) (fun z hz => wall_placed ((cold_model 1).placedCaps z hz)) rfl
    (by simp [wallFix]; norm_num) wall_felt gauss_exact h1 (wall_resists 100).1 (wall_resists 100).2 (show (0 : ℝ) < 1 by norm_num) y
  have h2 := wall_free hk hf
  simp only [Prod.mk.injEq, true_and] at h2
  obtain ⟨rfl, rfl⟩ := h2
  refine ⟨S', h1, δ, hδ, N, fun n hn => ?_⟩
  obtain ⟨seen, s1, _⟩ := wall_runs 100 F y hn
  obtain ⟨T, V, A, t1, t2⟩ := hN (wall_model 100 F y hn) gauss_exact rfl (wall_step hn y) rfl s1
  exact ⟨seen, T, V, A, s1, t1, t2⟩

end Nla3d.Trans
