import Verif.Trans.Sample

/-!
# C104: reactions of transient solutions
-/

noncomputable section

namespace Nla3d.Trans

open Nla3d.Dof Nla3d.Block Nla3d.Sparse Nla3d.Storage Nla3d.Solver Nla3d.Struct Finset
open scoped Matrix

variable {K : Type} [Field K] [LinearOrder K] [IsStrictOrderedRing K]

/-- Specification: what has to be supplied at the DoF `k`: capacity times rate plus what the elements take. -/
def needed (els caps : List (LinEl K)) (V T : Key → K) (k : Key) : K :=
  (caps.map fun x => capOn x V k).sum + (els.map fun x => x.forceOn T k).sum

/-- What the storage reports as reaction. -/
theorem reported_reaction {S0 S1 S : Storage K} {calls : List RegCall} {new : List (Mpc K)} {fixs : List (Bc K)} {num : Key → Nat}
    {A : Side → Spec} (hb : Base S0 S1 calls new fixs num A) (hl : LegalModel S0 calls new (fixKeys fixs)) (ha : Alike S1 S)
    (hU : S.vecU.length = S1.nDofs + S1.nMpc)
    (hR : S.vecR.length = S1.nDofs + S1.nMpc) {n : Nat} {t : DofType} (hk : (Side.node, n, t) ∈ regKeys calls) :
    Post.reaction S n t = .ok (comp S.vecR (num (.node, n, t))) := by
  have hrow : ∀ s n t e c, A s n t = some (e, c) → num (s, n, t) = e ∧ 0 < e ∧ e ≤ S1.nDofs := by
    intro s n t e c hA
    have hk : (s, n, t) ∈ regKeys calls := (hb.prep.ready.isSome (s, n, t)).mp (by
      show (A s n t).isSome = true
      rw [hA]; rfl)
    have h1 := hb.range hk
    have h2 : num (s, n, t) = e := by
      rw [hb.agree _ hk]
      unfold Storage.num at'
      rw [hA]; rfl
    rw [h2] at h1
    exact ⟨h2, h1⟩
  have hsim : SimS S A := hb.prep.ready.sim.congr (by rw [ha]) (by rw [ha]) (by rw [ha]) (by rw [ha])
  have hs : Post.Solved S A := ⟨hsim, fun s n t e c hA => by have := hrow s n t e c hA; omega,
    fun s n t e c hA => by have := hrow s n t e c hA; omega⟩
  have hi := hb.some hk
  have hrange : 0 < n ∧ n ≤ S.nNodes := by
    have h1 := hb.prep.ready.mesh.nNodes
    rw [show S.nNodes = S1.nNodes by rw [ha], h1]
    obtain ⟨ts, hc, _⟩ := mem_regKeys.mp hk
    exact hl.setup.reg _ hc
  rw [Post.reaction_eq hs hrange]
  obtain ⟨⟨e, c⟩, hA⟩ := Option.isSome_iff_exists.mp hi
  have hA' : A .node n t = some (e, c) := hA
  unfold Post.rowOf
  rw [hA', (hrow _ _ _ _ _ hA').1]
  rfl

section
variable {E : Type} {S0 : Storage K} {calls : List RegCall} {new : List (Mpc K)} {loads fixs : List (Bc K)}
  {el : Elems E K} {els caps : List (LinEl K)} {update : E → Storage K → E} {eqs : EqSolver K} {e : E} {st : TSettings K} {fuel : Nat}
  {seen : List (Nat × K × TState E K)} {last : Nat}

/-- **C104 is violated by every run**, with any elements and constraints: after every step the value reported as reaction of any DoF, fixed or
free, is the sum of the loads on it. -/
theorem C104_reaction_violated (hprob : Problem { S0 with transient := true } calls new loads fixs el) (he : Solver.Exact eqs) (ha : st.alpha ≠ 0)
    (hn : 0 < st.n) (ht : st.time0 < st.time1) (hf : st.n < fuel)
    (h : transientSolve eqs el loads fixs st calls new S0 e fuel = some (.ok (seen, last))) :
    seen.length = st.n ∧ ∀ p ∈ seen, ∀ m d, (Side.node, m, d) ∈ regKeys calls →
      Post.reaction p.2.2.S m d = .ok (loadsOn (Side.node, m, d) loads) := by
  rcases transient_run hprob he ha hn ht e hf with ⟨hfat, _⟩ | ⟨S1, num, start, seen', h1, h2, h3, h4, _, h6, h7, h8, h9⟩
  · rw [h] at hfat; simp at hfat
  rw [h] at h3
  simp only [Option.some.injEq, Res.ok.injEq, Prod.mk.injEq] at h3
  obtain ⟨rfl, _⟩ := h3
  obtain ⟨P, hb⟩ := base_of_prepare hprob.legal h1 h2
  have hR : ∀ s ∈ start :: seen.map (fun p => p.2.2), s.S.vecR = start.S.vecR := by
    have : ∀ (l : List (TState E K)) (x : TState E K), List.IsChain (StepLaw el S1 (tMat el e S1 num st.initValue 0)
        (tMat el e S1 num st.initValue 1) (tMat el e S1 num st.initValue 2) (tLoad el e S1 st.initValue) st.alpha st.delta
        ((st.time1 - st.time0) / st.n)) (x :: l) → ∀ s ∈ x :: l, s.S.vecR = x.S.vecR := by
      intro l
      induction l with
      | nil => intro x _ s hs; rw [List.mem_singleton.mp hs]
      | cons y l ih =>
        intro x hx s hs
        obtain ⟨c1, c2⟩ := List.isChain_cons_cons.mp hx
        rcases List.mem_cons.mp hs with rfl | hs
        · rfl
        · rw [ih y c2 s hs, c1.storage]; rfl
    exact this _ _ h7
  refine ⟨h4, fun p hp m d hk => ?_⟩
  have hmem : p.2.2 ∈ start :: seen.map (fun p => p.2.2) := List.mem_cons_of_mem _ (List.mem_map_of_mem hp)
  obtain ⟨a1, a2, a3⟩ := h8 _ hmem
  rw [reported_reaction hb hprob.legal a1 a2 a3 hk, hR _ hmem, h6.loads _ hk]

/-- **C104 at free DoFs**: load, reported value and balance agree. Missing for the full claim: see `C104_reaction_violated`. -/
theorem C104_free_partial (hM : TransientModel S0 calls new loads fixs els caps st fuel) (he : Solver.Exact eqs)
    (h : transientSolve eqs (evolving els caps update) loads fixs st calls new S0 e fuel = some (.ok (seen, last))) :
    ∃ T V A : Nat → Key → K, Traced (regKeys calls) fixs st seen T V A ∧
      (AllClear (regKeys calls) fixs st T V A → ∀ i (p : Nat × K × TState E K), seen[i]? = some p → ∀ m d, (Side.node, m, d) ∈ regKeys calls →
        (Side.node, m, d) ∉ fixKeys fixs → Post.reaction p.2.2.S m d = .ok (needed els caps (V (i + 1)) (T (i + 1)) (.node, m, d))) := by
  obtain ⟨T, V, A, h1, h2⟩ := C102_history hM he h
  refine ⟨T, V, A, h1, fun hc i p hp m d hk hf => ?_⟩
  have hi : i < st.n := by
    rw [← h1.steps]
    exact (List.getElem?_eq_some_iff.mp hp).1
  have hprob := evolving_problem (update := update) hM.legal rfl hM.loads hM.placed hM.placedCaps
  rw [(C104_reaction_violated hprob he hM.alpha hM.steps hM.time hM.fuel h).2 p (List.mem_of_getElem? hp) m d hk]
  congr 1
  exact (h2 i hi (hc i hi) _ hk hf).symm
end

/-! ## A plate that is cooled at one side -/

def coldBody : Body := ⟨plateN, 1, 1, 1⟩

/-- Nodes 1 and 4 are held at 0. -/
def coldFix : List (Bc ℝ) := [⟨1, .TEMP, 0⟩, ⟨4, .TEMP, 0⟩]

/-- One step of length 1. -/
def coldSettings : TSettings ℝ := ⟨1, 1 / 4, 1 / 2, 0, 1, 20⟩

theorem cold_step : stepOf coldSettings = 1 := by
  show ((1 : ℝ) - 0) / ((1 : Nat) : ℝ) = 1
  norm_num

theorem cold_cap : capMat plateGeo coldBody = Matrix.of fun _ _ => 1 / 4 := by
  unfold capMat
  rw [show Iso.quad.table (Iso.schemeIndex coldBody.o) = Iso.quadO1 from rfl]
  simp only [Iso.quadO1, List.map_cons, List.map_nil, List.sum_cons, List.sum_nil, add_zero]
  ext i j
  simp only [Thermal.capPt, Thermal.wdet, coldBody, plate_jac, Matrix.det_one, Matrix.of_apply]
  fin_cases i <;> fin_cases j <;> simp [Iso.quad] <;> norm_num

theorem cold_cond (k : ℝ) : condMat plateGeo plateN 1 k = Matrix.of ![![k / 2, 0, -(k / 2), 0], ![0, k / 2, 0, -(k / 2)],
    ![-(k / 2), 0, k / 2, 0], ![0, -(k / 2), 0, k / 2]] := by
  unfold condMat
  rw [show Iso.quad.table (Iso.schemeIndex 1) = Iso.quadO1 from rfl]
  simp only [Iso.quadO1, List.map_cons, List.map_nil, List.sum_cons, List.sum_nil, add_zero]
  ext i j
  simp only [Thermal.condPt, Thermal.wdet, plate_jac, Matrix.det_one, Thermal.B, Iso.grads]
  fin_cases i <;> fin_cases j <;> simp [Iso.quad, Matrix.mul_apply, Fin.sum_univ_two, plate_jac] <;> ring

theorem cold_key (a : Nat) : localKey (List.ofFn plateN) [.TEMP] a = (.node, [1, 2, 3, 4].getD a 0, .TEMP) := by
  rw [show List.ofFn plateN = [1, 2, 3, 4] by simp [List.ofFn_succ]]
  simp [localKey, Nat.mod_one]

/-- The sums of an element with the nodes 1 to 4. -/
theorem cold_row {M : Matrix (Fin 4) (Fin 4) ℝ} (V : Key → ℝ) {x : LinEl ℝ} (h1 : x.nodes = List.ofFn plateN) (h2 : x.dofs = [.TEMP])
    (h3 : ∀ i j, x.Ke i j = Dense.ext M i j) (a : Fin 4) : capOn x V (.node, plateN a, .TEMP) = ∑ b, M a b * V (.node, plateN b, .TEMP) := by
  obtain ⟨nodes, dofs, Ke, Fe⟩ := x
  obtain rfl : nodes = _ := h1
  obtain rfl : dofs = _ := h2
  obtain rfl : Ke = fun i j => Dense.ext M i j := by funext i j; exact h3 i j
  unfold capOn
  rw [show (LinEl.mk (List.ofFn plateN) [.TEMP] (fun i j => Dense.ext M i j) Fe).n = 4 by simp [LinEl.n]]
  simp only [cold_key, Finset.sum_range]
  have e1 : ∀ b : Fin 4, [1, 2, 3, 4].getD b.val 0 = plateN b := by decide
  have e2 : ∀ i j : Fin 4, Dense.ext M i.val j.val = M i j := fun i j => by unfold Dense.ext; rw [dif_pos ⟨i.2, j.2⟩]
  simp only [e1, e2]
  have e3 : ∀ i : Fin 4, ((Side.node, plateN i, DofType.TEMP) = (Side.node, plateN a, DofType.TEMP)) ↔ i = a := by
    intro i
    revert i a
    decide
  simp only [e3]
  rw [Finset.sum_ite_eq' Finset.univ a]
  simp

def coldEls (k : ℝ) : List (LinEl ℝ) := [condEl plateGeo plateN 1 k 0]
def coldCaps : List (LinEl ℝ) := [bodyEl plateGeo coldBody]

theorem cold_needed (k : ℝ) (V T : Key → ℝ) (a : Fin 4) : needed (coldEls k) coldCaps V T (.node, plateN a, .TEMP) =
    ∑ b, 1 / 4 * V (.node, plateN b, .TEMP) + ∑ b, (condMat plateGeo plateN 1 k) a b * T (.node, plateN b, .TEMP) := by
  unfold needed coldEls coldCaps
  simp only [List.map_cons, List.map_nil, List.sum_cons, List.sum_nil, add_zero]
  rw [cold_row (M := capMat plateGeo coldBody) V rfl rfl (fun _ _ => rfl) a, ← condEl_cap plateGeo plateN 1 k 0,
    cold_row (M := condMat plateGeo plateN 1 k) T rfl rfl (fun _ _ => rfl) a, cold_cap]
  rfl

theorem cold_model (k : ℝ) : TransientModel hotStorage hotCalls [] [] coldFix (coldEls k) coldCaps coldSettings 2 where
  legal := by
    have hk : fixKeys coldFix = [(.node, 1, .TEMP), (.node, 4, .TEMP)] := rfl
    rw [hk]
    refine ⟨⟨?_, ?_, ?_, ?_, ?_, rfl⟩, ?_, ?_, ?_⟩
    · unfold LegalReg; decide
    · decide
    · decide
    · decide
    · intro m hm; simp [hotStorage, Storage.fresh] at hm
    · unfold MeshOk; decide
    · intro m hm; simp [hotStorage, Storage.fresh] at hm
    · decide
  loads := by simp
  placed x hx := by
    rw [coldEls, List.mem_singleton] at hx
    subst hx
    exact hot_placed rfl rfl fun i j => ext_symm (condMat_symm _ _ _ _) i j
  placedCaps x hx := by
    rw [coldCaps, List.mem_singleton] at hx
    subst hx
    exact hot_placed rfl rfl fun i j => ext_symm (capMat_symm _ _) i j
  noMpc := rfl
  fixed := by simp [coldFix]
  alpha := by show (1 / 4 : ℝ) ≠ 0; norm_num
  delta := rfl
  steps := by show 0 < 1; norm_num
  time := by show (0 : ℝ) < 1; norm_num
  fuel := by show 1 < 2; norm_num

theorem cold_safe : Safe (regKeys hotCalls) coldFix (coldEls 2) coldCaps coldSettings 1 := by
  intro D hD
  have d1 : D (.node, 1, .TEMP) = 0 := hD _ (by decide)
  have d4 : D (.node, 4, .TEMP) = 0 := hD _ (by decide)
  have e1 : (regKeys hotCalls).toFinset = {(Side.node, 1, DofType.TEMP), (Side.node, 2, DofType.TEMP), (Side.node, 3, DofType.TEMP),
      (Side.node, 4, DofType.TEMP)} := by decide
  rw [cold_step, e1]
  show _ ≤ ∑ k ∈ _, D k * ((1 / 2 : ℝ) / (1 / 4 * 1) * _ + _)
  rw [Finset.sum_insert (by decide), Finset.sum_insert (by decide), Finset.sum_insert (by decide), Finset.sum_singleton,
    Finset.sum_insert (by decide), Finset.sum_insert (by decide), Finset.sum_insert (by decide), Finset.sum_singleton]
  have c := fun a => cold_row (M := capMat plateGeo coldBody) D (x := bodyEl plateGeo coldBody) rfl rfl (fun _ _ => rfl) a
  have k := fun a => cold_row (M := condMat plateGeo plateN 1 2) D (x := condEl plateGeo plateN 1 2 0) rfl rfl (fun _ _ => rfl) a
  have c1 := c 1
  have c2 := c 2
  have k1 := k 1
  have k2 := k 2
  rw [cold_cap, Fin.sum_univ_four] at c1 c2
  rw [cold_cond, Fin.sum_univ_four] at k1 k2
  simp [plateN, d1, d4] at c1 c2 k1 k2
  unfold coldEls coldCaps
  simp only [List.map_cons, List.map_nil, List.sum_cons, List.sum_nil, add_zero, d1, d4, c1, c2, k1, k2]
  nlinarith [sq_nonneg (D (Side.node, 2, DofType.TEMP) + D (Side.node, 3, DofType.TEMP))]

def coldT (i : Nat) (k : Key) : ℝ := if k ∈ fixKeys coldFix then 0 else if i = 0 then 20 else 10
def coldV (i : Nat) (k : Key) : ℝ := if k ∈ fixKeys coldFix ∨ i = 0 then 0 else -20
def coldA (i : Nat) (k : Key) : ℝ := if k ∈ fixKeys coldFix ∨ i = 0 then 0 else -40

theorem cold_history : History (regKeys hotCalls) coldFix 1 20 (1 / 4) (1 / 2) 1 coldT coldV coldA := by
  refine ⟨fun k _ hf => by simp [coldT, hf], fun _ _ => ⟨by simp [coldV], by simp [coldA]⟩, fun i _ k _ hf => by simp [coldT, hf], ?_⟩
  intro i hi k _
  obtain rfl : i = 0 := by omega
  by_cases hf : k ∈ fixKeys coldFix <;> simp only [NewmarkU, newmarkV, coldT, coldV, coldA, hf] <;> norm_num

theorem cold_clear : AllClear (regKeys hotCalls) coldFix coldSettings coldT coldV coldA := by
  intro i hi k _ hf
  rw [cold_step]
  obtain rfl : i = 0 := by have : i < 1 := hi; omega
  simp only [coldSettings, NotTiny, coldT, coldV, coldA, hf]
  norm_num

theorem cold_values : coldT 1 (.node, 1, .TEMP) = 0 ∧ coldT 1 (.node, 2, .TEMP) = 10 ∧ coldT 1 (.node, 3, .TEMP) = 10 ∧ coldT 1 (.node, 4, .TEMP) = 0 ∧
    coldV 1 (.node, 1, .TEMP) = 0 ∧ coldV 1 (.node, 2, .TEMP) = -20 ∧ coldV 1 (.node, 3, .TEMP) = -20 ∧ coldV 1 (.node, 4, .TEMP) = 0 := by
  have h1 : (Side.node, 1, DofType.TEMP) ∈ fixKeys coldFix := by simp [fixKeys, coldFix, keyOf]
  have h4 : (Side.node, 4, DofType.TEMP) ∈ fixKeys coldFix := by simp [fixKeys, coldFix, keyOf]
  have h2 : (Side.node, 2, DofType.TEMP) ∉ fixKeys coldFix := by simp [fixKeys, coldFix, keyOf]
  have h3 : (Side.node, 3, DofType.TEMP) ∉ fixKeys coldFix := by simp [fixKeys, coldFix, keyOf]
  simp [coldT, coldV, h1, h2, h3, h4]

/-- What has to be supplied after the step: -20 at each of the nodes 1 and 4, nothing at the free nodes. -/
theorem cold_supply (a : Fin 4) : needed (coldEls 2) coldCaps (coldV 1) (coldT 1) (.node, plateN a, .TEMP) = ![-20, 0, 0, -20] a := by
  rw [cold_needed, cold_cond, Fin.sum_univ_four, Fin.sum_univ_four]
  obtain ⟨t1, t2, t3, t4, v1, v2, v3, v4⟩ := cold_values
  simp only [plateN, Matrix.cons_val]
  rw [t1, t2, t3, t4, v1, v2, v3, v4]
  fin_cases a <;> simp <;> norm_num

/-- **The plate with the left side held at 0**, temperature 20 at the beginning, conductivity 2. After one step the right side has 10 degrees and
cools at a rate of -20; to hold the left side at 0, heat of 20 has to be drawn at each of its nodes. The solver reports 0. -/
theorem C104_plate : ∃ seen, transientSolve Gauss.solveEquations (evolving (coldEls 2) coldCaps (fun _ _ => ())) [] coldFix coldSettings hotCalls []
      hotStorage () 2 = some (.ok (seen, 2)) ∧ Traced (regKeys hotCalls) coldFix coldSettings seen coldT coldV coldA ∧
      ∃ p : Nat × ℝ × TState Unit ℝ, seen = [p] ∧ ∀ m ∈ [1, 4], Post.reaction p.2.2.S m .TEMP = .ok 0 ∧
        needed (coldEls 2) coldCaps (coldV 1) (coldT 1) (.node, m, .TEMP) = -20 := by
  obtain ⟨seen, h1, h2⟩ := C102_runs (update := fun _ _ => ()) (e := ()) (cold_model 2).toAnyModel (by decide) (by decide) (m := 1) (by
    have : (regKeys hotCalls).toFinset.card = 4 := by decide
    rw [this]; norm_num) cold_safe
  refine ⟨seen, h1, C102_unique (cold_model 2) h1 ?_ ?_ cold_clear, ?_⟩
  · rw [cold_step]; exact cold_history
  · intro i hi k hk hf
    obtain rfl : i = 0 := by have : i < 1 := hi; omega
    have hk' : k ∈ [(Side.node, 1, DofType.TEMP), (.node, 2, .TEMP), (.node, 3, .TEMP), (.node, 4, .TEMP)] := hk
    simp only [List.mem_cons, List.not_mem_nil, or_false] at hk'
    show needed (coldEls 2) coldCaps (coldV 1) (coldT 1) k = _
    rcases hk' with rfl | rfl | rfl | rfl
    · exact absurd (by simp [fixKeys, coldFix, keyOf]) hf
    · exact cold_supply 1
    · exact cold_supply 2
    · exact absurd (by simp [fixKeys, coldFix, keyOf]) hf
  · obtain ⟨p, rfl⟩ := List.length_eq_one_iff.mp h2
    have hprob := evolving_problem (update := fun (_ : Unit) _ => ()) (cold_model 2).legal rfl (cold_model 2).loads (cold_model 2).placed (cold_model 2).placedCaps
    have := (C104_reaction_violated hprob gauss_exact (cold_model 2).alpha (cold_model 2).steps (cold_model 2).time (cold_model 2).fuel h1).2 p (by simp)
    refine ⟨p, rfl, fun m hm => ?_⟩
    simp only [List.mem_cons, List.not_mem_nil, or_false] at hm
    rcases hm with rfl | rfl
    · exact ⟨this 1 .TEMP (by decide), cold_supply 0⟩
    · exact ⟨this 4 .TEMP (by decide), cold_supply 3⟩

/-- The hypotheses of `C104_free_partial`. -/
example : ∃ seen T V A, transientSolve Gauss.solveEquations (evolving (coldEls 2) coldCaps (fun _ _ => ())) [] coldFix coldSettings hotCalls []
      hotStorage () 2 = some (.ok (seen, 2)) ∧ Traced (regKeys hotCalls) coldFix coldSettings seen T V A ∧
      AllClear (regKeys hotCalls) coldFix coldSettings T V A ∧
      ∀ p : Nat × ℝ × TState Unit ℝ, seen[0]? = some p → Post.reaction p.2.2.S 2 .TEMP = .ok (needed (coldEls 2) coldCaps (V 1) (T 1) (.node, 2, .TEMP)) := by
  obtain ⟨seen, h1, h2, _⟩ := C104_plate
  obtain ⟨T, V, A, t1, t2⟩ := C104_free_partial (cold_model 2) gauss_exact h1
  have hc : AllClear (regKeys hotCalls) coldFix coldSettings T V A := by
    have := t1.unique (by decide) (cold_model 2).alpha (cold_model 2).steps (cold_model 2).time h2
    intro i hi k hk hf
    obtain ⟨e1, e2, e3⟩ := this i (by omega) k hk
    rw [e1, e2, e3]
    exact cold_clear i hi k hk hf
  exact ⟨seen, T, V, A, h1, t1, hc, fun p hp => t2 hc 0 p hp 2 .TEMP (by decide) (by simp [fixKeys, coldFix, keyOf])⟩

end Nla3d.Trans
