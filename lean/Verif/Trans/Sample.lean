import Verif.Trans.Decay
import Verif.Trans.Solved

/-!
# A plate in time
-/

noncomputable section

namespace Nla3d.Trans

open Nla3d.Dof Nla3d.Block Nla3d.Sparse Nla3d.Storage Nla3d.Solver Nla3d.Struct Finset
open scoped Matrix

/-- The values and rates of a traced run are determined by the reports. -/
theorem Traced.unique {K E : Type} [Field K] [LinearOrder K] [IsStrictOrderedRing K] {regs : List Key} {fixs : List (Bc K)} {st : TSettings K}
    {seen : List (Nat × K × TState E K)} {T V A T' V' A' : Nat → Key → K} (hnode : ∀ k ∈ regs, k.1 = .node) (ha : st.alpha ≠ 0)
    (hn : 0 < st.n) (ht : st.time0 < st.time1) (h : Traced regs fixs st seen T V A) (h' : Traced regs fixs st seen T' V' A') :
    ∀ i ≤ st.n, ∀ k ∈ regs, T i k = T' i k ∧ V i k = V' i k ∧ A i k = A' i k := by
  have hdt : stepOf st ≠ 0 := by
    have : (0 : K) < st.n := by exact_mod_cast hn
    exact (div_pos (by linarith) this).ne'
  intro i
  induction i with
  | zero =>
    intro _ k hk
    have r1 := h.history.rest k hk
    have r2 := h'.history.rest k hk
    refine ⟨?_, by rw [r1.1, r2.1], by rw [r1.2, r2.2]⟩
    by_cases hf : k ∈ fixKeys fixs
    · rw [h.history.fixed 0 (by omega) k hk hf, h'.history.fixed 0 (by omega) k hk hf]
    · rw [h.history.initial k hk hf, h'.history.initial k hk hf]
  | succ i ih =>
    intro hi k hk
    obtain ⟨i1, i2, i3⟩ := ih (by omega) k hk
    have hT : T (i + 1) k = T' (i + 1) k := by
      obtain ⟨s, m, d⟩ := k
      obtain rfl : s = .node := hnode _ hk
      have hlt : i < seen.length := by rw [h.steps]; omega
      have e1 := h.reported i seen[i] (List.getElem?_eq_getElem hlt) m d hk
      have e2 := h'.reported i seen[i] (List.getElem?_eq_getElem hlt) m d hk
      rw [e1, Res.ok.injEq] at e2
      exact e2
    obtain ⟨s1, s2⟩ := h.history.step i (by omega) k hk
    obtain ⟨s1', s2'⟩ := h'.history.step i (by omega) k hk
    have hA : A (i + 1) k = A' (i + 1) k := by
      unfold NewmarkU at s1 s1'
      rw [hT, s1', i1, i2, i3] at s1
      have : stepOf st * stepOf st * st.alpha * (A (i + 1) k - A' (i + 1) k) = 0 := by linear_combination -s1
      rcases mul_eq_zero.mp this with h | h
      · exact absurd h (mul_ne_zero (mul_ne_zero hdt hdt) ha)
      · exact sub_eq_zero.mp h
    exact ⟨hT, by rw [s2, s2', i2, i3, hA], hA⟩

/-! ## Elements -/

/-- What `buildC` hands over. -/
def bodyEl (geo : Nat → Fin 3 → ℝ) (b : Body) : LinEl ℝ where
  nodes := List.ofFn b.n
  dofs := [.TEMP]
  Ke i j := Dense.ext (capMat geo b) i j

theorem bodyEl_built {geo : Nat → Fin 3 → ℝ} {b : Body} (hok : b.Sound geo) : b.Built geo (bodyEl geo b) := by
  obtain ⟨g, h1, h2, h3⟩ := Iso.makeJacob_good (S := Iso.quad) (o := b.o) (pos := plane geo b.n) (fun q hq => (hok.1 q hq).ne')
  refine ⟨rfl, rfl, g, h1, ?_⟩
  have := Thermal.quadC_eq h3 b.rho b.c
  rw [h2] at this
  exact this

theorem ext_symm {m : Nat} {M : Matrix (Fin m) (Fin m) ℝ} (h : M.IsSymm) (i j : Nat) : Dense.ext M i j = Dense.ext M j i := by
  unfold Dense.ext
  by_cases hij : i < m ∧ j < m
  · rw [dif_pos hij, dif_pos hij.symm]
    exact congrFun (congrFun h.eq _) _
  · rw [dif_neg hij, dif_neg fun c => hij c.symm]

def condMat (geo : Nat → Fin 3 → ℝ) (n : Fin 4 → Nat) (o : Nat) (k : ℝ) : Matrix (Fin 4) (Fin 4) ℝ :=
  ((Iso.quad.table (Iso.schemeIndex o)).map (Thermal.condPt (plane geo n) k)).sum
def sourceVec (geo : Nat → Fin 3 → ℝ) (n : Fin 4 → Nat) (o : Nat) (f : ℝ) : Fin 4 → ℝ :=
  ((Iso.quad.table (Iso.schemeIndex o)).map (Thermal.loadPt (plane geo n) f)).sum

/-- What `buildK` hands over. -/
def condEl (geo : Nat → Fin 3 → ℝ) (n : Fin 4 → Nat) (o : Nat) (k f : ℝ) : LinEl ℝ where
  nodes := List.ofFn n
  dofs := [.TEMP]
  Ke i j := Dense.ext (condMat geo n o k) i j
  Fe := some fun i => sourceVec geo n o f (Fin.ofNat 4 i)

theorem condMat_symm (geo : Nat → Fin 3 → ℝ) (n : Fin 4 → Nat) (o : Nat) (k : ℝ) : (condMat geo n o k).IsSymm := by
  apply Thermal.sum_induct (fun K : Matrix (Fin 4) (Fin 4) ℝ => K.IsSymm)
  · exact Matrix.isSymm_zero
  · intro a b ha hb; exact ha.add hb
  · intro q _
    rw [Thermal.condPt_eq]
    unfold Matrix.IsSymm
    rw [Matrix.transpose_smul, Matrix.transpose_mul, Matrix.transpose_transpose]

theorem condEl_built {geo : Nat → Fin 3 → ℝ} {n : Fin 4 → Nat} {o : Nat} {k f : ℝ} (hok : (HeatElem.quad n o k f).Sound geo) :
    (HeatElem.quad n o k f).Built geo (condEl geo n o k f) := by
  obtain ⟨g, h1, h2, h3⟩ := Iso.makeJacob_good (S := Iso.quad) (o := o) (pos := plane geo n) (fun q hq => (hok.1 q hq).ne')
  refine ⟨rfl, rfl, g, sourceVec geo n o f, _, h1, ?_, rfl, ?_⟩
  · have := Thermal.quadK_eq h3 k f
    rw [h2] at this
    exact this
  · intro a
    show sourceVec geo n o f (Fin.ofNat 4 a.val) = _
    congr 1
    fin_cases a <;> rfl

theorem sourceVec_zero (geo : Nat → Fin 3 → ℝ) (n : Fin 4 → Nat) (o : Nat) : sourceVec geo n o 0 = 0 := by
  refine Thermal.sum_induct (fun F : Fin 4 → ℝ => F = 0) rfl (by rintro a b rfl rfl; simp) _ _ ?_
  intro q _
  funext a
  simp [Thermal.loadPt]

theorem condEl_cap (geo : Nat → Fin 3 → ℝ) (n : Fin 4 → Nat) (o : Nat) (k f : ℝ) (D : Key → ℝ) (k0 : Key) :
    capOn (condEl geo n o k f) D k0 = (condEl geo n o k 0).forceOn D k0 := by
  unfold capOn LinEl.forceOn LinEl.force LinEl.load condEl
  simp only [sourceVec_zero, Pi.zero_apply, sub_zero]

/-! ## The plate -/

abbrev plateN : Fin 4 → Nat := ![1, 2, 3, 4]

/-- A square of 2 by 2 with density times specific heat 1. -/
def plateBody : Body := ⟨plateN, 2, 1, 1⟩

def hotStorage : Storage ℝ := Storage.fresh 4 [[1, 2, 3, 4]] [] false

def hotCalls : List RegCall := [(.node, 1, [.TEMP]), (.node, 2, [.TEMP]), (.node, 3, [.TEMP]), (.node, 4, [.TEMP])]

/-- Two steps of length 1 from temperature 20, default parameters. -/
def hotSettings : TSettings ℝ := ⟨2, 1 / 4, 1 / 2, 0, 2, 20⟩

theorem hot_step : stepOf hotSettings = 1 := by
  show ((2 : ℝ) - 0) / ((2 : Nat) : ℝ) = 1
  norm_num

theorem body_sound : plateBody.Sound plateGeo :=
  ⟨fun q _ => by show 0 < (Iso.jac Iso.quad (plane plateGeo ![1, 2, 3, 4]) q.xi).det; rw [plate_jac]; simp,
    by show (0 : ℝ) ≤ 1; norm_num, by show (0 : ℝ) ≤ 1; norm_num⟩

theorem hot_sound {k f : ℝ} (hk : 0 ≤ k) : (HeatElem.quad plateN 2 k f).Sound plateGeo :=
  ⟨fun q _ => by rw [plate_jac]; simp, hk⟩

theorem hot_legal : LegalModel { hotStorage with transient := true } hotCalls [] (fixKeys ([] : List (Bc ℝ))) := by
  have hk : fixKeys ([] : List (Bc ℝ)) = [] := rfl
  rw [hk]
  refine ⟨⟨?_, ?_, ?_, ?_, ?_, rfl⟩, ?_, ?_, ?_⟩
  · unfold LegalReg; decide
  · decide
  · decide
  · decide
  · intro m hm; simp [hotStorage, Storage.fresh] at hm
  · unfold MeshOk; decide
  · intro m hm; simp [hotStorage, Storage.fresh] at hm
  · decide

theorem hot_placed {x : LinEl ℝ} (h1 : x.nodes = [1, 2, 3, 4]) (h2 : x.dofs = [.TEMP]) (hs : ∀ i j, x.Ke i j = x.Ke j i) :
    Placed { hotStorage with transient := true } hotCalls x := by
  obtain ⟨nodes, dofs, Ke, Fe⟩ := x
  obtain rfl : nodes = _ := h1
  obtain rfl : dofs = _ := h2
  exact ⟨⟨⟨1, rfl⟩, by show ∀ n ∈ [1, 2, 3, 4], ∀ t ∈ [DofType.TEMP], _; decide, by show [DofType.TEMP].Nodup; decide⟩,
    by show [1, 2, 3, 4].Nodup; decide, fun i _ j _ => hs i j⟩

theorem hot_model (k f : ℝ) (loads : List (Bc ℝ)) (hload : ∀ l ∈ loads, keyOf l ∈ regKeys hotCalls) :
    TransientModel hotStorage hotCalls [] loads [] [condEl plateGeo plateN 2 k f] [bodyEl plateGeo plateBody] hotSettings 3 where
  legal := hot_legal
  loads := hload
  placed x hx := by
    rw [List.mem_singleton] at hx
    subst hx
    exact hot_placed rfl rfl fun i j => ext_symm (condMat_symm _ _ _ _) i j
  placedCaps x hx := by
    rw [List.mem_singleton] at hx
    subst hx
    exact hot_placed rfl rfl fun i j => ext_symm (capMat_symm _ _) i j
  noMpc := rfl
  fixed := by simp
  alpha := by show (1 / 4 : ℝ) ≠ 0; norm_num
  delta := rfl
  steps := by show 0 < 2; norm_num
  time := by show (0 : ℝ) < 2; norm_num
  fuel := by show 2 < 3; norm_num

theorem plate_square (D : Key → ℝ) :
    1 / 10 * ∑ k ∈ (regKeys hotCalls).toFinset, D k ^ 2 ≤ square plateGeo [plateBody] D := by
  have e1 : (regKeys hotCalls).toFinset = {(Side.node, 1, DofType.TEMP), (Side.node, 2, DofType.TEMP), (Side.node, 3, DofType.TEMP),
      (Side.node, 4, DofType.TEMP)} := by decide
  rw [e1, Finset.sum_insert (by decide), Finset.sum_insert (by decide), Finset.sum_insert (by decide), Finset.sum_singleton]
  unfold square Body.integral
  have hj : ∀ q, Iso.jac Iso.quad (plane plateGeo plateBody.n) q = 1 := plate_jac
  simp only [hj, Matrix.det_one, mul_one, List.map_cons, List.map_nil, List.sum_cons, List.sum_nil, add_zero]
  rw [show Iso.quad.table (Iso.schemeIndex plateBody.o) = Iso.quadO2 from rfl]
  simp only [Iso.quadO2, List.map_cons, List.map_nil, List.sum_cons, List.sum_nil, add_zero, plateBody, one_mul, temp, Fin.sum_univ_four]
  simp only [Iso.quad, plateN, Matrix.cons_val]
  generalize D (Side.node, 1, DofType.TEMP) = a
  generalize D (Side.node, 2, DofType.TEMP) = b
  generalize D (Side.node, 3, DofType.TEMP) = c
  generalize D (Side.node, 4, DofType.TEMP) = d
  nlinarith [sq_nonneg (a + b + c + d), sq_nonneg (a + b - c - d), sq_nonneg (a - b + c - d), sq_nonneg (a - b - c + d)]

theorem hot_safe {k : ℝ} (hk : 0 ≤ k) (f : ℝ) :
    Safe (regKeys hotCalls) [] [condEl plateGeo plateN 2 k f] [bodyEl plateGeo plateBody] hotSettings (1 / 10) := by
  intro D _
  have hM := hot_model k f [] (by simp)
  have hM0 := hot_model k 0 [] (by simp)
  rw [hot_step]
  show _ ≤ ∑ k ∈ _, D k * ((1 / 2 : ℝ) / (1 / 4 * 1) * _ + _)
  simp only [mul_add, Finset.sum_add_distrib]
  have e1 : ∑ k ∈ (regKeys hotCalls).toFinset, D k * ((1 / 2 : ℝ) / (1 / 4 * 1) * ([bodyEl plateGeo plateBody].map fun x => capOn x D k).sum) =
      2 * square plateGeo [plateBody] D := by
    rw [← capForm_square (.cons (bodyEl_built body_sound) .nil) (by simpa using body_sound) hM.placedCaps, ← capForm_sum hM.placedCaps,
      Finset.mul_sum]
    refine Finset.sum_congr rfl fun k _ => ?_
    ring
  have e2 : 0 ≤ ∑ k0 ∈ (regKeys hotCalls).toFinset, D k0 * ([condEl plateGeo plateN 2 k f].map fun x => capOn x D k0).sum := by
    have := (conduction (hs := [.quad plateN 2 k 0]) (.cons (condEl_built (hot_sound hk)) .nil) (by simpa using hot_sound hk) (by simp)
      hM0.placed D D).2
    simpa [condEl_cap] using this
  have e3 := plate_square D
  have e4 := square_nonneg (bs := [plateBody]) (by simpa using body_sound) D
  rw [e1]
  linarith

theorem hot_runs {k : ℝ} (hk : 0 ≤ k) (f : ℝ) (loads : List (Bc ℝ)) (hload : ∀ l ∈ loads, keyOf l ∈ regKeys hotCalls) :
    ∃ seen, transientSolve Gauss.solveEquations (evolving [condEl plateGeo plateN 2 k f] [bodyEl plateGeo plateBody] (fun _ _ => ()))
      loads [] hotSettings hotCalls [] hotStorage () 3 = some (.ok (seen, 3)) ∧ seen.length = 2 :=
  C102_runs (hot_model k f loads hload).toAnyModel (by decide) (by decide) (m := 1 / 10) (by
    have : (regKeys hotCalls).toFinset.card = 4 := by decide
    rw [this]; norm_num) (hot_safe hk f)

/-- The temperatures of the plate with source 7. -/
def hotT : Nat → Key → ℝ
  | 0, _ => 20
  | 1, _ => 23.5
  | _, _ => 30.5

def hotV : Nat → Key → ℝ
  | 0, _ => 0
  | _, _ => 7

def hotA : Nat → Key → ℝ
  | 0, _ => 0
  | 1, _ => 14
  | _, _ => -14

theorem hot_history : History (regKeys hotCalls) [] 2 20 (1 / 4) (1 / 2) 1 hotT hotV hotA := by
  refine ⟨fun _ _ _ => rfl, fun _ _ => ⟨rfl, rfl⟩, fun _ _ _ _ hf => by simp [fixKeys] at hf, ?_⟩
  intro i hi k _
  interval_cases i <;> simp only [NewmarkU, newmarkV, hotT, hotV, hotA] <;> norm_num

theorem hot_clear : AllClear (regKeys hotCalls) [] hotSettings hotT hotV hotA := by
  intro i hi k _ _
  rw [hot_step]
  have hi : i < 2 := hi
  simp only [hotSettings, NotTiny]
  interval_cases i <;> simp only [hotT, hotV, hotA] <;> norm_num

/-- A uniform rate takes the source. -/
theorem uniform_rate (geo : Nat → Fin 3 → ℝ) (b : Body) {f v : ℝ} (h : b.rho * b.c * v = f) :
    capMat geo b *ᵥ (fun _ => v) = sourceVec geo b.n b.o f := by
  unfold capMat sourceVec
  generalize Iso.quad.table (Iso.schemeIndex b.o) = qs
  induction qs with
  | nil => simp
  | cons q qs ih =>
    simp only [List.map_cons, List.sum_cons, Matrix.add_mulVec]
    rw [ih]
    congr 1
    funext a
    simp only [Matrix.mulVec, dotProduct, Thermal.capPt, Thermal.loadPt, Matrix.of_apply]
    have e1 : ∀ j, Iso.quad.formFunc q.xi a * Iso.quad.formFunc q.xi j * b.rho * b.c * Thermal.wdet (plane geo b.n) q * v =
        Iso.quad.formFunc q.xi a * f * Thermal.wdet (plane geo b.n) q * Iso.quad.formFunc q.xi j := by
      intro j; rw [← h]; ring
    simp only [e1]
    rw [← Finset.mul_sum, Iso.C34_quad.sum_one]
    ring

theorem uniform_balance {geo : Nat → Fin 3 → ℝ} {b : Body} {k f v T : ℝ} (hok : b.Sound geo) (hk : 0 ≤ k) (h : b.rho * b.c * v = f)
    {S : Storage ℝ} {calls : List RegCall} (hp : Placed S calls (condEl geo b.n b.o k 0)) (k0 : Key) :
    capOn (bodyEl geo b) (fun _ => v) k0 + (condEl geo b.n b.o k f).forceOn (fun _ => T) k0 = 0 := by
  have e0 : (condEl geo b.n b.o k 0).forceOn (fun _ => T) k0 = 0 :=
    idle_force (hs := [.quad b.n b.o k 0]) (.cons (condEl_built ⟨hok.1, hk⟩) .nil) (fun y hy => by rw [List.mem_singleton.mp hy]; exact ⟨hok.1, hk⟩)
      (by simp [HeatElem.Idle]) (by simpa using hp) _ (by simp) k0
  rw [← condEl_cap geo b.n b.o k f] at e0
  have hn : (condEl geo b.n b.o k f).n = 4 := by simp [LinEl.n, condEl]
  have hn' : (bodyEl geo b).n = 4 := by simp [LinEl.n, bodyEl]
  have e1 : (condEl geo b.n b.o k f).forceOn (fun _ => T) k0 = capOn (condEl geo b.n b.o k f) (fun _ => T) k0 -
      ∑ a ∈ range 4, if localKey (List.ofFn b.n) [.TEMP] a = k0 then sourceVec geo b.n b.o f (Fin.ofNat 4 a) else 0 := by
    unfold LinEl.forceOn capOn LinEl.force
    rw [hn, ← Finset.sum_sub_distrib]
    refine Finset.sum_congr rfl fun a _ => ?_
    show (if localKey (List.ofFn b.n) [.TEMP] a = k0 then _ else _) = (if localKey (List.ofFn b.n) [.TEMP] a = k0 then _ else _) - _
    split
    · rfl
    · ring
  have e2 : capOn (bodyEl geo b) (fun _ => v) k0 =
      ∑ a ∈ range 4, if localKey (List.ofFn b.n) [.TEMP] a = k0 then sourceVec geo b.n b.o f (Fin.ofNat 4 a) else 0 := by
    unfold capOn
    rw [hn']
    refine Finset.sum_congr rfl fun a ha => ?_
    show (if localKey (List.ofFn b.n) [.TEMP] a = k0 then _ else _) = _
    split
    · have ha' := Finset.mem_range.mp ha
      have := congrFun (uniform_rate geo b h) (Fin.ofNat 4 a)
      rw [← this, Finset.sum_range]
      unfold Matrix.mulVec dotProduct
      refine Finset.sum_congr rfl fun j _ => ?_
      show Dense.ext (capMat geo b) a j.val * v = _
      unfold Dense.ext
      rw [dif_pos ⟨ha', j.2⟩]
      congr 2
      apply Fin.ext
      show a = a % 4
      omega
    · rfl
  rw [e1, e2, e0]
  ring

theorem hot_traced {k : ℝ} (hk : 0 ≤ k) :
    ∃ seen, transientSolve Gauss.solveEquations (evolving [condEl plateGeo plateN 2 k 7] [bodyEl plateGeo plateBody] (fun _ _ => ()))
      [] [] hotSettings hotCalls [] hotStorage () 3 = some (.ok (seen, 3)) ∧ seen.length = 2 ∧
      Traced (regKeys hotCalls) [] hotSettings seen hotT hotV hotA := by
  obtain ⟨seen, h1, h2⟩ := hot_runs hk 7 [] (by simp)
  refine ⟨seen, h1, h2, C102_unique (hot_model k 7 [] (by simp)) h1 ?_ ?_ hot_clear⟩
  · rw [hot_step]; exact hot_history
  · intro i hi k0 hk0 _
    have hi : i < 2 := hi
    have hb : ∀ T : ℝ, capOn (bodyEl plateGeo plateBody) (fun _ => 7) k0 + (condEl plateGeo plateN 2 k 7).forceOn (fun _ => T) k0 = 0 := fun T =>
      uniform_balance (b := plateBody) body_sound hk (by show (1 : ℝ) * 1 * 7 = 7; norm_num)
        ((hot_model k 0 [] (by simp)).placed _ (by simp [plateBody])) k0
    simp only [List.map_cons, List.map_nil, List.sum_cons, List.sum_nil, add_zero]
    show _ = (0 : ℝ)
    interval_cases i
    · exact hb 23.5
    · exact hb 30.5

/-- **The plate with a source of 7 on it**, density times specific heat 1, temperature 20 at the beginning. It is uniform, so after times 1
and 2 its temperature should be 27 and 34. The solver reports 23.5 and 30.5. -/
theorem C102_plate {k : ℝ} (hk : 0 ≤ k) :
    ∃ seen, transientSolve Gauss.solveEquations (evolving [condEl plateGeo plateN 2 k 7] [bodyEl plateGeo plateBody] (fun _ _ => ()))
      [] [] hotSettings hotCalls [] hotStorage () 3 = some (.ok (seen, 3)) ∧ seen.length = 2 ∧
      ∀ n ∈ [1, 2, 3, 4], (∀ p : Nat × ℝ × TState Unit ℝ, seen[0]? = some p → Post.solution p.2.2.S .node n .TEMP = .ok (47 / 2 : ℝ)) ∧
        ∀ p : Nat × ℝ × TState Unit ℝ, seen[1]? = some p → Post.solution p.2.2.S .node n .TEMP = .ok (61 / 2 : ℝ) := by
  obtain ⟨seen, h1, h2, ht⟩ := hot_traced hk
  have hmem : ∀ n ∈ [1, 2, 3, 4], (Side.node, n, DofType.TEMP) ∈ regKeys hotCalls := by decide
  refine ⟨seen, h1, h2, fun n hn => ⟨fun p hp => ?_, fun p hp => ?_⟩⟩
  · rw [ht.reported 0 p hp n .TEMP (hmem n hn)]
    simp only [hotT]
    norm_num
  · rw [ht.reported 1 p hp n .TEMP (hmem n hn)]
    simp only [hotT]
    norm_num

theorem AllClear.congr {regs : List Key} {fixs : List (Bc ℝ)} {st : TSettings ℝ} {T V A T' V' A' : Nat → Key → ℝ}
    (h : ∀ i ≤ st.n, ∀ k ∈ regs, T i k = T' i k ∧ V i k = V' i k ∧ A i k = A' i k) (hc : AllClear regs fixs st T' V' A') :
    AllClear regs fixs st T V A := by
  intro i hi k hk hf
  obtain ⟨e1, e2, e3⟩ := h i (by omega) k hk
  rw [e1, e2, e3]
  exact hc i hi k hk hf

/-- Every history of this run is clear. -/
theorem hot_allClear {seen : List (Nat × ℝ × TState Unit ℝ)} {T V A : Nat → Key → ℝ}
    (h' : Traced (regKeys hotCalls) [] hotSettings seen hotT hotV hotA) (h : Traced (regKeys hotCalls) [] hotSettings seen T V A) :
    AllClear (regKeys hotCalls) [] hotSettings T V A :=
  AllClear.congr (h.unique (by decide) (by show (1 / 4 : ℝ) ≠ 0; norm_num) (by show 0 < 2; norm_num) (by show (0 : ℝ) < 2; norm_num) h') hot_clear

theorem plate_gain (k f : ℝ) (T : Key → ℝ) : Supply plateGeo [] [.quad plateN 2 k f] T (f * 4) := by
  obtain ⟨g, g1, g2⟩ := Iso.C35_volume Iso.quad 2 (plane plateGeo plateN) (fun q _ => by rw [plate_jac]; simp)
  refine ⟨[f * 4], .cons ⟨g, _, g1, g2, ?_⟩ .nil, by simp⟩
  simp only [plate_jac, Matrix.det_one, mul_one]
  rw [show Iso.quad.table (Iso.schemeIndex 2) = Iso.quadO2 from rfl]
  simp only [Iso.quadO2, List.map_cons, List.map_nil, List.sum_cons, List.sum_nil]
  norm_num

/-- The hypotheses of `C102_heat_violated` are met, and no value is tiny: of a supply of 28 per time, 14 are lost. -/
example {k : ℝ} (hk : 0 ≤ k) : ∃ seen T V A, transientSolve Gauss.solveEquations
      (evolving [condEl plateGeo plateN 2 k 7] [bodyEl plateGeo plateBody] (fun _ _ => ())) [] [] hotSettings hotCalls [] hotStorage () 3 =
        some (.ok (seen, 3)) ∧ Traced (regKeys hotCalls) [] hotSettings seen T V A ∧
      heat plateGeo [plateBody] (T 2) = heat plateGeo [plateBody] (T 0) + 2 * 28 - 14 := by
  obtain ⟨seen, h1, _, ht⟩ := hot_traced hk
  obtain ⟨T, V, A, t1, t2⟩ := C102_heat_violated (hot_model k 7 [] (by simp)) gauss_exact (by rfl) (.cons (condEl_built (hot_sound hk)) .nil)
    (by simpa using hot_sound hk) (by simp [NoFilm]) (.cons (bodyEl_built body_sound) .nil) (by simpa using body_sound)
    (plate_gain k 7 fun _ => 0) (by norm_num) h1
  refine ⟨seen, T, V, A, h1, t1, ?_⟩
  have := (t2 (hot_allClear ht t1) 1 (by show 1 < 2; norm_num)).1
  rw [hot_step] at this
  rw [this]
  norm_num

/-- The first step is not trapezoidal at some node. -/
example {k : ℝ} (hk : 0 ≤ k) : ∃ seen T V A, transientSolve Gauss.solveEquations
      (evolving [condEl plateGeo plateN 2 k 7] [bodyEl plateGeo plateBody] (fun _ _ => ())) [] [] hotSettings hotCalls [] hotStorage () 3 =
        some (.ok (seen, 3)) ∧ Traced (regKeys hotCalls) [] hotSettings seen T V A ∧
      ∃ k0 ∈ regKeys hotCalls, ¬ Trapezoid [] [condEl plateGeo plateN 2 k 7] [bodyEl plateGeo plateBody] (stepOf hotSettings) (T 0) (T 1) k0 := by
  obtain ⟨seen, h1, _, ht⟩ := hot_traced hk
  have hM := hot_model k 7 [] (by simp)
  obtain ⟨T, V, A, t1, t2⟩ := C102_trapezoid_violated hM gauss_exact (by rfl) h1
  refine ⟨seen, T, V, A, h1, t1, ?_⟩
  by_contra hc
  push Not at hc
  have hz : ∀ k0 ∈ regKeys hotCalls, ([condEl plateGeo plateN 2 k 7].map fun x => x.forceOn (T 0) k0).sum = 0 := fun k0 hk0 => by
    by_contra hne
    exact t2 (hot_allClear ht t1) k0 hk0 (by simp [fixKeys]) hne (hc k0 hk0)
  obtain ⟨G, g1, g2⟩ := sum_forces (hs := [.quad plateN 2 k 7]) (.cons (condEl_built (hot_sound hk)) .nil) (by simpa using hot_sound hk)
    hM.placed (T 0)
  rw [Finset.sum_eq_zero fun k0 hk0 => hz k0 (List.mem_toFinset.mp hk0)] at g2
  have := supply_const (by simp [NoFilm]) (plate_gain k 7 (T 0)) ⟨G, g1, rfl⟩
  simp at this
  linarith

/-- A plate without source: `C102_uniform`. -/
example {k : ℝ} (hk : 0 ≤ k) :
    ∃ seen, transientSolve Gauss.solveEquations (evolving [condEl plateGeo plateN 2 k 0] [bodyEl plateGeo plateBody] (fun _ _ => ()))
      [] [] hotSettings hotCalls [] hotStorage () 3 = some (.ok (seen, 3)) ∧ seen.length = 2 ∧
      ∀ (i : Nat) (p : Nat × ℝ × TState Unit ℝ), seen[i]? = some p → ∀ m d, (Side.node, m, d) ∈ regKeys hotCalls →
        Post.solution p.2.2.S .node m d = .ok (20 : ℝ) := by
  obtain ⟨seen, h1, _⟩ := hot_runs hk 0 [] (by simp)
  have h2 := C102_uniform (hot_model k 0 [] (by simp)) (.cons (condEl_built (hot_sound hk)) .nil) (by simpa using hot_sound hk)
    (by simp [HeatElem.Idle]) (by simp) (by rw [hot_step]; right; simp only [hotSettings]; norm_num)
    (by rw [hot_step]; right; simp only [hotSettings]; norm_num) h1
  exact ⟨seen, h1, h2⟩

/-- A plate without source and a node load of each sign: the hypotheses of `C102_heat_partial` are met. -/
example {k : ℝ} (hk : 0 ≤ k) : ∃ seen T V A, transientSolve Gauss.solveEquations
      (evolving [condEl plateGeo plateN 2 k 0] [bodyEl plateGeo plateBody] (fun _ _ => ())) [⟨1, .TEMP, 5⟩, ⟨3, .TEMP, -5⟩] [] hotSettings
        hotCalls [] hotStorage () 3 = some (.ok (seen, 3)) ∧ Traced (regKeys hotCalls) [] hotSettings seen T V A ∧
      (AllClear (regKeys hotCalls) [] hotSettings T V A →
        ∀ i < 2, heat plateGeo [plateBody] (T (i + 1)) = heat plateGeo [plateBody] (T 0)) := by
  have hl : ∀ l ∈ [(⟨1, .TEMP, 5⟩ : Bc ℝ), ⟨3, .TEMP, -5⟩], keyOf l ∈ regKeys hotCalls := by
    simp only [List.forall_mem_cons, keyOf]
    exact ⟨by decide, by decide, by simp⟩
  obtain ⟨seen, h1, _⟩ := hot_runs hk 0 _ hl
  obtain ⟨T, V, A, t1, t2⟩ := C102_heat_partial (hot_model k 0 _ hl) gauss_exact (.cons (condEl_built (hot_sound hk)) .nil)
    (by simpa using hot_sound hk) (by simp [NoFilm]) (.cons (bodyEl_built body_sound) .nil) (by simpa using body_sound)
    (T0 := fun _ => 0) (by
      obtain ⟨G, g1, g2⟩ := plate_gain k 0 fun _ => 0
      refine ⟨G, g1, ?_⟩
      simp at g2 ⊢
      exact g2) h1
  exact ⟨seen, T, V, A, h1, t1, t2⟩

/-- The hypotheses of `C102_decay` are met. -/
example {k : ℝ} (hk : 0 ≤ k) : ∃ seen T V A, transientSolve Gauss.solveEquations
      (evolving [condEl plateGeo plateN 2 k 0] [bodyEl plateGeo plateBody] (fun _ _ => ())) [] [] hotSettings hotCalls [] hotStorage () 3 =
        some (.ok (seen, 3)) ∧ Traced (regKeys hotCalls) [] hotSettings seen T V A ∧ (AllClear (regKeys hotCalls) [] hotSettings T V A →
      ∀ i < 2, square plateGeo [plateBody] (T (i + 1)) ≤ square plateGeo [plateBody] (T i)) := by
  obtain ⟨seen, h1, _⟩ := hot_runs hk 0 [] (by simp)
  obtain ⟨T, V, A, t1, t2⟩ := C102_decay (hot_model k 0 [] (by simp)) gauss_exact (by rfl) (.cons (condEl_built (hot_sound hk)) .nil)
    (by simpa using hot_sound hk) (by simp) (.cons (bodyEl_built body_sound) .nil) (by simpa using body_sound) h1
  exact ⟨seen, T, V, A, h1, t1, t2⟩

end Nla3d.Trans
