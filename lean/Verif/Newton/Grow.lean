import Verif.Newton.Firm
import Verif.Newton.Rest

/-!
# A case for C114: a cube that is blown up to twice its size
-/

namespace Nla3d.Newton

open Nla3d.Storage Nla3d.Dof Nla3d.Iso Nla3d.Hyper Nla3d.Material Nla3d.Solver Nla3d.TimeCtl
open Nla3d.Mixed hiding comp
open Nla3d.Struct (mpcForce)

noncomputable section

/-- The displacements of the nodes of `cube`. -/
def growKeys : List Key := [1, 2, 3, 4, 5, 6, 7, 8].flatMap (fun n => [(.node, n, .UX), (.node, n, .UY), (.node, n, .UZ)])

/-- Their prescribed values: the coordinates of the nodes. -/
def growVal (k : Key) : ℝ :=
  hexaNodes (if h : k.2.1 - 1 < 8 then ⟨k.2.1 - 1, h⟩ else 0) (match k.2.2 with | .UX => 0 | .UY => 1 | _ => 2)

/-- The prescribed displacements. -/
def growFixs : List (Bc ℝ) := growKeys.map fun k => ⟨k.2.1, k.2.2, growVal k⟩

theorem grow_keys : fixKeys growFixs = growKeys := rfl

theorem grow_val (a : Fin 8) (c : Fin 3) : growVal (.node, (![1, 2, 3, 4, 5, 6, 7, 8] : Fin 8 → Nat) a,
    (![.UX, .UY, .UZ] : Fin 3 → DofType) c) = hexaNodes a c := by
  fin_cases a <;> fin_cases c <;> rfl

theorem grow_lastFix {k : Key} (hk : k ∈ growKeys) : lastFix k growFixs = some (growVal k) := by
  have hn : ∀ k ∈ growKeys, k.1 = .node := by decide
  have hne : (growFixs.filter (fun b => keyOf b = k)).map Bc.value ≠ [] := by
    intro hh
    have hm : (⟨k.2.1, k.2.2, growVal k⟩ : Bc ℝ) ∈ growFixs.filter (fun b => keyOf b = k) := by
      refine List.mem_filter.mpr ⟨List.mem_map.mpr ⟨k, hk, rfl⟩, decide_eq_true ?_⟩
      obtain ⟨a, n, t⟩ := k
      have : a = .node := hn _ hk
      subst this
      rfl
    rw [List.map_eq_nil_iff.mp hh] at hm
    simp at hm
  unfold lastFix
  rw [List.getLast?_eq_some_getLast hne]
  obtain ⟨b, b1, b2⟩ := List.mem_map.mp (List.getLast_mem hne)
  obtain ⟨b3, b4⟩ := List.mem_filter.mp b1
  obtain ⟨k', k1, rfl⟩ := List.mem_map.mp b3
  rw [← b2]
  have : k' = k := by
    have h1 := of_decide_eq_true b4
    obtain ⟨a, n, t⟩ := k'
    have : a = .node := hn _ k1
    subst this
    exact h1
  rw [this]

theorem grow_free : ∀ k ∈ regKeys cubeCalls, k ∉ growKeys → k = pk := by decide

/-- Node positions after the growth. -/
theorem grow_pos (x : ℝ) : (affine 1 0 hexaNodes : Fin 8 → Fin 3 → ℝ) + (fun a c => x * hexaNodes a c) =
    affine ((1 + x) • (1 : Matrix (Fin 3) (Fin 3) ℝ)) 0 hexaNodes := by
  funext a c
  simp [affine, Matrix.smul_mulVec]
  ring

theorem grow_jac (x : ℝ) (y : Fin 3 → ℝ) :
    jac hexa ((affine 1 0 hexaNodes : Fin 8 → Fin 3 → ℝ) + (fun a c => x * hexaNodes a c)) y = (1 + x) • 1 := by
  rw [grow_pos, jac_affine C34_hexa _ _ _ (hexa_repr y)]
  simp

/-- The potential of the grown cube. -/
theorem grow_potential (z x : ℝ) (hx : -1 < x) : ∃ c : ℝ, ∀ p, solidPotential (neoHookean ![2, 1]) 7 z 2 (affine 1 0 hexaNodes)
    (fun a c => x * hexaNodes a c) p = c + 8 * p * ((1 + x) ^ 3 - 1) - 4 / 7 * p ^ 2 := by
  have hw : ((hexa.table (schemeIndex 2)).map (fun q => q.w)).sum = 8 := (C35_hexa_weights 2).2 (by omega)
  have hdet : √(((1 + x) • (1 : Mat3)).transpose * ((1 + x) • (1 : Mat3))).det = (1 + x) ^ 3 := by
    rw [Matrix.det_mul, Matrix.det_transpose, Matrix.det_smul, Matrix.det_one, mul_one, Fintype.card_fin]
    exact Real.sqrt_mul_self (by have : 0 < 1 + x := by linarith
                                 positivity)
  refine ⟨8 * energy (neoHookean ![2, 1]) 0 z (((1 + x) • (1 : Mat3)).transpose * ((1 + x) • (1 : Mat3))), fun p => ?_⟩
  have e : ∀ q : QuadPt 3, q.w * (jac hexa (affine 1 0 hexaNodes) q.xi).det *
      (energy (neoHookean ![2, 1]) p z ((defGrad hexa (affine 1 0 hexaNodes) (fun a c => x * hexaNodes a c) q.xi).transpose *
        defGrad hexa (affine 1 0 hexaNodes) (fun a c => x * hexaNodes a c) q.xi) - p ^ 2 / (2 * 7)) =
      q.w * (energy (neoHookean ![2, 1]) 0 z (((1 + x) • (1 : Mat3)).transpose * ((1 + x) • (1 : Mat3))) +
        p * ((1 + x) ^ 3 - 1) - p ^ 2 / 14) := by
    intro q
    have h1 : defGrad hexa (affine 1 0 hexaNodes) (fun a c => x * hexaNodes a c) q.xi = (1 + x) • 1 := by
      unfold defGrad
      have h0 : jac hexa (affine 1 0 hexaNodes) q.xi = 1 := by
        rw [jac_affine C34_hexa _ _ _ (hexa_repr q.xi)]; simp
      rw [grow_jac, h0, inv_one, Matrix.one_mul]
      simp
    rw [h1, cube_jac]
    unfold energy
    simp only [hdet]
    ring
  unfold solidPotential
  simp only [e]
  rw [List.sum_map_mul_right, hw]
  ring

/-- The cube that grows meets the hypotheses of C114: there is a path of regular equilibria, along which all nodes move outwards and
the pressure rises from 0 to 49. They are firm with margin 1. -/
theorem grow_path : ∃ (els : List El) (S1 : Storage ℝ) (num : Key → Nat) (K : (Nat → ℝ) → Nat → Nat → ℝ) (F : (Nat → ℝ) → Nat → ℝ)
    (u : ℝ → Nat → ℝ), Model cube cubeCalls [] [] growFixs els (same els) ∧ cube.prepare cubeCalls [] (fixKeys growFixs) = .ok S1 ∧
    (∀ k ∈ regKeys cubeCalls, S1.eqNumber k.1 k.2.1 k.2.2 = .ok (num k)) ∧ (∀ e ∈ els, e.Smooth) ∧ (∀ m ∈ S1.mpcs, m.b = 0) ∧
    Tangent S1 num els K F ∧
    (∀ t ∈ Set.Icc (0 : ℝ) 1, Equilibrium K F S1 (regKeys cubeCalls) num [] growFixs els t (u t)) ∧
    (∀ i, 0 < i → i ≤ S1.nDofs → ContinuousOn (fun t => u t i) (Set.Icc 0 1)) ∧
    (∀ i, 0 < i → i ≤ S1.nDofs → u 0 i = 0) ∧ u 1 (num pk) = 49 ∧ u 1 (num (.node, 7, .UX)) = 1 ∧
    (∀ t ∈ Set.Icc (0 : ℝ) 1, Firm K S1 (regKeys cubeCalls) num growFixs 1 (u t)) ∧ S1.nUnknown + S1.nMpc < 1000 := by
  have hl : LegalModel cube cubeCalls [] (fixKeys growFixs) := by
    rw [grow_keys]
    refine ⟨⟨?_, ?_, ?_, ?_, ?_, rfl⟩, ?_, ?_, ?_⟩
    · unfold LegalReg; decide
    · decide
    · decide
    · decide
    · intro m hm; simp [cube, Storage.fresh] at hm
    · unfold MeshOk; decide
    · intro m hm; simp [cube, Storage.fresh] at hm
    · decide
  obtain ⟨S1, num, h1, h2⟩ := prepare_small hl (by rw [grow_keys]; decide) (by decide)
  obtain ⟨A, hb⟩ := base_of_prepare hl h1 h2
  obtain ⟨g, a1, _, _⟩ := makeJacob_good (S := hexa) (o := 2) (pos := affine 1 0 hexaNodes) (fun q _ => by rw [cube_jac]; norm_num)
  have hm : Model cube cubeCalls [] [] growFixs [.hex (cubeEl g)] (same _) := by
    refine ⟨hl, by simp, ?_, ?_, fun _ _ _ => rfl⟩
    · intro e he
      rw [List.mem_singleton] at he
      subst he
      have hmesh : OnMixed cube (regKeys cubeCalls) 1 (List.ofFn ![1, 2, 3, 4, 5, 6, 7, 8]) solidDofs :=
        ⟨rfl, by decide, by decide, by decide, by decide⟩
      exact ⟨C46_neoHookean _, hmesh, fun q _ => by
        show (jac hexa (affine 1 0 hexaNodes) q.xi).det ≠ 0
        rw [cube_jac]; norm_num, a1, by simp [cubeEl]⟩
    · intro e he
      rw [List.mem_singleton] at he
      subst he
      rfl
  have hpk : pk ∈ regKeys cubeCalls := by decide
  have hpf : pk ∉ fixKeys growFixs := by rw [grow_keys]; decide
  have hpr := hb.freeRange hpk hpf
  have hreg : ∀ k ∈ growKeys, k ∈ regKeys cubeCalls := by decide
  have hd : S1.nDofs = S1.nConstr + 1 := by
    by_contra hne
    have : ∀ i, S1.nConstr < i → i ≤ S1.nDofs → i = num pk := by
      intro i i1 i2
      obtain ⟨k, hk, hf, rfl⟩ := Struct.num_onto hb i1 i2
      rw [grow_free k hk hf]
    have e1 := this (S1.nConstr + 1) (by omega) (by omega)
    have e2 := this (S1.nConstr + 2) (by omega) (by omega)
    omega
  have hmpc : S1.nMpc = 0 := hb.prep.ready.nMpc
  have hms : S1.mpcs = [] := List.eq_nil_of_length_eq_zero hmpc
  have hmf : ∀ v : Nat → ℝ, mpcForce S1.mpcs v pk = 0 := fun v => by unfold mpcForce; rw [hms]; simp
  obtain ⟨K, F, hT⟩ := C114_tangent hm h1 h2
  -- the directions
  classical
  let w : Nat → ℝ := fun i => if h : ∃ k ∈ growKeys, num k = i then growVal h.choose else 0
  have hw : ∀ k ∈ growKeys, w (num k) = growVal k := by
    intro k hk
    have h : ∃ k' ∈ growKeys, num k' = num k := ⟨k, hk, rfl⟩
    show (if h : ∃ k' ∈ growKeys, num k' = num k then growVal h.choose else 0) = _
    rw [dif_pos h, hb.inj _ (hreg _ h.choose_spec.1) _ (hreg k hk) h.choose_spec.2]
  have hwp : w (num pk) = 0 := by
    refine dif_neg ?_
    rintro ⟨k, hk, hh⟩
    exact hpf (by rw [grow_keys, ← hb.inj _ (hreg k hk) _ hpk hh]; exact hk)
  let at' : ℝ → ℝ → Nat → ℝ := fun x p j => x * w j + p * if j = num pk then 1 else 0
  have hnode : ∀ k ∈ growKeys, num k ≠ num pk := by
    intro k hk hh
    exact hpf (by rw [grow_keys, ← hb.inj _ (hreg k hk) _ hpk hh]; exact hk)
  have hatk : ∀ x p, ∀ k ∈ growKeys, at' x p (num k) = x * growVal k := by
    intro x p k hk
    show x * w (num k) + p * (if num k = num pk then 1 else 0) = _
    rw [hw k hk, if_neg (hnode k hk), mul_zero, add_zero]
  have hatp : ∀ x p, at' x p (num pk) = p := by
    intro x p
    show x * w (num pk) + p * (if num pk = num pk then 1 else 0) = _
    rw [hwp, if_pos rfl]; ring
  have hmem : ∀ (a : Fin 8) (c : Fin 3), (Side.node, (![1, 2, 3, 4, 5, 6, 7, 8] : Fin 8 → Nat) a,
        (![.UX, .UY, .UZ] : Fin 3 → DofType) c) ∈ growKeys := by decide
  have hdisp : ∀ x p, (cubeEl g).disp num (at' x p) = fun a c => x * hexaNodes a c := by
    intro x p
    funext a c
    exact (hatk x p _ (hmem a c)).trans (by rw [grow_val])
  have hsound : ∀ x p, 0 ≤ x → ∀ e ∈ [El.hex (cubeEl g)], El.Sound num (at' x p) e := by
    intro x p hx e he
    rw [List.mem_singleton] at he
    subst he
    intro q _
    rw [hdisp]
    show (jac hexa ((affine 1 0 hexaNodes : Fin 8 → Fin 3 → ℝ) + _) q.xi).det ≠ 0
    rw [grow_jac, Matrix.det_smul, Matrix.det_one, mul_one]
    have : 0 < 1 + x := by linarith
    positivity
  have hline : ∀ x p s, (fun j => at' x p j + s * if j = num pk then (1 : ℝ) else 0) = at' x (p + s) := by
    intro x p s
    funext j
    show x * w j + p * (if j = num pk then (1 : ℝ) else 0) + s * (if j = num pk then 1 else 0) = x * w j + (p + s) * if j = num pk then 1 else 0
    ring
  have hsum : ∀ f : Nat → ℝ, ∑ i ∈ Finset.Icc 1 (S1.nDofs + S1.nMpc), f i * (if i = num pk then (1 : ℝ) else 0) = f (num pk) := by
    intro f
    rw [Finset.sum_eq_single (num pk)]
    · simp
    · intro i _ hi
      simp [hi]
    · intro hn
      exact absurd (Finset.mem_Icc.mpr ⟨by omega, by omega⟩) hn
  have hFp : ∀ x p, 0 ≤ x → F (at' x p) (num pk) = 8 / 7 * p - 8 * ((1 + x) ^ 3 - 1) := by
    intro x p hx
    have d := hT.force 0 _ (fun j => if j = num pk then 1 else 0) (hsound x p hx)
    rw [hsum] at d
    obtain ⟨c, hc⟩ := grow_potential 0 x (by linarith)
    have e : (fun s : ℝ => ([El.hex (cubeEl g)].map (El.potential 0 num (fun j => at' x p j + s * if j = num pk then 1 else 0))).sum) =
        fun s => c + 8 * (p + s) * ((1 + x) ^ 3 - 1) - 4 / 7 * (p + s) ^ 2 := by
      funext s
      rw [hline, ← hc (p + s)]
      simp only [List.map_cons, List.map_nil, List.sum_cons, List.sum_nil, El.potential, add_zero]
      rw [hdisp]
      have : at' x (p + s) (num (.elem, (cubeEl g).en, .HYDRO_PRESSURE)) = p + s := hatp x (p + s)
      rw [this]
      rfl
    rw [e] at d
    have d2 : HasDerivAt (fun s : ℝ => c + 8 * (p + s) * ((1 + x) ^ 3 - 1) - 4 / 7 * (p + s) ^ 2)
        (8 * 1 * ((1 + x) ^ 3 - 1) - 4 / 7 * (2 * (p + 0) ^ (2 - 1) * 1)) 0 :=
      (((((hasDerivAt_id (0 : ℝ)).const_add p).const_mul 8).mul_const _).const_add c).sub
        ((((hasDerivAt_id (0 : ℝ)).const_add p).fun_pow 2).const_mul (4 / 7))
    have := d.unique d2
    rw [add_zero] at this
    norm_num at this
    linarith
  have hKp : ∀ x p, 0 ≤ x → K (at' x p) (num pk) (num pk) = -(8 / 7) := by
    intro x p hx
    have d := hT.tangent _ (fun j => if j = num pk then 1 else 0) (hsound x p hx) (num pk) (by omega) (by omega)
    rw [hsum] at d
    have e : (fun s : ℝ => F (fun j => at' x p j + s * if j = num pk then 1 else 0) (num pk)) =
        fun s => 8 / 7 * (p + s) - 8 * ((1 + x) ^ 3 - 1) := by
      funext s
      rw [hline, hFp _ _ hx]
    rw [e] at d
    have d2 : HasDerivAt (fun s : ℝ => 8 / 7 * (p + s) - 8 * ((1 + x) ^ 3 - 1)) (8 / 7 * 1) 0 :=
      (((hasDerivAt_id (0 : ℝ)).const_add p).const_mul (8 / 7)).sub_const _
    have := d.unique d2
    linarith
  have hfirm : ∀ x p, 0 ≤ x → Firm K S1 (regKeys cubeCalls) num growFixs 1 (at' x p) := by
    intro x p hx v v1 _ v3 i i1 i2
    have hfix : ∀ i, 0 < i → i ≤ S1.nConstr → v i = 0 := by
      intro i i1 i2
      obtain ⟨k, k1, k2, rfl⟩ := hb.fixOf i1 i2
      exact v1 k k2 k1
    by_cases hi : i ≤ S1.nConstr
    · rw [hfix i i1 hi, abs_zero]
      exact one_pos
    · obtain rfl : i = num pk := by omega
      have := v3 pk hpk hpf
      rw [hmf, Finset.sum_eq_single (num pk), hKp _ _ hx, add_zero, abs_mul] at this
      · norm_num at this
        linarith [abs_nonneg (v (num pk))]
      · intro j hj hne
        have hj' := Finset.mem_Icc.mp hj
        rw [hfix j (by omega) (by omega), mul_zero]
      · intro hn
        exact absurd (Finset.mem_Icc.mpr ⟨by omega, by omega⟩) hn
  refine ⟨_, S1, num, K, F, fun t => at' t (7 * ((1 + t) ^ 3 - 1)), hm, h1, h2, ?_, by simp [hms], hT, ?_, ?_, ?_, ?_, ?_,
    fun t ht => hfirm _ _ ht.1, ?_⟩
  · intro e he
    rw [List.mem_singleton] at he
    subst he
    exact smooth_neoHookean _
  · intro t ht
    beta_reduce
    refine ⟨hsound _ _ ht.1, ?_, ?_, ?_, ?_⟩
    · intro k _ x hx
      have hk : k ∈ growKeys := by
        rw [← grow_keys]
        exact lastFix_isSome.mp (by rw [hx]; rfl)
      rw [grow_lastFix hk, Option.some.injEq] at hx
      rw [hatk _ _ k hk, hx]
    · intro k hk hf
      rw [grow_free k hk hf, hmf, hFp _ _ ht.1]
      simp [loadsOn]
      ring
    · intro m hmm
      rw [hms] at hmm
      simp at hmm
    · exact (hfirm _ _ ht.1).regular one_pos
  · intro i _ _
    have : Continuous fun t : ℝ => t * w i + 7 * ((1 + t) ^ 3 - 1) * (if i = num pk then (1 : ℝ) else 0) := by fun_prop
    exact this.continuousOn
  · intro i _ _
    show 0 * w i + 7 * ((1 + 0) ^ 3 - 1) * (if i = num pk then (1 : ℝ) else 0) = 0
    simp
  · show at' 1 (7 * ((1 + 1) ^ 3 - 1)) (num pk) = 49
    rw [hatp]
    norm_num
  · show at' 1 (7 * ((1 + 1) ^ 3 - 1)) (num (.node, 7, .UX)) = 1
    rw [hatk _ _ _ (by decide), one_mul]
    exact (grow_val 6 0).trans (by simp [hexaNodes])
  · have := hb.prep.pre.dofs
    omega

/-! The hypotheses of the theorems of C114 together, with Gauss elimination and the default settings. -/
example : ∃ (els : List El) (S1 : Storage ℝ) (num : Key → Nat) (K : (Nat → ℝ) → Nat → Nat → ℝ) (F : (Nat → ℝ) → Nat → ℝ)
    (u : ℝ → Nat → ℝ), Model cube cubeCalls [] [] growFixs els (same els) ∧ Exact (Gauss.solveEquations (K := ℝ)) ∧
    cube.prepare cubeCalls [] (fixKeys growFixs) = .ok S1 ∧
    (∀ k ∈ regKeys cubeCalls, S1.eqNumber k.1 k.2.1 k.2.2 = .ok (num k)) ∧ (∀ e ∈ els, e.Smooth) ∧ (∀ m ∈ S1.mpcs, m.b = 0) ∧
    Tangent S1 num els K F ∧
    (∀ t ∈ Set.Icc (0 : ℝ) 1, Equilibrium K F S1 (regKeys cubeCalls) num [] growFixs els t (u t)) ∧
    (∀ i, 0 < i → i ≤ S1.nDofs → ContinuousOn (fun t => u t i) (Set.Icc 0 1)) ∧
    (∀ i, 0 < i → i ≤ S1.nDofs → u 0 i = 0) ∧ u 1 (num pk) = 49 ∧ u 1 (num (.node, 7, .UX)) = 1 ∧
    (∀ t ∈ Set.Icc (0 : ℝ) 1, Firm K S1 (regKeys cubeCalls) num growFixs 1 (u t)) ∧ S1.nUnknown + S1.nMpc < 1000 := by
  obtain ⟨els, S1, num, K, F, u, h1, h2, h3, h4, h5, h6, h7, h8, h9, h10, h11, h12, h13⟩ := grow_path
  exact ⟨els, S1, num, K, F, u, h1, gauss_exact, h2, h3, h4, h5, h6, h7, h8, h9, h10, h11, h12, h13⟩

/-! What C114 says of the growing cube: with enough load steps the computed pressure is as near to 49 as is wanted. -/
example (ε : ℝ) (hε : 0 < ε) : ∃ (els : List El) (p : Nat), ∃ n₀ > 0, ∀ n ≥ n₀, n < 65536 → ∃ s ns,
    nonlinearSolve Gauss.solveEquations (hyper els (same els)) [] growFixs ⟨15, n, 1 / 1000⟩ (TimeControl.fresh.setEndTime 1)
      cubeCalls [] cube (Group.given els) 15 (n + 1) = some (.ok (s, ns)) ∧ |comp s.S.vecU p - 49| ≤ ε := by
  obtain ⟨els, S1, num, K, F, u, h1, h2, h3, h4, h5, h6, h7, h8, h9, h10, _, h12, h13⟩ := grow_path
  obtain ⟨n₀, hn₀, h⟩ := C114_gauss h1 h2 h3 h4 h5 h13 h6 (by norm_num) (fun t ht => (h7 t ht).sound) (fun t ht => (h7 t ht).fixed)
    (fun t ht => (h7 t ht).free) (fun t ht => (h7 t ht).kept) h12 h8 h9 (cc := 1 / 1000) (by norm_num) hε
  obtain ⟨A, hb⟩ := base_of_prepare h1.legal h2 h3
  have hp : pk ∈ regKeys cubeCalls := by decide
  have hr := hb.freeRange hp (by rw [grow_keys]; decide)
  refine ⟨els, num pk, n₀, hn₀, fun n hn _ => ?_⟩
  obtain ⟨s, g1, g2⟩ := h n 15 1 15 (n + 1) hn (by norm_num) one_pos (by norm_num) (by omega)
  refine ⟨s, _, g1, ?_⟩
  have := g2 (num pk) (by omega) (by omega)
  rwa [h10] at this

end

end Nla3d.Newton
