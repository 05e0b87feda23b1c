import Verif.Newton.Potential
import Verif.Iso.Props

/-!
# A case for C100: a cube held at all nodes
-/

namespace Nla3d.Newton

open Nla3d.Storage Nla3d.Dof Nla3d.Iso Nla3d.Hyper Nla3d.Material Nla3d.Solver
open Nla3d.Mixed hiding comp
open Nla3d.Struct (mpcForce)

noncomputable section

/-- The mesh: one hexahedron. -/
def cube : Storage ℝ := Storage.fresh 8 [[1, 2, 3, 4, 5, 6, 7, 8]] [] false

/-- Registrations of `cube`. -/
def cubeCalls : List RegCall :=
  [(.node, 1, [.UX, .UY, .UZ]), (.node, 2, [.UX, .UY, .UZ]), (.node, 3, [.UX, .UY, .UZ]), (.node, 4, [.UX, .UY, .UZ]),
   (.node, 5, [.UX, .UY, .UZ]), (.node, 6, [.UX, .UY, .UZ]), (.node, 7, [.UX, .UY, .UZ]), (.node, 8, [.UX, .UY, .UZ]),
   (.elem, 1, [.HYDRO_PRESSURE])]

/-- Fixes of all nodes. -/
def cubeFixs : List (Bc ℝ) := [1, 2, 3, 4, 5, 6, 7, 8].flatMap (fun n => [⟨n, .UX, 0⟩, ⟨n, .UY, 0⟩, ⟨n, .UZ, 0⟩])

/-- The unknown that is left: the pressure. -/
def pk : Key := (.elem, 1, .HYDRO_PRESSURE)

theorem cube_keys : fixKeys cubeFixs = [1, 2, 3, 4, 5, 6, 7, 8].flatMap (fun n => [(.node, n, .UX), (.node, n, .UY), (.node, n, .UZ)]) := rfl

theorem cube_free : ∀ k ∈ regKeys cubeCalls, k ∉ fixKeys cubeFixs → k = pk := by
  rw [cube_keys]
  decide

theorem lastFix_const {k : Key} {x : ℝ} (l : List (Bc ℝ)) (h : ∀ b ∈ l, b.value = x) (hk : k ∈ fixKeys l) : lastFix k l = some x := by
  obtain ⟨f, f1, f2⟩ := List.mem_map.mp hk
  have hne : (l.filter (fun b => keyOf b = k)).map Bc.value ≠ [] := by
    intro hh
    have : f ∈ l.filter (fun b => keyOf b = k) := List.mem_filter.mpr ⟨f1, decide_eq_true f2⟩
    rw [List.map_eq_nil_iff.mp hh] at this
    simp at this
  unfold lastFix
  rw [List.getLast?_eq_some_getLast hne]
  obtain ⟨b, b1, b2⟩ := List.mem_map.mp (List.getLast_mem hne)
  rw [← b2, h b (List.mem_filter.mp b1).1]

theorem cube_lastFix {k : Key} (hk : k ∈ fixKeys cubeFixs) : lastFix k cubeFixs = some 0 := by
  refine lastFix_const _ (fun b hb => ?_) hk
  obtain ⟨n, _, hn⟩ := List.mem_flatMap.mp hb
  simp only [List.mem_cons, List.not_mem_nil, or_false] at hn
  rcases hn with rfl | rfl | rfl <;> rfl

/-- The cube with a neo-Hookean material. -/
def cubeEl (g : Geom 3 8) : Hex :=
  ⟨neoHookean ![2, 1], 7, 2, affine 1 0 hexaNodes, g, List.replicate (nOfIntPoints hexa g) Point.initial, 1, ![1, 2, 3, 4, 5, 6, 7, 8]⟩

theorem cube_jac (x : Fin 3 → ℝ) : (jac hexa (affine 1 0 hexaNodes) x).det = 1 := by
  rw [jac_affine C34_hexa _ _ _ (hexa_repr x)]
  simp

/-- Its potential at rest is a parabola in the pressure. -/
theorem cube_potential (z : ℝ) : ∃ c : ℝ, ∀ p, solidPotential (neoHookean ![2, 1]) 7 z 2 (affine 1 0 hexaNodes) 0 p = c - 4 / 7 * p ^ 2 := by
  have hw : ((hexa.table (schemeIndex 2)).map (fun q => q.w)).sum = 8 := (C35_hexa_weights 2).2 (by omega)
  refine ⟨8 * energy (neoHookean ![2, 1]) 0 z 1, fun p => ?_⟩
  have e : ∀ q : QuadPt 3, q.w * (jac hexa (affine 1 0 hexaNodes) q.xi).det *
      (energy (neoHookean ![2, 1]) p z ((defGrad hexa (affine 1 0 hexaNodes) 0 q.xi).transpose *
        defGrad hexa (affine 1 0 hexaNodes) 0 q.xi) - p ^ 2 / (2 * 7)) = q.w * (energy (neoHookean ![2, 1]) 0 z 1 - p ^ 2 / 14) := by
    intro q
    have h1 : defGrad hexa (affine 1 0 hexaNodes) 0 q.xi = 1 := by
      unfold defGrad
      rw [add_zero, Matrix.nonsing_inv_mul _ (by rw [cube_jac]; exact isUnit_one), Matrix.transpose_one]
    rw [h1, cube_jac, Matrix.transpose_one, Matrix.one_mul]
    unfold energy
    simp
    left
    ring
  unfold solidPotential
  simp only [e]
  rw [List.sum_map_mul_right, hw]
  ring

theorem cube_rest : ∃ (g : Geom 3 8) (S1 : Storage ℝ) (num : Key → Nat) (s s' : NState (Group [.hex (cubeEl g)]) ℝ),
    Model cube cubeCalls [] [] cubeFixs [.hex (cubeEl g)] (fun _ _ ms => ms) ∧
    cube.prepare cubeCalls [] (fixKeys cubeFixs) = .ok S1 ∧
    (∀ k ∈ regKeys cubeCalls, S1.eqNumber k.1 k.2.1 k.2.2 = .ok (num k)) ∧
    Reached Gauss.solveEquations (hyper [.hex (cubeEl g)] (fun _ _ ms => ms)) [] cubeFixs S1 (Group.given _) s ∧
    iteration Gauss.solveEquations (hyper [.hex (cubeEl g)] (fun _ _ ms => ms)) [] cubeFixs s = .ok s' ∧
    (∀ i, 0 < i → i ≤ S1.nDofs → comp s'.deltaU i = 0) ∧
    (∀ e ∈ [El.hex (cubeEl g)], El.Sound num (comp s.S.vecU) e) ∧
    Admissible num cubeFixs s'.S.mpcs (fun i => if i = num pk then 1 else 0) := by
  have hl : LegalModel cube cubeCalls [] (fixKeys cubeFixs) := by
    rw [cube_keys]
    refine ⟨⟨?_, ?_, ?_, ?_, ?_, rfl⟩, ?_, ?_, ?_⟩
    · unfold LegalReg; decide
    · decide
    · decide
    · decide
    · intro m hm; simp [cube, Storage.fresh] at hm
    · unfold MeshOk; decide
    · intro m hm; simp [cube, Storage.fresh] at hm
    · decide
  obtain ⟨S1, num, h1, h2⟩ := prepare_small hl (by rw [cube_keys]; decide) (by decide)
  obtain ⟨A, hb⟩ := base_of_prepare hl h1 h2
  obtain ⟨g, a1, _, _⟩ := makeJacob_good (S := hexa) (o := 2) (pos := affine 1 0 hexaNodes) (fun q _ => by rw [cube_jac]; norm_num)
  have hel : S1.elements = [[1, 2, 3, 4, 5, 6, 7, 8]] := hb.prep.ready.mesh.elements
  have hm : Model cube cubeCalls [] [] cubeFixs [.hex (cubeEl g)] (fun _ _ ms => ms) := by
    refine ⟨hl, by simp, ?_, ?_, fun _ _ _ => rfl⟩
    · intro e he
      rw [List.mem_singleton] at he
      subst he
      have hmesh : OnMixed cube (regKeys cubeCalls) 1 (List.ofFn ![1, 2, 3, 4, 5, 6, 7, 8]) solidDofs :=
        ⟨rfl, by decide, by decide, by decide, by decide⟩
      exact ⟨C46_neoHookean _, hmesh, fun q _ => by
        show (jac hexa (affine 1 0 hexaNodes) q.xi).det ≠ 0
        rw [cube_jac]; norm_num, a1, by simp [cubeEl]⟩
    · intro e he
      rw [List.mem_singleton] at he
      subst he
      rfl
  have hpk : pk ∈ regKeys cubeCalls := by decide
  have hpf : pk ∉ fixKeys cubeFixs := by rw [cube_keys]; decide
  have hpr := hb.freeRange hpk hpf
  have hd : S1.nDofs = S1.nConstr + 1 := by
    by_contra hne
    have : ∀ i, S1.nConstr < i → i ≤ S1.nDofs → i = num pk := by
      intro i i1 i2
      obtain ⟨k, ⟨hk, hf⟩, he⟩ := hb.prep.ready.unk.surjOn (show i ∈ Set.Ico (S1.nConstr + 1) (S1.nDofs + 1) from ⟨by omega, by omega⟩)
      rw [cube_free k hk hf, ← hb.agree pk hpk] at he
      exact he.symm
    have e1 := this (S1.nConstr + 1) (by omega) (by omega)
    have e2 := this (S1.nConstr + 2) (by omega) (by omega)
    omega
  obtain ⟨K, F, _, hK, hF, hit⟩ := C100_newton hm gauss_exact h1 h2
  -- the pressure equation
  have hnode : ∀ (a : Fin 8) (c : Fin 3), num (.node, (![1, 2, 3, 4, 5, 6, 7, 8] : Fin 8 → Nat) a,
      (![.UX, .UY, .UZ] : Fin 3 → DofType) c) ≠ num pk := by
    intro a c hh
    have h3 : ∀ (a : Fin 8) (c : Fin 3), (Side.node, (![1, 2, 3, 4, 5, 6, 7, 8] : Fin 8 → Nat) a,
        (![.UX, .UY, .UZ] : Fin 3 → DofType) c) ∈ regKeys cubeCalls := by decide
    have := hb.inj _ (h3 a c) _ hpk hh
    simp [pk] at this
  have hdisp : ∀ x : ℝ, (cubeEl g).disp num (fun j => (0 : ℝ) + x * if j = num pk then 1 else 0) = 0 := by
    intro x
    funext a c
    exact (congrArg (fun y : ℝ => 0 + x * y) (if_neg (hnode a c))).trans (by simp)
  have hsound : ∀ x : ℝ, ∀ e ∈ [El.hex (cubeEl g)], El.Sound num (fun j => (0 : ℝ) + x * if j = num pk then 1 else 0) e := by
    intro x e he
    rw [List.mem_singleton] at he
    subst he
    intro q _
    rw [hdisp, add_zero]
    show (jac hexa (affine 1 0 hexaNodes) q.xi).det ≠ 0
    rw [cube_jac]; norm_num
  have hsum : ∀ f : Nat → ℝ, ∑ i ∈ Finset.Icc 1 S1.nDofs, f i * (if i = num pk then (1 : ℝ) else 0) = f (num pk) := by
    intro f
    rw [Finset.sum_eq_single (num pk)]
    · simp
    · intro i _ hi
      simp [hi]
    · intro hn
      exact absurd (Finset.mem_Icc.mpr ⟨by omega, hpr.2⟩) hn
  have hFp : ∀ x : ℝ, F (fun j => (0 : ℝ) + x * if j = num pk then 1 else 0) (num pk) = 8 / 7 * x := by
    intro x
    have d := hF 0 _ (fun j => if j = num pk then 1 else 0) (hsound x)
    rw [hsum] at d
    obtain ⟨c, hc⟩ := cube_potential 0
    have e : (fun s : ℝ => potentialEnergy 0 [.hex (cubeEl g)] num 0 [] (fun j => ((0 : ℝ) + x * if j = num pk then 1 else 0) +
        s * if j = num pk then 1 else 0)) = fun s => c - 4 / 7 * (x + s) ^ 2 := by
      funext s
      have e1 : (fun j => ((0 : ℝ) + x * if j = num pk then 1 else 0) + s * if j = num pk then 1 else 0) =
          fun j => (0 : ℝ) + (x + s) * if j = num pk then 1 else 0 := by
        funext j; ring
      rw [e1, ← hc (x + s)]
      simp only [potentialEnergy, List.map_cons, List.map_nil, List.sum_cons, List.sum_nil, El.potential]
      rw [hdisp]
      simp [cubeEl, pk]
    rw [e] at d
    have d2 : HasDerivAt (fun s : ℝ => c - 4 / 7 * (x + s) ^ 2) (-(4 / 7 * (2 * (x + 0) ^ (2 - 1) * 1))) 0 :=
      ((((hasDerivAt_id (0 : ℝ)).const_add x).fun_pow 2).const_mul (4 / 7)).const_sub c
    refine (neg_inj.mp (d.unique d2)).trans ?_
    rw [add_zero]
    norm_num
    ring
  have hKp : K (fun _ => 0) (num pk) (num pk) = -(8 / 7) := by
    have d := hK (fun _ => 0) (fun j => if j = num pk then 1 else 0) (by simpa using hsound 0) (num pk)
    rw [hsum] at d
    rw [funext hFp] at d
    have d2 : HasDerivAt (fun s : ℝ => 8 / 7 * s) (8 / 7 * 1) 0 := (hasDerivAt_id (0 : ℝ)).const_mul (8 / 7)
    have := d.unique d2
    linarith
  have hz : comp S1.vecU = fun _ => (0 : ℝ) := by
    funext i
    rw [hb.U]
    exact getD_replicate _ _
  have hmpc : S1.nMpc = 0 := hb.prep.ready.nMpc
  have hdofs := hb.prep.pre.dofs
  have hnum : num pk = S1.nConstr + 1 := by omega
  have hs := Reached.start (eqs := Gauss.solveEquations) (el := hyper [.hex (cubeEl g)] (fun _ _ ms => ms)) (loads := [])
    (fixs := cubeFixs) (S1 := S1) (e := Group.given [.hex (cubeEl g)]) (⟨[], [], 0, 0, 1, 1, 0, 0⟩)
  rcases hit _ hs with ⟨_, hst⟩ | ⟨s', g1, g2, g3, _⟩
  · exfalso
    rcases gauss_stops hst with hbig | ⟨i, a', hi, hre, hsm⟩
    · omega
    · obtain rfl : i = 0 := by omega
      cases hre
      have := hsm 0 (by omega) (by omega)
      simp only [zero_add] at this
      rw [← hnum] at this
      have hms : S1.mpcs = [] := List.eq_nil_of_length_eq_zero hmpc
      simp only [hms, List.flatMap_nil, matSum, add_zero] at this
      rw [hz, hKp] at this
      norm_num [Gauss.eps] at this
  · refine ⟨g, S1, num, _, s', hm, h1, h2, hs, g1, ?_, ?_, ?_, ?_⟩
    · have hfix : ∀ i, 0 < i → i ≤ S1.nConstr → comp s'.deltaU i = 0 := by
        intro i i1 i2
        obtain ⟨k, k1, k2, rfl⟩ := hb.fixOf i1 i2
        have hx : lastFix k cubeFixs = some 0 := cube_lastFix k1
        have e1 := g2.fixed k k2 0 hx
        have e2 := g2.dofs (num k) i1 (by omega)
        rw [e1, hz] at e2
        simpa using e2.symm
      intro i i1 i2
      by_cases hi : i ≤ S1.nConstr
      · exact hfix i i1 hi
      · obtain rfl : i = num pk := by omega
        have e := g2.free pk hpk hpf
        have hF0 := hFp 0
        have ez : (fun j => (0 : ℝ) + 0 * if j = num pk then (1 : ℝ) else 0) = fun _ => 0 := by funext j; simp
        rw [ez] at hF0
        rw [hz, hF0, Finset.sum_eq_single (num pk), hKp] at e
        · have hmf : mpcForce s'.S.mpcs (comp s'.S.vecU) pk = 0 := by
            unfold mpcForce pk
            simp
          rw [hmf] at e
          simp [loadsOn] at e
          exact e
        · intro j hj hne
          have hj' := Finset.mem_Icc.mp hj
          rw [hfix j (by omega) (by omega), mul_zero]
        · intro hn
          exact absurd (Finset.mem_Icc.mpr ⟨by omega, by omega⟩) hn
    · simpa [hz] using hsound 0
    · intro k hk
      rw [if_neg]
      intro hh
      obtain ⟨f, hf, rfl⟩ := List.mem_map.mp hk
      exact hpf (hb.inj _ (hb.fixes f hf) _ hpk hh ▸ hk)
    · intro m hm
      have hms : s'.S.mpcs.length = 0 := by rw [g3.length]; exact hmpc
      rw [List.eq_nil_of_length_eq_zero hms] at hm
      simp at hm

/-! The cube meets the hypotheses of C100 with an admissible direction that is not zero. -/
example : ∃ (els : List El) (S1 : Storage ℝ) (num : Key → Nat) (s s' : NState (Group els) ℝ) (v : Nat → ℝ),
    Model cube cubeCalls [] [] cubeFixs els (fun _ _ ms => ms) ∧
    cube.prepare cubeCalls [] (fixKeys cubeFixs) = .ok S1 ∧
    (∀ k ∈ regKeys cubeCalls, S1.eqNumber k.1 k.2.1 k.2.2 = .ok (num k)) ∧ Exact (Gauss.solveEquations (K := ℝ)) ∧
    Reached Gauss.solveEquations (hyper els (fun _ _ ms => ms)) [] cubeFixs S1 (Group.given _) s ∧
    iteration Gauss.solveEquations (hyper els (fun _ _ ms => ms)) [] cubeFixs s = .ok s' ∧
    (∀ i, 0 < i → i ≤ S1.nDofs → comp s'.deltaU i = 0) ∧ (∀ e ∈ els, El.Sound num (comp s.S.vecU) e) ∧
    Admissible num cubeFixs s'.S.mpcs v ∧ v (num pk) = 1 := by
  obtain ⟨g, S1, num, s, s', h1, h2, h3, h4, h5, h6, h7, h8⟩ := cube_rest
  exact ⟨_, S1, num, s, s', _, h1, h2, h3, gauss_exact, h4, h5, h6, h7, h8, if_pos rfl⟩

end

end Nla3d.Newton
