import Verif.Bars.Props

/-!
# C126: the jump that a two-node interface element reports is the one it resists

Source: src/lib/elements/INTER0.cpp
-/

namespace Nla3d.Bars

open scoped Matrix

/-- `ElementINTER0::update`: the member `strains`. src/lib/elements/INTER0.cpp:56-66; the displacements of the two nodes are `u`. -/
def inter0Update (u : Fin 2 → Fin 3 → ℝ) : Fin 3 → ℝ :=
  let U : Fin 6 → ℝ := fun j => u ⟨j.val / 3, by omega⟩ ⟨j.val % 3, by omega⟩
  ![U 3 - U 0, U 4 - U 1, U 5 - U 2]

/-! ## Specification -/

/-- Displacement of the second node relative to the first. -/
def opening (u : Fin 2 → Fin 3 → ℝ) : Fin 3 → ℝ := fun i => u 1 i - u 0 i

/-- Energy of springs: `kn` against opening along the unit vector `n`, `ks` against sliding across it. -/
noncomputable def springEnergy (ks kn : ℝ) (n s : Fin 3 → ℝ) : ℝ :=
  let along := n 0 * s 0 + n 1 * s 1 + n 2 * s 2
  ks * ((s 0 - along * n 0) ^ 2 + (s 1 - along * n 1) ^ 2 + (s 2 - along * n 2) ^ 2) + kn * along ^ 2

/-! ## Proofs -/

/-- C126, the report: the jump in global axes; it is zero exactly if both nodes move alike, and a common translation does not
change it. -/
theorem C126_report (u : Fin 2 → Fin 3 → ℝ) :
    inter0Update u = opening u ∧ (inter0Update u = 0 ↔ u 0 = u 1) ∧ ∀ t : Fin 3 → ℝ, inter0Update (fun a => u a + t) = inter0Update u := by
  have h : ∀ u : Fin 2 → Fin 3 → ℝ, inter0Update u = opening u := by
    intro u
    funext i
    fin_cases i <;> rfl
  refine ⟨h u, ?_, fun t => ?_⟩
  · rw [h]
    constructor
    · intro h0
      funext i
      have := congrFun h0 i
      simp only [opening, Pi.zero_apply] at this
      linarith
    · intro h0
      funext i
      simp [opening, h0]
  · rw [h, h]
    funext i
    simp [opening]

theorem interface_energy {n : Fin 3 → ℝ} (hn : dot n n = 1) (ks kn : ℝ) (s : Fin 3 → ℝ) :
    s ⬝ᵥ (interface ks kn n *ᵥ s) = springEnergy ks kn n s := by
  have hn' : n 2 * n 2 = 1 - n 0 * n 0 - n 1 * n 1 := by simp [dot] at hn; linarith
  simp [interface, springEnergy, Matrix.mulVec, dotProduct, Fin.sum_univ_three, Matrix.vecMulVec_apply]
  simp [dot] at hn
  linear_combination (-ks * (n 0 * s 0 + n 1 * s 1 + n 2 * s 2) ^ 2) * hn

/-- C126, forces and energy, for every normal that is not along `(0, 1, 1)` (for those see `C43_violated`): the second node is loaded
by the stiffness times the reported jump, the first by the opposite; the work is the energy of the springs; the forces vanish only
with the jump. -/
theorem C126_forces_partial {n : Fin 3 → ℝ} (hn : n ≠ 0) (hp : ∀ c : ℝ, n ≠ c • diag011) (ks kn : ℝ) :
    ∃ Ke, inter0K ks kn n = some (unit n, Ke) ∧ ∀ u : Fin 2 → Fin 3 → ℝ,
      assembled Ke *ᵥ vec6 u = vec6 ![-(interface ks kn (unit n) *ᵥ inter0Update u), interface ks kn (unit n) *ᵥ inter0Update u] ∧
      vec6 u ⬝ᵥ (assembled Ke *ᵥ vec6 u) = springEnergy ks kn (unit n) (inter0Update u) ∧
      (0 < ks → 0 < kn → (assembled Ke *ᵥ vec6 u = 0 ↔ inter0Update u = 0)) := by
  obtain ⟨Ke, h1, h2, h3⟩ := C43_partial hn hp ks kn
  refine ⟨Ke, h1, fun u => ?_⟩
  have ho : inter0Update u = u 1 - u 0 := by rw [(C126_report u).1]; rfl
  have hf : assembled Ke *ᵥ vec6 u = vec6 ![-(interface ks kn (unit n) *ᵥ inter0Update u), interface ks kn (unit n) *ᵥ inter0Update u] := by
    rw [h3 u, ho, ← Matrix.mulVec_neg, neg_sub]
  have he : vec6 u ⬝ᵥ (assembled Ke *ᵥ vec6 u) = springEnergy ks kn (unit n) (inter0Update u) := by
    rw [hf, ← interface_energy h2, ho]
    generalize interface ks kn (unit n) *ᵥ (u 1 - u 0) = f
    simp [vec6, dotProduct, Fin.sum_univ_succ]
    ring
  refine ⟨hf, he, fun hs hk => ⟨fun h0 => ?_, fun h0 => ?_⟩⟩
  · rw [h0, dotProduct_zero] at he
    generalize inter0Update u = s at he
    generalize unit n = m at he
    simp only [springEnergy] at he
    set al := m 0 * s 0 + m 1 * s 1 + m 2 * s 2 with hal
    have ha : al = 0 := by
      by_contra hne
      have : 0 < kn * al ^ 2 := by positivity
      have : 0 ≤ ks * ((s 0 - al * m 0) ^ 2 + (s 1 - al * m 1) ^ 2 + (s 2 - al * m 2) ^ 2) := by positivity
      linarith
    rw [ha] at he
    have hz : s 0 ^ 2 + s 1 ^ 2 + s 2 ^ 2 = 0 := by
      have : ks * (s 0 ^ 2 + s 1 ^ 2 + s 2 ^ 2) = 0 := by linarith
      exact (mul_eq_zero.1 this).resolve_left hs.ne'
    funext i
    have : s i ^ 2 = 0 := by
      have h0 := sq_nonneg (s 0)
      have h1 := sq_nonneg (s 1)
      have h2 := sq_nonneg (s 2)
      fin_cases i <;> simp <;> nlinarith
    simpa using this
  · rw [hf, h0, Matrix.mulVec_zero]
    funext i
    fin_cases i <;> simp [vec6]

theorem unit_scaled {n : Fin 3 → ℝ} (hn : n ≠ 0) {c : ℝ} (hc : c ≠ 0) : unit (c • n) = unit n ∨ unit (c • n) = -unit n := by
  have hl := (length_pos hn).ne'
  have h : length (c • n) = |c| * length n := by
    unfold length
    have : qlength (c • n) = c ^ 2 * qlength n := by simp [qlength]; ring
    rw [this, Real.sqrt_mul (sq_nonneg c), Real.sqrt_sq_eq_abs]
  rcases lt_or_gt_of_ne hc with h0 | h0
  · right
    funext i
    simp only [unit, h, abs_of_neg h0, Pi.smul_apply, smul_eq_mul, Pi.neg_apply]
    field_simp
  · left
    funext i
    simp only [unit, h, abs_of_pos h0, Pi.smul_apply, smul_eq_mul]
    field_simp

/-- C126, the member `n`: only the line of the normal matters, neither its length nor its sign; so building a second time, with the
`n` the first time has left, gives the same equations. -/
theorem C126_line_partial {n : Fin 3 → ℝ} (hn : n ≠ 0) (hp : ∀ c : ℝ, n ≠ c • diag011) {c : ℝ} (hc : c ≠ 0) (ks kn : ℝ) :
    ∃ Ke Ke' n', inter0K ks kn n = some (unit n, Ke) ∧ inter0K ks kn (c • n) = some (n', Ke') ∧ assembled Ke' = assembled Ke ∧
      ∃ Ke'', inter0K ks kn (unit n) = some (unit n, Ke'') ∧ assembled Ke'' = assembled Ke := by
  have key : ∀ {M M' : Matrix (Fin 6) (Fin 6) ℝ} {I : Matrix (Fin 3) (Fin 3) ℝ}, Couples M I → Couples M' I → M = M' := by
    intro M M' I h h'
    apply Matrix.ext_of_mulVec_single
    intro j
    have hx : ∀ x : Fin 6 → ℝ, x = vec6 ![![x 0, x 1, x 2], ![x 3, x 4, x 5]] := by
      intro x; funext i; fin_cases i <;> simp [vec6]
    rw [hx (Pi.single j 1), h, h']
  have hpc : ∀ {c : ℝ}, c ≠ 0 → ∀ d : ℝ, c • n ≠ d • diag011 := by
    intro c hc d h
    apply hp (c⁻¹ * d)
    rw [mul_smul, ← h, smul_smul, inv_mul_cancel₀ hc, one_smul]
  have hI : ∀ {c : ℝ}, c ≠ 0 → interface ks kn (unit (c • n)) = interface ks kn (unit n) := by
    intro c hc
    rcases unit_scaled hn hc with h | h
    · rw [h]
    · rw [h]
      ext i j
      simp [interface, Matrix.vecMulVec_apply]
  obtain ⟨Ke, h1, -, h3⟩ := C43_partial hn hp ks kn
  obtain ⟨Ke', h1', -, h3'⟩ := C43_partial (smul_ne_zero hc hn) (hpc hc) ks kn
  have hl : (length n)⁻¹ ≠ 0 := inv_ne_zero (length_pos hn).ne'
  have hu : unit n = (length n)⁻¹ • n := by
    funext i
    simp [unit]
    try ring
  obtain ⟨Ke'', h1'', h2'', h3''⟩ := C43_partial (smul_ne_zero hl hn) (hpc hl) ks kn
  refine ⟨Ke, Ke', _, h1, h1', key (by rw [hI hc] at h3'; exact h3') h3, Ke'', ?_, key (by rw [hI hl] at h3''; exact h3'') h3⟩
  have hlu : length (unit n) = 1 := by
    have := (C43_partial hn hp ks kn).choose_spec.2.1
    unfold length
    rw [qlength_eq, this, Real.sqrt_one]
  have huu : unit ((length n)⁻¹ • n) = unit n := by
    rw [← hu]
    funext i
    show unit n i * (1 / length (unit n)) = unit n i
    rw [hlu, div_one, mul_one]
  rw [huu, ← hu] at h1''
  exact h1''

/-- A normal that meets the hypotheses, with an opening that the springs resist. -/
example : (![0, 0, 2] : Fin 3 → ℝ) ≠ 0 ∧ (∀ c : ℝ, (![0, 0, 2] : Fin 3 → ℝ) ≠ c • diag011) ∧
    inter0Update ![![0, 0, 0], ![1, 2, 3]] = ![1, 2, 3] ∧ springEnergy 5 7 ![0, 0, 1] ![1, 2, 3] = 88 := by
  refine ⟨fun h => ?_, fun c h => ?_, ?_, ?_⟩
  · have := congrFun h 2; simp at this
  · have h1 := congrFun h 1
    have h2 := congrFun h 2
    simp [diag011] at h1 h2
    linarith
  · rw [(C126_report _).1]
    funext i
    fin_cases i <;> simp [opening]
  · simp only [springEnergy, Matrix.cons_val_zero, Matrix.cons_val_one, Matrix.cons_val]
    norm_num

end Nla3d.Bars
