import Mathlib.Analysis.Calculus.MeanValue
import Mathlib.Analysis.Calculus.LocalExtr.Rolle
import Mathlib.Analysis.Calculus.Deriv.MeanValue
import Mathlib.Analysis.Normed.Module.FiniteDimension

/-!
# One step of Newton's method close to a regular solution

Unknowns are numbered from 1. `1..C` have prescribed values, `C+1..D` are free, `D+1..N` are multipliers of constant linear
constraints with the matrix `M`.
-/

namespace Nla3d.Newton

open Filter Topology

noncomputable section

/-- The points near `u₀` that differ from it only in the coordinates `1..D`. -/
def near (D : Nat) (u₀ : Nat → ℝ) (x : Fin D → ℝ) : Nat → ℝ := fun j =>
  u₀ j + if h : 0 < j ∧ j ≤ D then x ⟨j - 1, by omega⟩ else 0

theorem near_continuous (D : Nat) (u₀ : Nat → ℝ) : Continuous (near D u₀) := by
  refine continuous_pi fun j => ?_
  unfold near
  by_cases h : 0 < j ∧ j ≤ D
  · simp only [dif_pos h]
    exact continuous_const.add (continuous_apply _)
  · simp only [dif_neg h]
    exact continuous_const

theorem near_zero (D : Nat) (u₀ : Nat → ℝ) : near D u₀ 0 = u₀ := by
  funext j
  unfold near
  split <;> simp

/-- What holds in a neighbourhood holds at all points that differ little in the coordinates `1..D` and not at all in others. -/
theorem near_of_eventually {D : Nat} {u₀ : Nat → ℝ} {P : (Nat → ℝ) → Prop} (h : ∀ᶠ u in 𝓝 u₀, P u) :
    ∃ r > 0, ∀ u : Nat → ℝ, (∀ j, 0 < j → j ≤ D → |u j - u₀ j| ≤ r) → (∀ j, ¬ (0 < j ∧ j ≤ D) → u j = u₀ j) → P u := by
  have h0 : Tendsto (near D u₀) (𝓝 0) (𝓝 u₀) := by
    have := (near_continuous D u₀).tendsto 0
    rwa [near_zero] at this
  obtain ⟨r, hr, hb⟩ := Metric.eventually_nhds_iff.mp (h0.eventually h)
  refine ⟨r / 2, by positivity, fun u h1 h2 => ?_⟩
  have : u = near D u₀ (fun i => u (i.val + 1) - u₀ (i.val + 1)) := by
    funext j
    unfold near
    by_cases hj : 0 < j ∧ j ≤ D
    · rw [dif_pos hj]
      simp only [Nat.sub_add_cancel hj.1]
      ring
    · rw [dif_neg hj, h2 j hj, add_zero]
  rw [this]
  apply hb
  rw [dist_zero_right]
  refine lt_of_le_of_lt ((pi_norm_le_iff_of_nonneg (by positivity : (0 : ℝ) ≤ r / 2)).mpr fun i => ?_) (by linarith : r / 2 < r)
  rw [Real.norm_eq_abs]
  exact h1 _ (by omega) (by have := i.isLt; omega)

/-- Mean value along the segment to the solution. -/
theorem mean_value {N : Nat} {K : (Nat → ℝ) → Nat → Nat → ℝ} {F : (Nat → ℝ) → Nat → ℝ} {u v : Nat → ℝ} {i : Nat}
    (hd : ∀ s ∈ Set.Icc (0 : ℝ) 1, ∀ w : Nat → ℝ, HasDerivAt (fun x : ℝ => F (fun j => (u j + s * (v j - u j)) + x * w j) i)
      (-∑ j ∈ Finset.Icc 1 N, K (fun j => u j + s * (v j - u j)) i j * w j) 0) :
    ∃ s ∈ Set.Icc (0 : ℝ) 1, F u i - F v i = ∑ j ∈ Finset.Icc 1 N, K (fun j => u j + s * (v j - u j)) i j * (v j - u j) := by
  have hder : ∀ s ∈ Set.Icc (0 : ℝ) 1, HasDerivAt (fun s : ℝ => F (fun j => u j + s * (v j - u j)) i)
      (-∑ j ∈ Finset.Icc 1 N, K (fun j => u j + s * (v j - u j)) i j * (v j - u j)) s := by
    intro s hs
    have h1 := hd s hs (fun j => v j - u j)
    have h2 : HasDerivAt (fun x : ℝ => x - s) 1 s := (hasDerivAt_id s).sub_const s
    have h1' : HasDerivAt (fun x : ℝ => F (fun j => (u j + s * (v j - u j)) + x * (v j - u j)) i)
        (-∑ j ∈ Finset.Icc 1 N, K (fun j => u j + s * (v j - u j)) i j * (v j - u j)) ((fun x : ℝ => x - s) s) := by
      simpa using h1
    have h3 := HasDerivAt.comp (h₂ := fun x : ℝ => F (fun j => (u j + s * (v j - u j)) + x * (v j - u j)) i) (h := fun x : ℝ => x - s) s h1' h2
    rw [mul_one] at h3
    refine h3.congr_of_eventuallyEq (Eventually.of_forall fun x => ?_)
    show F _ i = F _ i
    congr 1
    funext j
    ring
  obtain ⟨s, hs, he⟩ := exists_hasDerivAt_eq_slope (fun s : ℝ => F (fun j => u j + s * (v j - u j)) i) _ (zero_lt_one)
    (fun s hs => (hder s hs).continuousAt.continuousWithinAt) (fun s hs => hder s ⟨hs.1.le, hs.2.le⟩)
  refine ⟨s, ⟨hs.1.le, hs.2.le⟩, ?_⟩
  have e1 : (fun j => u j + (1 : ℝ) * (v j - u j)) = v := by funext j; ring
  have e0 : (fun j => u j + (0 : ℝ) * (v j - u j)) = u := by funext j; ring
  simp only [e1, e0, sub_zero, div_one] at he
  linarith

/-- A nonsingular matrix stays away from zero. -/
theorem below {n : Nat} (A : Fin n → Fin n → ℝ) (h : ∀ x : Fin n → ℝ, (∀ i, ∑ j, A i j * x j = 0) → x = 0) :
    ∃ κ > 0, ∀ x : Fin n → ℝ, κ * ‖x‖ ≤ ‖fun i => ∑ j, A i j * x j‖ := by
  let L : (Fin n → ℝ) →ₗ[ℝ] (Fin n → ℝ) := {
    toFun := fun x i => ∑ j, A i j * x j
    map_add' := fun x y => by funext i; simp [mul_add, Finset.sum_add_distrib]
    map_smul' := fun c x => by
      funext i
      simp only [Pi.smul_apply, smul_eq_mul, RingHom.id_apply, Finset.mul_sum]
      exact Finset.sum_congr rfl fun j _ => by ring }
  have hk : LinearMap.ker L = ⊥ := by
    rw [LinearMap.ker_eq_bot']
    intro x hx
    exact h x fun i => congrFun hx i
  obtain ⟨κ, hκ, ha⟩ := L.exists_antilipschitzWith hk
  refine ⟨(κ : ℝ)⁻¹, by positivity, fun x => ?_⟩
  have := ha.le_mul_dist x 0
  rw [map_zero, dist_zero_right, dist_zero_right] at this
  rw [inv_mul_le_iff₀ (by exact_mod_cast hκ)]
  exact this

/-- Sums over free unknowns and multipliers. -/
theorem sum_free {C N : Nat} (f w : Nat → ℝ) (hw : ∀ j, 0 < j → j ≤ C → w j = 0) :
    ∑ j ∈ Finset.Icc 1 N, f j * w j = ∑ j : Fin (N - C), f (C + 1 + j) * w (C + 1 + j) := by
  have e1 : ∑ j ∈ Finset.Icc (C + 1) N, f j * w j = ∑ j ∈ Finset.Icc 1 N, f j * w j := by
    refine Finset.sum_subset ?_ ?_
    · intro j hj
      rw [Finset.mem_Icc] at hj ⊢
      omega
    · intro j hj hn
      rw [Finset.mem_Icc] at hj hn
      rw [hw j (by omega) (by omega), mul_zero]
  rw [← e1, show Finset.Icc (C + 1) N = Finset.Ico (C + 1) (N + 1) by ext; simp, Finset.sum_Ico_eq_sum_range,
    show N + 1 - (C + 1) = N - C by omega, Fin.sum_univ_eq_sum_range (fun j => f (C + 1 + j) * w (C + 1 + j))]

/-- **One step close to a regular solution.** If `K` is minus the derivative of `F` near `u₀`, continuous at `u₀`, and the matrix of
the free unknowns and multipliers is not singular at `u₀`, then a Newton step for a solution `u₁` close to `u₀`, from any point close
to `u₀` at a distance `ρ` of `u₁`, ends at a distance of at most `c * ρ` of `u₁`, however small `c` was chosen. -/
theorem newton_step {C D N : Nat} {K : (Nat → ℝ) → Nat → Nat → ℝ} {F : (Nat → ℝ) → Nat → ℝ} {M : Nat → Nat → ℝ}
    {P : (Nat → ℝ) → Prop} {u₀ : Nat → ℝ} (hP : ∀ᶠ u in 𝓝 u₀, P u) (hK : ∀ i j, ContinuousAt (fun u => K u i j) u₀)
    (hd : ∀ u v : Nat → ℝ, P u → ∀ i, HasDerivAt (fun s : ℝ => F (fun j => u j + s * v j) i)
      (-∑ j ∈ Finset.Icc 1 N, K u i j * v j) 0)
    (hreg : ∀ w : Nat → ℝ, (∀ j, 0 < j → j ≤ C → w j = 0) →
      (∀ i, C < i → i ≤ N → ∑ j ∈ Finset.Icc 1 N, (K u₀ i j + M i j) * w j = 0) → ∀ j, C < j → j ≤ N → w j = 0)
    {c : ℝ} (hc : 0 < c) :
    ∃ r > 0, ∀ (ρ : ℝ) (u u₁ w : Nat → ℝ), 0 ≤ ρ → (∀ j, 0 < j → j ≤ D → |u j - u₁ j| ≤ ρ) →
      (∀ j, 0 < j → j ≤ D → |u j - u₀ j| ≤ r) → (∀ j, ¬ (0 < j ∧ j ≤ D) → u j = u₀ j) →
      (∀ j, 0 < j → j ≤ D → |u₁ j - u₀ j| ≤ r) → (∀ j, ¬ (0 < j ∧ j ≤ D) → u₁ j = u₀ j) → (∀ j, 0 < j → j ≤ C → w j = 0) →
      (∀ i, C < i → i ≤ N → ∑ j ∈ Finset.Icc 1 N, (K u i j + M i j) * w j =
        F u i - F u₁ i + ∑ j ∈ Finset.Icc 1 N, K u i j * (u j - u₁ j)) →
      ∀ j, C < j → j ≤ N → |w j| ≤ c * ρ := by
  obtain ⟨κ, hκ, hb⟩ := below (n := N - C) (fun i j => K u₀ (C + 1 + i) (C + 1 + j) + M (C + 1 + i) (C + 1 + j)) (by
    intro x hx
    let w : Nat → ℝ := fun j => if h : C < j ∧ j ≤ N then x ⟨j - (C + 1), by omega⟩ else 0
    have e : ∀ j : Fin (N - C), w (C + 1 + j) = x j := by
      intro j
      have hj := j.isLt
      show (if h : C < C + 1 + j.val ∧ C + 1 + j.val ≤ N then _ else _) = _
      rw [dif_pos (by omega)]
      congr 1
      apply Fin.ext
      show C + 1 + j.val - (C + 1) = j.val
      omega
    have h0 : ∀ j, 0 < j → j ≤ C → w j = 0 := fun j _ h2 => dif_neg (by omega)
    have hw := hreg w h0 (by
      intro i h1 h2
      have := hx ⟨i - (C + 1), by omega⟩
      have hi : C + 1 + (i - (C + 1)) = i := by omega
      simp only [hi] at this
      rw [sum_free _ w h0, ← this]
      exact Finset.sum_congr rfl fun j _ => by rw [e])
    funext j
    have hj := j.isLt
    rw [← e, hw (C + 1 + j) (by omega) (by omega)]
    rfl)
  -- the size of the changes of the matrix that does no harm
  obtain ⟨η, hη, h1η, h2η⟩ : ∃ η > 0, N * η ≤ κ / 2 ∧ 2 * (N * η) ≤ c * (κ / 2) := by
    refine ⟨min (κ / 2) (c * (κ / 2) / 2) / (N + 1), by positivity, ?_, ?_⟩
    · have : (N : ℝ) * (min (κ / 2) (c * (κ / 2) / 2) / (N + 1)) ≤ min (κ / 2) (c * (κ / 2) / 2) := by
        rw [mul_div_assoc', div_le_iff₀ (by positivity)]
        have : 0 ≤ min (κ / 2) (c * (κ / 2) / 2) := by positivity
        nlinarith
      exact this.trans (min_le_left _ _)
    · have : (N : ℝ) * (min (κ / 2) (c * (κ / 2) / 2) / (N + 1)) ≤ min (κ / 2) (c * (κ / 2) / 2) := by
        rw [mul_div_assoc', div_le_iff₀ (by positivity)]
        have : 0 ≤ min (κ / 2) (c * (κ / 2) / 2) := by positivity
        nlinarith
      have := this.trans (min_le_right _ _)
      linarith
  have hev : ∀ᶠ u in 𝓝 u₀, P u ∧ ∀ i ∈ Finset.Icc 1 N, ∀ j ∈ Finset.Icc 1 N, |K u i j - K u₀ i j| ≤ η := by
    refine hP.and ?_
    rw [Finset.eventually_all]
    intro i _
    rw [Finset.eventually_all]
    intro j _
    filter_upwards [Metric.tendsto_nhds.mp (hK i j) η hη] with u hu
    rw [Real.dist_eq] at hu
    exact hu.le
  obtain ⟨r, hr, hnear⟩ := near_of_eventually (D := D) hev
  refine ⟨r, hr, fun ρ u u₁ w hρ0 hu hu1 hu2 hv1 hv2 hw0 hrow => ?_⟩
  -- points on the segment to the solution
  have hseg : ∀ s ∈ Set.Icc (0 : ℝ) 1, P (fun j => u j + s * (u₁ j - u j)) ∧ ∀ i ∈ Finset.Icc 1 N, ∀ j ∈ Finset.Icc 1 N,
      |K (fun j => u j + s * (u₁ j - u j)) i j - K u₀ i j| ≤ η := by
    intro s hs
    refine hnear _ (fun j a b => ?_) (fun j hj => ?_)
    · have h1 := hu1 j a b
      have h2 := hv1 j a b
      have : u j + s * (u₁ j - u j) - u₀ j = (1 - s) * (u j - u₀ j) + s * (u₁ j - u₀ j) := by ring
      rw [this]
      refine (abs_add_le _ _).trans ?_
      rw [abs_mul, abs_mul, abs_of_nonneg (by linarith [hs.2] : (0 : ℝ) ≤ 1 - s), abs_of_nonneg hs.1]
      have a1 : (1 - s) * |u j - u₀ j| ≤ (1 - s) * r := mul_le_mul_of_nonneg_left h1 (by linarith [hs.2])
      have a2 : s * |u₁ j - u₀ j| ≤ s * r := mul_le_mul_of_nonneg_left h2 hs.1
      linarith
    · rw [hu2 j hj, hv2 j hj]; ring
  have hKu := (hnear u hu1 hu2).2
  have hdiff : ∀ j, |u₁ j - u j| ≤ ρ := by
    intro j
    by_cases hj : 0 < j ∧ j ≤ D
    · rw [abs_sub_comm]; exact hu j hj.1 hj.2
    · rw [hu2 j hj, hv2 j hj]; simpa using hρ0
  -- the right-hand sides are small
  have hR : ∀ i, C < i → i ≤ N → |∑ j ∈ Finset.Icc 1 N, (K u i j + M i j) * w j| ≤ 2 * (N * η) * ρ := by
    intro i h1 h2
    obtain ⟨s, hs, he⟩ := mean_value (N := N) (K := K) (F := F) (u := u) (v := u₁) (i := i)
      (fun s hs w => hd _ w (hseg s hs).1 i)
    rw [hrow i h1 h2, he, ← Finset.sum_add_distrib]
    have hi : i ∈ Finset.Icc 1 N := Finset.mem_Icc.mpr ⟨by omega, h2⟩
    refine (Finset.abs_sum_le_sum_abs _ _).trans ?_
    have : ∀ j ∈ Finset.Icc 1 N, |K (fun j => u j + s * (u₁ j - u j)) i j * (u₁ j - u j) + K u i j * (u j - u₁ j)| ≤
        2 * η * ρ := by
      intro j hj
      have e : K (fun j => u j + s * (u₁ j - u j)) i j * (u₁ j - u j) + K u i j * (u j - u₁ j) =
          ((K (fun j => u j + s * (u₁ j - u j)) i j - K u₀ i j) - (K u i j - K u₀ i j)) * (u₁ j - u j) := by ring
      rw [e, abs_mul]
      have a1 := (hseg s hs).2 i hi j hj
      have a2 := hKu i hi j hj
      exact mul_le_mul ((abs_sub _ _).trans (by linarith)) (hdiff j) (abs_nonneg _) (by positivity)
    refine (Finset.sum_le_card_nsmul _ _ _ this).trans ?_
    rw [Nat.card_Icc, nsmul_eq_mul, Nat.add_sub_cancel]
    exact le_of_eq (by ring)
  -- the new distance
  let x : Fin (N - C) → ℝ := fun i => w (C + 1 + i)
  have hx : ∀ i : Fin (N - C), |w (C + 1 + i)| ≤ ‖x‖ := fun i => by
    have := norm_le_pi_norm x i
    rwa [Real.norm_eq_abs] at this
  have hAx : ‖fun i : Fin (N - C) => ∑ j : Fin (N - C),
      (K u₀ (C + 1 + i) (C + 1 + j) + M (C + 1 + i) (C + 1 + j)) * x j‖ ≤ 2 * (N * η) * ρ + N * η * ‖x‖ := by
    rw [pi_norm_le_iff_of_nonneg (by positivity)]
    intro i
    have hi := i.isLt
    have h1 := hR (C + 1 + i) (by omega) (by omega)
    rw [sum_free _ w hw0] at h1
    rw [Real.norm_eq_abs]
    have e : ∑ j : Fin (N - C), (K u₀ (C + 1 + i) (C + 1 + j) + M (C + 1 + i) (C + 1 + j)) * x j =
        ∑ j : Fin (N - C), (K u (C + 1 + i) (C + 1 + j) + M (C + 1 + i) (C + 1 + j)) * w (C + 1 + j) -
        ∑ j : Fin (N - C), (K u (C + 1 + i) (C + 1 + j) - K u₀ (C + 1 + i) (C + 1 + j)) * w (C + 1 + j) := by
      rw [← Finset.sum_sub_distrib]
      exact Finset.sum_congr rfl fun j _ => by ring
    rw [e]
    refine (abs_sub _ _).trans (add_le_add h1 ?_)
    refine (Finset.abs_sum_le_sum_abs _ _).trans ?_
    refine (Finset.sum_le_card_nsmul _ _ (η * ‖x‖) fun j _ => ?_).trans ?_
    · have hj := j.isLt
      rw [abs_mul]
      exact mul_le_mul (hKu _ (Finset.mem_Icc.mpr ⟨by omega, by omega⟩) _ (Finset.mem_Icc.mpr ⟨by omega, by omega⟩)) (hx j)
        (abs_nonneg _) hη.le
    · rw [nsmul_eq_mul, Finset.card_univ, Fintype.card_fin, mul_assoc]
      have : ((N - C : Nat) : ℝ) ≤ N := by exact_mod_cast Nat.sub_le _ _
      exact mul_le_mul_of_nonneg_right this (by positivity)
  have hfin : ‖x‖ ≤ c * ρ := by
    have h1 := (hb x).trans hAx
    have h2 := norm_nonneg x
    have h3 : N * η * ‖x‖ ≤ κ / 2 * ‖x‖ := mul_le_mul_of_nonneg_right h1η h2
    have h4 : 2 * (N * η) * ρ ≤ c * (κ / 2) * ρ := mul_le_mul_of_nonneg_right h2η hρ0
    have h5 : κ / 2 * ‖x‖ ≤ κ / 2 * (c * ρ) := by linarith
    exact le_of_mul_le_mul_left h5 (by positivity)
  intro j h1 h2
  have := hx ⟨j - (C + 1), by omega⟩
  simp only [show C + 1 + (j - (C + 1)) = j by omega] at this
  exact this.trans hfin

end

end Nla3d.Newton
