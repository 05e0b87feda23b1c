import Verif.Gauss.Props

/-!
# C20: the Gauss solver gives up only on matrices that are nearly singular

A failure exhibits a vector with an entry 1 whose image has entries below `1e-20`.
-/

namespace Nla3d.Gauss

open Finset

variable {K : Type} [Field K] [LinearOrder K] [IsStrictOrderedRing K]

/-- A vector with an entry 1 that the matrix maps to entries below `1e-20`. -/
def NearNull (n : Nat) (a : Nat → Nat → K) (w : Nat → K) : Prop :=
  (∃ i < n, w i = 1) ∧ ∀ q < n, |∑ j ∈ range n, a q j * w j| < 1 / 10 ^ 20

/-- Entries of the eliminated matrix. -/
theorem reach_facts {n : Nat} {a0 : Nat → Nat → K} {i : Nat} {a : Nat → Nat → K} (h : Reach n a0 i a) :
    Lower n i a ∧ ∀ c < i, eps ≤ |a c c| := by
  induction h with
  | start => exact ⟨fun c hc => by omega, fun c hc => by omega⟩
  | @step i a a' h hi hs ih =>
    obtain ⟨p, hP, hp, hv⟩ := hs
    have e : ∀ r < n, ∀ c < n, a' r c = elimA i (fun r c => a (sw i p r) c) r c := fun r hr c hc => by
      rw [hv r hr c hc, elimA_eq ih.1 hP]
    refine ⟨fun c hc r hr hcr => ?_, fun c hc => ?_⟩
    · rw [e r hr c (by omega)]
      exact lower_step hi ih.1 hP hp c hc r hr hcr
    · rw [e c (by omega) c (by omega)]
      exact diag_step ih.1 hP hp ih.2 c hc

/-- A vector that the first `i` rows annihilate. -/
theorem upper_null {n i : Nat} (hi : i < n) {a : Nat → Nat → K} (hl : Lower n i a) (hd : ∀ c < i, eps ≤ |a c c|) :
    ∀ k ≤ i, ∃ w : Nat → K, w i = 1 ∧ (∀ j, i < j → w j = 0) ∧ ∀ r, i - k ≤ r → r < i → ∑ j ∈ range n, a r j * w j = 0 := by
  intro k
  induction k with
  | zero => exact fun _ => ⟨fun j => if j = i then 1 else 0, by simp, fun j hj => if_neg (by omega), fun r h1 h2 => by omega⟩
  | succ k ih =>
    intro hk
    obtain ⟨w, h1, h2, h3⟩ := ih (by omega)
    obtain ⟨r0, hr0⟩ : ∃ r, r = i - (k + 1) := ⟨_, rfl⟩
    have hne : a r0 r0 ≠ 0 := by
      intro h0
      have := hd r0 (by omega)
      rw [h0, abs_zero] at this
      exact absurd this (not_le.mpr eps_pos)
    have hr0n : r0 ∈ range n := mem_range.mpr (by omega)
    refine ⟨fun j => if j = r0 then w r0 - (∑ j ∈ range n, a r0 j * w j) / a r0 r0 else w j, ?_, ?_, ?_⟩
    · simp only; rw [if_neg (by omega)]; exact h1
    · intro j hj; simp only; rw [if_neg (by omega)]; exact h2 j hj
    · intro r q1 q2
      have hsum : ∀ v, ∑ j ∈ range n, a r j * (if j = r0 then w r0 - v else w j) = ∑ j ∈ range n, a r j * w j - a r r0 * v := by
        intro v
        have e : ∑ j ∈ (range n).erase r0, a r j * (if j = r0 then w r0 - v else w j) = ∑ j ∈ (range n).erase r0, a r j * w j :=
          sum_congr rfl fun j hj => by rw [if_neg (ne_of_mem_erase hj)]
        rw [← add_sum_erase _ _ hr0n, ← add_sum_erase _ (fun j => a r j * w j) hr0n, if_pos rfl, e]
        ring
      rw [hsum]
      by_cases e : r = r0
      · subst e
        field_simp
        ring
      · rw [h3 r (by omega) q2, hl r0 (by omega) r (by omega) (by omega)]
        ring

/-- Going back through the elimination. -/
theorem reach_null {n : Nat} {a0 : Nat → Nat → K} {i : Nat} {a : Nat → Nat → K} (h : Reach n a0 i a) {w : Nat → K}
    (h1 : ∀ r < i, r < n → ∑ j ∈ range n, a r j * w j = 0) (h2 : ∀ r, i ≤ r → r < n → |∑ j ∈ range n, a r j * w j| < eps) :
    ∀ r < n, |∑ j ∈ range n, a0 r j * w j| < eps := by
  induction h with
  | start => exact fun r hr => h2 r (by omega) hr
  | @step i a a' h hi hs ih =>
    obtain ⟨p, hP, hp, hv⟩ := hs
    have hrow : ∀ r < n, ∑ j ∈ range n, a' r j * w j = if r ≤ i then ∑ j ∈ range n, a (sw i p r) j * w j else
        ∑ j ∈ range n, a (sw i p r) j * w j - a (sw i p r) i / a p i * ∑ j ∈ range n, a p j * w j := by
      intro r hr
      rw [sum_congr rfl fun j hj => by rw [hv r hr j (mem_range.mp hj)]]
      split
      · rfl
      · rw [mul_sum, ← sum_sub_distrib]
        exact sum_congr rfl (fun j _ => by ring)
    have hpz : ∑ j ∈ range n, a p j * w j = 0 := by
      have := hrow i hi
      rw [if_pos (le_refl i), sw_self, h1 i (by omega) hi] at this
      exact this.symm
    have hany : ∀ r < n, ∑ j ∈ range n, a' r j * w j = ∑ j ∈ range n, a (sw i p r) j * w j := by
      intro r hr
      rw [hrow r hr]
      split
      · rfl
      · rw [hpz, mul_zero, sub_zero]
    refine ih (fun r hr hrn => ?_) (fun r hr hrn => ?_)
    · have := hany r hrn
      rw [sw_lt_i hP.ge hr, h1 r (by omega) hrn] at this
      exact this.symm
    · have hs := sw_lt hi hP.lt hrn
      have := hany _ hs
      rw [sw_sw] at this
      rw [← this]
      rcases Nat.lt_or_ge (sw i p r) (i + 1) with hc | hc
      · rw [h1 _ hc hs, abs_zero]
        exact eps_pos
      · exact h2 _ hc hs

/-- **C20, near singular matrices.** If `_solve` returns false, there is a vector with an entry 1 whose image under the matrix has entries
below `1e-20`. -/
theorem C20_near_singular {n : Nat} {X A B : List K} {a : Nat → Nat → K} {b : Nat → K} (hA : Rep n A a) (hB : RepV n B b)
    (hX : X.length = n) (h : solve n X A B = .ok none) : ∃ w, NearNull n a w := by
  obtain ⟨i, a', hi, hr, hs⟩ := (C20_failure_iff hA hB hX).mp h
  obtain ⟨hl, hd⟩ := reach_facts hr
  obtain ⟨w, h1, h2, h3⟩ := upper_null hi hl hd i le_rfl
  refine ⟨w, ⟨i, hi, h1⟩, reach_null hr (fun r hr' _ => h3 r (by omega) hr') fun r hr' hrn => ?_⟩
  have : ∑ j ∈ range n, a' r j * w j = a' r i := by
    rw [sum_eq_single i]
    · rw [h1, mul_one]
    · intro j hj hji
      rcases Nat.lt_or_ge j i with hlt | hge
      · rw [hl j hlt r hrn (by omega), zero_mul]
      · rw [h2 j (by omega), mul_zero]
    · intro hni
      exact absurd (mem_range.mpr hi) hni
  rw [this]
  exact hs r hr' hrn

/-- **C20, through the public interface.** `solveEquations` stops the program only for 1000 equations or more, or for a matrix that is
nearly singular. -/
theorem C20_stops {M : Sparse.SpMat K} {rhs unknowns : List K} {a : Nat → Nat → K} {b : Nat → K}
    (hv : ∀ i < M.si.nRows, ∀ j < M.si.nRows, M.valueSym (i + 1) (j + 1) = .ok (a i j))
    (hb : RepV M.si.nRows rhs b) (hu : unknowns.length = M.si.nRows) (h : solveEquations M rhs unknowns = .fatal) :
    1000 ≤ M.si.nRows ∨ ∃ w, NearNull M.si.nRows a w := by
  by_cases hn : M.si.nRows < 1000
  · right
    unfold solveEquations at h
    rw [decide_eq_true hn] at h
    obtain ⟨A, f1, f2⟩ := fill_spec hv
    simp only [Res.check_true, Res.ok_bind, f1] at h
    rcases C20_gauss f2 hb hu with ⟨X, x, g1, _⟩ | g
    · rw [g1] at h; simp at h
    · exact C20_near_singular f2 hb hu g
  · left; omega

/-- A matrix with an entry below `1e-20` on its diagonal is refused although it is regular. -/
example : ∃ w : Nat → ℚ, NearNull 2 (fun i j => if i = j then (if i = 0 then 1 else 1 / 10 ^ 21) else 0) w := by
  have hA : Rep 2 ([1, 0, 0, 1 / 10 ^ 21] : List ℚ) (fun i j => if i = j then (if i = 0 then 1 else 1 / 10 ^ 21) else 0) := by
    refine ⟨rfl, fun i hi j hj => ?_⟩
    interval_cases i <;> interval_cases j <;> simp
  have hB : RepV 2 ([1, 1] : List ℚ) (fun _ => 1) := ⟨rfl, fun i hi => by interval_cases i <;> rfl⟩
  refine C20_near_singular hA hB (X := [0, 0]) rfl ((C20_failure_iff hA hB rfl).mpr ?_)
  refine ⟨1, _, by norm_num, .step .start (by norm_num) ⟨0, ⟨le_rfl, by norm_num, fun q h1 h2 => ?_, fun q _ h2 => by omega⟩, ?_,
    fun r _ c _ => rfl⟩, fun q h1 h2 => ?_⟩
  · interval_cases q <;> simp
  · simp [eps]
    norm_num
  · interval_cases q
    simp [eps, sw]
    norm_num

end Nla3d.Gauss
