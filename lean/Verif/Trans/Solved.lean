import Verif.Trans.Props
import Verif.Gauss.Near
import Mathlib.Algebra.Order.Chebyshev

/-!
# C102: models that are solved
-/

namespace Nla3d.Trans

open Nla3d.Dof Nla3d.Block Nla3d.Sparse Nla3d.Storage Nla3d.Solver Nla3d.Struct Finset

variable {K : Type} [Field K] [LinearOrder K] [IsStrictOrderedRing K]
variable {E : Type} {S0 : Storage K} {calls : List RegCall} {new : List (Mpc K)} {loads fixs : List (Bc K)}
  {els caps : List (LinEl K)} {update : E → Storage K → E} {e : E} {st : TSettings K} {fuel : Nat}

/-- The equations of a step are safely positive definite: `m` times the sum of squares bounds the form from below. -/
def Safe (regs : List Key) (fixs : List (Bc K)) (els caps : List (LinEl K)) (st : TSettings K) (m : K) : Prop :=
  ∀ D : Key → K, (∀ k ∈ fixKeys fixs, D k = 0) → m * ∑ k ∈ regs.toFinset, D k ^ 2 ≤ ∑ k ∈ regs.toFinset,
    D k * (st.delta / (st.alpha * stepOf st) * (caps.map fun x => capOn x D k).sum + (els.map fun x => capOn x D k).sum)

theorem stops_near {n : Nat} {a : Nat → Nat → K} (h : Stops (Gauss.solveEquations : EqSolver K) n a) :
    1000 ≤ n ∨ ∃ w, Gauss.NearNull n a w := by
  obtain ⟨B, rhs, guess, hn, hv, hr, hg, hf⟩ := h
  subst hn
  exact Gauss.C20_stops hv (⟨hr, fun i hi => by rw [getElem?_of_getD (by rw [hr]; exact hi)]⟩ : Gauss.RepV B.si.nRows rhs (fun i => rhs.getD i 0)) hg hf

/-- **C102, runs.** A model of not more than 100 DoFs, some of them free, with safely positive definite equations is solved by the
Gauss solver to the last step. -/
theorem C102_runs (hM : AnyModel S0 calls new loads fixs els caps st fuel) (hsmall : (regKeys calls).toFinset.card ≤ 100)
    (hfree : (fixKeys fixs).toFinset.card < (regKeys calls).toFinset.card) {m : K}
    (hm : ((regKeys calls).toFinset.card : K) / 10 ^ 20 < m) (hsafe : Safe (regKeys calls) fixs els caps st m) :
    ∃ seen, transientSolve Gauss.solveEquations (evolving els caps update) loads fixs st calls new S0 e fuel =
      some (.ok (seen, TimeCtl.u16 (st.n + 1))) ∧ seen.length = st.n := by
  have hprob := evolving_problem (update := update) hM.legal rfl hM.loads hM.placed hM.placedCaps
  have hmp : ({ S0 with transient := true } : Storage K).mpcs ++ new = [] := hM.noMpc
  rcases transient_run hprob gauss_exact hM.alpha hM.steps hM.time e hM.fuel with
    ⟨_, hfat | ⟨S1, num, hp, hnum, hst⟩⟩ | ⟨S1, num, start, seen, _, _, h3, h4, _⟩
  · exfalso
    obtain ⟨S1, num, h1, _⟩ := prepare_small hM.legal hfree (by rw [hmp]; simpa using hsmall)
    rw [hfat] at h1
    simp at h1
  · exfalso
    obtain ⟨P, hb⟩ := base_of_prepare hM.legal hp hnum
    have htr : S1.transient = true := hb.prep.ready.mesh.transient
    have hmm : S1.mpcs = [] := by
      have := hb.prep.ready.terms
      rw [hmp, List.map_nil, List.map_eq_nil_iff] at this
      exact this
    have hnm : S1.nMpc = 0 := by unfold Storage.nMpc; rw [hmm]; rfl
    have hdofs := hb.prep.pre.dofs
    have hN : S1.nDofs = (regKeys calls).toFinset.card := hb.prep.ready.nDofs
    rcases stops_near hst with hbig | ⟨w, ⟨i0, hi0, hw0⟩, hw⟩
    · omega
    obtain ⟨D, hD⟩ : ∃ D : Key → K, ∀ k, D k = if k ∈ fixKeys fixs then 0 else w (num k - S1.nConstr - 1) := ⟨_, fun _ => rfl⟩
    obtain ⟨v, hv, _⟩ := vector_exists hb D [] (by rw [hmp]; rfl)
    have hvw : ∀ j < S1.nUnknown + S1.nMpc, v (S1.nConstr + (j + 1)) = w j := by
      intro j hj
      obtain ⟨k, hk, hf, hki⟩ := num_onto hb (i := S1.nConstr + (j + 1)) (by omega) (by omega)
      rw [← hki, hv k hk, hD k, if_neg hf, hki]
      congr 1
      omega
    have hrow : ∀ k ∈ regKeys calls, k ∉ fixKeys fixs →
        |st.delta / (st.alpha * stepOf st) * (caps.map fun x => capOn x D k).sum + (els.map fun x => capOn x D k).sum| < 1 / 10 ^ 20 := by
      intro k hk hf
      have hr := hb.freeRange hk hf
      have h1 := step_row hb hnum htr hmm hM.placed hM.placedCaps (alpha := st.alpha) (delta := st.delta) (dt := stepOf st) (y := st.initValue)
        (update := update) (e := e) hv (fun k _ hf => by rw [hD k, if_pos hf]) hk (i := num k - S1.nConstr - 1) (by omega)
      rw [← h1]
      have h2 := hw (num k - S1.nConstr - 1) (by omega)
      rw [Finset.sum_congr rfl fun j hj => by rw [hvw j (Finset.mem_range.mp hj)]]
      exact h2
    have h5 := hsafe D fun k hk => by rw [hD k, if_pos hk]
    have h6 : ∑ k ∈ (regKeys calls).toFinset,
        D k * (st.delta / (st.alpha * stepOf st) * (caps.map fun x => capOn x D k).sum + (els.map fun x => capOn x D k).sum) ≤
        ∑ k ∈ (regKeys calls).toFinset, |D k| * (1 / 10 ^ 20) := by
      refine Finset.sum_le_sum fun k hk => ?_
      by_cases hf : k ∈ fixKeys fixs
      · rw [hD k, if_pos hf]; simp
      · refine (le_abs_self _).trans ?_
        rw [abs_mul]
        exact mul_le_mul_of_nonneg_left (hrow k (List.mem_toFinset.mp hk) hf).le (abs_nonneg _)
    rw [← Finset.sum_mul] at h6
    have h7 := sq_sum_le_card_mul_sum_sq (s := (regKeys calls).toFinset) (f := fun k => |D k|)
    simp only [sq_abs] at h7
    have h8 : 1 ≤ ∑ k ∈ (regKeys calls).toFinset, |D k| := by
      obtain ⟨k, hk, hf, hki⟩ := num_onto hb (i := S1.nConstr + (i0 + 1)) (by omega) (by omega)
      have : |D k| = 1 := by
        rw [hD k, if_neg hf, hki, show S1.nConstr + (i0 + 1) - S1.nConstr - 1 = i0 by omega, hw0, abs_one]
      rw [← this]
      exact Finset.single_le_sum (f := fun k => |D k|) (fun k _ => abs_nonneg _) (List.mem_toFinset.mpr hk)
    generalize (∑ k ∈ (regKeys calls).toFinset, |D k|) = s at h6 h7 h8
    generalize (∑ k ∈ (regKeys calls).toFinset, D k ^ 2) = t at h5 h7
    have h9 : m * t ≤ s * (1 / 10 ^ 20) := h5.trans h6
    have hcard : (0 : K) ≤ (regKeys calls).toFinset.card := Nat.cast_nonneg _
    have hmpos : 0 < m := lt_of_le_of_lt (div_nonneg hcard (by positivity)) hm
    generalize ((regKeys calls).toFinset.card : K) = c at *
    have a1 : m * s ^ 2 ≤ c * (s * (1 / 10 ^ 20)) := by
      calc m * s ^ 2 ≤ m * (c * t) := mul_le_mul_of_nonneg_left h7 hmpos.le
        _ = c * (m * t) := by ring
        _ ≤ c * (s * (1 / 10 ^ 20)) := mul_le_mul_of_nonneg_left h9 hcard
    have a2 : s * (m * s - c / 10 ^ 20) ≤ 0 := by
      have : s * (m * s - c / 10 ^ 20) = m * s ^ 2 - c * (s * (1 / 10 ^ 20)) := by ring
      rw [this]
      linarith
    have a3 : 0 < m * s - c / 10 ^ 20 := by
      have : m * 1 ≤ m * s := mul_le_mul_of_nonneg_left h8 hmpos.le
      linarith
    have a4 : 0 < s * (m * s - c / 10 ^ 20) := mul_pos (by linarith) a3
    linarith
  · exact ⟨seen, h3, h4⟩

end Nla3d.Trans
