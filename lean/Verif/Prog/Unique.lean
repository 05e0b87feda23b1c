import Verif.Prog.Conditions
import Mathlib.LinearAlgebra.Dual.Lemmas

/-!
# A step of Newton's method is determined by its equations
-/

namespace Nla3d.Prog

open Nla3d.Dof Nla3d.Storage Nla3d.Iso Nla3d.Newton Nla3d.Labels
open Nla3d.Solver (Bc keyOf lastFix fixKeys)
open Nla3d.Rigid (offset theta norm3 arm transl Plain lhs newA withRot)
open Nla3d.Main (Job)
open Nla3d.Cmd (Options)

noncomputable section

variable {o : Options ℝ} {ref : List ℝ} {j : Job ℝ} {W : ℝ → ℝ → ℝ} {k : ℝ}

theorem lhsOf_linear (m : Mpc ℝ) : IsLinearMap ℝ (lhsOf m) := by
  constructor
  · intro v w
    unfold lhsOf
    rw [← List.sum_map_add]
    congr 1
    refine List.map_congr_left fun t _ => ?_
    simp only [Pi.add_apply]
    ring
  · intro a v
    unfold lhsOf
    rw [smul_eq_mul, ← List.sum_map_mul_left]
    congr 1
    refine List.map_congr_left fun t _ => ?_
    simp only [Pi.smul_apply, smul_eq_mul]
    ring

/-- The change of a condition of the rigid body. -/
theorem away_deriv {x : Vals} {r : Main.RigidJob} (hp : Plain (turn r x)) (n : Nat) (i : Fin 3) :
    ∃ L : Vals →ₗ[ℝ] ℝ, ∀ v, HasDerivAt (fun s : ℝ => away j r n i (x + s • v)) (L v) 0 := by
  refine ⟨(lhsOf_linear (withRot r.master n (transl i) (newA (fun n d => x (.node, n, d)) (posOf j.pos) r.master n i) 0 0)).mk', fun v => ?_⟩
  exact deriv_lhs (u := fun n d => x (.node, n, d)) (v := fun n d => v (.node, n, d)) 0 0 hp

/-- The conditions at `x` are linear. -/
theorem conditions_linear {x : Vals} (hp : ∀ b, j.rigid = some b → Plain (turn b x)) :
    ∀ c ∈ conditions j x, IsLinearMap ℝ c := by
  intro c hc
  unfold conditions at hc
  rcases List.mem_append.mp hc with hc | hc
  · obtain ⟨m, _, rfl⟩ := List.mem_map.mp hc
    exact lhsOf_linear m
  · cases hr : j.rigid with
    | none => rw [hr] at hc; simp at hc
    | some r =>
      rw [hr, Option.elim_some] at hc
      obtain ⟨n, _, hc⟩ := List.mem_flatMap.mp hc
      obtain ⟨d, _, rfl⟩ := List.mem_map.mp hc
      obtain ⟨L, hL⟩ := away_deriv (j := j) (hp r hr) n (axis d)
      have : (fun v => deriv (fun s : ℝ => away j r n (axis d) (x + s • v)) 0) = L := funext fun v => (hL v).deriv
      rw [this]
      exact L.isLinear

/-- Directions that respect the conditions. -/
theorem compatible_iff (h : Runnable o ref j) {x : Vals} (hp : ∀ b, j.rigid = some b → Plain (turn b x)) (v : Vals) :
    Compatible j x v ↔ ∀ c ∈ conditions j x, c v = 0 := by
  constructor
  · intro hv c hc
    unfold conditions at hc
    rcases List.mem_append.mp hc with hc | hc
    · obtain ⟨m, hm, rfl⟩ := List.mem_map.mp hc
      exact hv.eqs m hm
    · cases hr : j.rigid with
      | none => rw [hr] at hc; simp at hc
      | some r =>
        rw [hr, Option.elim_some] at hc
        obtain ⟨n, hn, hc⟩ := List.mem_flatMap.mp hc
        obtain ⟨d, hd, rfl⟩ := List.mem_map.mp hc
        obtain ⟨i, rfl⟩ := (h.slaves r hr).2.1 d hd
        beta_reduce
        rw [axis_transl]
        exact (hv.rigid r hr n hn i hd).deriv
  · intro hv
    refine ⟨fun m hm => hv _ (List.mem_append_left _ (List.mem_map.mpr ⟨m, hm, rfl⟩)), fun r hr n hn i hi => ?_⟩
    obtain ⟨L, hL⟩ := away_deriv (j := j) (hp r hr) n i
    refine (hL v).congr_deriv ?_
    rw [← (hL v).deriv]
    have := hv (fun v => deriv (fun s : ℝ => away j r n (axis (transl i)) (x + s • v)) 0) (by
      unfold conditions
      rw [hr, Option.elim_some]
      exact List.mem_append_right _ (List.mem_flatMap.mpr ⟨n, hn, List.mem_map.mpr ⟨_, hi, rfl⟩⟩))
    rwa [axis_transl] at this

/-- The values of the conditions on the increments. -/
theorem step_conditions (h : Runnable o ref j) {t : ℝ} {x y r y' r' : Vals} (hp : ∀ b, j.rigid = some b → Plain (turn b x))
    (h1 : Linearised W k j t x y r) (h2 : Linearised W k j t x y' r') : ∀ c ∈ conditions j x, c (y' - y) = 0 := by
  intro c hc
  have hlin := conditions_linear hp c hc
  have e : c (y' - y) = c (y' - x) - c (y - x) := by
    rw [show y' - y = (y' - x) - (y - x) by abel]
    exact hlin.map_sub _ _
  rw [e, sub_eq_zero]
  unfold conditions at hc
  rcases List.mem_append.mp hc with hc | hc
  · obtain ⟨m, hm, rfl⟩ := List.mem_map.mp hc
    rw [h1.eqs m hm, h2.eqs m hm]
  · cases hr : j.rigid with
    | none => rw [hr] at hc; simp at hc
    | some b =>
      rw [hr, Option.elim_some] at hc
      obtain ⟨n, hn, hc⟩ := List.mem_flatMap.mp hc
      obtain ⟨d, hd, rfl⟩ := List.mem_map.mp hc
      obtain ⟨i, rfl⟩ := (h.slaves b hr).2.1 d hd
      beta_reduce
      rw [axis_transl, (h1.rigid b hr (hp b hr) n hn i hd).deriv, (h2.rigid b hr (hp b hr) n hn i hd).deriv]

/-- The part of a direction that moves free unknowns only. -/
def mask (j : Job ℝ) : Vals →ₗ[ℝ] Vals := by
  classical
  exact { toFun := fun v f => if Free j f then v f else 0
          map_add' := fun v w => by funext f; by_cases hf : Free j f <;> simp [hf]
          map_smul' := fun a v => by funext f; by_cases hf : Free j f <;> simp [hf] }

theorem mask_free (v : Vals) {f : Key} (hf : Free j f) : mask j v f = v f := by
  classical
  exact if_pos hf

theorem mask_not (v : Vals) {f : Key} (hf : ¬ Free j f) : mask j v f = 0 := by
  classical
  exact if_neg hf

theorem mask_single {f : Key} (hf : Free j f) : mask j (Pi.single f 1) = Pi.single f 1 := by
  funext g
  by_cases hg : Free j g
  · rw [mask_free _ hg]
  · rw [mask_not _ hg, Pi.single_eq_of_ne (by rintro rfl; exact hg hf)]

theorem mask_eq {v : Vals} (hv : ∀ f, ¬ Free j f → v f = 0) : mask j v = v := by
  funext g
  by_cases hg : Free j g
  · rw [mask_free _ hg]
  · rw [mask_not _ hg, hv g hg]

/-- A sum over a list with positions. -/
theorem zipIdx_sum {α : Type} (l : List α) (g : α → Nat → ℝ) :
    (l.zipIdx.map (fun c => g c.1 c.2)).sum = ∑ i : Fin l.length, g l[i] i := by
  have : l.zipIdx.map (fun c => g c.1 c.2) = List.ofFn (fun i : Fin l.length => g l[i] i) := by
    apply List.ext_getElem (by simp)
    intro n h1 h2
    simp
  rw [this, List.sum_ofFn]

theorem free_of_not_fixed {t : ℝ} {x y r y' r' : Vals} (h1 : Linearised W k j t x y r) (h2 : Linearised W k j t x y' r') :
    ∀ f, ¬ Free j f → (y' - y) f = 0 := by
  intro f hf
  rw [Pi.sub_apply, sub_eq_zero]
  by_cases hh : Has j f
  · have hfix : f ∈ fixKeys j.fixs := by
      by_contra hc
      exact hf ⟨hh, hc⟩
    obtain ⟨a, ha⟩ := Option.isSome_iff_exists.mp (Solver.lastFix_isSome.mpr hfix)
    rw [h1.fixed f a ha, h2.fixed f a ha]
  · rw [(h1.outside f hh).1, (h2.outside f hh).1]

/-- The values after a step of Newton's method are determined by those before it. -/
theorem values_unique (h : Runnable o ref j) {t : ℝ} {x y r y' r' : Vals} (hs : Sound j x)
    (hp : ∀ b, j.rigid = some b → Plain (turn b x))
    (h1 : NewtonStep W k j t x y r) (h2 : Linearised W k j t x y' r') : y' = y := by
  obtain ⟨H, hH, hone⟩ := h1.regular hs hp
  have hnot := free_of_not_fixed h1.toLinearised h2
  have hcon := step_conditions h hp h1.toLinearised h2
  have hlin := conditions_linear hp
  -- the energy balance
  have hbal : ∀ v, Compatible j x v → (∀ f ∈ fixKeys j.fixs, v f = 0) → H (y' - y) v = 0 := by
    intro v hv hv0
    have a1 := (h1.balance hs hp v hv (.inl hv0)).unique (hH (y - x) v)
    have a2 := (h2.balance hs hp v hv (.inl hv0)).unique (hH (y' - x) v)
    have e0 : ∀ r : Vals, reactionWork j r v = 0 := fun r => Finset.sum_eq_zero fun f hf => by
      rw [hv0 f (List.mem_toFinset.mp hf), mul_zero]
    rw [e0] at a1 a2
    rw [show y' - y = (y' - x) - (y - x) by abel, map_sub, LinearMap.sub_apply, ← a1, ← a2, sub_self]
  -- multipliers
  set n := (conditions j x).length with hn
  let L : Fin n → Vals →ₗ[ℝ] ℝ := fun i => (hlin (conditions j x)[i] (List.getElem_mem _)).mk'.comp (mask j)
  let G : Vals →ₗ[ℝ] ℝ := (H (y' - y)).comp (mask j)
  have hker : ⨅ i, LinearMap.ker (L i) ≤ LinearMap.ker G := by
    intro v hv
    rw [Submodule.mem_iInf] at hv
    rw [LinearMap.mem_ker]
    refine hbal (mask j v) ((compatible_iff h hp _).mpr fun c hc => ?_) fun f hf => mask_not _ fun hff => hff.2 hf
    obtain ⟨i, hi, rfl⟩ := List.getElem_of_mem hc
    exact LinearMap.mem_ker.mp (hv ⟨i, hi⟩)
  obtain ⟨μ, hμ⟩ := (Submodule.mem_span_range_iff_exists_fun ℝ).mp (mem_span_of_iInf_ker_le_ker hker)
  obtain ⟨hw, _⟩ := hone (y' - y) (fun m => if hm : m < n then -μ ⟨m, hm⟩ else 0) hnot (fun f hf => by
    rw [zipIdx_sum (conditions j x) (fun c m => (if hm : m < n then -μ ⟨m, hm⟩ else 0) * c (Pi.single f 1))]
    have := congrArg (fun T : Vals →ₗ[ℝ] ℝ => T (Pi.single f 1)) hμ
    simp only [LinearMap.sum_apply, LinearMap.smul_apply, smul_eq_mul] at this
    have e1 : G (Pi.single f 1) = H (y' - y) (Pi.single f 1) := congrArg (H (y' - y)) (mask_single hf)
    have e2 : ∀ i, L i (Pi.single f 1) = (conditions j x)[i] (Pi.single f 1) := fun i => congrArg (conditions j x)[i] (mask_single hf)
    rw [e1] at this
    rw [← this, ← Finset.sum_add_distrib]
    refine Finset.sum_eq_zero fun i _ => ?_
    rw [e2, dif_pos i.2]
    simp) hcon
  exact sub_eq_zero.mp hw

/-- So are the reactions, if no increment of a fixed unknown is taken for zero. -/
theorem reactions_unique (h : Runnable o ref j) {t : ℝ} {x y r r' : Vals} (hs : Sound j x)
    (hp : ∀ b, j.rigid = some b → Plain (turn b x))
    (hbig : ∀ f ∈ fixKeys j.fixs, y f - x f = 0 ∨ 1 / 10 ^ 20 < |y f - x f|)
    (h1 : NewtonStep W k j t x y r) (h2 : Linearised W k j t x y r') : r' = r := by
  obtain ⟨H, hH, hone⟩ := h1.regular hs hp
  have hlin := conditions_linear hp
  funext f
  by_cases hh : Has j f
  swap
  · rw [(h1.outside f hh).2, (h2.outside f hh).2]
  by_cases hfix : f ∈ fixKeys j.fixs
  swap
  · rw [h1.loads f hh hfix, h2.loads f hh hfix]
  set n := (conditions j x).length with hn
  let T : Vals →ₗ[ℝ] (Fin n → ℝ) := LinearMap.pi fun i => (hlin (conditions j x)[i] (List.getElem_mem _)).mk'.comp (mask j)
  have hT : LinearMap.range T = ⊤ := by
    by_contra hne
    obtain ⟨φ, hφ, hle⟩ := Submodule.exists_le_ker_of_lt_top _ (lt_top_iff_ne_top.mpr hne)
    apply hφ
    obtain ⟨_, hμ⟩ := hone 0 (fun m => if hm : m < n then φ (Pi.single ⟨m, hm⟩ 1) else 0) (fun _ _ => rfl) (fun g hg => by
      rw [map_zero, LinearMap.zero_apply, zero_add,
        zipIdx_sum (conditions j x) (fun c m => (if hm : m < n then φ (Pi.single ⟨m, hm⟩ 1) else 0) * c (Pi.single g 1))]
      have : φ (T (Pi.single g 1)) = 0 := LinearMap.mem_ker.mp (hle (LinearMap.mem_range_self T _))
      rw [LinearMap.pi_apply_eq_sum_univ] at this
      rw [← this]
      refine Finset.sum_congr rfl fun i _ => ?_
      rw [dif_pos i.2, smul_eq_mul, mul_comm]
      congr 1
      · exact (congrArg (conditions j x)[i] (mask_single hg)).symm
      · congr 1
        funext a
        simp [Pi.single_apply, eq_comm]) (fun c hc => (hlin c hc).map_zero)
    ext i
    have := hμ i i.2
    rw [dif_pos i.2] at this
    simpa using this
  obtain ⟨w, hw⟩ := LinearMap.range_eq_top.mp hT (fun i => -(conditions j x)[i] (Pi.single f 1))
  have hv : ∀ c ∈ conditions j x, c (Pi.single f 1 + mask j w) = 0 := by
    intro c hc
    obtain ⟨i, hi, rfl⟩ := List.getElem_of_mem hc
    have := congrFun hw ⟨i, hi⟩
    rw [(hlin _ hc).map_add]
    exact add_eq_zero_iff_eq_neg'.mpr this
  have hcomp := (compatible_iff h hp _).mpr hv
  have a1 := (h1.balance hs hp _ hcomp (.inr hbig)).unique (h2.balance hs hp _ hcomp (.inr hbig))
  have e : ∀ r : Vals, reactionWork j r (Pi.single f 1 + mask j w) = r f := by
    intro r
    unfold reactionWork
    rw [Finset.sum_eq_single f]
    · rw [Pi.add_apply, Pi.single_eq_same, mask_not _ (fun hc => hc.2 hfix), add_zero, mul_one]
    · intro g hg hgf
      rw [Pi.add_apply, Pi.single_eq_of_ne hgf, mask_not _ (fun hc => hc.2 (List.mem_toFinset.mp hg)), add_zero, mul_zero]
    · intro hn
      exact absurd (List.mem_toFinset.mpr hfix) hn
  rw [e, e] at a1
  linarith

end

end Nla3d.Prog
