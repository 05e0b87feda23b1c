import Verif.Trans.Connected
import Verif.Trans.SteadySample

/-!
# Models for C111
-/

noncomputable section

namespace Nla3d.Trans

open Nla3d.Dof Nla3d.Block Nla3d.Sparse Nla3d.Storage Nla3d.Solver Nla3d.Struct Finset
open scoped Matrix

theorem plate_placed' (k f : ℝ) : ∀ x ∈ [condEl plateGeo plateN 2 k f], Placed hotStorage hotCalls x := by
  intro x hx
  rw [List.mem_singleton] at hx
  subst hx
  exact wall_placed (hot_placed rfl rfl fun i j => ext_symm (condMat_symm _ _ _ _) i j)

theorem plate_placedCaps : ∀ x ∈ [bodyEl plateGeo plateBody], Placed hotStorage hotCalls x := by
  intro x hx
  rw [List.mem_singleton] at hx
  subst hx
  exact wall_placed (hot_placed rfl rfl fun i j => ext_symm (capMat_symm _ _) i j)

/-- The plate with 2 by 2 points, three corners held at 0. -/
theorem square_work (w : Key → ℝ) (h1 : w (.node, 1, .TEMP) = 0) (h2 : w (.node, 2, .TEMP) = 1) (h3 : w (.node, 3, .TEMP) = 0)
    (h4 : w (.node, 4, .TEMP) = 0) : (1 : ℝ) / 2 ≤ capWork (condEl plateGeo plateN 2 1 0) w w := by
  rw [built_form (condEl_built (hot_sound (f := 0) (by norm_num : (0 : ℝ) ≤ 1))) (hot_sound (by norm_num)) (plate_placed' 1 0 _ (by simp)).symm]
  simp only [squares]
  rw [show Iso.quad.table (Iso.schemeIndex 2) = Iso.quadO2 from rfl]
  simp only [Iso.quadO2, List.map_cons, List.map_nil, List.sum_cons, List.sum_nil, Thermal.wdet, plate_jac, Matrix.det_one, Thermal.B, Iso.grads,
    Matrix.mulVec, dotProduct, Fin.sum_univ_four, Fin.sum_univ_two, Matrix.of_apply, temp]
  simp [plateN, h1, h2, h3, h4, Iso.quad]
  norm_num

theorem square_linear (F : ℝ) : ∃ S', linearSolve Gauss.solveEquations (linear [condEl plateGeo plateN 2 1 0] fun (_ : Unit) _ => ()) (wallLoad F)
    (wallFix 0) hotCalls [] hotStorage () = .ok (S', ()) := by
  obtain ⟨S', e', h⟩ := C109_stiff (E := Unit) (update := fun _ _ => ()) (e := ()) (wall_legal' 0) (wall_load F) (plate_placed' 1 0) rfl (by
      obtain ⟨S1, _, h1, _⟩ := prepare_small (wall_legal' 0) (by rw [wall_keys]; decide) (by decide)
      intro hc
      rw [hc] at h1
      simp at h1) (by
      have : freeKeys hotCalls (wallFix 0) ⊆ (regKeys hotCalls).toFinset := Finset.sdiff_subset
      have h2 := Finset.card_le_card this
      have : (regKeys hotCalls).toFinset.card = 4 := by decide
      omega) (by
      intro w h1 h2
      have hz : ∀ k ∈ fixKeys (wallFix 0), w k = 0 := fun k hk => h1 k fun hc => (mem_free.mp hc).2 hk
      have hfree : freeKeys hotCalls (wallFix 0) = {(.node, plateN 1, .TEMP)} := by
        ext k
        rw [Finset.mem_singleton]
        refine ⟨fun hk => wall_free (mem_free.mp hk).1 (mem_free.mp hk).2, ?_⟩
        rintro rfl
        rw [mem_free, wall_keys]
        decide
      rw [hfree] at h2 ⊢
      obtain ⟨k, hk, h2⟩ := h2
      obtain rfl := Finset.mem_singleton.mp hk
      have h0 := wall_zero hz
      have := square_work w h0.1 h2 h0.2.1 h0.2.2
      simp only [List.map_cons, List.map_nil, List.sum_cons, List.sum_nil, add_zero, work_diff, Finset.sum_singleton]
      rw [h2]
      norm_num at this ⊢
      linarith)
  exact ⟨S', h⟩

/-- The hypotheses of `C111_bodies_partial` are met, with any heat at the free node and any temperature at the beginning. -/
example (F y : ℝ) : ∃ S', linearSolve Gauss.solveEquations (linear [condEl plateGeo plateN 2 1 0] fun (_ : Unit) _ => ()) (wallLoad F)
      (wallFix 0) hotCalls [] hotStorage () = .ok (S', ()) ∧ ∃ B ρ : ℝ, 0 ≤ B ∧ 0 ≤ ρ ∧ ρ < 1 ∧
    ∀ {seen : List (Nat × ℝ × TState Unit ℝ)} {last n : Nat}, 0 < n →
      transientSolve Gauss.solveEquations (evolving [condEl plateGeo plateN 2 1 0] [bodyEl plateGeo plateBody] fun (_ : Unit) _ => ()) (wallLoad F)
        (wallFix 0) (wallSettings n y) hotCalls [] hotStorage () (n + 1) = some (.ok (seen, last)) →
      ∃ T V A, Traced (regKeys hotCalls) (wallFix 0) (wallSettings n y) seen T V A ∧ (AllClear (regKeys hotCalls) (wallFix 0) (wallSettings n y) T V A →
        ∀ (i : Nat) (p : Nat × ℝ × TState Unit ℝ), seen[i]? = some p →
          ∃ v w, Post.solution p.2.2.S .node 2 .TEMP = .ok v ∧ Post.solution S' .node 2 .TEMP = .ok w ∧ |v - w| ≤ B * ρ ^ i) := by
  obtain ⟨S', h1⟩ := square_linear F
  have hnode : ∀ k ∈ regKeys hotCalls, ∃ a : Fin 4, k = (.node, plateN a, .TEMP) := by decide
  have hmem : HeatElem.quad plateN 2 1 0 ∈ [HeatElem.quad plateN 2 1 0] := by simp
  obtain ⟨B, ρ, b, r0, r1, hB⟩ := C111_bodies_partial (hs := [.quad plateN 2 1 0]) (bs := [plateBody]) (wall_legal' 0) (wall_load F) (plate_placed' 1 0)
    plate_placedCaps rfl (by simp [wallFix]) gauss_exact h1 (.cons (condEl_built (hot_sound (by norm_num))) .nil)
    (by simpa using hot_sound (by norm_num)) (by simp [Conducts]) (fun k hk => by
      obtain ⟨a, rfl⟩ := hnode k hk
      exact ⟨_, rfl, .through 0 a hmem (.fixed (by rw [wall_keys]; decide))⟩)
    (.cons (bodyEl_built body_sound) .nil) (by simpa using body_sound) (by simp [plateBody]) (fun k hk _ => by
      obtain ⟨a, rfl⟩ := hnode k hk
      exact ⟨plateBody, by simp, a, rfl⟩) (show (0 : ℝ) < 1 by norm_num) y
  refine ⟨S', h1, B, ρ, b, r0, r1, fun hn h => ?_⟩
  obtain ⟨T, V, A, t1, t2⟩ := hB ⟨wall_legal 0, wall_load F, fun x hx => placed_transient (plate_placed' 1 0 x hx),
    fun x hx => placed_transient (plate_placedCaps x hx), rfl, (wall_model 0 F y hn).alpha, rfl, hn, (wall_model 0 F y hn).time, Nat.lt_succ_self _⟩
    gauss_exact rfl (wall_step hn y) rfl h
  exact ⟨T, V, A, t1, fun hc i p hp => t2 hc i p hp 2 .TEMP (by decide)⟩

/-- A plate without fixed nodes that loses heat through the side between the nodes 3 and 4: every node is drained. -/
example (s : Thermal.Surface) (hs : 0 < s.pre.htc) (n : Nat) (hn : n ∈ [1, 2, 3, 4]) :
    Drained [.quad plateN 2 1 0, .line ![3, 4] 1 s] [] n := by
  have h3 : Drained [.quad plateN 2 1 0, .line ![3, 4] 1 s] [] 3 :=
    .film (n := ![3, 4]) (o := 1) (s := s) (n' := plateN) (o' := 2) (k := 1) (f := 0) 2 3 (by simp) hs (by simp) rfl rfl
  have key : ∀ a : Fin 4, Drained [.quad plateN 2 1 0, .line ![3, 4] 1 s] [] (plateN a) := fun a =>
    .through (n := plateN) (o := 2) (k := 1) (f := 0) 2 a (by simp) h3
  simp only [List.mem_cons, List.not_mem_nil, or_false] at hn
  rcases hn with rfl | rfl | rfl | rfl
  · exact key 0
  · exact key 1
  · exact key 2
  · exact key 3

end Nla3d.Trans
