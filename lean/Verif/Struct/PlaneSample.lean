import Verif.Struct.Plane
import Verif.Struct.Sample

/-!
# A square plate of two triangles
-/

noncomputable section

namespace Nla3d.Struct

open Nla3d.Dof Nla3d.Block Nla3d.Sparse Nla3d.Storage Nla3d.Solver Finset
open scoped Matrix

/-- What `buildK` hands over for a triangle. -/
def triEl (geo : Nat → Fin 2 → ℝ) (s : Tri.PlaneState) (Y my : ℝ) (n : Fin 3 → Nat) : LinEl ℝ where
  nodes := [n 0, n 1, n 2]
  dofs := [.UX, .UY]
  Ke i j := Dense.ext (Tri.stiff (fun a => geo (n a)) Y my s) i j

theorem triEl_sheet {geo : Nat → Fin 2 → ℝ} {s : Tri.PlaneState} {Y my : ℝ} {n : Fin 3 → Nat}
    (hd : (Tri.matS fun a => geo (n a)).det ≠ 0) : Sheet geo s Y my n (triEl geo s Y my n) :=
  ⟨⟨rfl, rfl, ⟨_, Tri.buildK_eq hd _⟩, rfl⟩, hd⟩

theorem triEl_symm (geo : Nat → Fin 2 → ℝ) (s : Tri.PlaneState) (Y my : ℝ) (n : Fin 3 → Nat) (i j : Nat) :
    (triEl geo s Y my n).Ke i j = (triEl geo s Y my n).Ke j i := by
  show Dense.ext _ i j = Dense.ext _ j i
  unfold Dense.ext
  by_cases h : i < 6 ∧ j < 6
  · rw [dif_pos h, dif_pos h.symm]
    exact congrFun (congrFun (stiff_symm (fun a => geo (n a)) Y my s) _) _
  · rw [dif_neg h, dif_neg fun c => h c.symm]

/-- The corners of the square. -/
def sheet : Nat → Fin 2 → ℝ
  | 2 => ![1, 0]
  | 3 => ![1, 1]
  | 4 => ![0, 1]
  | _ => ![0, 0]

def sheetNodes : List (Fin 3 → Nat) := [![1, 2, 3], ![1, 3, 4]]

def sheetRim : List (Nat × Nat) := [(1, 2), (2, 3), (3, 4), (4, 1)]

/-- The diagonal is inside, the sides are the boundary. -/
theorem sheet_boundary : Boundary sheetNodes sheetRim := by
  have h : (sheetNodes.flatMap edges ++ sheetRim.map Prod.swap).Perm ((sheetNodes.flatMap edges).map Prod.swap ++ sheetRim) := by decide
  intro p q
  have := h.count_eq (p, q)
  have e1 := List.count_map_of_injective sheetRim Prod.swap Prod.swap_injective (q, p)
  have e2 := List.count_map_of_injective (sheetNodes.flatMap edges) Prod.swap Prod.swap_injective (q, p)
  rw [Prod.swap_prod_mk] at e1 e2
  rwa [List.count_append, List.count_append, e1, e2] at this

example : ¬Boundary sheetNodes [] := fun h => absurd (h 1 2) (by decide)

def sheetStorage : Storage ℝ := Storage.fresh 4 [[1, 2, 3], [1, 3, 4]] [] false

def sheetCalls : List RegCall := [(.node, 1, [.UX, .UY]), (.node, 2, [.UX, .UY]), (.node, 3, [.UX, .UY]),
  (.node, 1, [.UX, .UY]), (.node, 3, [.UX, .UY]), (.node, 4, [.UX, .UY])]

/-- Stretched in the direction `x`; `UX` of the second node is free. -/
def sheetFixs : List (Bc ℝ) := [⟨1, .UX, 0⟩, ⟨1, .UY, 0⟩, ⟨2, .UY, 0⟩, ⟨3, .UX, 1⟩, ⟨3, .UY, 0⟩, ⟨4, .UX, 0⟩, ⟨4, .UY, 0⟩]

def sheetLoads : List (Bc ℝ) := [⟨2, .UX, 6⟩]

def sheetH : Matrix (Fin 2) (Fin 2) ℝ := !![1, 0; 0, 0]

theorem sheet_det : ∀ n ∈ sheetNodes, (Tri.matS fun a => sheet (n a)).det = 1 := by
  intro n hn
  simp only [sheetNodes, List.mem_cons, List.not_mem_nil, or_false] at hn
  rcases hn with rfl | rfl <;> rw [Tri.det_matS] <;> simp [sheet]

theorem sheet_els (s : Tri.PlaneState) (Y my : ℝ) :
    List.Forall₂ (Sheet sheet s Y my) sheetNodes (sheetNodes.map (triEl sheet s Y my)) :=
  List.forall₂_map_right_iff.mpr (List.forall₂_same.mpr fun n hn => triEl_sheet (by rw [sheet_det n hn]; norm_num))

theorem sheet_legal : LegalModel sheetStorage sheetCalls [] (fixKeys sheetFixs) := by
  have hk : fixKeys sheetFixs = [(.node, 1, .UX), (.node, 1, .UY), (.node, 2, .UY), (.node, 3, .UX), (.node, 3, .UY),
    (.node, 4, .UX), (.node, 4, .UY)] := rfl
  rw [hk]
  refine ⟨⟨?_, ?_, ?_, ?_, ?_, rfl⟩, ?_, ?_, ?_⟩
  · unfold LegalReg; decide
  · decide
  · decide
  · decide
  · intro m hm; simp [sheetStorage, Storage.fresh] at hm
  · unfold MeshOk; decide
  · intro m hm; simp [sheetStorage, Storage.fresh] at hm
  · decide

theorem sheet_placed (s : Tri.PlaneState) (Y my : ℝ) : ∀ x ∈ sheetNodes.map (triEl sheet s Y my), Placed sheetStorage sheetCalls x := by
  intro x hx
  obtain ⟨n, hn, rfl⟩ := List.mem_map.mp hx
  refine ⟨?_, ?_, fun i _ j _ => triEl_symm _ _ _ _ _ i j⟩
  · simp only [sheetNodes, List.mem_cons, List.not_mem_nil, or_false] at hn
    rcases hn with rfl | rfl
    · exact ⟨⟨1, rfl⟩, (by decide : ∀ n ∈ [1, 2, 3], ∀ t ∈ [DofType.UX, .UY], (Side.node, n, t) ∈ regKeys sheetCalls),
        (by decide : [DofType.UX, .UY].Nodup)⟩
    · exact ⟨⟨2, rfl⟩, (by decide : ∀ n ∈ [1, 3, 4], ∀ t ∈ [DofType.UX, .UY], (Side.node, n, t) ∈ regKeys sheetCalls),
        (by decide : [DofType.UX, .UY].Nodup)⟩
  · simp only [sheetNodes, List.mem_cons, List.not_mem_nil, or_false] at hn
    rcases hn with rfl | rfl <;> simp [triEl]

theorem sheet_loads : ∀ l ∈ sheetLoads, keyOf l ∈ regKeys sheetCalls := by
  intro l hl
  rw [sheetLoads, List.mem_singleton] at hl
  subst hl
  show (Side.node, 2, DofType.UX) ∈ _
  decide

theorem sheet_values : ∀ f ∈ sheetFixs, f.value = 0 ∨ (1 / 10 ^ 20 : ℝ) < |f.value| := by
  intro f hf
  simp only [sheetFixs, List.mem_cons, List.not_mem_nil, or_false] at hf
  rcases hf with rfl | rfl | rfl | rfl | rfl | rfl | rfl <;> norm_num

theorem sheet_field : ∀ f ∈ sheetFixs, f.value = field2 sheet 0 sheetH (keyOf f) := by
  intro f hf
  simp only [sheetFixs, List.mem_cons, List.not_mem_nil, or_false] at hf
  rcases hf with rfl | rfl | rfl | rfl | rfl | rfl | rfl <;>
    simp [keyOf, field2, sheetH, sheet, Matrix.mulVec, dotProduct, Fin.sum_univ_two]

theorem sheet_regs : ∀ k ∈ regKeys sheetCalls, ∃ n i, k = (Side.node, n, axis2 i) := by
  intro k hk
  have : k ∈ (([1, 2, 3, 4] : List Nat).flatMap fun n => [(Side.node, n, axis2 0), (.node, n, axis2 1)]) := by
    revert hk
    rw [← List.mem_toFinset, ← List.mem_toFinset]
    exact fun hk => (by decide : (regKeys sheetCalls).toFinset ⊆ _) hk
  simp only [List.mem_flatMap, List.mem_cons, List.not_mem_nil, or_false] at this
  obtain ⟨n, hn, hk⟩ := this
  rcases hk with h | h
  exacts [⟨n, 0, h⟩, ⟨n, 1, h⟩]

/-- The load is that of the stress on the boundary. -/
theorem sheet_free {σ : Fin 3 → ℝ} (h0 : σ 0 = 12) (h2 : σ 2 = 0) (n : Nat) (i : Fin 2) (hk : (Side.node, n, axis2 i) ∈ regKeys sheetCalls)
    (hf : (Side.node, n, axis2 i) ∉ fixKeys sheetFixs) :
    loadsOn (.node, n, axis2 i) sheetLoads = nodeLoad sheet σ sheetRim n i := by
  have hall : ∀ k ∈ regKeys sheetCalls, k ≠ (Side.node, 2, axis2 0) → k ∈ fixKeys sheetFixs := by decide
  have : (Side.node, n, axis2 i) = (Side.node, 2, axis2 0) := by
    by_contra c
    exact hf (hall _ hk c)
  simp only [Prod.mk.injEq, true_and] at this
  obtain ⟨rfl, hi⟩ := this
  obtain rfl := axis2_inj hi
  simp [loadsOn, sheetLoads, keyOf, axis2, nodeLoad, sheetRim, edgeForce, sheet, h0, h2]
  norm_num

theorem sheet_solved (s : Tri.PlaneState) (Y my : ℝ) (hst : 1 ≤ |Tri.elast Y my s 0 0 + Tri.elast Y my s 2 2|)
    (h02 : Tri.elast Y my s 0 2 = 0) :
    ∃ S' e', linearSolve Gauss.solveEquations (linear (sheetNodes.map (triEl sheet s Y my)) (fun _ _ => ()))
      sheetLoads sheetFixs sheetCalls [] sheetStorage () = .ok (S', e') := by
  refine one_free (k0 := (.node, 2, .UX)) sheet_legal rfl sheet_loads (sheet_placed s Y my) (by decide) (by decide) (by decide)
    (by decide) ?_
  have h20 : Tri.elast Y my s 2 0 = 0 := by rw [← h02]; exact (Tri.elast_symm Y my s).apply 0 2
  have d1 := sheet_det ![1, 2, 3] (by simp [sheetNodes])
  have d2 := sheet_det ![1, 3, 4] (by simp [sheetNodes])
  have hz : ∀ n ∈ sheetNodes, (triEl sheet s Y my n).forceOn (fun _ => 0) (.node, 2, .UX) = 0 := by
    intro n hn
    have hT := (triEl_sheet (s := s) (Y := Y) (my := my) (geo := sheet) (n := n) (by rw [sheet_det n hn]; norm_num))
    rw [← work_single, hT.1.work hT.2 (fun i _ j _ => triEl_symm _ _ _ _ _ i j)]
    have e1 : Tri.vec6 (fun a => nodal2 (fun _ => (0 : ℝ)) (n a)) = 0 := rfl
    rw [e1, Matrix.mulVec_zero, dotProduct_zero]
  have h1 : (triEl sheet s Y my ![1, 2, 3]).forceOn (fun k => if k = (.node, 2, .UX) then 1 else 0) (.node, 2, .UX) =
      1 / 2 * (Tri.elast Y my s 0 0 + Tri.elast Y my s 2 2) := by
    have hT := (triEl_sheet (s := s) (Y := Y) (my := my) (geo := sheet) (n := ![1, 2, 3]) (by rw [d1]; norm_num))
    rw [← work_single, hT.1.work hT.2 (fun i _ j _ => triEl_symm _ _ _ _ _ i j)]
    have e2 : Tri.vec6 (fun a => nodal2 (fun k => if k = (Side.node, 2, DofType.UX) then (1 : ℝ) else 0) ((![1, 2, 3] : Fin 3 → Nat) a)) =
        Tri.vec6 (Tri.affineField (fun a => sheet ((![1, 2, 3] : Fin 3 → Nat) a)) 0 !![1, -1; 0, 0]) := by
      congr 1
      funext a i
      fin_cases a <;> fin_cases i <;> simp [nodal2, axis2, Tri.affineField, sheet, Fin.sum_univ_two]
    rw [e2]
    unfold Tri.stiff
    rw [Matrix.smul_mulVec, dotProduct_smul, ← Matrix.mulVec_mulVec, ← Matrix.mulVec_mulVec, Tri.strain_affine hT.2,
      Matrix.dotProduct_mulVec, Matrix.vecMul_transpose, Tri.strain_affine hT.2, d1]
    simp [Tri.symGrad, dotProduct, Matrix.mulVec, Fin.sum_univ_three, Tri.fresh, h02, h20]
  have h3 : (triEl sheet s Y my ![1, 3, 4]).forceOn (fun k => if k = (.node, 2, .UX) then 1 else 0) (.node, 2, .UX) = 0 := by
    have hT := (triEl_sheet (s := s) (Y := Y) (my := my) (geo := sheet) (n := ![1, 3, 4]) (by rw [d2]; norm_num))
    rw [← work_single, hT.1.work hT.2 (fun i _ j _ => triEl_symm _ _ _ _ _ i j)]
    have e2 : Tri.vec6 (fun a => nodal2 (fun k => if k = (Side.node, 2, DofType.UX) then (1 : ℝ) else 0) ((![1, 3, 4] : Fin 3 → Nat) a)) = 0 := by
      funext j
      fin_cases j <;> simp [Tri.vec6, nodal2, axis2]
    rw [e2, zero_dotProduct]
  have hz1 := hz ![1, 2, 3] (by simp [sheetNodes])
  have hz2 := hz ![1, 3, 4] (by simp [sheetNodes])
  simp only [sheetNodes, List.map_cons, List.map_nil, List.sum_cons, List.sum_nil, add_zero, h1, h3, hz1, hz2, sub_zero]
  rw [abs_mul]
  norm_num
  linarith

/-- C96, balance: the forces on the plate cancel. -/
example : ∃ (S' : Storage ℝ) (R : Nat → Fin 2 → ℝ), (∀ n ∈ ({1, 2, 3, 4} : Finset Nat), ∀ i, Post.reaction S' n (axis2 i) = .ok (R n i)) ∧
    R 1 + R 2 + R 3 + R 4 = 0 := by
  obtain ⟨S', e', h⟩ := sheet_solved .strain 10 (1 / 4) (by simp [Tri.elast]; norm_num) (by simp [Tri.elast])
  obtain ⟨R, h1, h2, _⟩ := C96_resultants (geo := sheet) (ns := {1, 2, 3, 4}) sheet_legal sheet_loads (sheet_placed _ _ _) (by
      intro x hx
      obtain ⟨n, hn, rfl⟩ := List.mem_map.mp hx
      have hT := triEl_sheet (s := .strain) (Y := 10) (my := 1 / 4) (geo := sheet) (n := n) (by rw [sheet_det n hn]; norm_num)
      exact ⟨n, _, hT.1, hT.2⟩) sheet_values gauss_exact h rfl (by
      intro k
      constructor
      · intro hk
        obtain ⟨n, i, rfl⟩ := sheet_regs k hk
        have hall : ∀ k ∈ regKeys sheetCalls, k.2.1 ∈ ({1, 2, 3, 4} : Finset Nat) := by decide
        exact ⟨n, hall _ hk, i, rfl⟩
      · rintro ⟨n, hn, i, rfl⟩
        simp only [Finset.mem_insert, Finset.mem_singleton] at hn
        rcases hn with rfl | rfl | rfl | rfl <;> fin_cases i <;> decide)
  exact ⟨S', R, h1, by simpa [add_assoc] using h2⟩

/-- C96, plane strain: the stress (12, 4, 0) stretches the plate with `E = 10`, `my = 1/4` by 1. -/
example : ∃ S' : Storage ℝ, Post.solution S' .node 2 .UX = .ok 1 ∧ Post.reaction S' 4 .UX = .ok (-6) := by
  obtain ⟨S', e', h⟩ := sheet_solved .strain 10 (1 / 4) (by simp [Tri.elast]; norm_num) (by simp [Tri.elast])
  have := C96_plane_strain (t := 0) (H := sheetH) (σ := ![12, 4, 0]) (Y := 10) (my := 1 / 4) (by norm_num) (by norm_num) (by norm_num) (by
      funext r
      fin_cases r <;> simp [Tri.symGrad, sheetH, Tri.compliance, Matrix.mulVec, dotProduct, Fin.sum_univ_three] <;> norm_num)
    sheet_legal sheet_loads (sheet_placed _ _ _) (sheet_els _ _ _) sheet_boundary sheet_regs
    (fun n i => sheet_free (by simp) (by simp) n i) sheet_values sheet_field (by simp [sheetStorage, Storage.fresh]) h
  refine ⟨S', ?_, ?_⟩
  · rw [show DofType.UX = axis2 0 from rfl, (this 2 0 (by decide)).1]
    simp [sheetH, sheet, Matrix.mulVec, dotProduct, Fin.sum_univ_two]
  · rw [show DofType.UX = axis2 0 from rfl, (this 4 0 (by decide)).2]
    simp [nodeLoad, sheetRim, edgeForce, sheet]
    norm_num

/-- C96 fails in plane stress: the plate with `E = 16`, `my = -1/2` under the stress (12, -6, 0) is stretched by 1, not by 9/16. -/
example : ∃ S' : Storage ℝ, Post.solution S' .node 2 .UX = .ok 1 ∧
    Tri.compliance 16 (-1 / 2) .stress *ᵥ ![12, -6, 0] = ![9 / 16, 0, 0] := by
  obtain ⟨S', e', h⟩ := sheet_solved .stress 16 (-1 / 2) (by simp [Tri.elast]; norm_num) (by simp [Tri.elast])
  have hc : Tri.compliance 16 (-1 / 2) .stress *ᵥ ![12, -6, 0] = ![9 / 16, 0, 0] := by
    funext r
    fin_cases r <;> simp [Tri.compliance, Matrix.mulVec, dotProduct, Fin.sum_univ_three] <;> norm_num
  have := (C96_plane_stress_violated (t := 0) (H := sheetH) (σ := ![12, -6, 0]) (Y := 16) (my := -1 / 2) (by norm_num) (by norm_num)
    (by norm_num) (by
      rw [hc]
      funext r
      fin_cases r <;> simp [Tri.symGrad, sheetH] <;> norm_num)
    sheet_legal sheet_loads (sheet_placed _ _ _) (sheet_els _ _ _) sheet_boundary sheet_regs
    (fun n i => sheet_free (by simp) (by simp) n i) sheet_values sheet_field (by simp [sheetStorage, Storage.fresh]) h).1
  refine ⟨S', ?_, hc⟩
  rw [show DofType.UX = axis2 0 from rfl, (this 2 0 (by decide)).1]
  simp [sheetH, sheet, Matrix.mulVec, dotProduct, Fin.sum_univ_two]

end Nla3d.Struct
