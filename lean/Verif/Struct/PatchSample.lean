import Verif.Struct.Patch

/-!
# Meshes that pass the patch test

A tetrahedron divided into four by an inner node, with displacements and with temperatures; a square divided into four irregular
quadrilaterals by an inner node.
-/

noncomputable section

namespace Nla3d.Struct

open Nla3d.Dof Nla3d.Block Nla3d.Sparse Nla3d.Storage Nla3d.Solver Finset
open scoped Matrix

attribute [local irreducible] Tetra.stiff0 Tetra.load0 Tetra.elast Tetra.matS

/-- A tetrahedron with an inner node. -/
def star : Nat → Fin 3 → ℝ
  | 2 => ![4, 0, 0]
  | 3 => ![0, 4, 0]
  | 4 => ![0, 0, 4]
  | 5 => ![1, 1, 1]
  | _ => ![0, 0, 0]

def starNodes : List (Fin 4 → Nat) := [![5, 2, 3, 4], ![1, 5, 3, 4], ![1, 2, 5, 4], ![1, 2, 3, 5]]

def starStorage : Storage ℝ := Storage.fresh 5 [[5, 2, 3, 4], [1, 5, 3, 4], [1, 2, 5, 4], [1, 2, 3, 5]] [] false

/-- The inner node is inside, the others are not. -/
theorem star_inner : Inner starNodes 5 := by
  have h : ((rim starNodes 5).map Prod.swap).Perm (rim starNodes 5) := by decide
  intro p q
  have := List.count_map_of_injective (rim starNodes 5) Prod.swap Prod.swap_injective (p, q)
  rw [Prod.swap_prod_mk] at this
  rw [← this, h.count_eq]

example : ¬Inner starNodes 1 := fun h => absurd (h 2 3) (by decide)

theorem star_det : ∀ n ∈ starNodes, (Tetra.matS fun a => star (n a)).det = 16 := by
  intro n hn
  simp only [starNodes, List.mem_cons, List.not_mem_nil, or_false] at hn
  rcases hn with rfl | rfl | rfl | rfl <;> rw [Tetra.det_matS] <;> simp [star] <;> norm_num

/-! ## Displacements -/

def starMat : Tetra.Elem0 := Tetra.fresh 10 (1 / 4) (1 / 20) 60

def starEl (n : Fin 4 → Nat) : LinEl ℝ := tetraEl star n starMat

def starCalls : List RegCall := [(.node, 1, [.UX, .UY, .UZ]), (.node, 2, [.UX, .UY, .UZ]), (.node, 3, [.UX, .UY, .UZ]),
  (.node, 4, [.UX, .UY, .UZ]), (.node, 5, [.UX, .UY, .UZ])]

/-- The gradient of the displacements: stretching, rotation and shear. -/
def starH : Matrix (Fin 3) (Fin 3) ℝ := !![2, 1, 0; 0, -1, 3; 0, 0, 0]

/-- The displacements `(1, 0, 0) + H x` of all nodes but for `UX` of the inner one. -/
def starFixs : List (Bc ℝ) := [⟨1, .UX, 1⟩, ⟨1, .UY, 0⟩, ⟨1, .UZ, 0⟩, ⟨2, .UX, 9⟩, ⟨2, .UY, 0⟩, ⟨2, .UZ, 0⟩, ⟨3, .UX, 5⟩, ⟨3, .UY, -4⟩,
  ⟨3, .UZ, 0⟩, ⟨4, .UX, 1⟩, ⟨4, .UY, 12⟩, ⟨4, .UZ, 0⟩, ⟨5, .UY, 2⟩, ⟨5, .UZ, 0⟩]

theorem starMat_admissible : Tetra.Admissible starMat := by
  refine ⟨?_, ?_, ?_⟩ <;> norm_num [starMat, Tetra.fresh]

theorem star_tetra {n : Fin 4 → Nat} (hn : n ∈ starNodes) : TetraEl star n starMat (starEl n) :=
  tetraEl_tetra (by rw [star_det n hn]; norm_num) starMat_admissible (Or.inl (by norm_num [starMat, Tetra.fresh]))

theorem star_stressed : List.Forall₂ (Stressed star starH (Tetra.hooke (Tetra.lameLam 10 (1 / 4)) (Tetra.lameMu 10 (1 / 4))
    (Tetra.symGrad starH - strains0 starMat))) starNodes (starNodes.map starEl) := by
  have : ∀ n ∈ starNodes, Stressed star starH (Tetra.hooke (Tetra.lameLam 10 (1 / 4)) (Tetra.lameMu 10 (1 / 4))
      (Tetra.symGrad starH - strains0 starMat)) n (starEl n) := fun n hn =>
    ⟨starMat, star_tetra hn, by rw [star_det n hn]; norm_num, starMat_admissible, rfl⟩
  rw [List.forall₂_map_right_iff, List.forall₂_same]
  exact this

theorem starFix_keys : fixKeys starFixs = [(.node, 1, .UX), (.node, 1, .UY), (.node, 1, .UZ), (.node, 2, .UX), (.node, 2, .UY),
    (.node, 2, .UZ), (.node, 3, .UX), (.node, 3, .UY), (.node, 3, .UZ), (.node, 4, .UX), (.node, 4, .UY), (.node, 4, .UZ),
    (.node, 5, .UY), (.node, 5, .UZ)] := rfl

theorem star_legal : LegalModel starStorage starCalls [] (fixKeys starFixs) := by
  rw [starFix_keys]
  refine ⟨⟨?_, ?_, ?_, ?_, ?_, rfl⟩, ?_, ?_, ?_⟩
  · unfold LegalReg; decide
  · decide
  · decide
  · decide
  · intro m hm; simp [starStorage, Storage.fresh] at hm
  · unfold MeshOk; decide
  · intro m hm; simp [starStorage, Storage.fresh] at hm
  · decide

theorem star_placed : ∀ x ∈ starNodes.map starEl, Placed starStorage starCalls x := by
  intro x hx
  obtain ⟨n, hn, rfl⟩ := List.mem_map.mp hx
  refine ⟨?_, ?_, fun i _ j _ => tetraEl_symm _ _ _ i j⟩
  · simp only [starNodes, List.mem_cons, List.not_mem_nil, or_false] at hn
    rcases hn with rfl | rfl | rfl | rfl
    exacts [⟨⟨1, rfl⟩, by decide, by decide⟩, ⟨⟨2, rfl⟩, by decide, by decide⟩, ⟨⟨3, rfl⟩, by decide, by decide⟩,
      ⟨⟨4, rfl⟩, by decide, by decide⟩]
  · have : ∀ n ∈ starNodes, [n 0, n 1, n 2, n 3].Nodup := by decide
    exact this n hn

/-- The stiffness of one element against the displacement of a node, the displacements of its nodes being linear. -/
theorem star_stiff {n : Fin 4 → Nat} (hn : n ∈ starNodes) (c : ℝ) (b : Fin 3 → ℝ)
    (h : ∀ a, (if n a = 5 then (1 : ℝ) else 0) = c + b 0 * star (n a) 0 + b 1 * star (n a) 1 + b 2 * star (n a) 2) :
    (starEl n).forceOn (fun k => if k = (Side.node, 5, DofType.UX) then 1 else 0) (.node, 5, .UX) -
      (starEl n).forceOn (fun _ => 0) (.node, 5, .UX) = 32 * b 0 ^ 2 + 32 / 3 * b 1 ^ 2 + 32 / 3 * b 2 ^ 2 := by
  have hd : (Tetra.matS fun a => star (n a)).det ≠ 0 := by rw [star_det n hn]; norm_num
  have hs := (star_tetra hn).solid hd (Or.inl rfl) (fun i _ j _ => tetraEl_symm _ _ _ i j)
  simp only [← work_single]
  rw [hs.work, hs.work, ← dotProduct_sub, sub_sub_sub_cancel_right, ← Matrix.mulVec_sub]
  have e1 : (vecOf fun a => nodal (fun _ => (0 : ℝ)) (n a) : Fin (4 * 3) → ℝ) = 0 := rfl
  have e2 : (vecOf fun a => nodal (fun k => if k = (Side.node, 5, DofType.UX) then (1 : ℝ) else 0) (n a) : Fin (4 * 3) → ℝ) =
      Tetra.vec12 (Tetra.affineField (fun a => star (n a)) ![c, 0, 0] !![b 0, b 1, b 2; 0, 0, 0; 0, 0, 0]) := by
    rw [vecOf_four]
    congr 1
    funext a i
    have := h a
    fin_cases i
    · simp only [nodal, axis, Tetra.affineField, Fin.sum_univ_three]
      simp
      rw [this]
      ring
    · simp [nodal, axis, Tetra.affineField, Fin.sum_univ_three]
    · simp [nodal, axis, Tetra.affineField, Fin.sum_univ_three]
  rw [e1, e2, sub_zero]
  unfold Tetra.stiff0
  rw [Matrix.smul_mulVec, dotProduct_smul, ← Matrix.mulVec_mulVec, ← Matrix.mulVec_mulVec, Tetra.strain_affine hd,
    Matrix.dotProduct_mulVec, Matrix.vecMul_transpose, Tetra.strain_affine hd,
    Tetra.elast_hooke (by norm_num [starMat, Tetra.fresh]) (by norm_num [starMat, Tetra.fresh]), star_det n hn]
  simp [Tetra.symGrad, Tetra.hooke, starMat, Tetra.fresh, dotProduct, Fin.sum_univ_succ, Tetra.lameLam, Tetra.lameMu]
  ring

theorem star_solved : ∃ S' e', linearSolve Gauss.solveEquations (linear (starNodes.map starEl) (fun _ _ => ()))
    [] starFixs starCalls [] starStorage () = .ok (S', e') := by
  refine one_free (k0 := (.node, 5, .UX)) star_legal rfl (by simp) star_placed (by decide) (by rw [starFix_keys]; decide)
    (by rw [starFix_keys]; decide) (by decide) ?_
  have h1 := star_stiff (n := ![5, 2, 3, 4]) (by decide) 4 ![-1, -1, -1] (by intro a; fin_cases a <;> simp [star] <;> norm_num)
  have h2 := star_stiff (n := ![1, 5, 3, 4]) (by decide) 0 ![1, 0, 0] (by intro a; fin_cases a <;> simp [star] <;> norm_num)
  have h3 := star_stiff (n := ![1, 2, 5, 4]) (by decide) 0 ![0, 1, 0] (by intro a; fin_cases a <;> simp [star] <;> norm_num)
  have h4 := star_stiff (n := ![1, 2, 3, 5]) (by decide) 0 ![0, 0, 1] (by intro a; fin_cases a <;> simp [star] <;> norm_num)
  simp at h1 h2 h3 h4
  simp only [starNodes, List.map_cons, List.map_nil, List.sum_cons, List.sum_nil, add_zero]
  rw [show ∀ a b c d a' b' c' d' : ℝ, a + (b + (c + d)) - (a' + (b' + (c' + d'))) = (a - a') + (b - b') + (c - c') + (d - d') from
    fun a b c d a' b' c' d' => by ring, h1, h2, h3, h4]
  norm_num

/-- C88 on this mesh. -/
example : ∃ S' : Storage ℝ, Post.solution S' .node 5 .UX = .ok 4 := by
  obtain ⟨S', e', h⟩ := star_solved
  have := C88_patch (t := ![1, 0, 0]) star_legal star_placed star_stressed (by
      intro k hk hf
      have : k = (Side.node, 5, axis 0) := by
        rw [starFix_keys] at hf
        revert k
        decide
      exact ⟨5, 0, this, star_inner⟩) (by
      intro f hf
      simp only [starFixs, List.mem_cons, List.not_mem_nil, or_false] at hf
      rcases hf with rfl | rfl | rfl | rfl | rfl | rfl | rfl | rfl | rfl | rfl | rfl | rfl | rfl | rfl <;> norm_num) (by
      intro f hf
      simp only [starFixs, List.mem_cons, List.not_mem_nil, or_false] at hf
      rcases hf with rfl | rfl | rfl | rfl | rfl | rfl | rfl | rfl | rfl | rfl | rfl | rfl | rfl | rfl <;>
        simp [keyOf, affine, starH, star, Matrix.mulVec, dotProduct, Fin.sum_univ_three] <;> norm_num)
      (by simp [starStorage, Storage.fresh]) h 5 0 (by decide)
  refine ⟨S', this.trans ?_⟩
  congr 1
  simp [starH, star, Matrix.mulVec, dotProduct, Fin.sum_univ_three]
  norm_num

/-! ## Temperatures -/

def warmEl (n : Fin 4 → Nat) : LinEl ℝ := tetra1El star n 6

def warmCalls : List RegCall := [(.node, 1, [.TEMP]), (.node, 2, [.TEMP]), (.node, 3, [.TEMP]), (.node, 4, [.TEMP]), (.node, 5, [.TEMP])]

/-- The temperature `7 + x - 2 y` of the corners. -/
def warmFixs : List (Bc ℝ) := [⟨1, .TEMP, 7⟩, ⟨2, .TEMP, 11⟩, ⟨3, .TEMP, -1⟩, ⟨4, .TEMP, 7⟩]

theorem warm_conducts : List.Forall₂ (Conducts star 6) starNodes (starNodes.map warmEl) := by
  rw [List.forall₂_map_right_iff, List.forall₂_same]
  intro n hn
  have hd : (Tetra.matS fun a => star (n a)).det ≠ 0 := by rw [star_det n hn]; norm_num
  exact ⟨⟨rfl, rfl, ⟨_, Tetra.buildK1_eq hd 6⟩, rfl⟩, hd⟩

theorem warm_symm (n : Fin 4 → Nat) (i j : Nat) : (warmEl n).Ke i j = (warmEl n).Ke j i := by
  show Dense.ext _ i j = Dense.ext _ j i
  unfold Dense.ext
  by_cases h : i < 4 ∧ j < 4
  · rw [dif_pos h, dif_pos h.symm]
    exact congrFun (congrFun (cond1_symm _ _).eq _) _
  · rw [dif_neg h, dif_neg fun c => h c.symm]

theorem warmFix_keys : fixKeys warmFixs = [(.node, 1, .TEMP), (.node, 2, .TEMP), (.node, 3, .TEMP), (.node, 4, .TEMP)] := rfl

theorem warm_legal : LegalModel starStorage warmCalls [] (fixKeys warmFixs) := by
  rw [warmFix_keys]
  refine ⟨⟨?_, ?_, ?_, ?_, ?_, rfl⟩, ?_, ?_, ?_⟩
  · unfold LegalReg; decide
  · decide
  · decide
  · decide
  · intro m hm; simp [starStorage, Storage.fresh] at hm
  · unfold MeshOk; decide
  · intro m hm; simp [starStorage, Storage.fresh] at hm
  · decide

theorem warm_placed : ∀ x ∈ starNodes.map warmEl, Placed starStorage warmCalls x := by
  intro x hx
  obtain ⟨n, hn, rfl⟩ := List.mem_map.mp hx
  refine ⟨?_, ?_, fun i _ j _ => warm_symm n i j⟩
  · simp only [starNodes, List.mem_cons, List.not_mem_nil, or_false] at hn
    rcases hn with rfl | rfl | rfl | rfl
    exacts [⟨⟨1, rfl⟩, by decide, by decide⟩, ⟨⟨2, rfl⟩, by decide, by decide⟩, ⟨⟨3, rfl⟩, by decide, by decide⟩,
      ⟨⟨4, rfl⟩, by decide, by decide⟩]
  · have : ∀ n ∈ starNodes, (List.ofFn n).Nodup := by decide
    exact this n hn

theorem warm_stiff {n : Fin 4 → Nat} (hn : n ∈ starNodes) (c : ℝ) (b : Fin 3 → ℝ)
    (h : ∀ a, (if n a = 5 then (1 : ℝ) else 0) = c + ∑ j, b j * star (n a) j) :
    (warmEl n).forceOn (fun k => if k = (Side.node, 5, DofType.TEMP) then 1 else 0) (.node, 5, .TEMP) -
      (warmEl n).forceOn (fun _ => 0) (.node, 5, .TEMP) = -16 * (b ⬝ᵥ b) := by
  have hd : (Tetra.matS fun a => star (n a)).det ≠ 0 := by rw [star_det n hn]; norm_num
  have hs : Scalar (warmEl n) n (Tetra.cond1 (fun a => star (n a)) 6) 0 :=
    ⟨rfl, rfl, fun i j => matrix_of_pack (m := 4) rfl (fun i _ j _ => warm_symm n i j) (cond1_symm _ _) rfl i j, fun _ => rfl⟩
  rw [← work_single, ← work_single, hs.work, hs.work, sub_zero, sub_zero, ← dotProduct_sub, ← Matrix.mulVec_sub]
  have e1 : (fun a => temp (fun k => if k = (Side.node, 5, DofType.TEMP) then (1 : ℝ) else 0) (n a)) =
      fun a => c + ∑ j, b j * star (n a) j := by
    funext a
    rw [← h a]
    simp [temp]
  have e2 : (fun a => temp (fun _ => (0 : ℝ)) (n a)) = 0 := rfl
  rw [e1, e2, sub_zero]
  unfold Tetra.cond1
  rw [Matrix.smul_mulVec, dotProduct_smul, ← Matrix.mulVec_mulVec, Tetra.gradMat_affine hd c b, Matrix.dotProduct_mulVec,
    Matrix.vecMul_transpose, Tetra.gradMat_affine hd c b, star_det n hn, smul_eq_mul]
  ring

/-- C88, heat, on this mesh. -/
example : ∃ S' : Storage ℝ, Post.solution S' .node 5 .TEMP = .ok 6 := by
  obtain ⟨S', e', h⟩ := one_free (k0 := (.node, 5, .TEMP)) (loads := []) (els := starNodes.map warmEl) (update := fun _ _ => ()) (e := ())
    warm_legal rfl (by simp) warm_placed (by decide) (by rw [warmFix_keys]; decide) (by rw [warmFix_keys]; decide) (by decide) (by
      have h1 := warm_stiff (n := ![5, 2, 3, 4]) (by decide) 4 ![-1, -1, -1] (by
        intro a; fin_cases a <;> simp [star, Fin.sum_univ_three] <;> norm_num)
      have h2 := warm_stiff (n := ![1, 5, 3, 4]) (by decide) 0 ![1, 0, 0] (by intro a; fin_cases a <;> simp [star, Fin.sum_univ_three])
      have h3 := warm_stiff (n := ![1, 2, 5, 4]) (by decide) 0 ![0, 1, 0] (by intro a; fin_cases a <;> simp [star, Fin.sum_univ_three])
      have h4 := warm_stiff (n := ![1, 2, 3, 5]) (by decide) 0 ![0, 0, 1] (by intro a; fin_cases a <;> simp [star, Fin.sum_univ_three])
      simp only [starNodes, List.map_cons, List.map_nil, List.sum_cons, List.sum_nil, add_zero]
      rw [show ∀ a b c d a' b' c' d' : ℝ, a + (b + (c + d)) - (a' + (b' + (c' + d'))) = (a - a') + (b - b') + (c - c') + (d - d') from
        fun a b c d a' b' c' d' => by ring, h1, h2, h3, h4]
      simp [dotProduct, Fin.sum_univ_three]
      norm_num)
  have := C88_heat (c := 7) (b := ![1, -2, 0]) warm_legal warm_placed warm_conducts (by
      intro k hk hf
      have : k = (Side.node, 5, .TEMP) := by
        rw [warmFix_keys] at hf
        revert k
        decide
      exact ⟨5, this, star_inner⟩) (by
      intro f hf
      simp only [warmFixs, List.mem_cons, List.not_mem_nil, or_false] at hf
      rcases hf with rfl | rfl | rfl | rfl <;> norm_num) (by
      intro f hf
      simp only [warmFixs, List.mem_cons, List.not_mem_nil, or_false] at hf
      rcases hf with rfl | rfl | rfl | rfl <;> simp [keyOf, linearT, star, Fin.sum_univ_three] <;> norm_num)
      (by simp [starStorage, Storage.fresh]) h 5 (by decide)
  refine ⟨S', this.trans ?_⟩
  congr 1
  simp [star, Fin.sum_univ_three]
  norm_num

/-! ## Quadrilaterals -/

/-- Three by three nodes, that in the middle out of place. -/
def grid : Nat → Fin 3 → ℝ
  | 1 => ![-2, -2, 0]
  | 2 => ![0, -2, 0]
  | 3 => ![2, -2, 0]
  | 4 => ![-2, 0, 0]
  | 5 => ![1 / 2, 1, 0]
  | 6 => ![2, 0, 0]
  | 7 => ![-2, 2, 0]
  | 8 => ![0, 2, 0]
  | _ => ![2, 2, 0]

def gridNodes : List (Fin 4 → Nat) := [![1, 2, 5, 4], ![2, 3, 6, 5], ![4, 5, 8, 7], ![5, 6, 9, 8]]

def gridStorage : Storage ℝ := Storage.fresh 9 [[1, 2, 5, 4], [2, 3, 6, 5], [4, 5, 8, 7], [5, 6, 9, 8]] [] false

theorem grid_inner : InnerPlane gridNodes 5 := by
  have h : (neighbours gridNodes 5 1).Perm (neighbours gridNodes 5 3) := by decide
  exact fun p => h.count_eq p

example : ¬InnerPlane gridNodes 2 := fun h => absurd (h 1) (by decide)

def gridK (n : Fin 4 → Nat) : Matrix (Fin 4) (Fin 4) ℝ := ((Iso.quad.table 0).map (Thermal.condPt (plane grid n) 3)).sum

def gridEl (n : Fin 4 → Nat) : LinEl ℝ where
  nodes := List.ofFn n
  dofs := [.TEMP]
  Ke i j := Dense.ext (gridK n) i j
  Fe := some fun i => ((Iso.quad.table 0).map (Thermal.loadPt (plane grid n) 0)).sum (Fin.ofNat 4 i)

theorem grid_area : ∀ n ∈ gridNodes, 0 < Iso.area (plane grid n) ∧ Iso.area (plane grid n) ≤ 10 := by
  intro n hn
  simp only [gridNodes, List.mem_cons, List.not_mem_nil, or_false] at hn
  rcases hn with rfl | rfl | rfl | rfl <;> simp [Iso.area, plane, grid] <;> norm_num

theorem grid_center (n : Fin 4 → Nat) : (Iso.jac Iso.quad (plane grid n) ![0, 0]).det = Iso.area (plane grid n) / 4 := by
  obtain ⟨b, c, h⟩ := Iso.det_quad (plane grid n)
  rw [h]
  simp

theorem grid_sound {n : Fin 4 → Nat} (hn : n ∈ gridNodes) :
    ∀ q ∈ Iso.quad.table (Iso.schemeIndex 1), 0 < (Iso.jac Iso.quad (plane grid n) q.xi).det := by
  intro q hq
  have : q = ⟨![0, 0], 4⟩ := by
    change q ∈ Iso.quadO1 at hq
    simpa [Iso.quadO1] using hq
  rw [this]
  show 0 < (Iso.jac Iso.quad (plane grid n) ![0, 0]).det
  rw [grid_center]
  have := (grid_area n hn).1
  positivity

theorem grid_plate : List.Forall₂ (Plate grid 1 3) gridNodes (gridNodes.map gridEl) := by
  rw [List.forall₂_map_right_iff, List.forall₂_same]
  intro n hn
  refine ⟨?_, grid_sound hn, by norm_num⟩
  obtain ⟨g, h1, h2, h3⟩ := Iso.makeJacob_good (S := Iso.quad) (o := 1) (pos := plane grid n) (fun q hq => (grid_sound hn q hq).ne')
  refine ⟨rfl, rfl, g, ((Iso.quad.table 0).map (Thermal.loadPt (plane grid n) 0)).sum, _, h1, ?_, rfl, ?_⟩
  · have := Thermal.quadK_eq h3 3 0
    rw [h2] at this
    exact this
  · intro a
    show ((Iso.quad.table 0).map (Thermal.loadPt (plane grid n) 0)).sum (Fin.ofNat 4 a.val) = _
    congr 1
    fin_cases a <;> rfl

theorem gridK_symm (n : Fin 4 → Nat) : (gridK n).IsSymm := by
  apply Thermal.sum_induct (fun K : Matrix (Fin 4) (Fin 4) ℝ => K.IsSymm)
  · exact Matrix.isSymm_zero
  · intro a b ha hb; exact ha.add hb
  · intro q _
    rw [Thermal.condPt_eq]
    unfold Matrix.IsSymm
    rw [Matrix.transpose_smul, Matrix.transpose_mul, Matrix.transpose_transpose]

theorem grid_symm (n : Fin 4 → Nat) (i j : Nat) : (gridEl n).Ke i j = (gridEl n).Ke j i := by
  show Dense.ext _ i j = Dense.ext _ j i
  unfold Dense.ext
  by_cases h : i < 4 ∧ j < 4
  · rw [dif_pos h, dif_pos h.symm]
    exact congrFun (congrFun (gridK_symm n).eq _) _
  · rw [dif_neg h, dif_neg fun c => h c.symm]

def gridCalls : List RegCall := [(.node, 1, [.TEMP]), (.node, 2, [.TEMP]), (.node, 3, [.TEMP]), (.node, 4, [.TEMP]), (.node, 5, [.TEMP]),
  (.node, 6, [.TEMP]), (.node, 7, [.TEMP]), (.node, 8, [.TEMP]), (.node, 9, [.TEMP])]

/-- The temperature `1 + 2 x - 4 y` around. -/
def gridFixs : List (Bc ℝ) := [⟨1, .TEMP, 5⟩, ⟨2, .TEMP, 9⟩, ⟨3, .TEMP, 13⟩, ⟨4, .TEMP, -3⟩, ⟨6, .TEMP, 5⟩, ⟨7, .TEMP, -11⟩,
  ⟨8, .TEMP, -7⟩, ⟨9, .TEMP, -3⟩]

theorem gridFix_keys : fixKeys gridFixs = [(.node, 1, .TEMP), (.node, 2, .TEMP), (.node, 3, .TEMP), (.node, 4, .TEMP),
    (.node, 6, .TEMP), (.node, 7, .TEMP), (.node, 8, .TEMP), (.node, 9, .TEMP)] := rfl

theorem grid_legal : LegalModel gridStorage gridCalls [] (fixKeys gridFixs) := by
  rw [gridFix_keys]
  refine ⟨⟨?_, ?_, ?_, ?_, ?_, rfl⟩, ?_, ?_, ?_⟩
  · unfold LegalReg; decide
  · decide
  · decide
  · decide
  · intro m hm; simp [gridStorage, Storage.fresh] at hm
  · unfold MeshOk; decide
  · intro m hm; simp [gridStorage, Storage.fresh] at hm
  · decide

theorem grid_placed : ∀ x ∈ gridNodes.map gridEl, Placed gridStorage gridCalls x := by
  intro x hx
  obtain ⟨n, hn, rfl⟩ := List.mem_map.mp hx
  refine ⟨?_, ?_, fun i _ j _ => grid_symm n i j⟩
  · simp only [gridNodes, List.mem_cons, List.not_mem_nil, or_false] at hn
    rcases hn with rfl | rfl | rfl | rfl
    exacts [⟨⟨1, rfl⟩, by decide, by decide⟩, ⟨⟨2, rfl⟩, by decide, by decide⟩, ⟨⟨3, rfl⟩, by decide, by decide⟩,
      ⟨⟨4, rfl⟩, by decide, by decide⟩]
  · have : ∀ n ∈ gridNodes, (List.ofFn n).Nodup := by decide
    exact this n hn

/-- The stiffness of one element at the node in the middle. -/
theorem grid_stiff {n : Fin 4 → Nat} (hn : n ∈ gridNodes) (a : Fin 4) (ha : ∀ b, n b = 5 ↔ b = a)
    (hy : 1 ≤ (plane grid n (a + 1) 1 - plane grid n (a + 3) 1) ^ 2) :
    1 / 20 ≤ (gridEl n).forceOn (fun k => if k = (Side.node, 5, DofType.TEMP) then 1 else 0) (.node, 5, .TEMP) -
      (gridEl n).forceOn (fun _ => 0) (.node, 5, .TEMP) := by
  have hs : Scalar (gridEl n) n (gridK n) ((Iso.quad.table 0).map (Thermal.loadPt (plane grid n) 0)).sum := by
    refine ⟨rfl, rfl, fun i j => matrix_of_pack (m := 4) rfl (fun i _ j _ => grid_symm n i j) (gridK_symm _) rfl i j, fun i => ?_⟩
    show ((Iso.quad.table 0).map (Thermal.loadPt (plane grid n) 0)).sum (Fin.ofNat 4 i.val) = _
    congr 1
    fin_cases i <;> rfl
  rw [← work_single, ← work_single, hs.work, hs.work, ← dotProduct_sub, sub_sub_sub_cancel_right, ← Matrix.mulVec_sub]
  have e1 : (fun b => temp (fun k => if k = (Side.node, 5, DofType.TEMP) then (1 : ℝ) else 0) (n b)) = Pi.single a 1 := by
    funext b
    simp only [temp, Prod.mk.injEq, true_and, and_true, ha b, Pi.single_apply]
  have e2 : (fun a => temp (fun _ => (0 : ℝ)) (n a)) = 0 := rfl
  rw [e1, e2, sub_zero, Matrix.mulVec_single_one, single_one_dotProduct]
  have e3 : gridK n = Thermal.condPt (plane grid n) 3 ⟨![0, 0], 4⟩ := by
    unfold gridK
    show (Iso.quadO1.map _).sum = _
    simp [Iso.quadO1]
  have hd : 0 < (Iso.jac Iso.quad (plane grid n) ![0, 0]).det := by
    rw [grid_center]
    have := (grid_area n hn).1
    positivity
  obtain ⟨⟨p, q, h1⟩, _⟩ := det_grads (plane grid n) a
  have h2 := h1 ![0, 0] hd.ne'
  simp only [Matrix.cons_val_zero, Matrix.cons_val_one, mul_zero, add_zero] at h2
  show 1 / 20 ≤ gridK n a a
  rw [e3, Thermal.condPt_eq]
  show 1 / 20 ≤ 4 * (Iso.jac Iso.quad (plane grid n) ![0, 0]).det * 3 *
    ∑ i, Iso.grads Iso.quad (plane grid n) ![0, 0] a i * Iso.grads Iso.quad (plane grid n) ![0, 0] a i
  rw [Fin.sum_univ_two]
  have hle : (Iso.jac Iso.quad (plane grid n) ![0, 0]).det ≤ 5 / 2 := by
    rw [grid_center]
    have := (grid_area n hn).2
    linarith
  have hsq := mul_self_nonneg (Iso.grads Iso.quad (plane grid n) ![0, 0] a 1)
  generalize (Iso.jac Iso.quad (plane grid n) ![0, 0]).det = d at *
  generalize Iso.grads Iso.quad (plane grid n) ![0, 0] a 0 = g0 at *
  generalize Iso.grads Iso.quad (plane grid n) ![0, 0] a 1 = g1 at *
  have h3 : 1 / 64 ≤ (d * g0) ^ 2 := by rw [h2, div_pow]; linarith
  have h4 : (d * g0) ^ 2 ≤ 5 / 2 * (d * (g0 * g0)) := by
    have : (d * g0) ^ 2 = d * (d * (g0 * g0)) := by ring
    rw [this]
    exact mul_le_mul_of_nonneg_right hle (mul_nonneg hd.le (mul_self_nonneg _))
  have h5 : 0 ≤ d * (g1 * g1) := mul_nonneg hd.le hsq
  linarith

/-- C88, plates, on this mesh. -/
example : ∃ S' : Storage ℝ, Post.solution S' .node 5 .TEMP = .ok (-2) := by
  obtain ⟨S', e', h⟩ := one_free (k0 := (.node, 5, .TEMP)) (loads := []) (els := gridNodes.map gridEl) (update := fun _ _ => ()) (e := ())
    grid_legal rfl (by simp) grid_placed (by decide) (by rw [gridFix_keys]; decide) (by rw [gridFix_keys]; decide) (by decide) (by
      have h1 := grid_stiff (n := ![1, 2, 5, 4]) (by decide) 2 (by decide) (by simp [plane, grid])
      have h2 := grid_stiff (n := ![2, 3, 6, 5]) (by decide) 3 (by decide) (by simp [plane, grid])
      have h3 := grid_stiff (n := ![4, 5, 8, 7]) (by decide) 1 (by decide) (by simp [plane, grid])
      have h4 := grid_stiff (n := ![5, 6, 9, 8]) (by decide) 0 (by decide) (by simp [plane, grid])
      simp only [gridNodes, List.map_cons, List.map_nil, List.sum_cons, List.sum_nil, add_zero]
      rw [show ∀ a b c d a' b' c' d' : ℝ, a + (b + (c + d)) - (a' + (b' + (c' + d'))) = (a - a') + (b - b') + (c - c') + (d - d') from
        fun a b c d a' b' c' d' => by ring]
      refine le_trans ?_ (le_abs_self _)
      have : (1 / 10 ^ 20 : ℝ) ≤ 1 / 20 := by norm_num
      linarith)
  have := C88_plate (c := 1) (b := ![2, -4, 0]) rfl grid_legal grid_placed grid_plate (by
      intro k hk hf
      have : k = (Side.node, 5, .TEMP) := by
        rw [gridFix_keys] at hf
        revert k
        decide
      exact ⟨5, this, grid_inner⟩) (by
      intro f hf
      simp only [gridFixs, List.mem_cons, List.not_mem_nil, or_false] at hf
      rcases hf with rfl | rfl | rfl | rfl | rfl | rfl | rfl | rfl <;> norm_num) (by
      intro f hf
      simp only [gridFixs, List.mem_cons, List.not_mem_nil, or_false] at hf
      rcases hf with rfl | rfl | rfl | rfl | rfl | rfl | rfl | rfl <;> simp [keyOf, linearT, grid, Fin.sum_univ_three] <;> norm_num)
      (by simp [gridStorage, Storage.fresh]) h 5 (by decide)
  refine ⟨S', this.trans ?_⟩
  congr 1
  simp [grid, Fin.sum_univ_three]
  norm_num

end Nla3d.Struct
