import Verif.Struct.Linearity
import Verif.Bars.Props
import Verif.Tetra.Props

/-!
# Bars and tetrahedra in a solved model

`geo` gives the position of each node. `TrussEl` and `TetraEl` say that what an element hands over to the storage is what
the model of its `buildK` computes from the positions of its nodes.
-/

noncomputable section

namespace Nla3d.Struct

open Nla3d.Dof Nla3d.Block Nla3d.Sparse Nla3d.Storage Nla3d.Solver Finset
open scoped Matrix

/-! ## Specification -/

/-- The displacement DoFs. -/
def axis : Fin 3 → DofType := ![.UX, .UY, .UZ]

/-- The displacement of a node. -/
def nodal (u : Key → ℝ) (n : Nat) : Fin 3 → ℝ := fun i => u (.node, n, axis i)

/-- An element of type TRUSS3 between nodes `n 0` and `n 1`: the upper triangle of its matrix is that computed by `buildK`. -/
structure TrussEl (geo : Nat → Fin 3 → ℝ) (n : Fin 2 → Nat) (E A : ℝ) (x : LinEl ℝ) : Prop where
  nodes : x.nodes = [n 0, n 1]
  dofs : x.dofs = [.UX, .UY, .UZ]
  built : ∃ Ke, Bars.trussK (fun a => geo (n a)) E A = some Ke ∧ ∀ i j : Fin 6, i ≤ j → x.Ke i j = Ke i j
  noLoad : x.Fe = none

/-- An element of type TETRA0 with the members `e`: the matrix and the load vector handed over are those `buildK` computes. -/
structure TetraEl (geo : Nat → Fin 3 → ℝ) (n : Fin 4 → Nat) (e : Tetra.Elem0) (x : LinEl ℝ) : Prop where
  nodes : x.nodes = [n 0, n 1, n 2, n 3]
  dofs : x.dofs = [.UX, .UY, .UZ]
  built : ∃ e1, Tetra.buildK0 (fun a => geo (n a)) e =
    .ok (e1, (packed 12).map (fun p => x.Ke p.1 p.2), x.Fe.map fun f => (List.range 12).map f)

/-- The field `t + H x`. -/
def affine (geo : Nat → Fin 3 → ℝ) (t : Fin 3 → ℝ) (H : Matrix (Fin 3) (Fin 3) ℝ) : Key → ℝ
  | (.node, n, .UX) => t 0 + (H *ᵥ geo n) 0
  | (.node, n, .UY) => t 1 + (H *ᵥ geo n) 1
  | (.node, n, .UZ) => t 2 + (H *ᵥ geo n) 2
  | _ => 0

theorem nodal_affine (geo : Nat → Fin 3 → ℝ) (t : Fin 3 → ℝ) (H : Matrix (Fin 3) (Fin 3) ℝ) (n : Nat) :
    nodal (affine geo t H) n = t + H *ᵥ geo n := by
  funext i
  fin_cases i <;> rfl

/-! ## Elements with three displacements per node -/

/-- The values at the DoFs of an element, one node after the other. -/
def vecOf {m : Nat} (U : Fin m → Fin 3 → ℝ) : Fin (m * 3) → ℝ :=
  fun j => U ⟨j.val / 3, by omega⟩ ⟨j.val % 3, Nat.mod_lt _ (by norm_num)⟩

/-- An element with the matrix `M` and the load `F`. -/
structure Solid (x : LinEl ℝ) {m : Nat} (n : Fin m → Nat) (M : Matrix (Fin (m * 3)) (Fin (m * 3)) ℝ) (F : Fin (m * 3) → ℝ) : Prop where
  nodes : x.nodes = List.ofFn n
  dofs : x.dofs = [.UX, .UY, .UZ]
  matrix : ∀ i j : Fin (m * 3), x.Ke i j = M i j
  load : ∀ i : Fin (m * 3), x.load i = F i

section solid
variable {x : LinEl ℝ} {m : Nat} {n : Fin m → Nat} {M : Matrix (Fin (m * 3)) (Fin (m * 3)) ℝ} {F : Fin (m * 3) → ℝ}

theorem Solid.size (h : Solid x n M F) : x.n = m * 3 := by
  unfold LinEl.n
  rw [h.nodes, h.dofs, List.length_ofFn]
  rfl

theorem Solid.key (h : Solid x n M F) (j : Fin (m * 3)) :
    localKey x.nodes x.dofs j = (.node, n ⟨j.val / 3, by omega⟩, axis ⟨j.val % 3, Nat.mod_lt _ (by norm_num)⟩) := by
  unfold localKey
  rw [h.nodes, h.dofs]
  have h1 : j.val / 3 < m := by omega
  refine Prod.ext rfl (Prod.ext ?_ ?_)
  · show (List.ofFn n).getD (j.val / 3) 0 = _
    rw [List.getD_eq_getElem?_getD, List.getElem?_ofFn, dif_pos h1]
    rfl
  · show [DofType.UX, .UY, .UZ].getD (j.val % 3) .UNDEFINED = axis ⟨j.val % 3, _⟩
    have : j.val % 3 = 0 ∨ j.val % 3 = 1 ∨ j.val % 3 = 2 := by omega
    rcases this with h | h | h <;> simp only [h] <;> rfl

theorem Solid.value (h : Solid x n M F) (u : Key → ℝ) (j : Fin (m * 3)) :
    u (localKey x.nodes x.dofs j) = vecOf (fun a => nodal u (n a)) j := by
  rw [h.key]; rfl

theorem Solid.force (h : Solid x n M F) (u : Key → ℝ) (i : Fin (m * 3)) :
    x.force u i = (M *ᵥ vecOf (fun a => nodal u (n a))) i - F i := by
  unfold LinEl.force
  rw [h.load, h.size, Finset.sum_range]
  simp only [h.matrix, h.value]
  rfl

theorem Solid.work (h : Solid x n M F) (δ u : Key → ℝ) :
    x.work δ u = vecOf (fun a => nodal δ (n a)) ⬝ᵥ (M *ᵥ vecOf (fun a => nodal u (n a)) - F) := by
  unfold LinEl.work
  rw [h.size, Finset.sum_range]
  simp only [h.force, h.value]
  rfl

theorem Solid.forceOn (h : Solid x n M F) (u : Key → ℝ) (k : Nat) (i : Fin 3) :
    x.forceOn u (.node, k, axis i) = ∑ a : Fin m, if n a = k then
      (M *ᵥ vecOf (fun a => nodal u (n a)) - F) ⟨a.val * 3 + i.val, by omega⟩ else 0 := by
  unfold LinEl.forceOn
  rw [h.size, Finset.sum_range]
  simp only [h.key, h.force]
  rw [← (finProdFinEquiv (m := m) (n := 3)).sum_comp, Fintype.sum_prod_type]
  refine Finset.sum_congr rfl fun a _ => ?_
  rw [Finset.sum_eq_single i]
  · have e1 : (finProdFinEquiv (a, i)).val = a.val * 3 + i.val := by simp [finProdFinEquiv]; omega
    have e2 : (finProdFinEquiv (a, i)) = ⟨a.val * 3 + i.val, by omega⟩ := Fin.ext e1
    rw [e2]
    have e3 : (⟨(a.val * 3 + i.val) / 3, by omega⟩ : Fin m) = a := Fin.ext (by show (a.val * 3 + i.val) / 3 = _; omega)
    have e4 : (⟨(a.val * 3 + i.val) % 3, Nat.mod_lt _ (by norm_num)⟩ : Fin 3) = i := Fin.ext (by show (a.val * 3 + i.val) % 3 = _; omega)
    simp only [e3, e4, Prod.mk.injEq, true_and, and_true, Pi.sub_apply]
  · intro c _ hc
    rw [if_neg]
    intro hh
    have e1 : (finProdFinEquiv (a, c)).val = a.val * 3 + c.val := by simp [finProdFinEquiv]; omega
    simp only [Prod.mk.injEq, true_and] at hh
    have e4 : (⟨(finProdFinEquiv (a, c)).val % 3, Nat.mod_lt _ (by norm_num)⟩ : Fin 3) = c := Fin.ext (by
      show (finProdFinEquiv (a, c)).val % 3 = _; rw [e1]; omega)
    rw [e4] at hh
    have hinj : Function.Injective axis := by
      intro p q; fin_cases p <;> fin_cases q <;> simp [axis]
    exact hc (hinj hh.2)
  · intro hh
    exact absurd (Finset.mem_univ i) hh

end solid

/-! ## Bars -/

theorem vecOf_two (U : Fin 2 → Fin 3 → ℝ) : (vecOf U : Fin 6 → ℝ) = Bars.vec6 U := by
  funext j
  fin_cases j <;> rfl

theorem TrussEl.solid {geo : Nat → Fin 3 → ℝ} {n : Fin 2 → Nat} {E A : ℝ} {x : LinEl ℝ} (h : TrussEl geo n E A x)
    (hs : ∀ a < x.n, ∀ b < x.n, x.Ke a b = x.Ke b a) :
    ∃ Ke, Bars.trussK (fun a => geo (n a)) E A = some Ke ∧ Solid x (m := 2) n (Bars.assembled Ke) 0 := by
  obtain ⟨Ke, h1, h2⟩ := h.built
  have hn : x.n = 6 := by unfold LinEl.n; rw [h.nodes, h.dofs]; rfl
  refine ⟨Ke, h1, ?_, h.dofs, ?_, ?_⟩
  · rw [h.nodes]; rfl
  · intro i j
    show x.Ke i j = if i ≤ j then Ke i j else Ke j i
    by_cases hij : i ≤ j
    · rw [if_pos hij, h2 i j hij]
    · rw [if_neg hij, hs i (by omega) j (by omega), h2 j i (by omega)]
  · intro i
    unfold LinEl.load
    rw [h.noLoad]
    rfl

/-- The forces of a bar are `EA/L` times the elongation, along the bar. -/
theorem truss_mulVec {pos : Fin 2 → Fin 3 → ℝ} (hne : pos 0 ≠ pos 1) {E A : ℝ} {Ke : Matrix (Fin 6) (Fin 6) ℝ}
    (h : Bars.trussK pos E A = some Ke) (u : Fin 2 → Fin 3 → ℝ) :
    Bars.assembled Ke *ᵥ Bars.vec6 u = Bars.vec6 ![
      -(E * A / Bars.length (pos 1 - pos 0) * Bars.elongation pos u) • Bars.unit (pos 1 - pos 0),
      (E * A / Bars.length (pos 1 - pos 0) * Bars.elongation pos u) • Bars.unit (pos 1 - pos 0)] := by
  obtain ⟨Ke', h1, hsym, hen, _, _⟩ := Bars.C42_stiffness hne E A
  rw [h, Option.some.injEq] at h1
  subst h1
  have hadd : ∀ v w : Fin 2 → Fin 3 → ℝ, Bars.vec6 (v + w) = Bars.vec6 v + Bars.vec6 w := by
    intro v w; funext i; fin_cases i <;> rfl
  have hel : ∀ v w : Fin 2 → Fin 3 → ℝ, Bars.elongation pos (v + w) = Bars.elongation pos v + Bars.elongation pos w := by
    intro v w
    unfold Bars.elongation
    rw [← add_div]
    congr 1
    simp only [Bars.dot, Pi.sub_apply, Pi.add_apply]
    ring
  have hpol : ∀ w, Bars.vec6 w ⬝ᵥ (Bars.assembled Ke *ᵥ Bars.vec6 u) =
      E * A / Bars.length (pos 1 - pos 0) * (Bars.elongation pos w * Bars.elongation pos u) := by
    intro w
    have e1 := hen (w + u)
    have e2 := hen w
    have e3 := hen u
    rw [hadd, hel, Matrix.mulVec_add, dotProduct_add, add_dotProduct, add_dotProduct, e2, e3] at e1
    have e4 : Bars.vec6 u ⬝ᵥ (Bars.assembled Ke *ᵥ Bars.vec6 w) = Bars.vec6 w ⬝ᵥ (Bars.assembled Ke *ᵥ Bars.vec6 u) := by
      rw [Matrix.dotProduct_mulVec, ← Matrix.mulVec_transpose, hsym.eq, dotProduct_comm]
    rw [e4] at e1
    linarith
  funext j
  have hone : ∀ (a : Fin 2) (i : Fin 3), (Bars.vec6 fun b c => if b = a ∧ c = i then 1 else 0) ⬝ᵥ (Bars.assembled Ke *ᵥ Bars.vec6 u) =
      (Bars.assembled Ke *ᵥ Bars.vec6 u) ⟨a.val * 3 + i.val, by omega⟩ := by
    intro a i
    rw [dotProduct, Finset.sum_eq_single ⟨a.val * 3 + i.val, by omega⟩]
    · fin_cases a <;> fin_cases i <;> simp [Bars.vec6]
    · intro b _ hb
      fin_cases a <;> fin_cases i <;> fin_cases b <;> simp_all [Bars.vec6]
    · intro hh; exact absurd (Finset.mem_univ _) hh
  have hval : ∀ (a : Fin 2) (i : Fin 3), Bars.elongation pos (fun b c => if b = a ∧ c = i then 1 else 0) =
      (if a = 1 then 1 else -1) * Bars.unit (pos 1 - pos 0) i := by
    intro a i
    fin_cases a <;> fin_cases i <;> simp [Bars.elongation, Bars.unit, Bars.dot] <;> ring
  have key : ∀ (a : Fin 2) (i : Fin 3), (Bars.assembled Ke *ᵥ Bars.vec6 u) ⟨a.val * 3 + i.val, by omega⟩ =
      E * A / Bars.length (pos 1 - pos 0) * ((if a = 1 then 1 else -1) * Bars.unit (pos 1 - pos 0) i * Bars.elongation pos u) := by
    intro a i
    rw [← hone, hpol, hval]
  have k00 := key 0 0
  have k01 := key 0 1
  have k02 := key 0 2
  have k10 := key 1 0
  have k11 := key 1 1
  have k12 := key 1 2
  fin_cases j
  · refine k00.trans ?_; simp [Bars.vec6]; ring
  · refine k01.trans ?_; simp [Bars.vec6]; ring
  · refine k02.trans ?_; simp [Bars.vec6]; ring
  · refine k10.trans ?_; simp [Bars.vec6]; ring
  · refine k11.trans ?_; simp [Bars.vec6]; ring
  · refine k12.trans ?_; simp [Bars.vec6]; ring

/-! ## Tetrahedra -/

theorem vecOf_four (U : Fin 4 → Fin 3 → ℝ) : (vecOf U : Fin 12 → ℝ) = Tetra.vec12 U := rfl

/-- The initial strains a tetrahedron accounts for: given, or of the given stress, plus thermal. -/
def strains0 (e : Tetra.Elem0) : Fin 6 → ℝ := Tetra.addThermal e (Tetra.initial e)

attribute [local irreducible] Tetra.stiff0 Tetra.load0 Tetra.elast

theorem TetraEl.solid {geo : Nat → Fin 3 → ℝ} {n : Fin 4 → Nat} {e : Tetra.Elem0} {x : LinEl ℝ} (h : TetraEl geo n e x)
    (hd : (Tetra.matS fun a => geo (n a)).det ≠ 0) (hc : e.stress = 0 ∨ (Tetra.elast e.E e.my).det ≠ 0)
    (hs : ∀ a < x.n, ∀ b < x.n, x.Ke a b = x.Ke b a) :
    Solid x (m := 4) n (Tetra.stiff0 (fun a => geo (n a)) e.E e.my) (Tetra.load0 (fun a => geo (n a)) e.E e.my (strains0 e)) := by
  obtain ⟨e1, h1⟩ := h.built
  rw [Tetra.buildK0_eq hd e hc, Res.ok.injEq] at h1
  have hn : x.n = 12 := by unfold LinEl.n; rw [h.nodes, h.dofs]; rfl
  have hK : Dense.pack (Tetra.stiff0 (fun a => geo (n a)) e.E e.my) = (packed 12).map fun p => x.Ke p.1 p.2 := by
    split at h1
    · exact congrArg (fun t => t.2.1) h1
    · exact congrArg (fun t => t.2.1) h1
  have hup : ∀ i j : Fin 12, i ≤ j → x.Ke i j = Tetra.stiff0 (fun a => geo (n a)) e.E e.my i j := by
    intro i j hij
    have h2 : (packed 12).map (fun p => Dense.ext (Tetra.stiff0 (fun a => geo (n a)) e.E e.my) p.1 p.2) =
      (packed 12).map fun p => x.Ke p.1 p.2 := hK
    have h3 := List.map_inj_left.mp h2 (i.val, j.val) (mem_packed.mpr ⟨hij, j.2⟩)
    simp only [Dense.ext_fin] at h3
    exact h3.symm
  refine ⟨?_, h.dofs, ?_, ?_⟩
  · rw [h.nodes]; rfl
  · intro i j
    by_cases hij : i ≤ j
    · exact hup i j hij
    · rw [hs i (by omega) j (by omega), hup j i (by omega)]
      exact congrFun (congrFun (Tetra.stiff0_symm (fun a => geo (n a)) e.E e.my) i) j
  · intro i
    unfold LinEl.load
    split at h1
    · have hF := congrArg (fun t => t.2.2) h1
      simp only at hF
      cases hFe : x.Fe with
      | none => rw [hFe] at hF; simp at hF
      | some f =>
        rw [hFe, Option.map_some, Option.some.injEq] at hF
        have h4 := congrArg (fun l => l[i.val]?) hF
        simp only [List.getElem?_ofFn, List.getElem?_map, List.getElem?_range i.2] at h4
        have hi : i.val < 12 := i.2
        rw [dif_pos hi, Option.map_some, Option.some.injEq] at h4
        exact h4.symm
    · rename_i hno
      have hF := congrArg (fun t => t.2.2) h1
      simp only at hF
      cases hFe : x.Fe with
      | some f => rw [hFe] at hF; simp at hF
      | none =>
        simp only [not_or, not_not] at hno
        have hz : strains0 e = 0 := by
          unfold strains0 Tetra.addThermal Tetra.initial
          rw [if_neg hno.1, if_pos hno.2.2, hno.2.1]
        rw [hz]
        unfold Tetra.load0
        simp

end Nla3d.Struct
