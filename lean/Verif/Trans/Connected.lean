import Verif.Trans.Steady

/-!
# C111: heat models

Bodies of quadrilaterals whose heat can flow to a fixed node or into the surroundings.
-/

noncomputable section

namespace Nla3d.Trans

open Nla3d.Dof Nla3d.Block Nla3d.Sparse Nla3d.Storage Nla3d.Solver Nla3d.Struct Finset
open scoped Matrix

/-! ## Specification -/

/-- Heat flows through the element: positive conductivity and at least two by two points; film coefficient not negative. -/
def Conducts : HeatElem → Prop
  | .quad _ o k _ => 2 ≤ o ∧ 0 < k
  | .line _ _ s => 0 ≤ s.pre.htc

/-- Nodes from which heat can flow to a fixed node or, through a side of a quadrilateral, into the surroundings. -/
inductive Drained (hs : List HeatElem) (fixs : List (Bc ℝ)) : Nat → Prop where
  | fixed {n : Nat} : (Side.node, n, DofType.TEMP) ∈ fixKeys fixs → Drained hs fixs n
  | film {n : Fin 2 → Nat} {o : Nat} {s : Thermal.Surface} {n' : Fin 4 → Nat} {o' : Nat} {k f : ℝ} (a b : Fin 4) : HeatElem.line n o s ∈ hs →
      0 < s.pre.htc → HeatElem.quad n' o' k f ∈ hs → n' a = n 0 → n' b = n 1 → Drained hs fixs (n 0)
  | through {n : Fin 4 → Nat} {o : Nat} {k f : ℝ} (a b : Fin 4) : HeatElem.quad n o k f ∈ hs → Drained hs fixs (n a) → Drained hs fixs (n b)

/-! ## Shapes -/

theorem corner_points {o : Nat} (ho : 2 ≤ o) : ∃ g : ℝ, 0 < g ∧ ∀ s ∈ [g, -g], ∀ t ∈ [g, -g],
    ∃ q ∈ Iso.quad.table (Iso.schemeIndex o), q.xi = ![s, t] := by
  have hi : Iso.schemeIndex o = 1 ∨ Iso.schemeIndex o = 2 := by
    unfold Iso.schemeIndex
    rcases Nat.lt_or_ge 3 o with h | h
    · right
      simp [show ¬ o < 1 by omega, h]
    · interval_cases o
      · left; rfl
      · right; rfl
  rcases hi with h | h
  · rw [h]
    refine ⟨0.5773502691896258, by norm_num, ?_⟩
    intro s hs t ht
    simp only [List.mem_cons, List.not_mem_nil, or_false] at hs ht
    show ∃ q ∈ Iso.quadO2, _
    rcases hs with rfl | rfl <;> rcases ht with rfl | rfl <;> simp [Iso.quadO2]
  · rw [h]
    refine ⟨0.7745966692414834, by norm_num, ?_⟩
    intro s hs t ht
    simp only [List.mem_cons, List.not_mem_nil, or_false] at hs ht
    show ∃ q ∈ Iso.quadO3, _
    rcases hs with rfl | rfl <;> rcases ht with rfl | rfl <;> simp [Iso.quadO3]

theorem line_table_pos (i : Fin 3) : ∀ q ∈ Iso.line.table i, (0 : ℝ) < q.w := by
  have h1 : ∀ q ∈ Iso.lineO1, (0 : ℝ) < q.w := by simp [Iso.lineO1]
  have h2 : ∀ q ∈ Iso.lineO2, (0 : ℝ) < q.w := by simp [Iso.lineO2]
  have h3 : ∀ q ∈ Iso.lineO3, (0 : ℝ) < q.w := by simp [Iso.lineO3]; norm_num
  fin_cases i
  · exact h1
  · exact h2
  · exact h3

/-- A temperature that is zero at the points is zero. -/
theorem zero_at_points {o : Nat} (ho : 2 ≤ o) {d : Fin 4 → ℝ}
    (h : ∀ q ∈ Iso.quad.table (Iso.schemeIndex o), ∑ a, Iso.quad.formFunc q.xi a * d a = 0) (a : Fin 4) : d a = 0 := by
  obtain ⟨g, hg, hp⟩ := corner_points ho
  have key : ∀ s ∈ [g, -g], ∀ t ∈ [g, -g], (1 - s) * (1 - t) * d 0 + (1 + s) * (1 - t) * d 1 + (1 + s) * (1 + t) * d 2 +
      (1 - s) * (1 + t) * d 3 = 0 := by
    intro s hs t ht
    obtain ⟨q, hq, hx⟩ := hp s hs t ht
    have := h q hq
    rw [hx, Fin.sum_univ_four] at this
    simp only [Iso.quad, Matrix.cons_val] at this
    linarith
  have k1 := key g (by simp) g (by simp)
  have k2 := key g (by simp) (-g) (by simp)
  have k3 := key (-g) (by simp) g (by simp)
  have k4 := key (-g) (by simp) (-g) (by simp)
  have e0 : d 0 + d 1 + d 2 + d 3 = 0 := by linarith
  have e1 : -d 0 + d 1 + d 2 - d 3 = 0 := by
    have : g * (-d 0 + d 1 + d 2 - d 3) = 0 := by linarith
    exact (mul_eq_zero.mp this).resolve_left hg.ne'
  have e2 : -d 0 - d 1 + d 2 + d 3 = 0 := by
    have : g * (-d 0 - d 1 + d 2 + d 3) = 0 := by linarith
    exact (mul_eq_zero.mp this).resolve_left hg.ne'
  have e3 : d 0 - d 1 + d 2 - d 3 = 0 := by
    have : g * g * (d 0 - d 1 + d 2 - d 3) = 0 := by linarith
    exact (mul_eq_zero.mp this).resolve_left (mul_pos hg hg).ne'
  fin_cases a <;> simp only [Fin.zero_eta, Fin.mk_one, Fin.reduceFinMk] <;> linarith

/-- A temperature without gradient at the points is uniform. -/
theorem uniform_at_points {o : Nat} (ho : 2 ≤ o) {d : Fin 4 → ℝ}
    (h : ∀ q ∈ Iso.quad.table (Iso.schemeIndex o), ∀ j, ∑ a, Iso.quad.formFuncDeriv q.xi a j * d a = 0) (a b : Fin 4) : d a = d b := by
  obtain ⟨g, hg, hp⟩ := corner_points ho
  have key : ∀ s ∈ [g, -g], ∀ t ∈ [g, -g], (1 - t) * (d 1 - d 0) + (1 + t) * (d 2 - d 3) = 0 ∧
      (1 - s) * (d 3 - d 0) + (1 + s) * (d 2 - d 1) = 0 := by
    intro s hs t ht
    obtain ⟨q, hq, hx⟩ := hp s hs t ht
    have h0 := h q hq 0
    have h1 := h q hq 1
    rw [hx, Fin.sum_univ_four] at h0 h1
    simp only [Iso.quad, Matrix.cons_val] at h0 h1
    constructor <;> linarith
  have k1 := key g (by simp) g (by simp)
  have k2 := key (-g) (by simp) (-g) (by simp)
  have a1 : (d 1 - d 0) + (d 2 - d 3) = 0 := by linarith [k1.1, k2.1]
  have a2 : (d 3 - d 0) + (d 2 - d 1) = 0 := by linarith [k1.2, k2.2]
  have a3 : (d 2 - d 3) - (d 1 - d 0) = 0 := by
    have : g * ((d 2 - d 3) - (d 1 - d 0)) = 0 := by linarith [k1.1, k2.1]
    exact (mul_eq_zero.mp this).resolve_left hg.ne'
  have all : ∀ a, d a = d 0 := by
    intro a
    fin_cases a <;> simp only [Fin.zero_eta, Fin.mk_one, Fin.reduceFinMk] <;> linarith
  rw [all a, all b]

/-! ## Forms -/

theorem Scalar.form {x : LinEl ℝ} {m : Nat} {n : Fin m → Nat} {M : Matrix (Fin m) (Fin m) ℝ} {F : Fin m → ℝ} (h : Scalar x n M F) (u v : Key → ℝ) :
    capWork x u v = (fun a => temp u (n a)) ⬝ᵥ (M *ᵥ fun a => temp v (n a)) := by
  have h0 : Scalar { x with Fe := none } n M 0 := ⟨h.nodes, h.dofs, h.matrix, fun _ => rfl⟩
  unfold capWork
  rw [h0.work, sub_zero]

/-- The squares of the gradients, and the squares of the values at the film. -/
def squares (geo : Nat → Fin 3 → ℝ) (D : Key → ℝ) : HeatElem → ℝ
  | .quad n o k _ => ((Iso.quad.table (Iso.schemeIndex o)).map fun q => Thermal.wdet (plane geo n) q * k *
      ∑ i, (Thermal.B (plane geo n) q.xi *ᵥ fun a => temp D (n a)) i ^ 2).sum
  | .line n o s => ((Iso.line.table (Iso.schemeIndex o)).map fun q => q.w * (Iso.lineJacob o fun a => geo (n a)).det * s.pre.htc *
      (∑ a, Iso.line.formFunc q.xi a * temp D (n a)) ^ 2).sum

/-- The work of an element on a change. -/
theorem built_form {geo : Nat → Fin 3 → ℝ} {h : HeatElem} {x : LinEl ℝ} (hb : h.Built geo x) (hok : h.Sound geo)
    (hs : ∀ a < x.n, ∀ b < x.n, x.Ke a b = x.Ke b a) (D : Key → ℝ) : capWork x D D = squares geo D h := by
  cases h with
  | quad n o k source =>
    obtain ⟨h1, h2, g, F, f, h3, h4, h5, h6⟩ := hb
    obtain ⟨g', e4, e6, e5⟩ := Iso.makeJacob_good (S := Iso.quad) (o := o) (pos := plane geo n) (fun q hq => (hok.1 q hq).ne')
    rw [h3, Res.ok.injEq] at e4
    subst e4
    have e7 := Thermal.quadK_eq e5 k source
    rw [h4, e6, Res.ok.injEq, Prod.mk.injEq] at e7
    have hn : x.n = 4 := by unfold LinEl.n; rw [h1, h2]; rfl
    have hsym : (((Iso.quad.table (Iso.schemeIndex o)).map (Thermal.condPt (plane geo n) k)).sum).IsSymm := by
      apply Thermal.sum_induct (fun K : Matrix (Fin 4) (Fin 4) ℝ => K.IsSymm)
      · exact Matrix.isSymm_zero
      · intro a b ha hb; exact ha.add hb
      · intro q _
        rw [Thermal.condPt_eq]
        unfold Matrix.IsSymm
        rw [Matrix.transpose_smul, Matrix.transpose_mul, Matrix.transpose_transpose]
    have hS : Scalar { x with Fe := none } n _ 0 := ⟨h1, h2, fun i j => matrix_of_pack (x := { x with Fe := none }) hn hs hsym e7.1.symm i j, fun _ => rfl⟩
    unfold capWork
    rw [hS.work, sub_zero]
    simp only [squares]
    generalize Iso.quad.table (Iso.schemeIndex o) = qs
    generalize (fun a => temp D (n a)) = d
    induction qs with
    | nil => simp
    | cons q qs ih =>
      simp only [List.map_cons, List.sum_cons, Matrix.add_mulVec, dotProduct_add]
      rw [ih, Thermal.condPt_eq, Matrix.smul_mulVec, dotProduct_smul, ← Matrix.mulVec_mulVec, Matrix.dotProduct_mulVec, Matrix.vecMul_transpose]
      congr 1
      rw [smul_eq_mul]
      congr 1
      exact Finset.sum_congr rfl fun i _ => (pow_two _).symm
  | line n o s =>
    obtain ⟨h1, h2, f, h4, h5⟩ := hb
    have hd : 0 < (Iso.lineJacob o fun a => geo (n a)).det := by
      have := Iso.length_pos hok
      show 0 < Iso.length (fun i => geo (n 1) i - geo (n 0) i) * 0.5
      positivity
    have e3 := Thermal.surfaceK_eq hd s.pre
    rw [h4, Res.ok.injEq, Prod.mk.injEq] at e3
    have hn : x.n = 2 := by unfold LinEl.n; rw [h1, h2]; rfl
    have hsym : (((Iso.line.table (Iso.lineJacob o fun a => geo (n a)).scheme).map
        (Thermal.convPt s.pre.htc (Iso.lineJacob o fun a => geo (n a)).det)).sum).IsSymm := by
      apply Thermal.sum_induct (fun K : Matrix (Fin 2) (Fin 2) ℝ => K.IsSymm)
      · exact Matrix.isSymm_zero
      · intro a b ha hb; exact ha.add hb
      · intro q _; exact Thermal.convPt_symm _ _ q
    have hS : Scalar { x with Fe := none } n _ 0 := ⟨h1, h2, fun i j => matrix_of_pack (x := { x with Fe := none }) hn hs hsym e3.1.symm i j, fun _ => rfl⟩
    unfold capWork
    rw [hS.work, sub_zero]
    show _ = ((Iso.line.table (Iso.lineJacob o fun a => geo (n a)).scheme).map _).sum
    generalize Iso.line.table (Iso.lineJacob o fun a => geo (n a)).scheme = qs
    generalize (Iso.lineJacob o fun a => geo (n a)).det = d
    induction qs with
    | nil => simp
    | cons q qs ih =>
      simp only [List.map_cons, List.sum_cons, Matrix.add_mulVec, dotProduct_add]
      rw [ih]
      congr 1
      simp only [dotProduct, Matrix.mulVec, Thermal.convPt, Matrix.of_apply, Fin.sum_univ_two]
      ring

/-! ## Resistance -/

variable {S0 : Storage ℝ} {calls : List RegCall} {new : List (Mpc ℝ)} {loads fixs : List (Bc ℝ)} {els caps : List (LinEl ℝ)}
  {geo : Nat → Fin 3 → ℝ} {hs : List HeatElem} {bs : List Body}

theorem capForm_nonneg (hcaps : List.Forall₂ (fun b x => b.Built geo x) bs caps) (hokc : ∀ b ∈ bs, b.Sound geo)
    (hc : ∀ x ∈ caps, Placed S0 calls x) (v : Key → ℝ) : 0 ≤ capForm caps v v := by
  rw [capForm_square hcaps hokc hc]
  exact square_nonneg hokc v

/-- Capacities resist every change of the values at their nodes. -/
theorem heat_capacity (hcaps : List.Forall₂ (fun b x => b.Built geo x) bs caps) (hokc : ∀ b ∈ bs, b.Sound geo)
    (hc : ∀ x ∈ caps, Placed S0 calls x) (hmass : ∀ b ∈ bs, 2 ≤ b.o ∧ 0 < b.rho ∧ 0 < b.c)
    (hcover : ∀ k ∈ regKeys calls, k ∉ fixKeys fixs → ∃ b ∈ bs, ∃ a, k = (.node, b.n a, .TEMP)) : Resists (regKeys calls) fixs caps := by
  intro D hD ⟨k, hk⟩
  rw [capForm_sum hc, capForm_square hcaps hokc hc]
  have hkr : k ∈ regKeys calls ∧ k ∉ fixKeys fixs := by
    by_contra hcon
    exact hk (hD k (by tauto))
  obtain ⟨b, hb, a, rfl⟩ := hcover k hkr.1 hkr.2
  refine lt_of_le_of_ne (square_nonneg hokc D) fun h0 => hk ?_
  have hterm : ∀ b ∈ bs, 0 ≤ b.integral geo (· ^ 2) D ∧ ∀ q ∈ Iso.quad.table (Iso.schemeIndex b.o),
      0 ≤ q.w * (Iso.jac Iso.quad (plane geo b.n) q.xi).det * (b.rho * b.c * (∑ a, Iso.quad.formFunc q.xi a * temp D (b.n a)) ^ 2) := by
    intro b hb
    have h2 : ∀ q ∈ Iso.quad.table (Iso.schemeIndex b.o),
        0 ≤ q.w * (Iso.jac Iso.quad (plane geo b.n) q.xi).det * (b.rho * b.c * (∑ a, Iso.quad.formFunc q.xi a * temp D (b.n a)) ^ 2) := by
      intro q hq
      obtain ⟨h1, h2, h3⟩ := hokc b hb
      exact mul_nonneg (mul_nonneg (Thermal.table_pos _ q hq).le (h1 q hq).le) (mul_nonneg (mul_nonneg h2 h3) (sq_nonneg _))
    refine ⟨List.sum_nonneg fun z hz => ?_, h2⟩
    obtain ⟨q, hq, rfl⟩ := List.mem_map.mp hz
    exact h2 q hq
  have hb0 : b.integral geo (· ^ 2) D = 0 :=
    List.all_zero_of_le_zero_le_of_sum_eq_zero (l := bs.map fun b : Body => b.integral geo (· ^ 2) D)
      (by simp only [List.forall_mem_map]; exact fun b hb => (hterm b hb).1) h0.symm (List.mem_map.mpr ⟨b, hb, rfl⟩)
  obtain ⟨m1, m2, m3⟩ := hmass b hb
  refine zero_at_points (d := fun a => temp D (b.n a)) m1 (fun q hq => ?_) a
  have hq0 : q.w * (Iso.jac Iso.quad (plane geo b.n) q.xi).det * (b.rho * b.c * (∑ a, Iso.quad.formFunc q.xi a * temp D (b.n a)) ^ 2) = 0 :=
    List.all_zero_of_le_zero_le_of_sum_eq_zero (l := (Iso.quad.table (Iso.schemeIndex b.o)).map fun q : Iso.QuadPt 2 =>
      q.w * (Iso.jac Iso.quad (plane geo b.n) q.xi).det * (b.rho * b.c * (∑ a, Iso.quad.formFunc q.xi a * temp D (b.n a)) ^ 2))
      (by simp only [List.forall_mem_map]; exact (hterm b hb).2) hb0 (List.mem_map.mpr ⟨q, hq, rfl⟩)
  have hw := mul_pos (Thermal.table_pos _ q hq) ((hokc b hb).1 q hq)
  have hm := mul_pos m2 m3
  rcases mul_eq_zero.mp hq0 with h | h
  · exact absurd h hw.ne'
  · rcases mul_eq_zero.mp h with h | h
    · exact absurd h hm.ne'
    · exact pow_eq_zero_iff (two_ne_zero) |>.mp h

theorem forall₂_mem {α β : Type} {R : α → β → Prop} {l : List α} {m : List β} (h : List.Forall₂ R l m) {a : α} (ha : a ∈ l) : ∃ b ∈ m, R a b := by
  induction h with
  | nil => simp at ha
  | @cons x y l m hx _ ih =>
    rcases List.mem_cons.mp ha with rfl | ha
    · exact ⟨y, by simp, hx⟩
    · obtain ⟨b, hb, hr⟩ := ih ha
      exact ⟨b, by simp [hb], hr⟩

theorem forall₂_mem' {α β : Type} {R : α → β → Prop} {l : List α} {m : List β} (h : List.Forall₂ R l m) {b : β} (hb : b ∈ m) : ∃ a ∈ l, R a b := by
  induction h with
  | nil => simp at hb
  | @cons x y l m hx _ ih =>
    rcases List.mem_cons.mp hb with rfl | hb
    · exact ⟨x, by simp, hx⟩
    · obtain ⟨a, ha, hr⟩ := ih hb
      exact ⟨a, by simp [ha], hr⟩

/-- Uniform on a quadrilateral; zero on a film if uniform there. -/
def Still (D : Key → ℝ) : HeatElem → Prop
  | .quad n _ _ _ => ∀ a b, temp D (n a) = temp D (n b)
  | .line n _ s => 0 < s.pre.htc → temp D (n 0) = temp D (n 1) → temp D (n 0) = 0

/-- The work of an element is not negative. Without work on a quadrilateral the change is uniform; without work at a film its mean is zero. -/
theorem built_still {h : HeatElem} {x : LinEl ℝ} (hb : h.Built geo x) (hok : h.Sound geo) (hc : Conducts h)
    (hsym : ∀ a < x.n, ∀ b < x.n, x.Ke a b = x.Ke b a) (D : Key → ℝ) : 0 ≤ capWork x D D ∧ (capWork x D D = 0 → Still D h) := by
  have hform := built_form hb hok hsym D
  cases h with
  | quad n o k source =>
    simp only [squares, Still] at hform ⊢
    rw [hform]
    have hpos : ∀ q ∈ Iso.quad.table (Iso.schemeIndex o), 0 < Thermal.wdet (plane geo n) q * k := fun q hq =>
      mul_pos (mul_pos (Thermal.table_pos _ q hq) (hok.1 q hq)) hc.2
    have hterm : ∀ q ∈ Iso.quad.table (Iso.schemeIndex o), 0 ≤ Thermal.wdet (plane geo n) q * k *
        ∑ i, (Thermal.B (plane geo n) q.xi *ᵥ fun a => temp D (n a)) i ^ 2 := fun q hq =>
      mul_nonneg (hpos q hq).le (Finset.sum_nonneg fun i _ => sq_nonneg _)
    refine ⟨List.sum_nonneg (by simp only [List.forall_mem_map]; exact hterm), fun h0 => ?_⟩
    refine uniform_at_points (d := fun a => temp D (n a)) hc.1 fun q hq => ?_
    have hq0 := List.all_zero_of_le_zero_le_of_sum_eq_zero (by simp only [List.forall_mem_map]; exact hterm) h0 (List.mem_map.mpr ⟨q, hq, rfl⟩)
    have hs0 := (mul_eq_zero.mp hq0).resolve_left (hpos q hq).ne'
    have hg : Thermal.B (plane geo n) q.xi *ᵥ (fun a => temp D (n a)) = 0 := by
      funext i
      have := (Finset.sum_eq_zero_iff_of_nonneg fun i _ => sq_nonneg _).mp hs0 i (Finset.mem_univ i)
      exact pow_eq_zero_iff (two_ne_zero) |>.mp this
    have hj : (Iso.jac Iso.quad (plane geo n) q.xi)⁻¹ *ᵥ (fun j => ∑ a, Iso.quad.formFuncDeriv q.xi a j * temp D (n a)) = 0 := by
      rw [← hg]
      funext i
      simp only [Matrix.mulVec, dotProduct, Thermal.B, Matrix.of_apply, Iso.grads, Finset.mul_sum, Finset.sum_mul]
      rw [Finset.sum_comm]
      refine Finset.sum_congr rfl fun a _ => Finset.sum_congr rfl fun j _ => ?_
      ring
    have hdet : IsUnit (Iso.jac Iso.quad (plane geo n) q.xi).det := (hok.1 q hq).ne'.isUnit
    have := congrArg (fun v => Iso.jac Iso.quad (plane geo n) q.xi *ᵥ v) hj
    simp only [Matrix.mulVec_mulVec, Matrix.mul_nonsing_inv _ hdet, Matrix.one_mulVec, Matrix.mulVec_zero] at this
    exact fun j => congrFun this j
  | line n o s =>
    simp only [squares, Still] at hform ⊢
    rw [hform]
    have hd : 0 < (Iso.lineJacob o fun a => geo (n a)).det := by
      have := Iso.length_pos hok
      show 0 < Iso.length (fun i => geo (n 1) i - geo (n 0) i) * 0.5
      positivity
    have hw : ∀ q ∈ Iso.line.table (Iso.schemeIndex o), 0 < q.w := line_table_pos _
    have hterm : ∀ q ∈ Iso.line.table (Iso.schemeIndex o), 0 ≤ q.w * (Iso.lineJacob o fun a => geo (n a)).det * s.pre.htc *
        (∑ a, Iso.line.formFunc q.xi a * temp D (n a)) ^ 2 := fun q hq =>
      mul_nonneg (mul_nonneg (mul_pos (hw q hq) hd).le hc) (sq_nonneg _)
    refine ⟨List.sum_nonneg (by simp only [List.forall_mem_map]; exact hterm), fun h0 hh heq => ?_⟩
    obtain ⟨q, hq⟩ : ∃ q, q ∈ Iso.line.table (Iso.schemeIndex o) := by
      generalize Iso.schemeIndex o = i
      fin_cases i
      · exact ⟨_, List.mem_cons_self ..⟩
      · exact ⟨_, List.mem_cons_self ..⟩
      · exact ⟨_, List.mem_cons_self ..⟩
    have hq0 := List.all_zero_of_le_zero_le_of_sum_eq_zero (by simp only [List.forall_mem_map]; exact hterm) h0 (List.mem_map.mpr ⟨q, hq, rfl⟩)
    have hs0 := (mul_eq_zero.mp hq0).resolve_left (mul_pos (mul_pos (hw q hq) hd) hh).ne'
    have hs1 := pow_eq_zero_iff (two_ne_zero) |>.mp hs0
    have hone := Iso.C34_line.sum_one q.xi
    rw [Fin.sum_univ_two] at hone hs1
    rw [← heq, ← add_mul, hone, one_mul] at hs1
    exact hs1

/-- Conduction resists every change of the values at drained nodes. -/
theorem heat_conduction (hels : List.Forall₂ (fun h x => h.Built geo x) hs els) (hok : ∀ h ∈ hs, h.Sound geo)
    (hcond : ∀ h ∈ hs, Conducts h) (hp : ∀ x ∈ els, Placed S0 calls x)
    (hdrain : ∀ k ∈ regKeys calls, ∃ n, k = (.node, n, .TEMP) ∧ Drained hs fixs n) : Resists (regKeys calls) fixs els := by
  intro D hD ⟨k, hk⟩
  have hkr : k ∈ regKeys calls := by
    by_contra hcon
    exact hk (hD k (Or.inl hcon))
  rw [capForm_sum hp]
  have hterm : ∀ x ∈ els, 0 ≤ capWork x D D := fun x hx => by
    obtain ⟨h, hh, hb⟩ := forall₂_mem' hels hx
    exact (built_still hb (hok h hh) (hcond h hh) (hp x hx).symm D).1
  refine lt_of_le_of_ne (List.sum_nonneg (by simp only [List.forall_mem_map]; exact hterm)) fun h0 => hk ?_
  have hzero : ∀ x ∈ els, capWork x D D = 0 := fun x hx =>
    List.all_zero_of_le_zero_le_of_sum_eq_zero (by simp only [List.forall_mem_map]; exact hterm) h0.symm (List.mem_map.mpr ⟨x, hx, rfl⟩)
  have hquad : ∀ {n o k f}, HeatElem.quad n o k f ∈ hs → ∀ a b, temp D (n a) = temp D (n b) := by
    intro n o k f hm
    obtain ⟨x, hx, hb⟩ := forall₂_mem hels hm
    exact (built_still hb (hok _ hm) (hcond _ hm) (hp x hx).symm D).2 (hzero x hx)
  obtain ⟨n, rfl, hn⟩ := hdrain k hkr
  show temp D n = 0
  clear hkr hk
  induction hn with
  | fixed h => exact hD _ (Or.inr h)
  | film a b hl hh hq ha hb =>
    obtain ⟨x, hx, hbx⟩ := forall₂_mem hels hl
    have := (built_still hbx (hok _ hl) (hcond _ hl) (hp x hx).symm D).2 (hzero x hx)
    refine this hh ?_
    rw [← ha, ← hb]
    exact hquad hq a b
  | through a b hq _ ih =>
    rw [hquad hq b a, ih]

/-- **C111, bodies.** Bodies of quadrilaterals with at least two by two points of integration, positive density, specific heat and conductivity,
covering all free nodes; films with coefficients that are not negative; heat can flow from every node to a fixed node or through a film. With
prescribed values zero, what transient runs report approaches what the linear solver reports. -/
theorem C111_bodies_partial {E' : Type} {S' : Storage ℝ} {update' : E' → Storage ℝ → E'} {eqs' : EqSolver ℝ} {e1 e2 : E'}
    (hl : LegalModel S0 calls new (fixKeys fixs)) (hload : ∀ l ∈ loads, keyOf l ∈ regKeys calls) (hp : ∀ x ∈ els, Placed S0 calls x)
    (hc : ∀ x ∈ caps, Placed S0 calls x) (hm : S0.mpcs ++ new = []) (hfix : ∀ f ∈ fixs, f.value = 0) (he' : Exact eqs')
    (hlin : linearSolve eqs' (linear els update') loads fixs calls new S0 e1 = .ok (S', e2))
    (hels : List.Forall₂ (fun h x => h.Built geo x) hs els) (hok : ∀ h ∈ hs, h.Sound geo) (hcond : ∀ h ∈ hs, Conducts h)
    (hdrain : ∀ k ∈ regKeys calls, ∃ n, k = (.node, n, .TEMP) ∧ Drained hs fixs n)
    (hcaps : List.Forall₂ (fun b x => b.Built geo x) bs caps) (hokc : ∀ b ∈ bs, b.Sound geo)
    (hmass : ∀ b ∈ bs, 2 ≤ b.o ∧ 0 < b.rho ∧ 0 < b.c)
    (hcover : ∀ k ∈ regKeys calls, k ∉ fixKeys fixs → ∃ b ∈ bs, ∃ a, k = (.node, b.n a, .TEMP)) {dt : ℝ} (hdt : 0 < dt) (y0 : ℝ) :
    ∃ B ρ : ℝ, 0 ≤ B ∧ 0 ≤ ρ ∧ ρ < 1 ∧ ∀ {E : Type} {update : E → Storage ℝ → E} {eqs : EqSolver ℝ} {e : E} {st : TSettings ℝ} {fuel : Nat}
      {seen : List (Nat × ℝ × TState E ℝ)} {last : Nat}, AnyModel S0 calls new loads fixs els caps st fuel → Exact eqs → st.alpha = 1 / 4 →
      stepOf st = dt → st.initValue = y0 →
      transientSolve eqs (evolving els caps update) loads fixs st calls new S0 e fuel = some (.ok (seen, last)) →
      ∃ T V A, Traced (regKeys calls) fixs st seen T V A ∧ (AllClear (regKeys calls) fixs st T V A →
        ∀ (i : Nat) (p : Nat × ℝ × TState E ℝ), seen[i]? = some p → ∀ m d, (Side.node, m, d) ∈ regKeys calls →
          ∃ v w, Post.solution p.2.2.S .node m d = .ok v ∧ Post.solution S' .node m d = .ok w ∧ |v - w| ≤ B * ρ ^ i) :=
  C111_linear_partial hl hload hp hc hm hfix he' hlin (heat_capacity hcaps hokc hc hmass hcover) (heat_conduction hels hok hcond hp hdrain) hdt y0

end Nla3d.Trans
