import Verif.Iso.Model
import Verif.Dense.Props
import Verif.Loop
import Mathlib.Tactic.Linarith
import Mathlib.Tactic.FinCases
import Mathlib.Algebra.BigOperators.Fin

/-!
# Closed forms of the isoparametric loops
-/

namespace Nla3d.Iso

open Finset

variable {d nn : Nat}

theorem foldl_sum {n : Nat} {A : Type} [AddCommMonoid A] (f : Fin n → A) (a : A) :
    (List.finRange n).foldl (fun x j => x + f j) a = a + ∑ j, f j := by
  have : ∀ (l : List (Fin n)) (a : A), l.foldl (fun x j => x + f j) a = a + (l.map f).sum := by
    intro l
    induction l with
    | nil => intro a; simp
    | cons x l ih => intro a; simp [ih, add_assoc]
  rw [this, ← List.sum_ofFn, List.ofFn_eq_map]

theorem jacobian_eq (dN pos : Fin nn → Fin d → ℝ) (i j : Fin d) :
    jacobian dN pos i j = ∑ nod, dN nod i * pos nod j := by
  have := foldl_sum (fun nod : Fin nn => (fun i j => dN nod i * pos nod j : Fin d → Fin d → ℝ)) 0
  have h := congrFun (congrFun this i) j
  rw [zero_add, Finset.sum_apply, Finset.sum_apply] at h
  exact h

theorem globalDeriv_eq (Jacob : Fin d → Fin d → ℝ) (dN : Fin nn → Fin d → ℝ) (nod : Fin nn) (i : Fin d) :
    globalDeriv Jacob dN nod i = ∑ j, Jacob i j * dN nod j := by
  unfold globalDeriv
  rw [foldl_sum, zero_add]

/-- The Jacobian matrix at a local point. -/
noncomputable def jac (S : Shape d nn) (pos : Fin nn → Fin d → ℝ) (xi : Fin d → ℝ) : Matrix (Fin d) (Fin d) ℝ :=
  Matrix.of fun i j => ∑ nod, S.formFuncDeriv xi nod i * pos nod j

/-- The gradients of the shape functions at a local point. -/
noncomputable def grads (S : Shape d nn) (pos : Fin nn → Fin d → ℝ) (xi : Fin d → ℝ) (nod : Fin nn) (i : Fin d) : ℝ :=
  ∑ j, (jac S pos xi)⁻¹ i j * S.formFuncDeriv xi nod j

theorem jacobian_jac (S : Shape d nn) (pos : Fin nn → Fin d → ℝ) (xi : Fin d → ℝ) :
    jacobian (S.formFuncDeriv xi) pos = jac S pos xi := by
  funext i j; rw [jacobian_eq]; rfl

/-- One turn of the loop of `makeJacob`. -/
theorem turn_ok {m : Nat} (S : Shape (m + 1) nn) (pos : Fin nn → Fin (m + 1) → ℝ) (xi : Fin (m + 1) → ℝ)
    (h : (jac S pos xi).det ≠ 0) :
    Dense.det (m + 1) (jacobian (S.formFuncDeriv xi) pos) = .ok (jac S pos xi).det ∧
    ∃ b, Dense.inv (m + 1) (jacobian (S.formFuncDeriv xi) pos) (jac S pos xi).det = .ok b ∧
      globalDeriv b (S.formFuncDeriv xi) = grads S pos xi := by
  rw [jacobian_jac]
  refine ⟨Dense.C32_det _, ?_⟩
  obtain ⟨b, h1, h2⟩ := Dense.inv_eq m (jac S pos xi) (jac S pos xi).det h
  refine ⟨b, h1, ?_⟩
  funext nod i
  rw [globalDeriv_eq, grads]
  apply Finset.sum_congr rfl
  intro j _
  have : (jac S pos xi)⁻¹ = Matrix.of b := by
    rw [h2, Matrix.inv_def, Ring.inverse_eq_inv']
  rw [this]; rfl

/-- `makeJacob` for elements with regular Jacobian at the integration points. -/
theorem makeJacob_eq {m : Nat} (S : Shape (m + 1) nn) (o : Nat) (pos : Fin nn → Fin (m + 1) → ℝ)
    (h : ∀ q ∈ S.table (schemeIndex o), (jac S pos q.xi).det ≠ 0) :
    ∃ g, makeJacob S o pos = .ok g ∧ g.scheme = schemeIndex o ∧
      g.det = (S.table (schemeIndex o)).map (fun q => (jac S pos q.xi).det) ∧
      g.NiXj = (S.table (schemeIndex o)).map (fun q => grads S pos q.xi) ∧
      g.errors = (S.table (schemeIndex o)).countP (fun q => decide ((jac S pos q.xi).det < 1.0e-20)) := by
  unfold makeJacob
  have key : ∀ (qs : List (QuadPt (m + 1))) (g : Geom (m + 1) nn), (∀ q ∈ qs, (jac S pos q.xi).det ≠ 0) →
      ∃ g', Res.foldlM' (fun (g : Geom (m + 1) nn) (q : QuadPt (m + 1)) => do
        let dN := S.formFuncDeriv q.xi
        let J := jacobian dN pos
        let det ← Dense.det (m + 1) J
        let Jacob ← Dense.inv (m + 1) J det
        .ok { g with
          det := g.det ++ [det]
          NiXj := g.NiXj ++ [globalDeriv Jacob dN]
          errors := if det < 1.0e-20 then g.errors + 1 else g.errors }) g qs = .ok g' ∧ g'.scheme = g.scheme ∧
        g'.det = g.det ++ qs.map (fun q => (jac S pos q.xi).det) ∧
        g'.NiXj = g.NiXj ++ qs.map (fun q => grads S pos q.xi) ∧
        g'.errors = g.errors + qs.countP (fun q => decide ((jac S pos q.xi).det < 1.0e-20)) := by
    intro qs
    induction qs with
    | nil => intro g _; exact ⟨g, rfl, rfl, by simp, by simp, by simp⟩
    | cons q qs ih =>
      intro g hq
      obtain ⟨h1, b, h2, h3⟩ := turn_ok S pos q.xi (hq q (by simp))
      rw [Res.foldlM'_cons]
      simp only [h1, h2, h3, Res.ok_bind]
      obtain ⟨g', e1, e2, e3, e4, e5⟩ := ih _ (fun q hm => hq q (by simp [hm]))
      refine ⟨g', e1, e2, ?_, ?_, ?_⟩
      · rw [e3]; simp
      · rw [e4]; simp
      · rw [e5, List.countP_cons]
        by_cases hlt : (jac S pos q.xi).det < 1.0e-20
        · simp only [hlt, if_true, decide_true]; omega
        · simp only [hlt, if_false, decide_false]; simp
  obtain ⟨g', e1, e2, e3, e4, e5⟩ := key (S.table (schemeIndex o)) { scheme := schemeIndex o } h
  exact ⟨g', e1, e2, by simpa using e3, by simpa using e4, by simpa using e5⟩

/-- The state after `makeJacob`: scheme, determinants and gradients belong together. -/
structure Good (S : Shape d nn) (pos : Fin nn → Fin d → ℝ) (g : Geom d nn) : Prop where
  det : g.det = (S.table g.scheme).map (fun q => (jac S pos q.xi).det)
  NiXj : g.NiXj = (S.table g.scheme).map (fun q => grads S pos q.xi)

theorem Good.intWeight {S : Shape d nn} {pos : Fin nn → Fin d → ℝ} {g : Geom d nn} (h : Good S pos g) {np : Nat}
    (hn : np < (S.table g.scheme).length) :
    intWeight S g np = .ok ((S.table g.scheme)[np].w * (jac S pos (S.table g.scheme)[np].xi).det) := by
  unfold Iso.intWeight
  rw [decide_eq_true hn, decide_eq_true (by rw [h.det, List.length_map]; omega), Res.read_of_lt hn,
    Res.read_of_lt (by rw [h.det, List.length_map]; exact hn)]
  simp only [Res.guard_true, Res.ok_bind, h.det, List.getElem_map]

theorem Good.volume {S : Shape d nn} {pos : Fin nn → Fin d → ℝ} {g : Geom d nn} (h : Good S pos g) :
    volume S g = .ok ((S.table g.scheme).map (fun q => q.w * (jac S pos q.xi).det)).sum := by
  unfold Iso.volume nOfIntPoints
  obtain ⟨v, h1, h2⟩ := Res.foldlM'_range (fun v np => do
    let w ← Iso.intWeight S g np
    Res.ok (v + w)) (fun k v => v = (((S.table g.scheme).take k).map (fun q => q.w * (jac S pos q.xi).det)).sum)
    (S.table g.scheme).length 0 (by simp) (by
      rintro k v hk rfl
      simp only [h.intWeight hk, Res.ok_bind]
      refine ⟨_, rfl, ?_⟩
      rw [List.take_succ_eq_append_getElem hk, List.map_append, List.sum_append]; simp)
  rw [h1, h2, List.take_length]

theorem lineIntWeight_eq {g : LineGeom} (hd : 0 < g.det) {np : Nat} (hn : np < (line.table g.scheme).length) :
    lineIntWeight g np = .ok ((line.table g.scheme)[np].w * g.det) := by
  unfold lineIntWeight
  rw [decide_eq_true hn, decide_eq_true hd, Res.read_of_lt hn]
  rfl

theorem lineVolume_eq {g : LineGeom} (hd : 0 < g.det) :
    lineVolume g = .ok ((line.table g.scheme).map (fun q => q.w * g.det)).sum := by
  unfold lineVolume
  obtain ⟨v, h1, h2⟩ := Res.foldlM'_range (fun v np => do
    let w ← lineIntWeight g np
    Res.ok (v + w)) (fun k v => v = (((line.table g.scheme).take k).map (fun q => q.w * g.det)).sum)
    (line.table g.scheme).length 0 (by simp) (by
      rintro k v hk rfl
      simp only [lineIntWeight_eq hd hk, Res.ok_bind]
      refine ⟨_, rfl, ?_⟩
      rw [List.take_succ_eq_append_getElem hk, List.map_append, List.sum_append]; simp)
  rw [h1, h2, List.take_length]

/-- The Jacobian of a line element with distinct ends. -/
theorem length_pos {p q : Fin 3 → ℝ} (h : p ≠ q) : 0 < length (fun i => q i - p i) := by
  unfold length
  apply Real.sqrt_pos.mpr
  by_contra hc
  apply h
  have e : ∀ i : Fin 3, q i - p i = 0 := by
    have := mul_self_nonneg (q 0 - p 0)
    have := mul_self_nonneg (q 1 - p 1)
    have := mul_self_nonneg (q 2 - p 2)
    intro i
    fin_cases i <;> apply mul_self_eq_zero.mp <;> simp only [Fin.zero_eta, Fin.mk_one, Fin.reduceFinMk] <;> linarith
  funext i
  linarith [e i]

end Nla3d.Iso
