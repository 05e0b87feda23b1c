import Verif.Prog.Setting
import Verif.Newton.Potential

/-!
# The energy of a job and its derivatives
-/

namespace Nla3d.Prog

open Nla3d.Dof Nla3d.Storage Nla3d.Iso Nla3d.Newton Nla3d.Labels Nla3d.Material Nla3d.Hyper
open Nla3d.Solver (Bc keyOf lastFix fixKeys EqSolver)
open Nla3d.Rigid (transl)
open Nla3d.Main (Job)
open Nla3d.Cmd (Options)
open scoped Topology

noncomputable section

/-! ## Only the unknowns count -/

theorem getD_mem {ns : List Nat} {nn : Nat} (h : ns.length = nn) (a : Fin nn) : ns.getD a 0 ∈ ns := by
  subst h
  rw [List.getD_eq_getElem?_getD, List.getElem?_eq_getElem a.2]
  exact List.getElem_mem a.2

theorem nodeDisp_congr {x y : Vals} {ns : List Nat} {nn : Nat} (hl : ns.length = nn)
    (h : ∀ n ∈ ns, ∀ d ∈ [DofType.UX, .UY, .UZ], x (.node, n, d) = y (.node, n, d)) :
    (nodeDisp x ns : Fin nn → Fin 3 → ℝ) = nodeDisp y ns := by
  funext a c
  unfold nodeDisp
  exact h _ (getD_mem hl a) _ (by fin_cases c <;> simp [transl])

theorem flatDisp_congr {x y : Vals} {ns : List Nat} {nn : Nat} (hl : ns.length = nn)
    (h : ∀ n ∈ ns, ∀ d ∈ [DofType.UX, .UY], x (.node, n, d) = y (.node, n, d)) :
    flat (nodeDisp x ns : Fin nn → Fin 3 → ℝ) = flat (nodeDisp y ns) := by
  funext a c
  unfold flat nodeDisp
  exact h _ (getD_mem hl a) _ (by fin_cases c <;> simp [transl])

theorem element_congr {t : ElementType} {nn : Nat} (ht : nodeCount t = some nn) {ns : List Nat} (hl : ns.length = nn) {x y : Vals}
    (h : ∀ n ∈ ns, ∀ d ∈ displ t, x (.node, n, d) = y (.node, n, d)) (W : ℝ → ℝ → ℝ) (k : ℝ) (pos : List (ℝ × ℝ × ℝ)) (p : ℝ) :
    elementEnergy t W k pos ns x p = elementEnergy t W k pos ns y p ∧ (elementSound t pos ns x ↔ elementSound t pos ns y) := by
  cases t <;> simp only [nodeCount, Option.some.injEq, reduceCtorEq] at ht
  · subst ht
    have e := flatDisp_congr hl h
    simp only [elementEnergy, quadEnergy, elementSound, e, and_self]
  · subst ht
    have e := nodeDisp_congr hl h
    simp only [elementEnergy, hexEnergy, elementSound, e, and_self]

variable {o : Options ℝ} {ref : List ℝ} {j : Job ℝ}

theorem storedEnergy_congr (h : Runnable o ref j) {x y : Vals} (hxy : ∀ f, Has j f → x f = y f) (W : ℝ → ℝ → ℝ) (k : ℝ) :
    storedEnergy W k j x = storedEnergy W k j y := by
  obtain ⟨nn, ht, hl⟩ := h.type
  have key : ∀ e ∈ j.elems.zipIdx 1, elementEnergy j.type W k j.pos e.1 x (x (.elem, e.2, .HYDRO_PRESSURE)) =
      elementEnergy j.type W k j.pos e.1 y (y (.elem, e.2, .HYDRO_PRESSURE)) := by
    intro e he
    have h1 : e.1 ∈ j.elems := List.fst_mem_of_mem_zipIdx he
    have h2 : 1 ≤ e.2 := List.le_snd_of_mem_zipIdx he
    have h3 : e.2 < j.elems.length + 1 := by
      have := List.snd_lt_add_of_mem_zipIdx he
      omega
    have h4 : x (.elem, e.2, .HYDRO_PRESSURE) = y (.elem, e.2, .HYDRO_PRESSURE) := hxy _ (Has.pressure (by omega) (by omega))
    rw [h4]
    exact (element_congr ht (hl _ h1) (fun n hn d hd => hxy _ (.node h1 hn hd)) W k j.pos _).1
  exact congrArg List.sum (List.map_congr_left key)

theorem sound_congr (h : Runnable o ref j) {x y : Vals} (hxy : ∀ f, Has j f → x f = y f) (hx : Sound j x) : Sound j y := by
  obtain ⟨nn, ht, hl⟩ := h.type
  intro ns h1
  exact (element_congr ht (hl _ h1) (fun n hn d hd => hxy _ (.node h1 hn hd)) (fun _ _ => 0) 0 j.pos 0).2.mp (hx ns h1)

/-! ## Sound states are open -/

theorem jac_line {d nn : Nat} (el : Shape d nn) (X Y D : Fin nn → Fin d → ℝ) (xi : Fin d → ℝ)
    (h : (jac el (X + Y) xi).det ≠ 0) : ∀ᶠ s : ℝ in 𝓝 0, (jac el (X + (Y + s • D)) xi).det ≠ 0 := by
  have hc : Continuous (fun s : ℝ => (jac el (X + (Y + s • D)) xi).det) := by
    refine Continuous.matrix_det (continuous_matrix fun i k => ?_)
    simp only [jac, Matrix.of_apply, Pi.add_apply, Pi.smul_apply, smul_eq_mul]
    fun_prop
  refine hc.continuousAt.eventually_ne ?_
  simpa using h

theorem forall_list {α : Type} {p : α → ℝ → Prop} : ∀ l : List α, (∀ a ∈ l, ∀ᶠ s : ℝ in 𝓝 0, p a s) →
    ∀ᶠ s : ℝ in 𝓝 0, ∀ a ∈ l, p a s := by
  intro l
  induction l with
  | nil => intro _; simp
  | cons a l ih =>
    intro h
    simp only [List.forall_mem_cons]
    exact (h a (by simp)).and (ih fun b hb => h b (by simp [hb]))

theorem sound_open {x : Vals} (v : Vals) (h : Sound j x) : ∀ᶠ s : ℝ in 𝓝 0, Sound j (x + s • v) := by
  refine forall_list _ fun ns hns => ?_
  have h1 := h ns hns
  revert h1
  generalize j.type = t
  cases t <;> simp only [elementSound, false_imp_iff, imp_true_iff]
  all_goals intro h1
  · exact forall_list _ fun q hq => jac_line quad (flat (nodePos j.pos ns)) (flat (nodeDisp x ns)) (flat (nodeDisp v ns)) q.xi (h1 q hq)
  · exact forall_list _ fun q hq => jac_line hexa (nodePos j.pos ns) (nodeDisp x ns) (nodeDisp v ns) q.xi (h1 q hq)

/-! ## Derivatives -/

/-- Values of the unknowns in a vector with one component per equation. -/
def valsAt (regs : List Key) (num : Key → Nat) (V : Nat → ℝ) : Vals := fun f => if f ∈ regs then V (num f) else 0

/-- A direction as a vector. -/
def vecOf (regs : List Key) (num : Key → Nat) (v : Vals) (i : Nat) : ℝ :=
  open Classical in if h : ∃ f, f ∈ regs ∧ num f = i then v h.choose else 0

theorem vecOf_num {regs : List Key} {num : Key → Nat} (hinj : ∀ k ∈ regs, ∀ k' ∈ regs, num k = num k' → k = k') (v : Vals) {f : Key}
    (hf : f ∈ regs) : vecOf regs num v (num f) = v f := by
  have h : ∃ g, g ∈ regs ∧ num g = num f := ⟨f, hf, rfl⟩
  unfold vecOf
  rw [dif_pos h, hinj _ h.choose_spec.1 _ hf h.choose_spec.2]

variable {els : List El} {num : Key → Nat} {W : ℝ → ℝ → ℝ} {k : ℝ}

theorem stored_pot (h : Runnable o ref j) (ha : AllMade j.type W k j.pos 1 j.elems els) {x : Vals} {u : Nat → ℝ}
    (hx : ∀ f, Has j f → x f = u (num f)) : storedEnergy W k j x = (els.map (El.potential 0 num u)).sum := by
  rw [ha.pot, storedEnergy_congr h hx]
  rfl

theorem sound_els (h : Runnable o ref j) (ha : AllMade j.type W k j.pos 1 j.elems els) {x : Vals} {u : Nat → ℝ}
    (hx : ∀ f, Has j f → x f = u (num f)) (hs : Sound j x) : ∀ e ∈ els, e.Sound num u :=
  (ha.sound num u).mpr (sound_congr h hx hs)

/-- The slope of the energy is the work of the forces of the elements. -/
theorem slope_eq (h : Runnable o ref j) (ha : AllMade j.type W k j.pos 1 j.elems els) {N : Nat} {F : (Nat → ℝ) → Nat → ℝ}
    (hF : ∀ (z : ℝ) (u v : Nat → ℝ), (∀ e ∈ els, e.Sound num u) →
        HasDerivAt (fun s : ℝ => (els.map (El.potential z num (fun j => u j + s * v j))).sum)
          (-∑ i ∈ Finset.Icc 1 N, F u i * v i) 0)
    {x v : Vals} {u w : Nat → ℝ} (hx : ∀ f, Has j f → x f = u (num f)) (hv : ∀ f, Has j f → v f = w (num f)) (hs : Sound j x) :
    slope W k j x v = -∑ i ∈ Finset.Icc 1 N, F u i * w i := by
  refine HasDerivAt.deriv ((hF 0 u w (sound_els h ha hx hs)).congr_of_eventuallyEq (Filter.Eventually.of_forall fun s => ?_))
  refine stored_pot h ha fun f hf => ?_
  simp only [Pi.add_apply, Pi.smul_apply, smul_eq_mul, hx f hf, hv f hf]

/-- The derivative of the slope. -/
theorem slope_deriv (h : Runnable o ref j) (ha : AllMade j.type W k j.pos 1 j.elems els) {N : Nat} {F : (Nat → ℝ) → Nat → ℝ}
    {K : (Nat → ℝ) → Nat → Nat → ℝ}
    (hF : ∀ (z : ℝ) (u v : Nat → ℝ), (∀ e ∈ els, e.Sound num u) →
        HasDerivAt (fun s : ℝ => (els.map (El.potential z num (fun j => u j + s * v j))).sum)
          (-∑ i ∈ Finset.Icc 1 N, F u i * v i) 0)
    (hK : ∀ u v : Nat → ℝ, (∀ e ∈ els, e.Sound num u) → ∀ i,
        HasDerivAt (fun s : ℝ => F (fun j => u j + s * v j) i) (-∑ j ∈ Finset.Icc 1 N, K u i j * v j) 0)
    {x v y : Vals} {u w δ : Nat → ℝ} (hx : ∀ f, Has j f → x f = u (num f)) (hv : ∀ f, Has j f → v f = w (num f))
    (hy : ∀ f, Has j f → y f = δ (num f)) (hs : Sound j x) :
    HasDerivAt (fun s : ℝ => slope W k j (x + s • y) v) (∑ i ∈ Finset.Icc 1 N, w i * ∑ j ∈ Finset.Icc 1 N, K u i j * δ j) 0 := by
  have hu := sound_els h ha hx hs
  have hd : HasDerivAt (fun s : ℝ => -∑ i ∈ Finset.Icc 1 N, F (fun j => u j + s * δ j) i * w i)
      (-∑ i ∈ Finset.Icc 1 N, (-∑ j ∈ Finset.Icc 1 N, K u i j * δ j) * w i) 0 :=
    (HasDerivAt.fun_sum fun i _ => (hK u δ hu i).mul_const (w i)).neg
  refine (hd.congr_of_eventuallyEq ?_).congr_deriv ?_
  · filter_upwards [sound_open y hs] with s hs'
    refine slope_eq h ha hF (fun f hf => ?_) hv hs'
    simp only [Pi.add_apply, Pi.smul_apply, smul_eq_mul, hx f hf, hy f hf]
  · rw [← Finset.sum_neg_distrib]
    refine Finset.sum_congr rfl fun i _ => ?_
    ring

end

end Nla3d.Prog
