import Verif.Hyper.Plane41
import Mathlib.Topology.Instances.Matrix

/-!
# The matrices of SOLID81 and PLANE41 depend continuously on the unknowns
-/

noncomputable section

namespace Nla3d.Material

/-- The second derivatives that the material provides are continuous. -/
def Energy.Smooth (E : Energy) : Prop := ∀ z i, Continuous fun q : ℝ × ℝ => E.second q.1 q.2 z i

theorem smooth_neoHookean (MC : Fin 2 → ℝ) : (neoHookean MC).Smooth := by
  intro z i
  exact continuous_const

theorem smooth_mooneyRivlin (MC : Fin 3 → ℝ) : (mooneyRivlin MC).Smooth := by
  intro z i
  exact continuous_const

theorem smooth_biderman (MC : Fin 5 → ℝ) : (biderman MC).Smooth := by
  intro z i
  fin_cases i <;> simp only [biderman] <;> dsimp <;> fun_prop

theorem Energy.Consistent.first_continuous {E : Energy} (hE : E.Consistent) (z : ℝ) (i : Fin 2) :
    Continuous fun q : ℝ × ℝ => E.first q.1 q.2 z i := by
  rw [continuous_iff_continuousAt]
  rintro ⟨x, y⟩
  fin_cases i
  · exact (hE.hess1 x y z 0).continuousAt
  · exact (hE.hess2 x y z 0).continuousAt

section

variable {X : Type} [TopologicalSpace X] {C : X → Fin 6 → ℝ} {p : X → ℝ} {x : X}

theorem cont_JC (hC : ∀ i, ContinuousAt (fun y => C y i) x) : ContinuousAt (fun y => JC (C y)) x := by
  unfold JC
  have := hC 0; have := hC 1; have := hC 2; have := hC 3; have := hC 4; have := hC 5
  fun_prop

theorem cont_invCC (hC : ∀ i, ContinuousAt (fun y => C y i) x) (h : 0 < detP (C x)) (i : Fin 6) :
    ContinuousAt (fun y => invCC (C y) (JC (C y)) i) x := by
  have hJ := cont_JC hC
  have h0 : JC (C x) * JC (C x) ≠ 0 := by have := JC_pos h; positivity
  have ho : ContinuousAt (fun y => 1 / (JC (C y) * JC (C y))) x := (continuousAt_const).div (hJ.mul hJ) h0
  have := hC 0; have := hC 1; have := hC 2; have := hC 3; have := hC 4; have := hC 5
  unfold invCC
  fin_cases i <;> simp only [Fin.zero_eta, Fin.mk_one, Fin.reduceFinMk, Matrix.cons_val] <;>
    exact ho.mul (by fun_prop)

theorem cont_pow (hC : ∀ i, ContinuousAt (fun y => C y i) x) (h : 0 < detP (C x)) (r : ℝ) :
    ContinuousAt (fun y => JC (C y) ^ r) x :=
  (cont_JC hC).rpow_const (Or.inl (JC_pos h).ne')

theorem cont_I (hC : ∀ i, ContinuousAt (fun y => C y i) x) (i : Fin 3) : ContinuousAt (fun y => ICC (C y) i) x := by
  have := hC 0; have := hC 1; have := hC 2; have := hC 3; have := hC 4; have := hC 5
  fin_cases i
  · simp only [ICC, Fin.zero_eta, Matrix.cons_val]; fun_prop
  · simp only [ICC, Fin.mk_one, Matrix.cons_val]; fun_prop
  · exact cont_JC hC

theorem cont_arrA (hC : ∀ i, ContinuousAt (fun y => C y i) x) (h : 0 < detP (C x)) (k : Fin 6) :
    ContinuousAt (fun y => arrA (ICC (C y) 0) (invCC (C y) (JC (C y))) k) x := by
  unfold arrA
  exact continuousAt_const.sub ((continuousAt_const.mul (cont_I hC 0)).mul (cont_invCC hC h k))

theorem cont_arrB (hC : ∀ i, ContinuousAt (fun y => C y i) x) (h : 0 < detP (C x)) (k : Fin 6) :
    ContinuousAt (fun y => arrB (ICC (C y) 0) (ICC (C y) 1) (C y) (invCC (C y) (JC (C y))) k) x := by
  unfold arrB
  exact (((cont_I hC 0).mul continuousAt_const).sub (hC k)).sub ((continuousAt_const.mul (cont_I hC 1)).mul (cont_invCC hC h k))

theorem cont_IIt {c : X → Fin 6 → ℝ} (hc : ∀ i, ContinuousAt (fun y => c y i) x) (k l : Fin 6) :
    ContinuousAt (fun y => arrIIt (c y) k l) x := by
  have := hc 0; have := hc 1; have := hc 2; have := hc 3; have := hc 4; have := hc 5
  unfold arrIIt
  fin_cases k <;> fin_cases l <;>
    simp only [Fin.zero_eta, Fin.mk_one, Fin.reduceFinMk, Matrix.cons_val] <;> fun_prop

theorem cont_stress {E : Energy} (hE : E.Consistent) (hC : ∀ i, ContinuousAt (fun y => C y i) x) (h : 0 < detP (C x))
    (hp : ContinuousAt p x) (i : Fin 6) : ContinuousAt (fun y => stressEntry E (C y) (p y) i) x := by
  have hpp := cont_pow hC h (-2 / 3)
  have hf : ∀ j, ContinuousAt (fun y => E.first (ICC (C y) 0 * JC (C y) ^ (-2 / 3 : ℝ))
      (ICC (C y) 1 * (JC (C y) ^ (-2 / 3 : ℝ) * JC (C y) ^ (-2 / 3 : ℝ))) 0 j) x := fun j =>
    (hE.first_continuous 0 j).continuousAt.comp₂ ((cont_I hC 0).mul hpp) ((cont_I hC 1).mul (hpp.mul hpp))
  have h0 := hf 0
  have h1 := hf 1
  have hA := cont_arrA hC h i
  have hB := cont_arrB hC h i
  have hJ := cont_JC hC
  have hi := cont_invCC hC h i
  unfold stressEntry
  simp only [ICC_2]
  fun_prop

theorem cont_press (hC : ∀ i, ContinuousAt (fun y => C y i) x) (h : 0 < detP (C x)) (i : Fin 6) :
    ContinuousAt (fun y => pressEntry (C y) i) x := by
  unfold pressEntry
  exact (cont_JC hC).mul (cont_invCC hC h i)

theorem cont_tangent {E : Energy} (hE : E.Smooth) (hC : ∀ i, ContinuousAt (fun y => C y i) x) (h : 0 < detP (C x))
    (hp : ContinuousAt p x) (i j : Fin 6) : ContinuousAt (fun y => tangentEntry E (C y) (p y) i j) x := by
  have hpp := cont_pow hC h (-2 / 3)
  have hoo := cont_pow hC h (-2)
  have hf : ∀ j, ContinuousAt (fun y => E.second (ICC (C y) 0 * JC (C y) ^ (-2 / 3 : ℝ))
      (ICC (C y) 1 * (JC (C y) ^ (-2 / 3 : ℝ) * JC (C y) ^ (-2 / 3 : ℝ))) 1 j) x := fun j =>
    (hE 1 j).continuousAt.comp₂ ((cont_I hC 0).mul hpp) ((cont_I hC 1).mul (hpp.mul hpp))
  have h0 := hf 0
  have h1 := hf 1
  have h2 := hf 2
  have h3 := hf 3
  have h4 := hf 4
  have hAi := cont_arrA hC h i
  have hAj := cont_arrA hC h j
  have hBi := cont_arrB hC h i
  have hBj := cont_arrB hC h j
  have hJ := cont_JC hC
  have hci := cont_invCC hC h i
  have hcj := cont_invCC hC h j
  have hI0 := cont_I hC 0
  have hI1 := cont_I hC 1
  have hII := cont_IIt (fun k => cont_invCC hC h k) i j
  unfold tangentEntry
  simp only [ICC_2]
  fun_prop

end

end Nla3d.Material

namespace Nla3d.Hyper

open Iso Dense Material Thermal
open Finset hiding ext

section

variable {X : Type} [TopologicalSpace X] {x : X} {l m n : Type} [Fintype l] [Fintype m] [Fintype n]

theorem cont_mul {A : X → Matrix l m ℝ} {B : X → Matrix m n ℝ} (hA : ∀ i j, ContinuousAt (fun y => A y i j) x)
    (hB : ∀ i j, ContinuousAt (fun y => B y i j) x) (i : l) (j : n) : ContinuousAt (fun y => (A y * B y) i j) x := by
  simp only [Matrix.mul_apply]
  exact tendsto_finset_sum _ fun k _ => (hA i k).mul (hB k j)

theorem cont_mulVec {A : X → Matrix l m ℝ} {v : X → m → ℝ} (hA : ∀ i j, ContinuousAt (fun y => A y i j) x)
    (hv : ∀ i, ContinuousAt (fun y => v y i) x) (i : l) : ContinuousAt (fun y => (A y).mulVec (v y) i) x := by
  simp only [Matrix.mulVec, dotProduct]
  exact tendsto_finset_sum _ fun k _ => (hA i k).mul (hv k)

theorem cont_list {α : Type} (qs : List α) {f : α → X → ℝ} (h : ∀ q ∈ qs, ContinuousAt (f q) x) :
    ContinuousAt (fun y => (qs.map (fun q => f q y)).sum) x := by
  induction qs with
  | nil => simpa using continuousAt_const
  | cons q qs ih =>
    simp only [List.map_cons, List.sum_cons]
    exact (h q (by simp)).add (ih fun r hr => h r (by simp [hr]))

theorem cont_grad9 (G : Fin 8 → Fin 3 → ℝ) {u : X → Fin 8 → Fin 3 → ℝ} (hu : ∀ a c, ContinuousAt (fun y => u y a c) x) (i : Fin 9) :
    ContinuousAt (fun y => grad9 G (vec24 (u y)) i) x := by
  simp only [← BNL_mulVec]
  exact cont_mulVec (A := fun _ => BNL G) (v := fun y => vec24 (u y)) (fun _ _ => continuousAt_const) (fun j => hu _ _) i

theorem cont_grad4 (G : Fin 4 → Fin 2 → ℝ) {u : X → Fin 4 → Fin 2 → ℝ} (hu : ∀ a c, ContinuousAt (fun y => u y a c) x) (i : Fin 4) :
    ContinuousAt (fun y => grad4 G (vec8 (u y)) i) x := by
  simp only [← Bomega_mulVec]
  exact cont_mulVec (A := fun _ => planeBomega G) (v := fun y => vec8 (u y)) (fun _ _ => continuousAt_const) (fun j => hu _ _) i

theorem cont_solidC {o : X → Fin 9 → ℝ} (ho : ∀ i, ContinuousAt (fun y => o y i) x) (i : Fin 6) :
    ContinuousAt (fun y => solidC (o y) i) x := by
  have := ho 0; have := ho 1; have := ho 2; have := ho 3; have := ho 4; have := ho 5; have := ho 6; have := ho 7; have := ho 8
  unfold solidC
  fin_cases i <;> simp only [Fin.zero_eta, Fin.mk_one, Fin.reduceFinMk, Matrix.cons_val] <;> fun_prop

theorem cont_emb {o : X → Fin 4 → ℝ} (ho : ∀ i, ContinuousAt (fun y => o y i) x) (i : Fin 9) :
    ContinuousAt (fun y => emb (o y) i) x := by
  unfold emb
  fin_cases i <;> simp only [Fin.zero_eta, Fin.mk_one, Fin.reduceFinMk, Matrix.cons_val] <;>
    first | exact ho _ | exact continuousAt_const

theorem cont_Omega {o : X → Fin 9 → ℝ} (ho : ∀ i, ContinuousAt (fun y => o y i) x) (i : Fin 6) (j : Fin 9) :
    ContinuousAt (fun y => Omega (o y) i j) x := by
  unfold Omega
  fin_cases i <;> fin_cases j <;> first | exact ho _ | exact continuousAt_const

theorem cont_S9 {S : X → Fin 6 → ℝ} (hS : ∀ i, ContinuousAt (fun y => S y i) x) (i j : Fin 9) :
    ContinuousAt (fun y => S9 (S y) i j) x := by
  unfold S9
  fin_cases i <;> fin_cases j <;> first | exact hS _ | exact continuousAt_const

theorem cont_planeO {o : X → Fin 4 → ℝ} (ho : ∀ i, ContinuousAt (fun y => o y i) x) (i : Fin 3) (j : Fin 4) :
    ContinuousAt (fun y => planeO (o y) i j) x := by
  unfold planeO
  fin_cases i <;> fin_cases j <;> first | exact ho _ | exact continuousAt_const

theorem cont_planeS {S : X → Fin 3 → ℝ} (hS : ∀ i, ContinuousAt (fun y => S y i) x) (i j : Fin 4) :
    ContinuousAt (fun y => planeS (S y) i j) x := by
  unfold planeS
  fin_cases i <;> fin_cases j <;> first | exact hS _ | exact continuousAt_const

theorem cont_Bmat (G : Fin 8 → Fin 3 → ℝ) {o : X → Fin 9 → ℝ} (ho : ∀ i, ContinuousAt (fun y => o y i) x) (i : Fin 6) (j : Fin 24) :
    ContinuousAt (fun y => Bmat G (o y) i j) x := by
  unfold Bmat
  simp only [Matrix.add_apply, Matrix.smul_apply, smul_eq_mul]
  exact continuousAt_const.add (continuousAt_const.mul
    (cont_mul (A := fun y => Omega (o y)) (B := fun _ => BNL G) (cont_Omega ho) (fun _ _ => continuousAt_const) i j))

theorem cont_Bp (G : Fin 4 → Fin 2 → ℝ) {o : X → Fin 4 → ℝ} (ho : ∀ i, ContinuousAt (fun y => o y i) x) (i : Fin 3) (j : Fin 8) :
    ContinuousAt (fun y => Bp G (o y) i j) x := by
  unfold Bp
  simp only [Matrix.add_apply]
  exact continuousAt_const.add
    (cont_mul (A := fun y => planeO (o y)) (B := fun _ => planeBomega G) (cont_planeO ho) (fun _ _ => continuousAt_const) i j)

/-- The matrices of SOLID81 are continuous where the displaced element is not degenerate. -/
theorem cont_tot {E : Energy} (hE : E.Consistent) (hs : E.Smooth) (k : ℝ) (pos : Fin 8 → Fin 3 → ℝ) (qs : List (QuadPt 3))
    (h : ∀ q ∈ qs, (jac hexa pos q.xi).det ≠ 0) {u : X → Fin 8 → Fin 3 → ℝ} {p : X → ℝ}
    (hu : ∀ a c, ContinuousAt (fun y => u y a c) x) (hp : ContinuousAt p x)
    (hd : ∀ q ∈ qs, (jac hexa (pos + u x) q.xi).det ≠ 0) :
    (∀ i j, ContinuousAt (fun y => (tot E k pos qs (u y) (p y)).1 i j) x) ∧
    (∀ i, ContinuousAt (fun y => (tot E k pos qs (u y) (p y)).2.1 i) x) ∧
    ContinuousAt (fun y => (tot E k pos qs (u y) (p y)).2.2.1) x := by
  have hC : ∀ q ∈ qs, 0 < detP (solidC (grad9 (grads hexa pos q.xi) (vec24 (u x)))) := fun q hq => detP_disp pos (u x) q.xi (h q hq) (hd q hq)
  refine ⟨fun i j => ?_, fun i => ?_, ?_⟩
  · have e : (fun y => (tot E k pos qs (u y) (p y)).1 i j) = fun y => (qs.map (fun q => (term E k (grads hexa pos q.xi)
        (q.w * (jac hexa pos q.xi).det) (pointOf E (grads hexa pos q.xi) (u y) (p y)) (p y)).1 i j)).sum := by
      funext y
      exact tot_map ((Matrix.entryAddMonoidHom ℝ i j).comp (AddMonoidHom.fst _ _)) E k pos qs (u y) (p y)
    rw [e]
    refine cont_list qs fun q hq => ?_
    have ho := cont_grad9 (grads hexa pos q.xi) hu
    have hc := cont_solidC ho
    have hB := cont_Bmat (grads hexa pos q.xi) ho
    have hS := cont_S9 (fun i => cont_stress hE hc (hC q hq) hp i)
    have hD := cont_tangent hs hc (hC q hq) hp
    simp only [term, pointOf, Matrix.add_apply, Matrix.smul_apply, smul_eq_mul]
    refine (continuousAt_const.mul ?_).add (continuousAt_const.mul ?_)
    · exact cont_mul (cont_mul (fun i j => hB j i) hD) hB i j
    · exact cont_mul (cont_mul (A := fun _ => (BNL _).transpose) (fun _ _ => continuousAt_const) hS)
        (B := fun _ => BNL _) (fun _ _ => continuousAt_const) i j
  · have e : (fun y => (tot E k pos qs (u y) (p y)).2.1 i) = fun y => (qs.map (fun q => (term E k (grads hexa pos q.xi)
        (q.w * (jac hexa pos q.xi).det) (pointOf E (grads hexa pos q.xi) (u y) (p y)) (p y)).2.1 i)).sum := by
      funext y
      exact tot_map ((Pi.evalAddMonoidHom (fun _ : Fin 24 => ℝ) i).comp ((AddMonoidHom.fst _ _).comp (AddMonoidHom.snd _ _))) E k pos qs (u y) (p y)
    rw [e]
    refine cont_list qs fun q hq => ?_
    have ho := cont_grad9 (grads hexa pos q.xi) hu
    have hc := cont_solidC ho
    have hB := cont_Bmat (grads hexa pos q.xi) ho
    simp only [term, pointOf, Pi.smul_apply, smul_eq_mul]
    exact continuousAt_const.mul (cont_mulVec (fun i j => hB j i) (cont_press hc (hC q hq)) i)
  · have e : (fun y => (tot E k pos qs (u y) (p y)).2.2.1) = fun y => (qs.map (fun q => -1 / k * (q.w * (jac hexa pos q.xi).det))).sum := by
      funext y
      exact tot_map ((AddMonoidHom.fst _ _).comp ((AddMonoidHom.snd _ _).comp (AddMonoidHom.snd _ _))) E k pos qs (u y) (p y)
    rw [e]
    exact continuousAt_const

/-- The matrices of PLANE41 are continuous where the displaced element is not degenerate. -/
theorem cont_tot2 {E : Energy} (hE : E.Consistent) (hs : E.Smooth) (k : ℝ) (pos : Fin 4 → Fin 2 → ℝ) (qs : List (QuadPt 2))
    (h : ∀ q ∈ qs, (jac quad pos q.xi).det ≠ 0) {u : X → Fin 4 → Fin 2 → ℝ} {p : X → ℝ}
    (hu : ∀ a c, ContinuousAt (fun y => u y a c) x) (hp : ContinuousAt p x)
    (hd : ∀ q ∈ qs, (jac quad (pos + u x) q.xi).det ≠ 0) :
    (∀ i j, ContinuousAt (fun y => (tot2 E k pos qs (u y) (p y)).1 i j) x) ∧
    (∀ i, ContinuousAt (fun y => (tot2 E k pos qs (u y) (p y)).2.1 i) x) ∧
    ContinuousAt (fun y => (tot2 E k pos qs (u y) (p y)).2.2.1) x := by
  have hC : ∀ q ∈ qs, 0 < detP (solidC (emb (grad4 (grads quad pos q.xi) (vec8 (u x))))) := fun q hq => detP_disp2 pos (u x) q.xi (h q hq) (hd q hq)
  have hmap : ∀ {A : Type} [AddCommMonoid A] (L : Tot2 →+ A) y, L (tot2 E k pos qs (u y) (p y)) =
      (qs.map (fun q => L (term2 E k (grads quad pos q.xi) (q.w * (jac quad pos q.xi).det)
        (pointOf2 E (grads quad pos q.xi) (u y) (p y)) (p y)))).sum := by
    intro A _ L y
    unfold tot2
    rw [map_list_sum, List.map_map]
    rfl
  refine ⟨fun i j => ?_, fun i => ?_, ?_⟩
  · have e : (fun y => (tot2 E k pos qs (u y) (p y)).1 i j) = fun y => (qs.map (fun q => (term2 E k (grads quad pos q.xi)
        (q.w * (jac quad pos q.xi).det) (pointOf2 E (grads quad pos q.xi) (u y) (p y)) (p y)).1 i j)).sum := by
      funext y
      exact hmap ((Matrix.entryAddMonoidHom ℝ i j).comp (AddMonoidHom.fst _ _)) y
    rw [e]
    refine cont_list qs fun q hq => ?_
    have ho := cont_grad4 (grads quad pos q.xi) hu
    have hc := cont_solidC (cont_emb ho)
    have hB := cont_Bp (grads quad pos q.xi) ho
    have hS := cont_planeS (fun i => cont_stress hE hc (hC q hq) hp (comp3 i))
    have hD := fun i j => cont_tangent hs hc (hC q hq) hp (comp3 i) (comp3 j)
    simp only [term2, pointOf2, planeC_emb, Matrix.add_apply, Matrix.smul_apply, smul_eq_mul]
    refine continuousAt_const.mul ((continuousAt_const.mul ?_).add ?_)
    · exact cont_mul (cont_mul (fun i j => hB j i) hD) hB i j
    · exact cont_mul (cont_mul (A := fun _ => (planeBomega _).transpose) (fun _ _ => continuousAt_const) hS)
        (B := fun _ => planeBomega _) (fun _ _ => continuousAt_const) i j
  · have e : (fun y => (tot2 E k pos qs (u y) (p y)).2.1 i) = fun y => (qs.map (fun q => (term2 E k (grads quad pos q.xi)
        (q.w * (jac quad pos q.xi).det) (pointOf2 E (grads quad pos q.xi) (u y) (p y)) (p y)).2.1 i)).sum := by
      funext y
      exact hmap ((Pi.evalAddMonoidHom (fun _ : Fin 8 => ℝ) i).comp ((AddMonoidHom.fst _ _).comp (AddMonoidHom.snd _ _))) y
    rw [e]
    refine cont_list qs fun q hq => ?_
    have ho := cont_grad4 (grads quad pos q.xi) hu
    have hc := cont_solidC (cont_emb ho)
    have hB := cont_Bp (grads quad pos q.xi) ho
    simp only [term2, pointOf2, planeC_emb, Pi.smul_apply, smul_eq_mul]
    exact continuousAt_const.mul (cont_mulVec (fun i j => hB j i) (fun c => cont_press hc (hC q hq) (comp3 c)) i)
  · have e : (fun y => (tot2 E k pos qs (u y) (p y)).2.2.1) = fun y => (qs.map (fun q => -(1 / k * (q.w * (jac quad pos q.xi).det)))).sum := by
      funext y
      exact hmap ((AddMonoidHom.fst _ _).comp ((AddMonoidHom.snd _ _).comp (AddMonoidHom.snd _ _))) y
    rw [e]
    exact continuousAt_const

end

/-- What `C67_tangent` says, and that the matrices are continuous. -/
theorem solid_tangent {E : Energy} (hE : E.Consistent) (k : ℝ) (o : Nat) (pos : Fin 8 → Fin 3 → ℝ)
    (h : ∀ q ∈ hexa.table (schemeIndex o), (jac hexa pos q.xi).det ≠ 0) :
    ∃ g, makeJacob hexa o pos = .ok g ∧
    ∃ (Kuu : (Fin 8 → Fin 3 → ℝ) → ℝ → Matrix (Fin 24) (Fin 24) ℝ) (Kup Fu : (Fin 8 → Fin 3 → ℝ) → ℝ → Fin 24 → ℝ)
      (Kpp Fp : (Fin 8 → Fin 3 → ℝ) → ℝ → ℝ),
      (∀ pts u p, pts.length = nOfIntPoints hexa g →
        solidStep E k g pts u p = .ok ⟨pack (Kuu u p), List.ofFn (Kup u p), Kpp u p, List.ofFn (Fu u p), Fp u p⟩) ∧
      (∀ u p, (Kuu u p).IsSymm) ∧
      (∀ u p δ π, (∀ q ∈ hexa.table (schemeIndex o), (jac hexa (pos + u) q.xi).det ≠ 0) →
        (∀ i, HasDerivAt (fun s : ℝ => Fu (u + s • δ) (p + s * π) i)
          (-((Kuu u p).mulVec (vec24 δ) i + Kup u p i * π)) 0) ∧
        HasDerivAt (fun s : ℝ => Fp (u + s • δ) (p + s * π)) (-(Kup u p ⬝ᵥ vec24 δ + Kpp u p * π)) 0) ∧
      (E.Smooth → ∀ {X : Type} [TopologicalSpace X] {x : X} (u : X → Fin 8 → Fin 3 → ℝ) (p : X → ℝ),
        (∀ a c, ContinuousAt (fun y => u y a c) x) → ContinuousAt p x →
        (∀ q ∈ hexa.table (schemeIndex o), (jac hexa (pos + u x) q.xi).det ≠ 0) →
        (∀ i j, ContinuousAt (fun y => Kuu (u y) (p y) i j) x) ∧ (∀ i, ContinuousAt (fun y => Kup (u y) (p y) i) x) ∧
        ContinuousAt (fun y => Kpp (u y) (p y)) x) := by
  obtain ⟨g, h1, h2, h3⟩ := makeJacob_good h
  rw [← h2] at h
  refine ⟨g, h1, fun u p => (tot E k pos (hexa.table g.scheme) u p).1, fun u p => (tot E k pos (hexa.table g.scheme) u p).2.1,
    fun u p => (tot E k pos (hexa.table g.scheme) u p).2.2.2.1, fun u p => (tot E k pos (hexa.table g.scheme) u p).2.2.1,
    fun u p => (tot E k pos (hexa.table g.scheme) u p).2.2.2.2, fun pts u p hp => solidStep_eq E k h3 pts hp u p,
    fun u p => tot_symm E k pos _ u p, ?_, ?_⟩
  · intro u p δ π hu
    rw [← h2] at hu
    refine ⟨?_, deriv_tot_Fp E k pos _ h u δ p π hu⟩
    intro i
    have := deriv_tot_Fu hE k pos _ h u δ p π hu (Pi.single i 1)
    simp only [single_dotProduct, one_mul] at this
    refine this.congr_deriv ?_
    ring
  · intro hs X _ x u p hu hp hd
    rw [← h2] at hd
    exact cont_tot hE hs k pos _ h hu hp hd

/-- What `C68_tangent` says, and that the matrix is continuous. -/
theorem plane_tangent {E : Energy} (hE : E.Consistent) (k : ℝ) (o : Nat) (pos : Fin 4 → Fin 2 → ℝ)
    (h : ∀ q ∈ quad.table (schemeIndex o), (jac quad pos q.xi).det ≠ 0) :
    ∃ g, makeJacob quad o pos = .ok g ∧
    ∃ (Ke : (Fin 4 → Fin 2 → ℝ) → ℝ → Matrix (Fin 9) (Fin 9) ℝ) (Fe : (Fin 4 → Fin 2 → ℝ) → ℝ → Fin 9 → ℝ),
      (∀ pts u p, pts.length = nOfIntPoints quad g → planeStep E k g pts u p = .ok (Ke u p, Fe u p)) ∧
      (∀ u p, (Ke u p).IsSymm) ∧
      (∀ u p δ π, (∀ q ∈ quad.table (schemeIndex o), (jac quad (pos + u) q.xi).det ≠ 0) → ∀ i,
        HasDerivAt (fun s : ℝ => Fe (u + s • δ) (p + s * π) i) (-((Ke u p).mulVec (vec9 δ π) i)) 0) ∧
      (E.Smooth → ∀ {X : Type} [TopologicalSpace X] {x : X} (u : X → Fin 4 → Fin 2 → ℝ) (p : X → ℝ),
        (∀ a c, ContinuousAt (fun y => u y a c) x) → ContinuousAt p x →
        (∀ q ∈ quad.table (schemeIndex o), (jac quad (pos + u x) q.xi).det ≠ 0) →
        ∀ i j, ContinuousAt (fun y => Ke (u y) (p y) i j) x) := by
  obtain ⟨g, h1, h2, h3⟩ := makeJacob_good h
  rw [← h2] at h
  refine ⟨g, h1, fun u p => (planeJoin (enc2 (tot2 E k pos (quad.table g.scheme) u p))).1,
    fun u p => (planeJoin (enc2 (tot2 E k pos (quad.table g.scheme) u p))).2,
    fun pts u p hp => planeStep_eq E k h3 pts hp u p, fun u p => join_symm (tot2_symm E k pos _ u p), ?_, ?_⟩
  · intro u p δ π hu i
    rw [← h2] at hu
    dsimp only
    rw [join_mulVec]
    by_cases hi : i.val < 8
    · rw [dif_pos hi]
      have := (deriv_tot2_Qe hE k pos _ h u δ p π hu (Pi.single ⟨i, hi⟩ 1)).fun_neg
      simp only [single_dotProduct, one_mul] at this
      simp only [planeJoin, hi, dite_true]
      refine this.congr_deriv ?_
      simp only [enc2]
      ring
    · rw [dif_neg hi]
      have := (deriv_tot2_Fp E k pos _ h u δ p π hu).fun_neg
      simp only [planeJoin, hi, dite_false]
      exact this
  · intro hs X _ x u p hu hp hd i j
    rw [← h2] at hd
    obtain ⟨c1, c2, c3⟩ := cont_tot2 hE hs k pos _ h hu hp hd
    simp only [planeJoin, enc2, Matrix.of_apply]
    by_cases hi : i.val < 8 <;> by_cases hj : j.val < 8
    · simp only [dif_pos hi, dif_pos hj]; exact c1 _ _
    · simp only [dif_pos hi, dif_neg hj]; exact c2 _
    · simp only [dif_neg hi, dif_pos hj]; exact c2 _
    · simp only [dif_neg hi, dif_neg hj]; exact c3

end Nla3d.Hyper
