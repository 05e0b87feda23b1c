import Verif.Rigid.Lemmas
import Mathlib.LinearAlgebra.Matrix.Trace

/-!
# C53: the rigid-body constraint
-/

namespace Nla3d.Rigid

open Dof Storage
open scoped Matrix

noncomputable section

/-! ## Specification -/

/-- The rotation by the angle `|th|` about the axis `th` (Rodrigues). -/
def rodrigues (th x : Fin 3 → ℝ) : Fin 3 → ℝ :=
  Real.cos (norm3 th) • x + (Real.sin (norm3 th) / norm3 th) • (th ⨯₃ x) +
    ((1 - Real.cos (norm3 th)) / norm3 th ^ 2 * (th ⬝ᵥ x)) • th

/-- Rotation vector of a node. -/
def theta (sol : Nat → DofType → ℝ) (n : Nat) : Fin 3 → ℝ := ![sol n .ROTX, sol n .ROTY, sol n .ROTZ]

/-- Displacement of a node. -/
def disp (sol : Nat → DofType → ℝ) (n : Nat) : Fin 3 → ℝ := ![sol n .UX, sol n .UY, sol n .UZ]

/-- The three translations. -/
def transl : Fin 3 → DofType := ![.UX, .UY, .UZ]

/-- How much node `s` is off the place where the rigid motion of node `m` takes it. -/
def offset (pos : Nat → Fin 3 → ℝ) (m s : Nat) (sol : Nat → DofType → ℝ) : Fin 3 → ℝ :=
  (pos s + disp sol s) - (pos m + disp sol m + rodrigues (theta sol m) (pos s - pos m))

/-- Left-hand side of an equation for the given values of the DoFs. -/
def lhs (e : List (MpcTerm ℝ)) (v : Nat → DofType → ℝ) : ℝ := (e.map (fun t => t.coef * v t.node t.dof)).sum

/-! ## The matrix -/

theorem rot_mulVec {th : Fin 3 → ℝ} (h : 1.0e-3 ≤ norm3 th) (x : Fin 3 → ℝ) : (rot th).mulVec x = rodrigues th x := by
  rw [rot_eq, rodMat_mulVec, consts_big h]
  unfold rodrigues
  simp [pow_two]

/-- C53. Outside the small-angle branch the matrix is a rotation about the axis `th` by the angle `|th|`. -/
theorem C53_rotation {th : Fin 3 → ℝ} (h : 1.0e-3 ≤ norm3 th) :
    (rot th).transpose * rot th = 1 ∧ (rot th).det = 1 ∧ (rot th).mulVec th = th ∧
      (∀ x, (rot th).mulVec x = rodrigues th x) ∧ (rot th).trace = 1 + 2 * Real.cos (norm3 th) := by
  have hn := norm3_sq th
  have hp : norm3 th ≠ 0 := by
    intro h0; rw [h0] at h; norm_num at h
  have hsc := Real.sin_sq_add_cos_sq (norm3 th)
  have hx : ∀ x, (rot th).mulVec x = rodrigues th x := rot_mulVec h
  have e := rot_eq th
  rw [consts_big h] at e
  simp only [Matrix.cons_val_zero, Matrix.cons_val_one] at e
  have e1 : Real.cos (norm3 th) ^ 2 + (Real.sin (norm3 th) / norm3 th) ^ 2 * (norm3 th * norm3 th) = 1 := by
    field_simp; linarith
  have e2 : Real.cos (norm3 th) + (1 - Real.cos (norm3 th)) / (norm3 th * norm3 th) * (norm3 th * norm3 th) = 1 := by
    field_simp; ring
  have e3 : 2 * Real.cos (norm3 th) * ((1 - Real.cos (norm3 th)) / (norm3 th * norm3 th)) +
      ((1 - Real.cos (norm3 th)) / (norm3 th * norm3 th)) ^ 2 * (norm3 th * norm3 th) -
      (Real.sin (norm3 th) / norm3 th) ^ 2 = 0 := by
    field_simp
    linarith
  refine ⟨?_, ?_, ?_, hx, ?_⟩
  · rw [e, rodMat_orth, ← hn, e1, e3]; simp
  · rw [e, rodMat_det, ← hn, e1, e2]; simp
  · rw [e, rodMat_mulVec, cross_self]
    have : th ⬝ᵥ th = norm3 th * norm3 th := by rw [hn]; simp [dotProduct, Fin.sum_univ_three]
    rw [this, smul_zero, add_zero, ← add_smul, e2, one_smul]
  · rw [e]
    simp only [Matrix.trace, Fin.sum_univ_three, rodMat, Matrix.diag]
    simp
    have : Real.cos (norm3 th) + (1 - Real.cos (norm3 th)) / (norm3 th * norm3 th) *
      (th 0 * th 0 + th 1 * th 1 + th 2 * th 2) = 1 := by rw [← hn]; exact e2
    linarith

theorem deriv_norm3 {th : Fin 3 → ℝ} (h : 0 < norm3 th) (η : Fin 3 → ℝ) :
    HasDerivAt (fun s : ℝ => norm3 (th + s • η)) ((th ⬝ᵥ η) / norm3 th) 0 := by
  have hl : ∀ k, HasDerivAt (fun s : ℝ => (th + s • η) k) (η k) 0 := by
    intro k
    have := ((hasDerivAt_id (0 : ℝ)).mul_const (η k)).const_add (th k)
    simpa using this
  have hq : HasDerivAt (fun s : ℝ => (th + s • η) 0 * (th + s • η) 0 + (th + s • η) 1 * (th + s • η) 1 +
      (th + s • η) 2 * (th + s • η) 2) (2 * (th ⬝ᵥ η)) 0 := by
    refine ((((hl 0).fun_mul (hl 0)).fun_add ((hl 1).fun_mul (hl 1))).fun_add ((hl 2).fun_mul (hl 2))).congr_deriv ?_
    simp [dotProduct, Fin.sum_univ_three]
    ring
  have hne : (th + (0 : ℝ) • η) 0 * (th + (0 : ℝ) • η) 0 + (th + (0 : ℝ) • η) 1 * (th + (0 : ℝ) • η) 1 +
      (th + (0 : ℝ) • η) 2 * (th + (0 : ℝ) • η) 2 ≠ 0 := by
    simp only [zero_smul, add_zero]
    rw [← norm3_sq]
    positivity
  refine (hq.sqrt hne).congr_deriv ?_
  simp only [zero_smul, add_zero]
  unfold norm3
  field_simp

/-- C53. The coefficients `cDeriv` are the derivatives of the entries of the matrix. -/
theorem C53_derivative {th : Fin 3 → ℝ} (h : 1.0e-3 < norm3 th) (η : Fin 3 → ℝ) (i j : Fin 3) :
    HasDerivAt (fun s : ℝ => rot (th + s • η) i j) (∑ l, cDeriv th i j l * η l) 0 := by
  have hp : 0 < norm3 th := lt_trans (by norm_num) h
  have hr := deriv_norm3 hp η
  have h0 : norm3 (th + (0 : ℝ) • η) = norm3 th := by simp
  have ev : ∀ᶠ s : ℝ in nhds 0, 1.0e-3 ≤ norm3 (th + s • η) := by
    have := hr.continuousAt.eventually (lt_mem_nhds (show (1.0e-3 : ℝ) < norm3 (th + (0 : ℝ) • η) by rw [h0]; exact h))
    exact this.mono fun s hs => le_of_lt hs
  have hl : ∀ k, HasDerivAt (fun s : ℝ => (th + s • η) k) (η k) 0 := by
    intro k
    have := ((hasDerivAt_id (0 : ℝ)).mul_const (η k)).const_add (th k)
    simpa using this
  have hc := hr.cos
  have hs := hr.sin.fun_div hr (by rw [h0]; exact hp.ne')
  have hk := (hc.const_sub 1).fun_div (hr.fun_mul hr) (by rw [h0]; positivity)
  have hm : HasDerivAt (fun s : ℝ => leviCivita i 0 j * (th + s • η) 0 + leviCivita i 1 j * (th + s • η) 1 +
      leviCivita i 2 j * (th + s • η) 2) _ 0 :=
    (((hl 0).const_mul (leviCivita i 0 j)).fun_add ((hl 1).const_mul (leviCivita i 1 j))).fun_add
      ((hl 2).const_mul (leviCivita i 2 j))
  have key := ((hc.mul_const (delta i j)).fun_add (hs.fun_mul hm)).fun_add ((hk.fun_mul (hl i)).fun_mul (hl j))
  refine (key.congr_deriv ?_).congr_of_eventuallyEq ?_
  · have hd : ∀ a : Fin 3, delta a 0 * η 0 + delta a 1 * η 1 + delta a 2 * η 2 = η a := by
      intro a; fin_cases a <;> simp [delta]
    have e3 : ∑ l, cDeriv th i j l * η l = -consts (norm3 th) 0 * (th ⬝ᵥ η) * delta i j +
        consts (norm3 th) 2 * (th ⬝ᵥ η) * (leviCivita i 0 j * th 0 + leviCivita i 1 j * th 1 + leviCivita i 2 j * th 2) +
        consts (norm3 th) 0 * (leviCivita i 0 j * η 0 + leviCivita i 1 j * η 1 + leviCivita i 2 j * η 2) +
        consts (norm3 th) 3 * (th ⬝ᵥ η) * th i * th j + consts (norm3 th) 1 * (η i * th j + th i * η j) := by
      simp only [cDeriv, Fin.sum_univ_three, dotProduct]
      linear_combination (consts (norm3 th) 1 * th j) * hd i + (consts (norm3 th) 1 * th i) * hd j
    rw [e3, consts_big h.le]
    simp only [h0, zero_smul, add_zero]
    have hne : norm3 th ≠ 0 := hp.ne'
    simp only [Matrix.cons_val_zero, Matrix.cons_val_one, Matrix.cons_val]
    generalize norm3 th = t at hne
    generalize th ⬝ᵥ η = y
    field_simp
    ring
  · filter_upwards [ev] with s hs
    simp only [rot, matC, Matrix.of_apply, consts_big hs, Matrix.cons_val_zero, Matrix.cons_val_one]

/-! ## The equations -/

/-- The equations as `pre` and `update` leave them: only the right-hand side and the coefficients of the rotations vary; `q` is
the number the storage gave to the equation. -/
def withRot (master slave : Nat) (d : DofType) (a : Fin 3 → ℝ) (b : ℝ) (q : Nat) : Mpc ℝ :=
  ⟨[⟨slave, d, 1⟩, ⟨master, d, -1⟩, ⟨master, .ROTX, a 0⟩, ⟨master, .ROTY, a 1⟩, ⟨master, .ROTZ, a 2⟩], b, q⟩

structure Shaped (r : RigidBody) : Prop where
  len : r.collection.length = r.slaves.length * r.dofs.length
  entry : ∀ n d s t, r.slaves[n]? = some s → r.dofs[d]? = some t →
    ∃ a b q, r.collection[n * r.dofs.length + d]? = some (some (withRot r.master s t a b q))

theorem pre_shaped (r : RigidBody) : ∃ r', pre r = .ok (r', r.master, [.UX, .UY, .UZ, .ROTX, .ROTY, .ROTZ]) ∧
    r'.master = r.master ∧ r'.slaves = r.slaves ∧ r'.dofs = r.dofs ∧ Shaped r' := by
  unfold pre
  obtain ⟨c, h1, h2, h3⟩ := gridLoop r.slaves.length r.dofs.length (fun c i j => do
      let s ← Res.read r.slaves i
      let d ← Res.read r.dofs j
      Res.write c (i * r.dofs.length + j) (some (firstEq r.master s d)))
    (fun n d _ => some (firstEq r.master (r.slaves.getD n 0) (r.dofs.getD d .UX)))
    (List.replicate (r.slaves.length * r.dofs.length) none) List.length_replicate (by
      intro c n d x hn hd hc _ _
      rw [Res.read_of_lt hn, Res.ok_bind, Res.read_of_lt hd, Res.ok_bind]
      unfold Res.write
      rw [if_pos (by rw [hc]; exact grid_lt hn hd), List.getD_eq_getElem?_getD, List.getD_eq_getElem?_getD,
        List.getElem?_eq_getElem hn, List.getElem?_eq_getElem hd]
      rfl)
  rw [h1, Res.ok_bind]
  refine ⟨_, rfl, rfl, rfl, rfl, h2, ?_⟩
  intro n d s t hs ht
  have hn := (List.getElem?_eq_some_iff.mp hs).1
  have hd := (List.getElem?_eq_some_iff.mp ht).1
  refine ⟨0, 0, 0, ?_⟩
  rw [h3 n d none hn hd (by
    rw [List.getElem?_replicate, if_pos (grid_lt hn hd)]), List.getD_eq_getElem?_getD, List.getD_eq_getElem?_getD]
  dsimp only at hs ht
  rw [hs, ht]
  rfl

/-- Right-hand side and coefficients that `update` computes. -/
def newB (sol : Nat → DofType → ℝ) (pos : Nat → Fin 3 → ℝ) (m s : Nat) (t : DofType) (i : Fin 3) : ℝ :=
  disp sol m i + (matC (theta sol m) i 0 - delta i 0) * (pos s 0 - pos m 0) +
    (matC (theta sol m) i 1 - delta i 1) * (pos s 1 - pos m 1) + (matC (theta sol m) i 2 - delta i 2) * (pos s 2 - pos m 2) - sol s t

def newA (sol : Nat → DofType → ℝ) (pos : Nat → Fin 3 → ℝ) (m s : Nat) (i l : Fin 3) : ℝ :=
  -(cDeriv (theta sol m) i 0 l * (pos s 0 - pos m 0) + cDeriv (theta sol m) i 1 l * (pos s 1 - pos m 1) +
    cDeriv (theta sol m) i 2 l * (pos s 2 - pos m 2))

theorem direction_eq {t : DofType} {i : Fin 3} (h : t = transl i) : direction t = .ok i := by
  subst h; fin_cases i <;> rfl

theorem updateOne_eq (r : RigidBody) (sol : Nat → DofType → ℝ) (pos : Nat → Fin 3 → ℝ) (c : List (Option (Mpc ℝ))) (n d s : Nat)
    (t : DofType) (i : Fin 3) (a : Fin 3 → ℝ) (b : ℝ) (hs : r.slaves[n]? = some s) (ht : r.dofs[d]? = some t) (hi : t = transl i)
    (q : Nat) (hD : r.dofs.length < 65536)
    (hc : c[n * r.dofs.length + d]? = some (some (withRot r.master s t a b q))) :
    updateOne r sol pos c n d = .ok (c.set (n * r.dofs.length + d)
      (some (withRot r.master s t (newA sol pos r.master s i) (newB sol pos r.master s t i) q))) := by
  have hk := (List.getElem?_eq_some_iff.mp hc).1
  unfold updateOne
  simp only [Nat.mod_eq_of_lt hD]
  rw [Res.read_eq_ok.mpr hs, Res.ok_bind, Res.read_eq_ok.mpr ht, Res.ok_bind, direction_eq hi, Res.ok_bind]
  have hd1 : deref c (n * r.dofs.length + d) = .ok (withRot r.master s t a b q) := by
    unfold deref; rw [Res.read_eq_ok.mpr hc]; rfl
  rw [hd1, Res.ok_bind]
  have hw : ∀ x, Res.write c (n * r.dofs.length + d) x = .ok (c.set (n * r.dofs.length + d) x) := by
    intro x; unfold Res.write; rw [if_pos hk]
  rw [hw, Res.ok_bind]
  have hd2 : ∀ m, deref (c.set (n * r.dofs.length + d) (some m)) (n * r.dofs.length + d) = .ok m := by
    intro m
    unfold deref
    rw [Res.read_eq_ok.mpr (List.getElem?_set_self hk)]; rfl
  rw [hd2, Res.ok_bind]
  simp only
  have hr : ∀ a', setRot (withRot r.master s t a b q).eq a' = .ok (withRot r.master s t a' b q).eq := fun a' => rfl
  rw [hr, Res.ok_bind]
  unfold Res.write
  rw [if_pos (by rw [List.length_set]; exact hk), List.set_set]
  rfl

theorem update_eq (r : RigidBody) (hD : r.dofs.length < 65536) (ht : ∀ t ∈ r.dofs, ∃ i, t = transl i) (hr : Shaped r)
    (sol : Nat → DofType → ℝ) (pos : Nat → Fin 3 → ℝ) : ∃ r', update r sol pos = .ok r' ∧ r'.master = r.master ∧
      r'.slaves = r.slaves ∧ r'.dofs = r.dofs ∧ Shaped r' ∧ ∀ n d s i a b q, r.slaves[n]? = some s → r.dofs[d]? = some (transl i) →
        r.collection[n * r.dofs.length + d]? = some (some (withRot r.master s (transl i) a b q)) →
        r'.collection[n * r.dofs.length + d]? =
          some (some (withRot r.master s (transl i) (newA sol pos r.master s i) (newB sol pos r.master s (transl i) i) q)) := by
  unfold update
  have hdir : ∀ t ∈ r.dofs, direction t = .ok ((fun t => match direction t with | .ok i => i | _ => 0) t) := by
    intro t h
    obtain ⟨i, rfl⟩ := ht t h
    simp only [direction_eq (rfl : transl i = transl i)]
  obtain ⟨c, h1, h2, h3⟩ := gridLoop r.slaves.length r.dofs.length (fun c n d => updateOne r sol pos c n d)
    (fun n d x => some (withRot r.master (r.slaves.getD n 0) (r.dofs.getD d .UX)
      (newA sol pos r.master (r.slaves.getD n 0) ((fun t => match direction t with | .ok i => i | _ => 0) (r.dofs.getD d .UX)))
      (newB sol pos r.master (r.slaves.getD n 0) (r.dofs.getD d .UX)
        ((fun t => match direction t with | .ok i => i | _ => 0) (r.dofs.getD d .UX))) (x.elim 0 Mpc.eqNum)))
    r.collection hr.len (by
      intro c n d x hn hd hc h0 hx
      have hs := List.getElem?_eq_getElem hn
      have hd' := List.getElem?_eq_getElem hd
      obtain ⟨a, b, q, hab⟩ := hr.entry n d _ _ hs hd'
      rw [h0] at hab
      obtain ⟨i, hi⟩ := ht _ (List.getElem_mem hd)
      rw [updateOne_eq r sol pos c n d _ _ i a b hs hd' hi q hD (by rw [hx, hab])]
      have g1 : r.slaves.getD n 0 = r.slaves[n] := by rw [List.getD_eq_getElem?_getD, hs]; rfl
      have g2 : r.dofs.getD d .UX = r.dofs[d] := by rw [List.getD_eq_getElem?_getD, hd']; rfl
      have g3 : (fun t => match direction t with | .ok i => i | _ => (0 : Fin 3)) r.dofs[d] = i := by
        simp only [direction_eq hi]
      rw [g1, g2, g3, Option.some.inj hab]
      rfl)
  rw [h1, Res.ok_bind]
  have key : ∀ n d s i a b q, r.slaves[n]? = some s → r.dofs[d]? = some (transl i) →
      r.collection[n * r.dofs.length + d]? = some (some (withRot r.master s (transl i) a b q)) → c[n * r.dofs.length + d]? =
      some (some (withRot r.master s (transl i) (newA sol pos r.master s i) (newB sol pos r.master s (transl i) i) q)) := by
    intro n d s i a b q hs hd hq
    have hn := (List.getElem?_eq_some_iff.mp hs).1
    have hd' := (List.getElem?_eq_some_iff.mp hd).1
    rw [h3 n d _ hn hd' hq, List.getD_eq_getElem?_getD,
      List.getD_eq_getElem?_getD, hs, hd]
    simp only [Option.getD_some, direction_eq (rfl : transl i = transl i), Option.elim_some]
    rfl
  refine ⟨_, rfl, rfl, rfl, rfl, ⟨h2, ?_⟩, key⟩
  intro n d s t hs hd
  obtain ⟨i, rfl⟩ := ht t (List.mem_of_getElem? hd)
  obtain ⟨a, b, q, hq⟩ := hr.entry n d s _ hs hd
  exact ⟨_, _, _, key n d s i a b q hs hd hq⟩

theorem delta_sum (i : Fin 3) (x : Fin 3 → ℝ) : delta i 0 * x 0 + delta i 1 * x 1 + delta i 2 * x 2 = x i := by
  fin_cases i <;> simp [delta]

theorem offset_eq {sol : Nat → DofType → ℝ} {m : Nat} (h : 1.0e-3 ≤ norm3 (theta sol m)) (pos : Nat → Fin 3 → ℝ) (s : Nat)
    (i : Fin 3) : offset pos m s sol i = disp sol s i - disp sol m i + (pos s i - pos m i) -
      ∑ j, rot (theta sol m) i j * (pos s j - pos m j) := by
  unfold offset
  rw [← rot_mulVec h]
  simp only [Pi.sub_apply, Pi.add_apply, Matrix.mulVec, dotProduct]
  ring

theorem disp_transl (sol : Nat → DofType → ℝ) (s : Nat) (i : Fin 3) : disp sol s i = sol s (transl i) := by
  fin_cases i <;> rfl

theorem newB_eq {sol : Nat → DofType → ℝ} {m : Nat} (h : 1.0e-3 ≤ norm3 (theta sol m)) (pos : Nat → Fin 3 → ℝ) (s : Nat)
    (i : Fin 3) : newB sol pos m s (transl i) i = -offset pos m s sol i := by
  rw [offset_eq h, newB, disp_transl sol s, Fin.sum_univ_three]
  have := delta_sum i (fun k => pos s k - pos m k)
  simp only [rot, Matrix.of_apply] at this ⊢
  linarith

theorem deriv_offset {sol : Nat → DofType → ℝ} {m : Nat} (h : 1.0e-3 < norm3 (theta sol m)) (pos : Nat → Fin 3 → ℝ) (s : Nat)
    (i : Fin 3) (v : Nat → DofType → ℝ) (b : ℝ) (q : Nat) : HasDerivAt (fun τ : ℝ => offset pos m s (sol + τ • v) i)
      (lhs (withRot m s (transl i) (newA sol pos m s i) b q).eq v) 0 := by
  have hth : ∀ τ : ℝ, theta (sol + τ • v) m = theta sol m + τ • theta v m := by
    intro τ; funext k; fin_cases k <;> simp [theta]
  have hu : ∀ n, HasDerivAt (fun τ : ℝ => disp (sol + τ • v) n i) (v n (transl i)) 0 := by
    intro n
    simp only [disp_transl, Pi.add_apply, Pi.smul_apply, smul_eq_mul]
    have := ((hasDerivAt_id (0 : ℝ)).mul_const (v n (transl i))).const_add (sol n (transl i))
    simpa using this
  have hr := fun j => (C53_derivative h (theta v m) i j).mul_const (pos s j - pos m j)
  have hsum : HasDerivAt (fun τ : ℝ => ∑ j, rot (theta sol m + τ • theta v m) i j * (pos s j - pos m j))
      (∑ j, (∑ l, cDeriv (theta sol m) i j l * theta v m l) * (pos s j - pos m j)) 0 := HasDerivAt.fun_sum fun j _ => hr j
  have key := (((hu s).fun_sub (hu m)).add_const (pos s i - pos m i)).fun_sub hsum
  have ev : ∀ᶠ τ : ℝ in nhds 0, 1.0e-3 ≤ norm3 (theta sol m + τ • theta v m) := by
    have h0 : norm3 (theta sol m + (0 : ℝ) • theta v m) = norm3 (theta sol m) := by simp
    have hc := (deriv_norm3 (lt_trans (by norm_num) h) (theta v m)).continuousAt
    have := hc.eventually (lt_mem_nhds (show (1.0e-3 : ℝ) < norm3 (theta sol m + (0 : ℝ) • theta v m) by rw [h0]; exact h))
    exact this.mono fun s hs => le_of_lt hs
  refine (key.congr_deriv ?_).congr_of_eventuallyEq ?_
  · simp only [lhs, withRot, newA, List.map_cons, List.map_nil, List.sum_cons, List.sum_nil, Fin.sum_univ_three, theta,
      Matrix.cons_val_zero, Matrix.cons_val_one, Matrix.cons_val]
    ring
  · filter_upwards [ev] with τ hτ
    rw [offset_eq (by rw [hth]; exact hτ), hth]

theorem updates_shaped (r : RigidBody) (hD : r.dofs.length < 65536) (ht : ∀ t ∈ r.dofs, ∃ i, t = transl i) (hr : Shaped r)
    (pos : Nat → Fin 3 → ℝ) (hist : List (Nat → DofType → ℝ)) : ∃ r', Res.foldlM' (fun r s => update r s pos) r hist = .ok r' ∧
      r'.master = r.master ∧ r'.slaves = r.slaves ∧ r'.dofs = r.dofs ∧ Shaped r' := by
  induction hist generalizing r with
  | nil => exact ⟨r, rfl, rfl, rfl, rfl, hr⟩
  | cons s hist ih =>
    obtain ⟨r1, h1, h2, h3, h4, h5, _⟩ := update_eq r hD ht hr s pos
    obtain ⟨r2, g1, g2, g3, g4, g5⟩ := ih r1 (by rw [h4]; exact hD) (by rw [h4]; exact ht) h5
    refine ⟨r2, ?_, by rw [g2, h2], by rw [g3, h3], by rw [g4, h4], g5⟩
    rw [Res.foldlM'_cons, h1]
    exact g1

/-- C53. After `pre` and any history of updates, `update` in the state `sol` turns every equation into the linearised rigid-body
condition of its slave node: the right-hand side is minus the distance from the rigid motion, and the left-hand side its derivative. -/
theorem C53_update (r : RigidBody) (hD : r.dofs.length < 65536) (ht : ∀ t ∈ r.dofs, ∃ i, t = transl i)
    (pos : Nat → Fin 3 → ℝ) (hist : List (Nat → DofType → ℝ)) (sol : Nat → DofType → ℝ)
    (h : 1.0e-3 < norm3 (theta sol r.master)) :
    ∃ r0 r1 r2, pre r = .ok (r0, r.master, [.UX, .UY, .UZ, .ROTX, .ROTY, .ROTZ]) ∧
      Res.foldlM' (fun r s => update r s pos) r0 hist = .ok r1 ∧ update r1 sol pos = .ok r2 ∧
      r2.collection.length = r.slaves.length * r.dofs.length ∧
      ∀ n d s i, r.slaves[n]? = some s → r.dofs[d]? = some (transl i) →
        ∃ m, r2.collection[n * r.dofs.length + d]? = some (some m) ∧ m.b = -offset pos r.master s sol i ∧
          ∀ v, HasDerivAt (fun τ : ℝ => offset pos r.master s (sol + τ • v) i) (lhs m.eq v) 0 := by
  obtain ⟨r0, h1, a1, a2, a3, a4⟩ := pre_shaped r
  obtain ⟨r1, h2, b1, b2, b3, b4⟩ := updates_shaped r0 (by rw [a3]; exact hD) (by rw [a3]; exact ht) a4 pos hist
  obtain ⟨r2, h3, c1, c2, c3, c4, c5⟩ := update_eq r1 (by rw [b3, a3]; exact hD) (by rw [b3, a3]; exact ht) b4 sol pos
  refine ⟨r0, r1, r2, h1, h2, h3, by rw [c4.len, c2, c3, b2, b3, a2, a3], ?_⟩
  rw [b1, b2, b3, a1, a2, a3] at c5
  intro n d s i hs hd
  obtain ⟨a, b, q, hq⟩ := b4.entry n d s (transl i) (by rw [b2, a2]; exact hs) (by rw [b3, a3]; exact hd)
  rw [b1, b3, a1, a3] at hq
  exact ⟨_, c5 n d s i a b q hs hd hq, newB_eq h.le pos s i, fun v => deriv_offset h pos s i v _ _⟩

/-- C53. If the three translations are constrained, all right-hand sides vanish iff the slave nodes moved with the master node as a rigid
body. -/
theorem C53_rigid (r : RigidBody) (hD : r.dofs.length < 65536) (ht : ∀ t ∈ r.dofs, ∃ i, t = transl i)
    (hall : ∀ i, transl i ∈ r.dofs) (pos : Nat → Fin 3 → ℝ) (hist : List (Nat → DofType → ℝ)) (sol : Nat → DofType → ℝ)
    (h : 1.0e-3 < norm3 (theta sol r.master)) :
    ∃ r0 r1 r2, pre r = .ok (r0, r.master, [.UX, .UY, .UZ, .ROTX, .ROTY, .ROTZ]) ∧
      Res.foldlM' (fun r s => update r s pos) r0 hist = .ok r1 ∧ update r1 sol pos = .ok r2 ∧
      ((∀ e ∈ r2.collection, ∃ m, e = some m ∧ m.b = 0) ↔ ∀ s ∈ r.slaves, pos s + disp sol s =
        pos r.master + disp sol r.master + rodrigues (theta sol r.master) (pos s - pos r.master)) := by
  obtain ⟨r0, r1, r2, h1, h2, h3, h4, h5⟩ := C53_update r hD ht pos hist sol h
  refine ⟨r0, r1, r2, h1, h2, h3, ?_, ?_⟩
  · intro hz s hs
    obtain ⟨n, hn⟩ := List.getElem?_of_mem hs
    have : offset pos r.master s sol = 0 := by
      funext i
      obtain ⟨d, hd⟩ := List.getElem?_of_mem (hall i)
      obtain ⟨m, e1, e2, _⟩ := h5 n d s i hn hd
      obtain ⟨m', e3, e4⟩ := hz _ (List.mem_of_getElem? e1)
      obtain rfl := Option.some.inj e3
      rw [e4] at e2
      simpa using e2
    exact sub_eq_zero.mp this
  · intro hz e he
    obtain ⟨k, hk⟩ := List.getElem?_of_mem he
    have hk' := (List.getElem?_eq_some_iff.mp hk).1
    rw [h4] at hk'
    have hpos : 0 < r.dofs.length := by
      rcases Nat.eq_zero_or_pos r.dofs.length with h0 | h0
      · rw [h0] at hk'; omega
      · exact h0
    have hn : k / r.dofs.length < r.slaves.length := by
      rw [Nat.div_lt_iff_lt_mul hpos]; exact hk'
    have hd : k % r.dofs.length < r.dofs.length := Nat.mod_lt _ hpos
    obtain ⟨i, hi⟩ := ht _ (List.getElem_mem hd)
    obtain ⟨m, e1, e2, _⟩ := h5 _ _ _ i (List.getElem?_eq_getElem hn) (by rw [List.getElem?_eq_getElem hd, hi])
    rw [Nat.div_add_mod' k r.dofs.length, hk] at e1
    refine ⟨m, Option.some.inj e1, ?_⟩
    have : offset pos r.master r.slaves[k / r.dofs.length] sol = 0 := sub_eq_zero.mpr (hz _ (List.getElem_mem hn))
    rw [e2, this]
    simp

/-- C53. The condition keeps the distances between all the nodes: the nodes do move as one rigid body. -/
theorem C53_distances (pos : Nat → Fin 3 → ℝ) (sol : Nat → DofType → ℝ) (m a b : Nat) (h : 1.0e-3 ≤ norm3 (theta sol m))
    (ha : pos a + disp sol a = pos m + disp sol m + rodrigues (theta sol m) (pos a - pos m))
    (hb : pos b + disp sol b = pos m + disp sol m + rodrigues (theta sol m) (pos b - pos m)) :
    norm3 ((pos a + disp sol a) - (pos b + disp sol b)) = norm3 (pos a - pos b) ∧
      norm3 ((pos a + disp sol a) - (pos m + disp sol m)) = norm3 (pos a - pos m) := by
  have iso : ∀ x, norm3 (rodrigues (theta sol m) x) = norm3 x := by
    intro x
    have e : ∀ y : Fin 3 → ℝ, norm3 y = √(y ⬝ᵥ y) := by
      intro y; unfold norm3; simp [dotProduct, Fin.sum_univ_three]
    rw [← rot_mulVec h, e, e, Matrix.dotProduct_mulVec, Matrix.vecMul_mulVec, (C53_rotation h).1, Matrix.vecMul_one]
  have lin : ∀ x y, rodrigues (theta sol m) x - rodrigues (theta sol m) y = rodrigues (theta sol m) (x - y) := by
    intro x y
    rw [← rot_mulVec h, ← rot_mulVec h, ← rot_mulVec h, Matrix.mulVec_sub]
  constructor
  · rw [ha, hb, add_sub_add_left_eq_sub, lin, iso, sub_sub_sub_cancel_right]
  · rw [ha, add_sub_cancel_left, iso]

/-! ## The small-angle branch -/

theorem consts_small {t : ℝ} (h : t < 1.0e-3) : consts t = ![1, 0.5, -1 / 3, -1 / 12] := by
  unfold consts
  rw [if_pos h]

/-- In the small-angle branch the matrix is not a rotation, unless the angle is zero... -/
theorem C53_small_violated {th : Fin 3 → ℝ} (h0 : th ≠ 0) (h : norm3 th < 1.0e-3) : (rot th).transpose * rot th ≠ 1 := by
  intro he
  have hn := norm3_sq th
  have hpos : 0 < norm3 th * norm3 th := by
    rw [hn]
    by_contra hc
    apply h0
    have := mul_self_nonneg (th 0); have := mul_self_nonneg (th 1); have := mul_self_nonneg (th 2)
    funext k
    fin_cases k
    · exact mul_self_eq_zero.mp (show th 0 * th 0 = 0 by linarith)
    · exact mul_self_eq_zero.mp (show th 1 * th 1 = 0 by linarith)
    · exact mul_self_eq_zero.mp (show th 2 * th 2 = 0 by linarith)
  have e := rot_eq th
  rw [consts_small h] at e
  simp only [Matrix.cons_val_zero, Matrix.cons_val_one] at e
  have ht := congrArg Matrix.trace he
  rw [e, rodMat_orth, ← hn] at ht
  simp only [Matrix.trace, Matrix.diag, Fin.sum_univ_three, Matrix.add_apply, Matrix.smul_apply, Matrix.one_apply_eq, Matrix.of_apply,
    smul_eq_mul] at ht
  have hc := Real.one_sub_sq_div_two_le_cos (x := norm3 th)
  have ht' : 3 * (Real.cos (norm3 th) ^ 2 + norm3 th * norm3 th) + (Real.cos (norm3 th) + norm3 th * norm3 th / 4 - 1) *
      (norm3 th * norm3 th) = 3 := by
    rw [hn] at ht ⊢
    linarith
  have hlt : norm3 th * norm3 th < 1 := by
    have : 0 ≤ norm3 th := Real.sqrt_nonneg _
    nlinarith
  nlinarith [mul_nonneg (sub_nonneg.mpr hc) hpos.le, mul_pos hpos hpos]

/-- ... but it differs from the rotation by less than the third power of the angle. -/
theorem C53_small {th : Fin 3 → ℝ} (h : norm3 th < 1.0e-3) (i j : Fin 3) :
    |(rot th).mulVec (Pi.single j 1) i - rodrigues th (Pi.single j 1) i| ≤ norm3 th ^ 3 := by
  have hn := norm3_sq th
  have h0 : 0 ≤ norm3 th := Real.sqrt_nonneg _
  rw [rot_eq, rodMat_mulVec, consts_small h]
  unfold rodrigues
  simp only [Matrix.cons_val_zero, Matrix.cons_val_one, Pi.add_apply, Pi.smul_apply, smul_eq_mul]
  have hle : ∀ k, |th k| ≤ norm3 th := by
    intro k
    apply abs_le_of_sq_le_sq _ h0
    rw [pow_two, pow_two, hn]
    have := mul_self_nonneg (th 0); have := mul_self_nonneg (th 1); have := mul_self_nonneg (th 2)
    fin_cases k <;> simp only [Fin.zero_eta, Fin.mk_one, Fin.reduceFinMk] <;> linarith
  have hcr : |(th ⨯₃ Pi.single j 1) i| ≤ norm3 th := by
    fin_cases i <;> fin_cases j <;> simp [cross_apply, h0] <;> first | exact hle 0 | exact hle 1 | exact hle 2
  have hdot : th ⬝ᵥ Pi.single j 1 = th j := by simp
  rw [hdot]
  have hij : |th j * th i| ≤ norm3 th ^ 2 := by
    rw [abs_mul, pow_two]; exact mul_le_mul (hle j) (hle i) (abs_nonneg _) h0
  generalize (th ⨯₃ Pi.single j 1) i = y at hcr
  have hz : ∀ z : ℝ, Real.cos (norm3 th) * z + 1 * y + 0.5 * th j * th i - (Real.cos (norm3 th) * z +
      Real.sin (norm3 th) / norm3 th * y + (1 - Real.cos (norm3 th)) / norm3 th ^ 2 * th j * th i) =
      (1 - Real.sin (norm3 th) / norm3 th) * y + (0.5 - (1 - Real.cos (norm3 th)) / norm3 th ^ 2) * (th j * th i) := by
    intro z; ring
  rw [hz]
  rcases eq_or_lt_of_le h0 with h00 | h00
  · have hy : y = 0 := by rw [← h00] at hcr; exact abs_nonpos_iff.mp hcr
    have hx : th j * th i = 0 := by rw [← h00] at hij; exact abs_nonpos_iff.mp (by simpa using hij)
    rw [hy, hx]; simp [h0]
  · generalize norm3 th = t at *
    have ht1 : t ≤ 1 := by norm_num at h; linarith
    have s1 := Real.sin_gt_sub_cube h00
    have s2 := Real.sin_lt h00
    have b := Real.cos_bound (x := t) (by rw [abs_of_pos h00]; exact ht1)
    rw [abs_of_pos h00, abs_le] at b
    have c1 := Real.one_sub_sq_div_two_le_cos (x := t)
    have e1 : |1 - Real.sin t / t| ≤ t ^ 2 / 4 := by
      rw [abs_of_nonneg (by rw [sub_nonneg, div_le_one h00]; exact s2.le), sub_le_iff_le_add, ← sub_le_iff_le_add', le_div_iff₀ h00]
      nlinarith
    have e2 : |0.5 - (1 - Real.cos t) / t ^ 2| ≤ t ^ 2 * (5 / 96) := by
      have hp : 0 < t ^ 2 := by positivity
      rw [abs_of_nonneg (by rw [sub_nonneg, div_le_iff₀ hp]; linarith), sub_le_iff_le_add, ← sub_le_iff_le_add', le_div_iff₀ hp]
      nlinarith [b.2]
    calc _ ≤ |(1 - Real.sin t / t) * y| + |(0.5 - (1 - Real.cos t) / t ^ 2) * (th j * th i)| := abs_add_le _ _
      _ ≤ t ^ 2 / 4 * t + t ^ 2 * (5 / 96) * t ^ 2 := by
        rw [abs_mul, abs_mul]
        exact add_le_add (mul_le_mul e1 hcr (abs_nonneg _) (by positivity)) (mul_le_mul e2 hij (abs_nonneg _) (by positivity))
      _ ≤ t ^ 3 := by nlinarith [pow_pos h00 3]

/-- The hypotheses are met: three translations, two slave nodes, a rotation by 90 degrees. -/
example : ∃ (r : RigidBody) (sol : Nat → DofType → ℝ), r.dofs.length < 65536 ∧ (∀ t ∈ r.dofs, ∃ i, t = transl i) ∧
    (∀ i, transl i ∈ r.dofs) ∧ r.slaves.length = 2 ∧ 1.0e-3 < norm3 (theta sol r.master) := by
  refine ⟨⟨7, [1, 2], [.UX, .UY, .UZ], []⟩, fun _ d => if d = .ROTZ then 2 else 0, by decide, ?_, ?_, rfl, ?_⟩
  · intro t ht
    simp only [List.mem_cons, List.not_mem_nil, or_false] at ht
    rcases ht with rfl | rfl | rfl
    · exact ⟨0, rfl⟩
    · exact ⟨1, rfl⟩
    · exact ⟨2, rfl⟩
  · intro i; fin_cases i <;> simp [transl]
  · have : norm3 (theta (fun _ d => if d = .ROTZ then (2 : ℝ) else 0) 7) = 2 := by
      unfold norm3 theta
      rw [show (2 : ℝ) = √(2 ^ 2) by rw [Real.sqrt_sq (by norm_num)]]
      congr 1
      simp
      norm_num
    rw [this]; norm_num

end

end Nla3d.Rigid
