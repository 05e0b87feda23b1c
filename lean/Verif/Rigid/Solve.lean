import Verif.Rigid.Angles
import Verif.Rigid.Bodies

/-!
# C99: rigid bodies in nonlinear solutions
-/

namespace Nla3d.Rigid

open Nla3d.Dof Nla3d.Storage Nla3d.TimeCtl
open Nla3d.Solver
open scoped Matrix

noncomputable section

/-! ## Specification -/

/-- The values of the node DoFs in a state of the solution. -/
def values (num : Key → Nat) (S : Storage ℝ) (n : Nat) (d : DofType) : ℝ := comp S.vecU (num (.node, n, d))

/-- The increments of the node DoFs in the last iteration. -/
def steps {E : Type} (num : Key → Nat) (s : NState E ℝ) (n : Nat) (d : DofType) : ℝ := comp s.deltaU (num (.node, n, d))

/-- Outside the small-angle branch, or no rotation at all. -/
def Plain (th : Fin 3 → ℝ) : Prop := norm3 th = 0 ∨ 1.0e-3 ≤ norm3 th

/-- Distance from the master node along the axes. -/
def arm (pos : Nat → Fin 3 → ℝ) (m s : Nat) : ℝ := |pos s 0 - pos m 0| + |pos s 1 - pos m 1| + |pos s 2 - pos m 2|

/-- The model has the equations of the bodies, and updates them. -/
structure HasBodies {E : Type} (S0 : Storage ℝ) (new : List (Mpc ℝ)) (el : Elems E ℝ) (bodies : List RigidBody)
    (pos : Nat → Fin 3 → ℝ) : Prop where
  ok : ∀ r ∈ bodies, r.Ok
  eqs : new = bodies.flatMap made
  upd : ∀ e S ms, el.upd e S ms = updRigid bodies pos S0.mpcs.length S ms

/-! ## Lemmas about the condition -/

theorem rot_plain {th : Fin 3 → ℝ} (h : Plain th) : rot th = rodM th := by
  rcases h with h | h
  · have h0 := norm3_eq_zero h
    subst h0
    ext i j
    rw [rodM_eq]
    simp [rot, matC, crossM]
  · apply Matrix.ext_of_mulVec_single
    intro k
    rw [rot_mulVec h, rodM_mulVec]

theorem deriv_plain {th : Fin 3 → ℝ} (h : Plain th) (η : Fin 3 → ℝ) (i j : Fin 3) :
    HasDerivAt (fun s : ℝ => rodM (th + s • η) i j) (∑ l, cDeriv th i j l * η l) 0 := by
  rw [sum_cDeriv]
  rcases h with h | h
  · have h0 := norm3_eq_zero h
    rw [consts_small (by rw [h]; norm_num)]
    subst h0
    have : lin ![1, 0.5, -1 / 3, -1 / 12] 0 η i j = crossM η i j := by simp [lin]
    rw [this]
    exact deriv_rodM_zero η i j
  · rw [consts_big h]
    exact deriv_rodM (lt_of_lt_of_le (by norm_num) h) η i j

theorem offset_rodM (pos : Nat → Fin 3 → ℝ) (m s : Nat) (sol : Nat → DofType → ℝ) (i : Fin 3) :
    offset pos m s sol i = sol s (transl i) - sol m (transl i) + (pos s i - pos m i) -
      ∑ j, rodM (theta sol m) i j * (pos s j - pos m j) := by
  unfold offset
  rw [← rodM_mulVec]
  simp only [Pi.sub_apply, Pi.add_apply, Matrix.mulVec, dotProduct, disp_transl]
  ring

theorem newB_rot (sol : Nat → DofType → ℝ) (pos : Nat → Fin 3 → ℝ) (m s : Nat) (i : Fin 3) :
    newB sol pos m s (transl i) i = sol m (transl i) - sol s (transl i) - (pos s i - pos m i) +
      ∑ j, rot (theta sol m) i j * (pos s j - pos m j) := by
  rw [newB, disp_transl, Fin.sum_univ_three]
  have := delta_sum i (fun k => pos s k - pos m k)
  simp only [rot, Matrix.of_apply] at this ⊢
  linarith

theorem theta_add (u v : Nat → DofType → ℝ) (τ : ℝ) (m : Nat) : theta (u + τ • v) m = theta u m + τ • theta v m := by
  funext k; fin_cases k <;> simp [theta]

theorem lhs_withRot (m s : Nat) (t : DofType) (a : Fin 3 → ℝ) (b : ℝ) (q : Nat) (v : Nat → DofType → ℝ) :
    lhs (withRot m s t a b q).eq v = v s t - v m t + ∑ l, a l * theta v m l := by
  simp only [lhs, withRot, List.map_cons, List.map_nil, List.sum_cons, List.sum_nil, Fin.sum_univ_three, theta,
    Matrix.cons_val_zero, Matrix.cons_val_one, Matrix.cons_val]
  ring

theorem newA_sum (sol : Nat → DofType → ℝ) (pos : Nat → Fin 3 → ℝ) (m s : Nat) (i : Fin 3) (η : Fin 3 → ℝ) :
    ∑ l, newA sol pos m s i l * η l = -∑ j, (∑ l, cDeriv (theta sol m) i j l * η l) * (pos s j - pos m j) := by
  simp only [newA, Fin.sum_univ_three]
  ring

/-- What the condition is after a step that satisfies the equation of the code. -/
theorem offset_after {u v : Nat → DofType → ℝ} {pos : Nat → Fin 3 → ℝ} {m s : Nat} {i : Fin 3} {b : ℝ} {q : Nat}
    (h : lhs (withRot m s (transl i) (newA u pos m s i) b q).eq v = newB u pos m s (transl i) i) :
    offset pos m s (u + v) i = ∑ j, (rot (theta u m) i j + ∑ l, cDeriv (theta u m) i j l * theta v m l -
      rodM (theta u m + theta v m) i j) * (pos s j - pos m j) := by
  rw [lhs_withRot, newA_sum, newB_rot] at h
  have ht : theta (u + v) m = theta u m + theta v m := by
    have := theta_add u v 1 m
    simpa using this
  rw [offset_rodM, ht]
  simp only [Pi.add_apply, Fin.sum_univ_three] at h ⊢
  linarith

/-- The step is a step of Newton's method. -/
theorem newton_after {u v : Nat → DofType → ℝ} {pos : Nat → Fin 3 → ℝ} {m s : Nat} {i : Fin 3} {b : ℝ} {q : Nat}
    (hp : Plain (theta u m))
    (h : lhs (withRot m s (transl i) (newA u pos m s i) b q).eq v = newB u pos m s (transl i) i) :
    HasDerivAt (fun τ : ℝ => offset pos m s (u + τ • v) i) (-offset pos m s u i) 0 := by
  rw [lhs_withRot, newA_sum, newB_rot, rot_plain hp] at h
  have hf : (fun τ : ℝ => offset pos m s (u + τ • v) i) = fun τ : ℝ => (u s (transl i) + τ * v s (transl i)) -
      (u m (transl i) + τ * v m (transl i)) + (pos s i - pos m i) -
      ∑ j, rodM (theta u m + τ • theta v m) i j * (pos s j - pos m j) := by
    funext τ
    rw [offset_rodM, theta_add]
    rfl
  rw [hf]
  have hl : ∀ n, HasDerivAt (fun τ : ℝ => u n (transl i) + τ * v n (transl i)) (v n (transl i)) 0 := by
    intro n
    have := ((hasDerivAt_id (0 : ℝ)).mul_const (v n (transl i))).const_add (u n (transl i))
    simpa using this
  have hsum : HasDerivAt (fun τ : ℝ => ∑ j, rodM (theta u m + τ • theta v m) i j * (pos s j - pos m j))
      (∑ j, (∑ l, cDeriv (theta u m) i j l * theta v m l) * (pos s j - pos m j)) 0 :=
    HasDerivAt.fun_sum fun j _ => (deriv_plain hp (theta v m) i j).mul_const _
  refine ((((hl s).fun_sub (hl m)).add_const (pos s i - pos m i)).fun_sub hsum).congr_deriv ?_
  rw [offset_rodM]
  linarith

theorem abs_after {u v : Nat → DofType → ℝ} {pos : Nat → Fin 3 → ℝ} {m s : Nat} {i : Fin 3} {b : ℝ} {q : Nat}
    (h : lhs (withRot m s (transl i) (newA u pos m s i) b q).eq v = newB u pos m s (transl i) i) :
    |offset pos m s (u + v) i| ≤ (1e-9 + 18 * norm3 (theta v m)) * arm pos m s := by
  rw [offset_after h]
  have hj : ∀ j, |(rot (theta u m) i j + ∑ l, cDeriv (theta u m) i j l * theta v m l - rodM (theta u m + theta v m) i j) *
      (pos s j - pos m j)| ≤ (1e-9 + 18 * norm3 (theta v m)) * |pos s j - pos m j| := by
    intro j
    rw [abs_mul]
    apply mul_le_mul_of_nonneg_right _ (abs_nonneg _)
    have h1 := abs_rot_sub (theta u m) i j
    have h2 := rodM_lipschitz (theta u m) (theta v m) i j
    have h3 := abs_sum_cDeriv (theta u m) (theta v m) i j
    rw [abs_le] at h1 h2 h3 ⊢
    constructor <;> linarith [h1.1, h1.2, h2.1, h2.2, h3.1, h3.2]
  rw [Fin.sum_univ_three]
  have s1 := abs_add_le ((rot (theta u m) i 0 + ∑ l, cDeriv (theta u m) i 0 l * theta v m l -
    rodM (theta u m + theta v m) i 0) * (pos s 0 - pos m 0) + (rot (theta u m) i 1 + ∑ l, cDeriv (theta u m) i 1 l * theta v m l -
    rodM (theta u m + theta v m) i 1) * (pos s 1 - pos m 1)) ((rot (theta u m) i 2 + ∑ l, cDeriv (theta u m) i 2 l * theta v m l -
    rodM (theta u m + theta v m) i 2) * (pos s 2 - pos m 2))
  have s2 := abs_add_le ((rot (theta u m) i 0 + ∑ l, cDeriv (theta u m) i 0 l * theta v m l -
    rodM (theta u m + theta v m) i 0) * (pos s 0 - pos m 0)) ((rot (theta u m) i 1 + ∑ l, cDeriv (theta u m) i 1 l * theta v m l -
    rodM (theta u m + theta v m) i 1) * (pos s 1 - pos m 1))
  unfold arm
  linarith [hj 0, hj 1, hj 2]

/-! ## The equations during a solution -/

section
variable {E : Type} {S0 S1 : Storage ℝ} {calls : List RegCall} {new : List (Mpc ℝ)} {loads fixs : List (Bc ℝ)}
    {num : Key → Nat} {el : Elems E ℝ} {eqs : EqSolver ℝ} {bodies : List RigidBody} {pos : Nat → Fin 3 → ℝ}

theorem held_reached (h : Problem S0 calls new loads fixs el) (he : Exact eqs) (hb : HasBodies S0 new el bodies pos)
    (hp : S0.prepare calls new (fixKeys fixs) = .ok S1) (hn : ∀ k ∈ regKeys calls, S1.eqNumber k.1 k.2.1 k.2.2 = .ok (num k))
    {e : E} {s : NState E ℝ} (hs : Reached eqs el loads fixs S1 e s) :
    S0.mpcs.length ≤ s.S.mpcs.length ∧ Held bodies (s.S.mpcs.drop S0.mpcs.length) := by
  obtain ⟨A, hbase⟩ := base_of_prepare h.legal hp hn
  induction hs with
  | start tc =>
    have ht := hbase.prep.ready.terms
    constructor
    · have := congrArg List.length ht
      simp at this
      show _ ≤ S1.mpcs.length
      omega
    · refine held_congr bodies (bodies.flatMap made) _ ?_ (held_made bodies)
      show (S1.mpcs.drop _).map _ = _
      rw [List.map_drop, ht, ← List.map_drop, List.drop_left, hb.eqs]
  | time tc _ ih => exact ih
  | @iter s s' hr hit ih =>
    obtain ⟨_, hor⟩ := C21_iteration h he hp hn hr
    rcases hor with ⟨hf, _⟩ | ⟨s'', g1, _, hsv⟩
    · rw [hit] at hf; simp at hf
    rw [hit, Res.ok.injEq] at g1
    subst g1
    rw [hsv.mpcs, hb.upd]
    refine ⟨by rw [(updRigid_shape bodies pos S0.mpcs.length _ _).length]; exact ih.1, ?_⟩
    unfold updRigid
    rw [List.drop_left' (by rw [List.length_take]; omega)]
    exact (updBodies_held bodies hb.ok _ ih.2 _ pos).1

theorem terms_reg (h : Problem S0 calls new loads fixs el) (hb : HasBodies S0 new el bodies pos) {r : RigidBody} (hr : r ∈ bodies)
    {n : Nat} (hn : n ∈ r.slaves) {i : Fin 3} (hi : transl i ∈ r.dofs) :
    (Side.node, n, transl i) ∈ regKeys calls ∧ (Side.node, r.master, transl i) ∈ regKeys calls ∧
      (Side.node, r.master, DofType.ROTX) ∈ regKeys calls ∧ (Side.node, r.master, DofType.ROTY) ∈ regKeys calls ∧
      (Side.node, r.master, DofType.ROTZ) ∈ regKeys calls := by
  obtain ⟨k, hk⟩ := List.getElem?_of_mem hn
  obtain ⟨d, hd⟩ := List.getElem?_of_mem hi
  obtain ⟨a, b, q, hq⟩ := (made_shaped r).entry k d n _ hk hd
  obtain ⟨m, m1, m2⟩ := List.mem_map.mp (List.mem_of_getElem? hq)
  have hm : m ∈ S0.mpcs ++ new := by
    rw [hb.eqs]
    exact List.mem_append_right _ (List.mem_flatMap.mpr ⟨r, hr, m1⟩)
  have ht := h.legal.terms m hm
  rw [Option.some.inj m2] at ht
  exact ⟨ht ⟨n, transl i, 1⟩ (by simp [withRot]), ht ⟨r.master, transl i, -1⟩ (by simp [withRot]),
    ht ⟨r.master, .ROTX, a 0⟩ (by simp [withRot]), ht ⟨r.master, .ROTY, a 1⟩ (by simp [withRot]),
    ht ⟨r.master, .ROTZ, a 2⟩ (by simp [withRot])⟩

theorem solOf_eq {A : Side → Spec} (hbase : Base S0 S1 calls new fixs num A)
    (hn : ∀ k ∈ regKeys calls, S1.eqNumber k.1 k.2.1 k.2.2 = .ok (num k)) {s : NState E ℝ}
    (hbk : Books S1 (regKeys calls) num fixs s) {n : Nat} {d : DofType} (hk : (Side.node, n, d) ∈ regKeys calls) :
    solOf (zeroR s.S) n d = values num s.S n d := by
  have hr := hbase.range hk
  have hlen := hbk.sizes.1
  have he : (zeroR s.S).eqNumber .node n d = .ok (num (.node, n, d)) := by
    have h1 := hn _ hk
    have h2 : (zeroR s.S).eqNumber .node n d = S1.eqNumber .node n d := by
      have := hbk.alike
      unfold Alike at this
      unfold zeroR
      rw [this]
      rfl
    rw [h2]
    exact h1
  have hU : (zeroR s.S).vecU = s.S.vecU := rfl
  unfold solOf Post.solution
  rw [hU, if_pos (by omega), he, Res.ok_bind, if_pos (by omega), Res.read_of_lt (by omega)]
  show s.S.vecU[_] = comp _ _
  unfold comp
  rw [List.getD_eq_getElem?_getD, List.getElem?_eq_getElem (by omega)]
  rfl

/-- Every iteration satisfies the equations of the bodies for the values before it. -/
theorem row (h : Problem S0 calls new loads fixs el) (he : Exact eqs) (hb : HasBodies S0 new el bodies pos)
    (hp : S0.prepare calls new (fixKeys fixs) = .ok S1) (hn : ∀ k ∈ regKeys calls, S1.eqNumber k.1 k.2.1 k.2.2 = .ok (num k))
    {e : E} {s s' : NState E ℝ} (hs : Reached eqs el loads fixs S1 e s) (hit : iteration eqs el loads fixs s = .ok s')
    {r : RigidBody} (hr : r ∈ bodies) {n : Nat} (hsl : n ∈ r.slaves) {i : Fin 3} (hi : transl i ∈ r.dofs) :
    (∃ b q, lhs (withRot r.master n (transl i) (newA (values num s.S) pos r.master n i) b q).eq (steps num s') =
      newB (values num s.S) pos r.master n (transl i) i) ∧
    (∀ k d, (Side.node, k, d) ∈ regKeys calls → values num s'.S k d = values num s.S k d + steps num s' k d) := by
  obtain ⟨A, hbase⟩ := base_of_prepare h.legal hp hn
  obtain ⟨_, hheld⟩ := held_reached h he hb hp hn hs
  obtain ⟨hbk, hor⟩ := C21_iteration h he hp hn hs
  rcases hor with ⟨hf, _⟩ | ⟨s'', g1, hbk', hsv⟩
  · rw [hit] at hf; simp at hf
  rw [hit, Res.ok.injEq] at g1
  subst g1
  obtain ⟨t1, t2, t3, t4, t5⟩ := terms_reg h hb hr hsl hi
  constructor
  · obtain ⟨q, hq⟩ := (updBodies_held bodies hb.ok _ hheld (solOf (zeroR s.S)) pos).2 r hr n hsl i hi
    have hm := hsv.mpcRows _ (by rw [hsv.mpcs, hb.upd]; exact List.mem_append_right _ hq)
    have hth : theta (solOf (zeroR s.S)) r.master = theta (values num s.S) r.master := by
      unfold theta
      rw [solOf_eq hbase hn hbk t3, solOf_eq hbase hn hbk t4, solOf_eq hbase hn hbk t5]
    have hA : newA (solOf (zeroR s.S)) pos r.master n i = newA (values num s.S) pos r.master n i := by
      unfold newA
      rw [hth]
    have hB : newB (solOf (zeroR s.S)) pos r.master n (transl i) i = newB (values num s.S) pos r.master n (transl i) i := by
      rw [newB_rot, newB_rot, hth, solOf_eq hbase hn hbk t1, solOf_eq hbase hn hbk t2]
    rw [hA, hB] at hm
    exact ⟨_, q, hm⟩
  · intro k d hk
    have hr := hbase.range hk
    unfold values steps
    rw [hbk'.sums _ hr.1 hr.2, hbk.sums _ hr.1 hr.2, hsv.trace, total_append]

theorem offset_reg (h : Problem S0 calls new loads fixs el) (hb : HasBodies S0 new el bodies pos) {r : RigidBody} (hr : r ∈ bodies)
    {n : Nat} (hsl : n ∈ r.slaves) {i : Fin 3} (hi : transl i ∈ r.dofs) {u v : Nat → DofType → ℝ}
    (huv : ∀ k d, (Side.node, k, d) ∈ regKeys calls → u k d = v k d) : offset pos r.master n u i = offset pos r.master n v i := by
  obtain ⟨t1, t2, t3, t4, t5⟩ := terms_reg h hb hr hsl hi
  have hth : theta u r.master = theta v r.master := by
    unfold theta
    rw [huv _ _ t3, huv _ _ t4, huv _ _ t5]
  rw [offset_rodM, offset_rodM, hth, huv _ _ t1, huv _ _ t2]

/-! ## C99 -/

/-- **C99.** Each iteration of a nonlinear solution performs a step of Newton's method on the rigid-body condition of each slave
node: the increments `v` it adds to the values `u` solve `D(offset)(u) v = -offset(u)`. Outside the range `0 < |theta| < 1e-3`. -/
theorem C99_newton_partial (h : Problem S0 calls new loads fixs el) (he : Exact eqs) (hb : HasBodies S0 new el bodies pos)
    (hp : S0.prepare calls new (fixKeys fixs) = .ok S1) (hn : ∀ k ∈ regKeys calls, S1.eqNumber k.1 k.2.1 k.2.2 = .ok (num k))
    {e : E} {s s' : NState E ℝ} (hs : Reached eqs el loads fixs S1 e s) (hit : iteration eqs el loads fixs s = .ok s')
    {r : RigidBody} (hr : r ∈ bodies) {n : Nat} (hsl : n ∈ r.slaves) {i : Fin 3} (hi : transl i ∈ r.dofs)
    (hpl : Plain (theta (values num s.S) r.master)) :
    HasDerivAt (fun τ : ℝ => offset pos r.master n (values num s.S + τ • steps num s') i)
        (-offset pos r.master n (values num s.S) i) 0 ∧
      ∀ k d, (Side.node, k, d) ∈ regKeys calls → values num s'.S k d = values num s.S k d + steps num s' k d := by
  obtain ⟨⟨b, q, h1⟩, h2⟩ := row h he hb hp hn hs hit hr hsl hi
  exact ⟨newton_after hpl h1, h2⟩

/-- **C99.** After each iteration each slave node is at the place where the rigid motion of the master node takes it, up to a
multiple of the last increment of the rotation and `1e-9` times the distance from the master node. -/
theorem C99_close (h : Problem S0 calls new loads fixs el) (he : Exact eqs) (hb : HasBodies S0 new el bodies pos)
    (hp : S0.prepare calls new (fixKeys fixs) = .ok S1) (hn : ∀ k ∈ regKeys calls, S1.eqNumber k.1 k.2.1 k.2.2 = .ok (num k))
    {e : E} {s s' : NState E ℝ} (hs : Reached eqs el loads fixs S1 e s) (hit : iteration eqs el loads fixs s = .ok s')
    {r : RigidBody} (hr : r ∈ bodies) {n : Nat} (hsl : n ∈ r.slaves) {i : Fin 3} (hi : transl i ∈ r.dofs) :
    |offset pos r.master n (values num s'.S) i| ≤ (1e-9 + 18 * norm3 (theta (steps num s') r.master)) * arm pos r.master n := by
  obtain ⟨⟨b, q, h1⟩, h2⟩ := row h he hb hp hn hs hit hr hsl hi
  rw [offset_reg h hb hr hsl hi (u := values num s'.S) (v := values num s.S + steps num s') h2]
  exact abs_after h1

/-- **C99.** If an iteration does not change the rotation of the master node, and the angle is zero or not below `1e-3`, the slave
nodes are exactly at the places where the rigid motion takes them. -/
theorem C99_exact (h : Problem S0 calls new loads fixs el) (he : Exact eqs) (hb : HasBodies S0 new el bodies pos)
    (hp : S0.prepare calls new (fixKeys fixs) = .ok S1) (hn : ∀ k ∈ regKeys calls, S1.eqNumber k.1 k.2.1 k.2.2 = .ok (num k))
    {e : E} {s s' : NState E ℝ} (hs : Reached eqs el loads fixs S1 e s) (hit : iteration eqs el loads fixs s = .ok s')
    {r : RigidBody} (hr : r ∈ bodies) {n : Nat} (hsl : n ∈ r.slaves) {i : Fin 3} (hi : transl i ∈ r.dofs)
    (hpl : Plain (theta (values num s.S) r.master)) (h0 : theta (steps num s') r.master = 0) :
    offset pos r.master n (values num s'.S) i = 0 := by
  obtain ⟨⟨b, q, h1⟩, h2⟩ := row h he hb hp hn hs hit hr hsl hi
  rw [offset_reg h hb hr hsl hi (u := values num s'.S) (v := values num s.S + steps num s') h2, offset_after h1, h0, rot_plain hpl]
  simp

/-! ## At the end of the solution -/

theorem last_iteration {e : E} {s : NState E ℝ} (hs : Reached eqs el loads fixs S1 e s) (h : Problem S0 calls new loads fixs el)
    (he : Exact eqs) (hp : S0.prepare calls new (fixKeys fixs) = .ok S1)
    (hn : ∀ k ∈ regKeys calls, S1.eqNumber k.1 k.2.1 k.2.2 = .ok (num k)) :
    s.trace = [] ∨ ∃ s0 s1 t, Reached eqs el loads fixs S1 e s0 ∧ iteration eqs el loads fixs s0 = .ok s1 ∧ s.S = s1.S ∧
      s.trace = s0.trace ++ [(t, s1.deltaU)] := by
  induction hs with
  | start tc => exact Or.inl rfl
  | time tc _ ih => exact ih
  | @iter s s' hr hit ih =>
    right
    obtain ⟨_, hor⟩ := C21_iteration h he hp hn hr
    rcases hor with ⟨hf, _⟩ | ⟨s'', g1, _, hsv⟩
    · rw [hit] at hf; simp at hf
    rw [hit, Res.ok.injEq] at g1
    subst g1
    exact ⟨s, s', _, hr, hit, rfl, hsv.trace⟩

theorem traceOf_last (τ : Nat → ℝ) {st : Settings ℝ} : ∀ (bs : List (List (List ℝ))) (i : Nat), bs ≠ [] →
    (∀ ds ∈ bs, StepLog st S1 ds) → ∃ t d, (traceOf τ i bs).getLast? = some (t, d) ∧ Accepted st.cc S1 d := by
  intro bs
  induction bs with
  | nil => intro i h _; exact absurd rfl h
  | cons ds bs ih =>
    intro i _ h
    unfold traceOf
    by_cases hb : bs = []
    · subst hb
      obtain ⟨⟨d, hd, ha⟩, _⟩ := h ds (by simp)
      refine ⟨τ i, d, ?_, ha⟩
      simp [traceOf, hd]
    · obtain ⟨t, d, h1, h2⟩ := ih (i + 1) hb (fun x hx => h x (by simp [hx]))
      refine ⟨t, d, ?_, h2⟩
      rw [List.getLast?_append, h1]
      rfl

theorem accepted_comp {cc : ℝ} (hcc : 0 < cc) {d : List ℝ} (ha : Accepted cc S1 d) {i : Nat} (h1 : S1.nConstr < i)
    (h2 : i ≤ S1.nConstr + S1.nUnknown) : |comp d i| ≤ cc * cc * S1.nUnknown := by
  unfold Accepted at ha
  rw [div_lt_iff₀ hcc] at ha
  have hlen : (unknowns S1 d).length ≤ S1.nUnknown := by
    unfold unknowns seg
    rw [List.length_take]
    omega
  have hlen' : ((unknowns S1 d).length : ℝ) ≤ S1.nUnknown := by exact_mod_cast hlen
  have hnn : (0 : ℝ) ≤ S1.nUnknown := Nat.cast_nonneg _
  have hsum : ((unknowns S1 d).map (fun x => |x|)).sum ≤ cc * cc * S1.nUnknown := by
    rcases Nat.eq_zero_or_pos (unknowns S1 d).length with h0 | h0
    · rw [List.length_eq_zero_iff.mp h0]
      simp
      positivity
    · have hpos : (0 : ℝ) < (unknowns S1 d).length := by exact_mod_cast h0
      unfold meanAbs at ha
      rw [div_lt_iff₀ hpos] at ha
      nlinarith [mul_pos hcc hcc]
  unfold comp
  rw [List.getD_eq_getElem?_getD]
  by_cases hi : i - 1 < d.length
  · rw [List.getElem?_eq_getElem hi, Option.getD_some]
    refine le_trans ?_ hsum
    apply List.single_le_sum
    · intro x hx
      obtain ⟨y, _, rfl⟩ := List.mem_map.mp hx
      exact abs_nonneg _
    · refine List.mem_map.mpr ⟨d[i - 1], ?_, rfl⟩
      unfold unknowns seg
      apply List.mem_of_getElem? (i := i - 1 - S1.nConstr)
      rw [List.getElem?_take_of_lt (by omega), List.getElem?_drop, show S1.nConstr + (i - 1 - S1.nConstr) = i - 1 by omega,
        List.getElem?_eq_getElem hi]
  · rw [List.getElem?_eq_none (by omega)]
    simp
    positivity

/-- The rotations of the master node are unknown or fixed at zero. -/
def FreeRot (fixs : List (Bc ℝ)) (m : Nat) : Prop :=
  ∀ d ∈ [DofType.ROTX, .ROTY, .ROTZ], (Side.node, m, d) ∉ fixKeys fixs ∨ lastFix (.node, m, d) fixs = some 0

/-- **C99.** When a nonlinear solution ends without an error, each slave node is at the place where the rigid motion of the master
node takes it, up to a bound that depends on the convergence criterion `cc` and the number of unknowns. -/
theorem C99_solution (h : Problem S0 calls new loads fixs el) (he : Exact eqs) (hb : HasBodies S0 new el bodies pos)
    {st : Settings ℝ} (hiter : st.nIter < 65536) (hsteps : 0 < st.nSteps) (hcc : 0 < st.cc) {tend : ℝ} (hend : 0 < tend) {e : E}
    {inner fuel : Nat} (hin : max 1 st.nIter ≤ inner) (hfuel : st.nSteps < fuel)
    (hp : S0.prepare calls new (fixKeys fixs) = .ok S1) (hn : ∀ k ∈ regKeys calls, S1.eqNumber k.1 k.2.1 k.2.2 = .ok (num k))
    {s : NState E ℝ} {seen : List Nat}
    (hok : nonlinearSolve eqs el loads fixs st (TimeControl.fresh.setEndTime tend) calls new S0 e inner fuel = some (.ok (s, seen)))
    {r : RigidBody} (hr : r ∈ bodies) (hrot : FreeRot fixs r.master) {n : Nat} (hsl : n ∈ r.slaves) {i : Fin 3}
    (hi : transl i ∈ r.dofs) :
    |offset pos r.master n (values num s.S) i| ≤ (1e-9 + 54 * (st.cc * st.cc * S1.nUnknown)) * arm pos r.master n := by
  rcases C21_solution h he hiter hsteps hend e hin hfuel with ⟨hf, _⟩ | ⟨S1', num', s', bs, g1, _, g3, g4, g5, g6, g7, _⟩
  · rw [hok] at hf; simp at hf
  rw [hp, Res.ok.injEq] at g1
  subst g1
  rw [hok, Option.some.injEq, Res.ok.injEq, Prod.mk.injEq] at g3
  obtain ⟨rfl, _⟩ := g3
  have hbs : bs ≠ [] := by intro h0; rw [h0] at g5; simp at g5; omega
  obtain ⟨t, d, l1, l2⟩ := traceOf_last (fun i => ((i : ℝ) + 1) / st.nSteps) bs 0 hbs g7
  rw [← g6] at l1
  rcases last_iteration g4 h he hp hn with h0 | ⟨s0, s1, t', q1, q2, q3, q4⟩
  · rw [h0] at l1; simp at l1
  rw [q4] at l1
  simp at l1
  obtain ⟨_, rfl⟩ := l1
  rw [q3]
  refine le_trans (C99_close h he hb hp hn q1 q2 hr hsl hi) ?_
  have harm : 0 ≤ arm pos r.master n := by unfold arm; positivity
  apply mul_le_mul_of_nonneg_right _ harm
  obtain ⟨A, hbase⟩ := base_of_prepare h.legal hp hn
  obtain ⟨_, _, t3, t4, t5⟩ := terms_reg h hb hr hsl hi
  have hstep := (row h he hb hp hn q1 q2 hr hsl hi).2
  obtain ⟨hbk, _⟩ := C21_iteration h he hp hn q1
  obtain ⟨hbk', _⟩ := C21_iteration h he hp hn (Reached.iter q1 q2)
  have hnn : 0 ≤ st.cc * st.cc * (S1.nUnknown : ℝ) := by positivity
  have hone : ∀ d ∈ [DofType.ROTX, .ROTY, .ROTZ], (Side.node, r.master, d) ∈ regKeys calls →
      |steps num s1 r.master d| ≤ st.cc * st.cc * S1.nUnknown := by
    intro d hd hreg
    rcases hrot d hd with hfree | hfix
    · have hrange := hbase.freeRange hreg hfree
      have hdofs := hbase.prep.pre.dofs
      exact accepted_comp hcc l2 hrange.1 (by omega)
    · have e1 := hbk.fixed _ hreg 0 hfix
      have e2 := hbk'.fixed _ hreg 0 hfix
      have e3 := hstep _ _ hreg
      unfold values at e3
      rw [e1, e2] at e3
      have : steps num s1 r.master d = 0 := by linarith
      rw [this, abs_zero]
      exact hnn
  have hsum := norm3_le_sum (theta (steps num s1) r.master)
  have e0 : theta (steps num s1) r.master 0 = steps num s1 r.master .ROTX := rfl
  have e1 : theta (steps num s1) r.master 1 = steps num s1 r.master .ROTY := rfl
  have e2 : theta (steps num s1) r.master 2 = steps num s1 r.master .ROTZ := rfl
  rw [e0, e1, e2] at hsum
  linarith [hone .ROTX (by simp) t3, hone .ROTY (by simp) t4, hone .ROTZ (by simp) t5]

end

theorem norm3_triangle (x y : Fin 3 → ℝ) : norm3 (x + y) ≤ norm3 x + norm3 y := by
  apply Real.sqrt_le_iff.mpr
  refine ⟨add_nonneg (norm3_nonneg x) (norm3_nonneg y), ?_⟩
  have h1 := norm3_sq x
  have h2 := norm3_sq y
  have h3 := (abs_le.mp (abs_dot x y)).2
  simp only [dotProduct, Fin.sum_univ_three] at h3
  simp only [Pi.add_apply]
  nlinarith

theorem norm3_neg (x : Fin 3 → ℝ) : norm3 (-x) = norm3 x := by
  unfold norm3; simp

/-- **C99.** Where the slave nodes are off by at most `ε` in each direction, the distances between them have changed by at most
`6 * ε`: with `C99_close` and `C99_solution` the body is rigid. -/
theorem C99_distances (pos : Nat → Fin 3 → ℝ) (sol : Nat → DofType → ℝ) (m a b : Nat) {ε : ℝ}
    (ha : ∀ i, |offset pos m a sol i| ≤ ε) (hb : ∀ i, |offset pos m b sol i| ≤ ε) :
    |norm3 ((pos a + disp sol a) - (pos b + disp sol b)) - norm3 (pos a - pos b)| ≤ 6 * ε := by
  have hlin : rodrigues (theta sol m) (pos a - pos m) - rodrigues (theta sol m) (pos b - pos m) =
      rodrigues (theta sol m) (pos a - pos b) := by
    rw [← rodM_mulVec, ← rodM_mulVec, ← rodM_mulVec, ← Matrix.mulVec_sub, sub_sub_sub_cancel_right]
  have hx : (pos a + disp sol a) - (pos b + disp sol b) =
      rodrigues (theta sol m) (pos a - pos b) + (offset pos m a sol - offset pos m b sol) := by
    rw [← hlin]
    unfold offset
    abel
  have hsmall : norm3 (offset pos m a sol - offset pos m b sol) ≤ 6 * ε := by
    refine le_trans (norm3_le_sum _) ?_
    have : ∀ i, |(offset pos m a sol - offset pos m b sol) i| ≤ 2 * ε := by
      intro i
      have h1 := abs_le.mp (ha i)
      have h2 := abs_le.mp (hb i)
      rw [Pi.sub_apply, abs_le]
      constructor <;> linarith
    linarith [this 0, this 1, this 2]
  rw [hx]
  generalize offset pos m a sol - offset pos m b sol = w at hsmall
  have h1 := norm3_triangle (rodrigues (theta sol m) (pos a - pos b)) w
  have h2 := norm3_triangle (rodrigues (theta sol m) (pos a - pos b) + w) (-w)
  rw [add_neg_cancel_right, norm3_neg] at h2
  rw [rodrigues_norm] at h1 h2
  rw [abs_le]
  constructor <;> linarith

end

end Nla3d.Rigid
