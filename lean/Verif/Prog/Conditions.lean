import Verif.Prog.Step
import Verif.Struct.Rows

/-!
# The constraint equations of the code, one by one
-/

namespace Nla3d.Prog

open Nla3d.Dof Nla3d.Storage Nla3d.Iso Nla3d.Newton Nla3d.Labels Nla3d.Material Nla3d.Hyper
open Nla3d.Solver (Bc keyOf lastFix fixKeys EqSolver Reached iteration NState Books Accepted C21_iteration base_of_prepare Base zeroR kept
  unknowns meanAbs comp seg)
open Nla3d.Rigid hiding pre update
open Nla3d.Main (Job)
open Nla3d.Cmd (Options)
open Nla3d.Struct (mpcForce)

noncomputable section

section
variable {α β γ : Type} (l : List α) (m : List β) (g : α → β → γ)

theorem grid_length : (l.flatMap (fun a => m.map (g a))).length = l.length * m.length := by
  induction l with
  | nil => simp
  | cons a l ih => rw [List.flatMap_cons, List.length_append, ih, List.length_map, List.length_cons]; ring

theorem grid_get {k d : Nat} {a : α} {b : β} (hk : l[k]? = some a) (hd : m[d]? = some b) :
    (l.flatMap (fun a => m.map (g a)))[k * m.length + d]? = some (g a b) := by
  induction l generalizing k with
  | nil => simp at hk
  | cons a' l ih =>
    have hlt := (List.getElem?_eq_some_iff.mp hd).1
    rw [List.flatMap_cons]
    cases k with
    | zero =>
      simp only [List.getElem?_cons_zero, Option.some.injEq] at hk
      subst hk
      rw [Nat.zero_mul, Nat.zero_add, List.getElem?_append_left (by simpa using hlt), List.getElem?_map, hd]
      rfl
    | succ k =>
      rw [List.getElem?_cons_succ] at hk
      rw [List.getElem?_append_right (by rw [List.length_map, Nat.succ_mul]; omega), List.length_map,
        show (k + 1) * m.length + d - m.length = k * m.length + d by rw [Nat.succ_mul]; omega]
      exact ih hk

/-- A position in a grid. -/
theorem grid_pos {q : Nat} (h : q < l.length * m.length) : ∃ k d a b, q = k * m.length + d ∧ l[k]? = some a ∧ m[d]? = some b := by
  have hpos : 0 < m.length := by
    rcases Nat.eq_zero_or_pos m.length with h0 | h0
    · rw [h0] at h; omega
    · exact h0
  have hn : q / m.length < l.length := by rw [Nat.div_lt_iff_lt_mul hpos]; exact h
  have hd : q % m.length < m.length := Nat.mod_lt _ hpos
  exact ⟨q / m.length, q % m.length, _, _, (Nat.div_add_mod' q m.length).symm, List.getElem?_eq_getElem hn, List.getElem?_eq_getElem hd⟩

end

theorem axis_transl (i : Fin 3) : axis (transl i) = i := by
  fin_cases i <;> rfl

/-- The equation of a slave and a direction after an update. -/
theorem updBody_at {r : RigidBody} (hr : r.Ok) {ms : List (Mpc ℝ)} (h : Shaped { r with collection := ms.map some })
    (sol : Nat → DofType → ℝ) (pos : Nat → Fin 3 → ℝ) {k d n : Nat} {i : Fin 3} (hk : r.slaves[k]? = some n)
    (hd : r.dofs[d]? = some (transl i)) :
    ∃ q, (updBody sol pos r ms)[k * r.dofs.length + d]? =
      some (withRot r.master n (transl i) (newA sol pos r.master n i) (newB sol pos r.master n (transl i) i) q) := by
  obtain ⟨r', h1, h2, h3, h4, h5, h6⟩ := Rigid.update_eq { r with collection := ms.map some } hr.few hr.transl h sol pos
  have hmm : (updBody sol pos r ms).map some = r'.collection := by
    unfold updBody
    rw [h1]
    exact filterMap_some _ h5.isSome
  obtain ⟨a, b, q, hq⟩ := h.entry k d n (transl i) hk hd
  have h7 := h6 k d n i a b q hk hd hq
  rw [← hmm, List.getElem?_map, Option.map_eq_some_iff] at h7
  obtain ⟨m, m1, m2⟩ := h7
  rw [Option.some.injEq] at m2
  exact ⟨q, by rw [m1, m2]⟩

variable {o : Options ℝ} {ref : List ℝ} {j : Job ℝ} {els : List El} {num : Key → Nat} {W : ℝ → ℝ → ℝ} {k : ℝ} {eqs : EqSolver ℝ}
  {S1 : Storage ℝ}

theorem conditions_length (x : Vals) : (conditions j x).length = j.mpcs.length + (newOf j).length := by
  unfold conditions newOf bodiesOf
  cases hr : j.rigid with
  | none => simp
  | some r =>
    simp only [Option.elim_some, List.length_append, List.length_map, grid_length, List.flatMap_cons, List.flatMap_nil, List.append_nil,
      made_length, RigidBody.count]

/-- Equation number and left-hand side of the equations an iteration works with. -/
theorem conditions_at (h : Runnable o ref j) (ha : AllMade j.type W k j.pos 1 j.elems els) (he : Solver.Exact eqs)
    (hp : (storeOf j).prepare (regsOf j) (newOf j) (fixKeys j.fixs) = .ok S1)
    (hn : ∀ f ∈ regKeys (regsOf j), S1.eqNumber f.1 f.2.1 f.2.2 = .ok (num f)) {s : NState (Group els) ℝ}
    (hs : Reached eqs (hyper els (updOf j els)) j.loads j.fixs S1 (Group.given els) s)
    (hplain : ∀ b, j.rigid = some b → Plain (turn b (valuesOf j num s))) {q : Nat} {m : Mpc ℝ}
    (hq : (updOf j els s.e (zeroR s.S) s.S.mpcs)[q]? = some m) :
    ∃ c, (conditions j (valuesOf j num s))[q]? = some c ∧ ∀ v : Vals, c v = lhs m.eq (fun n d => v (.node, n, d)) := by
  have hm := job_model h ha
  have hprob := hyper_problem hm
  have hbod := job_bodies h els
  obtain ⟨A, hbase⟩ := base_of_prepare hm.legal hp hn
  obtain ⟨hlen, hheld⟩ := held_reached hprob he hbod hp hn hs
  have hfile := file_eqs hm he hp hn hs
  obtain ⟨hbk, _⟩ := C21_iteration hprob he hp hn hs
  obtain ⟨hrun, _⟩ := Solver.reached_inv hbase hm.loads (hprob.elems S1 num hp hn) he hs
  obtain ⟨_, _, _, _, hrun⟩ := hrun
  have hl1 : s.S.mpcs.length = j.mpcs.length + (newOf j).length := by
    rw [hrun.during.shape.length]
    have := congrArg List.length hbase.prep.ready.terms
    simp [storeOf, Storage.fresh] at this
    exact this
  have hlt : (s.S.mpcs.take j.mpcs.length).length = j.mpcs.length := by rw [List.length_take]; omega
  have hq : (s.S.mpcs.take j.mpcs.length ++
      updBodies (solOf (zeroR s.S)) (posOf j.pos) (bodiesOf j) (s.S.mpcs.drop j.mpcs.length))[q]? = some m := hq
  by_cases hql : q < j.mpcs.length
  · rw [List.getElem?_append_left (by omega)] at hq
    have e := congrArg (fun l => l[q]?) hfile
    simp only [List.getElem?_map, hq, Option.map_some] at e
    rw [List.getElem?_eq_getElem hql, Option.map_some, Option.some.injEq, Prod.mk.injEq] at e
    refine ⟨lhsOf j.mpcs[q], ?_, fun v => ?_⟩
    · unfold conditions
      rw [List.getElem?_append_left (by simpa using hql), List.getElem?_map, List.getElem?_eq_getElem hql]
      rfl
    · rw [e.1]
      rfl
  · rw [List.getElem?_append_right (by omega), hlt] at hq
    cases hr : j.rigid with
    | none =>
      exfalso
      have hb0 : bodiesOf j = [] := by unfold bodiesOf; rw [hr]
      have hn0 : newOf j = [] := by unfold newOf; rw [hb0]; rfl
      rw [hb0] at hq
      rw [hn0] at hl1
      rw [show updBodies (solOf (zeroR s.S)) (posOf j.pos) [] (s.S.mpcs.drop j.mpcs.length) = s.S.mpcs.drop j.mpcs.length from rfl,
        List.drop_eq_nil_of_le (by simp at hl1; omega)] at hq
      simp at hq
    | some r =>
      have hb0 : bodiesOf j = [⟨r.master, r.slaves, r.dofs, []⟩] := by unfold bodiesOf; rw [hr]
      have hn0 : (newOf j).length = RigidBody.count ⟨r.master, r.slaves, r.dofs, []⟩ := by
        unfold newOf; rw [hb0]
        simp only [List.flatMap_cons, List.flatMap_nil, List.append_nil, made_length]
      have hrb : (⟨r.master, r.slaves, r.dofs, []⟩ : RigidBody) ∈ bodiesOf j := by rw [hb0]; simp
      rw [hb0] at hq hheld
      have hnil : updBodies (solOf (zeroR s.S)) (posOf j.pos) []
          ((s.S.mpcs.drop j.mpcs.length).drop (RigidBody.count ⟨r.master, r.slaves, r.dofs, []⟩)) = [] :=
        List.drop_eq_nil_of_le (by rw [List.length_drop]; omega)
      have hq : (updBody (solOf (zeroR s.S)) (posOf j.pos) ⟨r.master, r.slaves, r.dofs, []⟩
          ((s.S.mpcs.drop j.mpcs.length).take (RigidBody.count ⟨r.master, r.slaves, r.dofs, []⟩)))[q - j.mpcs.length]? = some m := by
        have hq' : (updBody (solOf (zeroR s.S)) (posOf j.pos) ⟨r.master, r.slaves, r.dofs, []⟩
          ((s.S.mpcs.drop j.mpcs.length).take (RigidBody.count ⟨r.master, r.slaves, r.dofs, []⟩)) ++
          updBodies (solOf (zeroR s.S)) (posOf j.pos) []
          ((s.S.mpcs.drop j.mpcs.length).drop (RigidBody.count ⟨r.master, r.slaves, r.dofs, []⟩)))[q - j.mpcs.length]? = some m := hq
        rwa [hnil, List.append_nil] at hq'
      have hshape := (updBody_held (body_ok h _ hrb) hheld.1 (solOf (zeroR s.S)) (posOf j.pos)).1
      have hcount := hshape.count
      have hlt2 := (List.getElem?_eq_some_iff.mp hq).1
      have hlt2 : q - j.mpcs.length < r.slaves.length * r.dofs.length := lt_of_lt_of_eq hlt2 hcount
      obtain ⟨a, d, n, t, p1, p2, p3⟩ := grid_pos r.slaves r.dofs (q := q - j.mpcs.length) hlt2
      obtain ⟨i, rfl⟩ := (h.slaves r hr).2.1 t (List.mem_of_getElem? p3)
      have hsl := List.mem_of_getElem? p2
      have hi := List.mem_of_getElem? p3
      obtain ⟨b, hb⟩ := updBody_at (body_ok h _ hrb) hheld.1 (solOf (zeroR s.S)) (posOf j.pos) p2 p3
      rw [p1] at hq
      have hb := hq.symm.trans hb
      rw [Option.some.injEq] at hb
      obtain ⟨_, _, t3, t4, t5⟩ := terms_reg hprob hbod hrb hsl hi
      have hth : theta (solOf (zeroR s.S)) r.master = theta (values num s.S) r.master := by
        unfold theta
        rw [solOf_eq hbase hn hbk t3, solOf_eq hbase hn hbk t4, solOf_eq hbase hn hbk t5]
      have hA : newA (solOf (zeroR s.S)) (posOf j.pos) r.master n i = newA (values num s.S) (posOf j.pos) r.master n i := by
        unfold newA
        rw [hth]
      refine ⟨fun v => deriv (fun s' : ℝ => away j r n (axis (transl i)) (valuesOf j num s + s' • v)) 0, ?_, fun v => ?_⟩
      · unfold conditions
        rw [List.getElem?_append_right (by rw [List.length_map]; omega), List.length_map, p1, hr, Option.elim_some]
        exact grid_get r.slaves r.dofs
          (fun n d v => deriv (fun s' : ℝ => away j r n (axis d) (valuesOf j num s + s' • v)) 0) p2 p3
      · rw [hb, hA, axis_transl]
        have hval : ∀ n d, Has j (.node, n, d) → valuesOf j num s (.node, n, d) = values num s.S n d := fun n d hf => valsAt_has hf
        have hturn : turn r (valuesOf j num s) = theta (values num s.S) r.master := by
          have e1 := hval r.master .ROTX (.master hr (by simp))
          have e2 := hval r.master .ROTY (.master hr (by simp))
          have e3 := hval r.master .ROTZ (.master hr (by simp))
          simp only [turn, theta, e1, e2, e3]
        have d2 : HasDerivAt (fun τ : ℝ => away j r n i (valuesOf j num s + τ • v)) _ 0 :=
          (deriv_lhs (pos := posOf j.pos) (s := n) (i := i) (v := fun n d => v (.node, n, d))
            (newB (solOf (zeroR s.S)) (posOf j.pos) r.master n (transl i) i) b
            (by rw [← hturn]; exact hplain r hr)).congr_of_eventuallyEq (Filter.Eventually.of_forall fun τ => ?_)
        · exact d2.deriv
        · refine offset_reg hprob hbod hrb hsl hi fun n d hnd => ?_
          have e1 := hval n d ((regKeys_has j _).mp hnd)
          simp only [Pi.add_apply, Pi.smul_apply] at e1 ⊢
          rw [e1]

/-- The equations have consecutive numbers. -/
theorem mpc_number (hb : Base (storeOf j) S1 (regsOf j) (newOf j) j.fixs num A) {ms : List (Mpc ℝ)} (hsh : SameShape S1.mpcs ms) :
    ms.length = j.mpcs.length + (newOf j).length ∧ ∀ q m, ms[q]? = some m → m.eqNum = S1.nDofs + 1 + q := by
  have hl : S1.mpcs.length = j.mpcs.length + (newOf j).length := by
    have := congrArg List.length hb.prep.ready.terms
    simp [storeOf, Storage.fresh] at this
    exact this
  refine ⟨by rw [hsh.length, hl], fun q m hq => ?_⟩
  have e : ms.map Mpc.eqNum = S1.mpcs.map Mpc.eqNum := by
    have := congrArg (List.map Prod.fst) hsh
    rw [List.map_map, List.map_map] at this
    exact this
  rw [hb.prep.ready.eqNums] at e
  have := congrArg (fun l => l[q]?) e
  simp only [List.getElem?_map, hq, Option.map_some] at this
  have hlt : q < S1.mpcs.length := by
    rw [← hsh.length]
    exact (List.getElem?_eq_some_iff.mp hq).1
  rw [List.getElem?_range' hlt, Option.some.injEq] at this
  omega

/-- A vector of the reduced system in the numbering of the full one. -/
def lift (c : Nat) (w : Nat → ℝ) (i : Nat) : ℝ := if c < i then w (i - c - 1) else 0

theorem sum_lift (c n : Nat) (f w : Nat → ℝ) :
    ∑ q ∈ Finset.range n, f (c + (q + 1)) * w q = ∑ i ∈ Finset.range (c + n), f (i + 1) * lift c w (i + 1) := by
  rw [Finset.sum_range_add, Finset.sum_eq_zero (s := Finset.range c) fun i hi => by
    rw [lift, if_neg (by have := Finset.mem_range.mp hi; omega), mul_zero], zero_add]
  refine Finset.sum_congr rfl fun q _ => ?_
  rw [lift, if_pos (by omega), show c + q + 1 - c - 1 = q by omega, Nat.add_assoc]

/-- The force of the constraints on an unknown. -/
theorem force_conditions {ms : List (Mpc ℝ)} {x : Vals} {V : Nat → ℝ} {n : Nat} (hl : ms.length = (conditions j x).length)
    (hnum : ∀ q m, ms[q]? = some m → m.eqNum = n + 1 + q)
    (hc : ∀ (q : Nat) (m : Mpc ℝ), ms[q]? = some m → ∃ c, (conditions j x)[q]? = some c ∧ ∀ v : Vals, c v = lhs m.eq (fun n d => v (.node, n, d))) (f : Key) :
    mpcForce ms V f = ((conditions j x).zipIdx.map (fun c => V (n + 1 + c.2) * c.1 (Pi.single f 1))).sum := by
  unfold mpcForce
  congr 1
  apply List.ext_getElem (by simp [hl])
  intro q q1 q2
  have hlt : q < ms.length := by simpa using q1
  have hq : ms[q]? = some ms[q] := List.getElem?_eq_getElem _
  obtain ⟨c, c1, c2⟩ := hc q _ hq
  have c1' := (List.getElem?_eq_some_iff.mp c1).2
  rw [List.getElem_map, List.getElem_map, List.getElem_zipIdx, c1', hnum q _ hq]
  simp only [c2, Nat.zero_add]
  unfold lhs
  rw [← List.sum_map_mul_left]
  congr 1
  refine List.map_congr_left fun t _ => ?_
  beta_reduce
  rw [Pi.single_apply]
  split <;> ring

/-- The row of a constraint. -/
theorem row_condition {ms : List (Mpc ℝ)} {V : Nat → ℝ} {n N : Nat} (hN : ∀ m ∈ ms, n < m.eqNum ∧ m.eqNum ≤ N)
    (hnd : (ms.map Mpc.eqNum).Nodup) (ht : ∀ m ∈ ms, ∀ t ∈ m.eq, 0 < num (.node, t.node, t.dof) ∧ num (.node, t.node, t.dof) ≤ n)
    {m : Mpc ℝ} (hm : m ∈ ms) :
    ∑ i ∈ Finset.range N, matSum 0 m.eqNum (i + 1) (ms.flatMap (mpcContribs num)) * V (i + 1) =
      lhs m.eq (fun a d => V (num (.node, a, d))) := by
  have h1 := Solver.mpcContribs_row (num := num) (m := m) (N := N) (hN m hm).1 (hN m hm).2 (fun i => V (i + 1)) m.eq (ht m hm)
  have h2 : ∀ i, matSum 0 m.eqNum (i + 1) (ms.flatMap (mpcContribs num)) = matSum 0 m.eqNum (i + 1) (mpcContribs num m) := fun i =>
    Solver.matSum_mpcs (n := n) ms hnd hm fun m' hm' => ⟨(hN m' hm').1, fun t htt => (ht m' hm' t htt).2⟩
  simp only [h2]
  refine h1.trans ?_
  unfold lhs
  congr 1
  refine List.map_congr_left fun t htt => ?_
  have := ht m hm t htt
  rw [Nat.sub_add_cancel this.1]

end

end Nla3d.Prog
