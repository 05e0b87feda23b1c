import Verif.Prog.Elements
import Verif.Gauss.Props

/-!
# A job as a model of the solver
-/

namespace Nla3d.Prog

open Nla3d.Dof Nla3d.Storage Nla3d.Iso Nla3d.Newton Nla3d.Labels Nla3d.Material Nla3d.Hyper
open Nla3d.Solver (Bc keyOf lastFix fixKeys EqSolver)
open Nla3d.Rigid hiding pre update
open Nla3d.Main (Job)
open Nla3d.Cmd (Options)

noncomputable section

/-! ## The equations of a rigid body -/

theorem shaped_mem {r : RigidBody} {ms : List (Mpc ℝ)} (h : Shaped { r with collection := ms.map some }) {m : Mpc ℝ} (hm : m ∈ ms) :
    ∃ (k d n : Nat) (t : DofType) (a : Fin 3 → ℝ) (b : ℝ) (q : Nat), r.slaves[k]? = some n ∧ r.dofs[d]? = some t ∧
      ms[k * r.dofs.length + d]? = some m ∧ m = withRot r.master n t a b q := by
  obtain ⟨i, hi⟩ := List.getElem?_of_mem hm
  have hlt := (List.getElem?_eq_some_iff.mp hi).1
  have hc := h.count
  unfold RigidBody.count at hc
  rw [hc] at hlt
  have hpos : 0 < r.dofs.length := by
    rcases Nat.eq_zero_or_pos r.dofs.length with h0 | h0
    · rw [h0] at hlt; omega
    · exact h0
  have hn : i / r.dofs.length < r.slaves.length := by rw [Nat.div_lt_iff_lt_mul hpos]; exact hlt
  have hd : i % r.dofs.length < r.dofs.length := Nat.mod_lt _ hpos
  obtain ⟨a, b, q, e1⟩ := h.entry _ _ _ _ (List.getElem?_eq_getElem hn) (List.getElem?_eq_getElem hd)
  simp only at e1
  rw [Nat.div_add_mod' i r.dofs.length, List.getElem?_map, hi, Option.map_some, Option.some.injEq, Option.some.injEq] at e1
  exact ⟨i / r.dofs.length, i % r.dofs.length, _, _, a, b, q, List.getElem?_eq_getElem hn, List.getElem?_eq_getElem hd,
    by rw [Nat.div_add_mod' i r.dofs.length]; exact hi, e1⟩

/-- After an update every equation of the body is one of the code for the given values. -/
theorem updBody_mem {r : RigidBody} (hr : r.Ok) {ms : List (Mpc ℝ)} (h : Shaped { r with collection := ms.map some })
    (sol : Nat → DofType → ℝ) (pos : Nat → Fin 3 → ℝ) {m : Mpc ℝ} (hm : m ∈ updBody sol pos r ms) :
    ∃ n ∈ r.slaves, ∃ i, transl i ∈ r.dofs ∧
      ∃ q, m = withRot r.master n (transl i) (newA sol pos r.master n i) (newB sol pos r.master n (transl i) i) q := by
  have h0 := (updBody_held hr h sol pos).1
  obtain ⟨k, d, n, t, _, _, _, k1, k2, k3, _⟩ := shaped_mem h0 hm
  obtain ⟨i, rfl⟩ := hr.transl t (List.mem_of_getElem? k2)
  obtain ⟨r', h1, h2, h3, h4, h5, h6⟩ := Rigid.update_eq { r with collection := ms.map some } hr.few hr.transl h sol pos
  have hmm : (updBody sol pos r ms).map some = r'.collection := by
    unfold updBody
    rw [h1]
    exact filterMap_some _ h5.isSome
  obtain ⟨a, b, q, hq⟩ := h.entry k d n (transl i) k1 k2
  have h7 := h6 k d n i a b q k1 k2 hq
  rw [← hmm, List.getElem?_map, k3, Option.map_some, Option.some.injEq, Option.some.injEq] at h7
  exact ⟨n, List.mem_of_getElem? k1, i, List.mem_of_getElem? k2, q, h7⟩

/-! ## The model -/

/-- The storage before `initializeSolutionData`. -/
def storeOf (j : Job ℝ) : Storage ℝ := Storage.fresh j.pos.length j.elems j.mpcs false

/-- All registrations. -/
def regsOf (j : Job ℝ) : List RegCall := callsOf (displ j.type) j

/-- The equations of the rigid body. -/
def newOf (j : Job ℝ) : List (Mpc ℝ) := (bodiesOf j).flatMap made

/-- The update of the equations of the rigid body. -/
def updOf (j : Job ℝ) (els : List El) : Group els → Storage ℝ → List (Mpc ℝ) → List (Mpc ℝ) :=
  fun _ => updRigid (bodiesOf j) (posOf j.pos) j.mpcs.length

theorem mem_bodiesOf {j : Job ℝ} {b : RigidBody} : b ∈ bodiesOf j ↔ ∃ r, j.rigid = some r ∧ b = ⟨r.master, r.slaves, r.dofs, []⟩ := by
  unfold bodiesOf
  cases j.rigid <;> simp

variable {o : Options ℝ} {ref : List ℝ} {j : Job ℝ}

theorem body_ok (h : Runnable o ref j) : ∀ b ∈ bodiesOf j, b.Ok := by
  intro b hb
  obtain ⟨r, hr, rfl⟩ := mem_bodiesOf.mp hb
  obtain ⟨h1, h2, _⟩ := h.slaves r hr
  exact ⟨by show r.dofs.length < 65536; omega, h2⟩

theorem transl_six (i : Fin 3) : transl i ∈ [DofType.UX, .UY, .UZ, .ROTX, .ROTY, .ROTZ] := by
  fin_cases i <;> simp [transl]

theorem new_terms (h : Runnable o ref j) {m : Mpc ℝ} (hm : m ∈ newOf j) : m.eq ≠ [] ∧ ∀ t ∈ m.eq, Has j (.node, t.node, t.dof) := by
  obtain ⟨b, hb, hm⟩ := List.mem_flatMap.mp hm
  obtain ⟨r, hr, rfl⟩ := mem_bodiesOf.mp hb
  obtain ⟨k, d, n, t, a, c, q, k1, k2, _, rfl⟩ := shaped_mem (made_shaped _) hm
  obtain ⟨_, h2, h3⟩ := h.slaves r hr
  have hd := List.mem_of_getElem? k2
  obtain ⟨i, rfl⟩ := h2 t hd
  refine ⟨by simp [withRot], ?_⟩
  intro t ht
  simp only [withRot, List.mem_cons, List.not_mem_nil, or_false] at ht
  rcases ht with rfl | rfl | rfl | rfl | rfl
  · exact h3 n (List.mem_of_getElem? k1) _ hd
  · exact .master hr (transl_six i)
  · exact .master hr (by simp)
  · exact .master hr (by simp)
  · exact .master hr (by simp)

theorem new_length (h : Runnable o ref j) : (newOf j).length ≤ j.rigid.elim 0 (fun r => 3 * r.slaves.length) := by
  unfold newOf bodiesOf
  cases hr : j.rigid with
  | none => simp
  | some r =>
    simp only [List.flatMap_cons, List.flatMap_nil, List.append_nil, made_length, RigidBody.count, Option.elim_some]
    have := (h.slaves r hr).1
    rw [Nat.mul_comm]
    exact Nat.mul_le_mul_right _ this

theorem has_bounds (h : Runnable o ref j) {f : Key} (hf : Has j f) :
    (f.1 = .node ∧ 0 < f.2.1 ∧ f.2.1 ≤ j.pos.length ∧ f.2.2 ∈ [DofType.UX, .UY, .UZ, .ROTX, .ROTY, .ROTZ]) ∨
    (f.1 = .elem ∧ 0 < f.2.1 ∧ f.2.1 ≤ j.elems.length ∧ f.2.2 = .HYDRO_PRESSURE) := by
  cases hf with
  | node h1 h2 h3 =>
    left
    obtain ⟨a, b⟩ := (h.nodes _ h1).2 _ h2
    refine ⟨rfl, a, b, ?_⟩
    revert h3
    cases j.type <;> simp [displ] <;> rintro (h | h | h) <;> simp [h]
  | pressure h1 h2 => exact Or.inr ⟨rfl, h1, h2, rfl⟩
  | master h1 h2 =>
    left
    obtain ⟨a, b⟩ := h.master _ h1
    exact ⟨rfl, a, b, h2⟩

theorem reg_card (h : Runnable o ref j) : (regKeys (regsOf j)).toFinset.card ≤ 6 * j.pos.length + j.elems.length := by
  have hsub : (regKeys (regsOf j)).toFinset ⊆
      ((Finset.Icc 1 j.pos.length ×ˢ ({.UX, .UY, .UZ, .ROTX, .ROTY, .ROTZ} : Finset DofType)).image (fun p => (Side.node, p.1, p.2))) ∪
      (Finset.Icc 1 j.elems.length).image (fun e => (Side.elem, e, DofType.HYDRO_PRESSURE)) := by
    rintro ⟨s, n, d⟩ hf
    rw [List.mem_toFinset] at hf
    have := has_bounds h ((regKeys_has j _).mp hf)
    rw [Finset.mem_union, Finset.mem_image, Finset.mem_image]
    rcases this with ⟨rfl, h1, h2, h3⟩ | ⟨rfl, h1, h2, rfl⟩
    · left
      refine ⟨(n, d), ?_, rfl⟩
      rw [Finset.mem_product, Finset.mem_Icc]
      exact ⟨⟨h1, h2⟩, by simpa using h3⟩
    · right
      exact ⟨n, Finset.mem_Icc.mpr ⟨h1, h2⟩, rfl⟩
  refine le_trans (Finset.card_le_card hsub) (le_trans (Finset.card_union_le _ _) ?_)
  refine Nat.add_le_add (le_trans Finset.card_image_le ?_) (le_trans Finset.card_image_le ?_)
  · rw [Finset.card_product]
    simp
    omega
  · simp

theorem first_pressure (h : Runnable o ref j) : Has j (.elem, 1, .HYDRO_PRESSURE) :=
  .pressure (by omega) (List.length_pos_iff.mpr h.nonempty)

/-- The storage of a job meets the requirements of the solver. -/
theorem job_legal (h : Runnable o ref j) : LegalModel (storeOf j) (regsOf j) (newOf j) (fixKeys j.fixs) := by
  refine ⟨⟨?_, ?_, ?_, ?_, ?_, rfl⟩, ?_, ?_, ?_⟩
  · intro c hc
    rcases (mem_callsOf c).mp hc with ⟨ns, h1, n, h2, rfl⟩ | ⟨e, h1, h2, rfl⟩ | ⟨r, h1, rfl⟩
    · exact (h.nodes ns h1).2 n h2
    · exact ⟨h1, h2⟩
    · exact h.master r h1
  · intro c hc
    rcases (mem_callsOf c).mp hc with ⟨ns, h1, n, h2, rfl⟩ | ⟨e, h1, h2, rfl⟩ | ⟨r, h1, rfl⟩
    · cases j.type <;> simp [displ]
    · simp
    · simp
  · have := (regKeys_has j _).mpr (first_pressure h)
    intro h0
    unfold regsOf at h0
    rw [h0] at this
    simp at this
  · intro f hf
    obtain ⟨b, hb, rfl⟩ := List.mem_map.mp hf
    exact (regKeys_has j _).mpr (h.fixs b hb)
  · intro m hm
    rcases List.mem_append.mp hm with hm | hm
    · exact (h.mpcs m hm).1
    · exact (new_terms h hm).1
  · intro ns hns n hn
    exact (h.nodes ns hns).2 n hn
  · intro m hm t ht
    refine (regKeys_has j _).mpr ?_
    rcases List.mem_append.mp hm with hm | hm
    · exact (h.mpcs m hm).2 t ht
    · exact (new_terms h hm).2 t ht
  · have h1 := reg_card h
    have h2 := new_length h
    have h3 := h.size
    rw [List.length_append]
    show _ + (j.mpcs.length + _) < _
    omega

theorem job_model (h : Runnable o ref j) {W : ℝ → ℝ → ℝ} {k : ℝ} {els : List El} (hm : AllMade j.type W k j.pos 1 j.elems els) :
    Model (storeOf j) (regsOf j) (newOf j) j.loads j.fixs els (updOf j els) := by
  refine ⟨job_legal h, ?_, ?_, hm.fresh, ?_⟩
  · intro l hl
    exact (regKeys_has j _).mpr (h.loads l hl)
  · refine hm.ready _ _ ?_ ?_ ?_
    · intro i ns hi
      unfold elNodes
      rw [if_neg (by omega), Nat.add_sub_cancel_left]
      show ns = (j.elems[i]?).getD []
      rw [hi]
      rfl
    · intro ns h1 n h2 d h3
      exact (regKeys_has j _).mpr (.node h1 h2 h3)
    · intro i hi
      exact (regKeys_has j _).mpr (.pressure (by omega) (by omega))
  · intro e S ms
    exact updRigid_shape _ _ _ _ _

theorem job_bodies (h : Runnable o ref j) (els : List El) :
    HasBodies (storeOf j) (newOf j) (hyper els (updOf j els)) (bodiesOf j) (posOf j.pos) :=
  ⟨body_ok h, rfl, fun _ _ _ => rfl⟩

/-! ## The constraint equations during the solution -/

section
variable {eqs : EqSolver ℝ} {S1 : Storage ℝ} {num : Key → Nat} {els : List El}

open Nla3d.Solver (C21_iteration Reached base_of_prepare iteration zeroR NState)

/-- The equations from the file are never changed, the others are those of the rigid body for the current values. -/
theorem file_eqs (hm : Model (storeOf j) (regsOf j) (newOf j) j.loads j.fixs els (updOf j els)) (he : Solver.Exact eqs)
    (hp : (storeOf j).prepare (regsOf j) (newOf j) (fixKeys j.fixs) = .ok S1)
    (hn : ∀ f ∈ regKeys (regsOf j), S1.eqNumber f.1 f.2.1 f.2.2 = .ok (num f)) {s : NState (Group els) ℝ}
    (hs : Reached eqs (hyper els (updOf j els)) j.loads j.fixs S1 (Group.given els) s) :
    (s.S.mpcs.take j.mpcs.length).map (fun m => (m.eq, m.b)) = j.mpcs.map (fun m => (m.eq, m.b)) := by
  obtain ⟨A, hbase⟩ := base_of_prepare hm.legal hp hn
  induction hs with
  | start tc =>
    show (S1.mpcs.take _).map _ = _
    rw [List.map_take, hbase.prep.ready.terms, List.map_append]
    exact List.take_left' (by simp [storeOf, Storage.fresh])
  | time tc _ ih => exact ih
  | @iter s s' hr hit ih =>
    obtain ⟨_, hor⟩ := C21_iteration (hyper_problem hm) he hp hn hr
    rcases hor with ⟨hf, _⟩ | ⟨s'', g1, _, hsv⟩
    · rw [hit] at hf; simp at hf
    rw [hit, Res.ok.injEq] at g1
    subst g1
    rw [hsv.mpcs]
    show ((List.take _ s.S.mpcs ++ _).take _).map _ = _
    have hlen : j.mpcs.length ≤ s.S.mpcs.length := by
      have := congrArg List.length ih
      simp at this
      exact this
    rw [List.take_left' (by rw [List.length_take]; omega)]
    exact ih

end

end

end Nla3d.Prog
