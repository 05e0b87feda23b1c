import Verif.Rigid.Props
import Verif.Post.Model
import Verif.Solver.NonlinearProps

/-!
# Rigid bodies in the storage

The equations of a `RigidBodyMpc` are shared: `registerMpcsInStorage` (src/lib/Mpc.cpp:31-35) puts the pointers of the collection
at the end of the list of the storage, so the equations of the bodies follow each other there in the order of the bodies.
-/

namespace Nla3d.Rigid

open Nla3d.Dof Nla3d.Storage Nla3d.Solver

noncomputable section

/-- `storage->getNodeDofSolution(n, d)`, FEStorage.h:623-632; `0` stands for a stop of the program. -/
def solOf (S : Storage ℝ) (n : Nat) (d : DofType) : ℝ :=
  match Post.solution S .node n d with
  | .ok x => x
  | _ => 0

/-- The equations `pre` makes, as `registerMpcsInStorage` passes them on. src/lib/Mpc.cpp:31-35, 52-68 -/
def made (r : RigidBody) : List (Mpc ℝ) :=
  match pre r with
  | .ok (r', _) => r'.collection.filterMap id
  | _ => []

/-- `update` of a body whose collection points to the equations `ms`. A stop of the program leaves them as they are; for bodies
with translations it does not happen (`updBody_held`). src/lib/Mpc.cpp:70-164 -/
def updBody (sol : Nat → DofType → ℝ) (pos : Nat → Fin 3 → ℝ) (r : RigidBody) (ms : List (Mpc ℝ)) : List (Mpc ℝ) :=
  match update { r with collection := ms.map some } sol pos with
  | .ok r' => r'.collection.filterMap id
  | _ => ms

/-- Number of equations of a body. src/lib/Mpc.cpp:54 -/
def RigidBody.count (r : RigidBody) : Nat := r.slaves.length * r.dofs.length

/-- The loop over the collections in `assembleGlobalEqMatrices`. src/lib/FEStorage.cpp:41-47 -/
def updBodies (sol : Nat → DofType → ℝ) (pos : Nat → Fin 3 → ℝ) : List RigidBody → List (Mpc ℝ) → List (Mpc ℝ)
  | [], ms => ms
  | r :: rs, ms => updBody sol pos r (ms.take r.count) ++ updBodies sol pos rs (ms.drop r.count)

/-- The same on the list of equations of the storage, in which `n` other equations come before. -/
def updRigid (bodies : List RigidBody) (pos : Nat → Fin 3 → ℝ) (n : Nat) (S : Storage ℝ) (ms : List (Mpc ℝ)) : List (Mpc ℝ) :=
  ms.take n ++ updBodies (solOf S) pos bodies (ms.drop n)

/-! ## The shape of the equations is kept -/

theorem foldlM'_inv {σ ι : Type} (f : σ → ι → Res σ) (P : σ → Prop) (h : ∀ s x s', P s → f s x = .ok s' → P s') :
    ∀ (xs : List ι) (s s' : σ), P s → Res.foldlM' f s xs = .ok s' → P s' := by
  intro xs
  induction xs with
  | nil => intro s s' hs he; simp at he; rw [← he]; exact hs
  | cons x xs ih =>
    intro s s' hs he
    rw [Res.foldlM'_cons, Res.bind_eq_ok] at he
    obtain ⟨s1, h1, h2⟩ := he
    exact ih s1 s' (h s x s1 hs h1) h2

theorem map_set_same {α β : Type} (f : α → β) (l : List α) (k : Nat) (a b : α) (h : l[k]? = some a) (hf : f b = f a) :
    (l.set k b).map f = l.map f := by
  rw [List.map_set, hf]
  apply List.ext_getElem?
  intro i
  by_cases hi : k = i
  · subst hi
    have hk := (List.getElem?_eq_some_iff.mp h).1
    rw [List.getElem?_set_self (by simpa using hk), List.getElem?_map, h]
    rfl
  · rw [List.getElem?_set_ne hi]

theorem setRot_shape {e e' : List (MpcTerm ℝ)} {c : Fin 3 → ℝ} (h : setRot e c = .ok e') :
    e'.map (fun t => (t.node, t.dof)) = e.map (fun t => (t.node, t.dof)) := by
  unfold setRot at h
  refine foldlM'_inv _ (fun x => x.map (fun t => (t.node, t.dof)) = e.map (fun t => (t.node, t.dof))) ?_ _ e e' rfl h
  intro s x s' hs hx
  rw [Res.bind_eq_ok] at hx
  obtain ⟨t, h1, h2⟩ := hx
  rw [Res.write_eq_ok] at h2
  rw [← h2.2]
  exact (map_set_same (fun t : MpcTerm ℝ => (t.node, t.dof)) s x.1 t ⟨t.node, t.dof, x.2⟩ (Res.read_eq_ok.mp h1) rfl).trans hs

theorem deref_some {c : List (Option (Mpc ℝ))} {k : Nat} {m : Mpc ℝ} (h : deref c k = .ok m) : c[k]? = some (some m) := by
  unfold deref at h
  rw [Res.bind_eq_ok] at h
  obtain ⟨x, h1, h2⟩ := h
  cases x with
  | none => simp at h2
  | some y =>
    simp at h2
    rw [← h2]
    exact Res.read_eq_ok.mp h1

theorem updateOne_shape {r : RigidBody} {sol : Nat → DofType → ℝ} {pos : Nat → Fin 3 → ℝ} {c c' : List (Option (Mpc ℝ))} {n d : Nat}
    (h : updateOne r sol pos c n d = .ok c') : c'.map (Option.map mpcShape) = c.map (Option.map mpcShape) := by
  unfold updateOne at h
  simp only [Res.bind_eq_ok] at h
  obtain ⟨s, _, t, _, i, _, m, h4, c1, h5, m2, h6, e, h7, h8⟩ := h
  rw [Res.write_eq_ok] at h5 h8
  have k1 := deref_some h4
  have k2 := deref_some h6
  rw [← h8.2, map_set_same _ _ _ _ _ k2, ← h5.2, map_set_same _ _ _ _ _ k1]
  · rfl
  · show some (mpcShape _) = some (mpcShape m2)
    unfold mpcShape
    simp only
    rw [setRot_shape h7]

theorem update_shape {r r' : RigidBody} {sol : Nat → DofType → ℝ} {pos : Nat → Fin 3 → ℝ} (h : update r sol pos = .ok r') :
    r'.collection.map (Option.map mpcShape) = r.collection.map (Option.map mpcShape) := by
  unfold update at h
  rw [Res.bind_eq_ok] at h
  obtain ⟨c, h1, h2⟩ := h
  rw [Res.ok.injEq] at h2
  rw [← h2]
  refine foldlM'_inv _ (fun c => c.map (Option.map mpcShape) = r.collection.map (Option.map mpcShape)) ?_ _ _ _ rfl h1
  intro c n c' hc hn
  refine foldlM'_inv _ (fun c => c.map (Option.map mpcShape) = r.collection.map (Option.map mpcShape)) ?_ _ _ _ hc hn
  intro c d c' hc hd
  rw [updateOne_shape hd]
  exact hc

theorem shape_filterMap : ∀ (c : List (Option (Mpc ℝ))) (ms : List (Mpc ℝ)),
    c.map (Option.map mpcShape) = (ms.map some).map (Option.map mpcShape) → SameShape ms (c.filterMap id) := by
  intro c
  induction c with
  | nil =>
    intro ms h
    cases ms with
    | nil => rfl
    | cons m ms => simp at h
  | cons x c ih =>
    intro ms h
    cases ms with
    | nil => simp at h
    | cons m ms =>
      simp only [List.map_cons, List.cons.injEq, Option.map_some] at h
      cases x with
      | none => simp at h
      | some y =>
        have h1 := h.1
        simp only [Option.map_some, Option.some.injEq] at h1
        have := ih ms h.2
        unfold SameShape at this ⊢
        rw [List.filterMap_cons_some (by rfl), List.map_cons, List.map_cons, h1, this]

theorem updBody_shape (sol : Nat → DofType → ℝ) (pos : Nat → Fin 3 → ℝ) (r : RigidBody) (ms : List (Mpc ℝ)) :
    SameShape ms (updBody sol pos r ms) := by
  unfold updBody
  split
  · next r' h => exact shape_filterMap _ _ (update_shape h)
  · exact rfl

theorem SameShape.append {a a' b b' : List (Mpc ℝ)} (h1 : SameShape a a') (h2 : SameShape b b') : SameShape (a ++ b) (a' ++ b') := by
  unfold SameShape at *
  rw [List.map_append, List.map_append, h1, h2]

theorem updBodies_shape (sol : Nat → DofType → ℝ) (pos : Nat → Fin 3 → ℝ) : ∀ (rs : List RigidBody) (ms : List (Mpc ℝ)),
    SameShape ms (updBodies sol pos rs ms) := by
  intro rs
  induction rs with
  | nil => intro ms; rfl
  | cons r rs ih =>
    intro ms
    have := SameShape.append (updBody_shape sol pos r (ms.take r.count)) (ih (ms.drop r.count))
    rw [List.take_append_drop] at this
    exact this

/-- The updates change coefficients and right-hand sides only. -/
theorem updRigid_shape (bodies : List RigidBody) (pos : Nat → Fin 3 → ℝ) (n : Nat) (S : Storage ℝ) (ms : List (Mpc ℝ)) :
    SameShape ms (updRigid bodies pos n S ms) := by
  have := SameShape.append (rfl : SameShape (ms.take n) (ms.take n)) (updBodies_shape (solOf S) pos bodies (ms.drop n))
  rw [List.take_append_drop] at this
  exact this

/-! ## The equations of the bodies -/

/-- The equations begin with those of the bodies. -/
def Held : List RigidBody → List (Mpc ℝ) → Prop
  | [], _ => True
  | r :: rs, ms => Shaped { r with collection := (ms.take r.count).map some } ∧ Held rs (ms.drop r.count)

/-- A body with translations. -/
structure RigidBody.Ok (r : RigidBody) : Prop where
  few : r.dofs.length < 65536
  transl : ∀ t ∈ r.dofs, ∃ i, t = transl i

theorem held_congr : ∀ (rs : List RigidBody) (ms ms' : List (Mpc ℝ)),
    ms'.map (fun m => (m.eq, m.b)) = ms.map (fun m => (m.eq, m.b)) → Held rs ms → Held rs ms' := by
  intro rs
  induction rs with
  | nil => intros; trivial
  | cons r rs ih =>
    rintro ms ms' h ⟨⟨h1, h2⟩, h3⟩
    have hlen : ms'.length = ms.length := by simpa using congrArg List.length h
    refine ⟨⟨?_, ?_⟩, ih _ _ (by rw [List.map_drop, List.map_drop, h]) h3⟩
    · simp only [List.length_map, List.length_take] at h1 ⊢
      rw [hlen]; exact h1
    · intro n d s t hs ht
      obtain ⟨a, b, q, hq⟩ := h2 n d s t hs ht
      simp only [List.getElem?_map, Option.map_eq_some_iff, Option.some.injEq, exists_eq_right] at hq
      have h4 := congrArg (fun l => l.take r.count) h
      simp only [← List.map_take] at h4
      have h5 := congrArg (fun l => l[n * r.dofs.length + d]?) h4
      simp only [List.getElem?_map, hq, Option.map_some] at h5
      rw [Option.map_eq_some_iff] at h5
      obtain ⟨m, m1, m2⟩ := h5
      refine ⟨a, b, m.eqNum, ?_⟩
      simp only [List.getElem?_map, m1, Option.map_some]
      congr 2
      rw [Prod.mk.injEq] at m2
      obtain ⟨q1, q2, q3⟩ := m
      simp only at m2
      rw [m2.1, m2.2]
      rfl

theorem filterMap_some {α : Type} : ∀ (l : List (Option α)), (∀ x ∈ l, x.isSome) → (l.filterMap id).map some = l := by
  intro l
  induction l with
  | nil => intro _; rfl
  | cons x l ih =>
    intro h
    obtain ⟨y, rfl⟩ := Option.isSome_iff_exists.mp (h x (by simp))
    rw [List.filterMap_cons_some (by rfl), List.map_cons, ih (fun z hz => h z (by simp [hz]))]

theorem Shaped.isSome {r : RigidBody} (h : Shaped r) : ∀ x ∈ r.collection, x.isSome := by
  intro x hx
  obtain ⟨k, hk⟩ := List.getElem?_of_mem hx
  have hk' := (List.getElem?_eq_some_iff.mp hk).1
  rw [h.len] at hk'
  have hpos : 0 < r.dofs.length := by
    rcases Nat.eq_zero_or_pos r.dofs.length with h0 | h0
    · rw [h0] at hk'; omega
    · exact h0
  have hn : k / r.dofs.length < r.slaves.length := by rw [Nat.div_lt_iff_lt_mul hpos]; exact hk'
  have hd : k % r.dofs.length < r.dofs.length := Nat.mod_lt _ hpos
  obtain ⟨a, b, q, e1⟩ := h.entry _ _ _ _ (List.getElem?_eq_getElem hn) (List.getElem?_eq_getElem hd)
  rw [Nat.div_add_mod' k r.dofs.length, hk] at e1
  rw [Option.some.inj e1]
  rfl

theorem made_shaped (r : RigidBody) : Shaped { r with collection := (made r).map some } := by
  obtain ⟨r', h1, h2, h3, h4, h5⟩ := pre_shaped r
  have hm : (made r).map some = r'.collection := by
    unfold made
    rw [h1]
    exact filterMap_some _ h5.isSome
  rw [hm]
  refine ⟨?_, ?_⟩
  · have := h5.len
    rw [h3, h4] at this
    exact this
  · have := h5.entry
    rw [h2, h3, h4] at this
    exact this

theorem made_length (r : RigidBody) : (made r).length = r.count := by
  have := (made_shaped r).len
  rw [List.length_map] at this
  exact this

theorem held_made : ∀ (rs : List RigidBody), Held rs (rs.flatMap made) := by
  intro rs
  induction rs with
  | nil => trivial
  | cons r rs ih =>
    refine ⟨?_, ?_⟩
    · rw [List.flatMap_cons, List.take_append_of_le_length (by rw [made_length]), ← made_length r, List.take_length]
      exact made_shaped r
    · rw [List.flatMap_cons, ← made_length r, List.drop_left]
      exact ih

theorem updBody_held {r : RigidBody} (hr : r.Ok) {ms : List (Mpc ℝ)} (h : Shaped { r with collection := ms.map some })
    (sol : Nat → DofType → ℝ) (pos : Nat → Fin 3 → ℝ) : Shaped { r with collection := (updBody sol pos r ms).map some } ∧
      ∀ s ∈ r.slaves, ∀ i, transl i ∈ r.dofs →
        ∃ q, withRot r.master s (transl i) (newA sol pos r.master s i) (newB sol pos r.master s (transl i) i) q ∈ updBody sol pos r ms := by
  obtain ⟨r', h1, h2, h3, h4, h5, h6⟩ := update_eq { r with collection := ms.map some } hr.few hr.transl h sol pos
  have hm : (updBody sol pos r ms).map some = r'.collection := by
    unfold updBody
    rw [h1]
    exact filterMap_some _ h5.isSome
  refine ⟨?_, ?_⟩
  · rw [hm]
    refine ⟨?_, ?_⟩
    · have := h5.len
      rw [h3, h4] at this
      exact this
    · have := h5.entry
      rw [h2, h3, h4] at this
      exact this
  · intro s' hs' i hi
    obtain ⟨n, hs⟩ := List.getElem?_of_mem hs'
    obtain ⟨d, hd⟩ := List.getElem?_of_mem hi
    obtain ⟨a, b, q, hq⟩ := h.entry n d s' (transl i) hs hd
    have := h6 n d s' i a b q hs hd hq
    have hmem := List.mem_of_getElem? this
    rw [← hm] at hmem
    obtain ⟨m, m1, m2⟩ := List.mem_map.mp hmem
    exact ⟨q, by rw [← Option.some.inj m2]; exact m1⟩

theorem Shaped.count {r : RigidBody} {ms : List (Mpc ℝ)} (h : Shaped { r with collection := ms.map some }) : ms.length = r.count := by
  have := h.len
  rw [List.length_map] at this
  exact this

/-- After the updates each direction of each slave has its equation for the given values. -/
theorem updBodies_held : ∀ (rs : List RigidBody), (∀ r ∈ rs, r.Ok) → ∀ (ms : List (Mpc ℝ)), Held rs ms →
    ∀ (sol : Nat → DofType → ℝ) (pos : Nat → Fin 3 → ℝ), Held rs (updBodies sol pos rs ms) ∧
      ∀ r ∈ rs, ∀ s ∈ r.slaves, ∀ i, transl i ∈ r.dofs →
        ∃ q, withRot r.master s (transl i) (newA sol pos r.master s i) (newB sol pos r.master s (transl i) i) q ∈ updBodies sol pos rs ms := by
  intro rs
  induction rs with
  | nil =>
    intro _ ms _ sol pos
    exact ⟨trivial, fun r hr => by simp at hr⟩
  | cons r rs ih =>
    rintro hok ms ⟨h1, h2⟩ sol pos
    obtain ⟨g1, g2⟩ := updBody_held (hok r (by simp)) h1 sol pos
    obtain ⟨g3, g4⟩ := ih (fun r' hr' => hok r' (by simp [hr'])) _ h2 sol pos
    have hc := g1.count
    refine ⟨⟨?_, ?_⟩, ?_⟩
    · show Shaped { r with collection := ((updBody sol pos r (ms.take r.count) ++ _).take r.count).map some }
      rw [List.take_left' hc]
      exact g1
    · show Held rs ((updBody sol pos r (ms.take r.count) ++ updBodies sol pos rs (ms.drop r.count)).drop r.count)
      rw [List.drop_left' hc]
      exact g3
    · intro r' hr' s hs i hi
      rcases List.mem_cons.mp hr' with rfl | hr'
      · obtain ⟨q, hq⟩ := g2 s hs i hi
        exact ⟨q, List.mem_append_left _ hq⟩
      · obtain ⟨q, hq⟩ := g4 r' hr' s hs i hi
        exact ⟨q, List.mem_append_right _ hq⟩

end

end Nla3d.Rigid
