import Verif.Main.Props

/-!
# The table of reactions and the exit code (C92)
-/

namespace Nla3d.Main

open Nla3d.Cmd (Options)
open Nla3d.Labels Nla3d.Dof Nla3d.Storage Nla3d.Post

variable {K : Type} [Field K] [LinearOrder K] [IsStrictOrderedRing K]

/-! ## Specification -/

/-- The reactions of a DoF, summed over the nodes: zero, then one value for each load step. -/
def curve (a : Spec) (ns : List Nat) (Ss : List (Storage K)) (t : DofType) : List K :=
  0 :: Ss.map (fun S => (ns.map (fun n => rowOf a S.vecR n t)).sum)

/-- The table: a row for the beginning and for each load step, a column for each DoF. -/
def Table (a : Spec) (ns : List Nat) (Ss : List (Storage K)) (ds : List DofType) (t : List (List K)) : Prop :=
  t.length = Ss.length + 1 ∧ ∀ (ls : Nat) r, t[ls]? = some r → r.length = ds.length ∧
    ∀ (k : Nat) d, ds[k]? = some d → r[k]? = (curve a ns Ss d)[ls]?

/-- Mean absolute difference of two curves. -/
def meanDiff (a b : List K) : K := (List.zipWith (fun x y => |x - y|) a b).sum / b.length

/-- When the program shall report a failure: the curves have different lengths, or differ by more than the threshold, if there is one. -/
def Fails (o : Options K) (ref cur : List K) : Prop :=
  ref ≠ [] ∧ (ref.length ≠ cur.length ∨ 0 < o.threshold ∧ o.threshold < meanDiff ref cur)

/-! ## Proofs -/

omit [Field K] [LinearOrder K] [IsStrictOrderedRing K] in
theorem tableRow_eq (P : Proc K) (c : DofType → List K) (ls : Nat) (ds : List DofType)
    (hc : ∀ t ∈ ds, getReactions P t = .ok (c t)) (hl : ∀ t ∈ ds, ls < (c t).length) :
    ∃ r, tableRow P ls ds = .ok r ∧ r.length = ds.length ∧ ∀ (k : Nat) d, ds[k]? = some d → r[k]? = (c d)[ls]? := by
  induction ds with
  | nil => exact ⟨[], rfl, rfl, by simp⟩
  | cons d ds ih =>
    obtain ⟨r, h1, h2, h3⟩ := ih (fun t ht => hc t (by simp [ht])) (fun t ht => hl t (by simp [ht]))
    have hd := hl d (by simp)
    refine ⟨(c d)[ls] :: r, ?_, by simp [h2], ?_⟩
    · unfold tableRow
      rw [hc d (by simp), Res.ok_bind, Res.read_of_lt hd, Res.ok_bind, h1, Res.ok_bind]
    · intro k e he
      cases k with
      | zero => simp at he; subst he; simp [hd]
      | succ k => simpa using h3 k e (by simpa using he)

omit [Field K] [LinearOrder K] [IsStrictOrderedRing K] in
theorem tableLoop_eq (P : Proc K) (c : DofType → List K) (N : Nat)
    (hc : ∀ t ∈ P.dofs, getReactions P t = .ok (c t)) (hl : ∀ t ∈ P.dofs, (c t).length = N) : ∀ n ls, ls + n = N →
    ∃ t, tableLoop P ls n = .ok t ∧ t.length = n ∧ ∀ (i : Nat) r, t[i]? = some r → r.length = P.dofs.length ∧
      ∀ (k : Nat) d, P.dofs[k]? = some d → r[k]? = (c d)[ls + i]? := by
  intro n
  induction n with
  | zero => intro ls _; exact ⟨[], rfl, rfl, by simp⟩
  | succ n ih =>
    intro ls h
    obtain ⟨r, h1, h2, h3⟩ := tableRow_eq P c ls P.dofs hc (fun t ht => by rw [hl t ht]; omega)
    obtain ⟨t, h4, h5, h6⟩ := ih (ls + 1) (by omega)
    refine ⟨r :: t, ?_, by simp [h5], ?_⟩
    · unfold tableLoop
      rw [h1, Res.ok_bind, h4, Res.ok_bind]
    · intro i r' hr
      cases i with
      | zero => simp at hr; subst hr; exact ⟨h2, h3⟩
      | succ i =>
        obtain ⟨q1, q2⟩ := h6 i r' (by simpa using hr)
        refine ⟨q1, fun k d hd => ?_⟩
        rw [q2 k d hd]
        congr 1
        omega

/-- **C92**: after a solution in as many steps as were asked for, the table of reactions has a row for every step with the sums over the
nodes of the component, and the exit code is 1 exactly when the reference curve has another length or differs by more than the
threshold. Missing: a reference curve when no DoF is selected, and a component without nodes, see the violations. -/
theorem C92_partial {A : Side → Spec} {S0 : Storage K} {Ss : List (Storage K)} {ns : List Nat} {ds : List DofType} {P' : Proc K}
    (o : Options K) (ref : List K) (hne : ns ≠ []) (hS : ∀ S ∈ Ss, Solved S A ∧ Exist S ns) (hn : Ss.length = o.loadsteps)
    (hp : pre S0 ⟨ns, ds, false, [], []⟩ true = .ok P') (hd : ref ≠ [] → P'.dofs ≠ []) :
    ∃ Q t code, runSteps 1 Ss P' = .ok Q ∧ report o ref (some Q) = .ok (some t, code) ∧ Table (A .node) ns Ss P'.dofs t ∧
      (code = 0 ∨ code = 1) ∧ (code = 1 ↔ ∃ d, P'.dofs.head? = some d ∧ Fails o ref (curve (A .node) ns Ss d)) := by
  obtain ⟨Q, q1, q2, q3, q4, _⟩ := C59_history (A := A) (P := ⟨ns, ds, false, [], []⟩) hne hS hp
  have hc : ∀ t ∈ Q.dofs, getReactions Q t = .ok (curve (A .node) ns Ss t) := by
    intro t ht
    rw [q4, if_pos (q3 ▸ ht)]
    rfl
  have hl : ∀ t ∈ Q.dofs, (curve (A .node) ns Ss t).length = o.loadsteps + 1 := by
    intro t _
    simp [curve, hn]
  obtain ⟨t, t1, t2, t3⟩ := tableLoop_eq Q _ (o.loadsteps + 1) hc hl (o.loadsteps + 1) 0 (by omega)
  have hT : Table (A .node) ns Ss P'.dofs t := by
    refine ⟨by rw [t2, hn], fun ls r hr => ?_⟩
    obtain ⟨h1, h2⟩ := t3 ls r hr
    rw [q3] at h1 h2
    refine ⟨h1, fun k d hk => ?_⟩
    rw [h2 k d hk, Nat.zero_add]
  have hv : ∃ code, verdict o ref Q = .ok code ∧ (code = 0 ∨ code = 1) ∧
      (code = 1 ↔ ∃ d, P'.dofs.head? = some d ∧ Fails o ref (curve (A .node) ns Ss d)) := by
    unfold verdict
    by_cases hr : ref = []
    · rw [if_pos hr]
      refine ⟨0, rfl, Or.inl rfl, ?_⟩
      constructor
      · intro h; cases h
      · rintro ⟨d, _, h⟩; exact absurd hr h.1
    · rw [if_neg hr]
      obtain ⟨d, ds', hds⟩ := List.exists_cons_of_ne_nil (hd hr)
      have hQ : Q.dofs = d :: ds' := by rw [q3, hds]
      have hread : Res.read Q.dofs 0 = .ok d := by rw [hQ]; rfl
      have hm : Cmd.compareCurves (fun x => |x|) ref (curve (A .node) ns Ss d) =
          if ref.length = (curve (A .node) ns Ss d).length then some (meanDiff ref (curve (A .node) ns Ss d)) else none :=
        Cmd.C77_mean _ _
      rw [hread, Res.ok_bind, hc d (by rw [hQ]; simp), Res.ok_bind, hm, hds]
      have hex : (∃ d', (d :: ds').head? = some d' ∧ Fails o ref (curve (A .node) ns Ss d')) ↔ Fails o ref (curve (A .node) ns Ss d) := by
        simp
      rw [hex]
      by_cases h1 : ref.length = (curve (A .node) ns Ss d).length
      · rw [if_pos h1]
        simp only
        by_cases h2 : 0 < o.threshold
        · rw [if_pos h2]
          by_cases h3 : o.threshold < meanDiff ref (curve (A .node) ns Ss d)
          · rw [if_pos h3]
            exact ⟨1, rfl, Or.inr rfl, fun _ => ⟨hr, Or.inr ⟨h2, h3⟩⟩, fun _ => rfl⟩
          · rw [if_neg h3]
            refine ⟨0, rfl, Or.inl rfl, ⟨fun h => (by cases h), fun h => ?_⟩⟩
            rcases h.2 with h | h
            · exact absurd h1 h
            · exact absurd h.2 h3
        · rw [if_neg h2]
          refine ⟨0, rfl, Or.inl rfl, ⟨fun h => (by cases h), fun h => ?_⟩⟩
          rcases h.2 with h | h
          · exact absurd h1 h
          · exact absurd h.1 h2
      · rw [if_neg h1]
        exact ⟨1, rfl, Or.inr rfl, fun _ => ⟨hr, Or.inl h1⟩, fun _ => rfl⟩
  obtain ⟨code, v1, v2, v3⟩ := hv
  refine ⟨Q, t, code, q1, ?_, hT, v2, v3⟩
  unfold report
  simp only
  rw [t1, Res.ok_bind, v1, Res.ok_bind]

omit [IsStrictOrderedRing K] in
/-- **C92**, violated: if the nodes of the component are not constrained and no DoFs are given, none is selected, and a reference curve
is compared with the first of none. -/
theorem C92_no_dofs_violated (o : Options K) (ref : List K) (hr : ref ≠ []) (ns : List Nat) (hs : List (List K)) (fl : List (Line K)) :
    report o ref (some ⟨ns, [], false, hs, fl⟩) = .ub := by
  have h1 : ∀ n ls, ∃ t, tableLoop (⟨ns, [], false, hs, fl⟩ : Proc K) ls n = .ok t := by
    intro n
    induction n with
    | zero => intro ls; exact ⟨[], rfl⟩
    | succ n ih =>
      intro ls
      obtain ⟨t, ht⟩ := ih (ls + 1)
      refine ⟨[] :: t, ?_⟩
      unfold tableLoop
      simp only [tableRow]
      rw [Res.ok_bind, ht, Res.ok_bind]
  obtain ⟨t, ht⟩ := h1 (o.loadsteps + 1) 0
  unfold report verdict
  simp only
  rw [ht, Res.ok_bind, if_neg hr]
  rfl

omit [IsStrictOrderedRing K] in
/-- **C92**, violated: for a component without nodes the table is read from histories that do not exist. -/
theorem C92_no_nodes_violated (S : Storage K) (o : Options K) (ref : List K) (d : DofType) (ds : List DofType) :
    ∃ P, pre S ⟨[], d :: ds, false, [], []⟩ true = .ok P ∧ report o ref (some P) = .ub := by
  refine ⟨⟨[], d :: ds, false, [], []⟩, rfl, ?_⟩
  unfold report tableLoop tableRow getReactions lookup
  simp [Res.read]

/-- **C92**, violated: the message about a rigid body names the DoFs by their position in the list instead of their type. -/
theorem C92_labels_violated : slaveLabels [.ROTX, .UZ] = .ok ["UX", "UY"] := by decide

/-- The hypotheses of `C92_partial` hold for the example of `Verif/Post`: two load steps with reaction 1, a reference curve and a
threshold. -/
example : ∃ (A : Side → Spec) (S : Storage ℚ) (P' : Proc ℚ), (∀ S' ∈ [S, S], Solved S' A ∧ Exist S' [3]) ∧
    pre S ⟨[3], [.UX], false, [], []⟩ true = .ok P' ∧ P'.dofs ≠ [] := by
  obtain ⟨A, S, hS, _, _, h3, _⟩ := demo_solved
  have hE : Exist S [3] := demo_exist h3 (by decide)
  obtain ⟨P', h4, h5⟩ := C59_given (P := ⟨[3], [.UX], false, [], []⟩) hS.sim hE (by simp) (by simp)
  exact ⟨A, S, P', by simp [hS, hE], h4, by rw [h5]; simp⟩

end Nla3d.Main
