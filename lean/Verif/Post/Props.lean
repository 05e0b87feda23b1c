import Verif.Post.Reaction
import Verif.Storage.Props

/-!
# C59: recorded reactions

`Solved S A` says that the DoF tables of the storage refine the map `A` and that the vectors have a row for every
equation number. `solved_of_prepare` shows that this is the state of every prepared model.
-/

namespace Nla3d.Post

open Nla3d.Dof Nla3d.Storage Nla3d.Labels

variable {K : Type}

/-- A prepared model with solution vectors of full length. The used DoFs are the registered ones, the fixed DoFs those
that were constrained. -/
theorem solved_of_prepare [AddMonoid K] {S S1 : Storage K} {calls : List RegCall} {new : List (Mpc K)} {cs : List Key}
    (hl : LegalModel S calls new cs) (hp : S.prepare calls new cs = .ok S1) :
    ∃ A, (∀ n t, (A .node n t).isSome ↔ (Side.node, n, t) ∈ regKeys calls) ∧
      (∀ n t, Fixed (A .node) n t ↔ (Side.node, n, t) ∈ cs) ∧ S1.nNodes = S.nNodes ∧
      ∀ u r : List K, u.length = S1.nDofs + S1.nMpc → r.length = S1.nDofs + S1.nMpc →
        Solved { S1 with vecU := u, vecR := r } A := by
  obtain ⟨A, h⟩ := prepared hl hp
  refine ⟨A, ?_, ?_, h.ready.mesh.nNodes, ?_⟩
  · intro n t
    exact h.ready.isSome (Side.node, n, t)
  · intro n t
    have hm := h.ready.map (Side.node, n, t)
    have hat : at' A (Side.node, n, t) = A .node n t := rfl
    rw [hat] at hm
    constructor
    · rintro ⟨e, he⟩
      rw [he] at hm
      by_contra hc
      split at hm <;> simp [hc] at hm
    · intro hc
      rw [if_pos (hl.setup.cons _ hc)] at hm
      cases ha : A .node n t with
      | none => rw [ha] at hm; simp at hm
      | some p =>
        rw [ha] at hm
        obtain ⟨e, c⟩ := p
        simp [hc] at hm
        exact ⟨e, by rw [ha, hm]⟩
  · intro u r hu hr
    have hrow : ∀ s n t e c, A s n t = some (e, c) → 0 < e ∧ e ≤ S1.nDofs := by
      intro s n t e c ha
      have hk : (s, n, t) ∈ regKeys calls := (h.ready.isSome (s, n, t)).mp (by
        show (A s n t).isSome = true
        rw [ha]; rfl)
      have := h.ready.num_range hk
      have hn : num A (s, n, t) = e := by
        unfold num at'
        rw [ha]; rfl
      rw [hn] at this
      omega
    refine ⟨h.ready.sim.congr rfl rfl rfl rfl, ?_, ?_⟩
    · intro s n t e c ha
      have := hrow s n t e c ha
      show 0 < e ∧ e ≤ u.length
      omega
    · intro s n t e c ha
      have := hrow s n t e c ha
      show 0 < e ∧ e ≤ r.length
      omega

/-! ## C59 -/

/-- **C59, the history.** Nodes exist, the file (if any) can be written. After `pre` and `process` in each of the states
`Ss` the history of every DoF of the processor is 0 followed by the sums of its reactions over the nodes in those states.
For other DoFs the result is empty. The file has a header and the same numbers, one row per step. -/
theorem C59_history [AddMonoid K] {A : Side → Spec} {S0 : Storage K} {Ss : List (Storage K)} {P P' : Proc K}
    (hne : P.nodes ≠ []) (hS : ∀ S ∈ Ss, Solved S A ∧ Exist S P.nodes) (hp : pre S0 P true = .ok P') :
    ∃ Q, runSteps 1 Ss P' = .ok Q ∧ Q.nodes = P.nodes ∧ Q.dofs = P'.dofs ∧
      (∀ t, getReactions Q t = .ok
        (if t ∈ P'.dofs then 0 :: Ss.map (fun S => total (A .node) S.vecR P.nodes t) else [])) ∧
      (P.toFile = true → Q.file = .header (P'.dofs.map (fun t => dofTypeLabels.getD (dofToNat t) "")) ::
        .row 0 (P'.dofs.map (fun _ => 0)) :: rowsFrom (A .node) P.nodes P'.dofs 1 Ss) ∧
      (P.toFile = false → Q.file = P.file) := by
  obtain ⟨nodes, dofs, toFile, sums, file⟩ := P
  cases nodes with
  | nil => exact absurd rfl hne
  | cons first rest =>
    unfold pre at hp
    simp only at hp
    obtain ⟨ds, _, hp⟩ := Res.bind_eq_ok.mp hp
    have hP : P' = ⟨first :: rest, ds, toFile, ds.map (fun _ => [0]),
        if toFile then [.header (ds.map (fun t => dofTypeLabels.getD (dofToNat t) "")), .row 0 (ds.map (fun _ => 0))]
          else file⟩ := by
      cases toFile
      · simp only [Bool.false_eq_true, if_false, Res.ok.injEq] at hp ⊢; exact hp.symm
      · simp only [if_true] at hp
        rw [headerLabels_eq, Res.ok_bind, Res.ok.injEq] at hp
        exact hp.symm
    subst hP
    refine ⟨_, runSteps_eq Ss 1 _ (fun _ => [0]) hS rfl, rfl, rfl, ?_, ?_, ?_⟩
    · intro t
      unfold getReactions
      simp only
      rw [lookup_map]
      rfl
    · intro h
      simp only at h
      subst h
      rfl
    · intro h
      simp only at h
      subst h
      rfl

/-- **C59, DoFs given by the user.** `pre` keeps them and succeeds; DoFs that a node does not use only cause a message. -/
theorem C59_given [AddMonoid K] {A : Side → Spec} {S : Storage K} {P : Proc K} (h : SimS S A) (hn : Exist S P.nodes)
    (hne : P.nodes ≠ []) (hd : P.dofs ≠ []) : ∃ P', pre S P true = .ok P' ∧ P'.dofs = P.dofs := by
  obtain ⟨nodes, dofs, toFile, sums, file⟩ := P
  cases nodes with
  | nil => exact absurd rfl hne
  | cons first rest =>
    unfold pre chooseDofs
    simp only at hd ⊢
    rw [if_neg hd, usedNodes_ok h dofs _ hn, Res.ok_bind, Res.ok_bind]
    cases toFile
    · exact ⟨_, rfl, rfl⟩
    · simp only [if_true]
      rw [headerLabels_eq, Res.ok_bind]
      exact ⟨_, rfl, rfl⟩

/-- What `pre` does without given DoFs, for all models: the candidates are the DoFs that are fixed at the first node; if
every node uses all of them they are taken, otherwise a null pointer is dereferenced. The fatal error the code contains
for the second case is never reported. -/
theorem C59_select_cases [AddMonoid K] {A : Side → Spec} {S : Storage K} {P : Proc K} (h : SimS S A)
    (hn : Exist S P.nodes) (first : Nat) (hf : P.nodes.head? = some first) (hd : P.dofs = []) :
    ((∀ n ∈ P.nodes, ∀ t ∈ DofType.list, Fixed (A .node) first t → (A .node n t).isSome) ∧
      ∃ P', pre S P true = .ok P' ∧ P'.dofs = DofType.list.filter (fun t => Fixed (A .node) first t)) ∨
    ((∃ n ∈ P.nodes, ∃ t ∈ DofType.list, Fixed (A .node) first t ∧ A .node n t = none) ∧ pre S P true = .ub) := by
  obtain ⟨nodes, dofs, toFile, sums, file⟩ := P
  cases nodes with
  | nil => simp at hf
  | cons f rest =>
    simp only [List.head?_cons, Option.some.injEq] at hf hd
    subst hf hd
    have hfirst := hn f (by simp)
    have hsel := selectLoop_eq h hfirst DofType.list
    by_cases hall : ∀ n ∈ f :: rest, ∀ t ∈ DofType.list, Fixed (A .node) f t → (A .node n t).isSome
    · left
      refine ⟨hall, ?_⟩
      unfold pre chooseDofs
      simp only [if_true]
      rw [hsel, Res.ok_bind, checkNodes_ok h _ _ hn (fun n hn' t ht => by
        rw [List.mem_filter] at ht
        exact hall n hn' t ht.1 (by simpa using ht.2)), Res.ok_bind, Res.ok_bind]
      cases toFile
      · exact ⟨_, rfl, rfl⟩
      · simp only [if_true]
        rw [headerLabels_eq, Res.ok_bind]
        exact ⟨_, rfl, rfl⟩
    · right
      have hbad : ∃ n ∈ f :: rest, ∃ t ∈ DofType.list, Fixed (A .node) f t ∧ A .node n t = none := by
        by_contra hc
        apply hall
        intro n hn' t ht hfx
        cases ha : A .node n t with
        | none => exact absurd ⟨n, hn', t, ht, hfx, ha⟩ hc
        | some _ => rfl
      refine ⟨hbad, ?_⟩
      obtain ⟨n, hn', t, ht, ⟨e, he⟩, hno⟩ := hbad
      have hu : 0 < (S.tab .node).nUsed := by
        rw [(sim_answers (h .node)).count]
        exact Finset.card_pos.mpr ⟨(f, t), mem_pairs.mpr ⟨hfirst.2, by rw [he]; rfl⟩⟩
      unfold pre chooseDofs
      simp only [if_true]
      rw [hsel, Res.ok_bind, checkNodes_ub h hu _ _ hn ⟨n, hn', t, by
        rw [List.mem_filter]; exact ⟨ht, by simpa using ⟨e, he⟩⟩, hno⟩]
      rfl

/-- **C59, selection (partial).** If all nodes have the same fixed DoFs, `pre` selects exactly the DoFs that are used and
constrained at every node. Missing: node sets in which the nodes differ (see `C59_select_violated`). -/
theorem C59_select_partial [AddMonoid K] {A : Side → Spec} {S : Storage K} {P : Proc K} (h : SimS S A)
    (hn : Exist S P.nodes) (hne : P.nodes ≠ []) (hd : P.dofs = [])
    (hsame : ∀ n ∈ P.nodes, ∀ m ∈ P.nodes, ∀ t, Fixed (A .node) n t → Fixed (A .node) m t) :
    ∃ P', pre S P true = .ok P' ∧ P'.dofs.Nodup ∧
      ∀ t ∈ DofType.list, t ∈ P'.dofs ↔ ∀ n ∈ P.nodes, Fixed (A .node) n t := by
  obtain ⟨first, hf⟩ : ∃ f, P.nodes.head? = some f := by
    cases hl : P.nodes with
    | nil => exact absurd hl hne
    | cons f r => exact ⟨f, rfl⟩
  have hmem : first ∈ P.nodes := List.mem_of_mem_head? hf
  rcases C59_select_cases h hn first hf hd with ⟨_, P', h1, h2⟩ | ⟨⟨n, hn', t, _, hfx, hno⟩, _⟩
  · refine ⟨P', h1, ?_, ?_⟩
    · rw [h2]; exact List.Nodup.filter _ (by decide)
    · intro t ht
      rw [h2, List.mem_filter]
      constructor
      · rintro ⟨_, hx⟩ n hn'
        exact hsame first hmem n hn' t (by simpa using hx)
      · intro hx
        exact ⟨ht, by simpa using hx first hmem⟩
  · obtain ⟨e, he⟩ := hsame first hmem n hn' t hfx
    rw [hno] at he; cases he

/-! ### The example model -/

/-- The state of the example of `Verif/Storage`: UX of node 3 and UY of node 1 are fixed, both types are used at all
nodes; all rows of the reactions are 1. -/
theorem demo_solved : ∃ (A : Side → Spec) (S : Storage ℚ), Solved S A ∧
    (∀ n t, (A .node n t).isSome ↔ (Side.node, n, t) ∈ regKeys demoCalls) ∧
    (∀ n t, Fixed (A .node) n t ↔ (Side.node, n, t) ∈ demoFix) ∧ S.nNodes = 3 ∧
    ∃ k, S.vecR = List.replicate k 1 := by
  obtain ⟨S1, nm, h⟩ := demo_session
  obtain ⟨A, h1, h2, h3, h4⟩ := solved_of_prepare h.legal h.prep
  exact ⟨A, _, h4 (List.replicate (S1.nDofs + S1.nMpc) 0) (List.replicate (S1.nDofs + S1.nMpc) 1) (by simp) (by simp),
    h1, h2, h3, _, rfl⟩

theorem demo_exist {S : Storage ℚ} (h : S.nNodes = 3) {ns : List Nat} (hn : ∀ n ∈ ns, 0 < n ∧ n ≤ 3) : Exist S ns := by
  intro n hh
  rw [h]
  exact hn n hh

/-- Hypotheses of `C59_history` and `C59_select_cases` hold for the example: UX of node 3 is selected, and two steps with
reaction 1 are recorded. -/
example : ∃ (A : Side → Spec) (S : Storage ℚ) (Q : Proc ℚ), Solved S A ∧
    (∃ P', pre S ⟨[3], [], true, [], []⟩ true = .ok P' ∧ P'.dofs = [.UX] ∧ runSteps 1 [S, S] P' = .ok Q) ∧
    getReactions Q .UX = .ok [0, 1, 1] := by
  obtain ⟨A, S, hS, h1, h2, h3, k, hk⟩ := demo_solved
  have hE : Exist S [3] := demo_exist h3 (by decide)
  rcases C59_select_cases (P := ⟨[3], [], true, [], []⟩) hS.sim hE 3 rfl rfl with
    ⟨_, P', h5, h6⟩ | ⟨⟨n, hn, t, _, hf, hno⟩, _⟩
  · have h7 : P'.dofs = [.UX] := by
      rw [h6]
      have : ∀ t, decide (Fixed (A .node) 3 t) = decide (t = DofType.UX) := by
        intro t
        rw [decide_eq_decide, h2]
        cases t <;> decide
      simp only [this]
      decide
    obtain ⟨Q, q1, _, _, q4, _⟩ := C59_history (A := A) (Ss := [S, S]) (P := ⟨[3], [], true, [], []⟩) (by simp)
      (by intro S' hS'; simp at hS'; subst hS'; exact ⟨hS, hE⟩) h5
    refine ⟨A, S, Q, hS, ⟨P', h5, h7, q1⟩, ?_⟩
    have hrow : rowOf (A .node) S.vecR 3 .UX = 1 := by
      obtain ⟨e, he⟩ := (h2 3 .UX).mpr (by decide)
      have hr := hS.rowsR _ _ _ _ _ he
      unfold rowOf
      rw [he]
      simp only
      rw [List.getD_eq_getElem?_getD, List.getElem?_eq_getElem (by omega)]
      simp [hk]
    rw [q4, h7]
    simp [total, hrow]
  · simp at hn
    subst hn
    obtain ⟨e, he⟩ := hf
    rw [he] at hno; cases hno

/-- Hypotheses of `C59_select_partial` hold for node 3 of the example. -/
example : ∃ (A : Side → Spec) (S : Storage ℚ) (P' : Proc ℚ), Solved S A ∧
    pre S ⟨[3], [], false, [], []⟩ true = .ok P' ∧ DofType.UX ∈ P'.dofs := by
  obtain ⟨A, S, hS, h1, h2, h3, _⟩ := demo_solved
  obtain ⟨P', h4, _, h5⟩ := C59_select_partial (P := ⟨[3], [], false, [], []⟩) hS.sim (demo_exist h3 (by decide))
    (by simp) rfl (by
      intro n hn m hm t hf
      simp at hn hm
      subst hn hm
      exact hf)
  exact ⟨A, S, P', hS, h4, (h5 .UX (by decide)).mpr (by
    intro n hn
    simp at hn
    subst hn
    exact (h2 3 .UX).mpr (by decide))⟩

/-- **C59, selection is violated.** Nodes 1 and 3 of the example: UY is fixed at node 1 only. `pre` accepts the node set and
selects UY, although it is not constrained at node 3. (The code joins the two conditions by `&&` where `||` is meant,
so the announced fatal error is not reported.) -/
theorem C59_select_violated : ∃ (S : Storage ℚ) (A : Side → Spec) (P' : Proc ℚ), Solved S A ∧
    Exist S [1, 3] ∧ pre S ⟨[1, 3], [], false, [], []⟩ true = .ok P' ∧ DofType.UY ∈ P'.dofs ∧ ¬ Fixed (A .node) 3 .UY := by
  obtain ⟨A, S, hS, h1, h2, h3, _⟩ := demo_solved
  have hE : Exist S [1, 3] := demo_exist h3 (by decide)
  rcases C59_select_cases (P := ⟨[1, 3], [], false, [], []⟩) hS.sim hE 1 rfl rfl with
    ⟨_, P', h5, h6⟩ | ⟨⟨n, hn, t, _, hf, hno⟩, _⟩
  · refine ⟨S, A, P', hS, hE, h5, ?_, ?_⟩
    · rw [h6, List.mem_filter]
      exact ⟨by decide, by simpa using (h2 1 .UY).mpr (by decide)⟩
    · rw [h2]; decide
  · exfalso
    have h8 := (h2 1 t).mp hf
    have ht : t = .UY := by
      revert h8
      cases t <;> decide
    subst ht
    have : (A .node n .UY).isSome := (h1 n .UY).mpr (by
      simp at hn
      rcases hn with rfl | rfl <;> decide)
    rw [hno] at this
    simp at this

/-- **C59 is violated without nodes.** `pre` leaves the list of histories empty, and `process` with DoFs given by the user
writes past its end. -/
theorem C59_no_nodes_violated [AddMonoid K] (S : Storage K) (t : DofType) (ts : List DofType) :
    ∃ P', pre S ⟨[], t :: ts, false, [], []⟩ true = .ok P' ∧ process S P' 1 true = .ub :=
  ⟨_, rfl, rfl⟩

/-- **C59 is violated if the file cannot be written.** The numbers of the step are then not stored in memory either: the
history of `n` steps has one element instead of `n + 1`. -/
theorem C59_unwritable_violated [AddMonoid K] {A : Side → Spec} {S : Storage K} (h : Solved S A) (ns : List Nat)
    (hn : Exist S ns) (hs : List K) (t : DofType) :
    ∃ P', process S ⟨ns, [t], true, [hs], []⟩ 1 false = .ok P' ∧ getReactions P' t = .ok hs := by
  unfold process
  rw [show ([t].map (fun _ => (0 : K))) = [t].map (fun _ => 0) from rfl, addNodes_eq h [t] ns (fun _ => 0) hn,
    Res.ok_bind]
  refine ⟨_, rfl, ?_⟩
  simp [getReactions, lookup, Res.read]

/-- If the file cannot be created in `pre` the histories are missing; a later step that can open the file writes past the
end of the empty list. -/
theorem C59_uncreatable_violated [AddMonoid K] {A : Side → Spec} {S : Storage K} (h : Solved S A) {n : Nat}
    (hn : Exist S [n]) (t : DofType) :
    ∃ P', pre S ⟨[n], [t], true, [], []⟩ false = .ok P' ∧ process S P' 1 true = .ub := by
  unfold pre chooseDofs
  simp only [List.cons_ne_nil, if_false]
  rw [usedNodes_ok h.sim [t] [n] hn]
  refine ⟨_, rfl, ?_⟩
  unfold process
  simp only
  rw [show ([t].map (fun _ => (0 : K))) = [t].map (fun _ => 0) from rfl, addNodes_eq h [t] [n] (fun _ => 0) hn]
  rfl

example : ∃ (A : Side → Spec) (S : Storage ℚ), Solved S A ∧ Exist S [1] ∧ Exist S [1, 2] := by
  obtain ⟨A, S, hS, _, _, h3, _⟩ := demo_solved
  exact ⟨A, S, hS, demo_exist h3 (by decide), demo_exist h3 (by decide)⟩

/-- Hypotheses of `C73_position` hold for the example, and the deformed position differs from the reference one. -/
example : ∃ (A : Side → Spec) (S : Storage ℚ) (q : Pt ℚ), Solved S A ∧
    nodePosition S [⟨0, 0, 0⟩, ⟨1, 0, 0⟩, ⟨2, 0, 0⟩] 2 true = .ok q ∧ q.x = 1 + rowOf (A .node) S.vecU 2 .UX := by
  obtain ⟨A, S, hS, _, _, h3, _⟩ := demo_solved
  exact ⟨A, S, _, hS, (C73_position hS [⟨0, 0, 0⟩, ⟨1, 0, 0⟩, ⟨2, 0, 0⟩] (by rw [h3]; rfl) 2 (by rw [h3]; decide)
    ⟨1, 0, 0⟩ rfl).2, rfl⟩

end Nla3d.Post
