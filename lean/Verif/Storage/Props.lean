import Verif.Storage.Session
import Mathlib.Algebra.Ring.Rat
import Mathlib.Tactic.Ring

/-!
# C13 - C17, C29, C62: numbering, sparsity, assembly
-/

namespace Nla3d.Storage

open Nla3d.Dof Nla3d.Block Nla3d.Sparse

variable {K : Type}

/-! ## A concrete model for the examples

Three nodes, two two-node elements, `UX` and `UY` at each node, a pressure DoF at the first element, one MPC, two fixed
DoFs (one of them fixed twice), a transient analysis. -/

/-- The mesh and the MPC of the example. -/
def demo : Storage ℚ := Storage.fresh 3 [[1, 2], [2, 3]] [⟨[⟨1, .UX, 1⟩, ⟨3, .UY, -2⟩], 5, 0⟩] true

/-- Registrations of the example. -/
def demoCalls : List RegCall :=
  [(.node, 1, [.UX, .UY]), (.node, 2, [.UX, .UY]), (.elem, 1, [.HYDRO_PRESSURE]), (.node, 2, [.UX, .UY]),
   (.node, 3, [.UX, .UY])]

/-- Fixed DoFs of the example. -/
def demoFix : List Key := [(.node, 3, .UX), (.node, 1, .UY), (.node, 3, .UX)]

theorem demo_card : (regKeys demoCalls).toFinset.card = 7 ∧ demoFix.toFinset.card = 2 := by decide

theorem demo_legal : LegalModel demo demoCalls [] demoFix := by
  refine ⟨⟨?_, ?_, ?_, ?_, ?_, rfl⟩, ?_, ?_, ?_⟩
  · unfold LegalReg; decide
  · decide
  · decide
  · decide
  · intro m hm; simp [demo, Storage.fresh] at hm; subst hm; simp
  · unfold MeshOk; decide
  · intro m hm t ht
    simp [demo, Storage.fresh] at hm
    subst hm
    simp at ht
    rcases ht with rfl | rfl <;> decide
  · rw [demo_card.1]; decide

/-! ## C13 -/

/-- **C13.** After registration, constraining any registered DoFs (with repetitions) and `assignEquationNumbers`, provided
some DoF stays unconstrained: the counters are the numbers of distinct DoFs, the equation numbers of all DoFs are a
bijection onto `1 .. nDofs` with the constrained ones first, the MPC equations follow in list order. -/
theorem C13_numbering {S : Storage K} {calls : List RegCall} {new : List (Mpc K)} {cs : List Key}
    (h : LegalSetup S calls new cs) (hfree : ∃ k ∈ regKeys calls, k ∉ cs) :
    ∃ S' num, S.setup calls new cs = .ok S' ∧
      S'.nDofs = (regKeys calls).toFinset.card ∧ S'.nConstr = cs.toFinset.card ∧ S'.nConstr + S'.nUnknown = S'.nDofs ∧
      (∀ k ∈ regKeys calls, S'.eqNumber k.1 k.2.1 k.2.2 = .ok (num k)) ∧
      Set.BijOn num {k | k ∈ regKeys calls} (Set.Icc 1 S'.nDofs) ∧
      Set.BijOn num {k | k ∈ cs} (Set.Icc 1 S'.nConstr) ∧
      Set.BijOn num {k | k ∈ regKeys calls ∧ k ∉ cs} (Set.Icc (S'.nConstr + 1) S'.nDofs) ∧
      S'.mpcs.map Mpc.eqNum = List.range' (S'.nDofs + 1) (S.mpcs ++ new).length ∧
      S'.mpcs.map (fun m => (m.eq, m.b)) = (S.mpcs ++ new).map (fun m => (m.eq, m.b)) := by
  rcases setup_cases h with ⟨_, S', A, e1, e2⟩ | ⟨hc, _⟩
  · have i1 : Set.Ico 1 (1 + S'.nConstr) = Set.Icc 1 S'.nConstr := by
      ext x; rw [Set.mem_Ico, Set.mem_Icc]; omega
    have i2 : Set.Ico (S'.nConstr + 1) (S'.nDofs + 1) = Set.Icc (S'.nConstr + 1) S'.nDofs := by
      ext x; rw [Set.mem_Ico, Set.mem_Icc]; omega
    have hn := e2.nUnknown
    have hlen : S'.mpcs.length = (S.mpcs ++ new).length := e2.nMpc
    refine ⟨S', num A, e1, e2.nDofs, e2.nConstr, e2.nUnknown, ?_, ⟨?_, ?_, ?_⟩, i1 ▸ e2.con, i2 ▸ e2.unk,
      hlen ▸ e2.eqNums, e2.terms⟩
    · intro k hk
      exact eqNumber_num e2.sim ((e2.isSome k).mpr hk)
    · intro k hk
      have := e2.num_range hk
      rw [Set.mem_Icc]; omega
    · intro k hk k' hk' he
      exact e2.num_inj hk hk' he
    · intro x hx
      rw [Set.mem_Icc] at hx
      by_cases hxc : x ≤ S'.nConstr
      · obtain ⟨k, hk, rfl⟩ := e2.con.surjOn (show x ∈ Set.Ico 1 (1 + S'.nConstr) from Set.mem_Ico.mpr ⟨hx.1, by omega⟩)
        exact ⟨k, h.cons k hk, rfl⟩
      · obtain ⟨k, hk, rfl⟩ := e2.unk.surjOn (show x ∈ Set.Ico (S'.nConstr + 1) (S'.nDofs + 1) from
          Set.mem_Ico.mpr ⟨by omega, by omega⟩)
        exact ⟨k, hk.1, rfl⟩
  · exfalso
    obtain ⟨k, hk, hkc⟩ := hfree
    have hsub : cs.toFinset ⊆ (regKeys calls).toFinset := by
      intro x; rw [List.mem_toFinset, List.mem_toFinset]; exact h.cons x
    have := Finset.eq_of_subset_of_card_le hsub (by omega)
    exact hkc (by rw [← List.mem_toFinset, this, List.mem_toFinset]; exact hk)

/-- The remaining case: if every DoF is constrained the setup reports a fatal error. -/
theorem C13_nothing_to_solve {S : Storage K} {calls : List RegCall} {new : List (Mpc K)} {cs : List Key}
    (h : LegalSetup S calls new cs) (hall : ∀ k ∈ regKeys calls, k ∈ cs) : S.setup calls new cs = .fatal := by
  rcases setup_cases h with ⟨hc, _⟩ | ⟨_, e⟩
  · exfalso
    have : (regKeys calls).toFinset ⊆ cs.toFinset := by
      intro x; rw [List.mem_toFinset, List.mem_toFinset]; exact hall x
    have := Finset.card_le_card this
    omega
  · exact e

example : ∃ S' num, demo.setup demoCalls [] demoFix = .ok S' ∧ S'.nDofs = 7 ∧ S'.nConstr = 2 ∧
    Set.BijOn num {k | k ∈ demoFix} (Set.Icc 1 2) := by
  obtain ⟨S', num, h1, h2, h3, _, _, _, h4, _⟩ := C13_numbering demo_legal.setup
    ⟨(.node, 2, .UX), by decide, by decide⟩
  rw [demo_card.1] at h2
  rw [demo_card.2] at h3
  exact ⟨S', num, h1, h2, h3, h3 ▸ h4⟩

/-! ## C62 -/

/-- **C62 is violated.** `initDofs` keeps the counter of constrained DoFs. A second setup of a storage that has been set up
with at least one constrained DoF never completes: with assertions it stops, and the counters are wrong otherwise. -/
theorem C62_second_setup_violated {S S' : Storage K} {calls : List RegCall} {new : List (Mpc K)} {cs : List Key}
    (h : LegalSetup S calls new cs) (hS : S.setup calls new cs = .ok S') (hc : cs ≠ []) (new' : List (Mpc K))
    (hnew : ∀ m ∈ new', m.eq ≠ []) : ∀ S'', S'.setup calls new' cs ≠ .ok S'' := by
  rcases setup_cases h with ⟨_, S1, A, e1, e2⟩ | ⟨_, e⟩
  · rw [hS, Res.ok.injEq] at e1
    subst e1
    have hpos : 0 < S'.nConstr := by
      rw [e2.nConstr]
      obtain ⟨k, hk⟩ := List.exists_mem_of_ne_nil _ hc
      exact Finset.card_pos.mpr ⟨k, List.mem_toFinset.mpr hk⟩
    have hreg : LegalReg S' calls := by
      intro c hcc
      rw [e2.mesh.size]
      exact h.reg c hcc
    have hm : ∀ m ∈ S'.mpcs ++ new', m.eq ≠ [] := by
      intro m hm
      rcases List.mem_append.mp hm with hm | hm
      · have h1 : (m.eq, m.b) ∈ S'.mpcs.map (fun m => (m.eq, m.b)) := List.mem_map.mpr ⟨m, hm, rfl⟩
        rw [e2.terms] at h1
        obtain ⟨m0, h2, h3⟩ := List.mem_map.mp h1
        rw [Prod.mk.injEq] at h3
        rw [← h3.1]
        exact h.mpcs m0 h2
      · exact hnew m hm
    intro S'' hh
    rcases setup_again hreg h.proper h.some h.cons hm hpos with e | e <;> rw [e] at hh <;> simp at hh
  · rw [hS] at e; simp at e

/-- What holds of C62: without constrained DoFs (and without MPC collections) the second setup completes with the same
counters, again a bijective numbering. -/
theorem C62_partial {S S' : Storage K} {calls : List RegCall}
    (h : LegalSetup S calls [] []) (hS : S.setup calls [] [] = .ok S') :
    ∃ S'', S'.setup calls [] [] = .ok S'' ∧ S''.nDofs = S'.nDofs ∧ S''.nConstr = S'.nConstr ∧
      S''.nUnknown = S'.nUnknown ∧ S''.mpcs.map Mpc.eqNum = S'.mpcs.map Mpc.eqNum := by
  rcases setup_cases h with ⟨_, S1, A, e1, e2⟩ | ⟨_, e⟩
  · rw [hS, Res.ok.injEq] at e1
    subst e1
    have hl : LegalSetup S' calls [] [] := by
      refine ⟨?_, h.proper, h.some, h.cons, ?_, ?_⟩
      · intro c hcc
        rw [e2.mesh.size]
        exact h.reg c hcc
      · intro m hm
        rw [List.append_nil] at hm
        have h1 : (m.eq, m.b) ∈ S'.mpcs.map (fun m => (m.eq, m.b)) := List.mem_map.mpr ⟨m, hm, rfl⟩
        rw [e2.terms] at h1
        obtain ⟨m0, h2, h3⟩ := List.mem_map.mp h1
        rw [Prod.mk.injEq] at h3
        rw [← h3.1]
        exact h.mpcs m0 h2
      · rw [e2.nConstr]; rfl
    rcases setup_cases hl with ⟨_, S2, A2, f1, f2⟩ | ⟨hc, _⟩
    · refine ⟨S2, f1, by rw [f2.nDofs, e2.nDofs], by rw [f2.nConstr, e2.nConstr], ?_, ?_⟩
      · have a1 := f2.nUnknown; have a2 := e2.nUnknown; have a3 := f2.nDofs; have a4 := e2.nDofs
        have a5 := f2.nConstr; have a6 := e2.nConstr
        omega
      · have hlen : S2.mpcs.length = S'.mpcs.length := by
          have := f2.nMpc
          rw [List.append_nil] at this
          exact this
        rw [f2.eqNums, e2.eqNums, f2.nDofs, e2.nDofs, hlen]
    · exfalso
      have : (regKeys calls).toFinset = ∅ := by
        rw [← Finset.card_eq_zero, ← hc]; rfl
      obtain ⟨k, hk⟩ := List.exists_mem_of_ne_nil _ h.some
      have : k ∈ (regKeys calls).toFinset := List.mem_toFinset.mpr hk
      simp_all
  · rw [hS] at e; simp at e

example : ∃ S', demo.setup demoCalls [] demoFix = .ok S' ∧ ∀ S'', S'.setup demoCalls [] demoFix ≠ .ok S'' := by
  obtain ⟨S', num, h1, _⟩ := C13_numbering demo_legal.setup ⟨(.node, 2, .UX), by decide, by decide⟩
  exact ⟨S', h1, C62_second_setup_violated demo_legal.setup h1 (by decide) [] (by simp)⟩

/-! ## C29 -/

/-- **C29.** `learnTopology` on a mesh whose elements refer to existing nodes: element `e` is listed at node `n` iff `n`
is one of its nodes, and every list is strictly increasing, so each element occurs once. -/
theorem C29_topology {S : Storage K} (h : MeshOk S) :
    ∃ S', S.learnTopology = .ok S' ∧ S'.topology.length = S.nNodes ∧
      ∀ n, 0 < n → n ≤ S.nNodes → ∃ s, S'.topology[n - 1]? = some s ∧ s.Pairwise (· < ·) ∧
        ∀ e, e ∈ s ↔ 0 < e ∧ ∃ ns, S.elements[e - 1]? = some ns ∧ n ∈ ns := by
  obtain ⟨T, h1, h2, h3, h4⟩ := learnTopology_ok h
  refine ⟨_, h1, h2, ?_⟩
  intro n hn hle
  obtain ⟨s, h5, h6⟩ := h4 n hn hle
  refine ⟨s, h5, h3 s (List.mem_of_getElem? h5), ?_⟩
  intro e
  rw [h6, ← mem_incidences', mem_incidences]

example : ∃ S', demo.learnTopology = .ok S' ∧ S'.topology = [[1], [1, 2], [2]] := ⟨_, rfl, rfl⟩

/-! ## Sessions

After the preparation a user (elements, solvers) may add contributions, zero matrices and assemble, in any order. -/

/-- Calls on a prepared storage. -/
inductive Ev (K : Type) where
  | contrib (c : Contrib K)
  | zero (w : Which)
  | zeroF
  | assemble (build : List (Contrib K)) (upd : List (Mpc K) → List (Mpc K)) (cm : List (Contrib K))

/-- Executing a call. -/
def evStep [Zero K] [Add K] (S : Storage K) : Ev K → Res (Storage K)
  | .contrib c => S.contribute c
  | .zero w => S.zeroMat w
  | .zeroF => .ok S.zeroF
  | .assemble build upd cm => S.assemble build upd cm

/-- The matrix exists. -/
def Exists (S : Storage K) (w : Which) : Prop := w = .K ∨ S.transient = true

/-- A contribution elements and MPCs make: to a pair of DoFs attached to one element (its own or of its nodes), or to an
MPC equation and one of the DoFs of the MPC, or to any load component. -/
def Wanted (S : Storage K) (regs : List Key) (num : Key → Nat) : Contrib K → Prop
  | .mat w i j _ => Exists S w ∧
      ((∃ en k1 k2, k1 ∈ regs ∧ k2 ∈ regs ∧ Attached S.elements en k1 ∧ Attached S.elements en k2 ∧
          i = num k1 ∧ j = num k2) ∨
       (∃ m ∈ S.mpcs, ∃ t ∈ m.eq, i = m.eqNum ∧ j = num (.node, t.node, t.dof)))
  | .load i _ => 0 < i ∧ i ≤ S.nDofs + S.nMpc

/-- Legal calls; `update` of the MPC collections may change coefficients and right-hand sides only. -/
def LegalEv (S : Storage K) (regs : List Key) (num : Key → Nat) : Ev K → Prop
  | .contrib c => Wanted S regs num c
  | .zero w => Exists S w
  | .zeroF => True
  | .assemble build upd cm => (∀ c ∈ build, Wanted S regs num c) ∧ (∀ c ∈ cm, Wanted S regs num c) ∧
      ∀ ms, SameShape ms (upd ms)

/-- `S0` is a legal model, `S1` the storage after the preparation, `num` gives the equation numbers, `S` is reached by
legal calls. -/
structure Session [Zero K] [Add K] (S0 : Storage K) (calls : List RegCall) (new : List (Mpc K)) (cs : List Key)
    (S1 : Storage K) (num : Key → Nat) (S : Storage K) : Prop where
  legal : LegalModel S0 calls new cs
  prep : S0.prepare calls new cs = .ok S1
  numbers : ∀ k ∈ regKeys calls, S1.eqNumber k.1 k.2.1 k.2.2 = .ok (num k)
  run : ∃ evs, (∀ e ∈ evs, LegalEv S1 (regKeys calls) num e) ∧ Res.foldlM' evStep S1 evs = .ok S

theorem prepared [AddMonoid K] {S0 S1 : Storage K} {calls : List RegCall} {new : List (Mpc K)} {cs : List Key}
    (hl : LegalModel S0 calls new cs) (hp : S0.prepare calls new cs = .ok S1) :
    ∃ A, Prepared S0 S1 calls new cs A := by
  rcases prepare_cases hl with ⟨_, S', A, T, _, _, ⟨_, S2, h1, h2, _⟩ | ⟨_, h1⟩⟩ | ⟨_, h1⟩
  · rw [hp, Res.ok.injEq] at h1
    subst h1
    exact ⟨A, h2⟩
  · rw [hp] at h1; simp at h1
  · rw [hp] at h1; simp at h1

theorem num_agree [AddMonoid K] {S0 S1 : Storage K} {calls : List RegCall} {new : List (Mpc K)} {cs : List Key}
    {A : Side → Spec} {num' : Key → Nat} (hp : Prepared S0 S1 calls new cs A)
    (hn : ∀ k ∈ regKeys calls, S1.eqNumber k.1 k.2.1 k.2.2 = .ok (num' k)) : ∀ k ∈ regKeys calls, num' k = num A k := by
  intro k hk
  have h1 := hn k hk
  rw [eqNumber_num hp.ready.sim ((hp.ready.isSome k).mpr hk), Res.ok.injEq] at h1
  exact h1.symm

theorem exists_idx {S : Storage K} {w : Which} (h : Exists S w) : w.idx < S.nMats := by
  unfold Storage.nMats
  rcases h with rfl | h
  · show 0 < _; split <;> omega
  · rw [h]; cases w <;> decide

theorem wanted_fine [AddMonoid K] {S0 S1 : Storage K} {calls : List RegCall} {new : List (Mpc K)} {cs : List Key}
    {A : Side → Spec} {num' : Key → Nat} (hp : Prepared S0 S1 calls new cs A)
    (hn : ∀ k ∈ regKeys calls, num' k = num A k) {c : Contrib K} (hc : Wanted S1 (regKeys calls) num' c) :
    Fine (S1.nDofs + S1.nMpc) S1.nMats (gAll S1 A) c := by
  cases c with
  | load i x => exact hc
  | mat w i j x =>
    obtain ⟨hw, hc⟩ := hc
    have hr : ∀ k ∈ regKeys calls, 0 < num' k ∧ num' k ≤ S1.nDofs + S1.nMpc := by
      intro k hk
      rw [hn k hk]
      have := hp.ready.num_range hk
      omega
    rcases hc with ⟨en, k1, k2, h1, h2, h3, h4, rfl, rfl⟩ | ⟨m, hm, t, ht, rfl, rfl⟩
    · refine ⟨exists_idx hw, hr k1 h1, hr k2 h2, ?_⟩
      rw [hn k1 h1, hn k2 h2]
      exact cover_pair hp.pre ((hp.ready.isSome k1).mpr h1) ((hp.ready.isSome k2).mpr h2) h3 h4
    · have hk : (Side.node, t.node, t.dof) ∈ regKeys calls :=
        (hp.ready.isSome _).mp ((hp.pre.terms m hm).2 t ht)
      have hq := hp.pre.eqNum m hm
      refine ⟨exists_idx hw, by omega, hr _ hk, ?_⟩
      rw [hn _ hk]
      exact cover_mpc hm ht

theorem session_run [AddMonoid K] {S0 S1 : Storage K} {calls : List RegCall} {new : List (Mpc K)} {cs : List Key}
    {A : Side → Spec} {num' : Key → Nat} (hp : Prepared S0 S1 calls new cs A)
    (hn : ∀ k ∈ regKeys calls, num' k = num A k) : ∀ (evs : List (Ev K)) (S : Storage K) (M : Nat → Nat → Nat → K)
    (v : Nat → K), During S1 S A M v → (∀ e ∈ evs, LegalEv S1 (regKeys calls) num' e) →
    ∃ S' M' v', Res.foldlM' evStep S evs = .ok S' ∧ During S1 S' A M' v' := by
  intro evs
  induction evs with
  | nil => intro S M v h _; exact ⟨S, M, v, rfl, h⟩
  | cons e evs ih =>
    intro S M v h he
    have hstep : ∃ S1' M' v', evStep S e = .ok S1' ∧ During S1 S1' A M' v' := by
      have hle := he e (by simp)
      cases e with
      | contrib c =>
        have hf := wanted_fine hp hn hle
        obtain ⟨S', e1, e2, e3, e4⟩ := live_contribs [c] h.live (by
          intro c' hc'
          rw [List.mem_singleton] at hc'
          subst hc'
          rw [h.n, h.frame.nMats]; exact hf)
        refine ⟨S', _, _, ?_, e4, h.frame.trans e2, by rw [e3]; exact h.shape⟩
        rw [Res.foldlM'_cons] at e1
        obtain ⟨S'', e5, e6⟩ := Res.bind_eq_ok.mp e1
        rw [Res.foldlM'_nil, Res.ok.injEq] at e6
        subst e6
        exact e5
      | zero w =>
        obtain ⟨S', e1, e2, e3, e4⟩ := live_zero h.live (w := w) (by rw [h.frame.nMats]; exact exists_idx hle)
        exact ⟨S', _, _, e1, e4, h.frame.trans e2, by rw [e3]; exact h.shape⟩
      | zeroF =>
        obtain ⟨e2, e3, e4⟩ := live_zeroF h.live
        exact ⟨_, _, _, rfl, e4, h.frame.trans e2, by rw [e3]; exact h.shape⟩
      | assemble build upd cm =>
        obtain ⟨S', e1, _, e3⟩ := assemble_during hp.pre h (fun c hc => wanted_fine hp hn (hle.1 c hc))
          (fun c hc => wanted_fine hp hn (hle.2.1 c hc)) hle.2.2
        exact ⟨S', _, _, e1, e3⟩
    obtain ⟨S1', M', v', e1, e2⟩ := hstep
    obtain ⟨S', M'', v'', f1, f2⟩ := ih S1' M' v' e2 (fun e' he' => he e' (by simp [he']))
    exact ⟨S', M'', v'', by rw [Res.foldlM'_cons, e1]; exact f1, f2⟩

theorem during_start [AddMonoid K] {S0 S1 : Storage K} {calls : List RegCall} {new : List (Mpc K)} {cs : List Key}
    {A : Side → Spec} (hp : Prepared S0 S1 calls new cs A) : During S1 S1 A (fun _ _ _ => 0) (fun _ => 0) :=
  ⟨hp.live, rfl, rfl⟩

theorem session_during [AddMonoid K] {S0 S1 S : Storage K} {calls : List RegCall} {new : List (Mpc K)} {cs : List Key}
    {num' : Key → Nat} (h : Session S0 calls new cs S1 num' S) :
    ∃ A M v, Prepared S0 S1 calls new cs A ∧ (∀ k ∈ regKeys calls, num' k = num A k) ∧ During S1 S A M v := by
  obtain ⟨A, hp⟩ := prepared h.legal h.prep
  have hn := num_agree hp h.numbers
  obtain ⟨evs, h1, h2⟩ := h.run
  obtain ⟨S', M, v, e1, e2⟩ := session_run hp hn evs S1 _ _ (during_start hp) h1
  rw [h2, Res.ok.injEq] at e1
  subst e1
  exact ⟨A, M, v, hp, hn, e2⟩

/-- The example model can be prepared: any model with at most 100 equations per block can. -/
theorem prepare_small [AddMonoid K] {S : Storage K} {calls : List RegCall} {new : List (Mpc K)} {cs : List Key}
    (hl : LegalModel S calls new cs) (hfree : cs.toFinset.card < (regKeys calls).toFinset.card)
    (hsize : (regKeys calls).toFinset.card + (S.mpcs ++ new).length ≤ 100) :
    ∃ S1, ∃ num : Key → Nat, S.prepare calls new cs = .ok S1 ∧
      (∀ k ∈ regKeys calls, S1.eqNumber k.1 k.2.1 k.2.2 = .ok (num k)) := by
  rcases prepare_cases hl with ⟨_, S', A, T, _, h0, ⟨_, S2, h1, h2, _⟩ | ⟨hf, h1⟩⟩ | ⟨hc, _⟩
  · exact ⟨S2, num A, h1, fun k hk => eqNumber_num h2.ready.sim ((h2.ready.isSome k).mpr hk)⟩
  · exfalso
    apply hf
    apply fits_small
    intro n hn
    have a1 := h0.nUnknown; have a2 := h0.nDofs; have a3 := h0.nMpc
    simp only [List.mem_cons, List.not_mem_nil, or_false] at hn
    rcases hn with rfl | rfl <;> omega
  · omega

theorem demo_session : ∃ S1 num, Session demo demoCalls [] demoFix S1 num S1 := by
  obtain ⟨S1, num, h1, h2⟩ := prepare_small demo_legal (by rw [demo_card.1, demo_card.2]; omega)
    (by rw [demo_card.1]; decide)
  exact ⟨S1, num, demo_legal, h1, h2, [], by simp, rfl⟩

/-! ## C14 -/

/-- **C14.** In a session, any further legal calls complete: no addition to a pair of DoFs attached to one element, nor to
an MPC equation and a term of it, hits an absent position, and nothing asserts or runs out of bounds. -/
theorem C14_writes_complete [AddMonoid K] {S0 S1 S : Storage K} {calls : List RegCall} {new : List (Mpc K)}
    {cs : List Key} {num : Key → Nat} (h : Session S0 calls new cs S1 num S) (evs : List (Ev K))
    (he : ∀ e ∈ evs, LegalEv S1 (regKeys calls) num e) :
    ∃ S', Res.foldlM' evStep S evs = .ok S' ∧ Session S0 calls new cs S1 num S' := by
  obtain ⟨A, M, v, hp, hn, hd⟩ := (session_during h)
  obtain ⟨S', M', v', e1, _⟩ := session_run hp hn evs S M v hd he
  obtain ⟨evs0, r1, r2⟩ := h.run
  refine ⟨S', e1, h.legal, h.prep, h.numbers, evs0 ++ evs, ?_, ?_⟩
  · intro e hh
    rcases List.mem_append.mp hh with hh | hh
    · exact r1 e hh
    · exact he e hh
  · rw [Res.foldlM'_append, r2]; exact e1

/-- **C14, the preparation itself.** On a legal model it either completes or stops with a fatal error (row capacity, or no
unknown left), never with an assertion or undefined behaviour; models with at most 100 equations and MPCs together and
one free DoF always complete. -/
theorem C14_prepare_outcome [AddMonoid K] {S : Storage K} {calls : List RegCall} {new : List (Mpc K)} {cs : List Key}
    (hl : LegalModel S calls new cs) :
    ((∃ S1, S.prepare calls new cs = .ok S1) ∨ S.prepare calls new cs = .fatal) ∧
    ((∃ k ∈ regKeys calls, k ∉ cs) → (regKeys calls).toFinset.card + (S.mpcs ++ new).length ≤ 100 →
      ∃ S1, S.prepare calls new cs = .ok S1) := by
  refine ⟨?_, ?_⟩
  · rcases prepare_cases hl with ⟨_, S', A, T, _, _, ⟨_, S2, h1, _⟩ | ⟨_, h1⟩⟩ | ⟨_, h1⟩
    · exact Or.inl ⟨S2, h1⟩
    · exact Or.inr h1
    · exact Or.inr h1
  · rintro ⟨k, hk, hkc⟩ hsize
    have hsub : cs.toFinset ⊂ (regKeys calls).toFinset := by
      rw [Finset.ssubset_iff_of_subset]
      · exact ⟨k, List.mem_toFinset.mpr hk, fun hh => hkc (List.mem_toFinset.mp hh)⟩
      · intro x; rw [List.mem_toFinset, List.mem_toFinset]; exact hl.setup.cons x
    obtain ⟨S1, _, h1, _⟩ := prepare_small hl (Finset.card_lt_card hsub) hsize
    exact ⟨S1, h1⟩

example : ∃ S1 num S', Session demo demoCalls [] demoFix S1 num S1 ∧
    Res.foldlM' evStep S1 [.contrib (.mat .K (num (.elem, 1, .HYDRO_PRESSURE)) (num (.node, 2, .UY)) 3)] = .ok S' := by
  obtain ⟨S1, num, h⟩ := demo_session
  have hel : S1.elements = [[1, 2], [2, 3]] := by
    obtain ⟨A, hp⟩ := prepared h.legal h.prep
    exact hp.ready.mesh.elements
  obtain ⟨S', h1, _⟩ := C14_writes_complete h
    [.contrib (.mat .K (num (.elem, 1, .HYDRO_PRESSURE)) (num (.node, 2, .UY)) 3)] (by
      intro e he
      rw [List.mem_singleton] at he
      subst he
      refine ⟨Or.inl rfl, Or.inl ⟨1, _, _, ?_, ?_, ?_, ?_, rfl, rfl⟩⟩
      · decide
      · decide
      · rfl
      · show 2 ∈ elNodes S1.elements 1
        rw [hel]; decide)
  exact ⟨S1, num, S', h, h1⟩

/-! ## C15, C16 -/

/-- Scatter-add of an element matrix: `eq a` is the equation of local DoF `a`. -/
def scatter [AddCommMonoid K] (n : Nat) (eq : Nat → Nat) (Ke : Nat → Nat → K) (i j : Nat) : K :=
  ∑ a ∈ Finset.range n, ∑ b ∈ Finset.range n, if eq a = i ∧ eq b = j then Ke a b else 0

/-- Scatter-add of an element load vector. -/
def scatterV [AddCommMonoid K] (n : Nat) (eq : Nat → Nat) (fe : Nat → K) (i : Nat) : K :=
  ∑ a ∈ Finset.range n, if eq a = i then fe a else 0

/-- `ke` is the packed upper triangle of the `n × n` matrix `Ke`, row by row (anything may follow). -/
def Packs (ke : List K) (n : Nat) (Ke : Nat → Nat → K) : Prop :=
  ∃ rest, ke = (packed n).map (fun p => Ke p.1 p.2) ++ rest

/-- The element `en` has the node list `nodes`, and all DoFs in `dofs` are registered at each of them. -/
structure OnElement (S : Storage K) (regs : List Key) (nodes : List Nat) (dofs : List DofType) : Prop where
  elem : ∃ en, nodes = elNodes S.elements en
  dofsReg : ∀ n ∈ nodes, ∀ t ∈ dofs, (Side.node, n, t) ∈ regs
  dofsNodup : dofs.Nodup

theorem localKey_mem {nodes : List Nat} {dofs : List DofType} {a : Nat} (ha : a < nodes.length * dofs.length) :
    ∃ n ∈ nodes, ∃ t ∈ dofs, localKey nodes dofs a = (.node, n, t) := by
  have hpos : 0 < dofs.length := by
    rcases Nat.eq_zero_or_pos dofs.length with h0 | h0
    · rw [h0, Nat.mul_zero] at ha; omega
    · exact h0
  have h1 : a / dofs.length < nodes.length := (Nat.div_lt_iff_lt_mul hpos).mpr ha
  have h2 : a % dofs.length < dofs.length := Nat.mod_lt a hpos
  refine ⟨nodes[a / dofs.length], List.getElem_mem _, dofs[a % dofs.length], List.getElem_mem _, ?_⟩
  unfold localKey
  rw [List.getD_eq_getElem?_getD, List.getD_eq_getElem?_getD, List.getElem?_eq_getElem h1, List.getElem?_eq_getElem h2]
  rfl

theorem localKey_inj {nodes : List Nat} {dofs : List DofType} (hn : nodes.Nodup) (hd : dofs.Nodup) {a b : Nat}
    (ha : a < nodes.length * dofs.length) (hb : b < nodes.length * dofs.length)
    (h : localKey nodes dofs a = localKey nodes dofs b) : a = b := by
  have hpos : 0 < dofs.length := by
    rcases Nat.eq_zero_or_pos dofs.length with h0 | h0
    · rw [h0, Nat.mul_zero] at ha; omega
    · exact h0
  have a1 : a / dofs.length < nodes.length := (Nat.div_lt_iff_lt_mul hpos).mpr ha
  have a2 : a % dofs.length < dofs.length := Nat.mod_lt a hpos
  have b1 : b / dofs.length < nodes.length := (Nat.div_lt_iff_lt_mul hpos).mpr hb
  have b2 : b % dofs.length < dofs.length := Nat.mod_lt b hpos
  unfold localKey at h
  rw [Prod.mk.injEq, Prod.mk.injEq] at h
  simp only [List.getD_eq_getElem?_getD, List.getElem?_eq_getElem a1, List.getElem?_eq_getElem a2,
    List.getElem?_eq_getElem b1, List.getElem?_eq_getElem b2, Option.getD_some] at h
  have e1 := (List.Nodup.getElem_inj_iff hn).mp h.2.1
  have e2 := (List.Nodup.getElem_inj_iff hd).mp h.2.2
  rw [← Nat.div_add_mod a dofs.length, ← Nat.div_add_mod b dofs.length, e1, e2]

/-- Entry `(i, j)` of every matrix grows by `dM` and component `i` of the load vector by `dv`. -/
def Grows [Zero K] [Add K] (S1 S S' : Storage K) (dM : Which → Nat → Nat → K) (dv : Nat → K) : Prop :=
  (∀ w i j x, Exists S1 w → 0 < i → i ≤ S1.nDofs + S1.nMpc → 0 < j → j ≤ S1.nDofs + S1.nMpc →
    Entry S w i j x → Entry S' w i j (x + dM w i j)) ∧
  (∀ i x, 0 < i → i ≤ S1.nDofs + S1.nMpc → Load S i x → Load S' i (x + dv i))

theorem contribs_session [AddCommMonoid K] {S0 S1 S : Storage K} {calls : List RegCall} {new : List (Mpc K)}
    {cs : List Key} {num' : Key → Nat} (h : Session S0 calls new cs S1 num' S) {l : List (Contrib K)}
    (hl : ∀ c ∈ l, Wanted S1 (regKeys calls) num' c) :
    ∃ S', Res.foldlM' Storage.contribute S l = .ok S' ∧ Session S0 calls new cs S1 num' S' ∧
      Grows S1 S S' (fun w i j => matSum w.idx i j l) (fun i => loadSum i l) := by
  obtain ⟨A, M, v, hp, hn, hd⟩ := session_during h
  obtain ⟨S', e1, e2, e3, e4⟩ := live_contribs l hd.live (by
    rw [hd.n, hd.frame.nMats]; exact fun c hc => wanted_fine hp hn (hl c hc))
  have hnn : S'.nDofs + S'.nMpc = S1.nDofs + S1.nMpc := by
    rw [← hd.n, e2.nDofs]; unfold Storage.nMpc; rw [e3]
  refine ⟨S', e1, ?_, ?_, ?_⟩
  · obtain ⟨S'', f1, f2⟩ := C14_writes_complete h (l.map Ev.contrib) (by
      intro e he
      obtain ⟨c, hc, rfl⟩ := List.mem_map.mp he
      exact hl c hc)
    have hfold : ∀ (l : List (Contrib K)) (S : Storage K),
        Res.foldlM' evStep S (l.map Ev.contrib) = Res.foldlM' Storage.contribute S l := by
      intro l
      induction l with
      | nil => intro S; rfl
      | cons c l ih =>
        intro S
        rw [List.map_cons, Res.foldlM'_cons, Res.foldlM'_cons]
        show (S.contribute c >>= _) = _
        cases S.contribute c with
        | ok S => exact ih S
        | fatal => rfl
        | assert => rfl
        | ub => rfl
    rw [hfold, e1, Res.ok.injEq] at f1
    subst f1
    exact f2
  · intro w i j x hw i1 i2 j1 j2 hx
    have hq := exists_idx hw
    rw [hd.live.entry_eq (by rw [hd.frame.nMats]; exact hq) hx]
    exact e4.entry (by rw [e2.nMats, hd.frame.nMats]; exact hq) ⟨i1, by omega⟩ ⟨j1, by omega⟩
  · intro i x i1 i2 hx
    rw [hd.live.load_eq ⟨i1, by rw [hd.n]; exact i2⟩ hx]
    exact e4.load i i1 (by omega)

/-- Equation of local DoF `a` of an element. -/
def eqOf (num : Key → Nat) (nodes : List Nat) (dofs : List DofType) (a : Nat) : Nat := num (localKey nodes dofs a)

theorem elem_wanted {S1 : Storage K} {regs : List Key} {num' : Key → Nat} {w : Which} (hw : Exists S1 w)
    {nodes : List Nat} {dofs : List DofType} (ho : OnElement S1 regs nodes dofs) (Ke : Nat → Nat → K) :
    ∀ c ∈ elemContribs w (eqOf num' nodes dofs) Ke (nodes.length * dofs.length), Wanted S1 regs num' c := by
  intro c hc
  unfold elemContribs at hc
  obtain ⟨⟨a, b⟩, hp, rfl⟩ := List.mem_map.mp hc
  obtain ⟨h1, h2⟩ := mem_packed.mp hp
  obtain ⟨en, hen⟩ := ho.elem
  obtain ⟨n, n1, t, t1, k1⟩ := localKey_mem (nodes := nodes) (dofs := dofs) (a := a) (by omega)
  obtain ⟨n', n2, t', t2, k2⟩ := localKey_mem (nodes := nodes) (dofs := dofs) (a := b) (by omega)
  refine ⟨hw, Or.inl ⟨en, localKey nodes dofs a, localKey nodes dofs b, ?_, ?_, ?_, ?_, rfl, rfl⟩⟩
  · rw [k1]; exact ho.dofsReg n n1 t t1
  · rw [k2]; exact ho.dofsReg n' n2 t' t2
  · rw [k1]; show n ∈ elNodes S1.elements en; rw [← hen]; exact n1
  · rw [k2]; show n' ∈ elNodes S1.elements en; rw [← hen]; exact n2

theorem local_numbers [AddCommMonoid K] {S0 S1 S : Storage K} {calls : List RegCall} {new : List (Mpc K)}
    {cs : List Key} {num' : Key → Nat} (h : Session S0 calls new cs S1 num' S) {nodes : List Nat} {dofs : List DofType}
    (ho : OnElement S1 (regKeys calls) nodes dofs) : ∀ a, a < nodes.length * dofs.length →
    S.eqNumber .node (localKey nodes dofs a).2.1 (localKey nodes dofs a).2.2 = .ok (num' (localKey nodes dofs a)) := by
  obtain ⟨A, M, v, hp, hn, hd⟩ := session_during h
  intro a ha
  obtain ⟨n, n1, t, t1, k1⟩ := localKey_mem ha
  rw [hd.frame.eqNumber, k1]
  exact h.numbers _ (ho.dofsReg n n1 t t1)

/-- Without the assumption that the nodes are distinct: each packed entry is added once. -/
theorem assemble_general [AddCommMonoid K] {S0 S1 S : Storage K} {calls : List RegCall} {new : List (Mpc K)}
    {cs : List Key} {num' : Key → Nat} (h : Session S0 calls new cs S1 num' S) {w : Which} (hw : Exists S1 w)
    {nodes : List Nat} {dofs : List DofType} (ho : OnElement S1 (regKeys calls) nodes dofs) {Ke : Nat → Nat → K}
    {ke : List K} (hke : Packs ke (nodes.length * dofs.length) Ke) :
    ∃ S', S.assembleWith w nodes dofs (nodes.length * dofs.length) ke = .ok S' ∧
      Session S0 calls new cs S1 num' S' ∧
      Grows S1 S S' (fun w' i j => matSum w'.idx i j
        (elemContribs w (eqOf num' nodes dofs) Ke (nodes.length * dofs.length))) (fun _ => 0) := by
  obtain ⟨S', e1, e2, e3, e4⟩ := contribs_session h (elem_wanted (num' := num') hw ho Ke)
  obtain ⟨rest, rfl⟩ := hke
  refine ⟨S', ?_, e2, e3, ?_⟩
  · rw [assembleWith_eq (num := num') (local_numbers h ho)]; exact e1
  · intro i x i1 i2 hx
    have := e4 i x i1 i2 hx
    simp only [loadSum_elem] at this
    exact this

theorem eqOf_inj [AddCommMonoid K] {S0 S1 S : Storage K} {calls : List RegCall} {new : List (Mpc K)}
    {cs : List Key} {num' : Key → Nat} (h : Session S0 calls new cs S1 num' S) {nodes : List Nat} {dofs : List DofType}
    (ho : OnElement S1 (regKeys calls) nodes dofs) (hnodes : nodes.Nodup) :
    ∀ a < nodes.length * dofs.length, ∀ b < nodes.length * dofs.length,
      eqOf num' nodes dofs a = eqOf num' nodes dofs b → a = b := by
  obtain ⟨A, M, v, hp, hn, hd⟩ := session_during h
  intro a ha b hb he
  obtain ⟨n, n1, t, t1, k1⟩ := localKey_mem ha
  obtain ⟨n', n2, t', t2, k2⟩ := localKey_mem hb
  have r1 : localKey nodes dofs a ∈ regKeys calls := by rw [k1]; exact ho.dofsReg n n1 t t1
  have r2 : localKey nodes dofs b ∈ regKeys calls := by rw [k2]; exact ho.dofsReg n' n2 t' t2
  unfold eqOf at he
  rw [hn _ r1, hn _ r2] at he
  exact localKey_inj hnodes ho.dofsNodup ha hb (hp.ready.num_inj r1 r2 he)

theorem which_idx {w w' : Which} : w.idx = w'.idx ↔ w = w' := by
  cases w <;> cases w' <;> simp [Which.idx]

/-- **C15, matrix.** In any session, assembling a packed symmetric matrix on an element with distinct nodes succeeds and
adds exactly the scattered element matrix to the matrix, nothing to the others, nothing to the load. `assembleK`,
`assembleC` are the cases `w = K`, `w = C`. -/
theorem C15_scatter_add [AddCommMonoid K] {S0 S1 S : Storage K} {calls : List RegCall} {new : List (Mpc K)}
    {cs : List Key} {num' : Key → Nat} (h : Session S0 calls new cs S1 num' S) {w : Which} (hw : Exists S1 w)
    {nodes : List Nat} {dofs : List DofType} (ho : OnElement S1 (regKeys calls) nodes dofs) (hnodes : nodes.Nodup)
    {Ke : Nat → Nat → K} (hsym : ∀ a b, Ke a b = Ke b a) {ke : List K}
    (hke : Packs ke (nodes.length * dofs.length) Ke) :
    ∃ S', S.assembleWith w nodes dofs (nodes.length * dofs.length) ke = .ok S' ∧
      Session S0 calls new cs S1 num' S' ∧
      Grows S1 S S' (fun w' i j => if w' = w then
        scatter (nodes.length * dofs.length) (eqOf num' nodes dofs) Ke i j else 0) (fun _ => 0) := by
  obtain ⟨S', e1, e2, e3, e4⟩ := assemble_general h hw ho hke
  refine ⟨S', e1, e2, ?_, e4⟩
  intro w' i j x hw' i1 i2 j1 j2 hx
  have := e3 w' i j x hw' i1 i2 j1 j2 hx
  simp only at this ⊢
  by_cases hww : w' = w
  · rw [if_pos hww]
    rw [matSum_scatter (eqOf_inj h ho hnodes) (fun a _ b _ => hsym a b) (which_idx.mpr hww.symm)] at this
    exact this
  · rw [if_neg hww]
    rw [matSum_other (fun hh => hww (which_idx.mp hh).symm)] at this
    exact this

/-- `assembleK` and `assembleC` are the loops for the stiffness and the damping matrix. -/
theorem C15_assembleK_C [Add K] (S : Storage K) (nodes : List Nat) (dofs : List DofType) (n : Nat) (ke : List K) :
    S.assembleK nodes dofs n ke = S.assembleWith .K nodes dofs n ke ∧
    S.assembleC nodes dofs n ke = S.assembleWith .C nodes dofs n ke := ⟨rfl, rfl⟩

/-- **C15, matrix and load vector** (`assembleK(Ke, Fe, dofs)`). -/
theorem C15_scatter_add_load [AddCommMonoid K] {S0 S1 S : Storage K} {calls : List RegCall} {new : List (Mpc K)}
    {cs : List Key} {num' : Key → Nat} (h : Session S0 calls new cs S1 num' S)
    {nodes : List Nat} {dofs : List DofType} (ho : OnElement S1 (regKeys calls) nodes dofs) (hnodes : nodes.Nodup)
    {Ke : Nat → Nat → K} (hsym : ∀ a b, Ke a b = Ke b a) {ke : List K}
    (hke : Packs ke (nodes.length * dofs.length) Ke) {fe : List K} {Fe : Nat → K}
    (hfe : ∃ rest, fe = (List.range (nodes.length * dofs.length)).map Fe ++ rest) :
    ∃ S', S.assembleKF nodes dofs (nodes.length * dofs.length) ke fe = .ok S' ∧
      Session S0 calls new cs S1 num' S' ∧
      Grows S1 S S' (fun w' i j => if w' = .K then
        scatter (nodes.length * dofs.length) (eqOf num' nodes dofs) Ke i j else 0)
        (fun i => scatterV (nodes.length * dofs.length) (eqOf num' nodes dofs) Fe i) := by
  obtain ⟨S2, e1, e2, e3, e4⟩ := C15_scatter_add h (Or.inl rfl) ho hnodes hsym hke
  obtain ⟨A, M, v, hp, hn, hd⟩ := session_during h
  have hwant : ∀ c ∈ loadContribs (eqOf num' nodes dofs) Fe (nodes.length * dofs.length),
      Wanted S1 (regKeys calls) num' c := by
    intro c hc
    unfold loadContribs at hc
    obtain ⟨a, ha, rfl⟩ := List.mem_map.mp hc
    rw [List.mem_range] at ha
    obtain ⟨n, n1, t, t1, k1⟩ := localKey_mem ha
    have r1 : localKey nodes dofs a ∈ regKeys calls := by rw [k1]; exact ho.dofsReg n n1 t t1
    show 0 < eqOf num' nodes dofs a ∧ eqOf num' nodes dofs a ≤ _
    unfold eqOf
    rw [hn _ r1]
    have := hp.ready.num_range r1
    omega
  obtain ⟨S', f1, f2, f3, f4⟩ := contribs_session e2 hwant
  obtain ⟨rest, rfl⟩ := hfe
  refine ⟨S', ?_, f2, ?_, ?_⟩
  · unfold Storage.assembleKF
    rw [e1]
    simp only [Res.ok_bind]
    rw [assembleF_eq (num := num') (local_numbers e2 ho)]
    exact f1
  · intro w i j x hw i1 i2 j1 j2 hx
    have := f3 w i j _ hw i1 i2 j1 j2 (e3 w i j x hw i1 i2 j1 j2 hx)
    simp only [matSum_load, add_zero] at this
    exact this
  · intro i x i1 i2 hx
    have := f4 i _ i1 i2 (e4 i x i1 i2 hx)
    simp only [add_zero] at this
    rw [loadSum_load] at this
    exact this

/-- The quadratic form of a scattered matrix. -/
theorem scatter_form {R : Type} [CommRing R] {n N : Nat} {eq : Nat → Nat} {Ke : Nat → Nat → R}
    (hr : ∀ a < n, 0 < eq a ∧ eq a ≤ N) (u : Nat → R) :
    ∑ i ∈ Finset.Icc 1 N, ∑ j ∈ Finset.Icc 1 N, u i * scatter n eq Ke i j * u j =
    ∑ a ∈ Finset.range n, ∑ b ∈ Finset.range n, u (eq a) * Ke a b * u (eq b) := by
  unfold scatter
  have h1 : ∀ i j : Nat, u i * (∑ a ∈ Finset.range n, ∑ b ∈ Finset.range n, if eq a = i ∧ eq b = j then Ke a b else 0) * u j =
      ∑ a ∈ Finset.range n, ∑ b ∈ Finset.range n, if eq a = i ∧ eq b = j then u i * Ke a b * u j else 0 := by
    intro i j
    rw [Finset.mul_sum, Finset.sum_mul]
    refine Finset.sum_congr rfl (fun a _ => ?_)
    rw [Finset.mul_sum, Finset.sum_mul]
    refine Finset.sum_congr rfl (fun b _ => ?_)
    split <;> simp
  simp only [h1]
  have h2 : ∀ i : Nat, ∑ j ∈ Finset.Icc 1 N, ∑ a ∈ Finset.range n, ∑ b ∈ Finset.range n,
      (if eq a = i ∧ eq b = j then u i * Ke a b * u j else 0) =
      ∑ a ∈ Finset.range n, ∑ b ∈ Finset.range n, if eq a = i then u i * Ke a b * u (eq b) else 0 := by
    intro i
    rw [Finset.sum_comm]
    refine Finset.sum_congr rfl (fun a _ => ?_)
    rw [Finset.sum_comm]
    refine Finset.sum_congr rfl (fun b hb => ?_)
    rw [Finset.sum_eq_single (eq b)]
    · simp
    · intro j _ hj
      rw [if_neg (fun hh => hj hh.2.symm)]
    · intro hh
      exact absurd (Finset.mem_Icc.mpr (hr b (Finset.mem_range.mp hb))) hh
  simp only [h2]
  rw [Finset.sum_comm]
  refine Finset.sum_congr rfl (fun a ha => ?_)
  rw [Finset.sum_comm]
  refine Finset.sum_congr rfl (fun b _ => ?_)
  rw [Finset.sum_eq_single (eq a)]
  · simp
  · intro j _ hj
    rw [if_neg (fun hh => hj hh.symm)]
  · intro hh
    exact absurd (Finset.mem_Icc.mpr (hr a (Finset.mem_range.mp ha))) hh

/-- **C15, quadratic form.** If `k i j` are the entries of the matrix before and `k' i j` after the assembly, then
`uᵀK'u = uᵀKu + uₑᵀKₑuₑ` for every vector `u`. -/
theorem C15_quadratic_form {R : Type} [CommRing R] {S0 S1 S S' : Storage R} {calls : List RegCall} {new : List (Mpc R)}
    {cs : List Key} {num' : Key → Nat} (h : Session S0 calls new cs S1 num' S) {w : Which} (hw : Exists S1 w)
    {nodes : List Nat} {dofs : List DofType} (ho : OnElement S1 (regKeys calls) nodes dofs) (hnodes : nodes.Nodup)
    {Ke : Nat → Nat → R} (hsym : ∀ a b, Ke a b = Ke b a) {ke : List R}
    (hke : Packs ke (nodes.length * dofs.length) Ke)
    (hS : S.assembleWith w nodes dofs (nodes.length * dofs.length) ke = .ok S') {k k' : Nat → Nat → R}
    (hk : ∀ i ∈ Finset.Icc 1 (S1.nDofs + S1.nMpc), ∀ j ∈ Finset.Icc 1 (S1.nDofs + S1.nMpc), Entry S w i j (k i j))
    (hk' : ∀ i ∈ Finset.Icc 1 (S1.nDofs + S1.nMpc), ∀ j ∈ Finset.Icc 1 (S1.nDofs + S1.nMpc), Entry S' w i j (k' i j))
    (u : Nat → R) :
    ∑ i ∈ Finset.Icc 1 (S1.nDofs + S1.nMpc), ∑ j ∈ Finset.Icc 1 (S1.nDofs + S1.nMpc), u i * k' i j * u j =
    ∑ i ∈ Finset.Icc 1 (S1.nDofs + S1.nMpc), ∑ j ∈ Finset.Icc 1 (S1.nDofs + S1.nMpc), u i * k i j * u j +
    ∑ a ∈ Finset.range (nodes.length * dofs.length), ∑ b ∈ Finset.range (nodes.length * dofs.length),
      u (eqOf num' nodes dofs a) * Ke a b * u (eqOf num' nodes dofs b) := by
  obtain ⟨S2, e1, e2, e3, e4⟩ := C15_scatter_add h hw ho hnodes hsym hke
  rw [hS, Res.ok.injEq] at e1
  subst e1
  obtain ⟨A, M, v, hp, hn, hd⟩ := session_during e2
  have hr : ∀ a < nodes.length * dofs.length, 0 < eqOf num' nodes dofs a ∧ eqOf num' nodes dofs a ≤ S1.nDofs + S1.nMpc := by
    intro a ha
    obtain ⟨n, n1, t, t1, k1⟩ := localKey_mem ha
    have r1 : localKey nodes dofs a ∈ regKeys calls := by rw [k1]; exact ho.dofsReg n n1 t t1
    unfold eqOf
    rw [hn _ r1]
    have := hp.ready.num_range r1
    omega
  rw [← scatter_form hr u, ← Finset.sum_add_distrib]
  refine Finset.sum_congr rfl (fun i hi => ?_)
  rw [← Finset.sum_add_distrib]
  refine Finset.sum_congr rfl (fun j hj => ?_)
  have x1 : Entry S w i j (k i j) := hk i hi j hj
  have x2 : Entry S' w i j (k' i j) := hk' i hi j hj
  have hi' := Finset.mem_Icc.mp hi
  have hj' := Finset.mem_Icc.mp hj
  have x3 := e3 w i j _ hw (by omega) hi'.2 (by omega) hj'.2 x1
  have hq : w.idx < S'.nMats := by rw [hd.frame.nMats]; exact exists_idx hw
  have := (hd.live.entry_eq hq x2).trans (hd.live.entry_eq hq x3).symm
  rw [this]
  simp only [if_true]
  ring

/-- **C15 is violated for degenerate cells.** On an element with both local nodes equal, one DoF per node and packed
matrix `[k0, k1, k2]`, the diagonal entry grows by `k0 + k1 + k2`; the scatter-add of the symmetric matrix is
`k0 + 2 k1 + k2`. -/
theorem C15_degenerate_violated {R : Type} [CommRing R] {S0 S1 S : Storage R} {calls : List RegCall}
    {new : List (Mpc R)} {cs : List Key} {num' : Key → Nat} (h : Session S0 calls new cs S1 num' S) {n : Nat}
    {t : DofType} (ho : OnElement S1 (regKeys calls) [n, n] [t]) (k0 k1 k2 : R) (h1 : k1 ≠ 0) :
    ∃ S', S.assembleK [n, n] [t] 2 [k0, k1, k2] = .ok S' ∧
      ∀ x, Entry S .K (num' (.node, n, t)) (num' (.node, n, t)) x →
        Entry S' .K (num' (.node, n, t)) (num' (.node, n, t)) (x + (k0 + k1 + k2)) ∧
        ¬ Entry S' .K (num' (.node, n, t)) (num' (.node, n, t)) (x + (k0 + 2 * k1 + k2)) := by
  let Ke : Nat → Nat → R := fun a b => if a + b = 0 then k0 else if a + b = 1 then k1 else k2
  have hke : Packs [k0, k1, k2] (([n, n] : List Nat).length * [t].length) Ke := ⟨[], by rfl⟩
  obtain ⟨S', e1, e2, e3, e4⟩ := assemble_general h (w := .K) (Or.inl rfl) ho hke
  refine ⟨S', e1, ?_⟩
  intro x hx
  obtain ⟨A, M, v, hp, hn, hd⟩ := session_during e2
  have hreg : (Side.node, n, t) ∈ regKeys calls := ho.dofsReg n (by simp) t (by simp)
  have hr := hp.ready.num_range hreg
  rw [← hn _ hreg] at hr
  have := e3 .K _ _ x (Or.inl rfl) hr.1 (by omega) hr.1 (by omega) hx
  simp only at this
  have hs : matSum Which.K.idx (num' (.node, n, t)) (num' (.node, n, t))
      (elemContribs .K (eqOf num' [n, n] [t]) Ke (([n, n] : List Nat).length * [t].length)) = k0 + k1 + k2 := by
    have hl : elemContribs .K (eqOf num' [n, n] [t]) Ke (([n, n] : List Nat).length * [t].length) =
        [.mat .K (num' (.node, n, t)) (num' (.node, n, t)) k0, .mat .K (num' (.node, n, t)) (num' (.node, n, t)) k1,
         .mat .K (num' (.node, n, t)) (num' (.node, n, t)) k2] := by
      have hpk : packed (([n, n] : List Nat).length * [t].length) = [(0, 0), (0, 1), (1, 1)] := by
        show packed 2 = _
        decide
      unfold elemContribs
      rw [hpk]
      simp [eqOf, localKey, Ke]
    rw [hl]
    have hsame : Same (num' (.node, n, t)) (num' (.node, n, t)) (num' (.node, n, t)) (num' (.node, n, t)) :=
      Or.inl ⟨rfl, rfl⟩
    simp only [matSum, hsame, and_self, if_true]
    ring
  rw [hs] at this
  refine ⟨this, ?_⟩
  intro hbad
  have hq : Which.K.idx < S'.nMats := by rw [hd.frame.nMats]; exact exists_idx (Or.inl rfl)
  have heq := (hd.live.entry_eq hq this).trans (hd.live.entry_eq hq hbad).symm
  apply h1
  have : k1 = (x + (k0 + 2 * k1 + k2)) - (x + (k0 + k1 + k2)) := by ring
  rw [this, ← heq, sub_self]

/-- A mesh with a degenerate cell: two-node element with both nodes equal. -/
def demoDeg : Storage ℚ := Storage.fresh 1 [[1, 1]] [] false

/-- Registrations of the degenerate example. -/
def demoDegCalls : List RegCall := [(.node, 1, [.UX])]

theorem demoDeg_session : ∃ S1 num, Session demoDeg demoDegCalls [] [] S1 num S1 ∧
    OnElement S1 (regKeys demoDegCalls) [1, 1] [.UX] := by
  have hl : LegalModel demoDeg demoDegCalls [] [] := by
    refine ⟨⟨?_, ?_, ?_, ?_, ?_, rfl⟩, ?_, ?_, ?_⟩
    · unfold LegalReg; decide
    · decide
    · decide
    · decide
    · intro m hm; simp [demoDeg, Storage.fresh] at hm
    · unfold MeshOk; decide
    · intro m hm; simp [demoDeg, Storage.fresh] at hm
    · decide
  obtain ⟨S1, num, h1, h2⟩ := prepare_small hl (by decide) (by decide)
  refine ⟨S1, num, ⟨hl, h1, h2, [], by simp, rfl⟩, ?_⟩
  obtain ⟨A, hp⟩ := prepared hl h1
  have hel : S1.elements = [[1, 1]] := hp.ready.mesh.elements
  exact ⟨⟨1, by rw [hel]; rfl⟩, by decide, by decide⟩

example : ∃ S1 num' S', Session demoDeg demoDegCalls [] [] S1 num' S1 ∧
    S1.assembleK [1, 1] [.UX] 2 [1, -1, 1] = .ok S' := by
  obtain ⟨S1, num', h, ho⟩ := demoDeg_session
  obtain ⟨S', h1, _⟩ := C15_degenerate_violated h ho 1 (-1) 1 (by norm_num)
  exact ⟨S1, num', S', h, h1⟩

theorem demo_element {S1 : Storage ℚ} {num' : Key → Nat} {S : Storage ℚ}
    (h : Session demo demoCalls [] demoFix S1 num' S) : OnElement S1 (regKeys demoCalls) [1, 2] [.UX, .UY] := by
  have hel : S1.elements = [[1, 2], [2, 3]] := by
    obtain ⟨A, hp⟩ := prepared h.legal h.prep
    exact hp.ready.mesh.elements
  exact ⟨⟨1, by rw [hel]; rfl⟩, by decide, by decide⟩

example : ∃ S1 num' S', Session demo demoCalls [] demoFix S1 num' S1 ∧
    S1.assembleK [1, 2] [.UX, .UY] 4 [0, 1, 2, 3, 2, 3, 4, 4, 5, 6] = .ok S' := by
  obtain ⟨S1, num', h⟩ := demo_session
  let Ke : Nat → Nat → ℚ := fun a b => ((a + b : Nat) : ℚ)
  have hpk : packed (([1, 2] : List Nat).length * [DofType.UX, DofType.UY].length) =
      [(0, 0), (0, 1), (0, 2), (0, 3), (1, 1), (1, 2), (1, 3), (2, 2), (2, 3), (3, 3)] := by
    show packed 4 = _
    decide
  obtain ⟨S', h1, _⟩ := C15_scatter_add h (w := .K) (Or.inl rfl) (demo_element h) (by decide) (Ke := Ke)
    (fun a b => by simp only [Ke]; rw [Nat.add_comm]) (ke := [0, 1, 2, 3, 2, 3, 4, 4, 5, 6])
    ⟨[], by rw [hpk]; norm_num [Ke]⟩
  exact ⟨S1, num', S', h, h1⟩

/-- **C16 is violated.** In every session of a transient analysis `assembleM` adds the element matrix to the damping
matrix and leaves the mass matrix as it was. -/
theorem C16_mass_goes_to_damping_violated [AddCommMonoid K] {S0 S1 S : Storage K} {calls : List RegCall}
    {new : List (Mpc K)} {cs : List Key} {num' : Key → Nat} (h : Session S0 calls new cs S1 num' S)
    (ht : S1.transient = true) {nodes : List Nat} {dofs : List DofType}
    (ho : OnElement S1 (regKeys calls) nodes dofs) (hnodes : nodes.Nodup) {Ke : Nat → Nat → K}
    (hsym : ∀ a b, Ke a b = Ke b a) {ke : List K} (hke : Packs ke (nodes.length * dofs.length) Ke) :
    ∃ S', S.assembleM nodes dofs (nodes.length * dofs.length) ke = .ok S' ∧
      Grows S1 S S' (fun w i j => if w = .C then
        scatter (nodes.length * dofs.length) (eqOf num' nodes dofs) Ke i j else 0) (fun _ => 0) := by
  obtain ⟨S', e1, _, e3⟩ := C15_scatter_add h (w := .C) (Or.inr ht) ho hnodes hsym hke
  exact ⟨S', e1, e3⟩

/-- What holds of C16: `assembleM` completes and changes neither the stiffness matrix nor the load vector. Missing: it
should change the mass matrix, not the damping matrix. -/
theorem C16_partial [AddCommMonoid K] {S0 S1 S : Storage K} {calls : List RegCall}
    {new : List (Mpc K)} {cs : List Key} {num' : Key → Nat} (h : Session S0 calls new cs S1 num' S)
    (ht : S1.transient = true) {nodes : List Nat} {dofs : List DofType}
    (ho : OnElement S1 (regKeys calls) nodes dofs) {Ke : Nat → Nat → K}
    {ke : List K} (hke : Packs ke (nodes.length * dofs.length) Ke) :
    ∃ S', S.assembleM nodes dofs (nodes.length * dofs.length) ke = .ok S' ∧
      (∀ i j x, 0 < i → i ≤ S1.nDofs + S1.nMpc → 0 < j → j ≤ S1.nDofs + S1.nMpc →
        Entry S .K i j x → Entry S' .K i j x) ∧
      (∀ i x, 0 < i → i ≤ S1.nDofs + S1.nMpc → Load S i x → Load S' i x) := by
  obtain ⟨S', e1, _, e3, e4⟩ := assemble_general h (w := .C) (Or.inr ht) ho hke
  refine ⟨S', e1, ?_, ?_⟩
  · intro i j x i1 i2 j1 j2 hx
    have := e3 .K i j x (Or.inl rfl) i1 i2 j1 j2 hx
    simp only at this
    rw [matSum_other (by decide), add_zero] at this
    exact this
  · intro i x i1 i2 hx
    have := e4 i x i1 i2 hx
    simp only [add_zero] at this
    exact this

/-- The damping matrix of the example changes where the mass matrix should: after `assembleM` with a nonzero entry, the
mass matrix still holds zero at the equation pair and the damping matrix the value. -/
theorem C16_witness : ∃ S1 num' S', Session demo demoCalls [] demoFix S1 num' S1 ∧
    S1.assembleM [1, 2] [.UX, .UY] 4 [7, 0, 0, 0, 0, 0, 0, 0, 0, 0] = .ok S' ∧
    Entry S' .M (num' (.node, 1, .UX)) (num' (.node, 1, .UX)) 0 ∧
    Entry S' .C (num' (.node, 1, .UX)) (num' (.node, 1, .UX)) 7 := by
  obtain ⟨S1, num', h⟩ := demo_session
  obtain ⟨A, hp⟩ := prepared h.legal h.prep
  have hn := num_agree hp h.numbers
  have ht : S1.transient = true := hp.ready.mesh.transient
  let Ke : Nat → Nat → ℚ := fun a b => if a + b = 0 then 7 else 0
  obtain ⟨S', h1, h2, h3⟩ := C16_mass_goes_to_damping_violated h ht (demo_element h) (by decide) (Ke := Ke)
    (fun a b => by simp only [Ke]; rw [Nat.add_comm]) (ke := [7, 0, 0, 0, 0, 0, 0, 0, 0, 0])
    ⟨[], by decide⟩
  have hreg : (Side.node, 1, DofType.UX) ∈ regKeys demoCalls := by decide
  have hr := hp.ready.num_range hreg
  rw [← hn _ hreg] at hr
  have hstart : ∀ w, Entry S1 w (num' (.node, 1, .UX)) (num' (.node, 1, .UX)) 0 := fun w =>
    hp.live.entry (exists_idx (Or.inr ht)) ⟨hr.1, by omega⟩ ⟨hr.1, by omega⟩
  refine ⟨S1, num', S', h, h1, ?_, ?_⟩
  · have := h2 .M _ _ 0 (Or.inr ht) hr.1 (by omega) hr.1 (by omega) (hstart .M)
    simpa using this
  · have := h2 .C _ _ 0 (Or.inr ht) hr.1 (by omega) hr.1 (by omega) (hstart .C)
    simp only [if_true, zero_add] at this
    have hinj := eqOf_inj h (demo_element h) (by decide)
    have hs : scatter 4 (eqOf num' [1, 2] [.UX, .UY]) Ke (num' (.node, 1, .UX)) (num' (.node, 1, .UX)) = 7 := by
      unfold scatter
      rw [Finset.sum_eq_single 0, Finset.sum_eq_single 0]
      · exact if_pos ⟨rfl, rfl⟩
      · intro b _ hb
        simp [Ke, hb]
      · simp
      · intro a _ ha
        apply Finset.sum_eq_zero
        intro b _
        simp [Ke, ha]
      · simp
    rw [← hs]
    exact this

/-! ## C17 -/

/-- **C17.** In any session - whatever was assembled or added before - `assembleGlobalEqMatrices` completes and leaves:
the stiffness matrix holding the sum of this call's element contributions and MPC coefficients; the load vector holding
the right-hand side of the MPC in each MPC row and the sum of this call's element loads in every other row; in a
transient analysis, damping and mass matrix holding the sums of this call's contributions. Nothing depends on the
previous contents. `build` are the calls made by `buildK`, `cm` those by `buildC` and `buildM` (to damping and mass
matrix), `ms` the MPCs after `update`. -/
theorem C17_reassembly [AddCommMonoid K] {S0 S1 S : Storage K} {calls : List RegCall}
    {new : List (Mpc K)} {cs : List Key} {num' : Key → Nat} (h : Session S0 calls new cs S1 num' S)
    {build cm : List (Contrib K)} {upd : List (Mpc K) → List (Mpc K)}
    (hb : ∀ c ∈ build, Wanted S1 (regKeys calls) num' c)
    (hc : ∀ c ∈ cm, Wanted S1 (regKeys calls) num' c ∧ (∃ w i j x, c = .mat w i j x ∧ w ≠ .K))
    (hu : ∀ ms, SameShape ms (upd ms)) :
    ∃ S', S.assemble build upd cm = .ok S' ∧ Session S0 calls new cs S1 num' S' ∧ S'.mpcs = upd S.mpcs ∧
      (∀ i j, 0 < i → i ≤ S1.nDofs + S1.nMpc → 0 < j → j ≤ S1.nDofs + S1.nMpc →
        Entry S' .K i j (matSum 0 i j build + matSum 0 i j ((upd S.mpcs).flatMap (mpcContribs num'))) ∧
        (S1.transient = true → Entry S' .C i j (matSum 1 i j cm) ∧ Entry S' .M i j (matSum 2 i j cm))) ∧
      (∀ m ∈ upd S.mpcs, Load S' m.eqNum m.b) ∧
      (∀ i, 0 < i → i ≤ S1.nDofs → Load S' i (loadSum i build)) := by
  obtain ⟨A, M, v, hp, hn, hd⟩ := session_during h
  obtain ⟨S', e1, e2, e3⟩ := assemble_during hp.pre hd (fun c hcc => wanted_fine hp hn (hb c hcc))
    (fun c hcc => wanted_fine hp hn (hc c hcc).1) hu
  have hses : Session S0 calls new cs S1 num' S' := by
    obtain ⟨S'', f1, f2⟩ := C14_writes_complete h [.assemble build upd cm] (by
      intro e he
      rw [List.mem_singleton] at he
      subst he
      exact ⟨hb, fun c hcc => (hc c hcc).1, hu⟩)
    rw [Res.foldlM'_cons, show evStep S (.assemble build upd cm) = .ok S' from e1, Res.ok_bind, Res.foldlM'_nil,
      Res.ok.injEq] at f1
    subst f1
    exact f2
  have hcm : ∀ i j, matSum 0 i j cm = 0 ∧ loadSum i cm = 0 := by
    intro i j
    have : ∀ l : List (Contrib K), (∀ c ∈ l, ∃ w i j x, c = .mat w i j x ∧ w ≠ .K) → matSum 0 i j l = 0 ∧ loadSum i l = 0 := by
      intro l
      induction l with
      | nil => intro _; exact ⟨rfl, rfl⟩
      | cons c l ih =>
        intro hl
        obtain ⟨w, a, b, x, rfl, hw⟩ := hl c (by simp)
        obtain ⟨i1, i2⟩ := ih (fun c' hc' => hl c' (by simp [hc']))
        simp only [matSum, loadSum]
        rw [i1, i2, if_neg (fun hh => hw (which_idx.mp (show w.idx = Which.K.idx from hh.1))), add_zero]
        exact ⟨rfl, rfl⟩
    exact this cm (fun c hcc => (hc c hcc).2)
  have hnn : S'.nDofs + S'.nMpc = S1.nDofs + S1.nMpc := e3.n
  have hsh : SameShape S1.mpcs (upd S.mpcs) := by rw [← e2]; exact e3.shape
  have hcontr : (upd S.mpcs).flatMap (mpcContribs num') = (upd S.mpcs).flatMap (mpcContribs (num A)) := by
    apply List.flatMap_congr
    intro m hm
    unfold mpcContribs
    apply List.map_congr_left
    intro t ht
    obtain ⟨m0, h1, _, h3⟩ := hsh.mem hm
    obtain ⟨t0, h4, h5, h6⟩ := h3 t ht
    have := (hp.ready.isSome _).mp ((hp.pre.terms m0 h1).2 t0 h4)
    rw [h5, h6] at this
    rw [hn _ this]
  have hnums : (upd S.mpcs).map Mpc.eqNum = S1.mpcs.map Mpc.eqNum := by
    have : ∀ l : List (Mpc K), l.map Mpc.eqNum = (l.map mpcShape).map Prod.fst := by
      intro l; rw [List.map_map]; rfl
    rw [this, this, hsh]
  have hrange : ∀ m ∈ upd S.mpcs, S1.nDofs < m.eqNum ∧ m.eqNum ≤ S1.nDofs + S1.nMpc := by
    intro m hm
    obtain ⟨m0, h1, h2, _⟩ := hsh.mem hm
    have := hp.pre.eqNum m0 h1
    omega
  refine ⟨S', e1, hses, e2, ?_, ?_, ?_⟩
  · intro i j i1 i2 j1 j2
    refine ⟨?_, ?_⟩
    · have := e3.live.entry (w := .K) (by rw [e3.frame.nMats]; exact exists_idx (Or.inl rfl)) ⟨i1, by omega⟩ ⟨j1, by omega⟩
      have hv : asmM S1.transient (num A) build (upd S.mpcs) cm Which.K.idx i j =
          matSum 0 i j build + matSum 0 i j ((upd S.mpcs).flatMap (mpcContribs num')) := by
        unfold asmM
        rw [hcontr]
        cases S1.transient with
        | false => simp only [Bool.false_eq_true, if_false]; rw [matSum_append]; rfl
        | true =>
          simp only [if_true]
          rw [if_pos (show Which.K.idx = 0 from rfl), matSum_append, matSum_append,
            show Which.K.idx = 0 from rfl, (hcm i j).1, add_zero]
      rw [hv] at this
      exact this
    · intro ht
      have hq : ∀ w : Which, w.idx < S'.nMats := fun w => by rw [e3.frame.nMats]; exact exists_idx (Or.inr ht)
      have c1 := e3.live.entry (hq .C) (i := i) (j := j) ⟨i1, by omega⟩ ⟨j1, by omega⟩
      have c2 := e3.live.entry (hq .M) (i := i) (j := j) ⟨i1, by omega⟩ ⟨j1, by omega⟩
      unfold asmM at c1 c2
      rw [ht] at c1 c2
      simp only [if_true] at c1 c2
      rw [if_neg (show ¬ Which.C.idx = 0 by decide)] at c1
      rw [if_neg (show ¬ Which.M.idx = 0 by decide)] at c2
      exact ⟨c1, c2⟩
  · intro m hm
    have hr := hrange m hm
    have := e3.live.load m.eqNum (by omega) (by omega)
    unfold Load
    rw [this]
    congr 1
    have hnd : ((upd S.mpcs).map Mpc.eqNum).Nodup := by
      rw [hnums, hp.ready.eqNums]; exact List.nodup_range'
    unfold asmV
    rw [mpcLoad_mem hnd m hm, (hcm m.eqNum 0).2, add_zero]
    split <;> rfl
  · intro i i1 i2
    have := e3.live.load i i1 (by omega)
    unfold Load
    rw [this]
    congr 1
    unfold asmV
    rw [mpcLoad_other (fun m hm hh => by have := hrange m hm; omega), (hcm i 0).2, add_zero]
    split <;> rfl

/-- **C17, twice in a row.** Repeating the call (with an `update` that gives the same MPCs again) reproduces every entry
and every load component. -/
theorem C17_twice [AddCommMonoid K] {S0 S1 S : Storage K} {calls : List RegCall}
    {new : List (Mpc K)} {cs : List Key} {num' : Key → Nat} (h : Session S0 calls new cs S1 num' S)
    {build cm : List (Contrib K)} {upd : List (Mpc K) → List (Mpc K)}
    (hb : ∀ c ∈ build, Wanted S1 (regKeys calls) num' c)
    (hc : ∀ c ∈ cm, Wanted S1 (regKeys calls) num' c ∧ (∃ w i j x, c = .mat w i j x ∧ w ≠ .K))
    (hu : ∀ ms, SameShape ms (upd ms)) (hidem : ∀ ms, upd (upd ms) = upd ms) :
    ∃ S' S'', S.assemble build upd cm = .ok S' ∧ S'.assemble build upd cm = .ok S'' ∧
      (∀ w i j, Exists S1 w → 0 < i → i ≤ S1.nDofs + S1.nMpc → 0 < j → j ≤ S1.nDofs + S1.nMpc →
        ∃ x, Entry S' w i j x ∧ Entry S'' w i j x) ∧
      (∀ i, 0 < i → i ≤ S1.nDofs + S1.nMpc → ∃ x, Load S' i x ∧ Load S'' i x) := by
  obtain ⟨S', a1, a2, a3, a4, a5, a6⟩ := C17_reassembly h hb hc hu
  obtain ⟨S'', b1, b2, b3, b4, b5, b6⟩ := C17_reassembly a2 hb hc hu
  rw [a3, hidem] at b4 b5
  refine ⟨S', S'', a1, b1, ?_, ?_⟩
  · intro w i j hw i1 i2 j1 j2
    obtain ⟨p1, p2⟩ := a4 i j i1 i2 j1 j2
    obtain ⟨q1, q2⟩ := b4 i j i1 i2 j1 j2
    cases w with
    | K => exact ⟨_, p1, q1⟩
    | C =>
      have ht : S1.transient = true := by rcases hw with hh | hh; · simp at hh
                                          · exact hh
      exact ⟨_, (p2 ht).1, (q2 ht).1⟩
    | M =>
      have ht : S1.transient = true := by rcases hw with hh | hh; · simp at hh
                                          · exact hh
      exact ⟨_, (p2 ht).2, (q2 ht).2⟩
  · intro i i1 i2
    by_cases hi : i ≤ S1.nDofs
    · exact ⟨_, a6 i i1 hi, b6 i i1 hi⟩
    · obtain ⟨A, M, v, hp, hn, hd⟩ := session_during a2
      have hmem : i ∈ S1.mpcs.map Mpc.eqNum := by
        rw [hp.ready.eqNums, List.mem_range'_1]
        have : S1.nMpc = S1.mpcs.length := rfl
        omega
      have hnums : (upd S.mpcs).map Mpc.eqNum = S1.mpcs.map Mpc.eqNum := by
        have hsh : SameShape S1.mpcs (upd S.mpcs) := by rw [← a3]; exact hd.shape
        have : ∀ l : List (Mpc K), l.map Mpc.eqNum = (l.map mpcShape).map Prod.fst := by
          intro l; rw [List.map_map]; rfl
        rw [this, this, hsh]
      rw [← hnums] at hmem
      obtain ⟨m, hm, rfl⟩ := List.mem_map.mp hmem
      exact ⟨_, a5 m hm, b5 m hm⟩

example : ∃ S1 num' S', Session demo demoCalls [] demoFix S1 num' S1 ∧
    S1.assemble [.mat .K (num' (.node, 1, .UX)) (num' (.node, 2, .UX)) 3, .load (num' (.node, 1, .UX)) 4] id
      [.mat .C (num' (.node, 2, .UX)) (num' (.node, 2, .UX)) 5] = .ok S' ∧
    Load S' (num' (.node, 1, .UX)) 4 := by
  obtain ⟨S1, num', h⟩ := demo_session
  obtain ⟨A, hp⟩ := prepared h.legal h.prep
  have hn := num_agree hp h.numbers
  have ht : S1.transient = true := hp.ready.mesh.transient
  have hel : S1.elements = [[1, 2], [2, 3]] := hp.ready.mesh.elements
  have r1 := hp.ready.num_range (show (Side.node, 1, DofType.UX) ∈ regKeys demoCalls by decide)
  rw [← hn _ (by decide)] at r1
  obtain ⟨S', h1, _, _, _, _, h2⟩ := C17_reassembly h
    (build := [.mat .K (num' (.node, 1, .UX)) (num' (.node, 2, .UX)) 3, .load (num' (.node, 1, .UX)) 4]) (upd := id)
    (cm := [.mat .C (num' (.node, 2, .UX)) (num' (.node, 2, .UX)) 5]) (by
      intro c hc
      simp only [List.mem_cons, List.not_mem_nil, or_false] at hc
      rcases hc with rfl | rfl
      · refine ⟨Or.inl rfl, Or.inl ⟨1, _, _, ?_, ?_, ?_, ?_, rfl, rfl⟩⟩
        · decide
        · decide
        · show 1 ∈ elNodes S1.elements 1; rw [hel]; decide
        · show 2 ∈ elNodes S1.elements 1; rw [hel]; decide
      · exact ⟨r1.1, by omega⟩) (by
      intro c hc
      rw [List.mem_singleton] at hc
      subst hc
      refine ⟨⟨Or.inr ht, Or.inl ⟨2, _, _, ?_, ?_, ?_, ?_, rfl, rfl⟩⟩, _, _, _, _, rfl, by decide⟩
      · decide
      · decide
      · show 2 ∈ elNodes S1.elements 2; rw [hel]; decide
      · show 2 ∈ elNodes S1.elements 2; rw [hel]; decide) (fun ms => rfl)
  refine ⟨S1, num', S', h, h1, ?_⟩
  have := h2 (num' (.node, 1, .UX)) r1.1 r1.2
  simpa [loadSum] using this

end Nla3d.Storage
