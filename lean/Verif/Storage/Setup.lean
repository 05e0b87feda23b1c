import Verif.Storage.Numbering

/-!
# `initDofs`, constraining and `assignEquationNumbers` together
-/

namespace Nla3d.Storage

open Nla3d.Dof Nla3d.Block

variable {K : Type}

/-- The preparation every solver runs: `initDofs`, `setConstrainedNodeDof` for each fix (FESolver.cpp:221-226),
`assignEquationNumbers`. -/
def Storage.setup (S : Storage K) (calls : List RegCall) (new : List (Mpc K)) (cs : List Key) : Res (Storage K) := do
  let S ← S.initDofs calls new
  let S ← Res.foldlM' (fun (S : Storage K) (k : Key) => S.setConstrained k.1 k.2.1 k.2.2) S cs
  S.assign

/-- What the caller must respect: entities exist, types are proper, something is registered, only registered DoFs are
constrained, MPCs are not empty, no DoF is constrained beforehand. -/
structure LegalSetup (S : Storage K) (calls : List RegCall) (new : List (Mpc K)) (cs : List Key) : Prop where
  reg : LegalReg S calls
  proper : ∀ c ∈ calls, DofType.UNDEFINED ∉ c.2.2
  some : regKeys calls ≠ []
  cons : ∀ k ∈ cs, k ∈ regKeys calls
  mpcs : ∀ m ∈ S.mpcs ++ new, m.eq ≠ []
  start : S.nConstr = 0

/-- Everything the setup establishes. `A` maps each DoF to its equation number and constraint flag. -/
structure Ready (S S' : Storage K) (calls : List RegCall) (new : List (Mpc K)) (cs : List Key) (A : Side → Spec) :
    Prop where
  sim : SimS S' A
  mesh : SameMesh S S'
  nDofs : S'.nDofs = (regKeys calls).toFinset.card
  nConstr : S'.nConstr = cs.toFinset.card
  nUnknown : S'.nConstr + S'.nUnknown = S'.nDofs
  map : ∀ k, (at' A k).map Prod.snd = if k ∈ regKeys calls then .some (decide (k ∈ cs)) else .none
  con : Set.BijOn (num A) {k | k ∈ cs} (Set.Ico 1 (1 + S'.nConstr))
  unk : Set.BijOn (num A) {k | k ∈ regKeys calls ∧ k ∉ cs} (Set.Ico (S'.nConstr + 1) (S'.nDofs + 1))
  eqNums : S'.mpcs.map Mpc.eqNum = List.range' (S'.nDofs + 1) S'.mpcs.length
  terms : S'.mpcs.map (fun m => (m.eq, m.b)) = (S.mpcs ++ new).map (fun m => (m.eq, m.b))

theorem card_split {keys cs : List Key} (h : ∀ k ∈ cs, k ∈ keys) {L : List Key} (hL : L.Nodup) (hin : ∀ k ∈ keys, k ∈ L)
    {A : Side → Spec} (hA : A = conMap keys cs) :
    (L.filter (flag A true)).length = cs.toFinset.card ∧
    (L.filter (flag A true)).length + (L.filter (flag A false)).length = keys.toFinset.card ∧
    (∀ k, k ∈ L.filter (flag A true) ↔ k ∈ cs) ∧ (∀ k, k ∈ L.filter (flag A false) ↔ k ∈ keys ∧ k ∉ cs) := by
  subst hA
  have hflag : ∀ b k, flag (conMap keys cs) b k = true ↔ k ∈ keys ∧ (decide (k ∈ cs) = b) := by
    intro b k
    unfold flag at' conMap
    by_cases hk : k ∈ keys
    · have : ((k.1, k.2.1, k.2.2) : Key) ∈ keys := hk
      simp [hk]
    · simp [hk]
  have m1 : ∀ k, k ∈ L.filter (flag (conMap keys cs) true) ↔ k ∈ cs := by
    intro k
    rw [List.mem_filter, hflag]
    constructor
    · rintro ⟨_, _, h3⟩; simpa using h3
    · intro hk; exact ⟨hin k (h k hk), h k hk, by simpa using hk⟩
  have m2 : ∀ k, k ∈ L.filter (flag (conMap keys cs) false) ↔ k ∈ keys ∧ k ∉ cs := by
    intro k
    rw [List.mem_filter, hflag]
    constructor
    · rintro ⟨_, h2, h3⟩; exact ⟨h2, by simpa using h3⟩
    · rintro ⟨h1, h2⟩; exact ⟨hin k h1, h1, by simpa using h2⟩
  have c1 : (L.filter (flag (conMap keys cs) true)).length = cs.toFinset.card := by
    rw [← List.toFinset_card_of_nodup (hL.filter _)]
    congr 1
    ext k
    rw [List.mem_toFinset, List.mem_toFinset, m1]
  refine ⟨c1, ?_, m1, m2⟩
  rw [c1, ← List.toFinset_card_of_nodup (hL.filter _)]
  have : (L.filter (flag (conMap keys cs) false)).toFinset = keys.toFinset \ cs.toFinset := by
    ext k
    rw [List.mem_toFinset, m2, Finset.mem_sdiff, List.mem_toFinset, List.mem_toFinset]
  rw [this, Finset.card_sdiff_of_subset]
  · have : cs.toFinset.card ≤ keys.toFinset.card := Finset.card_le_card (by
      intro k; rw [List.mem_toFinset, List.mem_toFinset]; exact h k)
    omega
  · intro k; rw [List.mem_toFinset, List.mem_toFinset]; exact h k

theorem setup_cases {S : Storage K} {calls : List RegCall} {new : List (Mpc K)} {cs : List Key}
    (h : LegalSetup S calls new cs) :
    (cs.toFinset.card < (regKeys calls).toFinset.card ∧ ∃ S' A, S.setup calls new cs = .ok S' ∧
      Ready S S' calls new cs A) ∨
    (cs.toFinset.card = (regKeys calls).toFinset.card ∧ S.setup calls new cs = .fatal) := by
  obtain ⟨S1, e1, e2, e3, e4, e5, e6⟩ := initDofs_ok S (new := new) h.reg h.proper h.some (fun m hm => h.mpcs m (by simp [hm]))
  have hcm : regMap (regKeys calls) = conMap (regKeys calls) [] := by
    funext s n t; simp [regMap, conMap]
  rw [hcm] at e2
  obtain ⟨S2, f1, f2, f3, f4, f5, f6⟩ := constrain_run (base := 0) cs S1 [] e2 (by rw [e5, h.start]; rfl) h.cons
  rw [List.nil_append] at f2 f5
  rw [Nat.zero_add] at f5
  have hle : cs.toFinset.card ≤ (regKeys calls).toFinset.card := Finset.card_le_card (by
    intro k; rw [List.mem_toFinset, List.mem_toFinset]; exact h.cons k)
  have hsub : subU32 S2.nDofs S2.nConstr = (regKeys calls).toFinset.card - cs.toFinset.card := by
    unfold subU32
    rw [if_pos (by rw [f5, f6, e6]; exact hle), f5, f6, e6]
  have hsetup : S.setup calls new cs = S2.assign := by
    unfold Storage.setup
    rw [e1, Res.ok_bind, f1, Res.ok_bind]
  rw [hsetup]
  by_cases heq : cs.toFinset.card = (regKeys calls).toFinset.card
  · right
    refine ⟨heq, ?_⟩
    unfold Storage.assign
    simp only
    rw [if_pos (by rw [hsub]; omega)]
  · left
    have hlt : cs.toFinset.card < (regKeys calls).toFinset.card := by omega
    refine ⟨hlt, ?_⟩
    let S3 : Storage K := { S2 with nUnknown := subU32 S2.nDofs S2.nConstr }
    have g0 : SimS S3 (conMap (regKeys calls) cs) := f2.congr rfl rfl rfl rfl
    have hmesh : SameMesh S S2 := e3.trans f3
    obtain ⟨S4, A, g1, g2, g3, g4, g5, g6, g7, g8, g9, g10, g11⟩ := number_run (allKeys S3.nElements S3.nNodes) S3 _ 1
      (S3.nConstr + 1) g0 (allKeys_nodup _ _) (by
        intro k hk
        rw [mem_allKeys] at hk
        exact ⟨hk.1, hk.2.1⟩)
    have hin : ∀ k ∈ regKeys calls, k ∈ allKeys S3.nElements S3.nNodes := by
      rintro ⟨s, n, t⟩ hk
      rw [mem_allKeys]
      obtain ⟨ts, h1, h2⟩ := mem_regKeys.mp hk
      have := h.reg _ h1
      refine ⟨this.1, ?_, ?_⟩
      · have hs := hmesh.size s
        have : S3.size s = S2.size s := by cases s <;> rfl
        rw [this, hs]
        exact (h.reg _ h1).2
      · rintro rfl
        exact h.proper _ h1 h2
    obtain ⟨c1, c2, c3, c4⟩ := card_split h.cons (allKeys_nodup S3.nElements S3.nNodes) hin rfl
    rw [c1] at g1 g10
    have c2' : ((allKeys S3.nElements S3.nNodes).filter (flag (conMap (regKeys calls) cs) false)).length =
        (regKeys calls).toFinset.card - cs.toFinset.card := by omega
    rw [c2'] at g1 g11
    have hnc : S3.nConstr = cs.toFinset.card := f5
    rw [hnc] at g1 g11
    obtain ⟨ms, n1, n2, n3⟩ := numberMpcs_ok S4.mpcs (cs.toFinset.card + 1 + ((regKeys calls).toFinset.card - cs.toFinset.card)) (by
      intro m hm
      rw [g4] at hm
      have : m ∈ S2.mpcs := hm
      rw [f4, e4] at this
      exact h.mpcs m this)
    have hlen : ms.length = S4.mpcs.length := by
      have := congrArg List.length n3
      simpa using this
    have hnd : S2.nDofs = (regKeys calls).toFinset.card := by rw [f6, e6]
    refine ⟨{ S4 with mpcs := ms }, A, ?_, ?_⟩
    · unfold Storage.assign
      simp only
      rw [if_neg (by rw [hsub]; omega)]
      have : Res.foldlM' numberOne (S3, 1, S2.nConstr + 1) (allKeys S2.nElements S2.nNodes) =
          .ok (S4, 1 + cs.toFinset.card, cs.toFinset.card + 1 + ((regKeys calls).toFinset.card - cs.toFinset.card)) := by
        rw [show S2.nConstr = cs.toFinset.card from f5]; exact g1
      unfold allKeys at this
      rw [Res.foldlM'_append] at this
      obtain ⟨st, s1, s2⟩ := Res.bind_eq_ok.mp this
      rw [show ({ S2 with nUnknown := subU32 S2.nDofs S2.nConstr } : Storage K).nElements = S2.nElements from rfl, s1]
      simp only [Res.ok_bind]
      rw [s2]
      simp only [Res.ok_bind]
      rw [if_neg (by rw [f5]; omega), if_neg (by rw [hnd]; omega), n1]
      simp only [Res.ok_bind]
      rw [if_neg (by rw [hnd]; omega)]
    · have k1 : S4.nDofs = (regKeys calls).toFinset.card := by rw [g6]; exact hnd
      have k2 : S4.nConstr = cs.toFinset.card := by rw [g5]; exact hnc
      refine ⟨g2.congr rfl rfl rfl rfl, ⟨?_, ?_, ?_⟩, k1, k2, ?_, ?_, ?_, ?_, ?_, ?_⟩
      · exact g3.nNodes.trans hmesh.nNodes
      · exact g3.elements.trans hmesh.elements
      · exact g3.transient.trans hmesh.transient
      · simp only
        rw [k1, k2, g7]
        have : S3.nUnknown = subU32 S2.nDofs S2.nConstr := rfl
        rw [this, hsub]
        omega
      · intro k
        rw [g8]
        unfold at' conMap
        by_cases hk : k ∈ regKeys calls
        · simp [hk]
        · simp [hk]
      · simp only
        rw [k2]
        exact bijOn_of_range g10 (fun k => (c3 k).symm)
      · simp only
        rw [k1, k2, show (regKeys calls).toFinset.card + 1 =
          cs.toFinset.card + 1 + ((regKeys calls).toFinset.card - cs.toFinset.card) by omega]
        exact bijOn_of_range g11 (fun k => (c4 k).symm)
      · simp only
        rw [n2, k1, hlen]
        congr 1
        omega
      · simp only
        rw [n3, g4]
        have : S3.mpcs = S.mpcs ++ new := by
          have : S3.mpcs = S2.mpcs := rfl
          rw [this, f4, e4]
        rw [this]

/-- `initDofs` does not reset the number of constrained DoFs: setting up a storage that still counts constrained DoFs
and constraining at least one DoF again never completes. -/
theorem setup_again {S : Storage K} {calls : List RegCall} {new : List (Mpc K)} {cs : List Key}
    (hreg : LegalReg S calls) (hproper : ∀ c ∈ calls, DofType.UNDEFINED ∉ c.2.2) (hsome : regKeys calls ≠ [])
    (hcons : ∀ k ∈ cs, k ∈ regKeys calls) (hmpcs : ∀ m ∈ S.mpcs ++ new, m.eq ≠ []) (hstart : 0 < S.nConstr) :
    S.setup calls new cs = .fatal ∨ S.setup calls new cs = .assert := by
  obtain ⟨S1, e1, e2, e3, e4, e5, e6⟩ := initDofs_ok S (new := new) hreg hproper hsome (fun m hm => hmpcs m (by simp [hm]))
  have hcm : regMap (regKeys calls) = conMap (regKeys calls) [] := by
    funext s n t; simp [regMap, conMap]
  rw [hcm] at e2
  obtain ⟨S2, f1, f2, f3, f4, f5, f6⟩ := constrain_run (base := S.nConstr) cs S1 [] e2 (by rw [e5]; rfl) hcons
  rw [List.nil_append] at f2 f5
  have hsetup : S.setup calls new cs = S2.assign := by
    unfold Storage.setup
    rw [e1, Res.ok_bind, f1, Res.ok_bind]
  rw [hsetup]
  unfold Storage.assign
  simp only
  by_cases h0 : subU32 S2.nDofs S2.nConstr = 0
  · left; rw [if_pos h0]
  · right
    rw [if_neg h0]
    let S3 : Storage K := { S2 with nUnknown := subU32 S2.nDofs S2.nConstr }
    have g0 : SimS S3 (conMap (regKeys calls) cs) := f2.congr rfl rfl rfl rfl
    have hmesh : SameMesh S S2 := e3.trans f3
    obtain ⟨S4, A, g1, _⟩ := number_run (allKeys S3.nElements S3.nNodes) S3 _ 1
      (S3.nConstr + 1) g0 (allKeys_nodup _ _) (by
        intro k hk
        rw [mem_allKeys] at hk
        exact ⟨hk.1, hk.2.1⟩)
    have hin : ∀ k ∈ regKeys calls, k ∈ allKeys S3.nElements S3.nNodes := by
      rintro ⟨s, n, t⟩ hk
      rw [mem_allKeys]
      obtain ⟨ts, h1, h2⟩ := mem_regKeys.mp hk
      refine ⟨(hreg _ h1).1, ?_, ?_⟩
      · have hs := hmesh.size s
        have : S3.size s = S2.size s := by cases s <;> rfl
        rw [this, hs]
        exact (hreg _ h1).2
      · rintro rfl
        exact hproper _ h1 h2
    obtain ⟨c1, c2, c3, c4⟩ := card_split hcons (allKeys_nodup S3.nElements S3.nNodes) hin rfl
    rw [c1] at g1
    have : Res.foldlM' numberOne (S3, 1, S2.nConstr + 1) (allKeys S2.nElements S2.nNodes) = _ := g1
    unfold allKeys at this
    rw [Res.foldlM'_append] at this
    obtain ⟨st, s1, s2⟩ := Res.bind_eq_ok.mp this
    rw [show ({ S2 with nUnknown := subU32 S2.nDofs S2.nConstr } : Storage K).nElements = S2.nElements from rfl, s1]
    simp only [Res.ok_bind]
    rw [s2]
    simp only [Res.ok_bind]
    rw [if_pos (by omega)]

end Nla3d.Storage
