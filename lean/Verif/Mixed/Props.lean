import Verif.Mixed.Fold
import Verif.Storage.Props

/-!
# Properties of the assembly of the hyperelastic elements: C80
-/

namespace Nla3d.Mixed

open Storage Dof

variable {K : Type}

/-! ## Specification -/

/-- The matrix `[A b; bᵀ c]`. -/
def bordered (n : Nat) (A : Nat → Nat → K) (b : Nat → K) (c : K) (i j : Nat) : K :=
  if i < n then (if j < n then A i j else b i) else (if j < n then b j else c)

/-- The vector `[f; g]`. -/
def extended (n : Nat) (f : Nat → K) (g : K) (i : Nat) : K := if i < n then f i else g

/-- Element `en` has the nodes `nodes`, which are distinct, the displacements `dofs` at each of them and a pressure. -/
structure OnMixed (S : Storage K) (regs : List Key) (en : Nat) (nodes : List Nat) (dofs : List DofType) : Prop where
  elem : nodes = elNodes S.elements en
  distinct : nodes.Nodup
  dofsNodup : dofs.Nodup
  dofsReg : ∀ n ∈ nodes, ∀ t ∈ dofs, (Side.node, n, t) ∈ regs
  pressure : (Side.elem, en, DofType.HYDRO_PRESSURE) ∈ regs

/-- Equation of local DoF `a`. -/
def mixedEq (num : Key → Nat) (nodes : List Nat) (dofs : List DofType) (en a : Nat) : Nat := num (mixedKey nodes dofs en a)

/-! ## Sums -/

theorem matSum_adds [AddCommMonoid K] (q i j : Nat) (eq : Nat → Nat) (Ke : Nat → Nat → K) (L : List (Nat × Nat)) :
    matSum q i j (adds eq Ke L) =
    (L.map (fun p => if Which.K.idx = q ∧ Same i j (eq p.1) (eq p.2) then Ke p.1 p.2 else 0)).sum := by
  unfold adds
  induction L with
  | nil => rfl
  | cons p l ih => rw [List.map_cons, List.map_cons, List.sum_cons, ← ih]; rfl

theorem loadSum_adds [AddMonoid K] (i : Nat) (eq : Nat → Nat) (Ke : Nat → Nat → K) (L : List (Nat × Nat)) :
    loadSum i (adds eq Ke L) = 0 := by
  unfold adds
  induction L with
  | nil => rfl
  | cons p l ih => rw [List.map_cons]; exact ih

/-- The pair with the smaller number first. -/
def norm (p : Nat × Nat) : Nat × Nat := if p.1 ≤ p.2 then p else (p.2, p.1)

theorem matSum_norm [AddCommMonoid K] (q i j : Nat) (eq : Nat → Nat) {Ke : Nat → Nat → K} (L : List (Nat × Nat))
    (hsym : ∀ p ∈ L, Ke p.1 p.2 = Ke p.2 p.1) : matSum q i j (adds eq Ke L) = matSum q i j (adds eq Ke (L.map norm)) := by
  rw [matSum_adds, matSum_adds, List.map_map]
  congr 1
  apply List.map_congr_left
  intro p hp
  have hS : ∀ a b, Same i j a b ↔ Same i j b a := by
    intro a b
    unfold Same
    constructor
    · rintro (⟨h1, h2⟩ | ⟨h1, h2⟩)
      · exact Or.inr ⟨h2, h1⟩
      · exact Or.inl ⟨h2, h1⟩
    · rintro (⟨h1, h2⟩ | ⟨h1, h2⟩)
      · exact Or.inr ⟨h2, h1⟩
      · exact Or.inl ⟨h2, h1⟩
  simp only [Function.comp_apply]
  by_cases hle : p.1 ≤ p.2
  · rw [show norm p = p from if_pos hle]
  · rw [show norm p = (p.2, p.1) from if_neg hle]
    simp only
    by_cases hs : Which.K.idx = q ∧ Same i j (eq p.1) (eq p.2)
    · rw [if_pos hs, if_pos ⟨hs.1, (hS _ _).mp hs.2⟩, hsym p hp]
    · rw [if_neg hs, if_neg (fun hh => hs ⟨hh.1, (hS _ _).mp hh.2⟩)]

theorem matSum_perm [AddCommMonoid K] (q i j : Nat) (eq : Nat → Nat) (Ke : Nat → Nat → K) {L L' : List (Nat × Nat)}
    (h : L.Perm L') : matSum q i j (adds eq Ke L) = matSum q i j (adds eq Ke L') := by
  rw [matSum_adds, matSum_adds]
  exact (h.map _).sum_eq

theorem packed_nodup (n : Nat) : (packed n).Nodup := by
  unfold packed
  rw [List.nodup_flatMap]
  refine ⟨fun a _ => List.Nodup.map (fun x y h => (Prod.mk.injEq _ _ _ _ ▸ h).2) List.nodup_range', ?_⟩
  refine List.Pairwise.imp ?_ (List.nodup_range (n := n))
  intro a b hab
  rw [Function.onFun, List.disjoint_left]
  intro p h1 h2
  obtain ⟨x, _, rfl⟩ := List.mem_map.mp h1
  obtain ⟨y, _, h3⟩ := List.mem_map.mp h2
  rw [Prod.mk.injEq] at h3
  exact hab h3.1.symm

theorem solid_perm (n : Nat) : (packed n ++ border n ++ [(n, n)]).Perm (packed (n + 1)) := by
  rw [List.perm_ext_iff_of_nodup ?_ (packed_nodup _)]
  · rintro ⟨a, b⟩
    unfold border
    simp only [List.mem_append, mem_packed, List.mem_map, List.mem_range, List.mem_singleton, Prod.mk.injEq]
    constructor
    · rintro ((⟨h1, h2⟩ | ⟨x, h1, rfl, rfl⟩) | ⟨rfl, rfl⟩) <;> omega
    · rintro ⟨h1, h2⟩
      by_cases hb : b < n
      · exact Or.inl (Or.inl ⟨h1, hb⟩)
      · by_cases ha : a < n
        · exact Or.inl (Or.inr ⟨a, ha, rfl, by omega⟩)
        · exact Or.inr ⟨by omega, by omega⟩
  · unfold border
    rw [List.nodup_append, List.nodup_append]
    refine ⟨⟨packed_nodup n, List.Nodup.map (fun x y h => (Prod.mk.injEq _ _ _ _ ▸ h).1) List.nodup_range, ?_⟩,
      List.nodup_singleton _, ?_⟩
    · rintro ⟨a, b⟩ h1 p h2 rfl
      obtain ⟨x, hx, h3⟩ := List.mem_map.mp h2
      rw [Prod.mk.injEq] at h3
      have := mem_packed.mp h1
      omega
    · rintro ⟨a, b⟩ h1 p h2 rfl
      rw [List.mem_singleton, Prod.mk.injEq] at h2
      rcases List.mem_append.mp h1 with h1 | h1
      · have := mem_packed.mp h1
        omega
      · obtain ⟨x, hx, h3⟩ := List.mem_map.mp h1
        rw [List.mem_range] at hx
        rw [Prod.mk.injEq] at h3
        omega

theorem plane_perm : ((planePairs ++ border 8 ++ [(8, 8)]).map norm).Perm (packed 9) := by decide

/-! ## Sessions -/

theorem mixedKey_mem {S : Storage K} {regs : List Key} {en : Nat} {nodes : List Nat} {dofs : List DofType}
    (h : OnMixed S regs en nodes dofs) (a : Nat) : mixedKey nodes dofs en a ∈ regs ∧
    Attached S.elements en (mixedKey nodes dofs en a) := by
  unfold mixedKey
  split
  · next ha =>
    obtain ⟨n, n1, t, t1, k1⟩ := localKey_mem ha
    rw [k1]
    refine ⟨h.dofsReg n n1 t t1, ?_⟩
    show n ∈ elNodes S.elements en
    rw [← h.elem]; exact n1
  · exact ⟨h.pressure, rfl⟩

theorem mixedKey_inj {S : Storage K} {regs : List Key} {en : Nat} {nodes : List Nat} {dofs : List DofType}
    (h : OnMixed S regs en nodes dofs) : ∀ a < nodes.length * dofs.length + 1, ∀ b < nodes.length * dofs.length + 1,
    mixedKey nodes dofs en a = mixedKey nodes dofs en b → a = b := by
  intro a ha b hb he
  unfold mixedKey at he
  by_cases h1 : a < nodes.length * dofs.length
  · by_cases h2 : b < nodes.length * dofs.length
    · rw [if_pos h1, if_pos h2] at he
      exact localKey_inj h.distinct h.dofsNodup h1 h2 he
    · rw [if_pos h1, if_neg h2] at he
      simp [localKey] at he
  · by_cases h2 : b < nodes.length * dofs.length
    · rw [if_neg h1, if_pos h2] at he
      simp [localKey] at he
    · omega

theorem numbered [AddCommMonoid K] {S0 S1 S : Storage K} {calls : List RegCall} {new : List (Mpc K)}
    {cs : List Key} {num' : Key → Nat} (h : Session S0 calls new cs S1 num' S) {en : Nat} {nodes : List Nat}
    {dofs : List DofType} (ho : OnMixed S1 (regKeys calls) en nodes dofs) : Numbered S num' nodes dofs en := by
  obtain ⟨A, M, v, hp, hn, hd⟩ := session_during h
  refine ⟨local_numbers h ⟨⟨en, ho.elem⟩, ho.dofsReg, ho.dofsNodup⟩, ?_⟩
  rw [hd.frame.eqNumber]
  exact h.numbers _ ho.pressure

/-- Adding each unordered pair of local DoFs once and each load component once is the scatter-add. -/
theorem mixed_session [AddCommMonoid K] {S0 S1 S : Storage K} {calls : List RegCall} {new : List (Mpc K)}
    {cs : List Key} {num' : Key → Nat} (h : Session S0 calls new cs S1 num' S) {en : Nat} {nodes : List Nat}
    {dofs : List DofType} (ho : OnMixed S1 (regKeys calls) en nodes dofs) {Ke : Nat → Nat → K} (Fe : Nat → K) {m : Nat}
    (hm : m = nodes.length * dofs.length + 1) (hsym : ∀ a < m, ∀ b < m, Ke a b = Ke b a) {L : List (Nat × Nat)}
    (hL : (L.map norm).Perm (packed m)) :
    ∃ S', Res.foldlM' Storage.contribute S (adds (mixedEq num' nodes dofs en) Ke L ++
        (List.range m).map (fun a => .load (mixedEq num' nodes dofs en a) (Fe a))) = .ok S' ∧
      Session S0 calls new cs S1 num' S' ∧
      Grows S1 S S' (fun w i j => if w = .K then scatter m (mixedEq num' nodes dofs en) Ke i j else 0)
        (fun i => scatterV m (mixedEq num' nodes dofs en) Fe i) := by
  obtain ⟨A, M, v, hp, hn, hd⟩ := session_during h
  have hLm : ∀ p ∈ L, p.1 < m ∧ p.2 < m := by
    intro p hpL
    have : norm p ∈ packed m := hL.subset (List.mem_map.mpr ⟨p, hpL, rfl⟩)
    unfold norm at this
    split at this
    · have := mem_packed.mp this; omega
    · have := mem_packed.mp this; omega
  have hwant : ∀ c ∈ adds (mixedEq num' nodes dofs en) Ke L ++
      (List.range m).map (fun a => .load (mixedEq num' nodes dofs en a) (Fe a)), Wanted S1 (regKeys calls) num' c := by
    intro c hc
    rcases List.mem_append.mp hc with hc | hc
    · obtain ⟨p, hpL, rfl⟩ := List.mem_map.mp hc
      exact ⟨Or.inl rfl, Or.inl ⟨en, _, _, (mixedKey_mem ho p.1).1, (mixedKey_mem ho p.2).1, (mixedKey_mem ho p.1).2,
        (mixedKey_mem ho p.2).2, rfl, rfl⟩⟩
    · obtain ⟨a, _, rfl⟩ := List.mem_map.mp hc
      show 0 < mixedEq num' nodes dofs en a ∧ mixedEq num' nodes dofs en a ≤ _
      unfold mixedEq
      rw [hn _ (mixedKey_mem ho a).1]
      have := hp.ready.num_range (mixedKey_mem ho a).1
      omega
  have hinj : ∀ a < m, ∀ b < m, mixedEq num' nodes dofs en a = mixedEq num' nodes dofs en b → a = b := by
    intro a ha b hb he
    unfold mixedEq at he
    rw [hn _ (mixedKey_mem ho a).1, hn _ (mixedKey_mem ho b).1] at he
    exact mixedKey_inj ho a (by omega) b (by omega) (hp.ready.num_inj (mixedKey_mem ho a).1 (mixedKey_mem ho b).1 he)
  obtain ⟨S', f1, f2, f3, f4⟩ := contribs_session h hwant
  refine ⟨S', f1, f2, ?_, ?_⟩
  · intro w i j x hw i1 i2 j1 j2 hx
    have := f3 w i j x hw i1 i2 j1 j2 hx
    simp only at this ⊢
    rw [matSum_append, matSum_norm _ _ _ _ L (fun p hpL => hsym _ (hLm p hpL).1 _ (hLm p hpL).2),
      matSum_perm _ _ _ _ _ hL] at this
    have e0 : matSum w.idx i j ((List.range m).map (fun a => Contrib.load (mixedEq num' nodes dofs en a) (Fe a))) = 0 :=
      matSum_load w.idx i j (mixedEq num' nodes dofs en) Fe m
    rw [e0, add_zero] at this
    by_cases hw' : w = .K
    · rw [if_pos hw']
      have e1 := matSum_scatter (q := w.idx) (i := i) (j := j) (w := .K) hinj hsym (by rw [hw'])
      have e2 : adds (mixedEq num' nodes dofs en) Ke (packed m) = elemContribs .K (mixedEq num' nodes dofs en) Ke m := rfl
      rw [e2, e1] at this
      exact this
    · rw [if_neg hw']
      have e2 : adds (mixedEq num' nodes dofs en) Ke (packed m) = elemContribs .K (mixedEq num' nodes dofs en) Ke m := rfl
      rw [e2, matSum_other (fun hh => hw' (which_idx.mp hh).symm)] at this
      exact this
  · intro i x i1 i2 hx
    have := f4 i x i1 i2 hx
    simp only at this ⊢
    rw [loadSum_append, loadSum_adds, zero_add] at this
    have e0 : loadSum i ((List.range m).map (fun a => Contrib.load (mixedEq num' nodes dofs en a) (Fe a))) = _ :=
      loadSum_load i (mixedEq num' nodes dofs en) Fe m
    rw [e0] at this
    exact this

/-! ## C80 -/

/-- **C80, SOLID81.** In any session, `assemble3` on an element with distinct nodes succeeds and adds exactly the scattered matrix
`[Kuu Kup; Kupᵀ Kpp]` to the stiffness matrix and the scattered vector `[Fu; Fp]` to the load vector; the last local DoF is the
pressure of the element. Other matrices are not changed. -/
theorem C80_solid [AddCommMonoid K] {S0 S1 S : Storage K} {calls : List RegCall} {new : List (Mpc K)}
    {cs : List Key} {num' : Key → Nat} (h : Session S0 calls new cs S1 num' S) {en : Nat} {nodes : List Nat}
    (ho : OnMixed S1 (regKeys calls) en nodes solidDofs) {Kuu : Nat → Nat → K} (hsym : ∀ a b, Kuu a b = Kuu b a)
    (Kup : Nat → K) (Kpp : K) (Fu : Nat → K) (Fp : K) {n : Nat} (hn : n = nodes.length * 3) :
    ∃ S', assemble3 S en nodes n ((packed n).map (fun p => Kuu p.1 p.2)) ((List.range n).map Kup) Kpp
        ((List.range n).map Fu) Fp = .ok S' ∧
      Session S0 calls new cs S1 num' S' ∧
      Grows S1 S S'
        (fun w i j => if w = .K then
          scatter (n + 1) (mixedEq num' nodes solidDofs en) (bordered n Kuu Kup Kpp) i j else 0)
        (fun i => scatterV (n + 1) (mixedEq num' nodes solidDofs en) (extended n Fu Fp) i) := by
  have hsym' : ∀ a < n + 1, ∀ b < n + 1, bordered n Kuu Kup Kpp a b = bordered n Kuu Kup Kpp b a := by
    intro a _ b _
    unfold bordered
    by_cases h1 : a < n <;> by_cases h2 : b < n <;> simp [h1, h2, hsym a b]
  have hnorm : ((packed n ++ border n ++ [(n, n)]).map norm).Perm (packed (n + 1)) := by
    have : (packed n ++ border n ++ [(n, n)]).map norm = packed n ++ border n ++ [(n, n)] := by
      conv_rhs => rw [← List.map_id (packed n ++ border n ++ [(n, n)])]
      apply List.map_congr_left
      rintro ⟨a, b⟩ hp
      have := mem_packed.mp ((solid_perm n).subset hp)
      unfold norm
      rw [if_pos this.1]
      rfl
    rw [this]
    exact solid_perm n
  obtain ⟨S', e1, e2, e3⟩ := mixed_session h ho (extended n Fu Fp) (Ke := bordered n Kuu Kup Kpp)
    (by rw [hn]; rfl) hsym' hnorm
  refine ⟨S', ?_, e2, e3⟩
  rw [← e1]
  have key := assemble3_eq (numbered h ho) (Ke := bordered n Kuu Kup Kpp) (Fe := extended n Fu Fp) hn
  have c1 : (packed n).map (fun p => Kuu p.1 p.2) = (packed n).map (fun p => bordered n Kuu Kup Kpp p.1 p.2) := by
    apply List.map_congr_left
    rintro ⟨a, b⟩ hp
    have := mem_packed.mp hp
    simp only [bordered]
    rw [if_pos (by omega), if_pos this.2]
  have c2 : (List.range n).map Kup = (List.range n).map (fun a => bordered n Kuu Kup Kpp a n) := by
    apply List.map_congr_left
    intro a ha
    rw [List.mem_range] at ha
    simp only [bordered]
    rw [if_pos ha, if_neg (by omega)]
  have c3 : Kpp = bordered n Kuu Kup Kpp n n := by
    unfold bordered; rw [if_neg (by omega), if_neg (by omega)]
  have c4 : (List.range n).map Fu = (List.range n).map (extended n Fu Fp) := by
    apply List.map_congr_left
    intro a ha
    rw [List.mem_range] at ha
    unfold extended
    rw [if_pos ha]
  have c5 : Fp = extended n Fu Fp n := by unfold extended; rw [if_neg (by omega)]
  rw [← c3, ← c5] at key
  rw [c1, c2, c4]
  exact key

/-- **C80, PLANE41.** In any session, `assembleK` of PLANE41 on an element with four distinct nodes succeeds and adds exactly the
scattered symmetric matrix and vector; the last local DoF is the pressure of the element. -/
theorem C80_plane [AddCommMonoid K] {S0 S1 S : Storage K} {calls : List RegCall} {new : List (Mpc K)}
    {cs : List Key} {num' : Key → Nat} (h : Session S0 calls new cs S1 num' S) {en : Nat} {nodes : List Nat}
    (ho : OnMixed S1 (regKeys calls) en nodes planeDofs) (hl : nodes.length = 4) {Ke : Fin 9 → Fin 9 → K}
    (hsym : ∀ a b, Ke a b = Ke b a) (Fe : Fin 9 → K) :
    ∃ S', assemble41 S en nodes Ke Fe = .ok S' ∧ Session S0 calls new cs S1 num' S' ∧
      Grows S1 S S'
        (fun w i j => if w = .K then scatter 9 (mixedEq num' nodes planeDofs en) (ext Ke) i j else 0)
        (fun i => scatterV 9 (mixedEq num' nodes planeDofs en) (extV Fe) i) := by
  obtain ⟨S', e1, e2, e3⟩ := mixed_session h ho (extV Fe) (Ke := ext Ke) (m := 9)
    (by rw [hl]; rfl) (by
      intro a ha b hb
      unfold ext
      rw [dif_pos ⟨ha, hb⟩, dif_pos ⟨hb, ha⟩, hsym]) plane_perm
  exact ⟨S', (assemble41_eq (numbered h ho) hl Ke Fe).trans e1, e2, e3⟩

/-- The assertion at the start: a matrix of another size is refused. -/
theorem C80_wrong_size [Add K] (S : Storage K) (en : Nat) (nodes : List Nat) {n : Nat} (Ke : Fin n → Fin n → K) (Fe : Fin n → K)
    (kuu kup : List K) (kpp : K) (fu : List K) (fp : K) :
    (nodes.length * 2 + 1 ≠ n → assemble41 S en nodes Ke Fe = .assert) ∧
    (nodes.length * 3 ≠ n → assemble3 S en nodes n kuu kup kpp fu fp = .assert) := by
  constructor
  · intro hne
    unfold assemble41
    rw [if_pos hne]
  · intro hne
    unfold assemble3 Storage.assembleWith
    rw [if_pos (by exact hne)]
    rfl

/-- A mesh of two quadrilaterals. -/
def demo4 : Storage ℚ := Storage.fresh 6 [[1, 2, 5, 4], [2, 3, 6, 5]] [] false

/-- Registrations of `demo4`. -/
def demo4Calls : List RegCall :=
  [(.node, 1, [.UX, .UY]), (.node, 2, [.UX, .UY]), (.node, 5, [.UX, .UY]), (.node, 4, [.UX, .UY]), (.elem, 1, [.HYDRO_PRESSURE]),
   (.node, 2, [.UX, .UY]), (.node, 3, [.UX, .UY]), (.node, 6, [.UX, .UY]), (.node, 5, [.UX, .UY]), (.elem, 2, [.HYDRO_PRESSURE])]

/-- A mesh of one hexahedron. -/
def demo8 : Storage ℚ := Storage.fresh 8 [[1, 2, 3, 4, 5, 6, 7, 8]] [] false

/-- Registrations of `demo8`. -/
def demo8Calls : List RegCall :=
  [(.node, 1, [.UX, .UY, .UZ]), (.node, 2, [.UX, .UY, .UZ]), (.node, 3, [.UX, .UY, .UZ]), (.node, 4, [.UX, .UY, .UZ]),
   (.node, 5, [.UX, .UY, .UZ]), (.node, 6, [.UX, .UY, .UZ]), (.node, 7, [.UX, .UY, .UZ]), (.node, 8, [.UX, .UY, .UZ]),
   (.elem, 1, [.HYDRO_PRESSURE])]

theorem demo4_session : ∃ S1 num, Session demo4 demo4Calls [] [(.node, 1, .UX)] S1 num S1 ∧
    OnMixed S1 (regKeys demo4Calls) 2 [2, 3, 6, 5] planeDofs := by
  have hl : LegalModel demo4 demo4Calls [] [(.node, 1, .UX)] := by
    refine ⟨⟨?_, ?_, ?_, ?_, ?_, rfl⟩, ?_, ?_, ?_⟩
    · unfold LegalReg; decide
    · decide
    · decide
    · decide
    · intro m hm; simp [demo4, Storage.fresh] at hm
    · unfold MeshOk; decide
    · intro m hm; simp [demo4, Storage.fresh] at hm
    · decide
  obtain ⟨S1, num, h1, h2⟩ := prepare_small hl (by decide) (by decide)
  refine ⟨S1, num, ⟨hl, h1, h2, [], by simp, rfl⟩, ?_⟩
  obtain ⟨A, hp⟩ := prepared hl h1
  have hel : S1.elements = [[1, 2, 5, 4], [2, 3, 6, 5]] := hp.ready.mesh.elements
  exact ⟨by rw [hel]; rfl, by decide, by decide, by decide, by decide⟩

theorem demo8_session : ∃ S1 num, Session demo8 demo8Calls [] [(.node, 1, .UX)] S1 num S1 ∧
    OnMixed S1 (regKeys demo8Calls) 1 [1, 2, 3, 4, 5, 6, 7, 8] solidDofs := by
  have hl : LegalModel demo8 demo8Calls [] [(.node, 1, .UX)] := by
    refine ⟨⟨?_, ?_, ?_, ?_, ?_, rfl⟩, ?_, ?_, ?_⟩
    · unfold LegalReg; decide
    · decide
    · decide
    · decide
    · intro m hm; simp [demo8, Storage.fresh] at hm
    · unfold MeshOk; decide
    · intro m hm; simp [demo8, Storage.fresh] at hm
    · decide
  obtain ⟨S1, num, h1, h2⟩ := prepare_small hl (by decide) (by decide)
  refine ⟨S1, num, ⟨hl, h1, h2, [], by simp, rfl⟩, ?_⟩
  obtain ⟨A, hp⟩ := prepared hl h1
  have hel : S1.elements = [[1, 2, 3, 4, 5, 6, 7, 8]] := hp.ready.mesh.elements
  exact ⟨by rw [hel]; rfl, by decide, by decide, by decide, by decide⟩

example : ∃ S1 num' S', Session demo4 demo4Calls [] [(.node, 1, .UX)] S1 num' S1 ∧
    assemble41 S1 2 [2, 3, 6, 5] (fun a b : Fin 9 => ((a.val * b.val : Nat) : ℚ)) (fun a => (a.val : ℚ)) = .ok S' := by
  obtain ⟨S1, num, h, ho⟩ := demo4_session
  obtain ⟨S', h1, _⟩ := C80_plane h ho rfl (Ke := fun a b : Fin 9 => ((a.val * b.val : Nat) : ℚ))
    (fun a b => by rw [Nat.mul_comm]) (fun a => (a.val : ℚ))
  exact ⟨S1, num, S', h, h1⟩

example : ∃ S1 num' S', Session demo8 demo8Calls [] [(.node, 1, .UX)] S1 num' S1 ∧
    assemble3 S1 1 [1, 2, 3, 4, 5, 6, 7, 8] 24 ((packed 24).map (fun p => ((p.1 + p.2 : Nat) : ℚ)))
      ((List.range 24).map (fun a => (a : ℚ))) 7 ((List.range 24).map (fun a => (a : ℚ))) 3 = .ok S' := by
  obtain ⟨S1, num, h, ho⟩ := demo8_session
  obtain ⟨S', h1, _⟩ := C80_solid h ho (Kuu := fun a b => ((a + b : Nat) : ℚ))
    (fun a b => by rw [Nat.add_comm]) (fun a => (a : ℚ)) 7 (fun a => (a : ℚ)) 3 rfl
  exact ⟨S1, num, S', h, h1⟩

end Nla3d.Mixed
