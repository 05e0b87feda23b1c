import Verif.Dump.Model
import Verif.Solver.Blocks
import Verif.Sparse.Props
import Verif.Storage.Props
import Mathlib.Tactic.NormNum
import Mathlib.Tactic.FieldSimp
import Mathlib.Tactic.Positivity

/-! # C64: a dumped system and its comparison -/

namespace Nla3d.Dump

open Nla3d.Sparse Nla3d.Block Nla3d.Storage Nla3d.Solver

variable {K : Type}

/-! ## One matrix -/

theorem readEntries_write (rnd : K → K) (es : List (Entry K)) (rest : List (Tok K)) :
    readEntries es.length (es.flatMap (fun e => [.nat e.i, .nat e.j, .num (rnd e.v)]) ++ rest)
      = .ok (es.map fun e => { e with v := rnd e.v }, rest) := by
  induction es with
  | nil => rfl
  | cons e es ih =>
    simp only [List.length_cons, List.flatMap_cons, List.cons_append, List.nil_append, readEntries, List.append_assoc]
    rw [ih]
    rfl

theorem readNums_write (rnd : K → K) (v : List K) (rest : List (Tok K)) :
    readNums v.length (v.map (fun x => .num (rnd x)) ++ rest) = .ok (v.map rnd, rest) := by
  induction v with
  | nil => rfl
  | cons x xs ih =>
    simp only [List.length_cons, List.map_cons, List.cons_append, readNums]
    rw [ih]
    rfl

section Ordered

variable [Field K] [LinearOrder K] [IsStrictOrderedRing K]

theorem cmpVec_iff (th : K) (rnd : K → K) (v : List K) :
    ∃ r, compareVec (exceeds th) v (v.map rnd) = .ok r ∧ (r = true ↔ ∀ x ∈ v, |x - rnd x| ≤ th) := by
  unfold compareVec
  rw [if_neg (by simp)]
  have key : ∀ (n i : Nat), i + n = v.length → ∃ r, cmpLoop (fun x y => exceeds th (x - y)) v (v.map rnd) i n = .ok r ∧
      (r = true ↔ ∀ x ∈ v.drop i, |x - rnd x| ≤ th) := by
    intro n
    induction n with
    | zero =>
      intro i hi
      exact ⟨true, rfl, by rw [List.drop_eq_nil_of_le (by omega)]; simp⟩
    | succ n ih =>
      intro i hi
      have hlt : i < v.length := by omega
      rw [cmpLoop, Res.read_of_lt hlt, Res.read_of_lt (by simpa using hlt)]
      simp only [Res.ok_bind, List.getElem_map]
      rw [List.drop_eq_getElem_cons hlt]
      by_cases he : th < |v[i] - rnd v[i]|
      · refine ⟨false, by simp [exceeds, he], ?_⟩
        simp only [Bool.false_eq_true, List.mem_cons, forall_eq_or_imp, false_iff, not_and]
        exact fun h => absurd he (not_lt.2 h)
      · obtain ⟨r, h1, h2⟩ := ih (i + 1) (by omega)
        refine ⟨r, by simp only [exceeds, he, decide_false, Bool.false_eq_true, if_false]; exact h1, ?_⟩
        rw [h2]
        simp only [List.mem_cons, forall_eq_or_imp]
        exact ⟨fun h => ⟨not_lt.1 he, h⟩, fun h => h.2⟩
  have := key v.length 0 (by omega)
  simpa using this

/-- A stored matrix that was printed and read has the same positions and the printed values. -/
theorem vals_back {a : SpMat K} {rows : List (List Nat)} {f : Nat → Nat → K} (hv : Vals a rows f)
    (hm : a.si.nColumns < invalid) (rnd : K → K) :
    ∃ b, SpMat.reinitEntries a.si.nRows a.si.nColumns ((entriesFrom f 1 rows).map fun e => { e with v := rnd e.v }) = .ok b ∧
      b.si.nRows = a.si.nRows ∧ b.si.nColumns = a.si.nColumns ∧ ∃ g, Vals b rows g ∧
        ∀ i (hi : i < rows.length), ∀ c ∈ rows[i], g (i + 1) c = rnd (f (i + 1) c) := by
  set E := entriesFrom f 1 rows with hE
  set E' := E.map (fun e => ({ e with v := rnd e.v } : Entry K)) with hE'
  have hpos : posOf E' = E.map (fun e => (e.i, e.j)) := by
    simp [posOf, hE', List.map_map, Function.comp_def]
  have hmemE : ∀ i j, (i, j) ∈ posOf E' ↔ ∃ (k : Nat) (hk : k < rows.length), i = k + 1 ∧ j ∈ rows[k] := by
    intro i j
    rw [hpos]
    simp only [List.mem_map, Prod.mk.injEq]
    constructor
    · rintro ⟨e, he, rfl, rfl⟩
      obtain ⟨t, ht, h1, h2, _⟩ := (mem_entriesFrom _ e rows 1).mp he
      exact ⟨t, ht, by omega, h2⟩
    · rintro ⟨k, hk, rfl, hj⟩
      exact ⟨⟨k + 1, j, f (k + 1) j⟩, (mem_entriesFrom _ _ rows 1).mpr ⟨k, hk, by simp only; omega, hj, rfl⟩, rfl, rfl⟩
  have hrange : InRange a.si.nRows a.si.nColumns (posOf E') := by
    rintro ⟨i, j⟩ hp
    obtain ⟨k, hk, rfl, hj⟩ := (hmemE i j).mp hp
    have h1 := hv.csr.range _ (List.getElem_mem hk) j hj
    have h2 := hv.csr.len
    exact ⟨⟨by simp, by simp only; omega⟩, h1⟩
  obtain ⟨b, rows', h1, h2, h3, h4, h5⟩ := reinit_ok hm E' hrange
  have hd : Describes rows (posOf E') := by
    intro i hi j
    rw [hmemE]
    constructor
    · intro h
      exact ⟨i, hi, rfl, h⟩
    · rintro ⟨k, hk, e, hj⟩
      obtain rfl : i = k := by omega
      exact hj
  have hrows : rows' = rows := rows_unique (by rw [h2.csr.len, hv.csr.len, h4]) h2.csr.sorted hv.csr.sorted h3 hd
    (fun p => Iff.rfl)
  subst hrows
  refine ⟨b, h1, h4, h5, _, h2, ?_⟩
  intro i hi c hc
  have key : ∀ (l : List (Entry K)), (∀ e ∈ l, e.v = rnd (f e.i e.j)) →
      (i + 1, c) ∈ posOf l → lastVal l (i + 1) c = rnd (f (i + 1) c) := by
    intro l
    induction l using List.reverseRecOn with
    | nil => intro _ hh; simp [posOf] at hh
    | append_singleton l e ih =>
      intro hl hh
      have : lastVal (l ++ [e]) (i + 1) c = if e.i = i + 1 ∧ e.j = c then e.v else lastVal l (i + 1) c := by simp [lastVal]
      rw [this]
      split
      · rename_i hc
        rw [hl e (by simp), hc.1, hc.2]
      · rename_i hc
        apply ih (fun x hx => hl x (by simp [hx]))
        simp only [posOf, List.map_append, List.map_cons, List.map_nil, List.mem_append, List.mem_singleton,
          Prod.mk.injEq] at hh
        rcases hh with hh | ⟨e1, e2⟩
        · exact hh
        · exact absurd ⟨e1.symm, e2.symm⟩ hc
  apply key E' ?_ ((hmemE _ _).mpr ⟨i, hi, rfl, hc⟩)
  intro e he
  simp only [hE', List.mem_map] at he
  obtain ⟨e0, he0, rfl⟩ := he
  obtain ⟨_, _, _, _, h3⟩ := (mem_entriesFrom _ e0 rows' 1).mp he0
  simp only [h3]

/-- Printing a block, reading it and comparing. -/
theorem block_back {F : Family K} {q i j : Nat} {a : SpMat K} {rows : List (List Nat)} {f : Nat → Nat → K}
    (hb : blockMat F q i j = .ok a) (hv : Vals a rows f) (hm : a.si.nColumns < invalid) (rnd : K → K) (th : K) :
    ∃ ts, writeMat rnd a = .ok ts ∧ ∀ rest,
      checkBlock (exceeds th) F q i j (ts ++ rest) =
        if ∀ i (hi : i < rows.length), ∀ c ∈ rows[i], |f (i + 1) c - rnd (f (i + 1) c)| ≤ th then .ok rest else .fatal := by
  obtain ⟨b, h1, h2, h3, g, h4, h5⟩ := vals_back hv hm rnd
  refine ⟨_, by unfold writeMat; rw [hv.writeCoords]; rfl, ?_⟩
  intro rest
  have hlen : (entriesFrom f 1 rows).length = a.si.numberOfValues := by rw [entriesFrom_length, hv.csr.num]
  unfold checkBlock
  simp only [List.cons_append, readMat]
  rw [← hlen, readEntries_write rnd]
  simp only [Res.ok_bind]
  rw [h1]
  simp only [Res.ok_bind]
  rw [hb]
  simp only [Res.ok_bind]
  obtain ⟨r, hr, hiff⟩ := hv.compare h4 (exceeds th)
  rw [hr]
  simp only [Res.ok_bind]
  have : (r = true) ↔ ∀ i (hi : i < rows.length), ∀ c ∈ rows[i], |f (i + 1) c - rnd (f (i + 1) c)| ≤ th := by
    rw [hiff, h2, h3]
    simp only [true_and]
    constructor
    · intro h i hi c hc
      have := h i hi c hc
      rw [h5 i hi c hc] at this
      simpa [exceeds] using this
    · intro h i hi c hc
      rw [h5 i hi c hc]
      simpa [exceeds] using h i hi c hc
  by_cases hr : r = true
  · rw [if_pos hr, if_pos (this.1 hr)]
  · rw [if_neg hr, if_neg (fun h => hr (this.2 h))]

theorem vec_back (rnd : K → K) (th : K) (v : List K) (rest : List (Tok K)) :
    checkVec (exceeds th) v (writeVec rnd v ++ rest) = if ∀ x ∈ v, |x - rnd x| ≤ th then .ok rest else .fatal := by
  obtain ⟨r, hr, hiff⟩ := cmpVec_iff th rnd v
  unfold checkVec writeVec
  simp only [List.cons_append, readVec]
  rw [readNums_write]
  simp only [Res.ok_bind]
  rw [hr]
  simp only [Res.ok_bind]
  by_cases h : r = true
  · rw [if_pos h, if_pos (hiff.1 h)]
  · rw [if_neg h, if_neg (fun h' => h (hiff.2 h'))]

/-! ## The system -/

/-- All entries of matrix `q` are changed by printing by at most `th`. -/
def MatClose (M : Nat → Nat → Nat → K) (N : Nat) (rnd : K → K) (th : K) (q : Nat) : Prop :=
  ∀ i j, 0 < i → i ≤ N → 0 < j → j ≤ N → |M q i j - rnd (M q i j)| ≤ th

open Classical in
theorem mat_back {S : Storage K} {es : List (Nat × Nat)} {M : Nat → Nat → Nat → K} {v : Nat → K} (h : Live S es M v)
    (hN : S.nDofs + S.nMpc < invalid) (rnd : K → K) (h0 : rnd 0 = 0) {th : K} (hth : 0 ≤ th) :
    ∃ F, matOf S = .ok F ∧ ∀ q < S.nMats, ∃ ts, dumpMat rnd F q = .ok ts ∧ ∀ rest,
      checkMat (exceeds th) F q (ts ++ rest)
        = if MatClose M (S.nDofs + S.nMpc) rnd th q then .ok rest else .fatal := by
  obtain ⟨F, hF, rows1, rows2, hb⟩ := live_blocks h
  refine ⟨F, hF, fun q hq => ?_⟩
  obtain ⟨⟨B1, hb1, s1⟩, ⟨B12, hb12, g12⟩, ⟨B2, hb2, s2⟩⟩ := hb q hq
  obtain ⟨rows12, v12, z12⟩ := g12.vals
  have hd := h.dofs
  obtain ⟨t1, w1, c1⟩ := block_back hb1 s1.vals (by rw [s1.nCols]; omega) rnd th
  obtain ⟨t12, w12, c12⟩ := block_back hb12 v12 (by rw [g12.nCols]; omega) rnd th
  obtain ⟨t2, w2, c2⟩ := block_back hb2 s2.vals (by rw [s2.nCols]; omega) rnd th
  refine ⟨t1 ++ (t12 ++ t2), by unfold dumpMat; rw [hb1, hb12, hb2]; simp only [Res.ok_bind]; rw [w1, w12, w2]; rfl, ?_⟩
  intro rest
  unfold checkMat
  rw [List.append_assoc, List.append_assoc, c1]
  have l1 : rows1.length = S.nConstr := by rw [s1.vals.csr.len, s1.nRows]
  have l12 : rows12.length = S.nConstr := by rw [v12.csr.len, g12.nRows]
  have l2 : rows2.length = S.nUnknown + S.nMpc := by rw [s2.vals.csr.len, s2.nRows]
  have close0 : ∀ x : K, x = 0 → |x - rnd x| ≤ th := fun x hx => by rw [hx, h0]; simpa using hth
  have hiff : MatClose M (S.nDofs + S.nMpc) rnd th q ↔
      (∀ i (hi : i < rows1.length), ∀ c ∈ rows1[i], |M q (i + 1) c - rnd (M q (i + 1) c)| ≤ th) ∧
      (∀ i (hi : i < rows12.length), ∀ c ∈ rows12[i],
        |M q (i + 1) (S.nConstr + c) - rnd (M q (i + 1) (S.nConstr + c))| ≤ th) ∧
      (∀ i (hi : i < rows2.length), ∀ c ∈ rows2[i],
        |M q (S.nConstr + (i + 1)) (S.nConstr + c) - rnd (M q (S.nConstr + (i + 1)) (S.nConstr + c))| ≤ th) := by
    constructor
    · intro hc
      refine ⟨?_, ?_, ?_⟩
      · intro i hi c hm
        have := s1.vals.csr.range _ (List.getElem_mem hi) c hm
        rw [s1.nCols] at this
        exact hc _ _ (by omega) (by omega) (by omega) (by omega)
      · intro i hi c hm
        have := v12.csr.range _ (List.getElem_mem hi) c hm
        rw [g12.nCols] at this
        exact hc _ _ (by omega) (by omega) (by omega) (by omega)
      · intro i hi c hm
        have := s2.vals.csr.range _ (List.getElem_mem hi) c hm
        rw [s2.nCols] at this
        exact hc _ _ (by omega) (by omega) (by omega) (by omega)
    · rintro ⟨k1, k12, k2⟩
      have upper : ∀ i j, 0 < i → i ≤ j → j ≤ S.nDofs + S.nMpc → |M q i j - rnd (M q i j)| ≤ th := by
        intro i j hi hij hj
        by_cases hj1 : j ≤ S.nConstr
        · have hlt : i - 1 < rows1.length := by omega
          by_cases hm : j ∈ rows1[i - 1]
          · have := k1 (i - 1) hlt j hm
            rwa [Nat.sub_add_cancel hi] at this
          · apply close0
            have := s1.zero (i - 1) hlt j (by omega) hj1 hm
            rwa [Nat.sub_add_cancel hi] at this
        · obtain ⟨c, rfl⟩ : ∃ c, j = S.nConstr + c := ⟨j - S.nConstr, by omega⟩
          by_cases hi1 : i ≤ S.nConstr
          · have hlt : i - 1 < rows12.length := by omega
            by_cases hm : c ∈ rows12[i - 1]
            · have := k12 (i - 1) hlt c hm
              rwa [Nat.sub_add_cancel hi] at this
            · apply close0
              have := z12 (i - 1) hlt c (by omega) (by omega) hm
              rwa [Nat.sub_add_cancel hi] at this
          · obtain ⟨p, rfl⟩ : ∃ p, i = S.nConstr + (p + 1) := ⟨i - S.nConstr - 1, by omega⟩
            have hlt : p < rows2.length := by omega
            by_cases hm : c ∈ rows2[p]
            · exact k2 p hlt c hm
            · exact close0 _ (s2.zero p hlt c (by omega) (by omega) hm)
      have symm : ∀ i j, M q i j = M q j i := by
        obtain ⟨F', hs, g1, g2, g3, g4⟩ := h.mat
        intro i j
        rw [← g4 q (by omega), totalSym_comm, g4 q (by omega)]
      intro i j hi1 hi2 hj1 hj2
      rcases Nat.le_total i j with hle | hle
      · exact upper i j hi1 hle hj2
      · rw [symm]
        exact upper j i hj1 hle hi2
  by_cases k1 : ∀ i (hi : i < rows1.length), ∀ c ∈ rows1[i], |M q (i + 1) c - rnd (M q (i + 1) c)| ≤ th
  · rw [if_pos k1]
    simp only [Res.ok_bind]
    rw [c12]
    by_cases k12 : ∀ i (hi : i < rows12.length), ∀ c ∈ rows12[i],
        |M q (i + 1) (S.nConstr + c) - rnd (M q (i + 1) (S.nConstr + c))| ≤ th
    · rw [if_pos k12]
      simp only [Res.ok_bind]
      rw [c2]
      by_cases k2 : ∀ i (hi : i < rows2.length), ∀ c ∈ rows2[i],
        |M q (S.nConstr + (i + 1)) (S.nConstr + c) - rnd (M q (S.nConstr + (i + 1)) (S.nConstr + c))| ≤ th
      · rw [if_pos k2, if_pos (hiff.2 ⟨k1, k12, k2⟩)]
      · rw [if_neg k2, if_neg (fun hc => k2 (hiff.1 hc).2.2)]
    · rw [if_neg k12, if_neg (fun hc => k12 (hiff.1 hc).2.1)]
      rfl
  · rw [if_neg k1, if_neg (fun hc => k1 (hiff.1 hc).1)]
    rfl

open Classical in
theorem mats_back {S : Storage K} {es : List (Nat × Nat)} {M : Nat → Nat → Nat → K} {v : Nat → K} (h : Live S es M v)
    (hN : S.nDofs + S.nMpc < invalid) (rnd : K → K) (h0 : rnd 0 = 0) {th : K} (hth : 0 ≤ th) :
    ∃ F, matOf S = .ok F ∧ ∀ qs : List Nat, (∀ q ∈ qs, q < S.nMats) → ∃ ts, dumpMats rnd F qs = .ok ts ∧ ∀ rest,
      checkMats (exceeds th) F qs (ts ++ rest)
        = if ∀ q ∈ qs, MatClose M (S.nDofs + S.nMpc) rnd th q then .ok rest else .fatal := by
  obtain ⟨F, hF, hmat⟩ := mat_back h hN rnd h0 hth
  refine ⟨F, hF, ?_⟩
  intro qs
  induction qs with
  | nil => intro _; exact ⟨[], rfl, fun rest => by simp [checkMats]⟩
  | cons q qs ih =>
    intro hq
    obtain ⟨t, e1, c1⟩ := hmat q (hq q List.mem_cons_self)
    obtain ⟨ts, e2, c2⟩ := ih (fun q' h' => hq q' (List.mem_cons_of_mem _ h'))
    refine ⟨t ++ ts, by simp only [dumpMats, e1, e2, Res.ok_bind], fun rest => ?_⟩
    rw [checkMats, List.append_assoc, c1]
    by_cases k1 : MatClose M (S.nDofs + S.nMpc) rnd th q
    · rw [if_pos k1]
      simp only [Res.ok_bind]
      rw [c2]
      by_cases k2 : ∀ q ∈ qs, MatClose M (S.nDofs + S.nMpc) rnd th q
      · rw [if_pos k2, if_pos (by simpa using ⟨k1, k2⟩)]
      · rw [if_neg k2, if_neg (fun hh => k2 fun q' h' => hh q' (List.mem_cons_of_mem _ h'))]
    · rw [if_neg k1, if_neg (fun hh => k1 (hh q List.mem_cons_self))]
      rfl

theorem matrices_lt (S : Storage K) : ∀ q, q ∈ matrices S ↔ q < S.nMats := by
  intro q
  unfold matrices Storage.nMats
  cases S.transient
  · simp
  · simp only [if_true, List.mem_cons, List.not_mem_nil, or_false]
    omega

open Classical in
/-- **C64.** For every state of the storage that a session reaches, all vectors, printing functions and thresholds: the
dump succeeds, and the comparison of the system with its own dump passes exactly when printing changes no entry of the
matrices and vectors by more than the threshold. Otherwise the program stops with a fatal error. -/
theorem C64_iff {S0 S1 S : Storage K} {calls : List RegCall} {new : List (Mpc K)} {cs : List Key} {num : Key → Nat}
    (h : Session S0 calls new cs S1 num S) (vecF vecR : List K) (rm rv : K → K) (h0 : rm 0 = 0) (th : K) (hth : 0 ≤ th) :
    ∃ file, dump rm rv S vecF vecR = .ok file ∧ compare (exceeds th) S vecF vecR file =
      if (∀ w, w.idx < S.nMats → ∀ i j x, 0 < i → i ≤ S.nDofs + S.nMpc → 0 < j → j ≤ S.nDofs + S.nMpc →
            Storage.Entry S w i j x → |x - rm x| ≤ th) ∧
          (∀ x ∈ vecF, |x - rv x| ≤ th) ∧ (∀ x ∈ vecR, |x - rv x| ≤ th)
        then .ok () else .fatal := by
  obtain ⟨A, M, v, hp, hn, hd⟩ := session_during h
  have hN : S.nDofs + S.nMpc < invalid := by
    have h1 := h.legal.size
    have h2 := hd.n
    have h3 := hp.ready.nDofs
    have h4 := hp.ready.nMpc
    omega
  obtain ⟨F, hF, hq⟩ := mats_back hd.live hN rm h0 hth
  obtain ⟨ts, e1, c1⟩ := hq (matrices S) (fun q hq => (matrices_lt S q).1 hq)
  refine ⟨_, by unfold dump; rw [hF]; simp only [Res.ok_bind]; rw [e1]; rfl, ?_⟩
  unfold compare
  rw [hF]
  simp only [Res.ok_bind]
  rw [c1]
  have hM : (∀ q ∈ matrices S, MatClose M (S.nDofs + S.nMpc) rm th q) ↔
      ∀ w, Which.idx w < S.nMats → ∀ i j x, 0 < i → i ≤ S.nDofs + S.nMpc → 0 < j → j ≤ S.nDofs + S.nMpc →
        Storage.Entry S w i j x → |x - rm x| ≤ th := by
    constructor
    · intro hc w hw i j x hi1 hi2 hj1 hj2 hx
      rw [hd.live.entry_eq hw hx]
      exact hc _ ((matrices_lt S _).2 hw) i j hi1 hi2 hj1 hj2
    · intro hc q hq i j hi1 hi2 hj1 hj2
      have hq' := (matrices_lt S q).1 hq
      obtain ⟨w, rfl⟩ : ∃ w : Which, w.idx = q := by
        have : q < 3 := by
          unfold Storage.nMats at hq'
          split at hq' <;> omega
        rcases q with _ | _ | _ | q
        · exact ⟨.K, rfl⟩
        · exact ⟨.C, rfl⟩
        · exact ⟨.M, rfl⟩
        · omega
      exact hc w hq' i j _ hi1 hi2 hj1 hj2 (hd.live.entry hq' ⟨hi1, hi2⟩ ⟨hj1, hj2⟩)
  by_cases k1 : ∀ q ∈ matrices S, MatClose M (S.nDofs + S.nMpc) rm th q
  · rw [if_pos k1]
    simp only [Res.ok_bind]
    rw [vec_back]
    by_cases k2 : ∀ x ∈ vecF, |x - rv x| ≤ th
    · rw [if_pos k2]
      simp only [Res.ok_bind]
      have := vec_back rv th vecR []
      rw [List.append_nil] at this
      rw [this]
      by_cases k3 : ∀ x ∈ vecR, |x - rv x| ≤ th
      · rw [if_pos k3, if_pos ⟨hM.1 k1, k2, k3⟩]
        rfl
      · rw [if_neg k3, if_neg (fun hh => k3 hh.2.2)]
        rfl
    · rw [if_neg k2, if_neg (fun hh => k2 hh.2.1)]
      rfl
  · rw [if_neg k1, if_neg (fun hh => k1 (hM.2 hh.1))]
    rfl

end Ordered

/-! ## The printing that is used -/

theorem sci_zero (d : Nat) : sci d 0 = 0 := by simp [sci]

/-- Printing with `d` digits after the point changes a number by at most half a unit of the last digit. -/
theorem sci_error (d : Nat) (x : ℚ) : |x - sci d x| ≤ |x| / (2 * 10 ^ d) := by
  rcases eq_or_ne x 0 with rfl | hx
  · simp [sci_zero]
  · have hpos : 0 < |x| := abs_pos.2 hx
    have hlog : (10 : ℚ) ^ Int.log 10 |x| ≤ |x| := by
      have := Int.zpow_log_le_self (b := 10) (r := |x|) (by norm_num) hpos
      exact_mod_cast this
    set u : ℚ := (10 : ℚ) ^ (Int.log 10 |x| - d) with hu
    have hup : 0 < u := zpow_pos (by norm_num) _
    have hle : u ≤ |x| / 10 ^ d := by
      rw [hu, zpow_sub₀ (by norm_num), zpow_natCast]
      gcongr
    have e : x - sci d x = (x / u - round (x / u)) * u := by
      unfold sci
      rw [sub_mul, div_mul_cancel₀ _ hup.ne']
    rw [e, abs_mul, abs_of_pos hup]
    have h1 := abs_sub_round (x / u)
    calc |x / u - round (x / u)| * u ≤ 1 / 2 * (|x| / 10 ^ d) := by gcongr
      _ = |x| / (2 * 10 ^ d) := by field_simp

/-- **C64.** A system compares equal to its own dump when its entries are small: with the default threshold `1e-9`,
matrix entries up to `2e6` and vector entries up to `2e-3` in absolute value. Missing: larger entries, see
`C64_vector_violated` and `C64_matrix_violated`. -/
theorem C64_small_partial {S0 S1 S : Storage ℚ} {calls : List RegCall} {new : List (Mpc ℚ)} {cs : List Key}
    {num : Key → Nat} (h : Session S0 calls new cs S1 num S) (vecF vecR : List ℚ) (th : ℚ) (hth : 0 ≤ th)
    (hm : ∀ w, Which.idx w < S.nMats → ∀ i j x, 0 < i → i ≤ S.nDofs + S.nMpc → 0 < j → j ≤ S.nDofs + S.nMpc →
      Storage.Entry S w i j x → |x| ≤ 2 * 10 ^ 15 * th)
    (hF : ∀ x ∈ vecF, |x| ≤ 2 * 10 ^ 6 * th) (hR : ∀ x ∈ vecR, |x| ≤ 2 * 10 ^ 6 * th) :
    ∃ file, dump (sci 15) (sci 6) S vecF vecR = .ok file ∧ compare (exceeds th) S vecF vecR file = .ok () := by
  classical
  obtain ⟨file, e1, e2⟩ := C64_iff h vecF vecR (sci 15) (sci 6) (sci_zero 15) th hth
  refine ⟨file, e1, ?_⟩
  have small : ∀ (d : Nat) (x : ℚ), |x| ≤ 2 * 10 ^ d * th → |x - sci d x| ≤ th := by
    intro d x hx
    refine (sci_error d x).trans ?_
    rw [div_le_iff₀ (by positivity)]
    linarith
  rw [e2, if_pos ⟨fun w hw i j x h1 h2 h3 h4 h5 => small 15 x (hm w hw i j x h1 h2 h3 h4 h5), fun x hx => small 6 x (hF x hx),
    fun x hx => small 6 x (hR x hx)⟩]

theorem sci_wide (d n k m : Nat) (x : ℚ) (hx : 1 ≤ x) (hf : ⌊x⌋₊ = n) (hn : Nat.log 10 n = k)
    (hr : round (x / (10 : ℚ) ^ ((k : Int) - d)) = m) : sci d x = m * (10 : ℚ) ^ ((k : Int) - d) := by
  unfold sci
  rw [abs_of_nonneg (by linarith), Int.log_of_one_le_right 10 hx, hf, hn]
  dsimp only
  rw [hr]
  norm_cast

/-- **C64, negation.** Whatever the state, a vector with the entry `1 + 2^-10` (a `double`) makes the comparison of the
system with its own dump fail with the default threshold. -/
theorem C64_vector_violated {S0 S1 S : Storage ℚ} {calls : List RegCall} {new : List (Mpc ℚ)} {cs : List Key}
    {num : Key → Nat} (h : Session S0 calls new cs S1 num S) (vecF vecR : List ℚ) (hv : 1 + 1 / 2 ^ 10 ∈ vecF) :
    ∃ file, dump (sci 15) (sci 6) S vecF vecR = .ok file ∧ compare (exceeds (1 / 10 ^ 9)) S vecF vecR file = .fatal := by
  classical
  obtain ⟨file, e1, e2⟩ := C64_iff h vecF vecR (sci 15) (sci 6) (sci_zero 15) (1 / 10 ^ 9) (by norm_num)
  refine ⟨file, e1, ?_⟩
  have e : sci 6 (1 + 1 / 2 ^ 10) = 1000977 * (10 : ℚ) ^ ((0 : Int) - 6) :=
    sci_wide 6 1 0 1000977 _ (by norm_num) ((Nat.floor_eq_iff (by norm_num)).2 ⟨by norm_num, by norm_num⟩) (by decide) (by rw [round_eq]; norm_num)
  rw [e2, if_neg]
  rintro ⟨_, h2, _⟩
  have := h2 _ hv
  rw [e] at this
  norm_num [abs_le] at this

/-- **C64, negation.** An entry `1e11 + 2^-10` of a matrix (a `double`, of the size of an elastic modulus) makes the
comparison of the system with its own dump fail with the default threshold. -/
theorem C64_matrix_violated {S0 S1 S : Storage ℚ} {calls : List RegCall} {new : List (Mpc ℚ)} {cs : List Key}
    {num : Key → Nat} (h : Session S0 calls new cs S1 num S) (vecF vecR : List ℚ) (w : Which) (hw : w.idx < S.nMats)
    (i j : Nat) (hi : 0 < i ∧ i ≤ S.nDofs + S.nMpc) (hj : 0 < j ∧ j ≤ S.nDofs + S.nMpc)
    (hx : Storage.Entry S w i j (10 ^ 11 + 1 / 2 ^ 10)) :
    ∃ file, dump (sci 15) (sci 6) S vecF vecR = .ok file ∧ compare (exceeds (1 / 10 ^ 9)) S vecF vecR file = .fatal := by
  classical
  obtain ⟨file, e1, e2⟩ := C64_iff h vecF vecR (sci 15) (sci 6) (sci_zero 15) (1 / 10 ^ 9) (by norm_num)
  refine ⟨file, e1, ?_⟩
  have e : sci 15 (10 ^ 11 + 1 / 2 ^ 10) = 1000000000000010 * (10 : ℚ) ^ ((11 : Int) - 15) :=
    sci_wide 15 100000000000 11 1000000000000010 _ (by norm_num)
      ((Nat.floor_eq_iff (by norm_num)).2 ⟨by norm_num, by norm_num⟩)
      ((Nat.log_eq_iff (Or.inl (by norm_num))).2 ⟨by norm_num, by norm_num⟩) (by rw [round_eq]; norm_num)
  rw [e2, if_neg]
  rintro ⟨h1, _, _⟩
  have := h1 w hw i j _ hi.1 hi.2 hj.1 hj.2 hx
  rw [e] at this
  norm_num [abs_le] at this

/-- A session in which one entry of the stiffness matrix is `x` and all others are zero. -/
theorem demo_entry (x : ℚ) : ∃ (S1 S : Storage ℚ) (num : Key → Nat) (i j : Nat), Session demo demoCalls [] demoFix S1 num S ∧
    0 < S.nMats ∧ (0 < i ∧ i ≤ S.nDofs + S.nMpc) ∧ (0 < j ∧ j ≤ S.nDofs + S.nMpc) ∧ Storage.Entry S .K i j x ∧
    ∀ w, Which.idx w < S.nMats → ∀ i' j' y, Storage.Entry S w i' j' y → y = 0 ∨ y = x := by
  obtain ⟨S1, num', h⟩ := demo_session
  obtain ⟨A, hp⟩ := prepared h.legal h.prep
  have hn := num_agree hp h.numbers
  have hel : S1.elements = [[1, 2], [2, 3]] := hp.ready.mesh.elements
  let i := num' (.elem, 1, .HYDRO_PRESSURE)
  let j := num' (.node, 2, .UY)
  have hle : LegalEv S1 (regKeys demoCalls) num' (.contrib (.mat .K i j x)) := by
    refine ⟨Or.inl rfl, Or.inl ⟨1, _, _, ?_, ?_, ?_, ?_, rfl, rfl⟩⟩
    · decide
    · decide
    · rfl
    · show 2 ∈ elNodes S1.elements 1
      rw [hel]; decide
  have hf := wanted_fine hp hn (c := .mat .K i j x) hle
  have hr : ∀ k ∈ regKeys demoCalls, 0 < num' k ∧ num' k ≤ S1.nDofs + S1.nMpc := by
    intro k hk
    rw [hn k hk]
    have := hp.ready.num_range hk
    omega
  have hi := hr (.elem, 1, .HYDRO_PRESSURE) (by decide)
  have hj := hr (.node, 2, .UY) (by decide)
  obtain ⟨S', e1, e2, e3, e4⟩ := live_contribs [.mat .K i j x] hp.live (by
    intro c hc
    rw [List.mem_singleton] at hc
    subst hc
    exact hf)
  have hN : S'.nDofs + S'.nMpc = S1.nDofs + S1.nMpc := by
    have hd : During S1 S' A _ _ := ⟨e4, e2, by rw [e3]; rfl⟩
    exact hd.n
  have hq : S'.nMats = S1.nMats := e2.nMats
  have hpos : 0 < S'.nMats := by
    unfold Storage.nMats
    split <;> omega
  refine ⟨S1, S', num', i, j, ⟨h.legal, h.prep, h.numbers, [.contrib (.mat .K i j x)], ?_, ?_⟩, hpos, by rw [hN]; exact hi,
    by rw [hN]; exact hj, ?_, ?_⟩
  · intro e he
    rw [List.mem_singleton] at he
    subst he
    exact hle
  · rw [Res.foldlM'_cons] at e1 ⊢
    exact e1
  · have := e4.entry (w := .K) hpos (i := i) (j := j) (by rw [hN]; exact hi) (by rw [hN]; exact hj)
    simpa [matSum, Same, Which.idx] using this
  · intro w hw i' j' y hy
    have := e4.entry_eq hw hy
    rw [this]
    simp only [matSum, zero_add, List.map_cons, List.map_nil, List.sum_cons, List.sum_nil, add_zero]
    split
    · exact Or.inr rfl
    · exact Or.inl rfl

example : ∃ S : Storage ℚ, ∃ file, dump (sci 15) (sci 6) S [1 / 1000] [-1 / 500] = .ok file ∧
    compare (exceeds (1 / 10 ^ 9)) S [1 / 1000] [-1 / 500] file = .ok () := by
  obtain ⟨S1, S, num, i, j, h, _, _, _, _, hy⟩ := demo_entry (1000000 / 3)
  refine ⟨S, C64_small_partial h _ _ _ (by norm_num) ?_ (by simp; norm_num) (by simp; norm_num)⟩
  intro w hw i j x _ _ _ _ hx
  rcases hy w hw i j x hx with rfl | rfl <;> norm_num

example : ∃ S : Storage ℚ, ∃ file, dump (sci 15) (sci 6) S [0] [0] = .ok file ∧
    compare (exceeds (1 / 10 ^ 9)) S [0] [0] file = .fatal := by
  obtain ⟨S1, S, num, i, j, h, h0, hi, hj, hx, _⟩ := demo_entry (10 ^ 11 + 1 / 2 ^ 10)
  exact ⟨S, C64_matrix_violated h _ _ .K h0 i j hi hj hx⟩

end Nla3d.Dump
