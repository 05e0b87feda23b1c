import Verif.Block.Inv
import Mathlib.Tactic.NormNum

/-!
# Properties of the block matrix (C09, C10)

`life sizes k cs ds` constructs a `BlockSparseSymMatrix`, runs the registration calls `cs` (entries and copy
constructions in any order), compresses every matrix and runs the value calls `ds` (additions, zeroing and
further copy constructions). Specification (`Verif/Block/Spec.lean`): the flat symmetric matrix `totalSym` of the
calls made on one matrix of the family since its creation.
-/

namespace Nla3d.Block

open Nla3d.Sparse

variable {K : Type}

/-- What the caller must respect: the number of off-diagonal blocks fits `uint16`, sizes are below the sentinel
value, matrix numbers and indices exist. -/
structure LegalLife (sizes : List Nat) (k : Nat) (cs : List Call1) (ds : List (Call3 K)) : Prop where
  small : nUpper sizes.length ≤ 65536
  room : 0 < k
  below : ∀ n ∈ sizes, n < invalid
  phase1 : Legal1 sizes.sum 1 cs
  phase3 : Legal3 sizes.sum (count1 1 cs) ds

theorem count1_pos : ∀ (cs : List Call1) (Q : Nat), 0 < Q → 0 < count1 Q cs := by
  intro cs
  induction cs with
  | nil => intro Q h; exact h
  | cons c cs ih =>
    intro Q h
    cases c with
    | entry q i j => exact ih Q h
    | copy q => exact ih (Q + 1) (by omega)

/-- Per matrix, the value calls made since its creation. -/
def history (cs : List Call1) (ds : List (Call3 K)) : List (List (Op K)) :=
  runSpec (List.replicate (count1 1 cs) []) ds

theorem life_cases [AddMonoid K] {sizes : List Nat} {k : Nat} {cs : List Call1} {ds : List (Call3 K)}
    (h : LegalLife sizes k cs ds) :
    (Fits sizes k (entriesOf cs) ∧ AllReg (entriesOf cs) ds ∧ ∃ F, life sizes k cs ds = .ok F ∧
      Inv3 F sizes (entriesOf cs) (history cs ds) (history cs ds).length) ∨
    (¬ (Fits sizes k (entriesOf cs) ∧ AllReg (entriesOf cs) ds) ∧ life sizes k cs ds = .fatal) := by
  obtain ⟨F0, e1, e2⟩ := create_ok (K := K) h.small h.room h.below
  unfold life
  rw [e1]
  simp only [Res.ok_bind]
  rcases phase1 h.small cs F0 [] 1 e2 h.phase1 with ⟨hf, F1, f1, f2⟩ | ⟨hf, f1⟩
  · simp only [List.nil_append] at hf f2
    rw [f1]
    simp only [Res.ok_bind]
    rw [f2.shape.tot]
    obtain ⟨F2, g1, g2⟩ := phase2 h.small f2 (count1_pos cs 1 (by omega))
    rw [g1]
    simp only [Res.ok_bind]
    rcases phase3 h.small ds F2 (List.replicate (count1 1 cs) []) (by simpa using g2) (by simpa using h.phase3) with
      ⟨hr, F3, k1, k2⟩ | ⟨hr, k1⟩
    · exact Or.inl ⟨hf, hr, F3, k1, k2⟩
    · exact Or.inr ⟨fun hh => hr hh.2, k1⟩
  · right
    simp only [List.nil_append] at hf
    refine ⟨fun hh => hf hh.1, ?_⟩
    rw [f1]; rfl

/-- **C09, accepted histories.** A history of legal calls either completes or ends in a fatal error, never in an
assertion or undefined behaviour. It completes exactly when no row of a block needs more than `k` entries and every
addition goes to a registered unordered pair. The same condition for a flat symmetric matrix, per block. -/
theorem C09_accepts [AddMonoid K] {sizes : List Nat} {k : Nat} {cs : List Call1} {ds : List (Call3 K)}
    (h : LegalLife sizes k cs ds) :
    ((∃ F, life sizes k cs ds = .ok F) ↔ Fits sizes k (entriesOf cs) ∧ AllReg (entriesOf cs) ds) ∧
    (life sizes k cs ds = .fatal ↔ ¬ (Fits sizes k (entriesOf cs) ∧ AllReg (entriesOf cs) ds)) := by
  rcases life_cases h with ⟨h1, h2, F, h3, _⟩ | ⟨h1, h2⟩
  · rw [h3]
    exact ⟨⟨fun _ => ⟨h1, h2⟩, fun _ => ⟨F, rfl⟩⟩, ⟨by simp, fun hh => absurd ⟨h1, h2⟩ hh⟩⟩
  · rw [h2]
    exact ⟨⟨by rintro ⟨F, hF⟩; simp at hF, fun hh => absurd hh h1⟩, ⟨fun _ => h1, fun _ => rfl⟩⟩

/-- **C09, every index has one home.** Every global index `1 .. N` is position `p` of block `a` for exactly one
`(a, p)`, and different blocks `(a, b)`, `a ≤ b`, are different sparse matrices: all slots `0 .. nb+nUpper-1` are used
exactly once. -/
theorem C09_index_bijection {sizes : List Nat} (hs : nUpper sizes.length ≤ 65536) :
    (∀ i, 0 < i → i ≤ sizes.sum → ∃ a p, IsPos sizes a p ∧ glob sizes a p = i ∧ locateLoop sizes 1 i = (a, p) ∧
      ∀ a' p', IsPos sizes a' p' → glob sizes a' p' = i → a' = a ∧ p' = p) ∧
    (∀ a b, 0 < a → a ≤ b → b ≤ sizes.length → ∃ t, blockSlot sizes.length a b = .ok t ∧
      t < sizes.length + nUpper sizes.length) ∧
    (∀ t, t < sizes.length + nUpper sizes.length → ∃ a b, 0 < a ∧ a ≤ b ∧ b ≤ sizes.length ∧
      blockSlot sizes.length a b = .ok t ∧
      ∀ a' b', 0 < a' → a' ≤ b' → b' ≤ sizes.length → blockSlot sizes.length a' b' = .ok t → a' = a ∧ b' = b) := by
  refine ⟨?_, ?_, ?_⟩
  · intro i h1 h2
    obtain ⟨a, p, e1, e2, e3⟩ := locate_spec h1 h2
    refine ⟨a, p, e2, e3, e1, ?_⟩
    intro a' p' g1 g2
    exact glob_inj g1 e2 (by omega)
  · intro a b h1 h2 h3
    exact ⟨_, (blockSlot_eq h1 h2 h3 hs).1, (blockSlot_eq h1 h2 h3 hs).2⟩
  · intro t ht
    obtain ⟨a, b, h1, h2, h3, rfl⟩ := slotNo_surj ht
    refine ⟨a, b, h1, h2, h3, (blockSlot_eq h1 h2 h3 hs).1, ?_⟩
    intro a' b' g1 g2 g3 g4
    rw [(blockSlot_eq g1 g2 g3 hs).1, Res.ok.injEq] at g4
    exact slotNo_inj g1 g2 g3 h1 h2 h3 g4

/-- **C09, values.** After any completed history, entry `(p, c)` of block `(a, b)`, `a ≤ b`, of matrix `q` is the sum
of everything added to the unordered pair of global indices since the last `zero` of that matrix: the block matrix is
the flat symmetric matrix, cut into blocks. -/
theorem C09_block_is_flat [AddMonoid K] {sizes : List Nat} {k : Nat} {cs : List Call1} {ds : List (Call3 K)}
    (h : LegalLife sizes k cs ds) {F : Family K} (hF : life sizes k cs ds = .ok F) {q : Nat}
    (hq : q < (history cs ds).length) {a b p c : Nat} (ha : IsPos sizes a p) (hb : IsPos sizes b c) (hab : a ≤ b) :
    F.blockValue q a b p c = .ok (totalSym (history cs ds)[q] (glob sizes a p) (glob sizes b c)) := by
  rcases life_cases h with ⟨h1, h2, F', h3, h4⟩ | ⟨h1, h2⟩
  · rw [hF, Res.ok.injEq] at h3
    subst h3
    exact h4.blockValue h.small hq ha hb hab
  · rw [hF] at h2; simp at h2

/-! ## C10: copies -/

theorem runSpec_snoc_op : ∀ (ds : List (Call3 K)) (st : List (List (Op K))) (q : Nat) (o : Op K),
    runSpec st (ds ++ [.op q o]) = (runSpec st ds).modify q (· ++ [o]) := by
  intro ds
  induction ds with
  | nil => intro st q o; rfl
  | cons d ds ih =>
    intro st q o
    cases d with
    | op q' o' => exact ih _ q o
    | copy q' => exact ih _ q o

theorem runSpec_snoc_copy : ∀ (ds : List (Call3 K)) (st : List (List (Op K))) (q : Nat),
    runSpec st (ds ++ [.copy q]) = runSpec st ds ++ [[]] := by
  intro ds
  induction ds with
  | nil => intro st q; rfl
  | cons d ds ih =>
    intro st q
    cases d with
    | op q' o' => exact ih _ q
    | copy q' => exact ih _ q

theorem Legal3.snoc {N : Nat} : ∀ (ds : List (Call3 K)) (st : List (List (Op K))) (d : Call3 K),
    Legal3 N st.length (ds ++ [d]) ↔ Legal3 N st.length ds ∧ Legal3 N (runSpec st ds).length [d] := by
  intro ds
  induction ds with
  | nil => intro st d; simp [Legal3, runSpec]
  | cons e ds ih =>
    intro st d
    cases e with
    | op q o =>
      have := ih (st.modify q (· ++ [o])) d
      simp only [List.length_modify] at this
      simp only [List.cons_append, Legal3, this, runSpec]
      tauto
    | copy q =>
      have := ih (st ++ [[]]) d
      simp only [List.length_append, List.length_singleton] at this
      simp only [List.cons_append, Legal3, this, runSpec]
      tauto

theorem life_snoc [AddMonoid K] (sizes : List Nat) (k : Nat) (cs : List Call1) (ds : List (Call3 K)) (d : Call3 K) :
    life sizes k cs (ds ++ [d]) = (life sizes k cs ds >>= fun F => step3 F d) := by
  unfold life
  cases (Family.create sizes k : Res (Family K)) with
  | fatal => rfl
  | assert => rfl
  | ub => rfl
  | ok F =>
    simp only [Res.ok_bind]
    cases Res.foldlM' step1 F cs with
    | fatal => rfl
    | assert => rfl
    | ub => rfl
    | ok F =>
      simp only [Res.ok_bind]
      cases Res.foldlM' Family.compress F (List.range F.totals.length) with
      | fatal => rfl
      | assert => rfl
      | ub => rfl
      | ok F =>
        simp only [Res.ok_bind, Res.foldlM'_append]
        cases Res.foldlM' step3 F ds with
        | fatal => rfl
        | assert => rfl
        | ub => rfl
        | ok F =>
          simp only [Res.ok_bind, Res.foldlM'_cons, Res.foldlM'_nil]
          cases step3 F d <;> rfl

/-- A legal history extended by a legal call is legal. -/
theorem LegalLife.snoc [AddMonoid K] {sizes : List Nat} {k : Nat} {cs : List Call1} {ds : List (Call3 K)} {d : Call3 K}
    (h : LegalLife sizes k cs ds) (hd : Legal3 sizes.sum (history cs ds).length [d]) :
    LegalLife sizes k cs (ds ++ [d]) := by
  refine ⟨h.small, h.room, h.below, h.phase1, ?_⟩
  have := (Legal3.snoc (N := sizes.sum) ds (List.replicate (count1 1 cs) ([] : List (Op K))) d).mpr
  rw [List.length_replicate] at this
  exact this ⟨h.phase3, hd⟩

/-- **C10, independence.** A value call on matrix `q` (addition or zeroing) that completes does not change any entry
of any other matrix of the family, whichever of them is the copy. -/
theorem C10_independent [AddMonoid K] {sizes : List Nat} {k : Nat} {cs : List Call1} {ds : List (Call3 K)}
    (h : LegalLife sizes k cs ds) {F F' : Family K} (hF : life sizes k cs ds = .ok F) {q : Nat} {o : Op K}
    (hq : q < (history cs ds).length) (ho : o.InRange sizes.sum sizes.sum) (hF' : step3 F (.op q o) = .ok F')
    {q' : Nat} (hne : q' ≠ q) (hq' : q' < (history cs ds).length)
    {a b p c : Nat} (ha : IsPos sizes a p) (hb : IsPos sizes b c) (hab : a ≤ b) :
    F'.blockValue q' a b p c = F.blockValue q' a b p c := by
  have hl := h.snoc (d := .op q o) ⟨hq, ho, trivial⟩
  have hrun : life sizes k cs (ds ++ [.op q o]) = .ok F' := by rw [life_snoc, hF]; exact hF'
  have hh : history cs (ds ++ [.op q o]) = (history cs ds).modify q (· ++ [o]) := runSpec_snoc_op _ _ _ _
  rw [C09_block_is_flat h hF hq' ha hb hab, C09_block_is_flat hl hrun (q := q') (by rw [hh]; simpa using hq') ha hb hab]
  congr 2
  simp only [hh]
  rw [List.getElem_modify_ne _ _ (Ne.symm hne)]

/-- **C10, a new copy.** Copying any matrix after any completed history succeeds, leaves all entries of all existing
matrices unchanged and the copy starts with all entries zero. -/
theorem C10_copy_starts_zero [AddMonoid K] {sizes : List Nat} {k : Nat} {cs : List Call1} {ds : List (Call3 K)}
    (h : LegalLife sizes k cs ds) {F : Family K} (hF : life sizes k cs ds = .ok F) {q : Nat}
    (hq : q < (history cs ds).length) :
    ∃ F', F.copy q = .ok F' ∧ ∀ a b p c, IsPos sizes a p → IsPos sizes b c → a ≤ b →
      F'.blockValue (history cs ds).length a b p c = .ok 0 ∧
      ∀ q' < (history cs ds).length, F'.blockValue q' a b p c = F.blockValue q' a b p c := by
  have hl := h.snoc (d := .copy q) ⟨hq, trivial⟩
  have hh : history cs (ds ++ [.copy q]) = history cs ds ++ [[]] := runSpec_snoc_copy _ _ _
  have hok : Fits sizes k (entriesOf cs) ∧ AllReg (entriesOf cs) ds := (C09_accepts h).1.mp ⟨F, hF⟩
  obtain ⟨F', hF'⟩ := (C09_accepts hl).1.mpr ⟨hok.1, by
    intro d hd q i j x he
    rw [List.mem_append, List.mem_singleton] at hd
    rcases hd with hd | rfl
    · exact hok.2 d hd q i j x he
    · simp at he⟩
  refine ⟨F', by rw [life_snoc, hF] at hF'; exact hF', ?_⟩
  intro a b p c ha hb hab
  refine ⟨?_, ?_⟩
  · rw [C09_block_is_flat hl hF' (q := (history cs ds).length) (by rw [hh]; simp) ha hb hab]
    congr 1
    simp [hh, totalSym]
  · intro q' hq'
    rw [C09_block_is_flat h hF hq' ha hb hab, C09_block_is_flat hl hF' (q := q') (by rw [hh]; simp; omega) ha hb hab]
    congr 2
    simp only [hh]
    rw [List.getElem_append_left hq']

/-- **C10, same sparsity.** Whether an addition is accepted does not depend on the matrix it is made on: it completes
iff the unordered pair was registered, and is fatal otherwise. -/
theorem C10_same_pattern [AddMonoid K] {sizes : List Nat} {k : Nat} {cs : List Call1} {ds : List (Call3 K)}
    (h : LegalLife sizes k cs ds) {F : Family K} (hF : life sizes k cs ds = .ok F) {q : Nat}
    (hq : q < (history cs ds).length) {i j : Nat} {x : K} (hi : 0 < i ∧ i ≤ sizes.sum) (hj : 0 < j ∧ j ≤ sizes.sum) :
    ((∃ F', F.addValue q i j x = .ok F') ↔ Reg (entriesOf cs) i j) ∧
    (F.addValue q i j x = .fatal ↔ ¬ Reg (entriesOf cs) i j) := by
  rcases life_cases h with ⟨h1, h2, F', h3, h4⟩ | ⟨h1, h2⟩
  · rw [hF, Res.ok.injEq] at h3
    subst h3
    rcases step_add (x := x) h.small h4 hq hi hj with ⟨g1, F', g2, _⟩ | ⟨g1, g2⟩
    · rw [g2]
      exact ⟨⟨fun _ => g1, fun _ => ⟨F', rfl⟩⟩, ⟨by simp, fun hh => absurd g1 hh⟩⟩
    · rw [g2]
      exact ⟨⟨by rintro ⟨F', hF'⟩; simp at hF', fun hh => absurd hh g1⟩, ⟨fun _ => g1, fun _ => rfl⟩⟩
  · rw [hF] at h2; simp at h2

/-- **C10, what fails.** The number of rows a copy reports is that of its original plus the sum of all block sizes. -/
theorem C10_copy_nRows {F F' : Family K} [Zero K] {q n : Nat} (hn : F.nRows q = .ok n) (hF : F.copy q = .ok F') :
    F'.nRows F.totals.length = .ok (n + F.sizes.sum) := by
  unfold Family.copy at hF
  unfold Family.nRows at hn
  rw [hn] at hF
  simp only [Res.ok_bind, Res.bind_eq_ok] at hF
  obtain ⟨fl, _, slots, _, hF⟩ := hF
  rw [Res.ok.injEq] at hF
  subst hF
  unfold Family.nRows
  rw [Res.read_eq_ok]
  simp

/-- **C10, negation of the last part.** For every non-empty block matrix a fresh copy reports a different number of
rows (twice the number of its original). -/
theorem C10_copy_nRows_wrong [AddMonoid K] {sizes : List Nat} {k : Nat} (hs : nUpper sizes.length ≤ 65536) (hk : 0 < k)
    (hn : ∀ n ∈ sizes, n < invalid) (hpos : 0 < sizes.sum) :
    ∃ F F' : Family K, Family.create sizes k = .ok F ∧ F.copy 0 = .ok F' ∧ F.nRows 0 = .ok sizes.sum ∧
      F'.nRows 0 = .ok sizes.sum ∧ F'.nRows 1 = .ok (2 * sizes.sum) ∧ F'.nRows 1 ≠ F.nRows 0 := by
  obtain ⟨F, e1, e2⟩ := create_ok (K := K) hs hk hn
  obtain ⟨F', f1, f2⟩ := step_copy1 (q := 0) hs e2 (by omega)
  have htot : F.totals = [sizes.sum] := by
    unfold Family.create at e1
    simp only [Res.bind_eq_ok] at e1
    obtain ⟨_, _, e1⟩ := e1
    rw [Res.ok.injEq] at e1
    rw [← e1]
  have hn0 : F.nRows 0 = .ok sizes.sum := by simp [Family.nRows, htot, Res.read]
  have h1 := C10_copy_nRows hn0 f1
  rw [htot, e2.shape.hsz] at h1
  simp only [List.length_singleton] at h1
  have h0 : F'.nRows 0 = .ok sizes.sum := by
    unfold Family.copy at f1
    simp only [Res.bind_eq_ok] at f1
    obtain ⟨_, _, _, _, slots, _, f1⟩ := f1
    rw [Res.ok.injEq] at f1
    rw [← f1]
    simp [Family.nRows, htot, Res.read]
  refine ⟨F, F', e1, f1, hn0, h0, by rw [h1]; congr 1; omega, ?_⟩
  rw [h1, hn0]
  simp only [ne_eq, Res.ok.injEq]
  omega

/-! ## A concrete case -/

/-- Blocks of sizes 2 and 3, entries in the diagonal blocks and across, a copy before and one after compression. -/
def exCalls : List Call1 := [.entry 0 4 1, .copy 0, .entry 1 2 2, .entry 0 5 3]

/-- Values for all three matrices. -/
def exOps : List (Call3 Int) := [.op 0 (.add 1 4 7), .copy 1, .op 2 (.add 3 5 2), .op 0 (.add 4 1 1), .op 2 .zero,
  .op 2 (.add 2 2 5)]

theorem exLegal : LegalLife [2, 3] 2 exCalls exOps :=
  ⟨by decide, by decide, by simp [invalid], by simp [Legal1, exCalls], by simp [Legal3, exOps, exCalls, count1, Op.InRange]⟩

theorem exFits : Fits [2, 3] 2 (entriesOf exCalls) := by
  intro a b p h1 h2 h3 h4
  obtain ⟨k1, k2, k3, k4⟩ := h2
  have ha : a = 1 ∨ a = 2 := by simp at k2; omega
  have hb : b = 1 ∨ b = 2 := by simp at h4; omega
  have hp : p = 1 ∨ p = 2 ∨ p = 3 := by
    rcases ha with rfl | rfl <;> simp at k4 <;> omega
  rcases ha with rfl | rfl <;> rcases hb with rfl | rfl <;> rcases hp with rfl | rfl | rfl <;> decide

theorem exReg : AllReg (entriesOf exCalls) exOps := by
  intro d hd q i j x he
  subst he
  simp only [exOps, List.mem_cons, Call3.op.injEq, Op.add.injEq, reduceCtorEq, List.not_mem_nil, or_false, and_false,
    false_or] at hd
  rcases hd with ⟨_, rfl, rfl, _⟩ | ⟨_, rfl, rfl, _⟩ | ⟨_, rfl, rfl, _⟩ | ⟨_, rfl, rfl, _⟩ <;> decide

/-- The hypotheses of C09/C10 hold for the example, which completes. -/
theorem exRun : ∃ F, life [2, 3] 2 exCalls exOps = .ok F := (C09_accepts exLegal).1.mpr ⟨exFits, exReg⟩

example : ∃ F, life [2, 3] 2 exCalls exOps = .ok F ∧ F.blockValue 0 1 2 1 2 = .ok 8 ∧ F.blockValue 2 1 1 2 2 = .ok 5 ∧
    F.blockValue 1 1 2 1 2 = .ok 0 := by
  obtain ⟨F, hF⟩ := exRun
  refine ⟨F, hF, ?_, ?_, ?_⟩
  · have := C09_block_is_flat exLegal hF (q := 0) (by decide) (a := 1) (b := 2) (p := 1) (c := 2)
      (by simp [IsPos]) (by simp [IsPos]) (by decide)
    rw [this]; decide
  · have := C09_block_is_flat exLegal hF (q := 2) (by decide) (a := 1) (b := 1) (p := 2) (c := 2)
      (by simp [IsPos]) (by simp [IsPos]) (by decide)
    rw [this]; decide
  · have := C09_block_is_flat exLegal hF (q := 1) (by decide) (a := 1) (b := 2) (p := 1) (c := 2)
      (by simp [IsPos]) (by simp [IsPos]) (by decide)
    rw [this]; decide

/-- C10: the next copy starts from zero; an addition to an unregistered pair is fatal on all matrices. -/
example : ∃ F F', life [2, 3] 2 exCalls exOps = .ok F ∧ F.copy 2 = .ok F' ∧ F'.blockValue 3 1 2 1 2 = .ok 0 ∧
    F.addValue 1 1 5 3 = .fatal := by
  obtain ⟨F, hF⟩ := exRun
  obtain ⟨F', h1, h2⟩ := C10_copy_starts_zero exLegal hF (q := 2) (by decide)
  refine ⟨F, F', hF, h1, (h2 1 2 1 2 (by simp [IsPos]) (by simp [IsPos]) (by decide)).1, ?_⟩
  exact (C10_same_pattern exLegal hF (q := 1) (by decide) (by simp) (by simp)).2.mpr (by
    simp [entriesOf, exCalls, Reg])

/-- C10: an addition to matrix 0 leaves matrix 2 alone. -/
example : ∃ F F', life [2, 3] 2 exCalls exOps = .ok F ∧ step3 F (.op 0 (.add 2 2 9)) = .ok F' ∧
    F'.blockValue 2 1 1 2 2 = F.blockValue 2 1 1 2 2 := by
  obtain ⟨F, hF⟩ := exRun
  obtain ⟨F', h1⟩ := (C10_same_pattern exLegal hF (q := 0) (x := 9) (i := 2) (j := 2) (by decide) (by simp) (by simp)).1.mpr
    (by simp [entriesOf, exCalls, Reg])
  exact ⟨F, F', hF, h1, C10_independent (q := 0) (o := .add 2 2 9) exLegal hF (by decide) (by simp [Op.InRange]) h1 (by decide) (by decide)
    (by simp [IsPos]) (by simp [IsPos]) (by decide)⟩

/-- C10: the copy of a 5-row matrix reports 10 rows. -/
example : ∃ F F' : Family Int, Family.create [2, 3] 2 = .ok F ∧ F.copy 0 = .ok F' ∧ F'.nRows 1 = .ok 10 := by
  obtain ⟨F, F', h1, h2, _, _, h5, _⟩ := C10_copy_nRows_wrong (K := Int) (sizes := [2, 3]) (k := 2) (by decide) (by decide)
    (by simp [invalid]) (by decide)
  exact ⟨F, F', h1, h2, h5⟩

end Nla3d.Block
