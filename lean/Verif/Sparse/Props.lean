import Verif.Sparse.Prod
import Mathlib.Algebra.Order.Field.Basic
import Mathlib.Algebra.Order.Field.Rat
import Mathlib.Algebra.Order.Group.Abs
import Mathlib.Algebra.BigOperators.Fin
import Mathlib.Tactic.NormNum

/-!
# Properties C01 - C08: sparse matrices

`build n m k es ops` (see `Spec.lean`) is the life of a `SparseMatrix(n, m, k)`: `addEntry` for every
position of `es`, `compress`, then the value calls `ops`. The hypotheses `0 < k` and `m < 2^32 - 1`
are the ones the constructor asserts / the index type imposes; `InRange` and `Op.InRange` say that
the caller uses 1-based indices inside the shape (the code asserts it).
-/

set_option linter.unusedSectionVars false

namespace Nla3d.Sparse

open Finset

variable {K : Type _}

/-- Hypotheses on a whole life of a matrix. -/
structure Legal (n m k : Nat) (es : List (Nat × Nat)) (ops : List (Op K)) : Prop where
  pos : 0 < k
  small : m < invalid
  ents : InRange n m es
  calls : ∀ op ∈ ops, op.InRange n m

theorem build_ok [AddMonoid K] {n m k : Nat} {es : List (Nat × Nat)} {ops : List (Op K)}
    (h : Legal n m k es ops) {a : SpMat K} (hb : build n m k es ops = .ok a) :
    (∀ i, (colsOf es i).card ≤ min k m) ∧ (∀ op ∈ ops, op.Registered es) ∧ ∃ rows, Vals a rows (total ops) ∧
      Describes rows es ∧ a.si.nRows = n ∧ a.si.nColumns = m ∧ a.si.maxInRow = min k m := by
  rcases build_cases h.pos h.small es h.ents ops h.calls with ⟨⟨h1, h2⟩, a', rows, h3, h4⟩ | ⟨_, h1⟩
  · rw [hb] at h3
    simp only [Res.ok.injEq] at h3
    subst h3
    exact ⟨h1, h2, rows, h4⟩
  · rw [hb] at h1; simp at h1

theorem Csr.row_length {s : SpInfo} {rows : List (List Nat)} {es : List (Nat × Nat)} (h : Csr s rows)
    (hd : Describes rows es) {i : Nat} (hi : i < rows.length) : rows[i].length = (colsOf es (i + 1)).card := by
  have hnd : rows[i].Nodup := (h.sorted _ (List.getElem_mem hi)).imp (fun hlt => Nat.ne_of_lt hlt)
  rw [← List.toFinset_card_of_nodup hnd]
  congr 1
  ext j
  rw [List.mem_toFinset, mem_colsOf, hd i hi j]

theorem Csr.total_length {s : SpInfo} {rows : List (List Nat)} {es : List (Nat × Nat)} (h : Csr s rows)
    (hd : Describes rows es) {n m : Nat} (hn : s.nRows = n) (hr : InRange n m es) :
    rows.flatten.length = es.toFinset.card := by
  have h1 : rows.flatten.length = ∑ i ∈ Finset.range n, (colsOf es (i + 1)).card := by
    rw [List.length_flatten, ← Fin.sum_univ_eq_sum_range (fun i => (colsOf es (i + 1)).card) n, ← hn, ← h.len,
      ← List.sum_ofFn]
    congr 1
    apply List.ext_getElem (by simp)
    intro i h1 h2
    simp only [List.getElem_map, List.getElem_ofFn]
    exact h.row_length hd _
  rw [h1, Finset.card_eq_sum_card_fiberwise (f := fun p => p.1 - 1) (t := Finset.range n)]
  · apply Finset.sum_congr rfl
    intro i _
    symm
    apply Finset.card_bij (fun p _ => p.2)
    · intro p hp
      simp only [Finset.mem_filter, List.mem_toFinset] at hp
      have := (hr p hp.1).1
      rw [mem_colsOf, show i + 1 = p.1 by omega]
      exact hp.1
    · intro p hp q hq he
      simp only [Finset.mem_filter, List.mem_toFinset] at hp hq
      have h1 := (hr p hp.1).1
      have h2 := (hr q hq.1).1
      exact Prod.ext (by omega) he
    · intro j hj
      rw [mem_colsOf] at hj
      exact ⟨(i + 1, j), by simp [hj], rfl⟩
  · intro p hp
    simp only [List.coe_toFinset, Set.mem_ofPred_eq] at hp
    have := (hr p hp).1
    simp
    omega

/-! ## C01 -/

/-- **C01**: after any registration and `compress`, the stored positions are exactly the registered ones:
`nValues()` is the number of distinct positions, `nElementsInRow(i)` the number of distinct columns of row
`i`, and a lookup finds `(i,j)` iff it was registered. -/
theorem C01_pattern_exact [AddMonoid K] {n m k : Nat} {es : List (Nat × Nat)} {ops : List (Op K)}
    (h : Legal n m k es ops) {a : SpMat K} (hb : build n m k es ops = .ok a) :
    a.si.numberOfValues = es.toFinset.card ∧
    (∀ i, 0 < i → i ≤ n → a.si.nElementsInRow i = .ok (colsOf es i).card) ∧
    (∀ i j, 0 < i → i ≤ n → 0 < j → j ≤ m →
      (((i, j) ∈ es → ∃ p, a.si.getIndex i j = .ok (some p)) ∧ ((i, j) ∉ es → a.si.getIndex i j = .ok none))) := by
  obtain ⟨_, _, rows, hv, hd, hn, hm, _⟩ := build_ok h hb
  refine ⟨?_, ?_, ?_⟩
  · rw [hv.csr.num, hv.csr.total_length hd hn h.ents]
  · intro i h1 h2
    have hlt : i - 1 < rows.length := by rw [hv.csr.len]; omega
    unfold SpInfo.nElementsInRow
    rw [if_pos ⟨h1, by omega⟩, hv.csr.read_iof (by omega), hv.csr.read_iof (by omega)]
    have hoff := offset_succ hlt
    rw [Nat.sub_add_cancel h1] at hoff
    simp only [Res.ok_bind, Res.ok.injEq]
    rw [hoff, hv.csr.row_length hd hlt, Nat.sub_add_cancel h1]
    omega
  · intro i j h1 h2 h3 h4
    obtain ⟨hlt, hc⟩ := hv.csr.getIndex (i := i) (j := j) ⟨h1, by omega⟩ ⟨h3, by omega⟩
    have hmem : j ∈ rows[i - 1] ↔ (i, j) ∈ es := by rw [hd _ hlt, Nat.sub_add_cancel h1]
    rcases hc with ⟨p, hp, hpj, hg⟩ | ⟨hno, hg⟩
    · exact ⟨fun _ => ⟨_, hg⟩, fun hh => absurd (hmem.mp (hpj ▸ List.getElem_mem hp)) hh⟩
    · exact ⟨fun hh => absurd (hmem.mpr hh) hno, fun _ => hg⟩

/-- **C01** (order and repetitions do not matter): two registrations of the same set of positions lead to
the same matrix object, bit by bit, or both abort. -/
theorem C01_order_independent [AddMonoid K] {n m k : Nat} {es es' : List (Nat × Nat)} {ops : List (Op K)}
    (h : Legal n m k es ops) (hset : ∀ p, p ∈ es ↔ p ∈ es') :
    (build n m k es ops : Res (SpMat K)) = build n m k es' ops := by
  have hcols : ∀ i, colsOf es i = colsOf es' i := by
    intro i; ext j; rw [mem_colsOf, mem_colsOf, hset]
  have hreg : ∀ op : Op K, op.Registered es ↔ op.Registered es' := by
    intro op; cases op <;> simp [Op.Registered, hset]
  have h' : InRange n m es' := fun p hp => h.ents p ((hset p).mpr hp)
  rcases build_cases h.pos h.small es h.ents ops h.calls with
    ⟨⟨h1, h2⟩, a, rows, h3, h4, h5, h6, h7, h8⟩ | ⟨hbad, h1⟩ <;>
  rcases build_cases h.pos h.small es' h' ops h.calls with
    ⟨⟨g1, g2⟩, a', rows', g3, g4, g5, g6, g7, g8⟩ | ⟨gbad, g1⟩
  · have hrows : rows = rows' := rows_unique (by rw [h4.csr.len, g4.csr.len, h6, g6]) h4.csr.sorted g4.csr.sorted
      h5 g5 hset
    subst hrows
    obtain ⟨v, hv, hvl, hvv⟩ := h4.vals
    obtain ⟨w, hw, hwl, hww⟩ := g4.vals
    have hvw : v = w := by
      apply List.ext_getElem (by omega)
      intro t ht ht'
      obtain ⟨i, hi, q, hq, rfl⟩ := flat_index (rows := rows) (t := t) (by omega)
      have e1 := hvv i hi q hq
      have e2 := hww i hi q hq
      rw [List.getElem?_eq_getElem ht] at e1
      rw [List.getElem?_eq_getElem ht'] at e2
      simp only [Option.some.injEq] at e1 e2
      rw [e1, e2]
    have hsi : a.si = a'.si := by
      have e1 := h4.csr; have e2 := g4.csr
      have hh : ∀ s t : SpInfo, s.nRows = t.nRows → s.nColumns = t.nColumns → s.maxInRow = t.maxInRow →
          s.numberOfValues = t.numberOfValues → s.columns = t.columns → s.iofeir = t.iofeir →
          s.compressed = t.compressed → s = t := by
        intro s t; cases s; cases t; simp; tauto
      exact hh _ _ (by omega) (by omega) (by omega) (by rw [e1.num, e2.num]) (by rw [e1.cols, e2.cols])
        (by rw [e1.iof, e2.iof]) (by rw [e1.comp, e2.comp])
    have : a = a' := by
      cases a; cases a'; simp only [SpMat.mk.injEq] at *; exact ⟨hsi, by rw [hv, hw, hvw]⟩
    rw [h3, g3, this]
  · exfalso
    rcases gbad with ⟨i, hi⟩ | ⟨op, hop, hno⟩
    · rw [← hcols] at hi; have := h1 i; omega
    · exact hno ((hreg op).mp (h2 op hop))
  · exfalso
    rcases hbad with ⟨i, hi⟩ | ⟨op, hop, hno⟩
    · rw [hcols] at hi; have := g1 i; omega
    · exact hno ((hreg op).mpr (g2 op hop))
  · rw [h1, g1]

/-! ## C03 (needed by the examples of the other claims) -/

/-- **C03** (one call): after any successful registration history, one more in-range `addEntry(i,j)` aborts
iff column `j` is new in row `i` and the row already holds `min(max_in_row, nColumns)` distinct columns;
otherwise it succeeds. -/
theorem C03_overflow_iff {n m k : Nat} {es : List (Nat × Nat)} (hk : 0 < k) (hm : m < invalid)
    (hr : InRange n m es) {a : SpMat K} (hb : register n m k es = .ok a) {i j : Nat}
    (hi : 0 < i ∧ i ≤ n) (hj : 0 < j ∧ j ≤ m) :
    (a.addEntry i j = .fatal ↔ j ∉ colsOf es i ∧ (colsOf es i).card = min k m) ∧
    (a.addEntry i j ≠ .fatal → ∃ a', a.addEntry i j = .ok a') := by
  rcases register_cases (K := K) hk hm es hr with ⟨_, s, rows, h1, h2, h3, h4, h5, h6⟩ | ⟨_, h1⟩
  · rw [hb] at h1
    simp only [Res.ok.injEq] at h1
    subst h1
    unfold SpMat.addEntry
    rcases addEntry_describes h5 h6 (i := i) (j := j) (by omega) (by omega) with
      ⟨hor, s', rows', g1, _⟩ | ⟨g1, g2, g3⟩
    · simp only [g1, Res.ok_bind, reduceCtorEq, false_iff, ne_eq, not_false_eq_true, forall_const]
      refine ⟨?_, _, rfl⟩
      rintro ⟨q1, q2⟩
      rcases hor with hor | hor
      · exact q1 hor
      · omega
    · simp only [g3, Res.fatal_bind]
      exact ⟨⟨fun _ => ⟨g1, by omega⟩, fun _ => trivial⟩, fun hh => absurd rfl hh⟩
  · rw [hb] at h1; simp at h1

/-- **C03** (whole registration): it aborts iff some row gets more than `min(max_in_row, nColumns)` distinct
columns, and succeeds otherwise. -/
theorem C03_registration_outcome {n m k : Nat} {es : List (Nat × Nat)} (hk : 0 < k) (hm : m < invalid)
    (hr : InRange n m es) :
    ((register n m k es : Res (SpMat K)) = .fatal ↔ ∃ i, min k m < (colsOf es i).card) ∧
    ((∃ a : SpMat K, register n m k es = .ok a) ↔ ∀ i, (colsOf es i).card ≤ min k m) := by
  rcases register_cases (K := K) hk hm es hr with ⟨hle, s, rows, h1, _⟩ | ⟨⟨i, hi⟩, h1⟩
  · rw [h1]
    constructor
    · simp only [reduceCtorEq, false_iff, not_exists, not_lt]; exact hle
    · exact ⟨fun _ => hle, fun _ => ⟨_, rfl⟩⟩
  · rw [h1]
    constructor
    · simp only [true_iff]; exact ⟨i, hi⟩
    · simp only [reduceCtorEq, exists_false, false_iff, not_forall, not_le]; exact ⟨i, hi⟩

theorem colsOf_card_le {n m : Nat} {es : List (Nat × Nat)} (hr : InRange n m es) (i : Nat) :
    (colsOf es i).card ≤ m := by
  have hsub : colsOf es i ⊆ Finset.Icc 1 m := by
    intro j hj
    rw [mem_colsOf] at hj
    have := (hr _ hj).2
    simp at this
    simp; omega
  have := Finset.card_le_card hsub
  simpa using this

/-- **C03** (corollary): with `max_in_row ≥ nColumns` no in-range registration aborts. -/
theorem C03_never_aborts {n m k : Nat} {es : List (Nat × Nat)} (hk : 0 < k) (hm : m < invalid) (hmk : m ≤ k)
    (hr : InRange n m es) : ∃ a : SpMat K, register n m k es = .ok a := by
  refine ((C03_registration_outcome (K := K) hk hm hr).2).mpr (fun i => ?_)
  rw [min_eq_right hmk]
  exact colsOf_card_le hr i

example : ∃ a : SpMat ℤ, register 2 3 3 [(1, 2), (1, 3), (1, 2), (1, 1), (2, 3)] = .ok a :=
  C03_never_aborts (n := 2) (m := 3) (by decide) (by decide) (by decide) (by unfold InRange; decide)
example : (register 2 3 2 [(1, 2), (1, 3), (1, 2), (1, 1)] : Res (SpMat ℤ)) = .fatal :=
  ((C03_registration_outcome (by decide) (by decide) (by unfold InRange; decide)).1).mpr ⟨1, by decide⟩

/-- A life that succeeds, used by the examples below. -/
theorem exLegal : Legal (K := ℚ) 3 3 3 [(1, 2), (2, 3), (1, 2), (3, 1)]
    [.add 1 2 5, .zero, .add 1 2 2, .add 1 2 7, .add 3 1 (1/3)] :=
  ⟨by decide, by decide, by unfold InRange; decide, by simp [Op.InRange]⟩

theorem exBuild : ∃ a, build 3 3 3 [(1, 2), (2, 3), (1, 2), (3, 1)]
    [.add 1 2 5, .zero, .add 1 2 2, .add 1 2 7, .add 3 1 (1/3 : ℚ)] = .ok a := by
  have h := exLegal
  rcases build_cases h.pos h.small _ h.ents _ h.calls with ⟨_, a, _, h3, _⟩ | ⟨⟨i, hi⟩ | ⟨op, h1, h2⟩, _⟩
  · exact ⟨a, h3⟩
  · have := colsOf_card_le h.ents i; omega
  · exfalso
    simp at h1
    rcases h1 with rfl | rfl | rfl | rfl | rfl <;> simp [Op.Registered] at h2

example : ∃ a : SpMat ℚ, a.si.numberOfValues = 3 := by
  obtain ⟨a, ha⟩ := exBuild
  exact ⟨a, by rw [(C01_pattern_exact exLegal ha).1]; decide⟩
example : (build 3 3 3 [(1, 2), (2, 3), (1, 2), (3, 1)]
      [.add 1 2 5, .zero, .add 1 2 2, .add 1 2 7, .add 3 1 (1/3 : ℚ)] : Res (SpMat ℚ)) =
    build 3 3 3 [(3, 1), (2, 3), (1, 2)]
      [.add 1 2 5, .zero, .add 1 2 2, .add 1 2 7, .add 3 1 (1/3 : ℚ)] :=
  C01_order_independent exLegal (by intro p; simp; tauto)

/-! ## C02 -/

/-- **C02** (values): after any history of value calls, `value(i,j)` is the sum of what was added to `(i,j)`
since the last `zero()`; for a position that was never registered this is 0. -/
theorem C02_value_is_sum [AddMonoid K] {n m k : Nat} {es : List (Nat × Nat)} {ops : List (Op K)}
    (h : Legal n m k es ops) {a : SpMat K} (hb : build n m k es ops = .ok a) {i j : Nat}
    (hi : 0 < i ∧ i ≤ n) (hj : 0 < j ∧ j ≤ m) :
    a.value i j = .ok (total ops i j) ∧ ((i, j) ∉ es → a.value i j = .ok 0) := by
  obtain ⟨_, hreg, rows, hv, hd, hn, hm, _⟩ := build_ok h hb
  obtain ⟨hlt, hval⟩ := hv.value (i := i) (j := j) (by omega) (by omega)
  have hmem : j ∈ rows[i - 1] ↔ (i, j) ∈ es := by rw [hd _ hlt, Nat.sub_add_cancel hi.1]
  rw [hval]
  by_cases hin : (i, j) ∈ es
  · rw [if_pos (hmem.mpr hin)]
    exact ⟨rfl, fun hh => absurd hin hh⟩
  · rw [if_neg (fun hh => hin (hmem.mp hh)), total_unregistered hreg hin]
    exact ⟨rfl, fun _ => rfl⟩

/-- **C02** (outcomes): a legal life never runs into undefined behaviour or a failed assertion; it aborts iff
a row overflows or a value is added to a position that was not registered. -/
theorem C02_outcome [AddMonoid K] {n m k : Nat} {es : List (Nat × Nat)} {ops : List (Op K)}
    (h : Legal n m k es ops) :
    ((∃ a : SpMat K, build n m k es ops = .ok a) ∨ (build n m k es ops : Res (SpMat K)) = .fatal) ∧
    ((build n m k es ops : Res (SpMat K)) = .fatal ↔
      (∃ i, min k m < (colsOf es i).card) ∨ ∃ op ∈ ops, ¬ op.Registered es) := by
  rcases build_cases h.pos h.small es h.ents ops h.calls with ⟨⟨h1, h2⟩, a, rows, h3, _⟩ | ⟨hbad, h1⟩
  · rw [h3]
    refine ⟨Or.inl ⟨a, rfl⟩, ?_⟩
    simp only [reduceCtorEq, false_iff, not_or, not_exists, not_lt, not_and, not_not]
    exact ⟨h1, h2⟩
  · rw [h1]
    exact ⟨Or.inr rfl, by simpa using hbad⟩

/-- **C02** (element access): on a compressed matrix `operator()(i,j)` yields an element inside the value
array for a registered position and aborts for any other in-range position; so does `addValue`. -/
theorem C02_access [AddMonoid K] {n m k : Nat} {es : List (Nat × Nat)} {ops : List (Op K)}
    (h : Legal n m k es ops) {a : SpMat K} (hb : build n m k es ops = .ok a) {i j : Nat}
    (hi : 0 < i ∧ i ≤ n) (hj : 0 < j ∧ j ≤ m) (x : K) :
    ((i, j) ∈ es → (∃ p, a.ref i j = .ok p ∧ ∃ v, a.values = some v ∧ v[p]? = some (total ops i j)) ∧
      ∃ a', a.addValue i j x = .ok a') ∧
    ((i, j) ∉ es → a.ref i j = .fatal ∧ a.addValue i j x = .fatal) := by
  obtain ⟨_, hreg, rows, hv, hd, hn, hm, _⟩ := build_ok h hb
  obtain ⟨hlt, hadd⟩ := hv.addValue (i := i) (j := j) (by omega) (by omega) x
  have hmem : j ∈ rows[i - 1] ↔ (i, j) ∈ es := by rw [hd _ hlt, Nat.sub_add_cancel hi.1]
  obtain ⟨v, hvv, hvl, hval⟩ := hv.vals
  obtain ⟨_, hc⟩ := hv.csr.getIndex (i := i) (j := j) ⟨hi.1, by omega⟩ ⟨hj.1, by omega⟩
  constructor
  · intro hin
    rcases hc with ⟨p, hp, hpj, hg⟩ | ⟨hno, _⟩
    · refine ⟨⟨offset rows (i - 1) + p, ?_, v, hvv, ?_⟩, ?_⟩
      · unfold SpMat.ref
        rw [hvv]
        have := offset_lt_total hlt hp
        simp only [hg, Res.ok_bind]
        rw [if_pos (by omega)]
      · rw [hval _ hlt _ hp, hpj, Nat.sub_add_cancel hi.1]
      · rcases hadd with ⟨_, a', ha', _⟩ | ⟨hno, _⟩
        · exact ⟨a', ha'⟩
        · exact absurd (hmem.mpr hin) hno
    · exact absurd (hmem.mpr hin) hno
  · intro hin
    rcases hc with ⟨p, hp, hpj, hg⟩ | ⟨hno, hg⟩
    · exact absurd (hmem.mp (hpj ▸ List.getElem_mem hp)) hin
    · constructor
      · unfold SpMat.ref
        rw [hvv]
        simp [hg]
      · rcases hadd with ⟨hyes, _⟩ | ⟨_, hf⟩
        · exact absurd (hmem.mp hyes) hin
        · exact hf

example : ∃ a : SpMat ℚ, a.value 1 2 = .ok 9 ∧ a.value 2 2 = .ok 0 ∧ a.ref 2 2 = .fatal := by
  obtain ⟨a, ha⟩ := exBuild
  refine ⟨a, ?_, ?_, ?_⟩
  · rw [(C02_value_is_sum exLegal ha (by decide) (by decide)).1]; norm_num [total]
  · rw [(C02_value_is_sum exLegal ha (by decide) (by decide)).1]; norm_num [total]
  · exact ((C02_access exLegal ha (by decide) (by decide) 0).2 (by decide)).1

/-! ## C05 -/

/-- 1-based 3-array CSR as the direct solver's manual describes it: `iof` are the positions of the first
entries of the rows and one past the last, `cols` the columns. -/
structure ValidCsr (n m nnz : Nat) (iof cols : List Nat) : Prop where
  iofLen : iof.length = n + 1
  colsLen : cols.length = nnz
  first : iof[0]? = some 1
  last : iof[n]? = some (nnz + 1)
  mono : ∀ i x y, iof[i]? = some x → iof[i + 1]? = some y → x ≤ y
  incr : ∀ i x y, iof[i]? = some x → iof[i + 1]? = some y → ∀ p q c d, x - 1 ≤ p → p < q → q < y - 1 →
    cols[p]? = some c → cols[q]? = some d → c < d
  range : ∀ c ∈ cols, 1 ≤ c ∧ c ≤ m

theorem Csr.valid {s : SpInfo} {rows : List (List Nat)} (h : Csr s rows) :
    ValidCsr s.nRows s.nColumns s.numberOfValues s.iofeir s.columns := by
  have hget : ∀ i, i ≤ s.nRows → s.iofeir[i]? = some (offset rows i + 1) := fun i hi =>
    Res.read_eq_ok.mp (h.read_iof hi)
  have hlen : s.iofeir.length = s.nRows + 1 := by rw [h.iof, starts_length, h.len]
  have hbound : ∀ {i y}, s.iofeir[i + 1]? = some y → i < rows.length := by
    intro i y hy
    have := (List.getElem?_eq_some_iff.mp hy).1
    rw [h.len]; omega
  refine ⟨hlen, ?_, ?_, ?_, ?_, ?_, ?_⟩
  · rw [h.cols, h.num]
  · rw [hget 0 (by omega)]; simp [offset]
  · rw [hget _ le_rfl, h.num]
    have : offset rows s.nRows = rows.flatten.length := by
      unfold offset
      rw [List.take_of_length_le (by rw [h.len])]
    rw [this]
  · intro i x y hx hy
    have hi := hbound hy
    have := h.len
    rw [hget i (by omega)] at hx
    rw [hget (i + 1) (by omega)] at hy
    simp only [Option.some.injEq] at hx hy
    have := offset_mono (rows := rows) (Nat.le_succ i)
    simp at this
    omega
  · intro i x y hx hy p q c d hp hpq hq hc hd
    have hi := hbound hy
    have := h.len
    rw [hget i (by omega)] at hx
    rw [hget (i + 1) (by omega)] at hy
    simp only [Option.some.injEq] at hx hy
    have hoff := offset_succ hi
    obtain ⟨a, rfl⟩ : ∃ a, p = offset rows i + a := ⟨p - offset rows i, by omega⟩
    obtain ⟨b, rfl⟩ : ∃ b, q = offset rows i + b := ⟨q - offset rows i, by omega⟩
    rw [h.cols] at hc hd
    unfold offset at hc hd
    rw [flatten_get hi (by omega)] at hc hd
    simp only [Option.some.injEq] at hc hd
    rw [← hc, ← hd]
    exact (List.pairwise_iff_getElem.mp (h.sorted _ (List.getElem_mem hi))) a b _ _ (by omega)
  · intro c hc
    rw [h.cols, List.mem_flatten] at hc
    obtain ⟨r, hr, hcr⟩ := hc
    have := h.range r hr c hcr
    omega

/-- **C05**: the arrays of a compressed matrix are a valid 1-based CSR of the right shape. -/
theorem C05_valid_csr [AddMonoid K] {n m k : Nat} {es : List (Nat × Nat)} {ops : List (Op K)}
    (h : Legal n m k es ops) {a : SpMat K} (hb : build n m k es ops = .ok a) :
    ValidCsr n m a.si.numberOfValues a.si.iofeir a.si.columns := by
  obtain ⟨_, _, rows, hv, _, hn, hm, _⟩ := build_ok h hb
  have := hv.csr.valid
  rwa [hn, hm] at this

example : ∃ a : SpMat ℚ, ValidCsr 3 3 3 a.si.iofeir a.si.columns := by
  obtain ⟨a, ha⟩ := exBuild
  have h := C05_valid_csr exLegal ha
  rw [(C01_pattern_exact exLegal ha).1] at h
  exact ⟨a, h⟩

/-! ## C04, C05 for the symmetric matrix -/

theorem legalSym {n k : Nat} {es : List (Nat × Nat)} {ops : List (Op K)} (h : Legal n n k es ops) :
    Legal n n k (diagFrom 1 n ++ es.map up) (ops.map upOp) := by
  refine ⟨h.pos, h.small, ?_, ?_⟩
  · intro p hp
    simp only [List.mem_append, List.mem_map] at hp
    rcases hp with hp | ⟨q, hq, rfl⟩
    · obtain ⟨a, b⟩ := p
      rw [mem_diagFrom] at hp
      simp only
      omega
    · have := h.ents q hq
      simp only [up]
      omega
  · intro op hop
    simp only [List.mem_map] at hop
    obtain ⟨o, ho, rfl⟩ := hop
    have := h.calls o ho
    cases o with
    | zero => trivial
    | add i j v =>
      simp only [Op.InRange, upOp] at this ⊢
      omega

/-- **C04** (values): after any history on a `SparseSymMatrix`, `value(i,j)` and `value(j,i)` are both the sum
of what was added to `(i,j)` or `(j,i)` since the last `zero()`. -/
theorem C04_value_symmetric [AddMonoid K] {n k : Nat} {es : List (Nat × Nat)} {ops : List (Op K)}
    (h : Legal n n k es ops) {a : SpMat K} (hb : buildSym n k es ops = .ok a) {i j : Nat}
    (hi : 0 < i ∧ i ≤ n) (hj : 0 < j ∧ j ≤ n) :
    a.valueSym i j = .ok (totalSym ops i j) ∧ a.valueSym j i = .ok (totalSym ops i j) := by
  rw [buildSym_eq] at hb
  have := (C02_value_is_sum (legalSym h) hb (i := min i j) (j := max i j) (by omega) (by omega)).1
  rw [total_map_up] at this
  rw [valueSym_eq, valueSym_eq, min_comm j i, max_comm j i]
  exact ⟨this, this⟩

/-- Two call lists that differ only by swapping the two indices in some calls. -/
def SwapEq : Op K → Op K → Prop
  | .add i j v, .add i' j' v' => v = v' ∧ ((i = i' ∧ j = j') ∨ (i = j' ∧ j = i'))
  | .zero, .zero => True
  | _, _ => False

/-- **C04** (indistinguishable): swapping the indices in any registrations and value calls leads to the same
outcome, and on success to the same object. -/
theorem C04_swap_indistinguishable [Zero K] [Add K] {n k : Nat} {es es' : List (Nat × Nat)} {ops ops' : List (Op K)}
    (hes : List.Forall₂ (fun p q => q = p ∨ q = p.swap) es es') (hops : List.Forall₂ SwapEq ops ops') :
    (buildSym n k es ops : Res (SpMat K)) = buildSym n k es' ops' := by
  rw [buildSym_eq, buildSym_eq]
  have h1 : es.map up = es'.map up := by
    induction hes with
    | nil => rfl
    | cons hpq _ ih =>
      rw [List.map_cons, List.map_cons, ih]
      congr 1
      rcases hpq with rfl | rfl
      · rfl
      · simp [up, min_comm, max_comm]
  have h2 : ops.map upOp = ops'.map upOp := by
    induction hops with
    | nil => rfl
    | @cons x y _ _ hxy _ ih =>
      rw [List.map_cons, List.map_cons, ih]
      congr 1
      cases x <;> cases y <;> simp only [SwapEq] at hxy
      · obtain ⟨rfl, ⟨rfl, rfl⟩ | ⟨rfl, rfl⟩⟩ := hxy
        · rfl
        · simp [upOp, min_comm, max_comm]
      · rfl
  rw [h1, h2]

/-- **C04/C05** (storage of a constructed `SparseSymMatrix`): a valid CSR; nothing below the diagonal; every
diagonal position present (so the first entry of every row is the diagonal one); a position `i ≤ j` is stored iff
it is diagonal or was registered in either order. -/
theorem C05_sym_upper_with_diagonal [AddMonoid K] {n k : Nat} {es : List (Nat × Nat)} {ops : List (Op K)}
    (h : Legal n n k es ops) {a : SpMat K} (hb : buildSym n k es ops = .ok a) :
    ValidCsr n n a.si.numberOfValues a.si.iofeir a.si.columns ∧
    (∀ i j, 0 < j → j < i → i ≤ n → a.si.getIndex i j = .ok none) ∧
    (∀ i, 0 < i → i ≤ n → ∃ p, a.si.getIndex i i = .ok (some p)) ∧
    (∀ i j, 0 < i → i ≤ j → j ≤ n →
      ((∃ p, a.si.getIndex i j = .ok (some p)) ↔ i = j ∨ (i, j) ∈ es ∨ (j, i) ∈ es)) := by
  rw [buildSym_eq] at hb
  have hpat := (C01_pattern_exact (legalSym h) hb).2.2
  have hmem : ∀ i j, (i, j) ∈ diagFrom 1 n ++ es.map up ↔
      (i = j ∧ 1 ≤ i ∧ i < 1 + n) ∨ (i ≤ j ∧ ((i, j) ∈ es ∨ (j, i) ∈ es)) := by
    intro i j
    simp only [List.mem_append, List.mem_map, mem_diagFrom]
    constructor
    · rintro (hh | ⟨q, hq, he⟩)
      · exact Or.inl hh
      · right
        simp only [up, Prod.mk.injEq] at he
        refine ⟨by omega, ?_⟩
        rcases Nat.le_total q.1 q.2 with hle | hle
        · left; rw [← he.1, ← he.2, min_eq_left hle, max_eq_right hle]; exact hq
        · right; rw [← he.1, ← he.2, min_eq_right hle, max_eq_left hle]; exact hq
    · rintro (hh | ⟨hle, hh | hh⟩)
      · exact Or.inl hh
      · exact Or.inr ⟨_, hh, by simp [up, hle]⟩
      · exact Or.inr ⟨_, hh, by simp [up, hle]⟩
  refine ⟨C05_valid_csr (legalSym h) hb, ?_, ?_, ?_⟩
  · intro i j h1 h2 h3
    apply (hpat i j (by omega) h3 h1 (by omega)).2
    rw [hmem]
    omega
  · intro i h1 h2
    apply (hpat i i h1 h2 h1 h2).1
    rw [hmem]; left; omega
  · intro i j h1 h2 h3
    have hp := hpat i j h1 (by omega) (by omega) h3
    have hm := hmem i j
    constructor
    · rintro ⟨p, hp'⟩
      by_contra hno
      have : (i, j) ∉ diagFrom 1 n ++ es.map up := by
        rw [hm]; push Not at hno ⊢
        exact ⟨fun e => absurd e hno.1, fun _ => hno.2⟩
      rw [hp.2 this] at hp'
      simp at hp'
    · intro hyes
      apply hp.1
      rw [hm]
      rcases hyes with rfl | hyes
      · left; omega
      · right; exact ⟨h2, hyes⟩

/-- **C05**, violated part: a `SparseSymMatrix` prepared with `reinit(n, max_in_row)` instead of the constructor
gets no diagonal positions; compressing it leaves a CSR without diagonal, which the direct solver rejects. -/
theorem C05_reinit_lacks_diagonal : ∃ a : SpMat ℚ,
    (do let m ← SpMat.init 2 2 2; let m ← m.addEntrySym 1 2; m.compress) = .ok a ∧
    a.si.getIndex 1 1 = .ok none ∧ a.si.getIndex 2 2 = .ok none ∧ a.si.numberOfValues = 1 := by
  have hl : Legal (K := ℚ) 2 2 2 [(1, 2)] [] := ⟨by decide, by decide, by unfold InRange; decide, by simp⟩
  have hex : ∃ a : SpMat ℚ, build 2 2 2 [(1, 2)] [] = .ok a := by
    rcases build_cases hl.pos hl.small _ hl.ents _ hl.calls with ⟨_, a, _, h3, _⟩ | ⟨⟨i, hi⟩ | ⟨op, h1, _⟩, _⟩
    · exact ⟨a, h3⟩
    · have := colsOf_card_le hl.ents i; omega
    · simp at h1
  obtain ⟨a, ha⟩ := hex
  have hp := C01_pattern_exact hl ha
  refine ⟨a, ?_, (hp.2.2 1 1 (by decide) (by decide) (by decide) (by decide)).2 (by decide),
    (hp.2.2 2 2 (by decide) (by decide) (by decide) (by decide)).2 (by decide), by rw [hp.1]; decide⟩
  rw [← ha]
  unfold build register
  cases SpMat.init (K := ℚ) 2 2 2 with
  | ok m =>
    simp only [Res.ok_bind, Res.foldlM'_cons, Res.foldlM'_nil, SpMat.addEntrySym]
    rw [if_neg (by decide)]
    cases SpMat.addEntry m 1 2 with
    | ok m' => simp only [Res.ok_bind]; cases SpMat.compress m' <;> rfl
    | fatal => rfl
    | assert => rfl
    | ub => rfl
  | fatal => rfl
  | assert => rfl
  | ub => rfl

/-- A symmetric life that succeeds. -/
theorem exSym : ∃ a : SpMat ℚ, buildSym 3 3 [(2, 1), (1, 3)] [.add 1 2 5, .add 2 1 4, .add 3 3 1] = .ok a ∧
    a.valueSym 1 2 = .ok 9 ∧ a.valueSym 2 1 = .ok 9 := by
  have h : Legal (K := ℚ) 3 3 3 [(2, 1), (1, 3)] [.add 1 2 5, .add 2 1 4, .add 3 3 1] :=
    ⟨by decide, by decide, by unfold InRange; decide, by simp [Op.InRange]⟩
  have hl := legalSym h
  have hex : ∃ a : SpMat ℚ, buildSym 3 3 [(2, 1), (1, 3)] [.add 1 2 5, .add 2 1 4, .add 3 3 1] = .ok a := by
    rw [buildSym_eq]
    rcases build_cases hl.pos hl.small _ hl.ents _ hl.calls with ⟨_, a, _, h3, _⟩ | ⟨⟨i, hi⟩ | ⟨op, h1, h2⟩, _⟩
    · exact ⟨a, h3⟩
    · have := colsOf_card_le hl.ents i; omega
    · exfalso
      simp [upOp] at h1
      rcases h1 with rfl | rfl | rfl <;> simp [Op.Registered, diagFrom, up] at h2
  obtain ⟨a, ha⟩ := hex
  have hv := C04_value_symmetric h ha (i := 1) (j := 2) (by decide) (by decide)
  refine ⟨a, ha, ?_, ?_⟩
  · rw [hv.1]; norm_num [totalSym]
  · rw [hv.2]; norm_num [totalSym]

example : (buildSym 3 3 [(2, 1), (1, 3)] [.add 1 2 5, .add 2 1 4, .add 3 3 1] : Res (SpMat ℚ)) =
    buildSym 3 3 [(1, 2), (1, 3)] [.add 2 1 5, .add 2 1 4, .add 3 3 1] :=
  C04_swap_indistinguishable (by simp) (by simp [SwapEq])

/-! ## C06, C07 -/

section Ordered

variable [Field K] [LinearOrder K] [IsStrictOrderedRing K]

/-- `fabs(d) > th`. -/
def exceeds (th d : K) : Bool := decide (th < |d|)

/-- **C07**: `compare(op2, th)` returns true iff both matrices have the same shape, the same stored positions and
values that differ by at most `th` at each of them. -/
theorem C07_compare_iff {n m k n' m' k' : Nat} {es es' : List (Nat × Nat)} {ops ops' : List (Op K)}
    (h : Legal n m k es ops) (h' : Legal n' m' k' es' ops') {a b : SpMat K}
    (ha : build n m k es ops = .ok a) (hb : build n' m' k' es' ops' = .ok b) (th : K) :
    ∃ r, a.compare (exceeds th) b = .ok r ∧
      (r = true ↔ n = n' ∧ m = m' ∧ (∀ p, p ∈ es ↔ p ∈ es') ∧
        ∀ i j, (i, j) ∈ es → |total ops i j - total ops' i j| ≤ th) := by
  obtain ⟨_, _, rows, hv, hd, hn, hm, _⟩ := build_ok h ha
  obtain ⟨_, _, rows', hv', hd', hn', hm', _⟩ := build_ok h' hb
  obtain ⟨r, hr, hiff⟩ := hv.compare hv' (exceeds th)
  refine ⟨r, hr, hiff.trans ?_⟩
  rw [hn, hn', hm, hm']
  have hlen := hv.csr.len
  have hlen' := hv'.csr.len
  have mem_iff : ∀ i j, (i, j) ∈ es ↔ ∃ (t : Nat) (ht : t < rows.length), i = t + 1 ∧ j ∈ rows[t] := by
    intro i j
    constructor
    · intro hij
      have hb := (h.ents _ hij).1
      simp only at hb
      have ht : i - 1 < rows.length := by omega
      exact ⟨i - 1, ht, by omega, (hd _ ht _).mpr (by rw [Nat.sub_add_cancel hb.1]; exact hij)⟩
    · rintro ⟨t, ht, rfl, hj⟩
      exact (hd t ht j).mp hj
  constructor
  · rintro ⟨h1, h2, h3, h4⟩
    refine ⟨h1, h2, ?_, ?_⟩
    · rintro ⟨i, j⟩
      subst h3
      constructor
      · intro hij
        obtain ⟨t, ht, rfl, hj⟩ := (mem_iff i j).mp hij
        exact (hd' t ht j).mp hj
      · intro hij
        have hb := (h'.ents _ hij).1
        simp only at hb
        have ht : i - 1 < rows.length := by omega
        have := (hd' _ ht j).mpr (by rw [Nat.sub_add_cancel hb.1]; exact hij)
        rw [mem_iff]
        exact ⟨i - 1, ht, by omega, this⟩
    · intro i j hij
      obtain ⟨t, ht, rfl, hj⟩ := (mem_iff i j).mp hij
      have := h4 t ht j hj
      simpa [exceeds] using this
  · rintro ⟨h1, h2, h3, h4⟩
    have hrows : rows = rows' := rows_unique (by omega) hv.csr.sorted hv'.csr.sorted hd hd' h3
    refine ⟨h1, h2, hrows, ?_⟩
    intro i hi c hc
    have := h4 (i + 1) c ((hd i hi c).mp hc)
    simpa [exceeds] using this

/-- **C07** (corollary): `compare` is reflexive for non-negative thresholds. -/
theorem C07_refl {n m k : Nat} {es : List (Nat × Nat)} {ops : List (Op K)} (h : Legal n m k es ops) {a : SpMat K}
    (ha : build n m k es ops = .ok a) {th : K} (hth : 0 ≤ th) : a.compare (exceeds th) a = .ok true := by
  obtain ⟨r, hr, hiff⟩ := C07_compare_iff h h ha ha th
  rw [hr, hiff.mpr ⟨rfl, rfl, fun _ => Iff.rfl, fun i j _ => by simpa using hth⟩]

/-- **C07** (corollary): `compare` is symmetric. -/
theorem C07_symm {n m k n' m' k' : Nat} {es es' : List (Nat × Nat)} {ops ops' : List (Op K)}
    (h : Legal n m k es ops) (h' : Legal n' m' k' es' ops') {a b : SpMat K}
    (ha : build n m k es ops = .ok a) (hb : build n' m' k' es' ops' = .ok b) (th : K) :
    a.compare (exceeds th) b = b.compare (exceeds th) a := by
  obtain ⟨r, hr, hiff⟩ := C07_compare_iff h h' ha hb th
  obtain ⟨r', hr', hiff'⟩ := C07_compare_iff h' h hb ha th
  rw [hr, hr']
  congr 1
  rw [Bool.eq_iff_iff, hiff, hiff']
  constructor <;>
  · rintro ⟨h1, h2, h3, h4⟩
    refine ⟨h1.symm, h2.symm, fun p => (h3 p).symm, fun i j hij => ?_⟩
    rw [abs_sub_comm]
    exact h4 i j ((h3 _).mpr hij)

example : ∃ a : SpMat ℚ, a.compare (exceeds (1/10)) a = .ok true := by
  obtain ⟨a, ha⟩ := exBuild
  exact ⟨a, C07_refl exLegal ha (by norm_num)⟩

/-- **C06** (`reinit` from an entry list): every in-range list is accepted; the stored positions are exactly the
listed ones, the last value wins for duplicates and every other position reads 0. -/
theorem C06_reinit_entries {n m : Nat} (hm : m < invalid) (es : List (Entry K))
    (hr : InRange n m (es.map (fun e => (e.i, e.j)))) :
    ∃ a : SpMat K, SpMat.reinitEntries n m es = .ok a ∧ a.si.nRows = n ∧ a.si.nColumns = m ∧
      ∀ i j, 0 < i → i ≤ n → 0 < j → j ≤ m →
        ((∃ p, a.si.getIndex i j = .ok (some p)) ↔ ∃ v, (⟨i, j, v⟩ : Entry K) ∈ es) ∧
        a.value i j = .ok (((es.filter (fun e => e.i = i ∧ e.j = j)).getLast?.map Entry.v).getD 0) := by
  obtain ⟨a, rows, h1, h2, h3, h4, h5⟩ := reinit_ok hm es hr
  refine ⟨a, h1, h4, h5, ?_⟩
  intro i j hi1 hi2 hj1 hj2
  obtain ⟨hlt, hc⟩ := h2.csr.getIndex (i := i) (j := j) ⟨hi1, by omega⟩ ⟨hj1, by omega⟩
  obtain ⟨_, hval⟩ := h2.value (i := i) (j := j) (by omega) (by omega)
  have hmem : j ∈ rows[i - 1] ↔ ∃ v, (⟨i, j, v⟩ : Entry K) ∈ es := by
    rw [h3 _ hlt, Nat.sub_add_cancel hi1, posOf]
    simp only [List.mem_map, Prod.mk.injEq]
    constructor
    · rintro ⟨e, he, rfl, rfl⟩; exact ⟨e.v, he⟩
    · rintro ⟨v, hv⟩; exact ⟨_, hv, rfl, rfl⟩
  have hlast : lastVal es i j = ((es.filter (fun e => e.i = i ∧ e.j = j)).getLast?.map Entry.v).getD 0 := by
    clear h1 h2 h3 h4 h5 hc hval hmem hr
    induction es using List.reverseRecOn with
    | nil => rfl
    | append_singleton es e ih =>
      have : lastVal (es ++ [e]) i j = if e.i = i ∧ e.j = j then e.v else lastVal es i j := by simp [lastVal]
      rw [this, List.filter_append]
      by_cases hc : e.i = i ∧ e.j = j
      · simp [hc]
      · simp [hc, ih]
  constructor
  · rw [← hmem]
    rcases hc with ⟨p, hp, hpj, hg⟩ | ⟨hno, hg⟩
    · exact ⟨fun _ => hpj ▸ List.getElem_mem hp, fun _ => ⟨_, hg⟩⟩
    · rw [hg]; simp [hno]
  · rw [hval, ← hlast]
    by_cases hin : j ∈ rows[i - 1]
    · rw [if_pos hin]
    · rw [if_neg hin]
      have hno : es.filter (fun e => e.i = i ∧ e.j = j) = [] := by
        rw [List.filter_eq_nil_iff]
        intro e he
        simp only [decide_eq_true_eq]
        rintro ⟨rfl, rfl⟩
        exact hin (hmem.mpr ⟨e.v, he⟩)
      rw [hlast, hno]
      rfl

example : ∃ a : SpMat ℚ, SpMat.reinitEntries 2 2 [⟨1, 2, 3⟩, ⟨2, 2, 1⟩, ⟨1, 2, 7⟩] = .ok a ∧
    a.value 1 2 = .ok 7 ∧ a.value 1 1 = .ok 0 := by
  obtain ⟨a, h1, _, _, h4⟩ := C06_reinit_entries (n := 2) (m := 2) (by decide)
    ([⟨1, 2, 3⟩, ⟨2, 2, 1⟩, ⟨1, 2, 7⟩] : List (Entry ℚ)) (by unfold InRange; decide)
  refine ⟨a, h1, ?_, ?_⟩
  · rw [(h4 1 2 (by decide) (by decide) (by decide) (by decide)).2]; simp
  · rw [(h4 1 1 (by decide) (by decide) (by decide) (by decide)).2]; simp

/-- **C06** (round trip): a compressed matrix can be written and read back; the result has the same shape and
pattern, and each stored value is the printed one (`rnd`). Whenever printing changes no value by more than `th`,
`compare` of the original with the copy succeeds; in particular with exact printing for `th = 0`. -/
theorem C06_round_trip {n m k : Nat} {es : List (Nat × Nat)} {ops : List (Op K)} (h : Legal n m k es ops)
    {a : SpMat K} (ha : build n m k es ops = .ok a) (rnd : K → K) :
    ∃ file b, a.writeCoords = .ok file ∧ SpMat.readCoords rnd file = .ok b ∧
      b.si.nRows = n ∧ b.si.nColumns = m ∧ b.si.columns = a.si.columns ∧ b.si.iofeir = a.si.iofeir ∧
      (∀ i j, 0 < i → i ≤ n → 0 < j → j ≤ m →
        b.value i j = .ok (if (i, j) ∈ es then rnd (total ops i j) else 0)) ∧
      ∀ th, (∀ i j, |total ops i j - rnd (total ops i j)| ≤ th) → a.compare (exceeds th) b = .ok true := by
  obtain ⟨_, _, rows, hv, hd, hn, hm, _⟩ := build_ok h ha
  have hw := hv.writeCoords
  set E := entriesFrom (total ops) 1 rows with hE
  set E' := E.map (fun e => ({ e with v := rnd e.v } : Entry K)) with hE'
  have hlen : E.length = a.si.numberOfValues := by rw [entriesFrom_length, hv.csr.num]
  have hpos : posOf E' = E.map (fun e => (e.i, e.j)) := by
    simp [posOf, hE', List.map_map, Function.comp_def]
  have hmemE : ∀ i j, (i, j) ∈ posOf E' ↔ (i, j) ∈ es := by
    intro i j
    rw [hpos]
    simp only [List.mem_map, Prod.mk.injEq]
    constructor
    · rintro ⟨e, he, rfl, rfl⟩
      obtain ⟨t, ht, h1, h2, _⟩ := (mem_entriesFrom _ e rows 1).mp he
      have := (hd t ht e.j).mp h2
      rw [h1, Nat.add_comm]; exact this
    · intro hij
      have hb := (h.ents _ hij).1
      simp only at hb
      have ht : i - 1 < rows.length := by rw [hv.csr.len]; omega
      refine ⟨⟨i, j, total ops i j⟩, (mem_entriesFrom _ _ rows 1).mpr ⟨i - 1, ht, ?_, ?_, rfl⟩, rfl, rfl⟩
      · simp only; omega
      · exact (hd _ ht j).mpr (by rw [Nat.sub_add_cancel hb.1]; exact hij)
  have hrange : InRange n m (posOf E') := by
    rintro ⟨i, j⟩ hp
    exact h.ents _ ((hmemE i j).mp hp)
  obtain ⟨b, rows', h1, h2, h3, h4, h5⟩ := reinit_ok h.small E' hrange
  have hrows : rows' = rows := rows_unique (by rw [h2.csr.len, hv.csr.len, h4, hn]) h2.csr.sorted hv.csr.sorted h3 hd
    (fun p => hmemE p.1 p.2)
  subst hrows
  -- the last value of a position
  have hlast : ∀ i j, (i, j) ∈ es → lastVal E' i j = rnd (total ops i j) := by
    intro i j hij
    have key : ∀ (l : List (Entry K)), (∀ e ∈ l, e.v = rnd (total ops e.i e.j)) →
        (i, j) ∈ posOf l → lastVal l i j = rnd (total ops i j) := by
      intro l
      induction l using List.reverseRecOn with
      | nil => intro _ hh; simp [posOf] at hh
      | append_singleton l e ih =>
        intro hl hh
        have : lastVal (l ++ [e]) i j = if e.i = i ∧ e.j = j then e.v else lastVal l i j := by simp [lastVal]
        rw [this]
        split
        · rename_i hc
          rw [hl e (by simp), hc.1, hc.2]
        · rename_i hc
          apply ih (fun x hx => hl x (by simp [hx]))
          simp only [posOf, List.map_append, List.map_cons, List.map_nil, List.mem_append, List.mem_singleton,
            Prod.mk.injEq] at hh
          rcases hh with hh | ⟨e1, e2⟩
          · exact hh
          · exact absurd ⟨e1.symm, e2.symm⟩ hc
    apply key E' ?_ ((hmemE i j).mpr hij)
    intro e he
    simp only [hE', List.mem_map] at he
    obtain ⟨e0, he0, rfl⟩ := he
    obtain ⟨_, _, _, _, h3⟩ := (mem_entriesFrom _ e0 rows' 1).mp he0
    simp only [h3]
  refine ⟨_, b, hw, ?_, h4, h5, by rw [h2.csr.cols, hv.csr.cols], by rw [h2.csr.iof, hv.csr.iof], ?_, ?_⟩
  · unfold SpMat.readCoords
    simp only [hlen, le_refl, if_true, hn, hm]
    rw [← hlen, List.take_length]
    exact h1
  · intro i j hi1 hi2 hj1 hj2
    obtain ⟨hlt, hval⟩ := h2.value (i := i) (j := j) (by omega) (by omega)
    have hmem : j ∈ rows'[i - 1] ↔ (i, j) ∈ es := by rw [hd _ hlt, Nat.sub_add_cancel hi1]
    rw [hval]
    by_cases hin : (i, j) ∈ es
    · rw [if_pos (hmem.mpr hin), if_pos hin, hlast i j hin]
    · rw [if_neg (fun hh => hin (hmem.mp hh)), if_neg hin]
  · intro th hth
    obtain ⟨r, hr, hiff⟩ := hv.compare h2 (exceeds th)
    rw [hr]
    congr 1
    rw [hiff, hn, hm, h4, h5]
    refine ⟨rfl, rfl, rfl, ?_⟩
    intro i hi c hc
    rw [hlast _ _ ((hd i hi c).mp hc)]
    simpa [exceeds] using hth (i + 1) c

example : ∃ (a b : SpMat ℚ) (file : (Nat × Nat × Nat) × List (Entry ℚ)), a.writeCoords = .ok file ∧
    SpMat.readCoords (fun x => x) file = .ok b ∧ a.compare (exceeds 0) b = .ok true := by
  obtain ⟨a, ha⟩ := exBuild
  obtain ⟨file, b, h1, h2, _, _, _, _, _, h3⟩ := C06_round_trip exLegal ha (fun x => x)
  exact ⟨a, b, file, h1, h2, h3 0 (by simp)⟩

end Ordered

/-! ## C08 -/

theorem entry_total [Semiring K] {n : Nat} {es : List (Nat × Nat)} {ops : List (Op K)}
    {a : SpMat K} {rows : List (List Nat)} (hv : Vals a rows (total ops))
    (hd : Describes rows es) (hn : a.si.nRows = n) (hreg : ∀ op ∈ ops, op.Registered es) (t j : Nat) (ht : t < n) :
    entry rows (total ops) (t + 1) j = total ops (t + 1) j := by
  have hlt : t < rows.length := by rw [hv.csr.len]; omega
  unfold entry
  simp only [Nat.add_sub_cancel, List.getD_eq_getElem?_getD, List.getElem?_eq_getElem hlt, Option.getD_some]
  by_cases hin : j ∈ rows[t]
  · rw [if_pos hin]
  · rw [if_neg hin, total_unregistered hreg (fun hh => hin ((hd t hlt j).mpr hh))]

/-- **C08**: `matBVprod(B, V, c, R)` for a `SparseMatrix` leaves `R + c*B*V` in the first `nRows` components of
`R` and does not touch the others. -/
theorem C08_matBVprod [CommSemiring K] {n m k : Nat} {es : List (Nat × Nat)} {ops : List (Op K)}
    (h : Legal n m k es ops) {a : SpMat K} (ha : build n m k es ops = .ok a) (V R : List K) (c : K)
    (hV : V.length = m) (hR : n ≤ R.length) :
    ∃ R', a.matBVprod V c R = .ok R' ∧ R'.length = R.length ∧ ∀ i (hi : i < R.length),
      R'[i]? = some (if i < n then R[i] + c * ∑ j ∈ range m, total ops (i + 1) (j + 1) * V.getD j 0 else R[i]) := by
  obtain ⟨_, hreg, rows, hv, hd, hn, hm, _⟩ := build_ok h ha
  obtain ⟨v, hvv, _, _⟩ := hv.vals
  have hlen := hv.csr.len
  obtain ⟨R', h1, h2, h3⟩ := hv.bvLoop hvv V c (by omega) rows.length 0 R (by omega) (by omega)
  refine ⟨R', ?_, h2, ?_⟩
  · unfold SpMat.matBVprod
    rw [hvv]
    simp only [hv.csr.comp, true_and, not_and, not_le]
    rw [if_neg (by simp; omega), ← hlen]
    exact h1
  · intro i hi
    rw [h3 i hi, hlen, hn, hV]
    by_cases hin : i < n
    · rw [if_pos ⟨Nat.zero_le _, hin⟩, if_pos hin]
      congr 3
      apply Finset.sum_congr rfl
      intro j _
      rw [entry_total hv hd hn hreg i (j + 1) hin]
    · rw [if_neg (by omega), if_neg hin]

/-- **C08**: `matBTVprod(B, V, c, R)` leaves `R + c*B^T*V` in `R`. -/
theorem C08_matBTVprod [CommSemiring K] {n m k : Nat} {es : List (Nat × Nat)} {ops : List (Op K)}
    (h : Legal n m k es ops) {a : SpMat K} (ha : build n m k es ops = .ok a) (V R : List K) (c : K)
    (hV : V.length = n) (hR : m ≤ R.length) :
    ∃ R', a.matBTVprod V c R = .ok R' ∧ R'.length = R.length ∧ ∀ j (hj : j < R.length),
      R'[j]? = some (if j < m then R[j] + c * ∑ i ∈ range n, total ops (i + 1) (j + 1) * V.getD i 0 else R[j]) := by
  obtain ⟨_, hreg, rows, hv, hd, hn, hm, _⟩ := build_ok h ha
  obtain ⟨v, hvv, _, _⟩ := hv.vals
  have hlen := hv.csr.len
  obtain ⟨R', h1, h2, h3⟩ := hv.btvLoop hvv V c (by omega) rows.length 0 R (by omega) (by omega)
  refine ⟨R', ?_, h2, ?_⟩
  · unfold SpMat.matBTVprod
    rw [hvv]
    simp only [hv.csr.comp, true_and, not_and, not_le]
    rw [if_neg (by simp; omega), ← hlen]
    exact h1
  · intro j hj
    rw [h3 j hj, hlen, hn]
    have hsum : ∑ s ∈ range n, entry rows (total ops) (0 + s + 1) (j + 1) * V.getD (0 + s) 0 =
        ∑ i ∈ range n, total ops (i + 1) (j + 1) * V.getD i 0 := by
      apply Finset.sum_congr rfl
      intro s hs
      rw [Nat.zero_add, entry_total hv hd hn hreg s (j + 1) (Finset.mem_range.mp hs)]
    rw [hsum]
    by_cases hjm : j < m
    · rw [if_pos hjm]
    · rw [if_neg hjm]
      have : ∑ i ∈ range n, total ops (i + 1) (j + 1) * V.getD i 0 = 0 := by
        apply Finset.sum_eq_zero
        intro i _
        rw [total_unregistered hreg, zero_mul]
        intro hij
        have := (h.ents _ hij).2
        simp only at this
        omega
      rw [this]; simp

/-- **C08** (symmetric matrix): `matBVprod(B, V, c, R)` for a `SparseSymMatrix` leaves `R + c*B*V` in `R`, where
`B` is the full symmetric matrix and components `|V_j| ≤ 1e-20` are taken as 0. -/
theorem C08_matBVprod_sym [Field K] [LinearOrder K] [IsStrictOrderedRing K] {n k : Nat} {es : List (Nat × Nat)}
    {ops : List (Op K)} (h : Legal n n k es ops) {a : SpMat K} (ha : buildSym n k es ops = .ok a) (V R : List K)
    (c : K) (hV : V.length = n) (hR : n ≤ R.length) :
    ∃ R', a.matBVprodSym (exceeds (1 / 10 ^ 20)) V c R = .ok R' ∧ R'.length = R.length ∧ ∀ i (hi : i < R.length),
      R'[i]? = some (if i < n then R[i] + c * ∑ j ∈ range n, totalSym ops (i + 1) (j + 1) *
        (if (1 / 10 ^ 20 : K) < |V.getD j 0| then V.getD j 0 else 0) else R[i]) := by
  have hval := fun i j (hi : 0 < i ∧ i ≤ n) (hj : 0 < j ∧ j ≤ n) => C04_value_symmetric h ha (i := i) (j := j) hi hj
  rw [buildSym_eq] at ha
  obtain ⟨_, hreg, rows, hv, hd, hn, hm, _⟩ := build_ok (legalSym h) ha
  obtain ⟨v, hvv, _, _⟩ := hv.vals
  obtain ⟨R', h1, h2, h3⟩ := symLoop_spec (exceeds (1 / 10 ^ 20)) a V c (totalSym ops) n hn hV
    (fun i j h1 h2 h3 h4 => hval i j ⟨h1, h2⟩ ⟨h3, h4⟩) n 0 R (by omega) hR
  refine ⟨R', ?_, h2, ?_⟩
  · unfold SpMat.matBVprodSym
    rw [hvv]
    simp only [hv.csr.comp, true_and, not_and, not_le, hn]
    rw [if_neg (by simp; omega)]
    exact h1
  · intro i hi
    rw [h3 i hi]
    simp only [Nat.zero_le, true_and, exceeds, decide_eq_true_eq]

/-- **C08**: vectors of other sizes are refused by an assert, no element outside of them is read or written. -/
theorem C08_sizes [CommSemiring K] {n m k : Nat} {es : List (Nat × Nat)} {ops : List (Op K)}
    (h : Legal n m k es ops) {a : SpMat K} (ha : build n m k es ops = .ok a) (V R : List K) (c : K) :
    (¬ (V.length = m ∧ n ≤ R.length) → a.matBVprod V c R = .assert) ∧
    (¬ (V.length = n ∧ m ≤ R.length) → a.matBTVprod V c R = .assert) := by
  obtain ⟨_, hreg, rows, hv, hd, hn, hm, _⟩ := build_ok h ha
  obtain ⟨v, hvv, _, _⟩ := hv.vals
  constructor
  · intro hno
    unfold SpMat.matBVprod
    rw [hvv]
    dsimp only
    rw [if_pos]
    rintro ⟨_, h1, h2⟩
    exact hno ⟨by omega, by omega⟩
  · intro hno
    unfold SpMat.matBTVprod
    rw [hvv]
    dsimp only
    rw [if_pos]
    rintro ⟨_, h1, h2⟩
    exact hno ⟨by omega, by omega⟩

/-- **C08**: the same for the symmetric product. -/
theorem C08_sizes_sym [Field K] [LinearOrder K] [IsStrictOrderedRing K] {n k : Nat} {es : List (Nat × Nat)}
    {ops : List (Op K)} (h : Legal n n k es ops) {a : SpMat K} (ha : buildSym n k es ops = .ok a) (V R : List K)
    (c : K) (hno : ¬ (V.length = n ∧ n ≤ R.length)) : a.matBVprodSym (exceeds (1 / 10 ^ 20)) V c R = .assert := by
  rw [buildSym_eq] at ha
  obtain ⟨_, hreg, rows, hv, hd, hn, hm, _⟩ := build_ok (legalSym h) ha
  obtain ⟨v, hvv, _, _⟩ := hv.vals
  unfold SpMat.matBVprodSym
  rw [hvv]
  dsimp only
  rw [if_pos]
  rintro ⟨_, h1, h2⟩
  exact hno ⟨by omega, by omega⟩

example : ∃ a : SpMat ℚ, a.matBVprod [1, 2, 3] 2 [1, 1] = .assert := by
  obtain ⟨a, ha⟩ := exBuild
  exact ⟨a, (C08_sizes exLegal ha [1, 2, 3] [1, 1] 2).1 (by decide)⟩

example : ∃ (a : SpMat ℚ) (R' : List ℚ), a.matBVprod [1, 2, 3] 2 [1, 1, 1] = .ok R' ∧ R'[0]? = some 37 := by
  obtain ⟨a, ha⟩ := exBuild
  obtain ⟨R', h1, h2, h3⟩ := C08_matBVprod exLegal ha [1, 2, 3] [1, 1, 1] 2 rfl (by decide)
  refine ⟨a, R', h1, ?_⟩
  rw [h3 0 (by decide)]
  norm_num [Finset.sum_range_succ, total]

example : ∃ (a : SpMat ℚ) (R' : List ℚ), a.matBVprodSym (exceeds (1 / 10 ^ 20)) [1, 2, 3] 1 [0, 0, 0] = .ok R' := by
  obtain ⟨a, ha, _⟩ := exSym
  have h : Legal (K := ℚ) 3 3 3 [(2, 1), (1, 3)] [.add 1 2 5, .add 2 1 4, .add 3 3 1] :=
    ⟨by decide, by decide, by unfold InRange; decide, by simp [Op.InRange]⟩
  obtain ⟨R', h1, _⟩ := C08_matBVprod_sym h ha [1, 2, 3] [0, 0, 0] 1 rfl (by decide)
  exact ⟨a, R', h1⟩

end Nla3d.Sparse
