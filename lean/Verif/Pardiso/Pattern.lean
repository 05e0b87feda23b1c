import Verif.Pardiso.Life
import Verif.Solver.Blocks

/-!
# C108: the systems the library solves
-/

namespace Nla3d.Pardiso

open Nla3d.Sparse Nla3d.Solver Finset

variable {K : Type}

/-- The arrays of a compressed matrix describe its structure. -/
def patternOf (B : SpMat K) : Pattern := ⟨B.si.nRows, B.si.iofeir, B.si.columns⟩

/-- The structure of a square compressed matrix that stores the upper triangle only is legal iff every diagonal entry is stored. -/
theorem legal_iff {si : SpInfo} {rows : List (List Nat)} (h : Csr si rows) (hsq : si.nColumns = si.nRows) (hpos : 0 < si.nRows)
    (hup : ∀ i (hi : i < rows.length), ∀ c ∈ rows[i], i + 1 ≤ c) :
    Pattern.Legal ⟨si.nRows, si.iofeir, si.columns⟩ ↔ ∀ i (hi : i < rows.length), i + 1 ∈ rows[i] := by
  have hnum : si.columns.length = si.numberOfValues := by rw [h.cols, h.num]
  have hget : ∀ i, i ≤ si.nRows → si.iofeir[i]? = some (offset rows i + 1) := fun i hi => Res.read_eq_ok.mp (h.read_iof hi)
  have hcol : ∀ i (hi : i < rows.length) k (hk : k < rows[i].length), si.columns[offset rows i + k]? = some rows[i][k] := by
    intro i hi k hk
    rw [h.cols]
    exact flatten_get hi hk
  constructor
  · intro hl i hi
    obtain ⟨x, y, hx, hy, hxy, hd⟩ := hl.diag i (by show i < si.nRows; rw [← h.len]; exact hi)
    have hi' : i < si.nRows := by rw [← h.len]; exact hi
    simp only [hget i (by omega), hget (i + 1) (by omega), Option.some.injEq] at hx hy
    have hs := offset_succ hi
    have hk : 0 < rows[i].length := by omega
    have := hcol i hi 0 hk
    rw [← hx] at hd
    simp only [Nat.add_sub_cancel] at hd
    rw [Nat.add_zero, hd, Option.some.injEq] at this
    rw [this]
    exact List.getElem_mem hk
  · intro hd
    refine ⟨hpos, ?_, ?_⟩
    · show ValidCsr si.nRows si.nRows si.columns.length si.iofeir si.columns
      have := h.valid
      rw [hsq] at this
      rw [hnum]
      exact this
    · intro i hi
      have hi : i < si.nRows := hi
      have hlt : i < rows.length := by rw [h.len]; exact hi
      have hm := hd i hlt
      have hk : 0 < rows[i].length := List.length_pos_of_mem hm
      refine ⟨offset rows i + 1, offset rows (i + 1) + 1, hget i (by omega), hget (i + 1) (by omega), ?_, ?_⟩
      · have := offset_succ hlt
        omega
      · show si.columns[offset rows i + 1 - 1]? = some (i + 1)
        rw [Nat.add_sub_cancel]
        have := hcol i hlt 0 hk
        rw [Nat.add_zero] at this
        rw [this, Option.some.injEq]
        obtain ⟨k, hk', e⟩ := List.getElem_of_mem hm
        have h1 := hup i hlt _ (List.getElem_mem hk)
        rcases Nat.eq_zero_or_pos k with h0 | h0
        · subst h0; exact e
        · have h2 := List.pairwise_iff_getElem.mp (h.sorted _ (List.getElem_mem hlt)) 0 k hk hk' h0
          omega

variable [Field K]

/-- The matrix the arrays `ia`, `ja`, `a` stand for (indices from 0), upper triangle. -/
def Pattern.upper (p : Pattern) (a : List K) (i j : Nat) : K :=
  ∑ k ∈ range p.ja.length, if p.ia.getD i 0 ≤ k + 1 ∧ k + 1 < p.ia.getD (i + 1) 0 ∧ p.ja.getD k 0 = j + 1 then a.getD k 0 else 0

/-- The symmetric matrix the arrays stand for. -/
def Pattern.entry (p : Pattern) (a : List K) (i j : Nat) : K := if i ≤ j then p.upper a i j else p.upper a j i

/-- The library solves exactly: what phase 33 delivers after a successful phase 22 is a solution. -/
def Lib.Exact (L : Lib K) : Prop :=
  ∀ (m : Int) (p : Pattern) (a rhs X : List K), p.Legal → a.length = p.ja.length → rhs.length = p.n →
    L.backsub m p a rhs = some X → X.length = p.n ∧ ∀ i < p.n, ∑ j ∈ range p.n, p.entry a i j * X.getD j 0 = rhs.getD i 0

/-- The matrix the arrays of a block stand for is the matrix the block represents. -/
theorem entry_eq {B : SpMat K} {n : Nat} {rows : List (List Nat)} {f : Nat → Nat → K} (h : SymBlk B n rows f) {a : List K}
    (ha : B.values = some a) {i j : Nat} (hi : i < n) (hj : j < n) : (patternOf B).entry a i j = f (i + 1) (j + 1) := by
  have hup : ∀ i j, i ≤ j → j < n → (patternOf B).upper a i j = f (i + 1) (j + 1) := by
    intro i j hij hj
    have hlt : i < rows.length := by rw [h.vals.csr.len, h.nRows]; omega
    have hget : ∀ i, i ≤ B.si.nRows → B.si.iofeir.getD i 0 = offset rows i + 1 := by
      intro i hi
      rw [List.getD_eq_getElem?_getD, Res.read_eq_ok.mp (h.vals.csr.read_iof hi), Option.getD_some]
    have hcol : ∀ k (hk : k < rows[i].length), B.si.columns.getD (offset rows i + k) 0 = rows[i][k] := by
      intro k hk
      rw [List.getD_eq_getElem?_getD, h.vals.csr.cols]
      have : rows.flatten[offset rows i + k]? = some rows[i][k] := flatten_get hlt hk
      rw [this, Option.getD_some]
    obtain ⟨v, v1, v2, v3⟩ := h.vals.vals
    rw [ha, Option.some.injEq] at v1
    subst v1
    have hs := offset_succ hlt
    have hlen : B.si.columns.length = rows.flatten.length := by rw [h.vals.csr.cols]
    have hbound := offset_le rows (i + 1)
    unfold Pattern.upper
    show (∑ k ∈ range B.si.columns.length, if B.si.iofeir.getD i 0 ≤ k + 1 ∧ k + 1 < B.si.iofeir.getD (i + 1) 0 ∧
      B.si.columns.getD k 0 = j + 1 then a.getD k 0 else 0) = _
    rw [hget i (by rw [h.nRows]; omega), hget (i + 1) (by rw [h.nRows]; omega)]
    have hsplit : ∀ k, offset rows i + 1 ≤ k + 1 ∧ k + 1 < offset rows (i + 1) + 1 ∧ B.si.columns.getD k 0 = j + 1 →
        ∃ q, ∃ hq : q < rows[i].length, k = offset rows i + q ∧ rows[i][q] = j + 1 := by
      rintro k ⟨k1, k2, k3⟩
      refine ⟨k - offset rows i, by omega, by omega, ?_⟩
      rw [← hcol _ (by omega), ← k3]
      congr 1
      omega
    by_cases hin : j + 1 ∈ rows[i]
    · obtain ⟨q, hq, e⟩ := List.getElem_of_mem hin
      rw [Finset.sum_eq_single (offset rows i + q)]
      · rw [if_pos ⟨by omega, by omega, by rw [hcol q hq, e]⟩, List.getD_eq_getElem?_getD, v3 i hlt q hq, e]
        rfl
      · intro k _ hne
        rw [if_neg]
        intro hk
        obtain ⟨q', hq', e1, e2⟩ := hsplit k hk
        apply hne
        rw [e1]
        have hsort := h.vals.csr.sorted _ (List.getElem_mem hlt)
        have : q' = q := by
          rcases Nat.lt_trichotomy q' q with hl | hl | hl
          · have := List.pairwise_iff_getElem.mp hsort q' q hq' hq hl; omega
          · exact hl
          · have := List.pairwise_iff_getElem.mp hsort q q' hq hq' hl; omega
        rw [this]
      · intro hk
        exfalso
        apply hk
        rw [Finset.mem_range]
        omega
    · rw [h.zero i hlt (j + 1) (by omega) (by omega) hin]
      apply Finset.sum_eq_zero
      intro k _
      rw [if_neg]
      intro hk
      obtain ⟨q', hq', e1, e2⟩ := hsplit k hk
      exact hin (e2 ▸ List.getElem_mem hq')
  unfold Pattern.entry
  by_cases hij : i ≤ j
  · rw [if_pos hij, hup i j hij hj]
  · rw [if_neg hij, hup j i (by omega) hi, h.symm]

/-- A block has the structure its arrays describe. -/
theorem has_of_blk {B : SpMat K} {n : Nat} {rows : List (List Nat)} {f : Nat → Nat → K} (h : SymBlk B n rows f) :
    ∃ a, Has (patternOf B) B a := by
  obtain ⟨v, v1, v2, _⟩ := h.vals.vals
  exact ⟨v, rfl, rfl, rfl, h.vals.csr.comp, v1, by rw [v2]; show _ = B.si.columns.length; rw [h.vals.csr.cols]⟩

variable [DecidableEq K]

/-- One solution with the library. -/
theorem eqs_ok {L : Lib K} (hL : L.Exact) {B : SpMat K} {n : Nat} {rows : List (List Nat)} {f : Nat → Nat → K} (h : SymBlk B n rows f)
    (hl : (patternOf B).Legal) {rhs : List K} (hr : rhs.length = n) (guess : List K) :
    (eqs L B rhs guess = .fatal ∧ Fails L (-2) (patternOf B)) ∨ ∃ X, eqs L B rhs guess = .ok X ∧ X.length = n ∧
      ∀ i < n, ∑ j ∈ range n, f (i + 1) (j + 1) * X.getD j 0 = rhs.getD i 0 := by
  obtain ⟨a, ha⟩ := has_of_blk h
  have hr' : rhs.length = (patternOf B).n := hr.trans h.nRows.symm
  unfold eqs Obj.solve
  rcases factorize_first (L := L) (o := (Obj.valued.setSymmetric true).setPositive false) hl rfl rfl ha with ⟨e, hf⟩ | ⟨o', e, ho⟩
  · exact Or.inl ⟨by rw [e]; rfl, hf⟩
  rw [e]
  simp only [Res.ok_bind]
  rcases substitute_ok (L := L) ho ha hr' with ⟨e, hf⟩ | ⟨X, e, hX⟩
  · exact Or.inl ⟨by rw [e]; rfl, hf⟩
  right
  obtain ⟨x1, x2⟩ := hL _ _ _ _ _ hl ha.len hr' hX
  have hn : (patternOf B).n = n := h.nRows
  rw [hn] at x1 x2
  refine ⟨X, by rw [e]; rfl, x1, ?_⟩
  intro i hi
  rw [← x2 i hi]
  apply Finset.sum_congr rfl
  intro j hj
  rw [entry_eq h ha.vals hi (Finset.mem_range.mp hj)]

/-- A structure that is not legal: the call is outside the contract of the library. -/
theorem eqs_ub (L : Lib K) {B : SpMat K} {n : Nat} {rows : List (List Nat)} {f : Nat → Nat → K} (h : SymBlk B n rows f)
    (hl : ¬ (patternOf B).Legal) (rhs guess : List K) : eqs L B rhs guess = .ub := by
  obtain ⟨a, ha⟩ := has_of_blk h
  have h1 : arrays B.si.nRows B = .ok (patternOf B, a) := ha.arrays
  unfold eqs Obj.solve Obj.factorize Obj.initialize Lib.phase11
  simp only [Obj.setPositive, Obj.setSymmetric, Obj.valued, if_true, Bool.not_true, Bool.false_eq_true, if_false, h1, Res.ok_bind,
    if_neg (fun hh : _ ∧ _ => hl hh.1)]
  rfl

end Nla3d.Pardiso
