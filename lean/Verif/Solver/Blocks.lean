import Verif.Solver.Model
import Verif.Sparse.Props
import Mathlib.Tactic.Ring

/-!
# Blocks of the assembled matrices and their products
-/

namespace Nla3d.Solver

open Nla3d.Dof Nla3d.Block Nla3d.Sparse Nla3d.Storage Nla3d.TimeCtl Finset

variable {K : Type}

/-- A list of length `n` with components `x 0, ..., x (n-1)`. -/
def IsVec [Zero K] (l : List K) (n : Nat) (x : Nat → K) : Prop := l.length = n ∧ ∀ i < n, l.getD i 0 = x i

theorem IsVec.self [Zero K] (l : List K) : IsVec l l.length (fun i => l.getD i 0) := ⟨rfl, fun _ _ => rfl⟩

theorem getD_of_getElem? [Zero K] {l : List K} {i : Nat} {x : K} (h : l[i]? = some x) : l.getD i 0 = x := by
  rw [List.getD_eq_getElem?_getD, h]; rfl

theorem getElem?_of_getD [Zero K] {l : List K} {i : Nat} (h : i < l.length) : l[i]? = some (l.getD i 0) := by
  rw [List.getD_eq_getElem?_getD, List.getElem?_eq_getElem h]; rfl

/-- A general block with values `f` (local indices from 1). -/
structure GenBlk [Zero K] (B : SpMat K) (n m : Nat) (f : Nat → Nat → K) : Prop where
  nRows : B.si.nRows = n
  nCols : B.si.nColumns = m
  vals : ∃ rows, Vals B rows f ∧ ∀ i (hi : i < rows.length) j, 0 < j → j ≤ m → j ∉ rows[i] → f (i + 1) j = 0

/-- A symmetric block with values `f`, only the upper triangle is stored, `rows` are the stored positions. -/
structure SymBlk [Zero K] (B : SpMat K) (n : Nat) (rows : List (List Nat)) (f : Nat → Nat → K) : Prop where
  nRows : B.si.nRows = n
  nCols : B.si.nColumns = n
  vals : Vals B rows f
  symm : ∀ i j, f i j = f j i
  zero : ∀ i (hi : i < rows.length) j, i + 1 ≤ j → j ≤ n → j ∉ rows[i] → f (i + 1) j = 0

theorem blockMat_ok [AddMonoid K] {F : Family K} {sizes : List Nat} {es : List (Nat × Nat)}
    {st : List (List (Op K))} {Q : Nat} (hs : nUpper sizes.length ≤ 65536) (h : Inv3 F sizes es st Q) {a b : Nat}
    (ha : 0 < a) (hab : a ≤ b) (hb : b ≤ sizes.length) :
    ∃ si rows, Csr si rows ∧ si.nRows = sizes.getD (a - 1) 0 ∧ si.nColumns = sizes.getD (b - 1) 0 ∧ DescP rows (Pos sizes es a b) ∧
      ∀ q (hq : q < st.length), ∃ v, blockMat F q a b = .ok ⟨si, v⟩ ∧
        Vals ⟨si, v⟩ rows (fun p c => totalSym st[q] (glob sizes a p) (glob sizes b c)) := by
  obtain ⟨s, g1, si, rows, g2, g3, g4, g5, g6, g7, g8, g9⟩ := h.slots a b ha hab hb
  refine ⟨si, rows, g3, g4, g5, g6, ?_⟩
  intro q hq
  obtain ⟨v, v1, v2⟩ := g8 q hq
  refine ⟨v, ?_, v2⟩
  unfold blockMat
  rw [h.shape.hsz, (blockSlot_eq ha hab hb hs).1]
  simp only [Res.ok_bind]
  rw [Res.read_eq_ok.mpr g1]
  simp only [Res.ok_bind, g2]
  rw [Res.read_eq_ok.mpr v1]
  rfl

/-- The blocks of the matrices of a storage. -/
theorem live_blocks [AddMonoid K] {S : Storage K} {es : List (Nat × Nat)} {M : Nat → Nat → Nat → K} {v : Nat → K}
    (h : Live S es M v) : ∃ F, matOf S = .ok F ∧ ∃ rows1 rows2, ∀ q < S.nMats,
      (∃ B, blockMat F q 1 1 = .ok B ∧ SymBlk B S.nConstr rows1 (M q)) ∧
      (∃ B, blockMat F q 1 2 = .ok B ∧ GenBlk B S.nConstr (S.nUnknown + S.nMpc) (fun p c => M q p (S.nConstr + c))) ∧
      (∃ B, blockMat F q 2 2 = .ok B ∧
        SymBlk B (S.nUnknown + S.nMpc) rows2 (fun p c => M q (S.nConstr + p) (S.nConstr + c))) := by
  obtain ⟨F, hs, h1, h2, h3, h4⟩ := h.mat
  have hM : ∀ q (hq : q < hs.length), totalSym hs[q] = M q := fun q hq => by funext i j; exact h4 q hq i j
  have hsym : ∀ q, q < hs.length → ∀ i j, M q i j = M q j i := by
    intro q hq i j; rw [← h4 q hq, totalSym_comm, h4 q hq]
  have hz : ∀ q (hq : q < hs.length) i j, ¬ Reg es i j → M q i j = 0 := by
    intro q hq i j hr
    rw [← h4 q hq]
    exact totalSym_unreg hr _ (h2.reg _ (List.getElem_mem hq))
  refine ⟨F, by unfold matOf; rw [h1], ?_⟩
  obtain ⟨si1, rows1, a1, a2, a3, a4, a5⟩ := blockMat_ok (hsmall S) h2 (a := 1) (b := 1) (by omega) (by omega) (by simp)
  obtain ⟨si12, rows12, b1, b2, b3, b4, b5⟩ := blockMat_ok (hsmall S) h2 (a := 1) (b := 2) (by omega) (by omega) (by simp)
  obtain ⟨si2, rows2, c1, c2, c3, c4, c5⟩ := blockMat_ok (hsmall S) h2 (a := 2) (b := 2) (by omega) (by omega) (by simp)
  refine ⟨rows1, rows2, ?_⟩
  intro q hq
  have hq' : q < hs.length := by omega
  have z1 : (bsizes S).getD (1 - 1) 0 = S.nConstr := rfl
  have z2 : (bsizes S).getD (2 - 1) 0 = S.nUnknown + S.nMpc := rfl
  have e1 : ∀ p, glob (bsizes S) 1 p = p := fun p => by simp [glob]
  have e2 : ∀ p, glob (bsizes S) 2 p = S.nConstr + p := fun p => by simp [glob]
  rw [z1] at a2 a3 b2
  rw [z2] at b3 c2 c3
  refine ⟨?_, ?_, ?_⟩
  · obtain ⟨v, v1, v2⟩ := a5 q hq'
    refine ⟨_, v1, a2, a3, ?_, hsym q hq', ?_⟩
    · simp only [e1, hM q hq'] at v2; exact v2
    · intro i hi j hij hj hn
      apply hz q hq'
      intro hr
      apply hn
      rw [a4 i hi j]
      exact ⟨⟨by omega, by simp, by omega, by show j ≤ S.nConstr; omega⟩, fun _ => hij, by rw [e1, e1]; exact hr⟩
  · obtain ⟨v, v1, v2⟩ := b5 q hq'
    refine ⟨_, v1, b2, b3, rows12, ?_, ?_⟩
    · simp only [e1, e2, hM q hq'] at v2; exact v2
    · intro i hi j hij hj hn
      apply hz q hq'
      intro hr
      apply hn
      rw [b4 i hi j]
      exact ⟨⟨by omega, by simp, by omega, by show j ≤ S.nUnknown + S.nMpc; omega⟩, fun hh => by omega,
        by rw [e1, e2]; exact hr⟩
  · obtain ⟨v, v1, v2⟩ := c5 q hq'
    refine ⟨_, v1, c2, c3, ?_, fun i j => hsym q hq' _ _, ?_⟩
    · simp only [e2, hM q hq'] at v2; exact v2
    · intro i hi j hij hj hn
      apply hz q hq'
      intro hr
      apply hn
      rw [c4 i hi j]
      exact ⟨⟨by omega, by simp, by omega, by show j ≤ S.nUnknown + S.nMpc; omega⟩, fun _ => hij,
        by rw [e2, e2]; exact hr⟩

theorem GenBlk.entry [Zero K] {B : SpMat K} {n m : Nat} {f : Nat → Nat → K} {rows : List (List Nat)}
    (hv : Vals B rows f) (hn : B.si.nRows = n)
    (hz : ∀ i (hi : i < rows.length) j, 0 < j → j ≤ m → j ∉ rows[i] → f (i + 1) j = 0) {i j : Nat} (hi : i < n)
    (hj : j < m) : Sparse.entry rows f (i + 1) (j + 1) = f (i + 1) (j + 1) := by
  have hlt : i < rows.length := by rw [hv.csr.len]; omega
  unfold Sparse.entry
  simp only [Nat.add_sub_cancel, List.getD_eq_getElem?_getD, List.getElem?_eq_getElem hlt, Option.getD_some]
  by_cases hin : j + 1 ∈ rows[i]
  · rw [if_pos hin]
  · rw [if_neg hin, hz i hlt _ (by omega) (by omega) hin]

/-- Product of a general block with a vector. -/
theorem GenBlk.bv [CommSemiring K] {B : SpMat K} {n m : Nat} {f : Nat → Nat → K} (h : GenBlk B n m f) {V R : List K}
    {x r : Nat → K} (hV : IsVec V m x) (hR : IsVec R n r) (c : K) :
    ∃ R', B.matBVprod V c R = .ok R' ∧ IsVec R' n (fun i => r i + c * ∑ j ∈ range m, f (i + 1) (j + 1) * x j) := by
  obtain ⟨rows, hv, hz⟩ := h.vals
  obtain ⟨v, hvv, _, _⟩ := hv.vals
  have hlen := hv.csr.len
  have hn := h.nRows
  have hm := h.nCols
  obtain ⟨hV1, hV2⟩ := hV
  obtain ⟨hR1, hR2⟩ := hR
  obtain ⟨R', h1, h2, h3⟩ := hv.bvLoop hvv V c (by omega) rows.length 0 R (by omega) (by omega)
  refine ⟨R', ?_, by omega, ?_⟩
  · unfold SpMat.matBVprod
    rw [hvv]
    simp only [hv.csr.comp, true_and, not_and, not_le]
    rw [if_neg (by simp; omega), ← hlen]
    exact h1
  · intro i hi
    have h3 := h3 i (by omega)
    rw [if_pos (by omega)] at h3
    beta_reduce
    rw [getD_of_getElem? h3, ← hR2 i hi, List.getD_eq_getElem?_getD, List.getElem?_eq_getElem (by omega), Option.getD_some,
      hV1]
    congr 2
    apply Finset.sum_congr rfl
    intro j hj
    rw [Finset.mem_range] at hj
    rw [GenBlk.entry hv hn hz hi hj, hV2 j hj]

/-- Product of the transpose of a general block with a vector. -/
theorem GenBlk.btv [CommSemiring K] {B : SpMat K} {n m : Nat} {f : Nat → Nat → K} (h : GenBlk B n m f) {V R : List K}
    {x r : Nat → K} (hV : IsVec V n x) (hR : IsVec R m r) (c : K) :
    ∃ R', B.matBTVprod V c R = .ok R' ∧ IsVec R' m (fun j => r j + c * ∑ i ∈ range n, f (i + 1) (j + 1) * x i) := by
  obtain ⟨rows, hv, hz⟩ := h.vals
  obtain ⟨v, hvv, _, _⟩ := hv.vals
  have hlen := hv.csr.len
  have hn := h.nRows
  have hm := h.nCols
  obtain ⟨hV1, hV2⟩ := hV
  obtain ⟨hR1, hR2⟩ := hR
  obtain ⟨R', h1, h2, h3⟩ := hv.btvLoop hvv V c (by omega) rows.length 0 R (by omega) (by omega)
  refine ⟨R', ?_, by omega, ?_⟩
  · unfold SpMat.matBTVprod
    rw [hvv]
    simp only [hv.csr.comp, true_and, not_and, not_le]
    rw [if_neg (by simp; omega), ← hlen]
    exact h1
  · intro j hj
    have h3 := h3 j (by omega)
    beta_reduce
    rw [getD_of_getElem? h3, ← hR2 j hj, List.getD_eq_getElem?_getD, List.getElem?_eq_getElem (by omega), Option.getD_some,
      hlen, hn]
    congr 2
    apply Finset.sum_congr rfl
    intro i hi
    rw [Finset.mem_range] at hi
    rw [Nat.zero_add, GenBlk.entry hv hn hz hi hj, hV2 i hi]

theorem SymBlk.value [Zero K] {B : SpMat K} {n : Nat} {rows : List (List Nat)} {f : Nat → Nat → K} (h : SymBlk B n rows f)
    {i j : Nat} (hi : 0 < i ∧ i ≤ n) (hj : 0 < j ∧ j ≤ n) : B.valueSym i j = .ok (f i j) := by
  have key : ∀ i j, 0 < i → i ≤ j → j ≤ n → B.value i j = .ok (f i j) := by
    intro i j h1 h2 h3
    obtain ⟨hlt, hv⟩ := h.vals.value (i := i) (j := j) (by rw [h.nRows]; omega) (by rw [h.nCols]; omega)
    rw [hv]
    by_cases hin : j ∈ rows[i - 1]
    · rw [if_pos hin]
    · rw [if_neg hin]
      have := h.zero (i - 1) hlt j (by omega) h3 hin
      rw [Nat.sub_add_cancel h1] at this
      rw [this]
  unfold SpMat.valueSym
  by_cases hgt : i > j
  · rw [if_pos hgt, key j i hj.1 (by omega) hi.2, h.symm]
  · rw [if_neg hgt, key i j hi.1 (by omega) hj.2]

variable [Field K] [LinearOrder K]

/-- The component as the product with a symmetric matrix sees it: values up to `1e-20` count as 0. -/
def kept (v : K) : K := if (1 / 10 ^ 20 : K) < |v| then v else 0

/-- Product of a symmetric block with a vector. -/
theorem SymBlk.bv {B : SpMat K} {n : Nat} {rows : List (List Nat)} {f : Nat → Nat → K}
    (h : SymBlk B n rows f) {V R : List K} {x r : Nat → K} (hV : IsVec V n x) (hR : IsVec R n r) (c : K) :
    ∃ R', B.matBVprodSym big V c R = .ok R' ∧
      IsVec R' n (fun i => r i + c * ∑ j ∈ range n, f (i + 1) (j + 1) * kept (x j)) := by
  have hn := h.nRows
  obtain ⟨hV1, hV2⟩ := hV
  obtain ⟨hR1, hR2⟩ := hR
  obtain ⟨R', h1, h2, h3⟩ := symLoop_spec big B V c f n hn hV1
    (fun i j h1 h2 h3 h4 => ⟨h.value ⟨h1, h2⟩ ⟨h3, h4⟩, by rw [h.symm i j]; exact h.value ⟨h3, h4⟩ ⟨h1, h2⟩⟩) n 0 R (by omega)
    (by omega)
  obtain ⟨v, hvv, _, _⟩ := h.vals.vals
  refine ⟨R', ?_, by omega, ?_⟩
  · unfold SpMat.matBVprodSym
    rw [hvv]
    simp only [h.vals.csr.comp, true_and, not_and, not_le, hn]
    rw [if_neg (by simp; omega)]
    exact h1
  · intro i hi
    have h3 := h3 i (by omega)
    rw [if_pos (by omega)] at h3
    beta_reduce
    rw [getD_of_getElem? h3, ← hR2 i hi, List.getD_eq_getElem?_getD, List.getElem?_eq_getElem (by omega), Option.getD_some]
    congr 2
    apply Finset.sum_congr rfl
    intro j hj
    rw [Finset.mem_range] at hj
    rw [hV2 j hj]
    simp only [kept, big, decide_eq_true_eq]

end Nla3d.Solver
