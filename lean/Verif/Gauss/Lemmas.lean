import Verif.Gauss.Model
import Mathlib.Algebra.BigOperators.Ring.Finset
import Mathlib.Algebra.Order.BigOperators.Group.Finset
import Mathlib.Tactic.Linarith
import Mathlib.Tactic.Ring
import Mathlib.Tactic.FieldSimp
import Mathlib.Tactic.Positivity

/-!
# From the array program to matrices as functions
-/

namespace Nla3d.Gauss

open Finset

set_option linter.unusedSectionVars false

variable {K : Type} [Field K] [LinearOrder K] [IsStrictOrderedRing K]

/-! ## Arrays representing matrices and vectors -/

/-- `A` is the row-major array of the `n × n` matrix `a`. -/
structure Rep (n : Nat) (A : List K) (a : Nat → Nat → K) : Prop where
  len : A.length = n * n
  get : ∀ i < n, ∀ j < n, A[i * n + j]? = some (a i j)

/-- `B` is the array of the vector `b`. -/
structure RepV (n : Nat) (B : List K) (b : Nat → K) : Prop where
  len : B.length = n
  get : ∀ i < n, B[i]? = some (b i)

omit [Field K] [LinearOrder K] [IsStrictOrderedRing K] in
theorem Rep.congr {n : Nat} {A : List K} {a a' : Nat → Nat → K} (h : Rep n A a)
    (e : ∀ i < n, ∀ j < n, a i j = a' i j) : Rep n A a' :=
  ⟨h.len, fun i hi j hj => by rw [h.get i hi j hj, e i hi j hj]⟩

omit [Field K] [LinearOrder K] [IsStrictOrderedRing K] in
theorem RepV.congr {n : Nat} {B : List K} {b b' : Nat → K} (h : RepV n B b) (e : ∀ i < n, b i = b' i) : RepV n B b' :=
  ⟨h.len, fun i hi => by rw [h.get i hi, e i hi]⟩

omit [Field K] [LinearOrder K] [IsStrictOrderedRing K] in
theorem Rep.read {n : Nat} {A : List K} {a : Nat → Nat → K} (h : Rep n A a) {i j : Nat} (hi : i < n) (hj : j < n) :
    Res.read A (i * n + j) = .ok (a i j) := Res.read_eq_ok.mpr (h.get i hi j hj)

omit [Field K] [LinearOrder K] [IsStrictOrderedRing K] in
theorem RepV.read {n : Nat} {B : List K} {b : Nat → K} (h : RepV n B b) {i : Nat} (hi : i < n) :
    Res.read B i = .ok (b i) := Res.read_eq_ok.mpr (h.get i hi)

theorem index_lt {n i j : Nat} (hi : i < n) (hj : j < n) : i * n + j < n * n := by
  have : i * n ≤ (n - 1) * n := Nat.mul_le_mul_right n (by omega)
  rw [Nat.sub_mul, Nat.one_mul] at this
  have : n ≤ n * n := Nat.le_mul_of_pos_left n (by omega)
  omega

theorem index_inj {n i j i' j' : Nat} (hj : j < n) (hj' : j' < n) (h : i * n + j = i' * n + j') : i = i' ∧ j = j' := by
  have h1 : (i * n + j) / n = (i' * n + j') / n := by rw [h]
  rw [Nat.add_comm, Nat.add_mul_div_right _ _ (by omega), Nat.div_eq_of_lt hj, Nat.add_comm (i' * n),
    Nat.add_mul_div_right _ _ (by omega), Nat.div_eq_of_lt hj'] at h1
  have : i = i' := by omega
  subst this
  exact ⟨rfl, by omega⟩

/-- A matrix with one entry replaced. -/
def upd (a : Nat → Nat → K) (i j : Nat) (v : K) : Nat → Nat → K :=
  fun i' j' => if i' = i ∧ j' = j then v else a i' j'

/-- A vector with one entry replaced. -/
def updV (b : Nat → K) (i : Nat) (v : K) : Nat → K := fun i' => if i' = i then v else b i'

omit [Field K] [LinearOrder K] [IsStrictOrderedRing K] in
theorem Rep.write {n : Nat} {A : List K} {a : Nat → Nat → K} (h : Rep n A a) {i j : Nat} (hi : i < n) (hj : j < n)
    (v : K) : ∃ A', Res.write A (i * n + j) v = .ok A' ∧ Rep n A' (upd a i j v) := by
  have hlt : i * n + j < A.length := by rw [h.len]; exact index_lt hi hj
  refine ⟨A.set (i * n + j) v, Res.write_eq_ok.mpr ⟨hlt, rfl⟩, by rw [List.length_set]; exact h.len, ?_⟩
  intro i' hi' j' hj'
  rw [List.getElem?_set]
  unfold upd
  by_cases e : i * n + j = i' * n + j'
  · obtain ⟨e1, e2⟩ := index_inj hj hj' e
    rw [if_pos e, if_pos hlt, if_pos ⟨e1.symm, e2.symm⟩]
  · rw [if_neg e, if_neg (fun hh => e (by rw [hh.1, hh.2])), h.get i' hi' j' hj']

omit [Field K] [LinearOrder K] [IsStrictOrderedRing K] in
theorem RepV.write {n : Nat} {B : List K} {b : Nat → K} (h : RepV n B b) {i : Nat} (hi : i < n) (v : K) :
    ∃ B', Res.write B i v = .ok B' ∧ RepV n B' (updV b i v) := by
  have hlt : i < B.length := by rw [h.len]; exact hi
  refine ⟨B.set i v, Res.write_eq_ok.mpr ⟨hlt, rfl⟩, by rw [List.length_set]; exact h.len, ?_⟩
  intro i' hi'
  rw [List.getElem?_set]
  unfold updV
  by_cases e : i = i'
  · rw [if_pos e, if_pos hlt, if_pos e.symm]
  · rw [if_neg e, if_neg (fun hh => e hh.symm), h.get i' hi']

/-! ## The loops -/

/-- `p` is the first row from `i` on whose entry in column `i` has the largest absolute value. -/
structure Pivot (n i : Nat) (a : Nat → Nat → K) (p : Nat) : Prop where
  ge : i ≤ p
  lt : p < n
  max : ∀ q, i ≤ q → q < n → |a q i| ≤ |a p i|
  first : ∀ q, i ≤ q → q < p → |a q i| < |a p i|

theorem pivotSearch_spec {n i : Nat} {A : List K} {a : Nat → Nat → K} (h : Rep n A a) (hi : i < n) :
    ∃ r, pivotSearch A n i = .ok r ∧
      ((r = (none, 0) ∧ ∀ q, i ≤ q → q < n → a q i = 0) ∨
       (∃ p, r = (some p, |a p i|) ∧ 0 < |a p i| ∧ Pivot n i a p)) := by
  obtain ⟨r, h1, h2⟩ := Res.foldlM'_range' (fun (s : Option Nat × K) ip => do
      let v ← Res.read A (ip * n + i)
      if s.2 < |v| then .ok (some ip, |v|) else .ok s)
    (fun k s => (s = (none, 0) ∧ ∀ q, i ≤ q → q < k → a q i = 0) ∨
      (∃ p, s = (some p, |a p i|) ∧ 0 < |a p i| ∧ i ≤ p ∧ p < k ∧ (∀ q, i ≤ q → q < k → |a q i| ≤ |a p i|) ∧
        ∀ q, i ≤ q → q < p → |a q i| < |a p i|)) (n - i) i (none, 0)
    (Or.inl ⟨rfl, fun q h1 h2 => by omega⟩) (by
      intro k s hk hk' hs
      have hkn : k < n := by omega
      simp only [h.read hkn hi, Res.ok_bind]
      have hext : ∀ {P : Nat → Prop}, (∀ q, i ≤ q → q < k → P q) → P k → ∀ q, i ≤ q → q < k + 1 → P q := by
        intro P h1 h2 q h3 h4
        rcases Nat.lt_or_ge q k with h5 | h5
        · exact h1 q h3 h5
        · rw [show q = k by omega]; exact h2
      rcases hs with ⟨rfl, h0⟩ | ⟨p, rfl, hp, h1, h2, h3, h4⟩
      · by_cases hv : (0 : K) < |a k i|
        · rw [if_pos hv]
          refine ⟨_, rfl, Or.inr ⟨k, rfl, hv, hk, by omega, ?_, ?_⟩⟩
          · exact hext (fun q a1 a2 => by rw [h0 q a1 a2, abs_zero]; exact hv.le) (le_refl _)
          · intro q a1 a2; rw [h0 q a1 a2, abs_zero]; exact hv
        · rw [if_neg hv]
          refine ⟨_, rfl, Or.inl ⟨rfl, hext h0 ?_⟩⟩
          exact abs_eq_zero.mp (le_antisymm (not_lt.mp hv) (abs_nonneg _))
      · by_cases hv : |a p i| < |a k i|
        · rw [if_pos hv]
          refine ⟨_, rfl, Or.inr ⟨k, rfl, lt_trans hp hv, hk, by omega, ?_, ?_⟩⟩
          · exact hext (fun q a1 a2 => le_trans (h3 q a1 a2) hv.le) (le_refl _)
          · intro q a1 a2; exact lt_of_le_of_lt (h3 q a1 a2) hv
        · rw [if_neg hv]
          refine ⟨_, rfl, Or.inr ⟨p, rfl, hp, h1, by omega, ?_, h4⟩⟩
          exact hext h3 (not_lt.mp hv))
  rw [show i + (n - i) = n by omega] at h2
  refine ⟨r, h1, ?_⟩
  rcases h2 with h2 | ⟨p, e, hp, a1, a2, a3, a4⟩
  · exact Or.inl h2
  · exact Or.inr ⟨p, e, hp, a1, a2, a3, a4⟩

/-- The transposition of `i` and `m`. -/
def sw (i m r : Nat) : Nat := if r = i then m else if r = m then i else r

theorem sw_lt {i m r n : Nat} (hi : i < n) (hm : m < n) (hr : r < n) : sw i m r < n := by
  unfold sw; split
  · exact hm
  · split <;> assumption

omit [LinearOrder K] [IsStrictOrderedRing K] in
theorem swapRows_spec {n i m : Nat} {A : List K} {a : Nat → Nat → K} (h : Rep n A a) (hi : i < n) (hm : m < n) :
    ∃ A', swapRows A n i m = .ok A' ∧ Rep n A' (fun r c => a (sw i m r) c) := by
  obtain ⟨A', h1, h2⟩ := Res.foldlM'_range (fun A jp => swapAt A (i * n + jp) (m * n + jp))
    (fun k A => Rep n A (fun r c => if c < k then a (sw i m r) c else a r c)) n A
    (h.congr (fun r _ c _ => by simp)) (by
      intro k A hk hA
      simp only [swapAt]
      rw [hA.read hi hk, Res.ok_bind, hA.read hm hk, Res.ok_bind]
      obtain ⟨A1, w1, w2⟩ := hA.write hi hk ((fun r c => if c < k then a (sw i m r) c else a r c) m k)
      rw [w1, Res.ok_bind]
      obtain ⟨A2, w3, w4⟩ := w2.write hm hk ((fun r c => if c < k then a (sw i m r) c else a r c) i k)
      refine ⟨A2, w3, w4.congr ?_⟩
      intro r _ c _
      simp only [upd, lt_self_iff_false, if_false]
      by_cases hc : c = k
      · subst hc
        simp only [and_true, lt_self_iff_false, if_false, Nat.lt_succ_self, if_true]
        unfold sw
        by_cases e1 : r = m
        · subst e1
          by_cases e2 : r = i
          · subst e2; simp
          · simp [e2]
        · by_cases e2 : r = i
          · subst e2; simp [e1]
          · simp [e1, e2]
      · have : (c < k + 1) = (c < k) := propext ⟨fun h => by omega, fun h => by omega⟩
        simp only [hc, and_false, if_false, this])
  exact ⟨A', h1, h2.congr (fun r _ c hc => by simp only [if_pos hc])⟩

omit [LinearOrder K] [IsStrictOrderedRing K] in
theorem swapAt_spec {n i m : Nat} {B : List K} {b : Nat → K} (h : RepV n B b) (hi : i < n) (hm : m < n) :
    ∃ B', swapAt B i m = .ok B' ∧ RepV n B' (fun r => b (sw i m r)) := by
  unfold swapAt
  rw [h.read hi, Res.ok_bind, h.read hm, Res.ok_bind]
  obtain ⟨B1, w1, w2⟩ := h.write hi (b m)
  rw [w1, Res.ok_bind]
  obtain ⟨B2, w3, w4⟩ := w2.write hm (b i)
  refine ⟨B2, w3, w4.congr ?_⟩
  intro r _
  simp only [updV, sw]
  by_cases e1 : r = m
  · subst e1
    by_cases e2 : r = i
    · subst e2; simp
    · simp [e2]
  · by_cases e2 : r = i
    · subst e2; simp [e1]
    · simp [e1, e2]

omit [LinearOrder K] [IsStrictOrderedRing K] in
theorem elimRow_spec {n i ip : Nat} {A B : List K} {a : Nat → Nat → K} {b : Nat → K} (h : Rep n A a) (hb : RepV n B b)
    (hi : i < n) (hip : ip < n) (hne : i ≠ ip) :
    ∃ A' B', elimRow n i (A, B) ip = .ok (A', B') ∧
      Rep n A' (fun r c => if r = ip ∧ i ≤ c then a ip c - a ip i / a i i * a i c else a r c) ∧
      RepV n B' (fun r => if r = ip then b ip - a ip i / a i i * b i else b r) := by
  unfold elimRow
  rw [h.read hip hi, Res.ok_bind, h.read hi hi, Res.ok_bind]
  simp only
  obtain ⟨A', h1, h2⟩ := Res.foldlM'_range' (fun A jp => do
      let v ← Res.read A (i * n + jp)
      let u ← Res.read A (ip * n + jp)
      Res.write A (ip * n + jp) (u - a ip i / a i i * v))
    (fun k A => Rep n A (fun r c => if r = ip ∧ i ≤ c ∧ c < k then a ip c - a ip i / a i i * a i c else a r c))
    (n - i) i A (h.congr (fun r _ c _ => by
      rw [if_neg]; intro hh; omega)) (by
      intro k A hk hk' hA
      have hkn : k < n := by omega
      rw [hA.read hi hkn, Res.ok_bind, hA.read hip hkn, Res.ok_bind]
      obtain ⟨A1, w1, w2⟩ := hA.write hip hkn (a ip k - a ip i / a i i * a i k)
      refine ⟨A1, ?_, w2.congr ?_⟩
      · rw [← w1]
        congr 1
        rw [if_neg (by omega), if_neg (by omega)]
      · intro r _ c _
        simp only [upd]
        by_cases e : r = ip ∧ c = k
        · obtain ⟨rfl, rfl⟩ := e
          rw [if_pos ⟨rfl, rfl⟩, if_pos ⟨rfl, hk, by omega⟩]
        · rw [if_neg e]
          by_cases e' : r = ip ∧ i ≤ c ∧ c < k
          · rw [if_pos e', if_pos ⟨e'.1, e'.2.1, by omega⟩]
          · rw [if_neg e', if_neg]
            intro hh
            by_cases hck : c = k
            · exact e ⟨hh.1, hck⟩
            · exact e' ⟨hh.1, hh.2.1, by omega⟩)
  rw [show i + (n - i) = n by omega] at h2
  rw [h1, Res.ok_bind, hb.read hi, Res.ok_bind, hb.read hip, Res.ok_bind]
  obtain ⟨B', w1, w2⟩ := hb.write hip (b ip - a ip i / a i i * b i)
  rw [w1, Res.ok_bind]
  refine ⟨A', B', rfl, h2.congr ?_, w2.congr ?_⟩
  · intro r _ c hc
    have : (r = ip ∧ i ≤ c ∧ c < n) = (r = ip ∧ i ≤ c) := propext ⟨fun h => ⟨h.1, h.2.1⟩, fun h => ⟨h.1, h.2, hc⟩⟩
    simp only [this]
  · intro r _; rfl

/-- The matrix after the row operations of column `i`. -/
def elimA (i : Nat) (a : Nat → Nat → K) : Nat → Nat → K :=
  fun r c => if i < r ∧ i ≤ c then a r c - a r i / a i i * a i c else a r c

/-- The right-hand side after the row operations of column `i`. -/
def elimB (i : Nat) (a : Nat → Nat → K) (b : Nat → K) : Nat → K :=
  fun r => if i < r then b r - a r i / a i i * b i else b r

omit [LinearOrder K] [IsStrictOrderedRing K] in
theorem elim_spec {n i : Nat} {A B : List K} {a : Nat → Nat → K} {b : Nat → K} (h : Rep n A a) (hb : RepV n B b)
    (hi : i < n) :
    ∃ A' B', Res.foldlM' (elimRow n i) (A, B) (List.range' (i + 1) (n - (i + 1))) = .ok (A', B') ∧
      Rep n A' (elimA i a) ∧ RepV n B' (elimB i a b) := by
  obtain ⟨⟨A', B'⟩, h1, h2, h3⟩ := Res.foldlM'_range' (elimRow n i)
    (fun k s => Rep n s.1 (fun r c => if i < r ∧ r < k ∧ i ≤ c then a r c - a r i / a i i * a i c else a r c) ∧
      RepV n s.2 (fun r => if i < r ∧ r < k then b r - a r i / a i i * b i else b r)) (n - (i + 1)) (i + 1) (A, B)
    ⟨h.congr (fun r _ c _ => by rw [if_neg]; omega), hb.congr (fun r _ => by rw [if_neg]; omega)⟩ (by
      rintro k ⟨A, B⟩ hk hk' ⟨hA, hB⟩
      obtain ⟨A', B', e1, e2, e3⟩ := elimRow_spec hA hB hi (show k < n by omega) (by omega)
      refine ⟨(A', B'), e1, e2.congr ?_, e3.congr ?_⟩
      · intro r _ c _
        simp only [lt_self_iff_false, false_and, if_false, and_false]
        by_cases e : r = k
        · subst e
          simp only [true_and, lt_self_iff_false, false_and, and_false, if_false, Nat.lt_succ_self]
          by_cases hc : i ≤ c
          · rw [if_pos hc, if_pos ⟨by omega, hc⟩]
          · rw [if_neg hc, if_neg (fun hh => hc hh.2)]
        · have : (r < k + 1) = (r < k) := propext ⟨fun h => by omega, fun h => by omega⟩
          simp only [e, false_and, if_false, this]
      · intro r _
        simp only [lt_self_iff_false, false_and, if_false, and_false]
        by_cases e : r = k
        · subst e
          rw [if_pos rfl, if_pos ⟨by omega, by omega⟩]
        · have : (r < k + 1) = (r < k) := propext ⟨fun h => by omega, fun h => by omega⟩
          simp only [e, if_false, this])
  rw [show i + 1 + (n - (i + 1)) = n by omega] at h2 h3
  refine ⟨A', B', h1, h2.congr ?_, h3.congr ?_⟩
  · intro r hr c _
    have : (i < r ∧ r < n ∧ i ≤ c) = (i < r ∧ i ≤ c) := propext ⟨fun h => ⟨h.1, h.2.2⟩, fun h => ⟨h.1, hr, h.2⟩⟩
    simp only [this, elimA]
  · intro r hr
    have : (i < r ∧ r < n) = (i < r) := propext ⟨fun h => h.1, fun h => ⟨h, hr⟩⟩
    simp only [this, elimB]

theorem eps_pos : (0 : K) < eps := by unfold eps; positivity

/-- One column: failure exactly when all entries from the diagonal down are small, otherwise pivoting and elimination. -/
theorem column_spec {n i : Nat} {A B : List K} {a : Nat → Nat → K} {b : Nat → K} (h : Rep n A a) (hb : RepV n B b)
    (hi : i < n) :
    ((∀ q, i ≤ q → q < n → |a q i| < eps) ∧ column n (some (A, B)) i = .ok none) ∨
    (∃ p A' B', Pivot n i a p ∧ eps ≤ |a p i| ∧ column n (some (A, B)) i = .ok (some (A', B')) ∧
      Rep n A' (elimA i (fun r c => a (sw i p r) c)) ∧
      RepV n B' (elimB i (fun r c => a (sw i p r) c) (fun r => b (sw i p r)))) := by
  obtain ⟨r, h1, h2⟩ := pivotSearch_spec h hi
  simp only [column]
  rw [h1, Res.ok_bind]
  rcases h2 with ⟨rfl, h0⟩ | ⟨p, rfl, hp, hP⟩
  · left
    refine ⟨fun q a1 a2 => by rw [h0 q a1 a2, abs_zero]; exact eps_pos, ?_⟩
    rw [if_pos (by rw [abs_zero]; exact eps_pos)]
  · simp only [abs_abs]
    by_cases hs : |a p i| < eps
    · left
      exact ⟨fun q a1 a2 => lt_of_le_of_lt (hP.max q a1 a2) hs, by rw [if_pos hs]⟩
    · right
      rw [if_neg hs]
      simp only [useIndex, Res.ok_bind]
      obtain ⟨A1, s1, s2⟩ := swapRows_spec h hi hP.lt
      obtain ⟨B1, s3, s4⟩ := swapAt_spec hb hi hP.lt
      obtain ⟨A', B', e1, e2, e3⟩ := elim_spec s2 s4 hi
      refine ⟨p, A', B', hP, not_lt.mp hs, ?_, e2, e3⟩
      rw [s1, Res.ok_bind, s3, Res.ok_bind, e1, Res.ok_bind]

end Nla3d.Gauss
