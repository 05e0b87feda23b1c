import Verif.Gauss.Lemmas
import Verif.Sparse.Props
import Mathlib.LinearAlgebra.Matrix.ToLinearEquiv
import Mathlib.Tactic.LinearCombination

/-!
# C20: the dense Gauss solver
-/

namespace Nla3d.Gauss

open Finset

set_option linter.unusedSectionVars false

variable {K : Type} [Field K] [LinearOrder K] [IsStrictOrderedRing K]

/-! ## Specification -/

/-- `x` solves the `n × n` system `a x = b`. -/
def Solves (n : Nat) (a : Nat → Nat → K) (b x : Nat → K) : Prop :=
  ∀ i < n, ∑ j ∈ range n, a i j * x j = b i

/-- `a'` arises from `a` by one step of Gaussian elimination with partial pivoting in column `i`: the first row with the
largest entry is exchanged with row `i`, then multiples of it are subtracted from the rows below. -/
def Step (n i : Nat) (a a' : Nat → Nat → K) : Prop :=
  ∃ p, Pivot n i a p ∧ eps ≤ |a p i| ∧ ∀ r < n, ∀ c < n,
    a' r c = if r ≤ i then a (sw i p r) c else a (sw i p r) c - a (sw i p r) i / a p i * a p c

/-- The matrices reached by eliminating the first `k` columns of `a0`. -/
inductive Reach (n : Nat) (a0 : Nat → Nat → K) : Nat → (Nat → Nat → K) → Prop
  | start : Reach n a0 0 a0
  | step {i : Nat} {a a' : Nat → Nat → K} : Reach n a0 i a → i < n → Step n i a a' → Reach n a0 (i + 1) a'

/-! ## Elimination keeps the solutions -/

/-- Entries below the diagonal in the first `i` columns are zero. -/
def Lower (n i : Nat) (a : Nat → Nat → K) : Prop := ∀ c < i, ∀ r < n, c < r → a r c = 0

theorem sw_sw {i p r : Nat} : sw i p (sw i p r) = r := by
  unfold sw
  by_cases h1 : r = i
  · subst h1
    by_cases h2 : p = r
    · subst h2; simp
    · simp [h2]
  · by_cases h2 : r = p
    · subst h2; simp [h1]
    · simp [h1, h2]

theorem sw_self {i p : Nat} : sw i p i = p := by simp [sw]

theorem sw_ge {i p r : Nat} (hp : i ≤ p) (hr : i < r) : i ≤ sw i p r := by
  unfold sw; split
  · omega
  · split <;> omega

theorem sw_lt_i {i p r : Nat} (hp : i ≤ p) (hr : r < i) : sw i p r = r := by
  unfold sw; rw [if_neg (by omega), if_neg (by omega)]

/-- The code's elimination (which leaves the zero columns alone) is the full row operation. -/
theorem elimA_eq {n i p : Nat} {a : Nat → Nat → K} (hl : Lower n i a) (hP : Pivot n i a p) {r c : Nat} :
    elimA i (fun r c => a (sw i p r) c) r c =
      if r ≤ i then a (sw i p r) c else a (sw i p r) c - a (sw i p r) i / a p i * a p c := by
  unfold elimA
  simp only [sw_self]
  by_cases hr : r ≤ i
  · rw [if_neg (by omega), if_pos hr]
  · rw [if_neg hr]
    by_cases hc : i ≤ c
    · rw [if_pos ⟨by omega, hc⟩]
    · rw [if_neg (fun hh => hc hh.2), hl c (by omega) p hP.lt (by have := hP.ge; omega), mul_zero, sub_zero]

theorem lower_step {n i p : Nat} {a : Nat → Nat → K} (hi : i < n) (hl : Lower n i a) (hP : Pivot n i a p)
    (hp : eps ≤ |a p i|) : Lower n (i + 1) (elimA i (fun r c => a (sw i p r) c)) := by
  have hne : a p i ≠ 0 := by
    intro h0
    rw [h0, abs_zero] at hp
    exact absurd hp (not_le.mpr eps_pos)
  intro c hc r hr hcr
  rw [elimA_eq hl hP]
  by_cases hci : c = i
  · subst hci
    rw [if_neg (by omega)]
    field_simp
    ring
  · have hc' : c < i := by omega
    have hz : a (sw i p r) c = 0 := by
      rcases Nat.lt_or_ge i r with h1 | h1
      · exact hl c hc' _ (sw_lt hi hP.lt hr) (by have := sw_ge hP.ge h1; omega)
      · rcases Nat.lt_or_ge r i with h2 | h2
        · rw [sw_lt_i hP.ge h2]; exact hl c hc' r hr hcr
        · rw [show r = i by omega, sw_self]; exact hl c hc' p hP.lt (by have := hP.ge; omega)
    rw [hz]
    split
    · rfl
    · rw [hl c hc' p hP.lt (by have := hP.ge; omega)]; ring

theorem solves_step {n i p : Nat} {a : Nat → Nat → K} {b : Nat → K} (hi : i < n) (hl : Lower n i a) (hP : Pivot n i a p)
    (x : Nat → K) :
    Solves n (elimA i (fun r c => a (sw i p r) c)) (elimB i (fun r c => a (sw i p r) c) (fun r => b (sw i p r))) x ↔
      Solves n a b x := by
  have hrow : ∀ r, ∑ j ∈ range n, elimA i (fun r c => a (sw i p r) c) r j * x j =
      if r ≤ i then ∑ j ∈ range n, a (sw i p r) j * x j else
        ∑ j ∈ range n, a (sw i p r) j * x j - a (sw i p r) i / a p i * ∑ j ∈ range n, a p j * x j := by
    intro r
    simp only [elimA_eq hl hP]
    split
    · rfl
    · rw [mul_sum, ← sum_sub_distrib]
      exact sum_congr rfl (fun j _ => by ring)
  have hb : ∀ r, elimB i (fun r c => a (sw i p r) c) (fun r => b (sw i p r)) r =
      if r ≤ i then b (sw i p r) else b (sw i p r) - a (sw i p r) i / a p i * b p := by
    intro r
    unfold elimB
    simp only [sw_self]
    by_cases hr : r ≤ i
    · rw [if_neg (by omega), if_pos hr]
    · rw [if_pos (by omega), if_neg hr]
  constructor
  · intro h
    have hpiv : ∑ j ∈ range n, a p j * x j = b p := by
      have := h i hi
      rw [hrow, hb, if_pos (le_refl i), if_pos (le_refl i), sw_self] at this
      exact this
    intro r hr
    have := h (sw i p r) (sw_lt hi hP.lt hr)
    rw [hrow, hb, sw_sw] at this
    by_cases hs : sw i p r ≤ i
    · rw [if_pos hs, if_pos hs] at this; exact this
    · rw [if_neg hs, if_neg hs, hpiv] at this
      linear_combination this
  · intro h r hr
    rw [hrow, hb]
    have h1 := h _ (sw_lt hi hP.lt hr)
    have h2 := h p hP.lt
    split
    · exact h1
    · rw [h1, h2]

/-! ## The elimination phase -/

/-- What the first `i` columns have achieved. -/
structure Elim (n : Nat) (a0 : Nat → Nat → K) (b0 : Nat → K) (i : Nat) (A B : List K) (a : Nat → Nat → K) (b : Nat → K) :
    Prop where
  rep : Rep n A a
  repV : RepV n B b
  lower : Lower n i a
  diag : ∀ c < i, eps ≤ |a c c|
  sols : ∀ x, Solves n a b x ↔ Solves n a0 b0 x
  reach : Reach n a0 i a

theorem diag_step {n i p : Nat} {a : Nat → Nat → K} (hl : Lower n i a) (hP : Pivot n i a p) (hp : eps ≤ |a p i|)
    (hd : ∀ c < i, eps ≤ |a c c|) : ∀ c < i + 1, eps ≤ |elimA i (fun r c => a (sw i p r) c) c c| := by
  intro c hc
  rw [elimA_eq hl hP, if_pos (by omega)]
  rcases Nat.lt_or_ge c i with h | h
  · rw [sw_lt_i hP.ge h]; exact hd c h
  · rw [show c = i by omega, sw_self]; exact hp

theorem elimination {n : Nat} {A B : List K} {a0 : Nat → Nat → K} {b0 : Nat → K} (hA : Rep n A a0) (hB : RepV n B b0) :
    (∃ i a, i < n ∧ Reach n a0 i a ∧ (∀ q, i ≤ q → q < n → |a q i| < eps) ∧
      Res.foldlM' (column n) (some (A, B)) (List.range n) = .ok none) ∨
    (∃ A' B' a b, Res.foldlM' (column n) (some (A, B)) (List.range n) = .ok (some (A', B')) ∧
      Elim n a0 b0 n A' B' a b) := by
  obtain ⟨s, h1, h2⟩ := Res.foldlM'_range (column n)
    (fun k s => (s = none ∧ ∃ i a, i < n ∧ Reach n a0 i a ∧ (∀ q, i ≤ q → q < n → |a q i| < eps)) ∨
      (∃ A' B' a b, s = some (A', B') ∧ Elim n a0 b0 k A' B' a b)) n (some (A, B))
    (Or.inr ⟨A, B, a0, b0, rfl, hA, hB, fun c hc => by omega, fun c hc => by omega, fun _ => Iff.rfl, .start⟩) (by
      rintro k s hk (⟨rfl, hf⟩ | ⟨A', B', a, b, rfl, he⟩)
      · exact ⟨none, rfl, Or.inl ⟨rfl, hf⟩⟩
      · rcases column_spec he.rep he.repV hk with ⟨hs, hc⟩ | ⟨p, A2, B2, hP, hp, hc, hA2, hB2⟩
        · exact ⟨none, hc, Or.inl ⟨rfl, k, a, hk, he.reach, hs⟩⟩
        · refine ⟨_, hc, Or.inr ⟨A2, B2, _, _, rfl, hA2, hB2, lower_step hk he.lower hP hp, diag_step he.lower hP hp he.diag,
            fun x => (solves_step hk he.lower hP x).trans (he.sols x), ?_⟩⟩
          exact .step he.reach hk ⟨p, hP, hp, fun r _ c _ => elimA_eq he.lower hP⟩)
  rcases h2 with ⟨rfl, i, a, q1, q2, q3⟩ | ⟨A', B', a, b, rfl, he⟩
  · exact Or.inl ⟨i, a, q1, q2, q3, h1⟩
  · exact Or.inr ⟨A', B', a, b, h1, he⟩

/-! ## Back substitution -/

/-- Rows from `k` on are solved. -/
def SolvesFrom (n k : Nat) (a : Nat → Nat → K) (b x : Nat → K) : Prop :=
  ∀ i, k ≤ i → i < n → ∑ j ∈ range n, a i j * x j = b i

theorem sum_split {n i : Nat} (hi : i < n) {a : Nat → Nat → K} (hl : Lower n n a) (x : Nat → K) :
    ∑ j ∈ range n, a i j * x j = a i i * x i + ∑ j ∈ Ico (i + 1) n, a i j * x j := by
  have h1 : ∑ j ∈ range i, a i j * x j = 0 := sum_eq_zero (fun j hj => by
    rw [mem_range] at hj
    rw [hl j (by omega) i hi hj, zero_mul])
  rw [← sum_range_add_sum_Ico _ (show i + 1 ≤ n by omega), sum_range_succ, h1, zero_add]

theorem backRow_spec {n i : Nat} {A B X : List K} {a : Nat → Nat → K} {b x : Nat → K} (hA : Rep n A a) (hB : RepV n B b)
    (hX : RepV n X x) (hl : Lower n n a) (hi : i < n) (hd : eps ≤ |a i i|) (hs : SolvesFrom n (i + 1) a b x) :
    ∃ X' x', backRow n A B (some X) i = .ok (some X') ∧ RepV n X' x' ∧ SolvesFrom n i a b x' := by
  have hne : a i i ≠ 0 := by
    intro h0
    rw [h0, abs_zero] at hd
    exact absurd hd (not_le.mpr eps_pos)
  simp only [backRow]
  rw [hA.read hi hi, Res.ok_bind, if_neg (not_lt.mpr hd), hB.read hi, Res.ok_bind]
  obtain ⟨t, t1, t2⟩ := Res.foldlM'_down (fun temp j => do
      let x ← Res.read X j
      let a ← Res.read A (i * n + j)
      .ok (temp - x * a)) (fun k t => t = b i - ∑ j ∈ Ico k n, a i j * x j) (n - (i + 1)) (i + 1) (b i)
    (by rw [show i + 1 + (n - (i + 1)) = n by omega]; simp) (by
      rintro k t hk hk' rfl
      have hkn : k < n := by omega
      rw [hX.read hkn, Res.ok_bind, hA.read hi hkn, Res.ok_bind]
      refine ⟨_, rfl, ?_⟩
      rw [sum_eq_sum_Ico_succ_bot hkn]
      ring)
  rw [t1, Res.ok_bind, t2]
  obtain ⟨X', w1, w2⟩ := hX.write hi ((b i - ∑ j ∈ Ico (i + 1) n, a i j * x j) / a i i)
  rw [w1, Res.ok_bind]
  refine ⟨X', _, rfl, w2, ?_⟩
  intro r hr hrn
  rw [sum_split hrn hl]
  have hsum : ∀ s, i < s → ∑ j ∈ Ico s n, a r j * updV x i ((b i - ∑ j ∈ Ico (i + 1) n, a i j * x j) / a i i) j =
      ∑ j ∈ Ico s n, a r j * x j := by
    intro s hs
    apply sum_congr rfl
    intro j hj
    rw [mem_Ico] at hj
    unfold updV
    rw [if_neg (by omega)]
  rw [hsum (r + 1) (by omega)]
  by_cases hri : r = i
  · subst hri
    unfold updV
    rw [if_pos rfl]
    field_simp
    ring
  · have := hs r (by omega) hrn
    rw [sum_split hrn hl] at this
    unfold updV
    rw [if_neg hri]
    exact this

theorem backSubst {n : Nat} {A B X : List K} {a : Nat → Nat → K} {b : Nat → K} (hA : Rep n A a) (hB : RepV n B b)
    (hX : X.length = n) (hl : Lower n n a) (hd : ∀ i < n, eps ≤ |a i i|) :
    ∃ X' x, Res.foldlM' (backRow n A B) (some X) (List.range' 0 n).reverse = .ok (some X') ∧ RepV n X' x ∧
      Solves n a b x := by
  obtain ⟨s, h1, X', x, rfl, h2, h3⟩ := Res.foldlM'_down (backRow n A B)
    (fun k s => ∃ X' x, s = some X' ∧ RepV n X' x ∧ SolvesFrom n k a b x) n 0 (some X)
    ⟨X, fun i => X.getD i 0, rfl, ⟨hX, fun i hi => by
      rw [List.getD_eq_getElem?_getD, List.getElem?_eq_getElem (by omega)]; rfl⟩, fun i h1 h2 => by omega⟩ (by
      rintro k s _ hk ⟨X', x, rfl, h2, h3⟩
      obtain ⟨X2, x2, e1, e2, e3⟩ := backRow_spec hA hB h2 hl (by omega) (hd k (by omega)) h3
      exact ⟨_, e1, X2, x2, rfl, e2, e3⟩)
  exact ⟨X', x, h1, h2, fun i hi => h3 i (by omega) hi⟩

/-- A triangular system has at most one solution. -/
theorem triangular_unique {n : Nat} {a : Nat → Nat → K} {b : Nat → K} (hl : Lower n n a) (hd : ∀ i < n, eps ≤ |a i i|)
    {x y : Nat → K} (hx : Solves n a b x) (hy : Solves n a b y) : ∀ i < n, x i = y i := by
  have key : ∀ d i, i < n → n - i ≤ d → x i = y i := by
    intro d
    induction d with
    | zero => intro i h1 h2; omega
    | succ d ih =>
      intro i hi hd'
      have h1 := hx i hi
      have h2 := hy i hi
      rw [sum_split hi hl] at h1 h2
      have h3 : ∑ j ∈ Ico (i + 1) n, a i j * x j = ∑ j ∈ Ico (i + 1) n, a i j * y j :=
        sum_congr rfl (fun j hj => by
          rw [mem_Ico] at hj
          rw [ih j hj.2 (by omega)])
      have hne : a i i ≠ 0 := by
        intro h0
        have := hd i hi
        rw [h0, abs_zero] at this
        exact absurd this (not_le.mpr eps_pos)
      have : a i i * x i = a i i * y i := by rw [h3] at h1; linear_combination h1 - h2
      exact mul_left_cancel₀ hne this
  exact fun i hi => key (n - i) i hi (le_refl _)

/-- `Reach` is deterministic on the entries of the matrix. -/
theorem reach_unique {n : Nat} {a0 : Nat → Nat → K} {i : Nat} {a : Nat → Nat → K} (h : Reach n a0 i a) :
    ∀ {a' : Nat → Nat → K}, Reach n a0 i a' → ∀ r < n, ∀ c < n, a r c = a' r c := by
  induction h with
  | start => intro a' h'; cases h'; exact fun _ _ _ _ => rfl
  | @step i a1 a2 h1 hi hs ih =>
    intro a' h'
    cases h' with
    | @step _ b1 _ g1 _ gs =>
      have he := ih g1
      obtain ⟨p, hP, _, hv⟩ := hs
      obtain ⟨q, hQ, _, gv⟩ := gs
      have hpq : p = q := by
        rcases Nat.lt_trichotomy p q with h | h | h
        · have x1 := hQ.first p hP.ge h
          have x2 := hP.max q hQ.ge hQ.lt
          rw [he p hP.lt i hi, he q hQ.lt i hi] at x2
          exact absurd x1 (not_lt.mpr x2)
        · exact h
        · have x1 := hP.first q hQ.ge h
          have x2 := hQ.max p hP.ge hP.lt
          rw [← he p hP.lt i hi, ← he q hQ.lt i hi] at x2
          exact absurd x1 (not_lt.mpr x2)
      subst hpq
      intro r hr c hc
      have hsr := sw_lt hi hP.lt hr
      rw [hv r hr c hc, gv r hr c hc, he _ hsr c hc, he _ hsr i hi, he p hP.lt i hi, he p hP.lt c hc]

/-! ## C20 -/

/-- **C20.** On arrays of the right sizes `_solve` always returns, without reading uninitialised or out-of-range memory
(an outcome other than `ok` would show that). Either it returns true, then the returned vector solves the original system
and the original matrix is nonsingular, or it returns false. -/
theorem C20_gauss {n : Nat} {X A B : List K} {a : Nat → Nat → K} {b : Nat → K} (hA : Rep n A a) (hB : RepV n B b)
    (hX : X.length = n) :
    (∃ X' x, solve n X A B = .ok (some X') ∧ RepV n X' x ∧ Solves n a b x ∧
      (Matrix.of fun (i j : Fin n) => a i j).det ≠ 0) ∨
    solve n X A B = .ok none := by
  unfold solve
  rcases elimination hA hB with ⟨i, a', _, _, _, h4⟩ | ⟨A', B', a', b', h1, he⟩
  · right; rw [h4]; rfl
  · left
    rw [h1, Res.ok_bind]
    obtain ⟨X', x, e1, e2, e3⟩ := backSubst he.rep he.repV hX he.lower he.diag
    refine ⟨X', x, e1, e2, (he.sols x).mp e3, ?_⟩
    intro hdet
    obtain ⟨z, hz, hz0⟩ := Matrix.exists_mulVec_eq_zero_iff.mpr hdet
    apply hz
    -- `x + z` solves the system too
    let zn : Nat → K := fun j => if h : j < n then z ⟨j, h⟩ else 0
    have hzz : ∀ i < n, ∑ j ∈ range n, a i j * zn j = 0 := by
      intro i hi
      have := congrFun hz0 ⟨i, hi⟩
      simp only [Matrix.mulVec, dotProduct, Matrix.of_apply, Pi.zero_apply] at this
      rw [← this, ← Fin.sum_univ_eq_sum_range (fun j => a i j * zn j) n]
      exact sum_congr rfl (fun j _ => by simp [zn])
    have hxz : Solves n a b (fun j => x j + zn j) := by
      intro i hi
      have h1 := (he.sols x).mp e3 i hi
      simp only [mul_add, sum_add_distrib]
      rw [h1, hzz i hi, add_zero]
    have huniq := triangular_unique he.lower he.diag e3 ((he.sols _).mpr hxz)
    funext j
    have := huniq j j.isLt
    simp only [zn, j.isLt, dif_pos] at this
    exact left_eq_add.mp this

/-- **C20, failure.** It returns false exactly when, after eliminating some first columns, all remaining entries of the
next column are smaller than `1e-20`. -/
theorem C20_failure_iff {n : Nat} {X A B : List K} {a : Nat → Nat → K} {b : Nat → K} (hA : Rep n A a)
    (hB : RepV n B b) (hX : X.length = n) :
    solve n X A B = .ok none ↔ ∃ i a', i < n ∧ Reach n a i a' ∧ ∀ q, i ≤ q → q < n → |a' q i| < eps := by
  rcases elimination hA hB with ⟨i, a', h1, h2, h3, h4⟩ | ⟨A', B', a', b', h1, he⟩
  · refine ⟨fun _ => ⟨i, a', h1, h2, h3⟩, fun _ => ?_⟩
    unfold solve; rw [h4]; rfl
  · constructor
    · intro hf
      exfalso
      obtain ⟨X', x, e1, _⟩ := backSubst he.rep he.repV hX he.lower he.diag
      unfold solve at hf
      rw [h1, Res.ok_bind] at hf
      simp only [e1] at hf
      simp at hf
    · rintro ⟨i, a1, hi, hr, hs⟩
      exfalso
      -- the successful run passed column `i` with a big pivot
      have hpre : ∀ {k : Nat} {c : Nat → Nat → K}, Reach n a k c → ∀ i < k, ∃ c', Reach n a i c' ∧ ∃ c'', Step n i c' c'' := by
        intro k c h
        induction h with
        | start => intro i hi; omega
        | @step k c1 c2 g1 g2 g3 ih =>
          intro i hi
          rcases Nat.lt_or_ge i k with h | h
          · exact ih i h
          · rw [show i = k by omega]; exact ⟨c1, g1, c2, g3⟩
      obtain ⟨c', r1, c'', p, hP, hp, _⟩ := hpre he.reach i hi
      have := hs p hP.ge hP.lt
      rw [reach_unique hr r1 p hP.lt i hi] at this
      exact absurd this (not_lt.mpr hp)

/-- **C20, singular matrices** are always reported as a failure. -/
theorem C20_singular {n : Nat} {X A B : List K} {a : Nat → Nat → K} {b : Nat → K} (hA : Rep n A a)
    (hB : RepV n B b) (hX : X.length = n) (hdet : (Matrix.of fun (i j : Fin n) => a i j).det = 0) :
    solve n X A B = .ok none := by
  rcases C20_gauss hA hB hX with ⟨_, _, _, _, _, h⟩ | h
  · exact absurd hdet h
  · exact h

theorem fill_spec {M : Sparse.SpMat K} {n : Nat} {a : Nat → Nat → K}
    (hv : ∀ i < n, ∀ j < n, M.valueSym (i + 1) (j + 1) = .ok (a i j)) : ∃ A, fill M n = .ok A ∧ Rep n A a := by
  have h0 : Rep n (List.replicate (n * n) (0 : K)) (fun _ _ => 0) := by
    refine ⟨List.length_replicate .., fun i hi j hj => ?_⟩
    rw [List.getElem?_replicate, if_pos (index_lt hi hj)]
  obtain ⟨A, h1, h2⟩ := Res.foldlM'_range (fun A i => Res.foldlM' (fun A j => do
      let v ← M.valueSym (i + 1) (j + 1)
      Res.write A (i * n + j) v) A (List.range n))
    (fun k A => Rep n A (fun r c => if r < k then a r c else 0)) n (List.replicate (n * n) 0)
    (h0.congr (fun r _ c _ => by simp)) (by
      intro k A hk hA
      obtain ⟨A', g1, g2⟩ := Res.foldlM'_range (fun A j => do
          let v ← M.valueSym (k + 1) (j + 1)
          Res.write A (k * n + j) v)
        (fun q A => Rep n A (fun r c => if r < k ∨ (r = k ∧ c < q) then a r c else 0)) n A
        (hA.congr (fun r _ c _ => by simp)) (by
          intro q A hq hA
          rw [hv k hk q hq, Res.ok_bind]
          obtain ⟨A', w1, w2⟩ := hA.write hk hq (a k q)
          refine ⟨A', w1, w2.congr ?_⟩
          intro r _ c _
          simp only [upd]
          by_cases e : r = k ∧ c = q
          · obtain ⟨rfl, rfl⟩ := e
            rw [if_pos ⟨rfl, rfl⟩, if_pos (by omega)]
          · rw [if_neg e]
            have : (r < k ∨ r = k ∧ c < q) = (r < k ∨ r = k ∧ c < q + 1) := propext ⟨fun h => by omega, fun h => by omega⟩
            simp only [this])
      refine ⟨A', g1, g2.congr ?_⟩
      intro r _ c hc
      have : (r < k ∨ r = k ∧ c < n) = (r < k + 1) := propext ⟨fun h => by omega, fun h => by omega⟩
      simp only [this])
  exact ⟨A, h1, h2.congr (fun r hr c _ => by simp only [if_pos hr])⟩

/-- **C20, through the public interface.** For a symmetric sparse matrix with fewer than 1000 rows whose entries read
`a i j`, `solveEquations` either stops with a fatal error or delivers a solution of the original system, and then the
matrix is nonsingular; for 1000 rows or more it stops. -/
theorem C20_solveEquations {M : Sparse.SpMat K} {rhs unknowns : List K} {a : Nat → Nat → K} {b : Nat → K}
    (hv : ∀ i < M.si.nRows, ∀ j < M.si.nRows, M.valueSym (i + 1) (j + 1) = .ok (a i j))
    (hb : RepV M.si.nRows rhs b) (hu : unknowns.length = M.si.nRows) :
    solveEquations M rhs unknowns = .fatal ∨
    (M.si.nRows < 1000 ∧ ∃ X x, solveEquations M rhs unknowns = .ok X ∧ RepV M.si.nRows X x ∧
      Solves M.si.nRows a b x ∧ (Matrix.of fun (i j : Fin M.si.nRows) => a i j).det ≠ 0) := by
  unfold solveEquations
  by_cases hn : M.si.nRows < 1000
  · rw [decide_eq_true hn]
    obtain ⟨A, f1, f2⟩ := fill_spec hv
    simp only [Res.check_true, Res.ok_bind, f1]
    rcases C20_gauss f2 hb hu with ⟨X, x, g1, g2, g3, g4⟩ | g
    · right
      rw [g1]
      exact ⟨hn, X, x, rfl, g2, g3, g4⟩
    · left; rw [g]; rfl
  · left
    rw [decide_eq_false hn]; rfl

/-- **C20, for the sparse matrices themselves**: any matrix assembled through the interface of `SparseSymMatrix`. -/
theorem C20_solve_assembled {n k : Nat} {es : List (Nat × Nat)} {ops : List (Sparse.Op K)}
    (h : Sparse.Legal n n k es ops) {M : Sparse.SpMat K} (hM : Sparse.buildSym n k es ops = .ok M) {rhs unknowns : List K}
    {b : Nat → K} (hb : RepV n rhs b) (hu : unknowns.length = n) :
    solveEquations M rhs unknowns = .fatal ∨
    (∃ X x, solveEquations M rhs unknowns = .ok X ∧ RepV n X x ∧
      (∀ i < n, ∑ j ∈ range n, Sparse.totalSym ops (i + 1) (j + 1) * x j = b i) ∧
      (Matrix.of fun (i j : Fin n) => Sparse.totalSym ops (i + 1) (j + 1)).det ≠ 0) := by
  have hn : M.si.nRows = n := by
    have hM' := hM
    rw [Sparse.buildSym_eq] at hM'
    obtain ⟨_, _, _, _, _, h1, _⟩ := Sparse.build_ok (Sparse.legalSym h) hM'
    exact h1
  have hv : ∀ i < n, ∀ j < n, M.valueSym (i + 1) (j + 1) = .ok (Sparse.totalSym ops (i + 1) (j + 1)) :=
    fun i hi j hj => (Sparse.C04_value_symmetric h hM (by omega) (by omega)).1
  subst hn
  rcases C20_solveEquations (a := fun i j => Sparse.totalSym ops (i + 1) (j + 1)) hv hb hu with h1 | ⟨_, h2⟩
  · exact Or.inl h1
  · exact Or.inr h2

example : ∃ M : Sparse.SpMat ℚ,
    Sparse.buildSym 3 3 [(2, 1), (1, 3)] [.add 1 2 5, .add 2 1 4, .add 3 3 1] = .ok M := by
  obtain ⟨a, h, _⟩ := Sparse.exSym
  exact ⟨a, h⟩

/-- A system that needs pivoting. -/
example : ∃ X', solve 2 [0, 0] ([0, 2, 4, 6] : List ℚ) [2, 10] = .ok (some X') := by
  refine ⟨[1, 1], ?_⟩
  norm_num [solve, column, pivotSearch, swapRows, swapAt, elimRow, backRow, useIndex, Res.read, Res.write, eps,
    List.range_succ, List.range'_succ, abs_of_pos]

/-- A singular matrix. -/
example : Rep 2 ([1, 2, 2, 4] : List ℚ) (fun i j => ((i + 1) * (j + 1) : Nat)) ∧
    (Matrix.of fun (i j : Fin 2) => ((((i : Nat) + 1) * ((j : Nat) + 1) : Nat) : ℚ)).det = 0 := by
  refine ⟨⟨rfl, ?_⟩, ?_⟩
  · intro i hi j hj
    have : i = 0 ∨ i = 1 := by omega
    have : j = 0 ∨ j = 1 := by omega
    rcases ‹i = 0 ∨ i = 1› with rfl | rfl <;> rcases ‹j = 0 ∨ j = 1› with rfl | rfl <;> norm_num
  · rw [Matrix.det_fin_two]; norm_num

end Nla3d.Gauss
