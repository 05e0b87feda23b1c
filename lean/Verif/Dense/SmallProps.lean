import Verif.Dense.Small
import Verif.Dense.Lemmas
import Verif.Storage.ReportProps
import Mathlib.Algebra.Order.Ring.Rat

/-!
# C122: arithmetic, comparison and text of small vectors and matrices
-/

namespace Nla3d.Dense

variable {K : Type}

/-! ## Loops -/

/-- A loop that writes position after position, each from data that it has not written yet. -/
theorem fill_loop {α : Type} (f : List α → Nat → Res (List α)) (r p0 : List α) (hlen : p0.length = r.length)
    (hf : ∀ k (hk : k < r.length) p, p.length = r.length → (∀ i, k ≤ i → p[i]? = p0[i]?) → f p k = Res.write p k r[k]) :
    Res.foldlM' f p0 (List.range r.length) = .ok r := by
  obtain ⟨p, h1, h2, h3, _⟩ := Res.foldlM'_range f
    (fun k p => p.length = r.length ∧ (∀ i, i < k → p[i]? = r[i]?) ∧ ∀ i, k ≤ i → p[i]? = p0[i]?) r.length p0
    ⟨hlen, by simp, by simp⟩ (by
      rintro k p hk ⟨a, b, c⟩
      refine ⟨p.set k r[k], ?_, by simpa using a, ?_, ?_⟩
      · rw [hf k hk p a c]
        unfold Res.write
        rw [if_pos (by omega)]
      · intro i hi
        rw [List.getElem?_set]
        by_cases e : k = i
        · subst e; simp [a, hk]
        · rw [if_neg e]; exact b i (by omega)
      · intro i hi
        rw [List.getElem?_set, if_neg (by omega)]
        exact c i (by omega))
  rw [h1]
  congr 1
  apply List.ext_getElem?
  intro i
  by_cases hi : i < r.length
  · exact h3 i hi
  · rw [List.getElem?_eq_none (by omega), List.getElem?_eq_none (by omega)]

/-- Two nested loops over rows and columns are one loop over the memory. -/
theorem nested_loop {σ : Type} (f : σ → Nat → Res σ) (m n : Nat) (s : σ) :
    Res.foldlM' (fun s i => Res.foldlM' (fun s j => f s (i * n + j)) s (List.range n)) s (List.range m) =
      Res.foldlM' f s (List.range (m * n)) := by
  have row : ∀ (i : Nat) (l : List Nat) (s : σ), Res.foldlM' (fun s j => f s (i * n + j)) s l =
      Res.foldlM' f s (l.map (i * n + ·)) := by
    intro i l
    induction l with
    | nil => intro s; rfl
    | cons j l ih =>
      intro s
      simp only [Res.foldlM'_cons, List.map_cons]
      cases f s (i * n + j) with
      | ok s' => simp only [Res.ok_bind]; exact ih s'
      | _ => rfl
  induction m generalizing s with
  | zero => simp
  | succ m ih =>
    rw [List.range_succ, Res.foldlM'_append, ih, Nat.succ_mul, List.range_add, Res.foldlM'_append]
    cases Res.foldlM' f s (List.range (m * n)) with
    | ok s' =>
      simp only [Res.ok_bind, Res.foldlM'_cons, Res.foldlM'_nil, row]
      cases Res.foldlM' f s' (List.map (m * n + ·) (List.range n)) <;> rfl
    | _ => rfl

theorem fill2 (g : K → K → K) {a b : List K} {N : Nat} (ha : a.length = N) (hb : b.length = N) (p : List K) (hp : p.length = N) :
    Res.foldlM' (fun p i => do
      let x ← Res.read a i
      let y ← Res.read b i
      Res.write p i (g x y)) p (List.range N) = .ok (List.zipWith g a b) := by
  have hl : (List.zipWith g a b).length = N := by rw [List.length_zipWith]; omega
  have := fill_loop (fun p i => do
      let x ← Res.read a i
      let y ← Res.read b i
      Res.write p i (g x y)) (List.zipWith g a b) p (by omega) (by
    intro k hk q _ _
    rw [hl] at hk
    simp only [Res.read_of_lt (show k < a.length by omega), Res.read_of_lt (show k < b.length by omega), Res.ok_bind,
      List.getElem_zipWith])
  rwa [hl] at this

theorem fill1 (g : K → K) {a : List K} {N : Nat} (ha : a.length = N) (p : List K) (hp : p.length = N) :
    Res.foldlM' (fun p i => do
      let x ← Res.read a i
      Res.write p i (g x)) p (List.range N) = .ok (a.map g) := by
  have hl : (a.map g).length = N := by rw [List.length_map]; omega
  have := fill_loop (fun p i => do
      let x ← Res.read a i
      Res.write p i (g x)) (a.map g) p (by omega) (by
    intro k hk q _ _
    rw [hl] at hk
    simp only [Res.read_of_lt (show k < a.length by omega), Res.ok_bind, List.getElem_map])
  rwa [hl] at this

theorem fill_in_place [Add K] {a b : List K} {N : Nat} (ha : a.length = N) (hb : b.length = N) :
    Res.foldlM' (fun a i => do
      let x ← Res.read a i
      let y ← Res.read b i
      Res.write a i (x + y)) a (List.range N) = .ok (List.zipWith (· + ·) a b) := by
  have hl : (List.zipWith (· + ·) a b).length = N := by rw [List.length_zipWith]; omega
  have := fill_loop (fun a i => do
      let x ← Res.read a i
      let y ← Res.read b i
      Res.write a i (x + y)) (List.zipWith (· + ·) a b) a (by omega) (by
    intro k hk q hq hs
    rw [hl] at hk
    have hx : Res.read q k = .ok a[k] := by
      rw [Res.read_eq_ok, hs k (Nat.le_refl k), List.getElem?_eq_getElem]
    simp only [hx, Res.read_of_lt (show k < b.length by omega), Res.ok_bind, List.getElem_zipWith])
  rwa [hl] at this

/-! ## Arithmetic -/

/-- **C122, vectors.** Sum, difference, opposite, multiple and scalar product of vectors of any dimension. -/
theorem C122_vec [CommRing K] {n : Nat} {a b : List K} (ha : a.length = n) (hb : b.length = n) (c : K) :
    vecAdd n a b = .ok (List.zipWith (· + ·) a b) ∧ vecSub n a b = .ok (List.zipWith (· - ·) a b) ∧
    vecAddTo n a b = .ok (List.zipWith (· + ·) a b) ∧ vecNeg n a = .ok (a.map fun x => -x) ∧
    vecScale n a c = .ok (a.map fun x => x * c) ∧ vecDot n a b = .ok (List.zipWith (· * ·) a b).sum := by
  refine ⟨fill2 _ ha hb _ (by simp), fill2 _ ha hb _ (by simp), fill_in_place ha hb, fill1 _ ha _ (by simp), fill1 _ ha _ (by simp), ?_⟩
  obtain ⟨s, h1, h2⟩ := Res.foldlM'_range (fun (p : K) i => do
      let x ← Res.read a i
      let y ← Res.read b i
      .ok (p + x * y)) (fun k p => p = ((List.zipWith (· * ·) a b).take k).sum) n 0 (by simp) (by
    rintro k p hk rfl
    refine ⟨_, by simp only [Res.read_of_lt (show k < a.length by omega), Res.read_of_lt (show k < b.length by omega), Res.ok_bind]; rfl, ?_⟩
    rw [List.take_succ, List.sum_append]
    have : (List.zipWith (· * ·) a b)[k]? = some (a[k] * b[k]) := by
      rw [List.getElem?_eq_getElem (by rw [List.length_zipWith]; omega), List.getElem_zipWith]
    rw [this]
    simp)
  unfold vecDot
  rw [h1, h2, List.take_of_length_le (by rw [List.length_zipWith]; omega)]

/-- **C122, matrices.** Sum, difference, opposite and multiple of matrices of any shape; the identity. -/
theorem C122_mat [CommRing K] {m n : Nat} {a b : List K} (ha : a.length = m * n) (hb : b.length = m * n) (c : K) :
    matAdd m n a b = .ok (List.zipWith (· + ·) a b) ∧ matSub m n a b = .ok (List.zipWith (· - ·) a b) ∧
    matAddTo m n a b = .ok (List.zipWith (· + ·) a b) ∧ matNeg m n a = .ok (a.map fun x => -x) ∧
    matScale m n a c = .ok (a.map fun x => x * c) := by
  refine ⟨?_, ?_, ?_, ?_, ?_⟩
  · exact (nested_loop (fun p k => do
      let x ← Res.read a k
      let y ← Res.read b k
      Res.write p k (x + y)) m n _).trans (fill2 _ ha hb _ (by simp))
  · exact (nested_loop (fun p k => do
      let x ← Res.read a k
      let y ← Res.read b k
      Res.write p k (x - y)) m n _).trans (fill2 _ ha hb _ (by simp))
  · exact (nested_loop (fun a k => do
      let x ← Res.read a k
      let y ← Res.read b k
      Res.write a k (x + y)) m n _).trans (fill_in_place ha hb)
  · exact (nested_loop (fun p k => do
      let x ← Res.read a k
      Res.write p k (-x)) m n _).trans (fill1 _ ha _ (by simp))
  · exact (nested_loop (fun p k => do
      let x ← Res.read a k
      Res.write p k (x * c)) m n _).trans (fill1 _ ha _ (by simp))

/-- **C122, the identity.** `Identity` fills a square matrix with the identity, whatever was there; other shapes are refused. -/
theorem C122_identity [CommRing K] {m n : Nat} {a : List K} (ha : a.length = m * n) :
    (m = n → ∃ r, identity m n a = .ok r ∧ r.length = m * n ∧
      ∀ i j, i < m → j < n → r[i * n + j]? = some (if i = j then 1 else 0)) ∧
    (m ≠ n → identity m n a = .assert) := by
  constructor
  · rintro rfl
    set r : List K := (List.range (m * m)).map (fun k => if k / m = k % m then 1 else 0) with hr
    have hl : r.length = m * m := by simp [hr]
    have hloop : Res.foldlM' (fun (a : List K) k => Res.write a k (if k / m = k % m then (1 : K) else 0)) a (List.range (m * m)) =
        .ok r := by
      have := fill_loop (fun (a : List K) k => Res.write a k (if k / m = k % m then (1 : K) else 0)) r a (by omega) (by
        intro k hk q _ _
        simp [hr])
      rwa [hl] at this
    refine ⟨r, ?_, hl, ?_⟩
    · unfold identity
      rw [if_pos rfl, ← hloop, ← nested_loop]
      have key : ∀ (l : List Nat) (s : List K), Res.foldlM' (fun (a : List K) i => Res.foldlM' (fun a j =>
            Res.write a (i * m + j) (if i = j then (1 : K) else 0)) a (List.range m)) s l =
          Res.foldlM' (fun (a : List K) i => Res.foldlM' (fun a j =>
            Res.write a (i * m + j) (if (i * m + j) / m = (i * m + j) % m then (1 : K) else 0)) a (List.range m)) s l := by
        have inner : ∀ (i : Nat) (l : List Nat), (∀ j ∈ l, j < m) → ∀ s : List K,
            Res.foldlM' (fun a j => Res.write a (i * m + j) (if i = j then (1 : K) else 0)) s l =
            Res.foldlM' (fun a j => Res.write a (i * m + j) (if (i * m + j) / m = (i * m + j) % m then (1 : K) else 0)) s l := by
          intro i l
          induction l with
          | nil => intro _ s; rfl
          | cons j l ih =>
            intro h s
            have hj := h j (by simp)
            have e1 : (i * m + j) / m = i := by
              rw [Nat.add_comm, Nat.add_mul_div_right _ _ (by omega), Nat.div_eq_of_lt hj, Nat.zero_add]
            have e2 : (i * m + j) % m = j := by
              rw [Nat.add_comm, Nat.add_mul_mod_self_right, Nat.mod_eq_of_lt hj]
            simp only [Res.foldlM'_cons, e1, e2]
            congr 1
            funext s'
            have := ih (fun x hx => h x (by simp [hx])) s'
            exact this
        intro l
        induction l with
        | nil => intro s; rfl
        | cons i l ih =>
          intro s
          simp only [Res.foldlM'_cons, inner i (List.range m) (fun j hj => List.mem_range.mp hj)]
          congr 1
          funext s'
          exact ih s'
      exact key _ _
    · intro i j hi hj
      have hb : i * m + j < m * m := by nlinarith
      rw [List.getElem?_eq_getElem (by omega)]
      have e1 : (i * m + j) / m = i := by
        rw [Nat.add_comm, Nat.add_mul_div_right _ _ (by omega), Nat.div_eq_of_lt hj, Nat.zero_add]
      have e2 : (i * m + j) % m = j := by
        rw [Nat.add_comm, Nat.add_mul_mod_self_right, Nat.mod_eq_of_lt hj]
      simp [hr, e1, e2]
  · intro h
    unfold identity
    rw [if_neg h]

/-! ## Comparison -/

theorem compareLoop_spec {α : Type} (far : α → α → Bool) (a b : List α) : ∀ (k i : Nat), i + k ≤ a.length → i + k ≤ b.length →
    ∃ r, compareLoop far a b i k = .ok r ∧ (r = true ↔ ∀ j x y, i ≤ j → j < i + k → a[j]? = some x → b[j]? = some y → far x y = false)
  | 0, i, _, _ => ⟨true, rfl, by simp; intros; omega⟩
  | k + 1, i, ha, hb => by
    simp only [compareLoop, Res.read_of_lt (show i < a.length by omega), Res.read_of_lt (show i < b.length by omega), Res.ok_bind]
    by_cases hf : far a[i] b[i] = true
    · refine ⟨false, by rw [if_pos hf], ?_⟩
      simp only [Bool.false_eq_true, false_iff]
      intro h
      have := h i a[i] b[i] (Nat.le_refl i) (by omega) (List.getElem?_eq_getElem _) (List.getElem?_eq_getElem _)
      rw [hf] at this
      cases this
    · rw [if_neg hf]
      obtain ⟨r, h1, h2⟩ := compareLoop_spec far a b k (i + 1) (by omega) (by omega)
      refine ⟨r, h1, h2.trans ?_⟩
      constructor
      · intro h j x y hj hj' hx hy
        by_cases e : i = j
        · subst e
          rw [List.getElem?_eq_getElem (by omega), Option.some.injEq] at hx hy
          subst hx hy
          simpa using hf
        · exact h j x y (by omega) (by omega) hx hy
      · intro h j x y hj hj' hx hy
        exact h j x y (by omega) (by omega) hx hy

/-- What a comparison has to say: all numbers agree up to `eps`. -/
def Close [AddGroup K] [Lattice K] (eps : K) (a b : List K) : Prop :=
  ∀ (i : Nat) (x y : K), a[i]? = some x → b[i]? = some y → |x - y| ≤ eps

theorem compare_numbers [AddGroup K] [LinearOrder K] (eps : K) {N : Nat} {a b : List K} (ha : a.length = N) (hb : b.length = N) :
    ∃ r, compareLoop (far eps) (a.map some) (b.map some) 0 N = .ok r ∧ (r = true ↔ Close eps a b) := by
  obtain ⟨r, h1, h2⟩ := compareLoop_spec (far eps) (a.map some) (b.map some) N 0 (by simp; omega) (by simp; omega)
  refine ⟨r, h1, h2.trans ?_⟩
  constructor
  · intro h i x y hx hy
    have hi : i < N := by
      by_contra hc
      rw [List.getElem?_eq_none (by omega)] at hx
      cases hx
    have := h i (some x) (some y) (by omega) (by omega) (by simp [hx]) (by simp [hy])
    simpa [far] using this
  · intro h i x y _ _ hx hy
    rw [List.getElem?_map, Option.map_eq_some_iff] at hx hy
    obtain ⟨x, hx, rfl⟩ := hx
    obtain ⟨y, hy, rfl⟩ := hy
    simpa [far] using h i x y hx hy

/-- **C122, comparison.** The comparisons of vectors, matrices and symmetric matrices of numbers say yes exactly if all numbers agree up
to the threshold. Missing: values that are not numbers (`C122_compare_violated`); symmetric matrices of more than 361 rows, whose length
does not fit 16 bits (C30). -/
theorem C122_compare_partial [AddGroup K] [LinearOrder K] (eps : K) :
    (∀ (n : Nat) (a b : List K), a.length = n → b.length = n →
      ∃ r, vecCompare (far eps) n (a.map some) (b.map some) = .ok r ∧ (r = true ↔ Close eps a b)) ∧
    (∀ (m n : Nat) (a b : List K), a.length = m * n → b.length = m * n →
      ∃ r, matCompare (far eps) m n (a.map some) (b.map some) = .ok r ∧ (r = true ↔ Close eps a b)) ∧
    ∀ (n : Nat) (a b : List K), n < 362 → a.length = n * (n + 1) / 2 → b.length = n * (n + 1) / 2 →
      ∃ r, symCompare (far eps) n (a.map some) (b.map some) = .ok r ∧ (r = true ↔ Close eps a b) := by
  refine ⟨fun n a b ha hb => compare_numbers eps ha hb, fun m n a b ha hb => compare_numbers eps ha hb, ?_⟩
  intro n a b hn ha hb
  have : symLength n = n * (n + 1) / 2 := by
    unfold symLength
    apply Nat.mod_eq_of_lt
    have : n * (n + 1) ≤ 361 * 362 := Nat.mul_le_mul (by omega) (by omega)
    omega
  exact compare_numbers eps (ha.trans this.symm) (hb.trans this.symm)

/-- **C122, comparison, negation.** A vector of values that are not numbers compares equal to every vector, at every threshold. -/
theorem C122_compare_violated [AddGroup K] [LinearOrder K] (eps : K) {n : Nat} {b : List (Option K)} (hb : b.length = n) :
    vecCompare (far eps) n (List.replicate n none) b = .ok true := by
  obtain ⟨r, h1, h2⟩ := compareLoop_spec (far eps) (List.replicate n none) b n 0 (by simp) (by omega)
  unfold vecCompare
  rw [h1, h2.mpr]
  intro j x y _ hj hx _
  rw [List.getElem?_replicate_of_lt (by omega), Option.some.injEq] at hx
  subst hx
  rfl

/-! ## Text -/

/-- The text holds these numbers one after the other, and `rest` is left. -/
inductive Holds (ext : List Char → Option (K × List Char)) : List Char → List K → List Char → Prop
  | nil (t) : Holds ext t [] t
  | cons {t x t' xs rest} : ext t = some (x, t') → Holds ext t' xs rest → Holds ext t (x :: xs) rest

theorem read_holds [Zero K] {ext : List Char → Option (K × List Char)} {t rest : List Char} {xs : List K} (h : Holds ext t xs rest) :
    ∀ (pre a : List K), a.length = xs.length →
      Res.foldlM' (take1 ext) (pre ++ a, ⟨t, false⟩) (List.range' pre.length xs.length) = .ok (pre ++ xs, ⟨rest, false⟩) := by
  induction h with
  | nil t =>
    intro pre a ha
    have : a = [] := List.eq_nil_of_length_eq_zero ha
    subst this
    rfl
  | @cons t x t' xs rest hx hr ih =>
    intro pre a ha
    cases a with
    | nil => simp at ha
    | cons a0 a =>
      simp only [List.length_cons, List.range'_succ, Res.foldlM'_cons]
      have e : take1 ext (pre ++ a0 :: a, ⟨t, false⟩) pre.length = .ok ((pre ++ [x]) ++ a, ⟨t', false⟩) := by
        unfold take1
        simp only [Bool.false_eq_true, if_false, hx]
        have : Res.write (pre ++ a0 :: a) pre.length x = .ok (pre ++ [x] ++ a) := by
          unfold Res.write
          rw [if_pos (by simp)]
          simp
        rw [this, Res.ok_bind]
      rw [e, Res.ok_bind]
      have := ih (pre ++ [x]) a (by simpa using ha)
      simp only [List.length_append, List.length_singleton] at this
      rw [this]
      simp

/-- **C122, reading.** From a text that holds as many numbers as there are places, `simple_read` of vectors and matrices stores them in
order (row after row) and leaves the rest of the text. -/
theorem C122_read [Zero K] {ext : List Char → Option (K × List Char)} {t rest : List Char} {xs a : List K}
    (h : Holds ext t xs rest) (ha : a.length = xs.length) :
    simpleRead ext xs.length a ⟨t, false⟩ = .ok (xs, ⟨rest, false⟩) := by
  have := read_holds h [] a ha
  rw [List.length_nil, ← List.range_eq_range'] at this
  exact this

/-- Numbers are written so that they can be read, up to rounding: in front of a blank, a bracket or the end; blanks are skipped, and a
bracket is no number. -/
structure Readable (num : K → List Char) (ext : List Char → Option (K × List Char)) (rnd : K → K) : Prop where
  number : ∀ x r, (r = [] ∨ ∃ c s, r = c :: s ∧ (c = ' ' ∨ c = ']')) → ext (num x ++ r) = some (rnd x, r)
  blank : ∀ r, ext (' ' :: r) = ext r
  bracket : ∀ r, ext ('[' :: r) = none

theorem holds_tail {num : K → List Char} {ext : List Char → Option (K × List Char)} {rnd : K → K} (h : Readable num ext rnd)
    (r : List Char) (hr : r = [] ∨ ∃ c s, r = c :: s ∧ (c = ' ' ∨ c = ']')) :
    ∀ xs : List K, Holds ext ((xs.flatMap fun x => ' ' :: num x) ++ r) (xs.map rnd) r
  | [] => .nil _
  | x :: xs => by
    refine .cons ?_ (holds_tail h r hr xs)
    simp only [List.flatMap_cons, List.cons_append, List.append_assoc]
    rw [h.blank]
    apply h.number
    cases xs with
    | nil => simpa using hr
    | cons y ys => right; exact ⟨' ', _, rfl, Or.inl rfl⟩

theorem writeVec_eq (num : K → List Char) (out : List Char) (x : K) (xs : List K) :
    writeVecText num (xs.length + 1) out (x :: xs) = .ok (out ++ num x ++ xs.flatMap fun x => ' ' :: num x) := by
  unfold writeVecText
  have h0 : Res.read (x :: xs) 0 = .ok x := rfl
  rw [h0, Res.ok_bind, Nat.add_sub_cancel]
  obtain ⟨s, h1, h2⟩ := Res.foldlM'_range' (fun out i => do
      let x ← Res.read (x :: xs) i
      .ok (out ++ ' ' :: num x)) (fun k o => o = out ++ num x ++ ((xs.take (k - 1)).flatMap fun x => ' ' :: num x)) xs.length 1
    (out ++ num x) (by simp) (by
      rintro k o h1 h2 rfl
      have hr : Res.read (x :: xs) k = .ok (xs[k - 1]'(by omega)) := by
        obtain ⟨j, rfl⟩ : ∃ j, k = j + 1 := ⟨k - 1, by omega⟩
        rw [Res.read_eq_ok]
        simp [show j < xs.length by omega]
      refine ⟨_, by rw [hr]; rfl, ?_⟩
      rw [Nat.add_sub_cancel, show xs.take k = xs.take (k - 1) ++ [xs[k - 1]'(by omega)] by
        conv_lhs => rw [show k = (k - 1) + 1 by omega]
        rw [List.take_succ, List.getElem?_eq_getElem (by omega)]; rfl, List.flatMap_append]
      simp [List.append_assoc])
  rw [h1, h2]
  simp

/-- **C122, vectors, round trip.** What `operator<<` writes for a vector `simple_read` reads back, up to the rounding of the text. -/
theorem C122_vec_round_trip [Zero K] {num : K → List Char} {ext : List Char → Option (K × List Char)} {rnd : K → K}
    (h : Readable num ext rnd) {n : Nat} (hn : 0 < n) {v a : List K} (hv : v.length = n) (ha : a.length = n) :
    ∃ t, writeVecText num n [] v = .ok t ∧ simpleRead ext n a ⟨t, false⟩ = .ok (v.map rnd, ⟨[], false⟩) := by
  cases v with
  | nil => simp at hv; omega
  | cons x xs =>
    obtain rfl : n = xs.length + 1 := by simpa using hv.symm
    refine ⟨_, writeVec_eq num [] x xs, ?_⟩
    have key : Holds ext (num x ++ xs.flatMap fun x => ' ' :: num x) ((x :: xs).map rnd) [] := by
      refine .cons (t' := xs.flatMap fun x => ' ' :: num x) ?_ ?_
      · apply h.number
        cases xs with
        | nil => left; rfl
        | cons y ys => right; exact ⟨' ', _, rfl, Or.inl rfl⟩
      · have := holds_tail h [] (Or.inl rfl) xs
        simpa using this
    have := C122_read (a := a) key (by simpa using ha)
    simpa using this

/-- **C122, matrices, negation.** What `operator<<` writes for a matrix cannot be read back by `simple_read`: at the first bracket the
stream fails, the first number becomes zero and all others stay as they were. -/
theorem C122_mat_violated [Zero K] {num : K → List Char} {ext : List Char → Option (K × List Char)} {rnd : K → K}
    (h : Readable num ext rnd) {m n : Nat} (hm : 0 < m) (hn : 0 < n) {v : List K} {x : K} {a : List K} (hv : v.length = m * n)
    (ha : (x :: a).length = m * n) :
    ∃ t, writeMatText num m n [] v = .ok t ∧ simpleRead ext (m * n) (x :: a) ⟨t, false⟩ = .ok (0 :: a, ⟨t, true⟩) := by
  have hrow : ∀ i, i < m → ∃ y ys, (v.drop (i * n)).take n = y :: ys ∧ ys.length + 1 = n := by
    intro i hi
    have hl : ((v.drop (i * n)).take n).length = n := by
      rw [List.length_take, List.length_drop, hv]
      have : (i + 1) * n ≤ m * n := Nat.mul_le_mul_right n (by omega)
      rw [Nat.succ_mul] at this
      omega
    cases hc : (v.drop (i * n)).take n with
    | nil => rw [hc] at hl; simp at hl; omega
    | cons y ys => rw [hc] at hl; exact ⟨y, ys, rfl, by simpa using hl⟩
  obtain ⟨t, h1, h2, _⟩ := Res.foldlM'_range (fun out i => do
      let out ← writeVecText num n (out ++ ['[']) ((v.drop (i * n)).take n)
      .ok (out ++ [']', '\n'])) (fun k o => (0 < k → ∃ s, o = '[' :: s) ∧ (k = 0 → o = [])) m [] ⟨by simp, by simp⟩ (by
    rintro k o hk ⟨h1, h2⟩
    obtain ⟨y, ys, e1, e2⟩ := hrow k hk
    have := writeVec_eq num (o ++ ['[']) y ys
    rw [e2] at this
    refine ⟨_, by rw [e1, this]; rfl, ?_, by omega⟩
    intro _
    by_cases h0 : k = 0
    · rw [h2 h0]; exact ⟨_, rfl⟩
    · obtain ⟨s, rfl⟩ := h1 (by omega)
      exact ⟨_, rfl⟩)
  obtain ⟨s, rfl⟩ := h2 hm
  refine ⟨_, h1, ?_⟩
  unfold simpleRead
  have hpos : m * n = a.length + 1 := by simpa using ha.symm
  rw [hpos, List.range_succ_eq_map, Res.foldlM'_cons]
  have e : take1 ext (x :: a, ⟨'[' :: s, false⟩) 0 = .ok (0 :: a, ⟨'[' :: s, true⟩) := by
    unfold take1
    simp only [Bool.false_eq_true, if_false, h.bracket]
    rfl
  rw [e, Res.ok_bind]
  have stay : ∀ (l : List Nat) (st : List K × Source), st.2.failed = true → Res.foldlM' (take1 ext) st l = .ok st := by
    intro l
    induction l with
    | nil => intro st _; rfl
    | cons i l ih =>
      intro st hs
      rw [Res.foldlM'_cons]
      unfold take1
      rw [if_pos hs, Res.ok_bind]
      exact ih st hs
  exact stay _ _ rfl

/-! ## Examples -/

/-- Reading natural numbers: blanks are skipped, then digits are taken. -/
def natExt : List Char → Option (Nat × List Char)
  | [] => none
  | ' ' :: r => natExt r
  | c :: r => if c.isDigit then some (Nat.ofDigitChars 10 ((c :: r).takeWhile Char.isDigit) 0, (c :: r).dropWhile Char.isDigit) else none

/-- The hypotheses of the round trips hold for natural numbers. -/
theorem nat_readable : Readable Report.digits natExt id := by
  constructor
  · intro x r hr
    have hd : ∀ c ∈ Report.digits x, c.isDigit = true := fun c hc => Report.digits_isDigit hc
    have h1 : (Report.digits x ++ r).takeWhile Char.isDigit = Report.digits x ∧
        (Report.digits x ++ r).dropWhile Char.isDigit = r := by
      rcases hr with rfl | ⟨c, s, rfl, hc⟩
      · rw [List.append_nil]
        exact ⟨by have := List.takeWhile_append_of_pos (l₂ := []) hd; simpa using this,
          by have := List.dropWhile_append_of_pos (l₂ := []) hd; simpa using this⟩
      · have hn : c.isDigit = false := by rcases hc with rfl | rfl <;> decide
        rw [List.takeWhile_append_of_pos hd, List.dropWhile_append_of_pos hd]
        simp [hn]
    cases hx : Report.digits x with
    | nil => exact absurd hx (by unfold Report.digits; exact Nat.toDigits_ne_nil)
    | cons d ds =>
      have hdd : d.isDigit = true := hd d (by rw [hx]; simp)
      have hne : d ≠ ' ' := by rintro rfl; exact absurd hdd (by decide)
      have e : natExt (d :: (ds ++ r)) = if d.isDigit then some (Nat.ofDigitChars 10 ((d :: (ds ++ r)).takeWhile Char.isDigit) 0,
          (d :: (ds ++ r)).dropWhile Char.isDigit) else none := by
        rw [natExt]
        exact hne
      rw [hx] at h1
      rw [List.cons_append, e, if_pos hdd]
      rw [List.cons_append] at h1
      rw [h1.1, h1.2, ← hx]
      simp [Report.digits, Nat.ofDigitChars_toDigits (by decide : 1 < 10) (by decide : 10 ≤ 10)]
  · intro r; rfl
  · intro r; rfl

/-- Sums and comparison of concrete vectors; a written vector; a text that holds four numbers. -/
example : vecAdd 3 [1, 2, 3] [4, 5, (6 : ℚ)] = .ok [5, 7, 9] ∧ matAddTo 2 2 [1, 2, 3, 4] [10, 20, 30, (40 : ℚ)] = .ok [11, 22, 33, 44] ∧
    vecCompare (far (1 : ℚ)) 2 [some 1, some 2] [some 2, some 4] = .ok false ∧
    vecCompare (far (1 : ℚ)) 2 [some 1, none] [some 2, some 4] = .ok true := by decide +kernel

example : writeVecText Report.digits 3 [] [1, 22, 3] = .ok "1 22 3".toList ∧ Readable Report.digits natExt id ∧
    Holds natExt "1 22 3".toList [1, 22, 3] [] := by
  refine ⟨by decide +kernel, nat_readable, ?_⟩
  exact .cons (t' := " 22 3".toList) (by decide +kernel) (.cons (t' := " 3".toList) (by decide +kernel)
    (.cons (t' := []) (by decide +kernel) (.nil _)))

end Nla3d.Dense
