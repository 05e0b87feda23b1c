import Verif.Dense.Model
import Verif.Dense.Spec
import Verif.Loop
import Mathlib.Algebra.BigOperators.Intervals
import Mathlib.Algebra.BigOperators.Ring.Finset
import Mathlib.Tactic.Ring
import Mathlib.Tactic.Linarith

/-!
# Loops that add into an array
-/

namespace Nla3d.Dense

open Finset

variable {K : Type}

/-- `A` is an array of `L` numbers `f q`. -/
structure IsArr (L : Nat) (A : List K) (f : Nat → K) : Prop where
  len : A.length = L
  get : ∀ q < L, A[q]? = some (f q)

theorem IsArr.read {L : Nat} {A : List K} {f : Nat → K} (h : IsArr L A f) {q : Nat} (hq : q < L) :
    Res.read A q = .ok (f q) := Res.read_eq_ok.mpr (h.get q hq)

theorem IsArr.congr {L : Nat} {A : List K} {f g : Nat → K} (h : IsArr L A f) (e : ∀ q < L, f q = g q) : IsArr L A g :=
  ⟨h.len, fun q hq => by rw [h.get q hq, e q hq]⟩

theorem IsArr.write {L : Nat} {A : List K} {f : Nat → K} (h : IsArr L A f) {p : Nat} (hp : p < L) (x : K) :
    ∃ A', Res.write A p x = .ok A' ∧ IsArr L A' (fun q => if q = p then x else f q) := by
  refine ⟨A.set p x, Res.write_eq_ok.mpr ⟨by rw [h.len]; exact hp, rfl⟩, by rw [List.length_set, h.len], ?_⟩
  intro q hq
  rw [List.getElem?_set]
  by_cases e : p = q
  · subst e; simp [h.len, hp]
  · rw [if_neg e, if_neg (by omega), h.get q hq]

theorem IsArr.acc [AddMonoid K] {L : Nat} {A : List K} {f : Nat → K} (h : IsArr L A f) {p : Nat} (hp : p < L) (x : K) :
    ∃ A', acc A p x = .ok A' ∧ IsArr L A' (fun q => f q + if q = p then x else 0) := by
  obtain ⟨A', h1, h2⟩ := h.write hp (f p + x)
  refine ⟨A', by unfold Dense.acc; rw [h.read hp]; exact h1, h2.congr ?_⟩
  intro q _
  by_cases e : q = p
  · subst e; simp
  · simp [e]

theorem IsArr.replicate [Zero K] (L : Nat) : IsArr L (List.replicate L (0 : K)) (fun _ => 0) :=
  ⟨List.length_replicate, fun q hq => by rw [List.getElem?_replicate, if_pos hq]⟩

theorem IsArr.exists [Zero K] (A : List K) : IsArr A.length A (fun q => (A[q]?).getD 0) :=
  ⟨rfl, fun q hq => by simp [hq]⟩

/-- A loop every turn of which adds `t k` to the array. -/
theorem addLoop [AddCommMonoid K] {L : Nat} (body : List K → Nat → Res (List K)) (t : Nat → Nat → K) (a m : Nat)
    {A : List K} {f : Nat → K} (hA : IsArr L A f)
    (h : ∀ k, a ≤ k → k < a + m → ∀ A g, IsArr L A g → ∃ A', body A k = .ok A' ∧ IsArr L A' (fun q => g q + t k q)) :
    ∃ A', Res.foldlM' body A (List.range' a m) = .ok A' ∧ IsArr L A' (fun q => f q + ∑ k ∈ Ico a (a + m), t k q) := by
  obtain ⟨A', h1, h2⟩ := Res.foldlM'_range' body (fun k A => IsArr L A (fun q => f q + ∑ k ∈ Ico a k, t k q)) m a A
    (hA.congr (by simp)) (by
      intro k A hk hk' hP
      obtain ⟨A', h1, h2⟩ := h k hk hk' A _ hP
      exact ⟨A', h1, h2.congr (by intro q _; beta_reduce; rw [sum_Ico_succ_top hk, add_assoc])⟩)
  exact ⟨A', h1, h2⟩

/-- The same with a pointer that runs along. -/
theorem addLoopPtr [AddCommMonoid K] {L : Nat} (body : List K × Nat → Nat → Res (List K × Nat)) (t : Nat → Nat → K)
    (ptr : Nat → Nat) (a m : Nat) {A : List K} {f : Nat → K} (hA : IsArr L A f)
    (h : ∀ k, a ≤ k → k < a + m → ∀ A g, IsArr L A g →
      ∃ A', body (A, ptr k) k = .ok (A', ptr (k + 1)) ∧ IsArr L A' (fun q => g q + t k q)) :
    ∃ A', Res.foldlM' body (A, ptr a) (List.range' a m) = .ok (A', ptr (a + m)) ∧
      IsArr L A' (fun q => f q + ∑ k ∈ Ico a (a + m), t k q) := by
  obtain ⟨⟨A', d⟩, h1, h2, h3⟩ := Res.foldlM'_range' body
    (fun k st => st.2 = ptr k ∧ IsArr L st.1 (fun q => f q + ∑ k ∈ Ico a k, t k q)) m a (A, ptr a)
    ⟨rfl, hA.congr (by simp)⟩ (by
      rintro k ⟨A, d⟩ hk hk' ⟨hd, hP⟩
      obtain ⟨A', h1, h2⟩ := h k hk hk' A _ hP
      dsimp only at hd
      subst hd
      exact ⟨(A', ptr (k + 1)), h1, rfl, h2.congr (by intro q _; beta_reduce; rw [sum_Ico_succ_top hk, add_assoc])⟩)
  dsimp only at h2
  subst h2
  exact ⟨A', h1, h3⟩

/-- A loop that accumulates a sum in a variable. -/
theorem sumLoop [AddCommMonoid K] (body : K → Nat → Res K) (t : Nat → K) (m : Nat) (e : K)
    (h : ∀ k < m, ∀ e, body e k = .ok (e + t k)) :
    Res.foldlM' body e (List.range m) = .ok (e + ∑ k ∈ range m, t k) := by
  obtain ⟨e', h1, h2⟩ := Res.foldlM'_range body (fun k s => s = e + ∑ k ∈ range k, t k) m e (by simp) (by
    rintro k s hk rfl
    exact ⟨_, h k hk _, by rw [sum_range_succ, add_assoc]⟩)
  rw [h1, h2]

/-! ## Positions -/

theorem map_eq_range_get {α : Type} {ps : List α} {idx : α → Nat} {L : Nat} (h : ps.map idx = List.range L) {p : α}
    (hp : p ∈ ps) : ps[idx p]? = some p ∧ idx p < L := by
  obtain ⟨q, hq, e⟩ := List.getElem_of_mem hp
  have h1 : (ps.map idx)[q]? = some (idx p) := by rw [List.getElem?_map, List.getElem?_eq_getElem hq, e]; rfl
  rw [h, List.getElem?_range (by have := congrArg List.length h; simp at this; omega)] at h1
  have h2 : q = idx p := by simpa using h1
  rw [← h2]
  exact ⟨by rw [List.getElem?_eq_getElem hq, e], by have := congrArg List.length h; simp at this; omega⟩

theorem map_get {α : Type} {ps : List α} {idx : α → Nat} {L : Nat} (h : ps.map idx = List.range L) (g : α → K) {p : α}
    (hp : p ∈ ps) : (ps.map g)[idx p]? = some (g p) := by
  rw [List.getElem?_map, (map_eq_range_get h hp).1]; rfl

/-- An array whose element at the position of `p` is `g p`. -/
theorem eq_map {α : Type} {ps : List α} {idx : α → Nat} {L : Nat} (h : ps.map idx = List.range L) {g : α → K}
    {A : List K} (hl : A.length = L) (hg : ∀ p ∈ ps, A[idx p]? = some (g p)) : A = ps.map g := by
  have hlen : ps.length = L := by have := congrArg List.length h; simpa using this
  apply List.ext_getElem?
  intro q
  by_cases hq : q < L
  · have hq' : q < ps.length := by omega
    have h1 : idx ps[q] = q := by
      have := (map_eq_range_get h (List.getElem_mem hq'))
      have h2 : (ps.map idx)[q]? = some q := by rw [h, List.getElem?_range hq]
      rw [List.getElem?_map, List.getElem?_eq_getElem hq'] at h2
      simpa using h2
    have h3 := hg ps[q] (List.getElem_mem hq')
    have h4 := map_get h g (List.getElem_mem hq')
    rw [h1] at h3 h4
    rw [h3, h4]
  · rw [List.getElem?_eq_none (by omega), List.getElem?_eq_none (by simp; omega)]

theorem rect_map (m n : Nat) : (rectPairs m n).map (fun p => p.1 * n + p.2) = List.range (m * n) := by
  unfold rectPairs
  induction m with
  | zero => simp
  | succ m ih =>
    rw [List.range_succ, List.flatMap_append, List.map_append, ih]
    simp only [List.flatMap_cons, List.flatMap_nil, List.append_nil, List.map_map]
    rw [List.range_eq_range', List.range_eq_range' (n := (m + 1) * n), Nat.succ_mul, ← List.range'_append (m := m * n),
      List.range_eq_range']
    congr 1
    rw [Nat.zero_add, Nat.one_mul]
    conv_rhs => rw [← Nat.add_zero (m * n), ← List.map_add_range']
    rfl

theorem mem_rect {m n i j : Nat} : (i, j) ∈ rectPairs m n ↔ i < m ∧ j < n := by
  unfold rectPairs
  constructor
  · intro h; simp at h; omega
  · rintro ⟨h1, h2⟩; simp; omega

/-- Number of packed entries before row `i`. -/
def off (n i : Nat) : Nat := ∑ k ∈ range i, (n - k)

theorem off_succ (n i : Nat) : off n (i + 1) = off n i + (n - i) := by unfold off; rw [sum_range_succ]

theorem off_closed (n i : Nat) (h : i ≤ n + 1) : 2 * off n i + i * i = 2 * n * i + i := by
  induction i with
  | zero => simp [off]
  | succ i ih =>
    have := ih (by omega)
    rw [off_succ]
    obtain ⟨d, rfl⟩ := Nat.exists_eq_add_of_le (show i ≤ n by omega)
    have h1 : i + d - i = d := by omega
    rw [h1]
    nlinarith

theorem upper_map (n : Nat) : (upperPairs n).map (fun p => off n p.1 + (p.2 - p.1)) = List.range (off n n) := by
  unfold upperPairs
  have : ∀ m, ((List.range m).flatMap (fun i => (List.range' i (n - i)).map (fun j => (i, j)))).map
      (fun p => off n p.1 + (p.2 - p.1)) = List.range (off n m) := by
    intro m
    induction m with
    | zero => simp [off]
    | succ m ih =>
      rw [List.range_succ, List.flatMap_append, List.map_append, ih]
      simp only [List.flatMap_cons, List.flatMap_nil, List.append_nil, List.map_map]
      rw [off_succ, List.range_eq_range', List.range_eq_range' (n := off n m + (n - m)),
        ← List.range'_append (m := off n m)]
      congr 1
      rw [Nat.zero_add, Nat.one_mul]
      apply List.ext_getElem
      · simp
      · intro q h1 h2
        simp
  exact this n

theorem mem_upper {n i j : Nat} : (i, j) ∈ upperPairs n ↔ i ≤ j ∧ j < n := by
  unfold upperPairs
  constructor
  · intro h; simp at h; omega
  · rintro ⟨h1, h2⟩; simp; omega

theorem off_total (n : Nat) : off n n = n * (n + 1) / 2 := by
  have := off_closed n n (by omega)
  have h2 : 2 * off n n = n * (n + 1) := by nlinarith
  omega

/-- The index of `comp` when the 16-bit arithmetic does not wrap. -/
theorem comp_eq {n i j : Nat} (hn : n * (n + 1) / 2 ≤ 65536) (hij : i ≤ j) (hj : j < n) :
    comp n i j = off n i + (j - i) := by
  have hb : off n i + (j - i) < off n n := by
    exact (map_eq_range_get (upper_map n) (mem_upper.mpr ⟨hij, hj⟩)).2
  rw [off_total] at hb
  unfold comp
  rw [if_neg (by omega)]
  have hc := off_closed n i (by omega)
  have h1 : ((i : Int) - 1) * i / 2 = (n : Int) * i - off n i := by
    apply Int.ediv_eq_of_eq_mul_left (by norm_num)
    have : (2 * (off n i : Int) + i * i) = 2 * n * i + i := by exact_mod_cast hc
    nlinarith
  dsimp only
  rw [h1]
  have h2 : (n : Int) * i - (n * i - off n i) + ((j : Int) - i) = ((off n i + (j - i) : Nat) : Int) := by
    push_cast [Nat.cast_sub hij]; ring
  rw [h2]
  omega

theorem comp_comm (n i j : Nat) : comp n i j = comp n j i := by
  unfold comp
  rcases Nat.lt_trichotomy i j with h | h | h
  · rw [if_neg (by omega), if_pos (by omega)]
  · subst h; rfl
  · rw [if_pos (by omega), if_neg (by omega)]

theorem upper_map_comp {n : Nat} (hn : n * (n + 1) / 2 ≤ 65536) :
    (upperPairs n).map (fun p => comp n p.1 p.2) = List.range (n * (n + 1) / 2) := by
  rw [← off_total, ← upper_map]
  apply List.map_congr_left
  rintro ⟨i, j⟩ h
  obtain ⟨h1, h2⟩ := mem_upper.mp h
  exact comp_eq hn h1 h2

section arrays
variable [Zero K]

theorem ext_fin {m n : Nat} (A : Matrix (Fin m) (Fin n) K) (i : Fin m) (j : Fin n) : ext A i j = A i j := by
  unfold ext; rw [dif_pos ⟨i.2, j.2⟩]

theorem flat_length {m n : Nat} (A : Matrix (Fin m) (Fin n) K) : (flat A).length = m * n := by
  unfold flat; rw [List.length_map]
  have := congrArg List.length (rect_map m n)
  simpa using this

theorem flat_get {m n : Nat} (A : Matrix (Fin m) (Fin n) K) {i j : Nat} (hi : i < m) (hj : j < n) :
    (flat A)[i * n + j]? = some (ext A i j) :=
  map_get (rect_map m n) (fun p => ext A p.1 p.2) (mem_rect.mpr ⟨hi, hj⟩)

theorem flat_read {m n : Nat} (A : Matrix (Fin m) (Fin n) K) {i j : Nat} (hi : i < m) (hj : j < n) :
    Res.read (flat A) (i * n + j) = .ok (ext A i j) := Res.read_eq_ok.mpr (flat_get A hi hj)

theorem pos_lt {m n i j : Nat} (hi : i < m) (hj : j < n) : i * n + j < m * n :=
  (map_eq_range_get (rect_map m n) (mem_rect.mpr ⟨hi, hj⟩)).2

theorem pos_inj {n i j i' j' : Nat} (hj : j < n) (hj' : j' < n) : i * n + j = i' * n + j' ↔ i = i' ∧ j = j' := by
  constructor
  · intro h
    have h1 : (i * n + j) / n = (i' * n + j') / n := by rw [h]
    rw [Nat.add_comm, Nat.add_mul_div_right _ _ (by omega), Nat.div_eq_of_lt hj, Nat.add_comm (i' * n),
      Nat.add_mul_div_right _ _ (by omega), Nat.div_eq_of_lt hj'] at h1
    have : i = i' := by omega
    subst this
    exact ⟨rfl, by omega⟩
  · rintro ⟨rfl, rfl⟩; rfl

theorem eq_flat {m n : Nat} {C : Matrix (Fin m) (Fin n) K} {A : List K} {f : Nat → K} (h : IsArr (m * n) A f)
    (e : ∀ i < m, ∀ j < n, f (i * n + j) = ext C i j) : A = flat C := by
  apply eq_map (rect_map m n) h.len
  rintro ⟨i, j⟩ hp
  obtain ⟨hi, hj⟩ := mem_rect.mp hp
  rw [h.get _ (pos_lt hi hj), e i hi j hj]

theorem pack_length {n : Nat} (A : Matrix (Fin n) (Fin n) K) : (pack A).length = off n n := by
  unfold pack; rw [List.length_map]
  have := congrArg List.length (upper_map n)
  simpa using this

theorem upos_lt {n i j : Nat} (hij : i ≤ j) (hj : j < n) : off n i + (j - i) < off n n :=
  (map_eq_range_get (upper_map n) (mem_upper.mpr ⟨hij, hj⟩)).2

theorem pack_get {n : Nat} (A : Matrix (Fin n) (Fin n) K) {i j : Nat} (hij : i ≤ j) (hj : j < n) :
    (pack A)[off n i + (j - i)]? = some (ext A i j) :=
  map_get (upper_map n) (fun p => ext A p.1 p.2) (mem_upper.mpr ⟨hij, hj⟩)

theorem pack_read {n : Nat} (A : Matrix (Fin n) (Fin n) K) {i j : Nat} (hij : i ≤ j) (hj : j < n) :
    Res.read (pack A) (off n i + (j - i)) = .ok (ext A i j) := Res.read_eq_ok.mpr (pack_get A hij hj)

theorem eq_pack {n : Nat} {C : Matrix (Fin n) (Fin n) K} {A : List K} {f : Nat → K} (h : IsArr (off n n) A f)
    (e : ∀ i j, i ≤ j → j < n → f (off n i + (j - i)) = ext C i j) : A = pack C := by
  apply eq_map (upper_map n) h.len
  rintro ⟨i, j⟩ hp
  obtain ⟨hi, hj⟩ := mem_upper.mp hp
  rw [h.get _ (upos_lt hi hj), e i j hi hj]

theorem upos_inj {n i j i' j' : Nat} (hij : i ≤ j) (hj : j < n) (hij' : i' ≤ j') (hj' : j' < n) :
    off n i + (j - i) = off n i' + (j' - i') ↔ i = i' ∧ j = j' := by
  constructor
  · intro h
    have h1 := (map_eq_range_get (upper_map n) (mem_upper.mpr ⟨hij, hj⟩)).1
    have h2 := (map_eq_range_get (upper_map n) (mem_upper.mpr ⟨hij', hj'⟩)).1
    dsimp only at h1 h2
    rw [h, h2] at h1
    simp at h1
    omega
  · rintro ⟨rfl, rfl⟩; rfl

end arrays

end Nla3d.Dense
