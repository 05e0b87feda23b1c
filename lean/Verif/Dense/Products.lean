import Verif.Dense.Lemmas
import Mathlib.Data.Matrix.Mul
import Mathlib.Algebra.BigOperators.Fin

/-!
# The product loops
-/

namespace Nla3d.Dense

open Finset

variable {K : Type}

theorem flat_arr [Zero K] {m n : Nat} (A : Matrix (Fin m) (Fin n) K) :
    ∃ f, IsArr (m * n) (flat A) f ∧ ∀ i < m, ∀ j < n, f (i * n + j) = ext A i j := by
  have h := IsArr.exists (flat A)
  rw [flat_length] at h
  exact ⟨_, h, fun i hi j hj => by rw [flat_get A hi hj]; rfl⟩

theorem pack_arr [Zero K] {n : Nat} (A : Matrix (Fin n) (Fin n) K) :
    ∃ f, IsArr (off n n) (pack A) f ∧ ∀ i j, i ≤ j → j < n → f (off n i + (j - i)) = ext A i j := by
  have h := IsArr.exists (pack A)
  rw [pack_length] at h
  exact ⟨_, h, fun i j hi hj => by rw [pack_get A hi hj]; rfl⟩

theorem pick_rect [AddCommMonoid K] {m n i0 j0 : Nat} (g : Nat → Nat → K) (hi : i0 < m) (hj : j0 < n) :
    ∑ i ∈ range m, ∑ j ∈ range n, (if i0 * n + j0 = i * n + j then g i j else 0) = g i0 j0 := by
  rw [sum_eq_single i0]
  · rw [sum_eq_single j0]
    · rw [if_pos rfl]
    · intro j hj' hne
      rw [if_neg]
      rw [pos_inj hj (mem_range.mp hj')]
      omega
    · intro h; exact absurd (mem_range.mpr hj) h
  · intro i hi' hne
    apply sum_eq_zero
    intro j hj'
    rw [if_neg]
    rw [pos_inj hj (mem_range.mp hj')]
    omega
  · intro h; exact absurd (mem_range.mpr hi) h

theorem pick_upper [AddCommMonoid K] {n i0 j0 : Nat} (g : Nat → Nat → K) (hij : i0 ≤ j0) (hj : j0 < n) :
    ∑ i ∈ range n, ∑ j ∈ Ico i n, (if off n i0 + (j0 - i0) = off n i + (j - i) then g i j else 0) = g i0 j0 := by
  rw [sum_eq_single i0]
  · rw [sum_eq_single j0]
    · rw [if_pos rfl]
    · intro j hj' hne
      obtain ⟨h1, h2⟩ := mem_Ico.mp hj'
      rw [if_neg]
      rw [upos_inj hij hj h1 h2]
      omega
    · intro h; exact absurd (mem_Ico.mpr ⟨hij, hj⟩) h
  · intro i hi' hne
    apply sum_eq_zero
    intro j hj'
    obtain ⟨h1, h2⟩ := mem_Ico.mp hj'
    rw [if_neg]
    rw [upos_inj hij hj h1 h2]
    omega
  · intro h; exact absurd (mem_range.mpr (by omega)) h

theorem sum_if [AddCommMonoid K] (s : Finset Nat) (p : Prop) [Decidable p] (f : Nat → K) :
    ∑ k ∈ s, (if p then f k else 0) = if p then ∑ k ∈ s, f k else 0 := by
  by_cases h : p <;> simp [h]

theorem ext_add [AddMonoid K] {m n : Nat} (A B : Matrix (Fin m) (Fin n) K) {i j : Nat} :
    ext (A + B) i j = ext A i j + ext B i j := by
  unfold ext
  split <;> simp

theorem ext_smul [MonoidWithZero K] {m n : Nat} (c : K) (A : Matrix (Fin m) (Fin n) K) {i j : Nat} :
    ext (c • A) i j = c * ext A i j := by
  unfold ext
  split <;> simp

theorem ext_mul [NonUnitalNonAssocSemiring K] {m n p : Nat} (A : Matrix (Fin m) (Fin n) K) (B : Matrix (Fin n) (Fin p) K)
    {i j : Nat} (hi : i < m) (hj : j < p) : ext (A * B) i j = ∑ k ∈ range n, ext A i k * ext B k j := by
  rw [sum_range]
  unfold ext
  rw [dif_pos ⟨hi, hj⟩, Matrix.mul_apply]
  apply sum_congr rfl
  intro k _
  rw [dif_pos ⟨hi, k.2⟩, dif_pos ⟨k.2, hj⟩]

theorem ext_transpose [Zero K] {m n : Nat} (A : Matrix (Fin m) (Fin n) K) {i j : Nat} :
    ext A.transpose i j = ext A j i := by
  unfold ext
  by_cases h : i < n ∧ j < m
  · rw [dif_pos h, dif_pos ⟨h.2, h.1⟩]; rfl
  · rw [dif_neg h, dif_neg (by tauto)]

theorem ext_symm [Zero K] {n : Nat} {A : Matrix (Fin n) (Fin n) K} (h : A.IsSymm) {i j : Nat} : ext A i j = ext A j i := by
  conv_lhs => rw [← h.eq]
  exact ext_transpose A

section field
variable [Field K]

/-- `matABprod` on row-major memory. -/
theorem matABprod_eq {m n p : Nat} (A : Matrix (Fin m) (Fin n) K) (B : Matrix (Fin n) (Fin p) K) (c : K)
    (R : Matrix (Fin m) (Fin p) K) :
    matABprod m n p (flat A) (flat B) c (flat R) = .ok (flat (R + c • (A * B))) := by
  obtain ⟨f, hf, hfR⟩ := flat_arr R
  unfold matABprod
  obtain ⟨R', h1, h2⟩ := addLoopPtr (fun (st : List K × Nat) i =>
    Res.foldlM' (fun (st : List K × Nat) j => do
      let R ← Res.foldlM' (fun R k => do
        let a ← Res.read (flat A) (i * n + k)
        let b ← Res.read (flat B) (k * p + j)
        acc R st.2 (a * b * c)) st.1 (List.range n)
      .ok (R, st.2 + 1)) st (List.range p))
    (fun i q => ∑ j ∈ range p, ∑ k ∈ range n, if q = i * p + j then ext A i k * ext B k j * c else 0)
    (fun i => i * p) 0 m hf (by
      intro i _ hi R g hg
      rw [Nat.zero_add] at hi
      obtain ⟨R', h1, h2⟩ := addLoopPtr (fun (st : List K × Nat) j => do
        let R ← Res.foldlM' (fun R k => do
          let a ← Res.read (flat A) (i * n + k)
          let b ← Res.read (flat B) (k * p + j)
          acc R st.2 (a * b * c)) st.1 (List.range n)
        Res.ok (R, st.2 + 1))
        (fun j q => ∑ k ∈ range n, if q = i * p + j then ext A i k * ext B k j * c else 0)
        (fun j => i * p + j) 0 p hg (by
          intro j _ hj R g hg
          rw [Nat.zero_add] at hj
          obtain ⟨R', h1, h2⟩ := addLoop (fun R k => do
            let a ← Res.read (flat A) (i * n + k)
            let b ← Res.read (flat B) (k * p + j)
            acc R (i * p + j) (a * b * c)) (fun k q => if q = i * p + j then ext A i k * ext B k j * c else 0) 0 n hg (by
              intro k _ hk R g hg
              rw [Nat.zero_add] at hk
              rw [flat_read A hi hk, Res.ok_bind, flat_read B hk hj, Res.ok_bind]
              exact hg.acc (pos_lt hi hj) _)
          rw [← List.range_eq_range'] at h1
          refine ⟨R', by rw [h1]; rfl, h2.congr ?_⟩
          intro q _
          rw [Nat.zero_add, Nat.Ico_zero_eq_range])
      rw [← List.range_eq_range', Nat.add_zero] at h1
      refine ⟨R', by rw [h1, Nat.zero_add, Nat.succ_mul], h2.congr ?_⟩
      intro q _
      rw [Nat.zero_add, Nat.Ico_zero_eq_range])
  rw [← List.range_eq_range', Nat.zero_mul] at h1
  rw [h1, Res.ok_bind]
  congr 1
  apply eq_flat h2
  intro i hi j hj
  rw [hfR i hi j hj, ext_add, ext_smul, ext_mul A B hi hj, Nat.zero_add, Nat.Ico_zero_eq_range]
  congr 1
  simp only [sum_if]
  rw [pick_rect (fun i j => ∑ k ∈ range n, ext A i k * ext B k j * c) hi hj, mul_sum]
  exact sum_congr rfl (fun k _ => by ring)

/-- `matATBprod` on row-major memory. -/
theorem matATBprod_eq {n m p : Nat} (A : Matrix (Fin n) (Fin m) K) (B : Matrix (Fin n) (Fin p) K) (c : K)
    (R : Matrix (Fin m) (Fin p) K) :
    matATBprod n m p (flat A) (flat B) c (flat R) = .ok (flat (R + c • (A.transpose * B))) := by
  obtain ⟨f, hf, hfR⟩ := flat_arr R
  unfold matATBprod
  obtain ⟨R', h1, h2⟩ := addLoopPtr (fun (st : List K × Nat) i =>
    Res.foldlM' (fun (st : List K × Nat) j => do
      let R ← Res.foldlM' (fun R k => do
        let a ← Res.read (flat A) (k * m + i)
        let b ← Res.read (flat B) (k * p + j)
        acc R st.2 (a * b * c)) st.1 (List.range n)
      .ok (R, st.2 + 1)) st (List.range p))
    (fun i q => ∑ j ∈ range p, ∑ k ∈ range n, if q = i * p + j then ext A k i * ext B k j * c else 0)
    (fun i => i * p) 0 m hf (by
      intro i _ hi R g hg
      rw [Nat.zero_add] at hi
      obtain ⟨R', h1, h2⟩ := addLoopPtr (fun (st : List K × Nat) j => do
        let R ← Res.foldlM' (fun R k => do
          let a ← Res.read (flat A) (k * m + i)
          let b ← Res.read (flat B) (k * p + j)
          acc R st.2 (a * b * c)) st.1 (List.range n)
        Res.ok (R, st.2 + 1))
        (fun j q => ∑ k ∈ range n, if q = i * p + j then ext A k i * ext B k j * c else 0)
        (fun j => i * p + j) 0 p hg (by
          intro j _ hj R g hg
          rw [Nat.zero_add] at hj
          obtain ⟨R', h1, h2⟩ := addLoop (fun R k => do
            let a ← Res.read (flat A) (k * m + i)
            let b ← Res.read (flat B) (k * p + j)
            acc R (i * p + j) (a * b * c)) (fun k q => if q = i * p + j then ext A k i * ext B k j * c else 0) 0 n hg (by
              intro k _ hk R g hg
              rw [Nat.zero_add] at hk
              rw [flat_read A hk hi, Res.ok_bind, flat_read B hk hj, Res.ok_bind]
              exact hg.acc (pos_lt hi hj) _)
          rw [← List.range_eq_range'] at h1
          refine ⟨R', by rw [h1]; rfl, h2.congr ?_⟩
          intro q _
          rw [Nat.zero_add, Nat.Ico_zero_eq_range])
      rw [← List.range_eq_range', Nat.add_zero] at h1
      refine ⟨R', by rw [h1, Nat.zero_add, Nat.succ_mul], h2.congr ?_⟩
      intro q _
      rw [Nat.zero_add, Nat.Ico_zero_eq_range])
  rw [← List.range_eq_range', Nat.zero_mul] at h1
  rw [h1, Res.ok_bind]
  congr 1
  apply eq_flat h2
  intro i hi j hj
  rw [hfR i hi j hj, ext_add, ext_smul, ext_mul A.transpose B hi hj, Nat.zero_add, Nat.Ico_zero_eq_range]
  congr 1
  simp only [sum_if]
  rw [pick_rect (fun i j => ∑ k ∈ range n, ext A k i * ext B k j * c) hi hj, mul_sum]
  exact sum_congr rfl (fun k _ => by rw [ext_transpose]; ring)


/-- Component of a vector with a natural number index. -/
def extV {n : Nat} (v : Fin n → K) (i : Nat) : K := if h : i < n then v ⟨i, h⟩ else 0

omit [Field K] in
theorem vec_arr [Zero K] {n : Nat} (v : Fin n → K) : IsArr n (List.ofFn v) (fun i => if h : i < n then v ⟨i, h⟩ else 0) := by
  refine ⟨List.length_ofFn, fun q hq => ?_⟩
  rw [List.getElem?_ofFn, dif_pos hq]
  simp [hq]

theorem eq_vec {n : Nat} {v : Fin n → K} {A : List K} {f : Nat → K} (h : IsArr n A f) (e : ∀ i < n, f i = extV v i) :
    A = List.ofFn v := by
  apply List.ext_getElem?
  intro q
  by_cases hq : q < n
  · rw [h.get q hq, e q hq, List.getElem?_ofFn, dif_pos hq, extV, dif_pos hq]
  · rw [List.getElem?_eq_none (by rw [h.len]; omega), List.getElem?_eq_none (by rw [List.length_ofFn]; omega)]

theorem vec_read {n : Nat} (v : Fin n → K) {i : Nat} (hi : i < n) : Res.read (List.ofFn v) i = .ok (extV v i) :=
  (vec_arr v).read hi

theorem extV_mulVec {m n : Nat} (A : Matrix (Fin m) (Fin n) K) (v : Fin n → K) {i : Nat} (hi : i < m) :
    extV (A.mulVec v) i = ∑ k ∈ range n, ext A i k * extV v k := by
  rw [sum_range]
  unfold extV ext
  rw [dif_pos hi, Matrix.mulVec, dotProduct]
  apply sum_congr rfl
  intro k _
  rw [dif_pos ⟨hi, k.2⟩, dif_pos k.2]

/-- `matBVprod` on row-major memory. -/
theorem matBVprod_eq {m n : Nat} (B : Matrix (Fin m) (Fin n) K) (v : Fin n → K) (c : K) (r : Fin m → K) :
    matBVprod m n (flat B) (List.ofFn v) c (List.ofFn r) = .ok (List.ofFn (r + c • B.mulVec v)) := by
  unfold matBVprod
  obtain ⟨R', h1, h2⟩ := addLoop (fun R i => Res.foldlM' (fun R j => do
    let b ← Res.read (flat B) (i * n + j)
    let v ← Res.read (List.ofFn v) j
    acc R i (b * v * c)) R (List.range n))
    (fun i q => ∑ j ∈ range n, if q = i then ext B i j * extV v j * c else 0) 0 m (vec_arr r) (by
      intro i _ hi R g hg
      rw [Nat.zero_add] at hi
      obtain ⟨R', h1, h2⟩ := addLoop (fun R j => do
        let b ← Res.read (flat B) (i * n + j)
        let v ← Res.read (List.ofFn v) j
        acc R i (b * v * c)) (fun j q => if q = i then ext B i j * extV v j * c else 0) 0 n hg (by
          intro j _ hj R g hg
          rw [Nat.zero_add] at hj
          rw [flat_read B hi hj, Res.ok_bind, vec_read v hj, Res.ok_bind]
          exact hg.acc hi _)
      rw [← List.range_eq_range'] at h1
      refine ⟨R', h1, h2.congr ?_⟩
      intro q _
      rw [Nat.zero_add, Nat.Ico_zero_eq_range])
  rw [← List.range_eq_range'] at h1
  rw [h1]
  congr 1
  apply eq_vec h2
  intro i hi
  rw [dif_pos hi, Nat.zero_add, Nat.Ico_zero_eq_range]
  simp only [sum_if]
  rw [sum_ite_eq, if_pos (mem_range.mpr hi)]
  have := extV_mulVec B v hi
  unfold extV at this ⊢
  rw [dif_pos hi] at this ⊢
  rw [Pi.add_apply, Pi.smul_apply, smul_eq_mul, this, mul_sum]
  congr 1
  exact sum_congr rfl (fun k _ => by ring)

/-- `matBTVprod` on row-major memory. -/
theorem matBTVprod_eq {m n : Nat} (B : Matrix (Fin m) (Fin n) K) (v : Fin m → K) (c : K) (r : Fin n → K) :
    matBTVprod m n (flat B) (List.ofFn v) c (List.ofFn r) = .ok (List.ofFn (r + c • B.transpose.mulVec v)) := by
  unfold matBTVprod
  obtain ⟨R', h1, h2⟩ := addLoop (fun R i => Res.foldlM' (fun R j => do
    let b ← Res.read (flat B) (j * n + i)
    let v ← Res.read (List.ofFn v) j
    acc R i (b * v * c)) R (List.range m))
    (fun i q => ∑ j ∈ range m, if q = i then ext B j i * extV v j * c else 0) 0 n (vec_arr r) (by
      intro i _ hi R g hg
      rw [Nat.zero_add] at hi
      obtain ⟨R', h1, h2⟩ := addLoop (fun R j => do
        let b ← Res.read (flat B) (j * n + i)
        let v ← Res.read (List.ofFn v) j
        acc R i (b * v * c)) (fun j q => if q = i then ext B j i * extV v j * c else 0) 0 m hg (by
          intro j _ hj R g hg
          rw [Nat.zero_add] at hj
          rw [flat_read B hj hi, Res.ok_bind, vec_read v hj, Res.ok_bind]
          exact hg.acc hi _)
      rw [← List.range_eq_range'] at h1
      refine ⟨R', h1, h2.congr ?_⟩
      intro q _
      rw [Nat.zero_add, Nat.Ico_zero_eq_range])
  rw [← List.range_eq_range'] at h1
  rw [h1]
  congr 1
  apply eq_vec h2
  intro i hi
  rw [dif_pos hi, Nat.zero_add, Nat.Ico_zero_eq_range]
  simp only [sum_if]
  rw [sum_ite_eq, if_pos (mem_range.mpr hi)]
  have := extV_mulVec B.transpose v hi
  unfold extV at this ⊢
  rw [dif_pos hi] at this ⊢
  rw [Pi.add_apply, Pi.smul_apply, smul_eq_mul, this, mul_sum]
  congr 1
  exact sum_congr rfl (fun k _ => by rw [ext_transpose]; ring)

theorem mulVec_eq {m n : Nat} (A : Matrix (Fin m) (Fin n) K) (v : Fin n → K) :
    mulVec m n (flat A) (List.ofFn v) = .ok (List.ofFn (A.mulVec v)) := by
  unfold mulVec
  obtain ⟨p, h1, h2⟩ := Res.foldlM'_range (fun p i => do
    let e ← Res.foldlM' (fun e j => do
      let a ← Res.read (flat A) (i * n + j)
      let b ← Res.read (List.ofFn v) j
      .ok (e + a * b)) 0 (List.range n)
    Res.write p i e)
    (fun i p => IsArr m p (fun q => if q < i then extV (A.mulVec v) q else 0)) m (List.replicate m 0)
    ((IsArr.replicate m).congr (by simp)) (by
      intro i p hi hp
      rw [sumLoop _ (fun j => ext A i j * extV v j) n 0 (by
        intro j hj e
        rw [flat_read A hi hj, Res.ok_bind, vec_read v hj, Res.ok_bind])]
      rw [Res.ok_bind, zero_add, ← extV_mulVec A v hi]
      obtain ⟨p', h1, h2⟩ := hp.write hi (extV (A.mulVec v) i)
      refine ⟨p', h1, h2.congr ?_⟩
      intro q _
      by_cases e : q = i
      · subst e; simp
      · rw [if_neg e]
        by_cases e' : q < i
        · rw [if_pos e', if_pos (by omega)]
        · rw [if_neg e', if_neg (by omega)])
  rw [h1]
  congr 1
  apply eq_vec h2
  intro i hi
  rw [if_pos hi]

/-- Loops that write every position of a rectangular array once. -/
theorem writeRect {m n : Nat} (C : Matrix (Fin m) (Fin n) K) (val : Nat → Nat → Res K)
    (hval : ∀ i < m, ∀ j < n, val i j = .ok (ext C i j)) :
    Res.foldlM' (fun p i => Res.foldlM' (fun p j => do
      let e ← val i j
      Res.write p (i * n + j) e) p (List.range n)) (List.replicate (m * n) 0) (List.range m) = .ok (flat C) := by
  obtain ⟨p, h1, h2⟩ := Res.foldlM'_range (fun p i => Res.foldlM' (fun p j => do
      let e ← val i j
      Res.write p (i * n + j) e) p (List.range n))
    (fun i p => ∃ f, IsArr (m * n) p f ∧ ∀ i' < i, i' < m → ∀ j < n, f (i' * n + j) = ext C i' j) m
    (List.replicate (m * n) 0) ⟨_, IsArr.replicate _, by omega⟩ (by
      rintro i p hi ⟨f, hf, hfe⟩
      obtain ⟨p', h1, g, h2, h3⟩ := Res.foldlM'_range (fun p j => do
        let e ← val i j
        Res.write p (i * n + j) e)
        (fun j p => ∃ f, IsArr (m * n) p f ∧ (∀ i' < i, i' < m → ∀ j < n, f (i' * n + j) = ext C i' j) ∧
          ∀ j' < j, j' < n → f (i * n + j') = ext C i j') n p ⟨f, hf, hfe, by omega⟩ (by
          rintro j p hj ⟨f, hf, h1, h2⟩
          rw [hval i hi j hj, Res.ok_bind]
          obtain ⟨p', h3, h4⟩ := hf.write (pos_lt hi hj) (ext C i j)
          refine ⟨p', h3, _, h4, ?_, ?_⟩
          · intro i' hi' hm j' hj'
            rw [if_neg (by rw [pos_inj hj' hj]; omega)]
            exact h1 i' hi' hm j' hj'
          · intro j' hj' hn
            by_cases e : j' = j
            · subst e; rw [if_pos rfl]
            · rw [if_neg (by rw [pos_inj hn hj]; omega)]
              exact h2 j' (by omega) hn)
      refine ⟨p', h1, g, h2, ?_⟩
      intro i' hi' hm j hj
      by_cases e : i' = i
      · subst e; exact h3.2 j hj hj
      · exact h3.1 i' (by omega) hm j hj)
  rw [h1]
  congr 1
  obtain ⟨f, h2, h3⟩ := h2
  exact eq_flat h2 (fun i hi j hj => h3 i hi hi j hj)

theorem mulMat_eq {m n p : Nat} (A : Matrix (Fin m) (Fin n) K) (B : Matrix (Fin n) (Fin p) K) :
    mulMat m n p (flat A) (flat B) = .ok (flat (A * B)) := by
  unfold mulMat
  apply writeRect (A * B) (fun i j => Res.foldlM' (fun e l => do
      let a ← Res.read (flat A) (i * n + l)
      let b ← Res.read (flat B) (l * p + j)
      .ok (e + a * b)) 0 (List.range n))
  intro i hi j hj
  rw [sumLoop _ (fun k => ext A i k * ext B k j) n 0 (by
        intro k hk e
        rw [flat_read A hi hk, Res.ok_bind, flat_read B hk hj, Res.ok_bind]), zero_add, ext_mul A B hi hj]

/-- `transpose()` on row-major memory. -/
theorem transpose_eq {m n : Nat} (A : Matrix (Fin m) (Fin n) K) : transpose m n (flat A) = .ok (flat A.transpose) := by
  unfold transpose
  obtain ⟨p, h1, f, h2, h3⟩ := Res.foldlM'_range (fun p i => Res.foldlM' (fun p j => do
      let a ← Res.read (flat A) (i * n + j)
      Res.write p (j * m + i) a) p (List.range n))
    (fun i p => ∃ f, IsArr (n * m) p f ∧ ∀ i' < i, i' < m → ∀ j < n, f (j * m + i') = ext A i' j) m
    (List.replicate (n * m) 0) ⟨_, IsArr.replicate _, by omega⟩ (by
      rintro i p hi ⟨f, hf, hfe⟩
      obtain ⟨p', h1, g, h2, h3⟩ := Res.foldlM'_range (fun p j => do
        let a ← Res.read (flat A) (i * n + j)
        Res.write p (j * m + i) a)
        (fun j p => ∃ f, IsArr (n * m) p f ∧ (∀ i' < i, i' < m → ∀ j < n, f (j * m + i') = ext A i' j) ∧
          ∀ j' < j, j' < n → f (j' * m + i) = ext A i j') n p ⟨f, hf, hfe, by omega⟩ (by
          rintro j p hj ⟨f, hf, h1, h2⟩
          rw [flat_read A hi hj, Res.ok_bind]
          obtain ⟨p', h3, h4⟩ := hf.write (pos_lt hj hi) (ext A i j)
          refine ⟨p', h3, _, h4, ?_, ?_⟩
          · intro i' hi' hm j' hj'
            rw [if_neg (by rw [pos_inj hm hi]; omega)]
            exact h1 i' hi' hm j' hj'
          · intro j' hj' hn
            by_cases e : j' = j
            · subst e; rw [if_pos rfl]
            · rw [if_neg (by rw [pos_inj hi hi]; omega)]
              exact h2 j' (by omega) hn)
      refine ⟨p', h1, g, h2, ?_⟩
      intro i' hi' hm j hj
      by_cases e : i' = i
      · subst e; exact h3.2 j hj hj
      · exact h3.1 i' (by omega) hm j hj)
  rw [h1]
  congr 1
  exact eq_flat h2 (fun i hi j hj => by rw [h3 j hj hj i hi, ext_transpose])

/-- `toMat()` on packed memory. -/
theorem toMat_eq {n : Nat} {D : Matrix (Fin n) (Fin n) K} (hD : D.IsSymm) : toMat n (pack D) = .ok (flat D) := by
  unfold toMat
  obtain ⟨⟨p, d⟩, h1, f, h2, h3, h4⟩ := Res.foldlM'_range (fun (st : List K × Nat) i =>
      Res.foldlM' (fun (st : List K × Nat) j => do
        let x ← Res.read (pack D) st.2
        let m ← Res.write st.1 (i * n + j) x
        let m ← Res.write m (j * n + i) x
        .ok (m, st.2 + 1)) st (List.range' i (n - i)))
    (fun i st => ∃ f, IsArr (n * n) st.1 f ∧ st.2 = off n i ∧
      ∀ a b, a < n → b < n → (a < i ∨ b < i) → f (a * n + b) = ext D a b) n
    (List.replicate (n * n) 0, 0) ⟨_, IsArr.replicate _, rfl, by omega⟩ (by
      rintro i ⟨p, d⟩ hi ⟨f, hf, hd, hfe⟩
      dsimp only at hd hf
      subst hd
      obtain ⟨⟨p', d'⟩, h1, g, h2, h3, h4⟩ := Res.foldlM'_range' (fun (st : List K × Nat) j => do
          let x ← Res.read (pack D) st.2
          let m ← Res.write st.1 (i * n + j) x
          let m ← Res.write m (j * n + i) x
          Res.ok (m, st.2 + 1))
        (fun j st => ∃ f, IsArr (n * n) st.1 f ∧ st.2 = off n i + (j - i) ∧
          ∀ a b, a < n → b < n → (a < i ∨ b < i ∨ (a = i ∧ b < j) ∨ (b = i ∧ a < j)) → f (a * n + b) = ext D a b)
        (n - i) i (p, off n i) ⟨f, hf, by simp, by
          intro a b ha hb hc
          exact hfe a b ha hb (by omega)⟩ (by
          rintro j ⟨p, d⟩ hij hj ⟨f, hf, hd, hfe⟩
          dsimp only at hd hf
          subst hd
          have hj' : j < n := by omega
          obtain ⟨p1, h1, h2⟩ := hf.write (pos_lt hi hj') (ext D i j)
          obtain ⟨p2, h3, h4⟩ := h2.write (pos_lt hj' hi) (ext D i j)
          dsimp only
          rw [pack_read D hij hj', Res.ok_bind, h1, Res.ok_bind, h3, Res.ok_bind]
          refine ⟨_, rfl, _, h4, by dsimp only; omega, ?_⟩
          intro a b ha hb hc
          have p1 := pos_inj (i := a) (i' := j) hb hi
          have p2 := pos_inj (i := a) (i' := i) hb hj'
          by_cases e1 : a = j ∧ b = i
          · rw [if_pos (p1.mpr e1), e1.1, e1.2, ext_symm hD]
          · rw [if_neg (fun h => e1 (p1.mp h))]
            by_cases e2 : a = i ∧ b = j
            · rw [if_pos (p2.mpr e2), e2.1, e2.2]
            · rw [if_neg (fun h => e2 (p2.mp h))]
              exact hfe a b ha hb (by omega))
      refine ⟨_, h1, g, h2, ?_, ?_⟩
      · dsimp only at h3 ⊢
        rw [h3, off_succ]
        omega
      · intro a b ha hb hc
        exact h4 a b ha hb (by omega))
  rw [h1, Res.ok_bind]
  congr 1
  exact eq_flat h2 (fun i hi j hj => h4 i j hi hj (Or.inl hi))

theorem matBVprodSym_eq {n : Nat} {B : Matrix (Fin n) (Fin n) K} (hB : B.IsSymm) (v : Fin n → K) (c : K) (r : Fin n → K) :
    matBVprodSym n (pack B) (List.ofFn v) c (List.ofFn r) = .ok (List.ofFn (r + c • B.mulVec v)) := by
  unfold matBVprodSym
  rw [toMat_eq hB, Res.ok_bind, matBVprod_eq]

/-! ## `matBTDBprod` -/

theorem pick_col {m n i0 j0 j : Nat} (g : Nat → K) (hi : i0 < n) (hj0 : j0 < m) (hj : j < m) :
    ∑ i ∈ range n, (if i0 * m + j0 = i * m + j then g i else 0) = if j = j0 then g i0 else 0 := by
  by_cases e : j = j0
  · subst e
    rw [if_pos rfl, sum_eq_single i0]
    · rw [if_pos rfl]
    · intro i _ hne
      rw [if_neg]
      rw [pos_inj hj hj]
      omega
    · intro h; exact absurd (mem_range.mpr hi) h
  · rw [if_neg e]
    apply sum_eq_zero
    intro i _
    rw [if_neg]
    rw [pos_inj hj0 hj]
    omega

theorem btdUpper_eq {m n : Nat} (B : Matrix (Fin m) (Fin n) K) (D : Matrix (Fin m) (Fin m) K) {A : List K} {f : Nat → K}
    (hA : IsArr (n * m) A f) : ∃ A', btdUpper m n (flat B) (pack D) (A, 0) = .ok (A', off m m) ∧
      IsArr (n * m) A' (fun q => f q + ∑ k ∈ range m, ∑ j ∈ Ico k m, ∑ i ∈ range n,
        if q = i * m + j then ext B k i * ext D k j else 0) := by
  unfold btdUpper
  obtain ⟨A', h1, h2⟩ := addLoopPtr (fun (st : List K × Nat) k =>
    Res.foldlM' (fun (st : List K × Nat) j => do
      let A ← Res.foldlM' (fun A i => do
        let b ← Res.read (flat B) (k * n + i)
        let d ← Res.read (pack D) st.2
        acc A (i * m + j) (b * d)) st.1 (List.range n)
      Res.ok (A, st.2 + 1)) st (List.range' k (m - k)))
    (fun k q => ∑ j ∈ Ico k m, ∑ i ∈ range n, if q = i * m + j then ext B k i * ext D k j else 0) (off m) 0 m hA (by
      intro k _ hk A g hg
      rw [Nat.zero_add] at hk
      obtain ⟨A', h1, h2⟩ := addLoopPtr (fun (st : List K × Nat) j => do
        let A ← Res.foldlM' (fun A i => do
          let b ← Res.read (flat B) (k * n + i)
          let d ← Res.read (pack D) st.2
          acc A (i * m + j) (b * d)) st.1 (List.range n)
        Res.ok (A, st.2 + 1))
        (fun j q => ∑ i ∈ range n, if q = i * m + j then ext B k i * ext D k j else 0) (fun j => off m k + (j - k))
        k (m - k) hg (by
          intro j hkj hj A g hg
          have hj' : j < m := by omega
          obtain ⟨A', h1, h2⟩ := addLoop (fun A i => do
            let b ← Res.read (flat B) (k * n + i)
            let d ← Res.read (pack D) (off m k + (j - k))
            acc A (i * m + j) (b * d)) (fun i q => if q = i * m + j then ext B k i * ext D k j else 0) 0 n hg (by
              intro i _ hi A g hg
              rw [Nat.zero_add] at hi
              rw [flat_read B hk hi, Res.ok_bind, pack_read D hkj hj', Res.ok_bind]
              exact hg.acc (pos_lt hi hj') _)
          rw [← List.range_eq_range'] at h1
          refine ⟨A', by rw [h1, Res.ok_bind, show off m k + (j - k) + 1 = off m k + (j + 1 - k) by omega], h2.congr ?_⟩
          intro q _
          rw [Nat.zero_add, Nat.Ico_zero_eq_range])
      rw [Nat.sub_self, Nat.add_zero, show k + (m - k) = m by omega, ← off_succ] at h1
      refine ⟨A', h1, h2.congr ?_⟩
      intro q _
      rw [show k + (m - k) = m by omega])
  rw [← List.range_eq_range', Nat.zero_add] at h1
  refine ⟨A', h1, h2.congr ?_⟩
  intro q _
  rw [Nat.zero_add, Nat.Ico_zero_eq_range]

theorem btdLower_eq {m n : Nat} (B : Matrix (Fin m) (Fin n) K) (D : Matrix (Fin m) (Fin m) K) {A : List K} {f : Nat → K}
    (hA : IsArr (n * m) A f) : ∃ A', btdLower m n (flat B) (pack D) (A, 0) = .ok (A', off m m) ∧
      IsArr (n * m) A' (fun q => f q + ∑ j ∈ range m, ∑ k ∈ Ico (j + 1) m, ∑ i ∈ range n,
        if q = i * m + j then ext B k i * ext D j k else 0) := by
  unfold btdLower
  obtain ⟨A', h1, h2⟩ := addLoopPtr (fun (st : List K × Nat) j =>
    Res.foldlM' (fun (st : List K × Nat) k => do
      let A ← Res.foldlM' (fun A i => do
        let b ← Res.read (flat B) (k * n + i)
        let d ← Res.read (pack D) st.2
        acc A (i * m + j) (b * d)) st.1 (List.range n)
      Res.ok (A, st.2 + 1)) (st.1, st.2 + 1) (List.range' (j + 1) (m - (j + 1))))
    (fun j q => ∑ k ∈ Ico (j + 1) m, ∑ i ∈ range n, if q = i * m + j then ext B k i * ext D j k else 0) (off m) 0 m hA (by
      intro j _ hj A g hg
      rw [Nat.zero_add] at hj
      obtain ⟨A', h1, h2⟩ := addLoopPtr (fun (st : List K × Nat) k => do
        let A ← Res.foldlM' (fun A i => do
          let b ← Res.read (flat B) (k * n + i)
          let d ← Res.read (pack D) st.2
          acc A (i * m + j) (b * d)) st.1 (List.range n)
        Res.ok (A, st.2 + 1))
        (fun k q => ∑ i ∈ range n, if q = i * m + j then ext B k i * ext D j k else 0) (fun k => off m j + (k - j))
        (j + 1) (m - (j + 1)) hg (by
          intro k hkj hk A g hg
          have hk' : k < m := by omega
          obtain ⟨A', h1, h2⟩ := addLoop (fun A i => do
            let b ← Res.read (flat B) (k * n + i)
            let d ← Res.read (pack D) (off m j + (k - j))
            acc A (i * m + j) (b * d)) (fun i q => if q = i * m + j then ext B k i * ext D j k else 0) 0 n hg (by
              intro i _ hi A g hg
              rw [Nat.zero_add] at hi
              rw [flat_read B hk' hi, Res.ok_bind, pack_read D (by omega) hk', Res.ok_bind]
              exact hg.acc (pos_lt hi hj) _)
          rw [← List.range_eq_range'] at h1
          refine ⟨A', by rw [h1, Res.ok_bind, show off m j + (k - j) + 1 = off m j + (k + 1 - j) by omega], h2.congr ?_⟩
          intro q _
          rw [Nat.zero_add, Nat.Ico_zero_eq_range])
      rw [show j + 1 - j = 1 by omega, show j + 1 + (m - (j + 1)) = m by omega, ← off_succ] at h1
      refine ⟨A', h1, h2.congr ?_⟩
      intro q _
      rw [show j + 1 + (m - (j + 1)) = m by omega])
  rw [← List.range_eq_range', Nat.zero_add] at h1
  refine ⟨A', h1, h2.congr ?_⟩
  intro q _
  rw [Nat.zero_add, Nat.Ico_zero_eq_range]

theorem btdFinish_eq {m n : Nat} (A : Matrix (Fin n) (Fin m) K) (B : Matrix (Fin m) (Fin n) K) (c : K)
    (R : Matrix (Fin n) (Fin n) K) :
    btdFinish m n (flat A) (flat B) c (pack R, 0) = .ok (pack (R + c • (A * B)), off n n) := by
  obtain ⟨f, hf, hfR⟩ := pack_arr R
  unfold btdFinish
  obtain ⟨R', h1, h2⟩ := addLoopPtr (fun (st : List K × Nat) i =>
    Res.foldlM' (fun (st : List K × Nat) j => do
      let R ← Res.foldlM' (fun R k => do
        let a ← Res.read (flat A) (i * m + k)
        let b ← Res.read (flat B) (k * n + j)
        acc R st.2 (a * b * c)) st.1 (List.range m)
      Res.ok (R, st.2 + 1)) st (List.range' i (n - i)))
    (fun i q => ∑ j ∈ Ico i n, ∑ k ∈ range m, if q = off n i + (j - i) then ext A i k * ext B k j * c else 0)
    (off n) 0 n hf (by
      intro i _ hi R g hg
      rw [Nat.zero_add] at hi
      obtain ⟨R', h1, h2⟩ := addLoopPtr (fun (st : List K × Nat) j => do
        let R ← Res.foldlM' (fun R k => do
          let a ← Res.read (flat A) (i * m + k)
          let b ← Res.read (flat B) (k * n + j)
          acc R st.2 (a * b * c)) st.1 (List.range m)
        Res.ok (R, st.2 + 1))
        (fun j q => ∑ k ∈ range m, if q = off n i + (j - i) then ext A i k * ext B k j * c else 0)
        (fun j => off n i + (j - i)) i (n - i) hg (by
          intro j hij hj R g hg
          have hj' : j < n := by omega
          obtain ⟨R', h1, h2⟩ := addLoop (fun R k => do
            let a ← Res.read (flat A) (i * m + k)
            let b ← Res.read (flat B) (k * n + j)
            acc R (off n i + (j - i)) (a * b * c))
            (fun k q => if q = off n i + (j - i) then ext A i k * ext B k j * c else 0) 0 m hg (by
              intro k _ hk R g hg
              rw [Nat.zero_add] at hk
              rw [flat_read A hi hk, Res.ok_bind, flat_read B hk hj', Res.ok_bind]
              exact hg.acc (upos_lt hij hj') _)
          rw [← List.range_eq_range'] at h1
          refine ⟨R', by rw [h1, Res.ok_bind, show off n i + (j - i) + 1 = off n i + (j + 1 - i) by omega], h2.congr ?_⟩
          intro q _
          rw [Nat.zero_add, Nat.Ico_zero_eq_range])
      rw [Nat.sub_self, Nat.add_zero, show i + (n - i) = n by omega, ← off_succ] at h1
      refine ⟨R', h1, h2.congr ?_⟩
      intro q _
      rw [show i + (n - i) = n by omega])
  rw [← List.range_eq_range', Nat.zero_add] at h1
  rw [show (pack R, 0) = (pack R, off n 0) from rfl, h1]
  congr 1
  refine Prod.ext ?_ rfl
  apply eq_pack h2
  intro i j hij hj
  rw [hfR i j hij hj, ext_add, ext_smul, ext_mul A B (by omega) hj, Nat.zero_add, Nat.Ico_zero_eq_range]
  congr 1
  simp only [sum_if]
  rw [pick_upper (fun i j => ∑ k ∈ range m, ext A i k * ext B k j * c) hij hj, mul_sum]
  exact sum_congr rfl (fun k _ => by ring)

/-- `matBTDBprod` on memory. -/
theorem matBTDBprod_eq {m n : Nat} (B : Matrix (Fin m) (Fin n) K) {D : Matrix (Fin m) (Fin m) K} (hD : D.IsSymm) (c : K)
    (R : Matrix (Fin n) (Fin n) K) :
    matBTDBprod m n (flat B) (pack D) c (pack R) = .ok (pack (R + c • (B.transpose * D * B))) := by
  unfold matBTDBprod
  obtain ⟨A1, h1, h2⟩ := btdUpper_eq B D (IsArr.replicate (K := K) (n * m))
  rw [h1, Res.ok_bind]
  obtain ⟨A2, h3, h4⟩ := btdLower_eq B D h2
  rw [h3, Res.ok_bind]
  have e : A2 = flat (B.transpose * D) := by
    apply eq_flat h4
    intro i hi j hj
    rw [ext_mul _ _ hi hj, zero_add]
    have e1 : ∀ k ∈ range m, ∑ j' ∈ Ico k m, ∑ i' ∈ range n,
        (if i * m + j = i' * m + j' then ext B k i' * ext D k j' else 0) =
        if k ≤ j then ext B k i * ext D k j else 0 := by
      intro k _
      rw [sum_congr rfl (fun j' hj' => pick_col (fun i' => ext B k i' * ext D k j') hi hj (mem_Ico.mp hj').2)]
      rw [sum_ite_eq' (Ico k m) j (fun j' => ext B k i * ext D k j')]
      by_cases e : k ≤ j
      · rw [if_pos e, if_pos (mem_Ico.mpr ⟨e, hj⟩)]
      · rw [if_neg e, if_neg (by rw [mem_Ico]; omega)]
    have e2 : ∀ j' ∈ range m, ∑ k ∈ Ico (j' + 1) m, ∑ i' ∈ range n,
        (if i * m + j = i' * m + j' then ext B k i' * ext D j' k else 0) =
        if j' = j then ∑ k ∈ Ico (j' + 1) m, ext B k i * ext D j' k else 0 := by
      intro j' hj'
      rw [sum_congr rfl (fun k _ => pick_col (fun i' => ext B k i' * ext D j' k) hi hj (mem_range.mp hj')), sum_if]
    rw [sum_congr rfl e1, sum_congr rfl e2, sum_ite_eq' (range m) j, if_pos (mem_range.mpr hj)]
    have e3 : ∑ k ∈ Ico (j + 1) m, ext B k i * ext D j k = ∑ k ∈ range m, if k ≤ j then 0 else ext B k i * ext D j k := by
      rw [← Nat.Ico_zero_eq_range, ← sum_Ico_consecutive _ (Nat.zero_le (j + 1)) (show j + 1 ≤ m by omega),
        sum_eq_zero (s := Ico 0 (j + 1)), zero_add]
      · apply sum_congr rfl
        intro k hk
        rw [if_neg (by have := (mem_Ico.mp hk).1; omega)]
      · intro k hk
        rw [if_pos (by have := (mem_Ico.mp hk).2; omega)]
    rw [e3, ← sum_add_distrib]
    apply sum_congr rfl
    intro k _
    rw [ext_transpose, ext_symm hD (i := j) (j := k)]
    by_cases h : k ≤ j <;> simp [h]
  rw [e, btdFinish_eq, Res.ok_bind]

end field

end Nla3d.Dense
