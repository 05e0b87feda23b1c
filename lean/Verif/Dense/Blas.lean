import Verif.Dense.Products
import Mathlib.Algebra.Field.Rat

/-!
# C123: the products with BLAS

The branches of `matBTVprod`, `matBVprod`, `matABprod` and `matATBprod` that are compiled with `NLA3D_USE_BLAS`
(src/lib/math/Mat.h:754, 767, 799, 820; CMakeLists.txt:21-24, 57-59). `cblas_dgemv` and `cblas_dgemm` are modelled by their manual for
row-major storage, `double` is a field.
-/

namespace Nla3d.Dense

open Finset

variable {K : Type}

/-! ## Model -/

section model
variable [Zero K] [Add K] [Mul K]

/-- Position of the entry `i, j` of `op(A)` in row-major memory with row length `ld`. BLAS, called in src/lib/math/Mat.h:754-820. -/
def opPos (trans : Bool) (ld i j : Nat) : Nat := if trans then j * ld + i else i * ld + j

/-- `cblas_dgemv(CblasRowMajor, trans, m, n, alpha, A, lda, x, 1, beta, y, 1)`: `y = alpha*op(A)*x + beta*y`. BLAS, called in
src/lib/math/Mat.h:754, 767. -/
def dgemv (trans : Bool) (m n : Nat) (alpha : K) (A : List K) (lda : Nat) (x : List K) (beta : K) (y : List K) : Res (List K) :=
  Res.foldlM' (fun y i => do
    let e ← Res.foldlM' (fun e j => do
      let a ← Res.read A (opPos trans lda i j)
      let b ← Res.read x j
      .ok (e + a * b)) 0 (List.range (if trans then m else n))
    let r ← Res.read y i
    Res.write y i (alpha * e + beta * r)) y (List.range (if trans then n else m))

/-- `cblas_dgemm(CblasRowMajor, trans, CblasNoTrans, m, n, k, alpha, A, lda, B, ldb, beta, C, ldc)`: `C = alpha*op(A)*B + beta*C`, where
`op(A)` is `m × k`. BLAS, called in src/lib/math/Mat.h:799, 820. -/
def dgemm (trans : Bool) (m n k : Nat) (alpha : K) (A : List K) (lda : Nat) (B : List K) (ldb : Nat) (beta : K) (C : List K)
    (ldc : Nat) : Res (List K) :=
  Res.foldlM' (fun C i => Res.foldlM' (fun C j => do
    let e ← Res.foldlM' (fun e l => do
      let a ← Res.read A (opPos trans lda i l)
      let b ← Res.read B (l * ldb + j)
      .ok (e + a * b)) 0 (List.range k)
    let r ← Res.read C (i * ldc + j)
    Res.write C (i * ldc + j) (alpha * e + beta * r)) C (List.range n)) C (List.range m)

/-- `matBTVprod` with BLAS. src/lib/math/Mat.h:754 -/
def blasBTV (dimM dimN : Nat) (B V : List K) (coef : K) (R : List K) : Res (List K) := dgemv true dimM dimN coef B dimN V 0 R

/-- `matBVprod` with BLAS. src/lib/math/Mat.h:767 -/
def blasBV (dimM dimN : Nat) (B V : List K) (coef : K) (R : List K) : Res (List K) := dgemv false dimM dimN coef B dimN V 0 R

/-- `matABprod` with BLAS. src/lib/math/Mat.h:799 -/
def blasAB (dimM1 dimN1 dimN2 : Nat) (A B : List K) (coef : K) (R : List K) : Res (List K) :=
  dgemm false dimM1 dimN2 dimN1 coef A dimN1 B dimN2 0 R dimN2

/-- `matATBprod` with BLAS. src/lib/math/Mat.h:820 -/
def blasATB (dimM1 dimN1 dimN2 : Nat) (A B : List K) (coef : K) (R : List K) : Res (List K) :=
  dgemm true dimN1 dimN2 dimM1 coef A dimN1 B dimN2 0 R dimN2

end model

/-! ## Lemmas -/

variable [Field K]

theorem flat_read_op {trans : Bool} {m n : Nat} (A : Matrix (Fin m) (Fin n) K) {i j : Nat} (hi : i < m) (hj : j < n)
    (L : List K) (ld : Nat) (h : if trans then L = flat A.transpose ∧ ld = m else L = flat A ∧ ld = n) :
    Res.read L (opPos trans ld i j) = .ok (ext A i j) := by
  cases trans
  · obtain ⟨rfl, rfl⟩ : L = flat A ∧ ld = n := by simpa using h
    exact flat_read A hi hj
  · obtain ⟨rfl, rfl⟩ : L = flat A.transpose ∧ ld = m := by simpa using h
    rw [show opPos true ld i j = j * ld + i from rfl, flat_read A.transpose hj hi, ext_transpose]

/-- What `dgemv` does to the vector, for any factor of the old one. -/
theorem dgemv_eq (trans : Bool) {m n M N : Nat} (A : Matrix (Fin m) (Fin n) K) (v : Fin n → K) (c beta : K) (r : Fin m → K) (L : List K)
    (ld : Nat) (h : if trans then L = flat A.transpose ∧ ld = m else L = flat A ∧ ld = n)
    (hm : (if trans then N else M) = m) (hn : (if trans then M else N) = n) :
    dgemv trans M N c L ld (List.ofFn v) beta (List.ofFn r) = .ok (List.ofFn (c • A.mulVec v + beta • r)) := by
  unfold dgemv
  rw [hm, hn]
  obtain ⟨p, h1, h2⟩ := Res.foldlM'_range (fun y i => do
    let e ← Res.foldlM' (fun e j => do
      let a ← Res.read L (opPos trans ld i j)
      let b ← Res.read (List.ofFn v) j
      .ok (e + a * b)) 0 (List.range n)
    let r ← Res.read y i
    Res.write y i (c * e + beta * r))
    (fun i p => IsArr m p (fun q => if q < i then extV (c • A.mulVec v + beta • r) q else extV r q)) m (List.ofFn r)
    ⟨by simp, fun q hq => by
      have := vec_read r hq
      rw [Res.read_eq_ok] at this
      simpa using this⟩ (by
      intro i p hi hp
      rw [sumLoop _ (fun j => ext A i j * extV v j) n 0 (by
        intro j hj e
        rw [flat_read_op A hi hj L ld h, Res.ok_bind, vec_read v hj, Res.ok_bind])]
      rw [Res.ok_bind, zero_add, ← extV_mulVec A v hi, hp.read hi, Res.ok_bind, if_neg (by omega)]
      obtain ⟨p', h1, h2⟩ := hp.write hi (c * extV (A.mulVec v) i + beta * extV r i)
      refine ⟨p', h1, h2.congr ?_⟩
      intro q _
      by_cases e : q = i
      · subst e
        simp [extV, hi]
      · rw [if_neg e]
        by_cases e' : q < i
        · rw [if_pos e', if_pos (by omega)]
        · rw [if_neg e', if_neg (by omega)])
  rw [h1]
  congr 1
  apply eq_vec h2
  intro i hi
  rw [if_pos hi]

/-- What `dgemm` does to the matrix, for any factor of the old one. -/
theorem dgemm_eq (trans : Bool) {m n k : Nat} (A : Matrix (Fin m) (Fin k) K) (B : Matrix (Fin k) (Fin n) K) (c beta : K)
    (R : Matrix (Fin m) (Fin n) K) (L : List K) (ld : Nat)
    (h : if trans then L = flat A.transpose ∧ ld = m else L = flat A ∧ ld = k) :
    dgemm trans m n k c L ld (flat B) n beta (flat R) n = .ok (flat (c • (A * B) + beta • R)) := by
  set C := c • (A * B) + beta • R with hC
  have hCe : ∀ {i j : Nat}, i < m → j < n → c * (∑ l ∈ range k, ext A i l * ext B l j) + beta * ext R i j = ext C i j := by
    intro i j hi hj
    rw [hC, ext_add, ext_smul, ext_smul, ext_mul A B hi hj]
  unfold dgemm
  have hR : ∃ f, IsArr (m * n) (flat R) f ∧ ∀ i < m, ∀ j < n, f (i * n + j) = ext R i j := by
    refine ⟨fun q => ((flat R)[q]?).getD 0, ?_, ?_⟩
    · have := IsArr.exists (flat R)
      rwa [flat_length] at this
    · intro i hi j hj
      show ((flat R)[i * n + j]?).getD 0 = _
      rw [flat_get R hi hj]
      rfl
  obtain ⟨f, hf, hfe⟩ := hR
  obtain ⟨p, h1, g, h2, h3, _⟩ := Res.foldlM'_range (fun C i => Res.foldlM' (fun C j => do
    let e ← Res.foldlM' (fun e l => do
      let a ← Res.read L (opPos trans ld i l)
      let b ← Res.read (flat B) (l * n + j)
      .ok (e + a * b)) 0 (List.range k)
    let r ← Res.read C (i * n + j)
    Res.write C (i * n + j) (c * e + beta * r)) C (List.range n))
    (fun i p => ∃ f, IsArr (m * n) p f ∧ (∀ i' < i, i' < m → ∀ j < n, f (i' * n + j) = ext C i' j) ∧
      ∀ i', i ≤ i' → i' < m → ∀ j < n, f (i' * n + j) = ext R i' j) m (flat R)
    ⟨f, hf, by omega, fun i' _ hi' => hfe i' hi'⟩ (by
      rintro i p hi ⟨f, hf, hfe, hfr⟩
      obtain ⟨p', h1, g, h2, h3, h4, h5⟩ := Res.foldlM'_range (fun C j => do
          let e ← Res.foldlM' (fun e l => do
            let a ← Res.read L (opPos trans ld i l)
            let b ← Res.read (flat B) (l * n + j)
            .ok (e + a * b)) 0 (List.range k)
          let r ← Res.read C (i * n + j)
          Res.write C (i * n + j) (c * e + beta * r))
        (fun j p => ∃ f, IsArr (m * n) p f ∧ (∀ i' < i, i' < m → ∀ j < n, f (i' * n + j) = ext C i' j) ∧
          (∀ i', i < i' → i' < m → ∀ j < n, f (i' * n + j) = ext R i' j) ∧
          ∀ j' < n, f (i * n + j') = if j' < j then ext C i j' else ext R i j') n p
        ⟨f, hf, hfe, fun i' h1 => hfr i' (by omega), fun j' hj' => by rw [hfr i (Nat.le_refl i) hi j' hj']; simp⟩ (by
          rintro j p hj ⟨f, hf, h1, h2, h3⟩
          rw [sumLoop _ (fun l => ext A i l * ext B l j) k 0 (by
            intro l hl e
            rw [flat_read_op A hi hl L ld h, Res.ok_bind, flat_read B hl hj, Res.ok_bind]), Res.ok_bind, zero_add,
            hf.read (pos_lt hi hj), Res.ok_bind, h3 j hj, if_neg (by omega), hCe hi hj]
          obtain ⟨p', h4, h5⟩ := hf.write (pos_lt hi hj) (ext C i j)
          refine ⟨p', h4, _, h5, ?_, ?_, ?_⟩
          · intro i' hi' hm j' hj'
            rw [if_neg (by rw [pos_inj hj' hj]; omega)]
            exact h1 i' hi' hm j' hj'
          · intro i' hi' hm j' hj'
            rw [if_neg (by rw [pos_inj hj' hj]; omega)]
            exact h2 i' hi' hm j' hj'
          · intro j' hj'
            by_cases e : j' = j
            · subst e; rw [if_pos rfl, if_pos (by omega)]
            · rw [if_neg (by rw [pos_inj hj' hj]; omega), h3 j' hj']
              by_cases e' : j' < j
              · rw [if_pos e', if_pos (by omega)]
              · rw [if_neg e', if_neg (by omega)])
      refine ⟨p', h1, g, h2, ?_, fun i' h6 h7 => h4 i' (by omega) h7⟩
      intro i' hi' hm j hj
      by_cases e : i' = i
      · subst e; rw [h5 j hj, if_pos hj]
      · exact h3 i' (by omega) hm j hj)
  rw [h1]
  congr 1
  exact eq_flat h2 (fun i hi j hj => h3 i hi hi j hj)

/-! ## C123 -/

/-- **C123, what BLAS computes.** The result takes the place of what was in `R`. -/
theorem C123_blas (c : K) :
    (∀ {m n : Nat} (B : Matrix (Fin m) (Fin n) K) (v : Fin m → K) (r : Fin n → K),
      blasBTV m n (flat B) (List.ofFn v) c (List.ofFn r) = .ok (List.ofFn (c • B.transpose.mulVec v))) ∧
    (∀ {m n : Nat} (B : Matrix (Fin m) (Fin n) K) (v : Fin n → K) (r : Fin m → K),
      blasBV m n (flat B) (List.ofFn v) c (List.ofFn r) = .ok (List.ofFn (c • B.mulVec v))) ∧
    (∀ {m n p : Nat} (A : Matrix (Fin m) (Fin n) K) (B : Matrix (Fin n) (Fin p) K) (R : Matrix (Fin m) (Fin p) K),
      blasAB m n p (flat A) (flat B) c (flat R) = .ok (flat (c • (A * B)))) ∧
    ∀ {m n p : Nat} (A : Matrix (Fin m) (Fin n) K) (B : Matrix (Fin m) (Fin p) K) (R : Matrix (Fin n) (Fin p) K),
      blasATB m n p (flat A) (flat B) c (flat R) = .ok (flat (c • (A.transpose * B))) := by
  refine ⟨fun {m n} B v r => ?_, fun {m n} B v r => ?_, fun {m n p} A B R => ?_, fun {m n p} A B R => ?_⟩
  · have := dgemv_eq true (M := m) (N := n) B.transpose v c 0 r (flat B) n (by simp) rfl rfl
    simpa [blasBTV] using this
  · have := dgemv_eq false (M := m) (N := n) B v c 0 r (flat B) n (by simp) rfl rfl
    simpa [blasBV] using this
  · have := dgemm_eq false A B c 0 R (flat A) n (by simp)
    simpa [blasAB] using this
  · have := dgemm_eq true A.transpose B c 0 R (flat A) n (by simp)
    simpa [blasATB] using this

/-- **C123, agreement.** The builds with and without BLAS give the same exactly if nothing was in `R`. Missing: other `R`
(`C123_violated`). -/
theorem C123_agree_partial (c : K) :
    (∀ {m n : Nat} (B : Matrix (Fin m) (Fin n) K) (v : Fin m → K) (r : Fin n → K),
      blasBTV m n (flat B) (List.ofFn v) c (List.ofFn r) = matBTVprod m n (flat B) (List.ofFn v) c (List.ofFn r) ↔ r = 0) ∧
    (∀ {m n : Nat} (B : Matrix (Fin m) (Fin n) K) (v : Fin n → K) (r : Fin m → K),
      blasBV m n (flat B) (List.ofFn v) c (List.ofFn r) = matBVprod m n (flat B) (List.ofFn v) c (List.ofFn r) ↔ r = 0) ∧
    (∀ {m n p : Nat} (A : Matrix (Fin m) (Fin n) K) (B : Matrix (Fin n) (Fin p) K) (R : Matrix (Fin m) (Fin p) K),
      blasAB m n p (flat A) (flat B) c (flat R) = matABprod m n p (flat A) (flat B) c (flat R) ↔ R = 0) ∧
    ∀ {m n p : Nat} (A : Matrix (Fin m) (Fin n) K) (B : Matrix (Fin m) (Fin p) K) (R : Matrix (Fin n) (Fin p) K),
      blasATB m n p (flat A) (flat B) c (flat R) = matATBprod m n p (flat A) (flat B) c (flat R) ↔ R = 0 := by
  have flat_inj : ∀ {m n : Nat} {A B : Matrix (Fin m) (Fin n) K}, flat A = flat B → A = B := by
    intro m n A B h
    ext i j
    have h1 := flat_read A i.2 j.2
    rw [h, flat_read B i.2 j.2, ext_fin, ext_fin] at h1
    exact (Res.ok.inj h1).symm
  obtain ⟨h1, h2, h3, h4⟩ := C123_blas c
  refine ⟨fun {m n} B v r => ?_, fun {m n} B v r => ?_, fun {m n p} A B R => ?_, fun {m n p} A B R => ?_⟩
  · rw [h1, matBTVprod_eq]
    exact ⟨fun h => by simpa using List.ofFn_injective (Res.ok.inj h), fun h => by simp [h]⟩
  · rw [h2, matBVprod_eq]
    exact ⟨fun h => by simpa using List.ofFn_injective (Res.ok.inj h), fun h => by simp [h]⟩
  · rw [h3, matABprod_eq]
    exact ⟨fun h => by simpa using flat_inj (Res.ok.inj h), fun h => by simp [h]⟩
  · rw [h4, matATBprod_eq]
    exact ⟨fun h => by simpa using flat_inj (Res.ok.inj h), fun h => by simp [h]⟩

/-- The loop over integration points `for (np...) matBTVprod(matB, S[np], coef, Fu)`; `prod` is one of the two builds.
src/lib/elements/SOLID81.cpp:51, 73, 76 -/
def pointLoop (prod : List K → List K → K → List K → Res (List K)) (pts : List (List K × List K × K)) (F : List K) : Res (List K) :=
  Res.foldlM' (fun F p => prod p.1 p.2.1 p.2.2 F) F pts

/-- **C123, negation: forces of SOLID81.** Without BLAS the loop over the integration points gives the sum over all points, with BLAS
the term of the last point alone. -/
theorem C123_violated {m n : Nat} (pts : List (Matrix (Fin m) (Fin n) K × (Fin m → K) × K)) (p : Matrix (Fin m) (Fin n) K × (Fin m → K) × K)
    (r : Fin n → K) :
    pointLoop (matBTVprod m n) ((pts ++ [p]).map fun q => (flat q.1, List.ofFn q.2.1, q.2.2)) (List.ofFn r) =
      .ok (List.ofFn (r + ((pts ++ [p]).map fun q => q.2.2 • q.1.transpose.mulVec q.2.1).sum)) ∧
    pointLoop (blasBTV m n) ((pts ++ [p]).map fun q => (flat q.1, List.ofFn q.2.1, q.2.2)) (List.ofFn r) =
      .ok (List.ofFn (p.2.2 • p.1.transpose.mulVec p.2.1)) := by
  constructor
  · generalize pts ++ [p] = l
    induction l generalizing r with
    | nil => simp [pointLoop]
    | cons q l ih =>
      unfold pointLoop at ih ⊢
      simp only [List.map_cons, Res.foldlM'_cons]
      rw [matBTVprod_eq, Res.ok_bind, ih, List.sum_cons, add_assoc]
  · induction pts generalizing r with
    | nil =>
      unfold pointLoop
      simp only [List.nil_append, List.map_cons, List.map_nil, Res.foldlM'_cons, Res.foldlM'_nil]
      rw [(C123_blas p.2.2).1]
      rfl
    | cons q l ih =>
      unfold pointLoop at ih ⊢
      simp only [List.cons_append, List.map_cons, Res.foldlM'_cons]
      rw [(C123_blas q.2.2).1, Res.ok_bind, ih]

/-- Two integration points with equal terms: half of the force is lost. -/
example : pointLoop (matBTVprod 1 1) [([1], [3], 1), ([1], [3], 1)] [0] = .ok [(6 : ℚ)] ∧
    pointLoop (blasBTV 1 1) [([1], [3], 1), ([1], [3], 1)] [0] = .ok [(3 : ℚ)] ∧
    blasAB 1 2 1 [1, 2] [3, 4] 2 [(100 : ℚ)] = .ok [22] ∧ matABprod 1 2 1 [1, 2] [3, 4] 2 [(100 : ℚ)] = .ok [122] ∧
    blasATB 2 1 1 [1, 2] [3, 4] 2 [(0 : ℚ)] = .ok [22] := by decide +kernel

end Nla3d.Dense
