import Verif.Solver.TransientProps

/-!
# C118: the mechanical energy of transient solutions
-/

set_option linter.unusedSectionVars false

namespace Nla3d.Solver

open Nla3d.Dof Nla3d.Block Nla3d.Sparse Nla3d.Storage Nla3d.TimeCtl Finset

variable {K : Type} [Field K] [LinearOrder K] [IsStrictOrderedRing K]

/-! ## Specification -/

/-- The bilinear form of a matrix; vectors are numbered from one. -/
def form (N : Nat) (k : Nat → Nat → K) (x y : Nat → K) : K := ∑ i ∈ range N, ∑ j ∈ range N, x (i + 1) * k (i + 1) (j + 1) * y (j + 1)

/-- Work of forces on a displacement. -/
def power (N : Nat) (f x : Nat → K) : K := ∑ i ∈ range N, f (i + 1) * x (i + 1)

/-- Kinetic energy and strain energy. -/
def energy {E : Type} (N : Nat) (k m : Nat → Nat → K) (s : TState E K) : K :=
  form N m (comp s.v) (comp s.v) / 2 + form N k (comp s.S.vecU) (comp s.S.vecU) / 2

/-- The mean velocity of two states. -/
def meanV {E : Type} (s s' : TState E K) (i : Nat) : K := (comp s.v i + comp s'.v i) / 2

/-- The displacement between two states. -/
def moved {E : Type} (s s' : TState E K) (i : Nat) : K := comp s'.S.vecU i - comp s.S.vecU i

/-! ## Algebra -/

theorem form_rows (N : Nat) (k : Nat → Nat → K) (x y : Nat → K) : form N k x y = ∑ i ∈ range N, x (i + 1) * rowMul k y N (i + 1) := by
  unfold form rowMul
  apply Finset.sum_congr rfl
  intro i _
  rw [Finset.mul_sum]
  apply Finset.sum_congr rfl
  intro j _
  ring

theorem form_symm (N : Nat) {k : Nat → Nat → K} (hk : ∀ i j, k i j = k j i) (x y : Nat → K) : form N k x y = form N k y x := by
  unfold form
  rw [Finset.sum_comm]
  apply Finset.sum_congr rfl
  intro i _
  apply Finset.sum_congr rfl
  intro j _
  rw [hk]
  ring

theorem rowMul_congr {k : Nat → Nat → K} {x y : Nat → K} {N : Nat} (h : ∀ i, 0 < i → i ≤ N → x i = y i) (i : Nat) :
    rowMul k x N i = rowMul k y N i := by
  unfold rowMul
  apply Finset.sum_congr rfl
  intro j hj
  rw [Finset.mem_range] at hj
  rw [h _ (by omega) (by omega)]

theorem rowMul_lin (k : Nat → Nat → K) (x y : Nat → K) (p q : K) (N i : Nat) :
    rowMul k (fun j => p * x j + q * y j) N i = p * rowMul k x N i + q * rowMul k y N i := by
  unfold rowMul
  rw [Finset.mul_sum, Finset.mul_sum, ← Finset.sum_add_distrib]
  apply Finset.sum_congr rfl
  intro j _
  ring

theorem rowMul_nat (k : Nat → Nat → K) (x : Nat → K) (N i : Nat) : rowMul k (fun j => x j) N i = rowMul k x N i := rfl

/-- The change of a quadratic form. -/
theorem form_diff (N : Nat) {k : Nat → Nat → K} (hk : ∀ i j, k i j = k j i) (x y : Nat → K) :
    form N k y y - form N k x x = ∑ i ∈ range N, (y (i + 1) - x (i + 1)) * (rowMul k x N (i + 1) + rowMul k y N (i + 1)) := by
  have h := form_symm N hk x y
  rw [form_rows, form_rows] at h
  have : ∑ i ∈ range N, (y (i + 1) - x (i + 1)) * (rowMul k x N (i + 1) + rowMul k y N (i + 1)) =
      form N k y y - form N k x x + (∑ i ∈ range N, y (i + 1) * rowMul k x N (i + 1) - ∑ i ∈ range N, x (i + 1) * rowMul k y N (i + 1)) := by
    rw [form_rows, form_rows, ← Finset.sum_sub_distrib, ← Finset.sum_sub_distrib, ← Finset.sum_add_distrib]
    apply Finset.sum_congr rfl
    intro i _
    ring
  rw [this, h]
  ring

/-- The change of a quadratic form, with the difference inside. -/
theorem form_diff' (N : Nat) {k : Nat → Nat → K} (hk : ∀ i j, k i j = k j i) (x y : Nat → K) :
    form N k y y - form N k x x = ∑ i ∈ range N, (x (i + 1) + y (i + 1)) * (rowMul k y N (i + 1) - rowMul k x N (i + 1)) := by
  have h := form_symm N hk x y
  rw [form_rows, form_rows] at h
  have : ∑ i ∈ range N, (x (i + 1) + y (i + 1)) * (rowMul k y N (i + 1) - rowMul k x N (i + 1)) =
      form N k y y - form N k x x + (∑ i ∈ range N, x (i + 1) * rowMul k y N (i + 1) - ∑ i ∈ range N, y (i + 1) * rowMul k x N (i + 1)) := by
    rw [form_rows, form_rows, ← Finset.sum_sub_distrib, ← Finset.sum_sub_distrib, ← Finset.sum_add_distrib]
    apply Finset.sum_congr rfl
    intro i _
    ring
  rw [this, h]
  ring

theorem matSum_symm (q i j : Nat) : ∀ cs : List (Contrib K), matSum q i j cs = matSum q j i cs
  | [] => rfl
  | .mat w a b x :: cs => by
    have : Same i j a b ↔ Same j i a b := by unfold Same; tauto
    simp only [matSum, matSum_symm q i j cs, this]
  | .load _ _ :: cs => by simp only [matSum, matSum_symm q i j cs]

/-- The assembled matrices are symmetric. -/
theorem tMat_symm {E : Type} (el : Elems E K) (e : E) (S1 : Storage K) (num : Key → Nat) (x : K) (q i j : Nat) :
    tMat el e S1 num x q i j = tMat el e S1 num x q j i := by
  unfold tMat asmM
  simp only [matSum_symm q i j]

/-! ## Steps -/

section
variable {E : Type} {S1 : Storage K} {el : Elems E K} {k c m : Nat → Nat → K} {f : Nat → K} {dt : K}

/-- Force on the unknown DoFs: loads of elements, loads, and what the code makes of the prescribed values (C25). -/
def force (S1 : Storage K) (k : Nat → Nat → K) (f : Nat → K) (s : TState E K) (i : Nat) : K :=
  f i + comp s.S.vecR i + rowMul k (comp s.S.vecU) S1.nConstr i

theorem force_same {alpha delta : K} {s s' : TState E K} (h : StepLaw el S1 k c m f alpha delta dt s s') (i : Nat) :
    force S1 k f s' i = force S1 k f s i := by
  unfold force
  have hR : comp s'.S.vecR i = comp s.S.vecR i := by rw [h.storage]; rfl
  rw [hR, rowMul_congr (fun j h1 h2 => (h.constrained j h1 h2).1)]

/-- The equation of motion at the end of a step, with the velocity of the code. -/
theorem motion_half {s s' : TState E K} (h : StepLaw el S1 k c m f (1 / 4) (1 / 2) dt s s')
    (hnt : NoTiny (newmark (1 / 4) (1 / 2) dt) S1 s) {i : Nat} (h1 : S1.nConstr < i) (h2 : i ≤ S1.nDofs + S1.nMpc) :
    rowMul m (comp s'.a) (S1.nDofs + S1.nMpc) i + rowMul c (comp s'.v) (S1.nDofs + S1.nMpc) i +
      rowMul k (comp s'.S.vecU) (S1.nDofs + S1.nMpc) i = force S1 k f s i := by
  have hm := h.motion hnt i h1 h2
  have hv : rowMul c (fun j => newmarkV (1 / 2) dt (comp s.v j) (comp s.a j) (comp s'.a j)) (S1.nDofs + S1.nMpc) i =
      rowMul c (comp s'.v) (S1.nDofs + S1.nMpc) i := by
    apply rowMul_congr
    intro j j1 j2
    rw [h.veloc j j1 j2]
    unfold newmarkV
    ring
  rw [hv] at hm
  exact hm

theorem step_half {s s' : TState E K} (h : StepLaw el S1 k c m f (1 / 4) (1 / 2) dt s s') {i : Nat} (h1 : 0 < i)
    (h2 : i ≤ S1.nDofs + S1.nMpc) :
    comp s'.v i - comp s.v i = dt * ((comp s.a i + comp s'.a i) / 2) ∧ moved s s' i = dt * meanV s s' i := by
  have hd := h.displ i h1 h2
  have hv := h.veloc i h1 h2
  unfold NewmarkU at hd
  have e1 : comp s'.v i - comp s.v i = dt * ((comp s.a i + comp s'.a i) / 2) := by rw [hv]; ring
  refine ⟨e1, ?_⟩
  unfold moved meanV
  rw [hd, hv]
  ring

/-- C118, a step: with the default parameters of the code, what energy and dissipation gain in a step after the first is the work of the
forces. -/
theorem C118_step_partial (hk : ∀ i j, k i j = k j i) (hm : ∀ i j, m i j = m j i) {s0 s s' : TState E K}
    (h0 : StepLaw el S1 k c m f (1 / 4) (1 / 2) dt s0 s) (h : StepLaw el S1 k c m f (1 / 4) (1 / 2) dt s s')
    (hnt0 : NoTiny (newmark (1 / 4) (1 / 2) dt) S1 s0) (hnt : NoTiny (newmark (1 / 4) (1 / 2) dt) S1 s) :
    energy (S1.nDofs + S1.nMpc) k m s' + dt * form (S1.nDofs + S1.nMpc) c (meanV s s') (meanV s s') =
      energy (S1.nDofs + S1.nMpc) k m s + power (S1.nDofs + S1.nMpc) (force S1 k f s) (moved s s') := by
  set N := S1.nDofs + S1.nMpc with hN
  have e1 := form_diff' N hm (comp s.v) (comp s'.v)
  have e2 := form_diff N hk (comp s.S.vecU) (comp s'.S.vecU)
  have e3 := form_rows N c (meanV s s') (meanV s s')
  have key : (form N m (comp s'.v) (comp s'.v) - form N m (comp s.v) (comp s.v)) +
      (form N k (comp s'.S.vecU) (comp s'.S.vecU) - form N k (comp s.S.vecU) (comp s.S.vecU)) +
      2 * (dt * form N c (meanV s s') (meanV s s')) = 2 * power N (force S1 k f s) (moved s s') := by
    rw [e1, e2, e3]
    unfold power
    rw [Finset.mul_sum, Finset.mul_sum, Finset.mul_sum, ← Finset.sum_add_distrib, ← Finset.sum_add_distrib]
    apply Finset.sum_congr rfl
    intro i hi
    rw [Finset.mem_range] at hi
    obtain ⟨_, g2⟩ := step_half h (i := i + 1) (by omega) (by omega)
    have g3 : rowMul m (comp s'.v) N (i + 1) - rowMul m (comp s.v) N (i + 1) =
        dt * ((rowMul m (comp s.a) N (i + 1) + rowMul m (comp s'.a) N (i + 1)) / 2) := by
      have : rowMul m (comp s'.v) N (i + 1) = rowMul m (fun j => 1 * comp s.v j + 1 * (dt / 2 * comp s.a j + dt / 2 * comp s'.a j)) N (i + 1) := by
        apply rowMul_congr
        intro j j1 j2
        have := (step_half h j1 (by omega)).1
        linear_combination this
      rw [this, rowMul_lin, rowMul_lin]
      ring
    have g4 : rowMul c (meanV s s') N (i + 1) = (rowMul c (comp s.v) N (i + 1) + rowMul c (comp s'.v) N (i + 1)) / 2 := by
      have : rowMul c (meanV s s') N (i + 1) = rowMul c (fun j => 1 / 2 * comp s.v j + 1 / 2 * comp s'.v j) N (i + 1) := by
        apply rowMul_congr
        intro j _ _
        unfold meanV
        ring
      rw [this, rowMul_lin]
      ring
    have g5 : comp s'.S.vecU (i + 1) - comp s.S.vecU (i + 1) = dt * meanV s s' (i + 1) := g2
    rw [g3, g4, g5, g2]
    by_cases hc : i + 1 ≤ S1.nConstr
    · have v0 := (h0.constrained (i + 1) (by omega) hc).2.1
      have v1 := (h.constrained (i + 1) (by omega) hc).2.1
      have : meanV s s' (i + 1) = 0 := by unfold meanV; rw [v0, v1]; ring
      rw [this, v0, v1]
      ring
    · have m1 := motion_half h hnt (i := i + 1) (by omega) (by omega)
      have m0 := motion_half h0 hnt0 (i := i + 1) (by omega) (by omega)
      rw [← force_same h0, ← hN] at m0
      rw [← hN] at m1
      have w : comp s.v (i + 1) + comp s'.v (i + 1) = 2 * meanV s s' (i + 1) := by unfold meanV; ring
      rw [w]
      linear_combination (dt * meanV s s' (i + 1)) * m0 + (dt * meanV s s' (i + 1)) * m1
  unfold energy
  linear_combination (1 / 2 : K) * key

/-- C118, the first step: the solver starts without acceleration, so that half the work of the forces that are not in balance at the beginning
is missing. -/
theorem C118_first (hk : ∀ i j, k i j = k j i) (hm : ∀ i j, m i j = m j i) {s s' : TState E K}
    (hrest : ∀ i, comp s.v i = 0 ∧ comp s.a i = 0) (h : StepLaw el S1 k c m f (1 / 4) (1 / 2) dt s s')
    (hnt : NoTiny (newmark (1 / 4) (1 / 2) dt) S1 s) :
    energy (S1.nDofs + S1.nMpc) k m s' + dt * form (S1.nDofs + S1.nMpc) c (meanV s s') (meanV s s') =
      energy (S1.nDofs + S1.nMpc) k m s + power (S1.nDofs + S1.nMpc) (force S1 k f s) (moved s s') -
        power (S1.nDofs + S1.nMpc) (fun i => force S1 k f s i - rowMul k (comp s.S.vecU) (S1.nDofs + S1.nMpc) i) (moved s s') / 2 := by
  set N := S1.nDofs + S1.nMpc with hN
  have e1 := form_diff' N hm (comp s.v) (comp s'.v)
  have e2 := form_diff N hk (comp s.S.vecU) (comp s'.S.vecU)
  have e3 := form_rows N c (meanV s s') (meanV s s')
  have key : (form N m (comp s'.v) (comp s'.v) - form N m (comp s.v) (comp s.v)) +
      (form N k (comp s'.S.vecU) (comp s'.S.vecU) - form N k (comp s.S.vecU) (comp s.S.vecU)) +
      2 * (dt * form N c (meanV s s') (meanV s s')) = 2 * power N (force S1 k f s) (moved s s') -
      power N (fun i => force S1 k f s i - rowMul k (comp s.S.vecU) N i) (moved s s') := by
    rw [e1, e2, e3]
    unfold power
    rw [Finset.mul_sum, Finset.mul_sum, Finset.mul_sum, ← Finset.sum_add_distrib, ← Finset.sum_add_distrib, ← Finset.sum_sub_distrib]
    apply Finset.sum_congr rfl
    intro i hi
    rw [Finset.mem_range] at hi
    obtain ⟨_, g2⟩ := step_half h (i := i + 1) (by omega) (by omega)
    have g3 : rowMul m (comp s'.v) N (i + 1) - rowMul m (comp s.v) N (i + 1) = dt * (rowMul m (comp s'.a) N (i + 1) / 2) := by
      have : rowMul m (comp s'.v) N (i + 1) = rowMul m (fun j => 1 * comp s.v j + dt / 2 * comp s'.a j) N (i + 1) := by
        apply rowMul_congr
        intro j j1 j2
        have := (step_half h j1 (by omega)).1
        rw [(hrest j).2] at this
        linear_combination this
      rw [this, rowMul_lin]
      ring
    have g4 : rowMul c (meanV s s') N (i + 1) = rowMul c (comp s'.v) N (i + 1) / 2 := by
      have : rowMul c (meanV s s') N (i + 1) = rowMul c (fun j => 1 / 2 * comp s'.v j + 0 * comp s'.v j) N (i + 1) := by
        apply rowMul_congr
        intro j _ _
        unfold meanV
        rw [(hrest j).1]
        ring
      rw [this, rowMul_lin]
      ring
    have g5 : comp s'.S.vecU (i + 1) - comp s.S.vecU (i + 1) = dt * meanV s s' (i + 1) := g2
    rw [g3, g4, g5, g2, (hrest _).1]
    by_cases hc : i + 1 ≤ S1.nConstr
    · have v1 := (h.constrained (i + 1) (by omega) hc).2.1
      have : meanV s s' (i + 1) = 0 := by unfold meanV; rw [(hrest _).1, v1]; ring
      rw [this, v1]
      ring
    · have m1 := motion_half h hnt (i := i + 1) (by omega) (by omega)
      rw [← hN] at m1
      have w : comp s'.v (i + 1) = 2 * meanV s s' (i + 1) := by unfold meanV; rw [(hrest _).1]; ring
      rw [w]
      linear_combination (dt * meanV s s' (i + 1)) * m1
  unfold energy
  linear_combination (1 / 2 : K) * key

end

/-! ## Runs -/

section
variable {E : Type} {S0 : Storage K} {calls : List RegCall} {new : List (Mpc K)} {loads fixs : List (Bc K)} {el : Elems E K} {eqs : EqSolver K}

/-- The balance of a step. -/
def Balanced {E : Type} (S1 : Storage K) (k c m : Nat → Nat → K) (f : Nat → K) (dt : K) (s s' : TState E K) : Prop :=
  energy (S1.nDofs + S1.nMpc) k m s' + dt * form (S1.nDofs + S1.nMpc) c (meanV s s') (meanV s s') =
    energy (S1.nDofs + S1.nMpc) k m s + power (S1.nDofs + S1.nMpc) (force S1 k f s) (moved s s')

theorem chain_balanced {S1 : Storage K} {k c m : Nat → Nat → K} {f : Nat → K} {dt : K} (hk : ∀ i j, k i j = k j i)
    (hm : ∀ i j, m i j = m j i) : ∀ (l : List (TState E K)) (s : TState E K),
    List.IsChain (StepLaw el S1 k c m f (1 / 4) (1 / 2) dt) (s :: l) →
    (∀ t ∈ s :: l, NoTiny (newmark (1 / 4) (1 / 2) dt) S1 t) → List.IsChain (Balanced S1 k c m f dt) l
  | [], _, _, _ => List.isChain_nil
  | [_], _, _, _ => List.isChain_singleton _
  | a :: b :: l, s, h, hnt => by
    obtain ⟨h1, h2⟩ := List.isChain_cons_cons.mp h
    obtain ⟨h3, _⟩ := List.isChain_cons_cons.mp h2
    have ih := chain_balanced hk hm (b :: l) a h2 (fun t ht => hnt t (List.mem_cons_of_mem _ ht))
    exact List.isChain_cons_cons.mpr ⟨C118_step_partial hk hm h1 h3 (hnt s (by simp)) (hnt a (by simp)), ih⟩

theorem chain_forces {S1 : Storage K} {k c m : Nat → Nat → K} {f : Nat → K} {dt alpha delta : K} : ∀ (l : List (TState E K)) (s : TState E K),
    List.IsChain (StepLaw el S1 k c m f alpha delta dt) (s :: l) → ∀ t ∈ s :: l, ∀ i, force S1 k f t i = force S1 k f s i
  | [], _, _, t, ht, i => by simp at ht; rw [ht]
  | a :: l, s, h, t, ht, i => by
    obtain ⟨h1, h2⟩ := List.isChain_cons_cons.mp h
    rcases List.mem_cons.mp ht with rfl | ht
    · rfl
    · rw [chain_forces l a h2 t ht i, force_same h1]

/-- **C118, runs**: the transient solver with its default parameters keeps the balance of energy in all steps after the first; the first step,
which starts without acceleration, loses half the work of the forces that are not in balance. -/
theorem C118_run_partial (h : Problem { S0 with transient := true } calls new loads fixs el) (he : Exact eqs) {st : TSettings K}
    (ha : st.alpha = 1 / 4) (hd : st.delta = 1 / 2) (hn : 0 < st.n) (ht : st.time0 < st.time1) (e : E) {fuel : Nat} (hf : st.n < fuel)
    {seen : List (Nat × K × TState E K)} {last : Nat}
    (hs : transientSolve eqs el loads fixs st calls new S0 e fuel = some (.ok (seen, last))) :
    ∃ (S1 : Storage K) (num : Key → Nat) (start : TState E K),
      { S0 with transient := true }.prepare calls new (fixKeys fixs) = .ok S1 ∧
      (∀ k ∈ regKeys calls, S1.eqNumber k.1 k.2.1 k.2.2 = .ok (num k)) ∧
      Start S1 (regKeys calls) num loads fixs st.initValue e start ∧
      ((∀ s ∈ start :: seen.map (fun p => p.2.2), NoTiny (newmark (1 / 4) (1 / 2) ((st.time1 - st.time0) / st.n)) S1 s) →
        List.IsChain (Balanced S1 (tMat el e S1 num st.initValue 0) (tMat el e S1 num st.initValue 1)
          (tMat el e S1 num st.initValue 2) (tLoad el e S1 st.initValue) ((st.time1 - st.time0) / st.n)) (seen.map (fun p => p.2.2)) ∧
        (∀ s ∈ seen.map (fun p => p.2.2), ∀ i, force S1 (tMat el e S1 num st.initValue 0) (tLoad el e S1 st.initValue) s i =
          force S1 (tMat el e S1 num st.initValue 0) (tLoad el e S1 st.initValue) start i) ∧
        ∀ s1, (seen.map (fun p => p.2.2)).head? = some s1 →
          energy (S1.nDofs + S1.nMpc) (tMat el e S1 num st.initValue 0) (tMat el e S1 num st.initValue 2) s1 +
            (st.time1 - st.time0) / st.n *
              form (S1.nDofs + S1.nMpc) (tMat el e S1 num st.initValue 1) (meanV start s1) (meanV start s1) =
          energy (S1.nDofs + S1.nMpc) (tMat el e S1 num st.initValue 0) (tMat el e S1 num st.initValue 2) start +
            power (S1.nDofs + S1.nMpc) (force S1 (tMat el e S1 num st.initValue 0) (tLoad el e S1 st.initValue) start) (moved start s1) -
            power (S1.nDofs + S1.nMpc) (fun i => force S1 (tMat el e S1 num st.initValue 0) (tLoad el e S1 st.initValue) start i -
              rowMul (tMat el e S1 num st.initValue 0) (comp start.S.vecU) (S1.nDofs + S1.nMpc) i) (moved start s1) / 2) := by
  obtain ⟨S1, num, start, h1, h2, h3, h4⟩ := C25_steps h he (by rw [ha]; norm_num) hn ht e hf hs
  rw [ha, hd] at h4
  refine ⟨S1, num, start, h1, h2, h3, ?_⟩
  intro hnt
  have hk := fun q i j => tMat_symm el e S1 num st.initValue q i j
  refine ⟨chain_balanced (hk 0) (hk 2) _ _ h4 hnt, fun s hs i => chain_forces _ _ h4 s (List.mem_cons_of_mem _ hs) i, ?_⟩
  intro s1 hs1
  cases hl : seen.map (fun p => p.2.2) with
  | nil => rw [hl] at hs1; simp at hs1
  | cons a l =>
    rw [hl] at hs1 h4 hnt
    cases Option.some.inj hs1
    exact C118_first (hk 0) (hk 2) h3.rest (List.isChain_cons_cons.mp h4).1 (hnt start (by simp))

/-- Energy with the potential of the forces, which do not change in a run. -/
def potential {E : Type} (N : Nat) (k m : Nat → Nat → K) (F : Nat → K) (s : TState E K) : K :=
  energy N k m s - power N F (comp s.S.vecU)

theorem balanced_decays {S1 : Storage K} {k c m : Nat → Nat → K} {f F : Nat → K} {dt : K} (hdt : 0 ≤ dt)
    (hc : ∀ x, 0 ≤ form (S1.nDofs + S1.nMpc) c x x) {l : List (TState E K)} (hf : ∀ s ∈ l, ∀ i, force S1 k f s i = F i)
    (h : List.IsChain (Balanced S1 k c m f dt) l) :
    List.Pairwise (fun s s' => potential (S1.nDofs + S1.nMpc) k m F s' ≤ potential (S1.nDofs + S1.nMpc) k m F s) l := by
  have : List.IsChain (fun s s' : TState E K =>
      potential (S1.nDofs + S1.nMpc) k m F s' ≤ potential (S1.nDofs + S1.nMpc) k m F s) l := by
    induction l with
    | nil => exact List.isChain_nil
    | cons a l ih =>
      cases l with
      | nil => exact List.isChain_singleton _
      | cons b l =>
        obtain ⟨h1, h2⟩ := List.isChain_cons_cons.mp h
        refine List.isChain_cons_cons.mpr ⟨?_, ih (fun s hs => hf s (List.mem_cons_of_mem _ hs)) h2⟩
        have hz : power (S1.nDofs + S1.nMpc) (force S1 k f a) (moved a b) =
            power (S1.nDofs + S1.nMpc) F (comp b.S.vecU) - power (S1.nDofs + S1.nMpc) F (comp a.S.vecU) := by
          unfold power moved
          rw [← Finset.sum_sub_distrib]
          apply Finset.sum_congr rfl
          intro i _
          rw [hf a (by simp)]
          ring
        unfold Balanced at h1
        have := mul_nonneg hdt (hc (meanV a b))
        unfold potential
        linarith
  have ht : IsTrans (TState E K) (fun s s' => potential (S1.nDofs + S1.nMpc) k m F s' ≤ potential (S1.nDofs + S1.nMpc) k m F s) :=
    ⟨fun a b c h1 h2 => le_trans h2 h1⟩
  exact List.isChain_iff_pairwise.mp this

/-- **C118, stability**: with a damping matrix that does not feed energy in, the energy with the potential of the forces never grows from the
first computed state on, however long the steps are. Without forces it is the energy itself that never grows. -/
theorem C118_decay (h : Problem { S0 with transient := true } calls new loads fixs el) (he : Exact eqs) {st : TSettings K}
    (ha : st.alpha = 1 / 4) (hd : st.delta = 1 / 2) (hn : 0 < st.n) (ht : st.time0 < st.time1) (e : E) {fuel : Nat} (hf : st.n < fuel)
    {seen : List (Nat × K × TState E K)} {last : Nat}
    (hs : transientSolve eqs el loads fixs st calls new S0 e fuel = some (.ok (seen, last))) :
    ∃ (S1 : Storage K) (num : Key → Nat) (start : TState E K),
      { S0 with transient := true }.prepare calls new (fixKeys fixs) = .ok S1 ∧
      (∀ k ∈ regKeys calls, S1.eqNumber k.1 k.2.1 k.2.2 = .ok (num k)) ∧
      Start S1 (regKeys calls) num loads fixs st.initValue e start ∧
      ((∀ s ∈ start :: seen.map (fun p => p.2.2), NoTiny (newmark (1 / 4) (1 / 2) ((st.time1 - st.time0) / st.n)) S1 s) →
        (∀ x, 0 ≤ form (S1.nDofs + S1.nMpc) (tMat el e S1 num st.initValue 1) x x) →
        List.Pairwise (fun s s' =>
          potential (S1.nDofs + S1.nMpc) (tMat el e S1 num st.initValue 0) (tMat el e S1 num st.initValue 2)
            (force S1 (tMat el e S1 num st.initValue 0) (tLoad el e S1 st.initValue) start) s' ≤
          potential (S1.nDofs + S1.nMpc) (tMat el e S1 num st.initValue 0) (tMat el e S1 num st.initValue 2)
            (force S1 (tMat el e S1 num st.initValue 0) (tLoad el e S1 st.initValue) start) s) (seen.map (fun p => p.2.2)) ∧
        ((∀ i, 0 < i → i ≤ S1.nDofs + S1.nMpc → force S1 (tMat el e S1 num st.initValue 0) (tLoad el e S1 st.initValue) start i = 0) →
          List.Pairwise (fun s s' => energy (S1.nDofs + S1.nMpc) (tMat el e S1 num st.initValue 0) (tMat el e S1 num st.initValue 2) s' ≤
            energy (S1.nDofs + S1.nMpc) (tMat el e S1 num st.initValue 0) (tMat el e S1 num st.initValue 2) s)
            (seen.map (fun p => p.2.2)))) := by
  obtain ⟨S1, num, start, h1, h2, h3, h4⟩ := C118_run_partial h he ha hd hn ht e hf hs
  refine ⟨S1, num, start, h1, h2, h3, ?_⟩
  intro hnt hc
  obtain ⟨g1, g2, _⟩ := h4 hnt
  have hdt : 0 ≤ (st.time1 - st.time0) / st.n := by
    apply div_nonneg (by linarith)
    exact Nat.cast_nonneg _
  have key := balanced_decays hdt hc g2 g1
  refine ⟨key, fun hz => key.imp ?_⟩
  intro s s' hle
  have hp : ∀ t : TState E K, power (S1.nDofs + S1.nMpc)
      (force S1 (tMat el e S1 num st.initValue 0) (tLoad el e S1 st.initValue) start) (comp t.S.vecU) = 0 := by
    intro t
    unfold power
    apply Finset.sum_eq_zero
    intro i hi
    rw [Finset.mem_range] at hi
    rw [hz _ (by omega) (by omega), zero_mul]
  unfold potential at hle
  rw [hp, hp] at hle
  linarith

end

/-! ## A mass on a spring -/

/-- The spring with a mass 1 at its second node. -/
def massSpring : Elems Unit ℚ where
  build := spring.build
  upd := spring.upd
  cm _ S := match S.eqNumber .node 2 .UX with
    | .ok j => [.mat .M j j 1]
    | _ => []
  update := spring.update

theorem mass_problem (loads : List (Bc ℚ)) (hl : ∀ l ∈ loads, keyOf l ∈ regKeys barCalls) (x : ℚ) :
    Problem (barOf true) barCalls [] loads [⟨1, .UX, x⟩] massSpring := by
  have hb := bar_problem (t := true) loads hl x
  refine ⟨hb.legal, hl, ?_⟩
  intro S1 num hp hn e S hS
  obtain ⟨g1, _, g3⟩ := hb.elems S1 num hp hn e S hS
  refine ⟨g1, ?_, g3⟩
  obtain ⟨A, hpr⟩ := prepared hb.legal hp
  have hel : S1.elements = [[1, 2]] := hpr.ready.mesh.elements
  have n2 := hn (.node, 2, .UX) (by decide)
  simp only at n2
  have at2 : Attached S1.elements 1 (.node, 2, .UX) := by rw [hel]; simp [Attached, elNodes]
  have hcm : massSpring.cm e S = [.mat .M (num (.node, 2, .UX)) (num (.node, 2, .UX)) 1] := by
    simp only [massSpring, hS.eqNumber, n2]
  rw [hcm]
  intro c hc
  simp only [List.mem_cons, List.not_mem_nil, or_false] at hc
  subst hc
  exact ⟨Or.inr hpr.ready.mesh.transient, 1, _, _, by decide, by decide, at2, at2, rfl, rfl⟩

theorem mass_tMat {x y : ℚ} {S1 : Storage ℚ} {num : Key → Nat}
    (hp : (barOf true).prepare barCalls [] (fixKeys [(⟨1, .UX, x⟩ : Bc ℚ)]) = .ok S1)
    (hn : ∀ k ∈ regKeys barCalls, S1.eqNumber k.1 k.2.1 k.2.2 = .ok (num k)) :
    (∀ i j, tMat massSpring () S1 num y 0 i j = (if Same i j 1 1 then 1 else 0) + ((if Same i j 1 2 then -1 else 0) +
      (if Same i j 2 2 then 1 else 0))) ∧ (∀ i j, tMat massSpring () S1 num y 1 i j = 0) ∧
    (∀ i j, tMat massSpring () S1 num y 2 i j = if Same i j 2 2 then 1 else 0) ∧ ∀ i, tLoad massSpring () S1 y i = 0 := by
  obtain ⟨c1, c2, c3, c4, n1, n2, c5, c6, _, _⟩ := bar_prepared hp hn
  have e1 := hn (.node, 1, .UX) (by decide)
  have e2 := hn (.node, 2, .UX) (by decide)
  rw [n1] at e1
  rw [n2] at e2
  simp only at e1 e2
  have hz : Alike S1 (initialStorage S1 y) := rfl
  refine ⟨?_, ?_, ?_, ?_⟩
  · intro i j
    unfold tMat
    simp only [massSpring, spring, hz.eqNumber, e1, e2, c6]
    simp [asmM, matSum, Which.idx]
  · intro i j
    unfold tMat
    simp only [massSpring, spring, hz.eqNumber, e1, e2, c6]
    simp [asmM, matSum, Which.idx]
  · intro i j
    unfold tMat
    simp only [massSpring, spring, hz.eqNumber, e1, e2, c6]
    simp [asmM, matSum, Which.idx]
  · intro i
    unfold tLoad
    simp only [massSpring, spring, hz.eqNumber, e1, e2, c6]
    simp [asmV, mpcLoad, loadSum]

/-- The mass moves: the run of the shipped solver ends. -/
theorem mass_moves (loads : List (Bc ℚ)) (hl : ∀ l ∈ loads, keyOf l ∈ regKeys barCalls) (x : ℚ) {st : TSettings ℚ}
    (ha : st.alpha = 1 / 4) (hd : st.delta = 1 / 2) (hn : 0 < st.n) (ht : st.time0 < st.time1) {fuel : Nat} (hf : st.n < fuel) :
    ∃ (seen : List (Nat × ℚ × TState Unit ℚ)), transientSolve Gauss.solveEquations massSpring loads [⟨1, .UX, x⟩] st barCalls []
        (barOf true) () fuel = some (.ok (seen, u16 (st.n + 1))) ∧ seen.length = st.n := by
  have hprob := mass_problem loads hl x
  rcases transient_run (S0 := barOf true) hprob gauss_exact (by rw [ha]; norm_num) hn ht () hf with
    ⟨_, hfat | ⟨S1, num, hp, hnum, hst⟩⟩ | ⟨S1, num, start, seen, h1, h2, h3, h4, _, h6, h7, _⟩
  · exfalso
    obtain ⟨S1, num, h1, _⟩ := prepare_small hprob.legal
      (show [(Side.node, 1, DofType.UX)].toFinset.card < (regKeys barCalls).toFinset.card by decide) (by decide)
    rw [show (barOf true).prepare _ _ _ = _ from hfat] at h1
    simp at h1
  · exfalso
    have hp : (barOf true).prepare barCalls [] (fixKeys [(⟨1, .UX, x⟩ : Bc ℚ)]) = .ok S1 := hp
    obtain ⟨c1, c2, c3, c4, _⟩ := bar_prepared hp hnum
    obtain ⟨m0, m1, m2, _⟩ := mass_tMat (y := st.initValue) hp hnum
    rw [c2, c4] at hst
    rcases gauss_stops hst with h | ⟨i, a', hi, hr, hq⟩
    · omega
    · have : i = 0 := by omega
      subst this
      cases hr
      have hq := hq 0 (le_refl 0) (by omega)
      beta_reduce at hq
      unfold kmodEntry at hq
      rw [m0, m1, m2, c1] at hq
      have hdt : 0 < (st.time1 - st.time0) / (st.n : ℚ) := div_pos (by linarith) (by exact_mod_cast hn)
      have ha0 : 0 < (newmark st.alpha st.delta ((st.time1 - st.time0) / (st.n : ℚ))).a0 := by
        rw [ha]
        simp only [newmark]
        positivity
      generalize (newmark st.alpha st.delta ((st.time1 - st.time0) / (st.n : ℚ))).a0 = a0 at hq ha0
      simp [Same, Gauss.eps] at hq
      rw [abs_of_pos (by linarith)] at hq
      norm_num at hq
      linarith
  · exact ⟨seen, h3, h4⟩

/-- **C118 is violated by the first step**: a mass on a spring, loaded by a force 1. After one step of length 2 the force has done the work
1/2, yet the energy, which was 0, is 1/4. -/
theorem C118_first_violated : ∃ (S1 : Storage ℚ) (num : Key → Nat) (start : TState Unit ℚ) (seen : List (Nat × ℚ × TState Unit ℚ))
    (s' : TState Unit ℚ),
    Problem (barOf true) barCalls [] [⟨2, .UX, 1⟩] [⟨1, .UX, 0⟩] massSpring ∧
    (barOf true).prepare barCalls [] (fixKeys [(⟨1, .UX, 0⟩ : Bc ℚ)]) = .ok S1 ∧
    (∀ k ∈ regKeys barCalls, S1.eqNumber k.1 k.2.1 k.2.2 = .ok (num k)) ∧
    transientSolve Gauss.solveEquations massSpring [⟨2, .UX, 1⟩] [⟨1, .UX, 0⟩] ⟨1, 1 / 4, 1 / 2, 0, 2, 0⟩ barCalls [] (barOf true) () 2 =
      some (.ok (seen, 2)) ∧ Start S1 (regKeys barCalls) num [⟨2, .UX, 1⟩] [⟨1, .UX, 0⟩] 0 () start ∧
    seen.map (fun p => p.2.2) = [s'] ∧ (∀ i j, tMat massSpring () S1 num 0 1 i j = 0) ∧
    power (S1.nDofs + S1.nMpc) (force S1 (tMat massSpring () S1 num 0 0) (tLoad massSpring () S1 0) start) (moved start s') = 1 / 2 ∧
    energy (S1.nDofs + S1.nMpc) (tMat massSpring () S1 num 0 0) (tMat massSpring () S1 num 0 2) start = 0 ∧
    energy (S1.nDofs + S1.nMpc) (tMat massSpring () S1 num 0 0) (tMat massSpring () S1 num 0 2) s' = 1 / 4 := by
  have hprob := mass_problem [⟨2, .UX, 1⟩] (by decide) 0
  obtain ⟨seen, hs, hlen⟩ := mass_moves [⟨2, .UX, 1⟩] (by decide) 0 (st := ⟨1, 1 / 4, 1 / 2, 0, 2, 0⟩)
    rfl rfl (by norm_num) (by norm_num) (fuel := 2) (by norm_num)
  obtain ⟨S1, num, start, h1, h2, h5, h6⟩ := C25_steps (S0 := barOf true) hprob gauss_exact (by norm_num) (by norm_num) (by norm_num) ()
    (by norm_num) hs
  have h1 : (barOf true).prepare barCalls [] (fixKeys [(⟨1, .UX, 0⟩ : Bc ℚ)]) = .ok S1 := h1
  obtain ⟨c1, c2, c3, c4, n1, n2, _⟩ := bar_prepared h1 h2
  obtain ⟨m0, m1, m2, m3⟩ := mass_tMat (y := 0) h1 h2
  obtain ⟨p, rfl⟩ := List.length_eq_one_iff.mp hlen
  refine ⟨S1, num, start, [p], p.2.2, hprob, h1, h2, hs, h5, rfl, m1, ?_⟩
  have hlaw := (List.isChain_cons_cons.mp h6).1
  have hdt : ((2 : ℚ) - 0) / (1 : Nat) = 2 := by norm_num
  rw [hdt] at hlaw
  have hu1 : comp start.S.vecU 1 = 0 := by
    have := h5.prescribed (.node, 1, .UX) (by decide) 0 rfl
    rwa [n1] at this
  have hu2 : comp start.S.vecU 2 = 0 := h5.initial 2 (by omega) (by omega)
  have hnt : NoTiny (newmark (1 / 4 : ℚ) (1 / 2) 2) S1 start := by
    intro i i1 i2
    have : i = 2 := by omega
    subst this
    rw [hu2, (h5.rest 2).1, (h5.rest 2).2]
    simp [kept]
  have k2 := hlaw.motion hnt 2 (by omega) (by omega)
  have hR : comp start.S.vecR 2 = 1 := by
    have := h5.loads (.node, 2, .UX) (by decide)
    rw [n2] at this
    rw [this]
    simp [loadsOn, keyOf]
  obtain ⟨q1, q2, q3⟩ := hlaw.constrained 1 (by omega) (by omega)
  rw [hu1] at q1
  have hd := hlaw.displ 2 (by omega) (by omega)
  have hv := hlaw.veloc 2 (by omega) (by omega)
  simp only [rowMul, m1, m3, zero_mul, Finset.sum_const_zero, zero_add, hR] at k2
  rw [c1, c3, c4] at k2
  simp only [Finset.sum_range_succ, Finset.sum_range_zero, m0, m2, hu1, q1, q3] at k2
  simp [Same] at k2
  unfold NewmarkU at hd
  rw [hu2, (h5.rest 2).1, (h5.rest 2).2] at hd
  have hu : comp p.2.2.S.vecU 2 = 1 / 2 := by linarith
  have ha : comp p.2.2.a 2 = 1 / 2 := by linarith
  rw [ha, (h5.rest 2).1, (h5.rest 2).2] at hv
  have hv : comp p.2.2.v 2 = 1 / 2 := by rw [hv]; norm_num
  have r1 := (h5.rest 1).1
  have r2 := (h5.rest 2).1
  rw [c3, c4]
  refine ⟨?_, ?_, ?_⟩
  · simp only [power, moved, force, rowMul, Finset.sum_range_succ, Finset.sum_range_zero, m0, m3, c1, hu1, hu2, q1, hu, hR]
    norm_num
  · simp only [energy, form, Finset.sum_range_succ, Finset.sum_range_zero, m0, m2, hu1, hu2, r1, r2]
    norm_num
  · simp only [energy, form, Finset.sum_range_succ, Finset.sum_range_zero, m0, m2, q1, q2, hu, hv]
    norm_num [Same]

/-- The stability theorem applies to the mass released from displacement 1, for any number of steps; there are no forces and no damping. -/
example (n : Nat) (hn : 0 < n) : ∃ (seen : List (Nat × ℚ × TState Unit ℚ)) (S1 : Storage ℚ) (num : Key → Nat) (start : TState Unit ℚ),
    transientSolve Gauss.solveEquations massSpring [] [⟨1, .UX, 0⟩] ⟨n, 1 / 4, 1 / 2, 0, 2, 1⟩ barCalls [] (barOf true) () (n + 1) =
      some (.ok (seen, u16 (n + 1))) ∧ seen.length = n ∧ Start S1 (regKeys barCalls) num [] [⟨1, .UX, 0⟩] 1 () start ∧
    (∀ x, 0 ≤ form (S1.nDofs + S1.nMpc) (tMat massSpring () S1 num 1 1) x x) ∧
    ∀ i, 0 < i → i ≤ S1.nDofs + S1.nMpc → force S1 (tMat massSpring () S1 num 1 0) (tLoad massSpring () S1 1) start i = 0 := by
  have hprob := mass_problem [] (by simp) 0
  obtain ⟨seen, hs, hlen⟩ := mass_moves [] (by simp) 0 (st := ⟨n, 1 / 4, 1 / 2, 0, 2, 1⟩) rfl rfl hn (by norm_num) (fuel := n + 1)
    (by simp)
  obtain ⟨S1, num, start, h1, h2, h5, h6⟩ := C25_steps (S0 := barOf true) hprob gauss_exact (by norm_num) hn (by norm_num) ()
    (Nat.lt_succ_self n) hs
  have h1 : (barOf true).prepare barCalls [] (fixKeys [(⟨1, .UX, 0⟩ : Bc ℚ)]) = .ok S1 := h1
  obtain ⟨c1, c2, c3, c4, n1, n2, _⟩ := bar_prepared h1 h2
  obtain ⟨m0, m1, m2, m3⟩ := mass_tMat (y := 1) h1 h2
  refine ⟨seen, S1, num, start, hs, hlen, h5, ?_, ?_⟩
  · intro x
    unfold form
    simp [m1]
  · intro i i1 i2
    have hu1 : comp start.S.vecU 1 = 0 := by
      have := h5.prescribed (.node, 1, .UX) (by decide) 0 rfl
      rwa [n1] at this
    have R1 := h5.loads (.node, 1, .UX) (by decide)
    have R2 := h5.loads (.node, 2, .UX) (by decide)
    rw [n1] at R1
    rw [n2] at R2
    simp only [force, rowMul, m3, c1, Finset.sum_range_succ, Finset.sum_range_zero, hu1]
    rcases (show i = 1 ∨ i = 2 by omega) with rfl | rfl
    · rw [R1]; simp [loadsOn]
    · rw [R2]; simp [loadsOn]

/-- A step of the mass of length 2: displacement, velocity and acceleration. -/
theorem mass_step {S1 : Storage ℚ} {num : Key → Nat} {y : ℚ}
    (h1 : (barOf true).prepare barCalls [] (fixKeys [(⟨1, .UX, 0⟩ : Bc ℚ)]) = .ok S1)
    (h2 : ∀ k ∈ regKeys barCalls, S1.eqNumber k.1 k.2.1 k.2.2 = .ok (num k)) {s s' : TState Unit ℚ}
    (hlaw : StepLaw massSpring S1 (tMat massSpring () S1 num y 0) (tMat massSpring () S1 num y 1) (tMat massSpring () S1 num y 2)
      (tLoad massSpring () S1 y) (1 / 4) (1 / 2) 2 s s') {u v a : ℚ} (hu1 : comp s.S.vecU 1 = 0) (hu : comp s.S.vecU 2 = u)
    (hv : comp s.v 2 = v) (ha : comp s.a 2 = a) (hR : comp s.S.vecR 2 = 0)
    (hk : kept (u + 2 * v + a) = u + 2 * v + a ∧ kept (u + v) = u + v) :
    NoTiny (newmark (1 / 4 : ℚ) (1 / 2) 2) S1 s ∧ comp s'.S.vecU 1 = 0 ∧ comp s'.S.vecR 2 = 0 ∧
    comp s'.S.vecU 2 = (u + 2 * v + a) / 2 ∧ comp s'.a 2 = - (u + 2 * v + a) / 2 ∧ comp s'.v 2 = v + a - (u + 2 * v + a) / 2 := by
  obtain ⟨c1, c2, c3, c4, n1, n2, _⟩ := bar_prepared h1 h2
  obtain ⟨m0, m1, m2, m3⟩ := mass_tMat (y := y) h1 h2
  have hnt : NoTiny (newmark (1 / 4 : ℚ) (1 / 2) 2) S1 s := by
    intro i i1 i2
    have : i = 2 := by omega
    subst this
    rw [hu, hv, ha]
    have e1 : (newmark (1 / 4 : ℚ) (1 / 2) 2).a0 * u + (newmark (1 / 4 : ℚ) (1 / 2) 2).a2 * v + (newmark (1 / 4 : ℚ) (1 / 2) 2).a3 * a =
        u + 2 * v + a := by simp only [newmark]; ring
    have e2 : (newmark (1 / 4 : ℚ) (1 / 2) 2).a1 * u + (newmark (1 / 4 : ℚ) (1 / 2) 2).a4 * v + (newmark (1 / 4 : ℚ) (1 / 2) 2).a5 * a =
        u + v := by simp only [newmark]; ring
    rw [e1, e2]
    exact hk
  have k2 := hlaw.motion hnt 2 (by omega) (by omega)
  obtain ⟨q1, q2, q3⟩ := hlaw.constrained 1 (by omega) (by omega)
  rw [hu1] at q1
  have hd := hlaw.displ 2 (by omega) (by omega)
  have hv' := hlaw.veloc 2 (by omega) (by omega)
  simp only [rowMul, m1, m3, zero_mul, Finset.sum_const_zero, zero_add, hR] at k2
  rw [c1, c3, c4] at k2
  simp only [Finset.sum_range_succ, Finset.sum_range_zero, m0, m2, hu1, q1, q3] at k2
  simp [Same] at k2
  unfold NewmarkU at hd
  rw [hu, hv, ha] at hd
  rw [hv, ha] at hv'
  have r : comp s'.S.vecU 2 = (u + 2 * v + a) / 2 := by linarith
  have ra : comp s'.a 2 = - (u + 2 * v + a) / 2 := by linarith
  refine ⟨hnt, q1, ?_, r, ra, ?_⟩
  · rw [hlaw.storage]; exact hR
  · rw [hv', ra]; ring

/-- All hypotheses of the stability theorem hold for two steps of length 2 of the mass released from displacement 1: no component is tiny. -/
example : ∃ (seen : List (Nat × ℚ × TState Unit ℚ)) (S1 : Storage ℚ) (num : Key → Nat) (start : TState Unit ℚ),
    transientSolve Gauss.solveEquations massSpring [] [⟨1, .UX, 0⟩] ⟨2, 1 / 4, 1 / 2, 0, 4, 1⟩ barCalls [] (barOf true) () 3 =
      some (.ok (seen, 3)) ∧ (barOf true).prepare barCalls [] (fixKeys [(⟨1, .UX, 0⟩ : Bc ℚ)]) = .ok S1 ∧ seen.length = 2 ∧
    Start S1 (regKeys barCalls) num [] [⟨1, .UX, 0⟩] 1 () start ∧
    ∀ s ∈ start :: seen.map (fun p => p.2.2), NoTiny (newmark (1 / 4) (1 / 2) 2) S1 s := by
  have hprob := mass_problem [] (by simp) 0
  obtain ⟨seen, hs, hlen⟩ := mass_moves [] (by simp) 0 (st := ⟨2, 1 / 4, 1 / 2, 0, 4, 1⟩) rfl rfl (by norm_num) (by norm_num) (fuel := 3)
    (by norm_num)
  obtain ⟨S1, num, start, h1, h2, h5, h6⟩ := C25_steps (S0 := barOf true) hprob gauss_exact (by norm_num) (by norm_num) (by norm_num) ()
    (by norm_num) hs
  have h1 : (barOf true).prepare barCalls [] (fixKeys [(⟨1, .UX, 0⟩ : Bc ℚ)]) = .ok S1 := h1
  obtain ⟨c1, c2, c3, c4, n1, n2, _⟩ := bar_prepared h1 h2
  obtain ⟨p, q, rfl⟩ := List.length_eq_two.mp hlen
  obtain ⟨l1, h6⟩ := List.isChain_cons_cons.mp h6
  obtain ⟨l2, _⟩ := List.isChain_cons_cons.mp h6
  have hdt : ((4 : ℚ) - 0) / (2 : Nat) = 2 := by norm_num
  rw [hdt] at l1 l2
  have hu1 : comp start.S.vecU 1 = 0 := by
    have := h5.prescribed (.node, 1, .UX) (by decide) 0 rfl
    rwa [n1] at this
  have hR : comp start.S.vecR 2 = 0 := by
    have := h5.loads (.node, 2, .UX) (by decide)
    rw [n2] at this
    rw [this]
    rfl
  obtain ⟨t1, u1, r1, d1, a1, v1⟩ := mass_step h1 h2 l1 hu1 (h5.initial 2 (by omega) (by omega)) (h5.rest 2).1 (h5.rest 2).2 hR
    (by norm_num [kept])
  obtain ⟨t2, u2, r2, d2, a2, v2⟩ := mass_step h1 h2 l2 u1 d1 v1 a1 r1 (by norm_num [kept])
  refine ⟨_, S1, num, start, hs, h1, rfl, h5, ?_⟩
  intro s hs
  simp only [List.map_cons, List.map_nil, List.mem_cons, List.not_mem_nil, or_false] at hs
  rcases hs with rfl | rfl | rfl
  · exact t1
  · exact t2
  · intro i i1 i2
    have : i = 2 := by omega
    subst this
    rw [d2, v2, a2]
    norm_num [kept, newmark]

end Nla3d.Solver
