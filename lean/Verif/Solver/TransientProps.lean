import Verif.Solver.Transient
import Verif.Solver.LinearProps
import Mathlib.Tactic.FieldSimp
import Mathlib.Tactic.Positivity

/-!
# C25, C26: the transient solver
-/

set_option linter.unusedSectionVars false

namespace Nla3d.Solver

open Nla3d.Dof Nla3d.Block Nla3d.Sparse Nla3d.Storage Nla3d.TimeCtl Finset

variable {K : Type} [Field K] [LinearOrder K]

/-! ## Specification -/

/-- The storage before the assembly: all DoF values are the initial value, no external load. -/
def initialStorage (S1 : Storage K) (x : K) : Storage K :=
  withUR S1 (List.replicate (S1.nDofs + S1.nMpc) x) (List.replicate (S1.nDofs + S1.nMpc) 0)

/-- Matrix `q` (0 stiffness, 1 damping, 2 mass) made of the contributions of elements and MPCs. -/
def tMat {E : Type} (el : Elems E K) (e : E) (S1 : Storage K) (num : Key → Nat) (x : K) (q i j : Nat) : K :=
  asmM true num (el.build e (initialStorage S1 x)) (el.upd e (initialStorage S1 x) S1.mpcs)
    (el.cm e (initialStorage S1 x)) q i j

/-- The load vector made of the contributions of elements and MPCs. -/
def tLoad {E : Type} (el : Elems E K) (e : E) (S1 : Storage K) (x : K) (i : Nat) : K :=
  asmV true (el.build e (initialStorage S1 x)) (el.upd e (initialStorage S1 x) S1.mpcs) (el.cm e (initialStorage S1 x)) i

/-- Newmark's relation between displacements, velocities and accelerations at the ends of a step. -/
def NewmarkU (alpha dt u v a u' a' : K) : Prop := u' = u + dt * v + dt * dt * ((1 / 2 - alpha) * a + alpha * a')

/-- Newmark's velocity at the end of a step. -/
def newmarkV (delta dt v a a' : K) : K := v + dt * ((1 - delta) * a + delta * a')

/-- No component of the vectors multiplied with mass and damping is in the range that the sparse product drops. -/
def NoTiny {E : Type} (nm : Newmark K) (S1 : Storage K) (s : TState E K) : Prop :=
  ∀ i, S1.nConstr < i → i ≤ S1.nDofs + S1.nMpc →
    kept (nm.a0 * comp s.S.vecU i + nm.a2 * comp s.v i + nm.a3 * comp s.a i) =
      nm.a0 * comp s.S.vecU i + nm.a2 * comp s.v i + nm.a3 * comp s.a i ∧
    kept (nm.a1 * comp s.S.vecU i + nm.a4 * comp s.v i + nm.a5 * comp s.a i) =
      nm.a1 * comp s.S.vecU i + nm.a4 * comp s.v i + nm.a5 * comp s.a i

/-- The state before the first time step: prescribed values, elsewhere the initial value; at rest; the loads. -/
structure Start {E : Type} (S1 : Storage K) (regs : List Key) (num : Key → Nat) (loads fixs : List (Bc K)) (x : K) (e : E)
    (s : TState E K) : Prop where
  alike : Alike S1 s.S
  elems : s.e = e
  prescribed : ∀ k ∈ regs, ∀ y, lastFix k fixs = some y → comp s.S.vecU (num k) = y
  initial : ∀ i, S1.nConstr < i → i ≤ S1.nDofs + S1.nMpc → comp s.S.vecU i = x
  rest : ∀ i, comp s.v i = 0 ∧ comp s.a i = 0
  loads : ∀ k ∈ regs, comp s.S.vecR (num k) = loadsOn k loads
  noLoad : ∀ i, S1.nDofs < i → i ≤ S1.nDofs + S1.nMpc → comp s.S.vecR i = 0

/-- What a time step of the code does. `k`, `c`, `m`, `f` are stiffness, damping, mass and load vector. -/
structure StepLaw {E : Type} (el : Elems E K) (S1 : Storage K) (k c m : Nat → Nat → K) (f : Nat → K) (alpha delta dt : K)
    (s s' : TState E K) : Prop where
  results : s'.e = el.update s.e s'.S
  storage : s'.S = withUR s.S s'.S.vecU s.S.vecR
  constrained : ∀ i, 0 < i → i ≤ S1.nConstr → comp s'.S.vecU i = comp s.S.vecU i ∧ comp s'.v i = 0 ∧ comp s'.a i = 0
  displ : ∀ i, 0 < i → i ≤ S1.nDofs + S1.nMpc →
    NewmarkU alpha dt (comp s.S.vecU i) (comp s.v i) (comp s.a i) (comp s'.S.vecU i) (comp s'.a i)
  veloc : ∀ i, 0 < i → i ≤ S1.nDofs + S1.nMpc →
    comp s'.v i = comp s.v i + dt * (delta * comp s.a i + (1 - delta) * comp s'.a i)
  motion : NoTiny (newmark alpha delta dt) S1 s → ∀ i, S1.nConstr < i → i ≤ S1.nDofs + S1.nMpc →
    rowMul m (comp s'.a) (S1.nDofs + S1.nMpc) i +
    rowMul c (fun j => newmarkV delta dt (comp s.v j) (comp s.a j) (comp s'.a j)) (S1.nDofs + S1.nMpc) i +
    rowMul k (comp s'.S.vecU) (S1.nDofs + S1.nMpc) i =
      f i + comp s.S.vecR i + rowMul k (comp s.S.vecU) S1.nConstr i

/-! ## The run -/

section
variable [IsStrictOrderedRing K] {E : Type} {S0 S1 : Storage K} {calls : List RegCall} {new : List (Mpc K)} {loads fixs : List (Bc K)}
    {num' : Key → Nat} {A : Side → Spec} {el : Elems E K} {eqs : EqSolver K}

/-- Constrained DoFs are at rest. -/
def AtRest (S1 : Storage K) (A : Side → Spec) (M : Nat → Nat → Nat → K) (v r : Nat → K) (s : TState E K) : Prop :=
  ∃ u w z, TRun S1 A M v u r w z s ∧ ∀ i < S1.nConstr, w i = 0 ∧ z i = 0

theorem sum_split_nc {nc n : Nat} (g : Nat → K) : ∑ j ∈ range (nc + n), g j = ∑ j ∈ range nc, g j + ∑ j ∈ range n, g (nc + j) :=
  Finset.sum_range_add ..

theorem step_law (he : Exact eqs) (hp : Pre S1 A) (ht : S1.transient = true) {alpha delta dt : K} (ha : alpha ≠ 0) (hdt : dt ≠ 0)
    {Km : SpMat K} {rows : List (List Nat)} {M : Nat → Nat → Nat → K} {v r : Nat → K} {s : TState E K}
    (h : AtRest S1 A M v r s) (hKm : SymBlk Km (S1.nUnknown + S1.nMpc) rows (kmodEntry (newmark alpha delta dt) M S1.nConstr)) :
    (timeStep eqs el (newmark alpha delta dt) Km s = .fatal ∧ Stops eqs (S1.nUnknown + S1.nMpc)
      (fun i j => kmodEntry (newmark alpha delta dt) M S1.nConstr (i + 1) (j + 1))) ∨
    ∃ s', timeStep eqs el (newmark alpha delta dt) Km s = .ok s' ∧ AtRest S1 A M v r s' ∧
      StepLaw el S1 (M 0) (M 1) (M 2) v alpha delta dt s s' ∧ Succeeds eqs (S1.nUnknown + S1.nMpc)
        (fun i j => kmodEntry (newmark alpha delta dt) M S1.nConstr (i + 1) (j + 1)) := by
  obtain ⟨u, w, z, hT, hrest⟩ := h
  have hd := hp.dofs
  rcases timeStep_ok (el := el) he hp ht hT hKm with hf | ⟨s', u', w', z', g1, g2, g3, g4, g5, g6, g7, hsuc, g8⟩
  · exact Or.inl hf
  right
  have hrest' : ∀ i < S1.nConstr, w' i = 0 ∧ z' i = 0 := by
    intro i hi
    have hz : z' i = 0 := by
      rw [g6, g5 i hi, (hrest i hi).1, (hrest i hi).2]; ring
    exact ⟨by rw [g7, hz, (hrest i hi).1, (hrest i hi).2]; ring, hz⟩
  have U : ∀ i, 0 < i → i ≤ S1.nDofs + S1.nMpc → comp s.S.vecU i = u (i - 1) := fun i h1 h2 => hT.run.U.2 _ (by omega)
  have V : ∀ i, 0 < i → i ≤ S1.nDofs + S1.nMpc → comp s.v i = w (i - 1) := fun i h1 h2 => hT.V.2 _ (by omega)
  have AA : ∀ i, 0 < i → i ≤ S1.nDofs + S1.nMpc → comp s.a i = z (i - 1) := fun i h1 h2 => hT.A.2 _ (by omega)
  have U' : ∀ i, 0 < i → i ≤ S1.nDofs + S1.nMpc → comp s'.S.vecU i = u' (i - 1) := fun i h1 h2 => g2.run.U.2 _ (by omega)
  have V' : ∀ i, 0 < i → i ≤ S1.nDofs + S1.nMpc → comp s'.v i = w' (i - 1) := fun i h1 h2 => g2.V.2 _ (by omega)
  have A' : ∀ i, 0 < i → i ≤ S1.nDofs + S1.nMpc → comp s'.a i = z' (i - 1) := fun i h1 h2 => g2.A.2 _ (by omega)
  have hR : ∀ i, 0 < i → i ≤ S1.nDofs + S1.nMpc → comp s.S.vecR i = r (i - 1) := fun i h1 h2 => hT.run.R.2 _ (by omega)
  refine ⟨s', g1, ⟨u', w', z', g2, hrest'⟩, ⟨g4, g3, ?_, ?_, ?_, ?_⟩, hsuc⟩
  · intro i h1 h2
    rw [U i h1 (by omega), U' i h1 (by omega), V' i h1 (by omega), A' i h1 (by omega)]
    exact ⟨g5 _ (by omega), (hrest' _ (by omega)).1, (hrest' _ (by omega)).2⟩
  · intro i h1 h2
    rw [U i h1 h2, V i h1 h2, AA i h1 h2, U' i h1 h2, A' i h1 h2]
    unfold NewmarkU
    rw [g6]
    simp only [newmark]
    field_simp
    ring
  · intro i h1 h2
    rw [V i h1 h2, AA i h1 h2, V' i h1 h2, A' i h1 h2, g7]
    simp only [newmark]
    ring
  · intro hnt i h1 h2
    have heq := g8 (i - S1.nConstr - 1) (by omega)
    have i1 : S1.nConstr + (i - S1.nConstr - 1) + 1 = i := by omega
    have i2 : S1.nConstr + (i - S1.nConstr - 1) = i - 1 := by omega
    have i3 : S1.nConstr + (i - S1.nConstr - 1 + 1) = i := by omega
    rw [i1, i2, i3] at heq
    have hsplit : ∀ g : Nat → Nat → K, ∀ x : Nat → K, rowMul g x (S1.nDofs + S1.nMpc) i =
        rowMul g x S1.nConstr i + ∑ j ∈ range (S1.nUnknown + S1.nMpc), g i (S1.nConstr + (j + 1)) * x (S1.nConstr + (j + 1)) := by
      intro g x
      unfold rowMul
      rw [show S1.nDofs + S1.nMpc = S1.nConstr + (S1.nUnknown + S1.nMpc) by omega, sum_split_nc]
      rfl
    rw [hsplit, hsplit, hsplit]
    have z1 : rowMul (M 2) (comp s'.a) S1.nConstr i = 0 := by
      unfold rowMul
      apply Finset.sum_eq_zero
      intro j hj
      rw [Finset.mem_range] at hj
      rw [A' _ (by omega) (by omega), (hrest' _ (by omega)).2, mul_zero]
    have z2 : rowMul (M 1) (fun j => newmarkV delta dt (comp s.v j) (comp s.a j) (comp s'.a j)) S1.nConstr i = 0 := by
      unfold rowMul
      apply Finset.sum_eq_zero
      intro j hj
      rw [Finset.mem_range] at hj
      beta_reduce
      rw [V _ (by omega) (by omega), AA _ (by omega) (by omega), A' _ (by omega) (by omega), (hrest' _ (by omega)).2,
        (hrest _ (by omega)).1, (hrest _ (by omega)).2]
      unfold newmarkV
      ring
    have z3 : rowMul (M 0) (comp s'.S.vecU) S1.nConstr i = rowMul (M 0) (comp s.S.vecU) S1.nConstr i := by
      unfold rowMul
      apply Finset.sum_congr rfl
      intro j hj
      rw [Finset.mem_range] at hj
      rw [U _ (by omega) (by omega), U' _ (by omega) (by omega), g5 _ (by omega)]
    rw [z1, z2, z3, hR i (by omega) h2]
    have key : ∑ j ∈ range (S1.nUnknown + S1.nMpc), M 2 i (S1.nConstr + (j + 1)) * comp s'.a (S1.nConstr + (j + 1)) +
        ∑ j ∈ range (S1.nUnknown + S1.nMpc), M 1 i (S1.nConstr + (j + 1)) *
          newmarkV delta dt (comp s.v (S1.nConstr + (j + 1))) (comp s.a (S1.nConstr + (j + 1))) (comp s'.a (S1.nConstr + (j + 1))) +
        ∑ j ∈ range (S1.nUnknown + S1.nMpc), M 0 i (S1.nConstr + (j + 1)) * comp s'.S.vecU (S1.nConstr + (j + 1)) =
        v i + r (i - 1) := by
      have heq' : ∑ j ∈ range (S1.nUnknown + S1.nMpc), kmodEntry (newmark alpha delta dt) M S1.nConstr (i - S1.nConstr - 1 + 1) (j + 1) *
            u' (S1.nConstr + j) -
          ∑ j ∈ range (S1.nUnknown + S1.nMpc), M 2 i (S1.nConstr + (j + 1)) * kept ((newmark alpha delta dt).a0 * u (S1.nConstr + j) +
            (newmark alpha delta dt).a2 * w (S1.nConstr + j) + (newmark alpha delta dt).a3 * z (S1.nConstr + j)) -
          ∑ j ∈ range (S1.nUnknown + S1.nMpc), M 1 i (S1.nConstr + (j + 1)) * kept ((newmark alpha delta dt).a1 * u (S1.nConstr + j) +
            (newmark alpha delta dt).a4 * w (S1.nConstr + j) + (newmark alpha delta dt).a5 * z (S1.nConstr + j)) =
          v i + r (i - 1) := by
        rw [heq]; ring
      rw [← heq', ← Finset.sum_add_distrib, ← Finset.sum_add_distrib, ← Finset.sum_sub_distrib, ← Finset.sum_sub_distrib]
      apply Finset.sum_congr rfl
      intro j hj
      rw [Finset.mem_range] at hj
      obtain ⟨t1, t2⟩ := hnt (S1.nConstr + (j + 1)) (by omega) (by omega)
      rw [U _ (by omega) (by omega), V _ (by omega) (by omega), AA _ (by omega) (by omega)] at t1 t2
      rw [V _ (by omega) (by omega), AA _ (by omega) (by omega), U' _ (by omega) (by omega), A' _ (by omega) (by omega)]
      have ij : S1.nConstr + (j + 1) - 1 = S1.nConstr + j := by omega
      rw [ij] at t1 t2 ⊢
      rw [t1, t2, g6]
      unfold kmodEntry newmarkV
      rw [i3]
      simp only [newmark]
      field_simp
      ring
    rw [← key]
    ring

/-- Why the transient solver stops the program. -/
def TFails (eqs : EqSolver K) (el : Elems E K) (st : TSettings K) (S0 : Storage K) (calls : List RegCall) (new : List (Mpc K))
    (fixs : List (Bc K)) (e : E) : Prop :=
  { S0 with transient := true }.prepare calls new (fixKeys fixs) = .fatal ∨
  ∃ S1 num, { S0 with transient := true }.prepare calls new (fixKeys fixs) = .ok S1 ∧
    (∀ k ∈ regKeys calls, S1.eqNumber k.1 k.2.1 k.2.2 = .ok (num k)) ∧
    Stops eqs (S1.nUnknown + S1.nMpc) (fun i j =>
      kmodEntry (newmark st.alpha st.delta ((st.time1 - st.time0) / st.n)) (tMat el e S1 num st.initValue) S1.nConstr (i + 1) (j + 1))

theorem transient_run (h : Problem { S0 with transient := true } calls new loads fixs el) (he : Exact eqs) {st : TSettings K}
    (ha : st.alpha ≠ 0) (hn : 0 < st.n) (ht : st.time0 < st.time1) (e : E) {fuel : Nat} (hf : st.n < fuel) :
    (transientSolve eqs el loads fixs st calls new S0 e fuel = some .fatal ∧ TFails eqs el st S0 calls new fixs e) ∨
    ∃ (S1 : Storage K) (num : Key → Nat) (start : TState E K) (seen : List (Nat × K × TState E K)),
      { S0 with transient := true }.prepare calls new (fixKeys fixs) = .ok S1 ∧
      (∀ k ∈ regKeys calls, S1.eqNumber k.1 k.2.1 k.2.2 = .ok (num k)) ∧
      transientSolve eqs el loads fixs st calls new S0 e fuel = some (.ok (seen, u16 (st.n + 1))) ∧
      seen.length = st.n ∧
      (∀ i < st.n, (seen[i]?).map Prod.fst = some (u16 (i + 1)) ∧
        (seen[i]?).map (fun p => p.2.1) = some (st.time0 + (i + 1) * ((st.time1 - st.time0) / st.n))) ∧
      Start S1 (regKeys calls) num loads fixs st.initValue e start ∧
      List.IsChain (StepLaw el S1 (tMat el e S1 num st.initValue 0) (tMat el e S1 num st.initValue 1)
        (tMat el e S1 num st.initValue 2) (tLoad el e S1 st.initValue) st.alpha st.delta ((st.time1 - st.time0) / st.n))
        (start :: seen.map (fun p => p.2.2)) ∧
      (∀ s ∈ start :: seen.map (fun p => p.2.2), Alike S1 s.S ∧ s.S.vecU.length = S1.nDofs + S1.nMpc ∧
        s.S.vecR.length = S1.nDofs + S1.nMpc) ∧
      Succeeds eqs (S1.nUnknown + S1.nMpc) (fun i j =>
        kmodEntry (newmark st.alpha st.delta ((st.time1 - st.time0) / st.n)) (tMat el e S1 num st.initValue) S1.nConstr (i + 1) (j + 1)) := by
  rcases prepare_or_fatal h.legal with hfat | ⟨S1, num', A, hprep, hnum, hb⟩
  · left
    refine ⟨?_, Or.inl hfat⟩
    unfold transientSolve
    simp only [hfat, Res.fatal_bind]
  have hel := h.elems S1 num' hprep hnum
  have htr : S1.transient = true := hb.prep.ready.mesh.transient
  have hnK : (0 : K) < st.n := by exact_mod_cast hn
  have hdt : 0 < (st.time1 - st.time0) / st.n := by
    apply div_pos _ hnK
    linarith
  have hend : st.time1 = st.time0 + st.n * ((st.time1 - st.time0) / st.n) := by
    field_simp; ring
  obtain ⟨start, Km, rows, e1, e2, e3, e4⟩ := transientStart_ok hb h.loads hel htr st.initValue
    (newmark st.alpha st.delta ((st.time1 - st.time0) / st.n)) e
  have hmat : asmM true (num A) (el.build e (initialStorage S1 st.initValue)) (el.upd e (initialStorage S1 st.initValue) S1.mpcs)
      (el.cm e (initialStorage S1 st.initValue)) = tMat el e S1 num' st.initValue := by
    funext q i j
    have hz : Alike S1 (initialStorage S1 st.initValue) := rfl
    have hsh : SameShape S1.mpcs (el.upd e (initialStorage S1 st.initValue) S1.mpcs) := (hel e _ hz).2.2 S1.mpcs
    have := asmM_congr hb (build := el.build e (initialStorage S1 st.initValue)) (cm := el.cm e (initialStorage S1 st.initValue))
      hsh q i j
    rw [htr] at this
    exact this
  rw [show withUR S1 (List.replicate (S1.nDofs + S1.nMpc) st.initValue) (List.replicate (S1.nDofs + S1.nMpc) 0) =
    initialStorage S1 st.initValue from rfl, hmat] at e3 e4
  have hP : AtRest S1 A (tMat el e S1 num' st.initValue) (tLoad el e S1 st.initValue)
      (fun i => loadTotal (bcNum A) (i + 1) loads) start := ⟨_, _, _, e3, fun _ _ => ⟨rfl, rfl⟩⟩
  have hun : transientSolve eqs el loads fixs st calls new S0 e fuel =
      timeLoop (timeStep eqs el (newmark st.alpha st.delta ((st.time1 - st.time0) / st.n)) Km) ((st.time1 - st.time0) / st.n)
        st.time1 fuel (st.time0 + (st.time1 - st.time0) / st.n) 1 start [] := by
    unfold transientSolve
    simp only [hprep, Res.ok_bind, e1]
  have hstart : Start S1 (regKeys calls) num' loads fixs st.initValue e start := by
    have hd := hb.prep.pre.dofs
    refine ⟨e3.run.alike, e2, ?_, ?_, ?_, ?_, ?_⟩
    · intro k hk y hy
      have hr := hb.range hk
      unfold comp
      rw [e3.run.U.2 _ (by omega)]
      beta_reduce
      rw [Nat.sub_add_cancel hr.1, hb.fixLast hk, hy]
    · intro i h1 h2
      unfold comp
      rw [e3.run.U.2 _ (by omega)]
      beta_reduce
      rw [Nat.sub_add_cancel (by omega), hb.fixLast_free h1]
    · intro i
      constructor
      · unfold comp
        by_cases hi : i - 1 < S1.nDofs + S1.nMpc
        · exact e3.V.2 _ hi
        · rw [List.getD_eq_getElem?_getD, List.getElem?_eq_none (by rw [e3.V.1]; omega)]; rfl
      · unfold comp
        by_cases hi : i - 1 < S1.nDofs + S1.nMpc
        · exact e3.A.2 _ hi
        · rw [List.getD_eq_getElem?_getD, List.getElem?_eq_none (by rw [e3.A.1]; omega)]; rfl
    · intro k hk
      have hr := hb.range hk
      unfold comp
      rw [e3.run.R.2 _ (by omega)]
      beta_reduce
      rw [Nat.sub_add_cancel hr.1, hb.loadTotal h.loads hk]
    · intro i h1 h2
      unfold comp
      rw [e3.run.R.2 _ (by omega)]
      beta_reduce
      rw [Nat.sub_add_cancel (by omega), hb.loadTotal_mpc h.loads h1]
  rw [hun]
  rcases timeLoop_ok (step := timeStep eqs el (newmark st.alpha st.delta ((st.time1 - st.time0) / st.n)) Km)
      (AtRest S1 A (tMat el e S1 num' st.initValue) (tLoad el e S1 st.initValue) (fun i => loadTotal (bcNum A) (i + 1) loads))
      (by
        intro s hs
        rcases step_law (el := el) (delta := st.delta) he hb.prep.pre htr ha (ne_of_gt hdt) hs e4 with hf | ⟨s', g1, g2, _⟩
        · exact Or.inl hf
        · exact Or.inr ⟨s', g1, g2⟩)
      (t0 := st.time0) hdt (n := st.n) st.n 0 fuel start [] (by omega) hf hP with ⟨g, hst⟩ | ⟨more, g1, g2, g3, g4, g5⟩
  · left
    refine ⟨?_, Or.inr ⟨S1, num', hprep, hnum, hst⟩⟩
    rw [← hend] at g
    simpa [u16] using g
  · right
    have hall : ∀ s ∈ start :: more.map (fun p => p.2.2), AtRest S1 A (tMat el e S1 num' st.initValue)
        (tLoad el e S1 st.initValue) (fun i => loadTotal (bcNum A) (i + 1) loads) s := by
      intro s hs
      rcases List.mem_cons.mp hs with rfl | hs
      · exact hP
      · obtain ⟨p, hp, rfl⟩ := List.mem_map.mp hs
        exact g4 p hp
    refine ⟨S1, num', start, more, hprep, hnum, ?_, g2, ?_, hstart, ?_, ?_, ?_⟩
    · rw [← hend] at g1
      simpa [u16] using g1
    · intro i hi
      have := g3 i hi
      simpa using this
    · exact (List.IsChain.imp_of_mem_imp (fun a b hma _ hab => by
        rcases step_law (el := el) (delta := st.delta) he hb.prep.pre htr ha (ne_of_gt hdt) (hall a hma) e4 with
          ⟨hf, _⟩ | ⟨s', g1, _, g3, _⟩
        · rw [hab] at hf; simp at hf
        · rw [hab, Res.ok.injEq] at g1
          subst g1
          exact g3) g5)
    · intro s hs
      obtain ⟨u, w, z, hT, _⟩ := hall s hs
      exact ⟨hT.run.alike, hT.run.U.1, hT.run.R.1⟩
    · cases more with
      | nil => simp at g2; omega
      | cons p more =>
        rw [List.map_cons, List.isChain_cons_cons] at g5
        rcases step_law (el := el) (delta := st.delta) he hb.prep.pre htr ha (ne_of_gt hdt) (hall start (by simp)) e4 with
          ⟨hf, _⟩ | ⟨s', _, _, _, hsuc⟩
        · rw [g5.1] at hf; simp at hf
        · exact hsuc

/-- **C26.** For `time0 < time1` and `n ≥ 1` steps the transient solver ends; unless the program is stopped (preparation
failed, or the equation solver stops on `a0*M + a1*C + K`) it makes exactly `n` steps, the `i`-th at time
`time0 + i*(time1 - time0)/n` and reported to the post processors with number `i`, the last one at `time1`. -/
theorem C26_steps (h : Problem { S0 with transient := true } calls new loads fixs el) (he : Exact eqs) {st : TSettings K}
    (ha : st.alpha ≠ 0) (hn : 0 < st.n) (hn' : st.n < 65536) (ht : st.time0 < st.time1) (e : E) {fuel : Nat} (hf : st.n < fuel) :
    (transientSolve eqs el loads fixs st calls new S0 e fuel = some .fatal ∧ TFails eqs el st S0 calls new fixs e) ∨
    ∃ seen, transientSolve eqs el loads fixs st calls new S0 e fuel = some (.ok (seen, u16 (st.n + 1))) ∧
      seen.map Prod.fst = List.range' 1 st.n ∧
      seen.map (fun p => p.2.1) = (List.range' 1 st.n).map (fun (i : Nat) => st.time0 + i * ((st.time1 - st.time0) / st.n)) ∧
      (seen.map (fun p => p.2.1)).getLast? = some st.time1 := by
  rcases transient_run h he ha hn ht e hf with hf | ⟨S1, num, start, seen, _, _, h3, h4, h5, _⟩
  · exact Or.inl hf
  right
  have k1 : seen.map Prod.fst = List.range' 1 st.n := by
    apply List.ext_getElem?
    intro i
    by_cases hi : i < st.n
    · rw [List.getElem?_map, (h5 i hi).1, List.getElem?_range' hi]
      unfold u16
      simp only [Nat.one_mul, Option.some.injEq]
      omega
    · rw [List.getElem?_eq_none (by rw [List.length_map, h4]; omega), List.getElem?_eq_none (by rw [List.length_range']; omega)]
  have k2 : seen.map (fun p => p.2.1) = (List.range' 1 st.n).map (fun (i : Nat) => st.time0 + i * ((st.time1 - st.time0) / st.n)) := by
    apply List.ext_getElem?
    intro i
    by_cases hi : i < st.n
    · rw [List.getElem?_map, (h5 i hi).2, List.getElem?_map, List.getElem?_range' hi]
      simp only [Nat.one_mul, Option.map_some, Option.some.injEq]
      push_cast
      ring
    · rw [List.getElem?_eq_none (by rw [List.length_map, h4]; omega),
        List.getElem?_eq_none (by rw [List.length_map, List.length_range']; omega)]
  refine ⟨seen, h3, k1, k2, ?_⟩
  obtain ⟨m, hm⟩ : ∃ m, st.n = m + 1 := ⟨st.n - 1, by omega⟩
  have hnK : (0 : K) < st.n := by exact_mod_cast hn
  rw [k2, hm, List.range'_1_concat, List.map_append, List.map_cons, List.map_nil, List.getLast?_concat, ← hm]
  have : ((1 + m : Nat) : K) = st.n := by rw [hm]; push_cast; ring
  rw [this]
  congr 1
  field_simp
  ring

/-- **C25, what the code does.** Every step of a transient solution obeys `StepLaw`: Newmark's displacement relation, a
velocity with the roles of old and new acceleration exchanged, and the equation of motion for Newmark's velocity *without*
the forces that the prescribed DoF values exert through the stiffness matrix. -/
theorem C25_steps (h : Problem { S0 with transient := true } calls new loads fixs el) (he : Exact eqs) {st : TSettings K}
    (ha : st.alpha ≠ 0) (hn : 0 < st.n) (ht : st.time0 < st.time1) (e : E) {fuel : Nat} (hf : st.n < fuel)
    {seen : List (Nat × K × TState E K)} {last : Nat}
    (hs : transientSolve eqs el loads fixs st calls new S0 e fuel = some (.ok (seen, last))) :
    ∃ (S1 : Storage K) (num : Key → Nat) (start : TState E K),
      { S0 with transient := true }.prepare calls new (fixKeys fixs) = .ok S1 ∧
      (∀ k ∈ regKeys calls, S1.eqNumber k.1 k.2.1 k.2.2 = .ok (num k)) ∧
      Start S1 (regKeys calls) num loads fixs st.initValue e start ∧
      List.IsChain (StepLaw el S1 (tMat el e S1 num st.initValue 0) (tMat el e S1 num st.initValue 1)
        (tMat el e S1 num st.initValue 2) (tLoad el e S1 st.initValue) st.alpha st.delta ((st.time1 - st.time0) / st.n))
        (start :: seen.map (fun p => p.2.2)) := by
  rcases transient_run h he ha hn ht e hf with ⟨hf, _⟩ | ⟨S1, num, start, seen', h1, h2, h3, _, _, h6, h7, _⟩
  · rw [hs] at hf; simp at hf
  · rw [hs] at h3
    simp only [Option.some.injEq, Res.ok.injEq, Prod.mk.injEq] at h3
    obtain ⟨rfl, _⟩ := h3
    exact ⟨S1, num, start, h1, h2, h6, h7⟩

/-- The property: Newmark's relations and the equation of motion for the new state, on all unknown rows. -/
def Newmarks {E : Type} (S1 : Storage K) (k c m : Nat → Nat → K) (f : Nat → K) (alpha delta dt : K) (s s' : TState E K) : Prop :=
  (∀ i, 0 < i → i ≤ S1.nDofs + S1.nMpc →
    NewmarkU alpha dt (comp s.S.vecU i) (comp s.v i) (comp s.a i) (comp s'.S.vecU i) (comp s'.a i) ∧
    comp s'.v i = newmarkV delta dt (comp s.v i) (comp s.a i) (comp s'.a i)) ∧
  ∀ i, S1.nConstr < i → i ≤ S1.nDofs + S1.nMpc →
    rowMul m (comp s'.a) (S1.nDofs + S1.nMpc) i + rowMul c (comp s'.v) (S1.nDofs + S1.nMpc) i +
      rowMul k (comp s'.S.vecU) (S1.nDofs + S1.nMpc) i = f i + comp s'.S.vecR i

/-- **C25, the part that holds**: for `delta = 1/2`, if the prescribed values exert no force on the unknown DoFs (for example
because they are all zero) and no tiny component is dropped, a step satisfies Newmark's relations and the equation of motion.
Missing: other values of `delta` (`C25_velocity_violated`), non-zero prescribed values (`C25_motion_violated`), tiny
components. -/
theorem C25_newmark_partial {k c m : Nat → Nat → K} {f : Nat → K} {alpha delta dt : K} {s s' : TState E K}
    (h : StepLaw el S1 k c m f alpha delta dt s s') (hdelta : delta = 1 / 2) (hnt : NoTiny (newmark alpha delta dt) S1 s)
    (hc : ∀ i, S1.nConstr < i → i ≤ S1.nDofs + S1.nMpc → rowMul k (comp s.S.vecU) S1.nConstr i = 0) :
    Newmarks S1 k c m f alpha delta dt s s' := by
  have hv : ∀ i, 0 < i → i ≤ S1.nDofs + S1.nMpc → comp s'.v i = newmarkV delta dt (comp s.v i) (comp s.a i) (comp s'.a i) := by
    intro i h1 h2
    rw [h.veloc i h1 h2, hdelta]
    unfold newmarkV
    ring
  refine ⟨fun i h1 h2 => ⟨h.displ i h1 h2, hv i h1 h2⟩, ?_⟩
  intro i h1 h2
  have hm := h.motion hnt i h1 h2
  rw [hc i h1 h2, add_zero] at hm
  have hR : comp s'.S.vecR i = comp s.S.vecR i := by rw [h.storage]; rfl
  rw [hR, ← hm]
  congr 2
  unfold rowMul
  apply Finset.sum_congr rfl
  intro j hj
  rw [Finset.mem_range] at hj
  rw [hv _ (by omega) (by omega)]

end

/-! ## Violations -/

/-- The matrices of the transient bar. -/
theorem bar_tMat {x y : ℚ} {S1 : Storage ℚ} {num : Key → Nat}
    (hp : (barOf true).prepare barCalls [] (fixKeys [(⟨1, .UX, x⟩ : Bc ℚ)]) = .ok S1)
    (hn : ∀ k ∈ regKeys barCalls, S1.eqNumber k.1 k.2.1 k.2.2 = .ok (num k)) :
    (∀ i j, tMat spring () S1 num y 0 i j = (if Same i j 1 1 then 1 else 0) + ((if Same i j 1 2 then -1 else 0) +
      (if Same i j 2 2 then 1 else 0))) ∧ (∀ i j, tMat spring () S1 num y 1 i j = 0) ∧
    (∀ i j, tMat spring () S1 num y 2 i j = 0) ∧ ∀ i, tLoad spring () S1 y i = 0 := by
  obtain ⟨c1, c2, c3, c4, n1, n2, c5, c6, _, _⟩ := bar_prepared hp hn
  have e1 := hn (.node, 1, .UX) (by decide)
  have e2 := hn (.node, 2, .UX) (by decide)
  rw [n1] at e1
  rw [n2] at e2
  simp only at e1 e2
  have hz : Alike S1 (initialStorage S1 y) := rfl
  refine ⟨?_, ?_, ?_, ?_⟩
  · intro i j
    unfold tMat
    simp only [spring, hz.eqNumber, e1, e2, c6]
    simp [asmM, matSum, Which.idx]
  · intro i j
    unfold tMat
    simp only [spring, hz.eqNumber, e1, e2, c6]
    simp [asmM, matSum]
  · intro i j
    unfold tMat
    simp only [spring, hz.eqNumber, e1, e2, c6]
    simp [asmM, matSum]
  · intro i
    unfold tLoad
    simp only [spring, hz.eqNumber, e1, e2, c6]
    simp [asmV, mpcLoad, loadSum]

/-- The transient bar is solved by the shipped solver. -/
theorem bar_moves (loads : List (Bc ℚ)) (hl : ∀ l ∈ loads, keyOf l ∈ regKeys barCalls) (x : ℚ) {st : TSettings ℚ}
    (ha : st.alpha ≠ 0) (hn : 0 < st.n) (ht : st.time0 < st.time1) {fuel : Nat} (hf : st.n < fuel) :
    ∃ (S1 : Storage ℚ) (num : Key → Nat) (start : TState Unit ℚ) (seen : List (Nat × ℚ × TState Unit ℚ)),
      (barOf true).prepare barCalls [] (fixKeys [(⟨1, .UX, x⟩ : Bc ℚ)]) = .ok S1 ∧
      (∀ k ∈ regKeys barCalls, S1.eqNumber k.1 k.2.1 k.2.2 = .ok (num k)) ∧
      transientSolve Gauss.solveEquations spring loads [⟨1, .UX, x⟩] st barCalls [] (barOf true) () fuel =
        some (.ok (seen, u16 (st.n + 1))) ∧ seen.length = st.n ∧
      Start S1 (regKeys barCalls) num loads [⟨1, .UX, x⟩] st.initValue () start ∧
      List.IsChain (StepLaw spring S1 (tMat spring () S1 num st.initValue 0) (tMat spring () S1 num st.initValue 1)
        (tMat spring () S1 num st.initValue 2) (tLoad spring () S1 st.initValue) st.alpha st.delta ((st.time1 - st.time0) / st.n))
        (start :: seen.map (fun p => p.2.2)) := by
  have hprob := bar_problem (t := true) loads hl x
  rcases transient_run (S0 := barOf true) hprob gauss_exact ha hn ht () hf with
    ⟨_, hfat | ⟨S1, num, hp, hnum, hst⟩⟩ | ⟨S1, num, start, seen, h1, h2, h3, h4, _, h6, h7, _⟩
  · exfalso
    obtain ⟨S1, num, h1, _⟩ := prepare_small hprob.legal
      (show [(Side.node, 1, DofType.UX)].toFinset.card < (regKeys barCalls).toFinset.card by decide) (by decide)
    rw [show (barOf true).prepare _ _ _ = _ from hfat] at h1
    simp at h1
  · exfalso
    have hp : (barOf true).prepare barCalls [] (fixKeys [(⟨1, .UX, x⟩ : Bc ℚ)]) = .ok S1 := hp
    obtain ⟨c1, c2, c3, c4, _⟩ := bar_prepared hp hnum
    obtain ⟨m0, m1, m2, _⟩ := bar_tMat (y := st.initValue) hp hnum
    rw [c2, c4] at hst
    rcases gauss_stops hst with h | ⟨i, a', hi, hr, hq⟩
    · omega
    · have : i = 0 := by omega
      subst this
      cases hr
      have := hq 0 (le_refl 0) (by omega)
      beta_reduce at this
      unfold kmodEntry at this
      rw [m0, m1, m2, c1] at this
      simp [Same, Gauss.eps] at this
      norm_num at this
  · exact ⟨S1, num, start, seen, h1, h2, h3, h4, h6, h7⟩

/-- **C25 is violated by non-zero prescribed values**, even for `delta = 1/2`: one end of a spring is held at 3, the other
end starts at rest at 0; after the (only) time step the equation of motion does not hold for the free end. -/
theorem C25_motion_violated : ∃ (S1 : Storage ℚ) (num : Key → Nat) (start : TState Unit ℚ) (seen : List (Nat × ℚ × TState Unit ℚ))
    (s' : TState Unit ℚ),
    Problem (barOf true) barCalls [] [] [⟨1, .UX, 3⟩] spring ∧
    (barOf true).prepare barCalls [] (fixKeys [(⟨1, .UX, 3⟩ : Bc ℚ)]) = .ok S1 ∧
    (∀ k ∈ regKeys barCalls, S1.eqNumber k.1 k.2.1 k.2.2 = .ok (num k)) ∧
    transientSolve Gauss.solveEquations spring [] [⟨1, .UX, 3⟩] ⟨1, 1 / 4, 1 / 2, 0, 1, 0⟩ barCalls [] (barOf true) () 2 =
      some (.ok (seen, 2)) ∧ Start S1 (regKeys barCalls) num [] [⟨1, .UX, 3⟩] 0 () start ∧ seen.map (fun p => p.2.2) = [s'] ∧
    ¬ Newmarks S1 (tMat spring () S1 num 0 0) (tMat spring () S1 num 0 1) (tMat spring () S1 num 0 2) (tLoad spring () S1 0)
      (1 / 4) (1 / 2) 1 start s' := by
  obtain ⟨S1, num, start, seen, h1, h2, h3, h4, h5, h6⟩ := bar_moves [] (by simp) 3 (st := ⟨1, 1 / 4, 1 / 2, 0, 1, 0⟩)
    (by norm_num) (by norm_num) (by norm_num) (fuel := 2) (by norm_num)
  obtain ⟨c1, c2, c3, c4, n1, n2, _⟩ := bar_prepared h1 h2
  obtain ⟨m0, m1, m2, m3⟩ := bar_tMat (y := 0) h1 h2
  obtain ⟨p, rfl⟩ := List.length_eq_one_iff.mp h4
  refine ⟨S1, num, start, [p], p.2.2, bar_problem _ (by simp) 3, h1, h2, h3, h5, rfl, ?_⟩
  have hlaw := (List.isChain_cons_cons.mp h6).1
  have hdt : ((1 : ℚ) - 0) / (1 : Nat) = 1 := by norm_num
  rw [hdt] at hlaw
  rintro ⟨_, hmot⟩
  have hu1 : comp start.S.vecU 1 = 3 := by
    have := h5.prescribed (.node, 1, .UX) (by decide) 3 rfl
    rwa [n1] at this
  have hu2 : comp start.S.vecU 2 = 0 := h5.initial 2 (by omega) (by omega)
  have hnt : NoTiny (newmark (1 / 4 : ℚ) (1 / 2) 1) S1 start := by
    intro i i1 i2
    have : i = 2 := by omega
    subst this
    rw [hu2, (h5.rest 2).1, (h5.rest 2).2]
    simp [kept]
  have k1 := hmot 2 (by omega) (by omega)
  have k2 := hlaw.motion hnt 2 (by omega) (by omega)
  have hR : comp p.2.2.S.vecR 2 = comp start.S.vecR 2 := by rw [hlaw.storage]; rfl
  rw [hR] at k1
  simp only [rowMul, m1, m2, zero_mul, Finset.sum_const_zero, zero_add] at k1 k2
  rw [k1, c1] at k2
  simp only [Finset.sum_range_succ, Finset.sum_range_zero, m0, hu1] at k2
  simp [Same] at k2

/-- **C25 is violated for `delta ≠ 1/2`**: with `delta = 1` and `alpha = 1/2` a spring with one end fixed at 0 and the other
starting at 1 gets, after one step, a velocity different from Newmark's. -/
theorem C25_velocity_violated : ∃ (S1 : Storage ℚ) (num : Key → Nat) (start : TState Unit ℚ) (seen : List (Nat × ℚ × TState Unit ℚ))
    (s' : TState Unit ℚ),
    Problem (barOf true) barCalls [] [] [⟨1, .UX, 0⟩] spring ∧
    (barOf true).prepare barCalls [] (fixKeys [(⟨1, .UX, 0⟩ : Bc ℚ)]) = .ok S1 ∧
    (∀ k ∈ regKeys barCalls, S1.eqNumber k.1 k.2.1 k.2.2 = .ok (num k)) ∧
    transientSolve Gauss.solveEquations spring [] [⟨1, .UX, 0⟩] ⟨1, 1 / 2, 1, 0, 1, 1⟩ barCalls [] (barOf true) () 2 =
      some (.ok (seen, 2)) ∧ Start S1 (regKeys barCalls) num [] [⟨1, .UX, 0⟩] 1 () start ∧ seen.map (fun p => p.2.2) = [s'] ∧
    comp s'.v 2 = 0 ∧ newmarkV 1 1 (comp start.v 2) (comp start.a 2) (comp s'.a 2) = -2 := by
  obtain ⟨S1, num, start, seen, h1, h2, h3, h4, h5, h6⟩ := bar_moves [] (by simp) 0 (st := ⟨1, 1 / 2, 1, 0, 1, 1⟩)
    (by norm_num) (by norm_num) (by norm_num) (fuel := 2) (by norm_num)
  obtain ⟨c1, c2, c3, c4, n1, n2, _⟩ := bar_prepared h1 h2
  obtain ⟨m0, m1, m2, m3⟩ := bar_tMat (y := 1) h1 h2
  obtain ⟨p, rfl⟩ := List.length_eq_one_iff.mp h4
  refine ⟨S1, num, start, [p], p.2.2, bar_problem _ (by simp) 0, h1, h2, h3, h5, rfl, ?_⟩
  have hlaw := (List.isChain_cons_cons.mp h6).1
  have hdt : ((1 : ℚ) - 0) / (1 : Nat) = 1 := by norm_num
  rw [hdt] at hlaw
  have hu1 : comp start.S.vecU 1 = 0 := by
    have := h5.prescribed (.node, 1, .UX) (by decide) 0 rfl
    rwa [n1] at this
  have hu2 : comp start.S.vecU 2 = 1 := h5.initial 2 (by omega) (by omega)
  have hnt : NoTiny (newmark (1 / 2 : ℚ) 1 1) S1 start := by
    intro i i1 i2
    have : i = 2 := by omega
    subst this
    rw [hu2, (h5.rest 2).1, (h5.rest 2).2]
    simp only [kept, newmark]
    norm_num
  have k2 := hlaw.motion hnt 2 (by omega) (by omega)
  have hR : comp start.S.vecR 2 = 0 := by
    have := h5.loads (.node, 2, .UX) (by decide)
    rw [n2] at this
    rw [this]
    rfl
  have hcon := (hlaw.constrained 1 (by omega) (by omega)).1
  have hd := hlaw.displ 2 (by omega) (by omega)
  have hv := hlaw.veloc 2 (by omega) (by omega)
  simp only [rowMul, m1, m2, m3, zero_mul, Finset.sum_const_zero, zero_add, hR] at k2
  rw [c1, c3, c4] at k2
  simp only [Finset.sum_range_succ, Finset.sum_range_zero, m0, hu1, hcon] at k2
  simp [Same] at k2
  unfold NewmarkU at hd
  rw [k2, hu2, (h5.rest 2).1, (h5.rest 2).2] at hd
  have ha : comp p.2.2.a 2 = -2 := by linarith
  rw [ha, (h5.rest 2).1, (h5.rest 2).2] at hv
  refine ⟨by rw [hv]; norm_num, ?_⟩
  rw [ha, (h5.rest 2).1, (h5.rest 2).2]
  unfold newmarkV
  norm_num

/-- Four steps of the bar under a load. -/
example : ∃ seen, transientSolve Gauss.solveEquations spring [⟨2, .UX, 5⟩] [⟨1, .UX, 0⟩] ⟨4, 1 / 4, 1 / 2, 1, 3, 2⟩ barCalls []
    (barOf true) () 5 = some (.ok (seen, 5)) ∧ seen.length = 4 := by
  obtain ⟨_, _, _, seen, _, _, h, h', _⟩ := bar_moves [⟨2, .UX, 5⟩] (by decide) 0 (st := ⟨4, 1 / 4, 1 / 2, 1, 3, 2⟩)
    (by norm_num) (by norm_num) (by norm_num) (fuel := 5) (by norm_num)
  exact ⟨seen, h, h'⟩

end Nla3d.Solver
