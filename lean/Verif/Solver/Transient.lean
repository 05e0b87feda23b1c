import Verif.Solver.Nonlinear

/-!
# Lemmas about the transient solver
-/

set_option linter.unusedSectionVars false

namespace Nla3d.Solver

open Nla3d.Dof Nla3d.Block Nla3d.Sparse Nla3d.Storage Nla3d.TimeCtl Finset

variable {K : Type} [Field K] [LinearOrder K]

/-- The reads of the loop that fills `matKmod`. -/
theorem kmod_loop (nm : Newmark K) {m c k : List K} {N : Nat} (hm : m.length = N) (hc : c.length = N) (hk : k.length = N) :
    Res.foldlM' (fun (acc : List K) i => do
      let x ← Res.read m i
      let y ← Res.read c i
      let z ← Res.read k i
      Res.ok (acc ++ [nm.a0 * x + nm.a1 * y + z])) [] (List.range N) =
    .ok ((List.range N).map (fun i => nm.a0 * m.getD i 0 + nm.a1 * c.getD i 0 + k.getD i 0)) := by
  have hread : ∀ (l : List K) (i : Nat), i < l.length → Res.read l i = .ok (l.getD i 0) := by
    intro l i hi
    rw [Res.read_of_lt hi, List.getD_eq_getElem?_getD, List.getElem?_eq_getElem hi]; rfl
  have : ∀ (xs : List Nat) (acc : List K), (∀ i ∈ xs, i < N) →
      Res.foldlM' (fun (acc : List K) i => do
        let x ← Res.read m i
        let y ← Res.read c i
        let z ← Res.read k i
        Res.ok (acc ++ [nm.a0 * x + nm.a1 * y + z])) acc xs =
      .ok (acc ++ xs.map (fun i => nm.a0 * m.getD i 0 + nm.a1 * c.getD i 0 + k.getD i 0)) := by
    intro xs
    induction xs with
    | nil => intro acc _; simp [Res.foldlM'_nil]
    | cons i xs ih =>
      intro acc h
      have hi := h i (by simp)
      rw [Res.foldlM'_cons, hread m i (by omega), hread c i (by omega), hread k i (by omega)]
      simp only [Res.ok_bind]
      rw [ih _ (fun j hj => h j (by simp [hj]))]
      simp
  rw [this _ _ (fun i hi => List.mem_range.mp hi), List.nil_append]

theorem kmod_ok (nm : Newmark K) {K22 C22 M22 : SpMat K} {n : Nat} {rows : List (List Nat)} {fk fc fm : Nat → Nat → K}
    (hk : SymBlk K22 n rows fk) (hc : SymBlk C22 n rows fc) (hm : SymBlk M22 n rows fm) :
    ∃ Km, kmod nm K22 C22 M22 = .ok Km ∧ SymBlk Km n rows (fun i j => nm.a0 * fm i j + nm.a1 * fc i j + fk i j) := by
  obtain ⟨vk, k1, k2, k3⟩ := hk.vals.vals
  obtain ⟨vc, c1, c2, c3⟩ := hc.vals.vals
  obtain ⟨vm, m1, m2, m3⟩ := hm.vals.vals
  have hnum := hk.vals.csr.num
  refine ⟨⟨K22.si, some ((List.range rows.flatten.length).map
    (fun i => nm.a0 * vm.getD i 0 + nm.a1 * vc.getD i 0 + vk.getD i 0))⟩, ?_,
    ⟨hk.nRows, hk.nCols, ⟨hk.vals.csr, _, rfl, ?_, ?_⟩, ?_, ?_⟩⟩
  · unfold kmod
    rw [k1, c1, m1]
    simp only
    rw [hnum, kmod_loop nm m2 c2 k2]
    rfl
  · simp
  · intro i hi k hkk
    have e1 := k3 i hi k hkk
    have e2 := c3 i hi k hkk
    have e3 := m3 i hi k hkk
    have hlt : offset rows i + k < rows.flatten.length := by
      rw [← k2]
      by_contra hge
      rw [List.getElem?_eq_none (by omega)] at e1
      simp at e1
    rw [List.getElem?_map, List.getElem?_range hlt]
    simp only [Option.map_some, getD_of_getElem? e1, getD_of_getElem? e2, getD_of_getElem? e3]
  · intro i j
    rw [hk.symm i j, hc.symm i j, hm.symm i j]
  · intro i hi j h1 h2 h3
    rw [hk.zero i hi j h1 h2 h3, hc.zero i hi j h1 h2 h3, hm.zero i hi j h1 h2 h3]; ring

/-- A transient solution at some time: matrices, loads and constrained values do not change. -/
structure TRun (S1 : Storage K) (A : Side → Spec) (M : Nat → Nat → Nat → K) (v u r w z : Nat → K) {E : Type}
    (s : TState E K) : Prop where
  run : Run S1 s.S A M v u r
  V : IsVec s.v (S1.nDofs + S1.nMpc) w
  A : IsVec s.a (S1.nDofs + S1.nMpc) z

theorem comb3_ok (c1 c2 c3 : K) {x y z : List K} {n : Nat} {f g h : Nat → K} (hx : IsVec x n f) (hy : IsVec y n g)
    (hz : IsVec z n h) : IsVec (comb3 c1 c2 c3 x y z) n (fun i => c1 * f i + c2 * g i + c3 * h i) := by
  unfold comb3
  exact (((hx.map (c1 * ·)).zipWith (· + ·) (hy.map (c2 * ·))).zipWith (· + ·) (hz.map (c3 * ·)))

/-- Entries of `matKmod`. -/
def kmodEntry (nm : Newmark K) (M : Nat → Nat → Nat → K) (nc i j : Nat) : K :=
  nm.a0 * M 2 (nc + i) (nc + j) + nm.a1 * M 1 (nc + i) (nc + j) + M 0 (nc + i) (nc + j)

theorem timeStep_ok {E : Type} {el : Elems E K} {eqs : EqSolver K} (he : Exact eqs) {S1 : Storage K} {A : Side → Spec}
    (hp : Pre S1 A) (ht : S1.transient = true) {nm : Newmark K} {Km : SpMat K} {rows : List (List Nat)}
    {M : Nat → Nat → Nat → K} {v u r w z : Nat → K} {s : TState E K} (h : TRun S1 A M v u r w z s)
    (hKm : SymBlk Km (S1.nUnknown + S1.nMpc) rows (kmodEntry nm M S1.nConstr)) :
    (timeStep eqs el nm Km s = .fatal ∧ Stops eqs (S1.nUnknown + S1.nMpc)
      (fun i j => kmodEntry nm M S1.nConstr (i + 1) (j + 1))) ∨
    ∃ s' u' w' z', timeStep eqs el nm Km s = .ok s' ∧ TRun S1 A M v u' r w' z' s' ∧
      s'.S = withUR s.S s'.S.vecU s.S.vecR ∧ s'.e = el.update s.e s'.S ∧
      (∀ i < S1.nConstr, u' i = u i) ∧
      (∀ i, z' i = nm.a0 * (u' i - u i) - nm.a2 * w i - nm.a3 * z i) ∧
      (∀ i, w' i = w i + nm.a6 * z' i + nm.a7 * z i) ∧
      Succeeds eqs (S1.nUnknown + S1.nMpc) (fun i j => kmodEntry nm M S1.nConstr (i + 1) (j + 1)) ∧
      ∀ i < S1.nUnknown + S1.nMpc, ∑ j ∈ range (S1.nUnknown + S1.nMpc),
        kmodEntry nm M S1.nConstr (i + 1) (j + 1) * u' (S1.nConstr + j) =
        v (S1.nConstr + i + 1) + r (S1.nConstr + i) +
        ∑ j ∈ range (S1.nUnknown + S1.nMpc), M 2 (S1.nConstr + (i + 1)) (S1.nConstr + (j + 1)) *
          kept (nm.a0 * u (S1.nConstr + j) + nm.a2 * w (S1.nConstr + j) + nm.a3 * z (S1.nConstr + j)) +
        ∑ j ∈ range (S1.nUnknown + S1.nMpc), M 1 (S1.nConstr + (i + 1)) (S1.nConstr + (j + 1)) *
          kept (nm.a1 * u (S1.nConstr + j) + nm.a4 * w (S1.nConstr + j) + nm.a5 * z (S1.nConstr + j)) := by
  have hd := hp.dofs
  have c1 := h.run.nConstr
  have c2 := h.run.nUnknown
  have c3 := h.run.nMpc
  have hmats : s.S.nMats = 3 := by rw [h.run.nMats]; unfold Storage.nMats; rw [ht]; rfl
  obtain ⟨F, hF, rows1, rows2, hblk⟩ := live_blocks h.run.during.live
  obtain ⟨_, _, M22, hM, sM⟩ := hblk 2 (by omega)
  obtain ⟨_, _, C22, hC, sC⟩ := hblk 1 (by omega)
  rw [c1, c2, c3] at sM sC
  have hu := h.run.U.seg (off := S1.nConstr) (n := S1.nUnknown + S1.nMpc) (by omega)
  have hw := h.V.seg (off := S1.nConstr) (n := S1.nUnknown + S1.nMpc) (by omega)
  have hz := h.A.seg (off := S1.nConstr) (n := S1.nUnknown + S1.nMpc) (by omega)
  have hrhs := (h.run.F.seg (off := S1.nConstr) (n := S1.nUnknown + S1.nMpc) (by omega)).zipWith (· + ·)
    (h.run.R.seg (off := S1.nConstr) (n := S1.nUnknown + S1.nMpc) (by omega))
  obtain ⟨R1, p1, q1⟩ := sM.bv (comb3_ok nm.a0 nm.a2 nm.a3 hu hw hz) hrhs 1
  obtain ⟨R2, p2, q2⟩ := sC.bv (comb3_ok nm.a1 nm.a4 nm.a5 hu hw hz) q1 1
  have hcore : timeStep eqs el nm Km s = (do
      let x ← eqs Km R2 (List.replicate (s.S.nUnknown + s.S.nMpc) 0)
      let Un := seg s.S.vecU 0 s.S.nConstr ++ x
      let An := List.zipWith (· - ·) (List.zipWith (· - ·) ((List.zipWith (· - ·) Un s.S.vecU).map (nm.a0 * ·))
        (s.v.map (nm.a2 * ·))) (s.a.map (nm.a3 * ·))
      let Vn := List.zipWith (· + ·) (List.zipWith (· + ·) s.v (An.map (nm.a6 * ·))) (s.a.map (nm.a7 * ·))
      let S := withUR s.S Un s.S.vecR
      .ok ⟨S, el.update s.e S, Vn, An⟩) := by
    rw [← c1, ← c2, ← c3] at p1 p2
    unfold timeStep
    simp only [hF, hM, hC, Res.ok_bind, p1, p2]
    rfl
  rw [c1, c2, c3] at hcore
  rw [hcore]
  have hent : ∀ i < S1.nUnknown + S1.nMpc, ∀ j < S1.nUnknown + S1.nMpc,
      Km.valueSym (i + 1) (j + 1) = .ok (kmodEntry nm M S1.nConstr (i + 1) (j + 1)) := by
    intro i hi j hj
    exact hKm.value ⟨by omega, by omega⟩ ⟨by omega, by omega⟩
  rcases he Km R2 (List.replicate (S1.nUnknown + S1.nMpc) 0) (S1.nUnknown + S1.nMpc)
      (fun i j => kmodEntry nm M S1.nConstr (i + 1) (j + 1)) hKm.nRows hent q2.1 (List.length_replicate ..) with
    hf | ⟨X, x1, x2, x3⟩
  · left
    exact ⟨by rw [hf]; rfl, Km, R2, _, hKm.nRows, hent, q2.1, List.length_replicate .., hf⟩
  right
  have hX : IsVec X (S1.nUnknown + S1.nMpc) (fun i => X.getD i 0) := ⟨x2, fun _ _ => rfl⟩
  have hUn := (h.run.U.seg (off := 0) (n := S1.nConstr) (by omega)).append hX
  rw [show S1.nConstr + (S1.nUnknown + S1.nMpc) = S1.nDofs + S1.nMpc by omega] at hUn
  have hAn := (((hUn.zipWith (· - ·) h.run.U).map (nm.a0 * ·)).zipWith (· - ·) (h.V.map (nm.a2 * ·))).zipWith (· - ·)
    (h.A.map (nm.a3 * ·))
  have hVn := (h.V.zipWith (· + ·) (hAn.map (nm.a6 * ·))).zipWith (· + ·) (h.A.map (nm.a7 * ·))
  rw [x1, Res.ok_bind]
  refine ⟨_, _, _, _, rfl, ⟨h.run.setUR hUn h.run.R, hVn, hAn⟩, rfl, rfl, ?_, fun i => rfl, fun i => rfl,
    ⟨Km, R2, _, X, hKm.nRows, hent, q2.1, List.length_replicate .., x1⟩, ?_⟩
  · intro i hi
    beta_reduce
    rw [if_pos hi, Nat.zero_add]
  · intro i hi
    have hx := x3 i hi
    rw [q2.2 i hi] at hx
    refine Eq.trans (Finset.sum_congr rfl ?_) (hx.trans ?_)
    · intro j hj
      beta_reduce
      rw [if_neg (by omega), Nat.add_sub_cancel_left]
    · beta_reduce
      ring

/-- The time loop: either some step stops the program, or exactly `m` more steps are made. -/
theorem timeLoop_ok [IsStrictOrderedRing K] {E : Type} {step : TState E K → Res (TState E K)} (P : TState E K → Prop) {Q : Prop}
    (hstep : ∀ s, P s → (step s = .fatal ∧ Q) ∨ ∃ s', step s = .ok s' ∧ P s') {t0 dt : K} (hdt : 0 < dt) {n : Nat} :
    ∀ (m j fuel : Nat) (s : TState E K) (seen : List (Nat × K × TState E K)), j + m = n → m < fuel → P s →
    (timeLoop step dt (t0 + n * dt) fuel (t0 + ((j : K) + 1) * dt) (u16 (j + 1)) s seen = some .fatal ∧ Q) ∨
    ∃ more : List (Nat × K × TState E K), timeLoop step dt (t0 + n * dt) fuel (t0 + ((j : K) + 1) * dt) (u16 (j + 1)) s seen =
        some (.ok (seen ++ more, u16 (n + 1))) ∧ more.length = m ∧
      (∀ i (hi : i < m), (more[i]?).map Prod.fst = some (u16 (j + i + 1)) ∧
        (more[i]?).map (fun p => p.2.1) = some (t0 + ((j + i : Nat) + 1) * dt)) ∧
      (∀ p ∈ more, P p.2.2) ∧
      List.IsChain (fun a b => step a = .ok b) (s :: more.map (fun p => p.2.2)) := by
  intro m
  induction m with
  | zero =>
    intro j fuel s seen hj hf hs
    obtain ⟨fuel, rfl⟩ : ∃ f, fuel = f + 1 := ⟨fuel - 1, by omega⟩
    right
    refine ⟨[], ?_, rfl, by intro i hi; omega, by simp, by simp⟩
    have hjn : j = n := by omega
    subst hjn
    unfold timeLoop
    rw [if_neg (by
      intro hle
      have : (j : K) * dt < ((j : K) + 1) * dt := mul_lt_mul_of_pos_right (by linarith) hdt
      linarith)]
    simp
  | succ m ih =>
    intro j fuel s seen hj hf hs
    obtain ⟨fuel, rfl⟩ : ∃ f, fuel = f + 1 := ⟨fuel - 1, by omega⟩
    have hle : t0 + ((j : K) + 1) * dt ≤ t0 + n * dt := by
      have : (j : K) + 1 ≤ n := by exact_mod_cast (show j + 1 ≤ n by omega)
      have := mul_le_mul_of_nonneg_right this hdt.le
      linarith
    rcases hstep s hs with ⟨hst, hq⟩ | ⟨s', hst, hs'⟩
    · left
      refine ⟨?_, hq⟩
      unfold timeLoop
      rw [if_pos hle, hst]
    · have hk : u16 (u16 (j + 1) + 1) = u16 (j + 1 + 1) := by unfold u16; omega
      have ht : t0 + ((j : K) + 1) * dt + dt = t0 + (((j + 1 : Nat) : K) + 1) * dt := by push_cast; ring
      have hun : timeLoop step dt (t0 + n * dt) (fuel + 1) (t0 + ((j : K) + 1) * dt) (u16 (j + 1)) s seen =
          timeLoop step dt (t0 + n * dt) fuel (t0 + (((j + 1 : Nat) : K) + 1) * dt) (u16 (j + 1 + 1)) s'
            (seen ++ [(u16 (j + 1), t0 + ((j : K) + 1) * dt, s')]) := by
        conv_lhs => unfold timeLoop
        rw [if_pos hle, hst]
        simp only
        rw [hk, ht]
      rw [hun]
      rcases ih (j + 1) fuel s' (seen ++ [(u16 (j + 1), t0 + ((j : K) + 1) * dt, s')]) (by omega) (by omega) hs' with
        g | ⟨more, g1, g2, g3, g4, g5⟩
      · exact Or.inl g
      · right
        refine ⟨(u16 (j + 1), t0 + ((j : K) + 1) * dt, s') :: more, ?_, by simp [g2], ?_, ?_, ?_⟩
        · rw [g1]; simp
        · intro i hi
          cases i with
          | zero => simp
          | succ i =>
            have := g3 i (by omega)
            rw [List.getElem?_cons_succ, this.1, this.2]
            have e : j + 1 + i = j + (i + 1) := by omega
            rw [e]
            exact ⟨rfl, rfl⟩
        · intro p hpm
          rcases List.mem_cons.mp hpm with rfl | hpm
          · exact hs'
          · exact g4 p hpm
        · rw [List.map_cons, List.isChain_cons_cons]
          exact ⟨hst, g5⟩

/-- The state before the time loop. -/
theorem transientStart_ok {E : Type} {S0 S1 : Storage K} {calls : List RegCall} {new : List (Mpc K)} {loads fixs : List (Bc K)}
    {num' : Key → Nat} {A : Side → Spec} {el : Elems E K} (hb : Base S0 S1 calls new fixs num' A)
    (hloads : ∀ l ∈ loads, keyOf l ∈ regKeys calls) (hel : LegalElems el S1 (regKeys calls) num')
    (ht : S1.transient = true) (initValue : K) (nm : Newmark K) (e : E) :
    ∃ s Km rows, transientStart el loads fixs initValue nm S1 e = .ok (s, Km) ∧ s.e = e ∧
      TRun S1 A (asmM true (num A) (el.build e (withUR S1 (List.replicate (S1.nDofs + S1.nMpc) initValue) (List.replicate (S1.nDofs + S1.nMpc) 0)))
          (el.upd e (withUR S1 (List.replicate (S1.nDofs + S1.nMpc) initValue) (List.replicate (S1.nDofs + S1.nMpc) 0)) S1.mpcs)
          (el.cm e (withUR S1 (List.replicate (S1.nDofs + S1.nMpc) initValue) (List.replicate (S1.nDofs + S1.nMpc) 0))))
        (asmV true (el.build e (withUR S1 (List.replicate (S1.nDofs + S1.nMpc) initValue) (List.replicate (S1.nDofs + S1.nMpc) 0)))
          (el.upd e (withUR S1 (List.replicate (S1.nDofs + S1.nMpc) initValue) (List.replicate (S1.nDofs + S1.nMpc) 0)) S1.mpcs)
          (el.cm e (withUR S1 (List.replicate (S1.nDofs + S1.nMpc) initValue) (List.replicate (S1.nDofs + S1.nMpc) 0))))
        (fun i => match fixLast (bcNum A) (i + 1) fixs with | some x => x | none => initValue)
        (fun i => loadTotal (bcNum A) (i + 1) loads) (fun _ => 0) (fun _ => 0) s ∧
      SymBlk Km (S1.nUnknown + S1.nMpc) rows (kmodEntry nm (asmM true (num A)
          (el.build e (withUR S1 (List.replicate (S1.nDofs + S1.nMpc) initValue) (List.replicate (S1.nDofs + S1.nMpc) 0)))
          (el.upd e (withUR S1 (List.replicate (S1.nDofs + S1.nMpc) initValue) (List.replicate (S1.nDofs + S1.nMpc) 0)) S1.mpcs)
          (el.cm e (withUR S1 (List.replicate (S1.nDofs + S1.nMpc) initValue) (List.replicate (S1.nDofs + S1.nMpc) 0)))) S1.nConstr) := by
  have hd := hb.prep.pre.dofs
  have hI := hb.run.setUR (IsVec.replicate (S1.nDofs + S1.nMpc) initValue) (IsVec.replicate (S1.nDofs + S1.nMpc) (0 : K))
  generalize hSI : withUR S1 (List.replicate (S1.nDofs + S1.nMpc) initValue) (List.replicate (S1.nDofs + S1.nMpc) 0) = SI at hI ⊢
  obtain ⟨hl1, hl2, hl3⟩ := hel e SI hI.alike
  obtain ⟨S2, a1, a2, a3⟩ := hI.assemble hb.prep.pre (build := el.build e SI) (cm := el.cm e SI) (upd := el.upd e SI)
    (fun c hc => wanted_fine hb.prep hb.agree ((hl1 c hc).wanted hb))
    (fun c hc => wanted_fine hb.prep hb.agree ((hl2 c hc).wanted hb)) hl3
  have hmp : SI.mpcs = S1.mpcs := by rw [← hSI]; rfl
  rw [ht, hmp] at a3
  obtain ⟨S3, b1, b2, b3⟩ := run_bc hb.prep.pre a3 1 (loads := loads) (fixs := fixs)
    (fun l hll => hb.some (hloads l hll)) (fun f hf => ⟨hb.some (hb.fixes f hf), by
      rw [hb.bc (hb.fixes f hf)]; exact (hb.fixRange (List.mem_map.mpr ⟨f, hf, rfl⟩)).2⟩)
  have c1 := b3.nConstr
  have c2 := b3.nUnknown
  have c3 := b3.nMpc
  have hmats : S3.nMats = 3 := by rw [b3.nMats]; unfold Storage.nMats; rw [ht]; rfl
  obtain ⟨F, hF, rows1, rows2, hblk⟩ := live_blocks b3.during.live
  obtain ⟨_, _, K22, hK, sK⟩ := hblk 0 (by omega)
  obtain ⟨_, _, C22, hC, sC⟩ := hblk 1 (by omega)
  obtain ⟨_, _, M22, hM, sM⟩ := hblk 2 (by omega)
  obtain ⟨Km, hkm, sKm⟩ := kmod_ok nm sK sC sM
  rw [c1, c2, c3] at sKm
  have hz : zeroR S1 = withUR S1 S1.vecU (List.replicate (S1.nDofs + S1.nMpc) 0) := by
    unfold zeroR withUR
    rw [hb.R, List.length_replicate]
  have hz' : { zeroR S1 with vecU := List.replicate (zeroR S1).vecU.length initValue } = SI := by
    have : (zeroR S1).vecU.length = S1.nDofs + S1.nMpc := by
      show S1.vecU.length = _
      rw [hb.U, List.length_replicate]
    rw [this, ← hSI, hz]; rfl
  have hn : (zeroR S1).nConstr + (zeroR S1).nUnknown + (zeroR S1).nMpc = S1.nDofs + S1.nMpc := by
    show S1.nConstr + S1.nUnknown + S1.nMpc = _
    omega
  refine ⟨⟨S3, e, List.replicate (S1.nDofs + S1.nMpc) 0, List.replicate (S1.nDofs + S1.nMpc) 0⟩, Km, rows2, ?_, rfl, ?_, sKm⟩
  · unfold transientStart
    simp only [hz']
    have hn' : (zeroR S1).nConstr + (zeroR S1).nUnknown + SI.nMpc = S1.nDofs + S1.nMpc := by rw [← hSI]; exact hn
    rw [hn', a1]
    simp only [Res.ok_bind, b1, hF, hK, hC, hM, hkm]
  · refine ⟨⟨b3.during, b3.U.congr ?_, b3.R.congr ?_⟩, IsVec.replicate _ _, IsVec.replicate _ _⟩
    · intro i _
      beta_reduce
      cases fixLast (bcNum A) (i + 1) fixs <;> simp
    · intro i _
      beta_reduce
      ring

end Nla3d.Solver
