import Verif.Pardiso.Runs
import Verif.Pardiso.Props
import Verif.Solver.NonlinearProps
import Verif.Solver.TransientProps
import Mathlib.Data.List.Sort

/-!
# C112: one PARDISO object for a whole solution
-/

set_option linter.unusedSectionVars false

namespace Nla3d.Pardiso

open Nla3d.Dof Nla3d.Block Nla3d.Sparse Nla3d.Storage Nla3d.Solver Nla3d.TimeCtl Finset

variable {K : Type}

/-! ## The structure of the matrix does not change -/

theorem rows_unique {r1 r2 : List (List Nat)} {P : Nat → Nat → Prop} (h1 : DescP r1 P) (h2 : DescP r2 P) (hl : r1.length = r2.length)
    (s1 : ∀ r ∈ r1, r.Pairwise (· < ·)) (s2 : ∀ r ∈ r2, r.Pairwise (· < ·)) : r1 = r2 := by
  apply List.ext_getElem hl
  intro i hi hi'
  exact List.Pairwise.eq_of_mem_iff (s1 _ (List.getElem_mem hi)) (s2 _ (List.getElem_mem hi'))
    (fun {c} => (h1 i hi c).trans (h2 i hi' c).symm)

/-- The structure of the lower right block is determined by the registered entries. -/
theorem live_pattern [AddMonoid K] {S S' : Storage K} {es : List (Nat × Nat)} {M M' : Nat → Nat → Nat → K} {v v' : Nat → K}
    (h : Live S es M v) (h' : Live S' es M' v') (e1 : S'.nConstr = S.nConstr) (e2 : S'.nUnknown = S.nUnknown) (e3 : S'.nMpc = S.nMpc)
    {F F' : Family K} (hF : matOf S = .ok F) (hF' : matOf S' = .ok F') {B B' : SpMat K} (hB : blockMat F 0 2 2 = .ok B)
    (hB' : blockMat F' 0 2 2 = .ok B') : patternOf B = patternOf B' := by
  have key : ∀ {S : Storage K} {M : Nat → Nat → Nat → K} {v : Nat → K} (h : Live S es M v) {F : Family K} (hF : matOf S = .ok F) {B : SpMat K}
      (hB : blockMat F 0 2 2 = .ok B), ∃ rows, Csr B.si rows ∧ B.si.nRows = S.nUnknown + S.nMpc ∧ DescP rows (Pos (bsizes S) es 2 2) := by
    intro S M v h F hF B hB
    obtain ⟨F', hs, h1, h2, h3, h4⟩ := h.mat
    have hFF : F' = F := by
      unfold matOf at hF; rw [h1] at hF; simpa using hF
    subst hFF
    have hQ : 0 < S.nMats := by unfold Storage.nMats; split <;> omega
    obtain ⟨si, rows, c1, c2, c3, c4, c5⟩ := blockMat_ok (hsmall S) h2 (a := 2) (b := 2) (by omega) (by omega) (by simp)
    obtain ⟨w, w1, _⟩ := c5 0 (by omega)
    rw [hB, Res.ok.injEq] at w1
    subst w1
    exact ⟨rows, c1, c2, c4⟩
  obtain ⟨rows, a1, a2, a3⟩ := key h hF hB
  obtain ⟨rows', b1, b2, b3⟩ := key h' hF' hB'
  have hbs : bsizes S' = bsizes S := by unfold bsizes; rw [e1, e2, e3]
  rw [hbs] at b3
  have hr : rows = rows' := rows_unique a3 b3 (by rw [a1.len, b1.len, a2, b2, e2, e3]) a1.sorted b1.sorted
  subst hr
  unfold patternOf
  rw [a2, b2, e2, e3, a1.iof, b1.iof, a1.cols, b1.cols]

/-! ## One call -/

section calls
variable [DecidableEq K]

/-- The object before a call: unused and told the type of the matrix, or holding factors of a matrix of structure `p` that the library
has analysed without error. -/
def Ready (L : Lib K) (p : Pattern) (o : Obj K) : Prop :=
  (o.firstRun = true ∧ o.isSymmetric = true ∧ o.isPositive = false) ∨ (L.symbolic (-2) p = true ∧ ∃ a, Loaded (-2) p a o)

/-- What a call delivers: nothing but the library decides. -/
def outcome (L : Lib K) (p : Pattern) (a rhs : List K) : Res (List K) :=
  if L.symbolic (-2) p = true ∧ L.numeric (-2) p a = true then
    match L.backsub (-2) p a rhs with
    | some X => .ok X
    | none => .fatal
  else .fatal

theorem factorize_ready {L : Lib K} {p : Pattern} (hp : p.Legal) {o : Obj K} (h : Ready L p o) {B : SpMat K} {a : List K} (hB : Has p B a) :
    (L.symbolic (-2) p = true ∧ L.numeric (-2) p a = true ∧ ∃ o', o.factorize L B = .ok o' ∧ Loaded (-2) p a o') ∨
    (¬ (L.symbolic (-2) p = true ∧ L.numeric (-2) p a = true) ∧ o.factorize L B = .fatal) := by
  rcases h with ⟨h1, h2, h3⟩ | ⟨hs, b, h⟩
  · have e1 : o.factorize L B = if L.symbolic (-2) p = true then
        (if L.numeric (-2) p a = true then
          .ok { o with handle := .factored (-2) p a, nEq := p.n, firstRun := false, mtype := -2 } else .fatal) else .fatal := by
      unfold Obj.factorize Obj.initialize Lib.phase11 Lib.phase22
      simp only [h1, h2, h3, if_true, Bool.not_true, Bool.false_eq_true, if_false, hB.n, hB.arrays, Res.ok_bind, hp, hB.len, and_self]
      by_cases hs : L.symbolic (-2) p = true
      · rw [if_pos hs, if_pos hs]
        simp only [Res.ok_bind, ne_eq, not_true, if_false, hB.arrays, and_self, if_true, hB.len]
      · rw [if_neg hs, if_neg hs]
        rfl
    rw [e1]
    by_cases hs : L.symbolic (-2) p = true
    · by_cases hn : L.numeric (-2) p a = true
      · rw [if_pos hs, if_pos hn]
        exact Or.inl ⟨hs, hn, _, rfl, rfl, rfl, rfl, rfl⟩
      · rw [if_pos hs, if_neg hn]
        exact Or.inr ⟨fun hh => hn hh.2, rfl⟩
    · rw [if_neg hs]
      exact Or.inr ⟨fun hh => hs hh.1, rfl⟩
  · have e1 : o.factorize L B = if L.numeric (-2) p a = true then .ok { o with handle := .factored (-2) p a, firstRun := false }
        else .fatal := by
      unfold Obj.factorize Lib.phase22
      simp only [h.first, h.nEq, h.handle, h.mtype, Bool.false_eq_true, if_false, Res.ok_bind, hB.n, ne_eq, not_true, hB.arrays,
        and_self, hB.len, if_true]
    rw [e1]
    by_cases hn : L.numeric (-2) p a = true
    · rw [if_pos hn]
      exact Or.inl ⟨hs, hn, _, rfl, h.nEq, rfl, h.mtype, rfl⟩
    · rw [if_neg hn]
      exact Or.inr ⟨fun hh => hn hh.2, rfl⟩

theorem substitute_loaded {L : Lib K} {p : Pattern} {a : List K} {o : Obj K} (h : Loaded (-2) p a o) {B : SpMat K}
    (hB : Has p B a) {rhs : List K} (hr : rhs.length = p.n) :
    o.substitute L B rhs = match L.backsub (-2) p a rhs with | some X => .ok X | none => .fatal := by
  unfold Obj.substitute Lib.phase33
  simp only [h.nEq, h.handle, h.mtype, hB.arrays, Res.ok_bind, and_self, hr, if_true]
  cases L.backsub (-2) p a rhs <;> rfl

/-- A call of `solveEquations` on a ready object. -/
theorem solve_ready {L : Lib K} {p : Pattern} (hp : p.Legal) {o : Obj K} (h : Ready L p o) {B : SpMat K} {a : List K} (hB : Has p B a)
    {rhs : List K} (hr : rhs.length = p.n) :
    (o.solve L B rhs = .fatal ∧ outcome L p a rhs = .fatal) ∨
    ∃ o' X, o.solve L B rhs = .ok (o', X) ∧ outcome L p a rhs = .ok X ∧ Ready L p o' := by
  unfold outcome Obj.solve
  rcases factorize_ready hp h hB with ⟨hs, hn, o', e, ho⟩ | ⟨hn, e⟩
  · rw [if_pos ⟨hs, hn⟩, e]
    simp only [Res.ok_bind, substitute_loaded ho hB hr]
    cases hX : L.backsub (-2) p a rhs with
    | some X => exact Or.inr ⟨o', X, rfl, rfl, Or.inr ⟨hs, a, ho⟩⟩
    | none => exact Or.inl ⟨rfl, rfl⟩
  · rw [if_neg hn, e]
    exact Or.inl ⟨rfl, rfl⟩

/-- A call on a new object gives the same. -/
theorem eqs_ready {L : Lib K} {p : Pattern} (hp : p.Legal) {B : SpMat K} {a : List K} (hB : Has p B a) {rhs : List K}
    (hr : rhs.length = p.n) (guess : List K) : eqs L B rhs guess = outcome L p a rhs := by
  have h0 : Ready L p ((Obj.valued.setSymmetric true).setPositive false) := Or.inl ⟨rfl, rfl, rfl⟩
  unfold eqs
  rcases solve_ready hp h0 hB hr with ⟨e1, e2⟩ | ⟨o', X, e1, e2, _⟩ <;> rw [e1, e2] <;> rfl

theorem told_ready (L : Lib K) (p : Pattern) {o : Obj K} (h : o.firstRun = true) :
    Ready L p ((o.setSymmetric true).setPositive false) := Or.inl ⟨h, rfl, rfl⟩

/-- The destructor of a ready object that was value-initialised or used. -/
theorem ready_destroy {L : Lib K} {p : Pattern} {o : Obj K} (h : Ready L p o) (hu : o.firstRun = false) : ∃ x, o.destroy = .ok x := by
  rcases h with ⟨h1, _⟩ | ⟨_, a, ha⟩
  · rw [hu] at h1; cases h1
  · unfold Obj.destroy; rw [ha.handle]; exact ⟨_, rfl⟩

end calls

/-! ## One iteration -/

section nonlinear
variable [Field K] [LinearOrder K] {E : Type} {S0 S1 : Storage K} {calls : List RegCall} {new : List (Mpc K)} {loads fixs : List (Bc K)}
    {num' : Key → Nat} {A : Side → Spec} {el : Elems E K}

/-- `condense` and `condenseO` up to the call of the equation solver and after it. -/
theorem condense_both {S : Storage K} {M : Nat → Nat → Nat → K} {v u r : Nat → K} (hp : Pre S1 A)
    (h : Run S1 S A M v u r) {uc : List K} {x : Nat → K} (hx : IsVec uc S1.nConstr x) :
    ∃ F B rows rhs, matOf S = .ok F ∧ blockMat F 0 2 2 = .ok B ∧
      SymBlk B (S1.nUnknown + S1.nMpc) rows (fun p c => M 0 (S1.nConstr + p) (S1.nConstr + c)) ∧
      rhs.length = S1.nUnknown + S1.nMpc ∧
      ∃ g : List K → Res (List K × List K), (∀ (eqs' : EqSolver K) guess, condense eqs' S uc guess = eqs' B rhs guess >>= g) ∧
        (∀ L o, condenseO L o S uc = o.solve L B rhs >>= fun q => g q.2 >>= fun y => .ok (q.1, y)) ∧
        ∀ X, X.length = S1.nUnknown + S1.nMpc → ∃ y, g X = .ok y := by
  obtain ⟨F, hF, rows1, rows2, hb⟩ := live_blocks h.during.live
  have hQ : 0 < S.nMats := by unfold Storage.nMats; split <;> omega
  obtain ⟨⟨K11, b1, b2⟩, ⟨K12, c1, c2⟩, ⟨K22, d1, d2⟩⟩ := hb 0 hQ
  have hnc := h.nConstr
  have hnu := h.nUnknown
  have hnm := h.nMpc
  rw [hnc] at b2 c2 d2
  rw [hnu, hnm] at c2 d2
  have hd := hp.dofs
  have hFs := h.F.seg (off := S1.nConstr) (n := S1.nUnknown + S1.nMpc) (by omega)
  have hRs := h.R.seg (off := S1.nConstr) (n := S1.nUnknown + S1.nMpc) (by omega)
  have hrhs0 := ((IsVec.replicate (S1.nUnknown + S1.nMpc) (0 : K)).zipWith (· + ·) hFs).zipWith (· + ·) hRs
  obtain ⟨rhs, g1, g2⟩ := c2.btv hx hrhs0 (-1)
  refine ⟨F, K22, rows2, rhs, hF, d1, d2, g2.1, fun X => (do
      let Rc ← K11.matBVprodSym big uc 1 (List.replicate S1.nConstr 0)
      let Rc ← K12.matBVprod X 1 Rc
      .ok (X, List.zipWith (· - ·) Rc (seg S.vecF 0 S1.nConstr))), ?_, ?_, ?_⟩
  · intro eqs' guess
    unfold condense
    rw [hF]
    simp only [Res.ok_bind, b1, c1, d1, hnc, hnu, hnm, g1]
  · intro L o
    obtain ⟨R1, k1, k2⟩ := b2.bv hx (IsVec.replicate S1.nConstr (0 : K)) 1
    unfold condenseO
    rw [hF]
    simp only [Res.ok_bind, b1, c1, d1, hnc, hnu, hnm, g1, k1]
    cases o.solve L K22 rhs with
    | ok q =>
      simp only [Res.ok_bind]
      cases K12.matBVprod q.2 1 R1 <;> rfl
    | fatal => rfl
    | assert => rfl
    | ub => rfl
  · intro X hX
    obtain ⟨R1, k1, k2⟩ := b2.bv hx (IsVec.replicate S1.nConstr (0 : K)) 1
    have hXv : IsVec X (S1.nUnknown + S1.nMpc) (fun j => X.getD j 0) := ⟨hX, fun _ _ => rfl⟩
    obtain ⟨R2, l1, l2⟩ := c2.bv hXv k2 1
    exact ⟨_, by simp only [k1, Res.ok_bind, l1]; rfl⟩

/-- `iteration` and `iterationO` up to the call of the equation solver and after it. -/
theorem iteration_both (hb : Base S0 S1 calls new fixs num' A) (hloads : ∀ l ∈ loads, keyOf l ∈ regKeys calls)
    (hel : LegalElems el S1 (regKeys calls) num') {s : NState E K} (hrun : Running S1 A s.S)
    (hk : Books S1 (regKeys calls) num' fixs s) :
    ∃ S3 F B rows f rhs guess, Running S1 A S3 ∧ matOf S3 = .ok F ∧ blockMat F 0 2 2 = .ok B ∧
      SymBlk B (S1.nUnknown + S1.nMpc) rows f ∧ rhs.length = S1.nUnknown + S1.nMpc ∧
      ∃ g : List K → Res (NState E K), (∀ eqs' : EqSolver K, iteration eqs' el loads fixs s = eqs' B rhs guess >>= g) ∧
        (∀ L o, iterationO L el loads fixs o s = o.solve L B rhs >>= fun q => g q.2 >>= fun y => .ok (q.1, y)) ∧
        ∀ X, X.length = S1.nUnknown + S1.nMpc → ∃ y, g X = .ok y := by
  obtain ⟨M, v, u, r, hrun⟩ := hrun
  have hd := hb.prep.pre.dofs
  have hz := hrun.zeroR
  obtain ⟨hl1, hl2, hl3⟩ := hel s.e (zeroR s.S) hz.alike
  obtain ⟨S2, a1, a2, a3⟩ := hz.assemble hb.prep.pre (build := el.build s.e (zeroR s.S)) (cm := el.cm s.e (zeroR s.S))
    (upd := el.upd s.e (zeroR s.S))
    (fun c hc => wanted_fine hb.prep hb.agree ((hl1 c hc).wanted hb))
    (fun c hc => wanted_fine hb.prep hb.agree ((hl2 c hc).wanted hb)) hl3
  obtain ⟨S3, b1, b2, b3⟩ := run_bc hb.prep.pre a3 s.tc.nextEquilibriumStep.normalized (loads := loads) (fixs := fixs)
    (fun l hll => hb.some (hloads l hll)) (fun f hf => ⟨hb.some (hb.fixes f hf), by
      rw [hb.bc (hb.fixes f hf)]; exact (hb.fixRange (List.mem_map.mpr ⟨f, hf, rfl⟩)).2⟩)
  have c1 := b3.nConstr
  have hprev : IsVec s.ucPrev S1.nConstr u := by
    rw [hk.prev]
    exact (hrun.U.seg (off := 0) (by omega)).congr (fun i _ => by rw [Nat.zero_add])
  have hdUc := (b3.U.seg (off := 0) (n := S1.nConstr) (by omega)).zipWith (· - ·) hprev
  obtain ⟨F, B, rows, rhs, e1, e2, e3, e4, g, e5, e6, e7⟩ := condense_both hb.prep.pre b3 hdUc
  rw [← c1] at e5 e6
  refine ⟨S3, F, B, rows, _, rhs, seg (put s.deltaU 0 (List.zipWith (· - ·) (seg S3.vecU 0 S3.nConstr) s.ucPrev)) S3.nConstr
      (S3.nUnknown + S3.nMpc), ⟨_, _, _, _, b3⟩, e1, e2, e3, e4, fun X => (do
      let (x, Rc) ← g X
      let D := put (put s.deltaU 0 (List.zipWith (· - ·) (seg S3.vecU 0 S3.nConstr) s.ucPrev)) S3.nConstr x
      let U := put (put S3.vecU S3.nConstr (List.zipWith (· + ·) (seg S3.vecU S3.nConstr S3.nUnknown)
        (seg D S3.nConstr S3.nUnknown))) (S3.nConstr + S3.nUnknown) (seg D (S3.nConstr + S3.nUnknown) S3.nMpc)
      let S := withUR S3 U (put S3.vecR 0 Rc)
      .ok ⟨S, el.update s.e S, seg U 0 S3.nConstr, D, s.tc.nextEquilibriumStep,
        s.trace ++ [(s.tc.nextEquilibriumStep.normalized, D)]⟩), ?_, ?_, ?_⟩
  · intro eqs'
    unfold iteration
    simp only [a1, Res.ok_bind, b1, e5]
    cases eqs' B rhs (seg (put s.deltaU 0 (List.zipWith (· - ·) (seg S3.vecU 0 S3.nConstr) s.ucPrev)) S3.nConstr
      (S3.nUnknown + S3.nMpc)) with
    | ok X => rfl
    | fatal => rfl
    | assert => rfl
    | ub => rfl
  · intro L o
    unfold iterationO
    simp only [a1, Res.ok_bind, b1, e6]
    cases o.solve L B rhs with
    | ok q =>
      simp only [Res.ok_bind]
      cases g q.2 with
      | ok y => rfl
      | fatal => rfl
      | assert => rfl
      | ub => rfl
    | fatal => rfl
    | assert => rfl
    | ub => rfl
  · intro X hX
    obtain ⟨y, hy⟩ := e7 X hX
    exact ⟨_, by simp only [hy, Res.ok_bind]; rfl⟩

/-- The structure of the matrix in a running storage. -/
theorem running_pattern (hb : Base S0 S1 calls new fixs num' A) :
    ∃ p : Pattern, ∀ S, Running S1 A S → ∀ F B, matOf S = .ok F → blockMat F 0 2 2 = .ok B → patternOf B = p := by
  have hrun := hb.run
  obtain ⟨F, hF, rows1, rows2, hbl⟩ := live_blocks hrun.during.live
  have hQ : 0 < S1.nMats := by unfold Storage.nMats; split <;> omega
  obtain ⟨_, _, ⟨B, b1, _⟩⟩ := hbl 0 hQ
  refine ⟨patternOf B, ?_⟩
  rintro S ⟨M, v, u, r, h⟩ F' B' hF' hB'
  refine (live_pattern hrun.during.live h.during.live ?_ ?_ ?_ hF hF' b1 hB').symm
  · exact h.nConstr
  · exact h.nUnknown
  · exact h.nMpc

/-! ## A whole nonlinear solution -/

/-- The result without the object. -/
def dropObj {α : Type} : Option (Res (Obj K × α)) → Option (Res α)
  | none => none
  | some (.ok q) => some (.ok q.2)
  | some .fatal => some .fatal
  | some .assert => some .assert
  | some .ub => some .ub

/-- A solver that does on legal matrices what a new object does. -/
def Like (L : Lib K) (eqs' : EqSolver K) : Prop := ∀ B rhs guess, Suits B → eqs' B rhs guess = eqs L B rhs guess

theorem like_guard (L : Lib K) : Like L (guard L) := fun B rhs guess h => by unfold guard; rw [if_pos h]

/-- What is known between two iterations. -/
structure Between (L : Lib K) (p : Pattern) (S1 : Storage K) (A : Side → Spec) (regs : List Key) (num' : Key → Nat) (fixs : List (Bc K))
    (o : Obj K) (s : NState E K) : Prop where
  running : Running S1 A s.S
  books : Books S1 regs num' fixs s
  ready : Ready L p o

theorem iteration_same (hb : Base S0 S1 calls new fixs num' A) (hloads : ∀ l ∈ loads, keyOf l ∈ regKeys calls)
    (hel : LegalElems el S1 (regKeys calls) num') {L : Lib K} (hL : L.Exact) {p : Pattern} (hp : p.Legal)
    (hpat : ∀ S, Running S1 A S → ∀ F B, matOf S = .ok F → blockMat F 0 2 2 = .ok B → patternOf B = p)
    {o : Obj K} {s : NState E K} (h : Between L p S1 A (regKeys calls) num' fixs o s) :
    (iterationO L el loads fixs o s = .fatal ∧ ∀ eqs', Like L eqs' → iteration eqs' el loads fixs s = .fatal) ∨
    ∃ o' s', iterationO L el loads fixs o s = .ok (o', s') ∧ (∀ eqs', Like L eqs' → iteration eqs' el loads fixs s = .ok s') ∧
      Between L p S1 A (regKeys calls) num' fixs o' s' ∧ o'.firstRun = false := by
  obtain ⟨S3, F, B, rows, f, rhs, guess, e1, e2, e3, e4, e5, g, e6, e7, e8⟩ := iteration_both hb hloads hel h.running h.books
  have hpB := hpat S3 e1 F B e2 e3
  obtain ⟨a, ha⟩ := has_of_blk e4
  have hsuit : Suits B := ⟨_, _, _, e4, by rw [hpB]; exact hp⟩
  have hn : p.n = S1.nUnknown + S1.nMpc := by rw [← hpB]; exact e4.nRows
  rw [hpB] at ha
  have hr : rhs.length = p.n := by rw [hn]; exact e5
  have hq : ∀ eqs' : EqSolver K, Like L eqs' → iteration eqs' el loads fixs s = outcome L p a rhs >>= g := by
    intro eqs' he
    rw [e6, he B rhs guess hsuit, eqs_ready hp ha hr]
  rcases solve_ready hp h.ready ha hr with ⟨x1, x2⟩ | ⟨o', X, x1, x2, x3⟩
  · left
    refine ⟨by rw [e7, x1]; rfl, fun eqs' he => by rw [hq eqs' he, x2]; rfl⟩
  · right
    have hlen : X.length = S1.nUnknown + S1.nMpc := by
      have hb' : L.backsub (-2) p a rhs = some X := by
        unfold outcome at x2
        split at x2
        · cases hX : L.backsub (-2) p a rhs with
          | some Y => rw [hX] at x2; simp only [Res.ok.injEq] at x2; rw [x2]
          | none => rw [hX] at x2; cases x2
        · cases x2
      rw [← hn]
      exact (hL _ _ _ _ _ hp ha.len hr hb').1
    obtain ⟨s', hs'⟩ := e8 X hlen
    have hit : ∀ eqs' : EqSolver K, Like L eqs' → iteration eqs' el loads fixs s = .ok s' := by
      intro eqs' he
      rw [hq eqs' he, x2, Res.ok_bind, hs']
    refine ⟨o', s', by rw [e7, x1]; simp only [Res.ok_bind, hs'], hit, ?_, ?_⟩
    · rcases iteration_ok hb hloads hel (guard_exact hL) h.running h.books with ⟨hf, _⟩ | ⟨s'', h1, h2, h3, _, _⟩
      · rw [hit _ (like_guard L)] at hf; cases hf
      · rw [hit _ (like_guard L), Res.ok.injEq] at h1
        subst h1
        exact ⟨h2, h3, x3⟩
    · unfold Obj.solve at x1
      rcases factorize_ready hp h.ready ha with ⟨_, _, o2, k1, k2⟩ | ⟨_, k1⟩
      · rw [k1] at x1
        simp only [Res.ok_bind] at x1
        cases hx : o2.substitute L B rhs with
        | ok Y => rw [hx] at x1; simp only [Res.ok_bind, Res.ok.injEq, Prod.mk.injEq] at x1; rw [← x1.1]; exact k2.first
        | fatal => rw [hx] at x1; cases x1
        | assert => rw [hx] at x1; cases x1
        | ub => rw [hx] at x1; cases x1
      · rw [k1] at x1; cases x1

theorem loadStep_same (hb : Base S0 S1 calls new fixs num' A) (hloads : ∀ l ∈ loads, keyOf l ∈ regKeys calls)
    (hel : LegalElems el S1 (regKeys calls) num') {L : Lib K} (hL : L.Exact) {p : Pattern} (hp : p.Legal)
    (hpat : ∀ S, Running S1 A S → ∀ F B, matOf S = .ok F → blockMat F 0 2 2 = .ok B → patternOf B = p) (st : Settings K) :
    ∀ (fuel : Nat) {o : Obj K} {s : NState E K}, Between L p S1 A (regKeys calls) num' fixs o s →
    (∀ eqs', Like L eqs' → dropObj (loadStepO L el loads fixs st fuel o s) = loadStep eqs' el loads fixs st fuel s) ∧
    ∀ o' s', loadStepO L el loads fixs st fuel o s = some (.ok (o', s')) →
      Between L p S1 A (regKeys calls) num' fixs o' s' ∧ o'.firstRun = false := by
  intro fuel
  induction fuel with
  | zero => intro o s _; exact ⟨fun _ _ => rfl, fun o' s' h => by cases h⟩
  | succ n ih =>
    intro o s h
    rcases iteration_same hb hloads hel hL hp hpat h with ⟨h1, h2⟩ | ⟨o1, s1, h1, h2, h3, h4⟩
    · refine ⟨fun eqs' he => by unfold loadStepO loadStep; rw [h1, h2 eqs' he]; rfl, fun o' s' hh => ?_⟩
      unfold loadStepO at hh; rw [h1] at hh; cases hh
    · cases hj : judge st s1 with
      | converged =>
        refine ⟨fun eqs' he => by simp only [loadStepO, loadStep, h1, h2 eqs' he, hj, dropObj], fun o' s' hh => ?_⟩
        simp only [loadStepO, h1, hj, Option.some.injEq, Res.ok.injEq, Prod.mk.injEq] at hh
        obtain ⟨rfl, rfl⟩ := hh
        exact ⟨h3, h4⟩
      | diverged =>
        exact ⟨fun eqs' he => by simp only [loadStepO, loadStep, h1, h2 eqs' he, hj, dropObj],
          fun o' s' hh => by simp [loadStepO, h1, hj] at hh⟩
      | giveUp =>
        exact ⟨fun eqs' he => by simp only [loadStepO, loadStep, h1, h2 eqs' he, hj, dropObj],
          fun o' s' hh => by simp [loadStepO, h1, hj] at hh⟩
      | again =>
        refine ⟨fun eqs' he => ?_, fun o' s' hh => ?_⟩
        · simp only [loadStepO, loadStep, h1, h2 eqs' he, hj]
          exact (ih h3).1 eqs' he
        · simp only [loadStepO, h1, hj] at hh
          exact (ih h3).2 o' s' hh

theorem loadSteps_same (hb : Base S0 S1 calls new fixs num' A) (hloads : ∀ l ∈ loads, keyOf l ∈ regKeys calls)
    (hel : LegalElems el S1 (regKeys calls) num') {L : Lib K} (hL : L.Exact) {p : Pattern} (hp : p.Legal)
    (hpat : ∀ S, Running S1 A S → ∀ F B, matOf S = .ok F → blockMat F 0 2 2 = .ok B → patternOf B = p) (st : Settings K) (delta : K)
    (inner : Nat) :
    ∀ (fuel : Nat) {o : Obj K} {s : NState E K} (seen : List Nat), Between L p S1 A (regKeys calls) num' fixs o s →
    (∀ eqs', Like L eqs' →
      dropObj (loadStepsO L el loads fixs st delta inner fuel o s seen) = loadSteps eqs' el loads fixs st delta inner fuel s seen) ∧
    ∀ o' s', loadStepsO L el loads fixs st delta inner fuel o s seen = some (.ok (o', s')) →
      Ready L p o' ∧ (o' = o ∨ o'.firstRun = false) := by
  intro fuel
  induction fuel with
  | zero => intro o s seen _; exact ⟨fun _ _ => rfl, fun o' s' h => by cases h⟩
  | succ n ih =>
    intro o s seen h
    cases hn : s.tc.nextStep delta with
    | ok q =>
      obtain ⟨b, tc⟩ := q
      cases b with
      | false =>
        refine ⟨fun eqs' _ => by simp only [loadStepsO, loadSteps, hn, dropObj], fun o' s' hh => ?_⟩
        simp only [loadStepsO, hn, Option.some.injEq, Res.ok.injEq, Prod.mk.injEq] at hh
        rw [← hh.1]
        exact ⟨h.ready, Or.inl rfl⟩
      | true =>
        have h' : Between L p S1 A (regKeys calls) num' fixs o { s with tc := tc } := ⟨h.running, h.books.tc tc, h.ready⟩
        obtain ⟨k1, k2⟩ := loadStep_same hb hloads hel hL hp hpat st inner h'
        simp only [loadStepsO, loadSteps, hn]
        cases hl : loadStepO L el loads fixs st inner o { s with tc := tc } with
        | none =>
          rw [hl] at k1
          exact ⟨fun eqs' he => by rw [← k1 eqs' he]; rfl, fun o' s' hh => by simp at hh⟩
        | some r =>
          rw [hl] at k1
          cases r with
          | ok q =>
            obtain ⟨o1, s1⟩ := q
            obtain ⟨m1, m2⟩ := k2 o1 s1 hl
            obtain ⟨j1, j2⟩ := ih (seen ++ [s1.tc.currentStep]) m1
            refine ⟨fun eqs' he => by rw [← k1 eqs' he]; exact j1 eqs' he, fun o' s' hh => ?_⟩
            obtain ⟨i1, i2⟩ := j2 o' s' hh
            refine ⟨i1, Or.inr ?_⟩
            rcases i2 with rfl | i2
            · exact m2
            · exact i2
          | fatal => exact ⟨fun eqs' he => by rw [← k1 eqs' he]; rfl, fun o' s' hh => by simp at hh⟩
          | assert => exact ⟨fun eqs' he => by rw [← k1 eqs' he]; rfl, fun o' s' hh => by simp at hh⟩
          | ub => exact ⟨fun eqs' he => by rw [← k1 eqs' he]; rfl, fun o' s' hh => by simp at hh⟩
    | fatal => exact ⟨fun eqs' _ => by simp only [loadStepsO, loadSteps, hn, dropObj], fun o' s' hh => by simp [loadStepsO, hn] at hh⟩
    | assert => exact ⟨fun eqs' _ => by simp only [loadStepsO, loadSteps, hn, dropObj], fun o' s' hh => by simp [loadStepsO, hn] at hh⟩
    | ub => exact ⟨fun eqs' _ => by simp only [loadStepsO, loadSteps, hn, dropObj], fun o' s' hh => by simp [loadStepsO, hn] at hh⟩

/-- **C112, nonlinear solution.** `NonlinearFESolver` with PARDISO on a problem without constraint equations whose free DoFs all belong to
elements: analysing the structure once and using the same object in all iterations of all load steps gives what a new object in every
iteration would give (`eqs L`), in every case; afterwards the object can be destroyed. This is the run of an exact equation solver, so
what C21, C93-C95, C99-C101, C106 and C107 say for these holds with PARDISO. -/
theorem C112_nonlinear_partial (h : Problem S0 calls new loads fixs el) {L : Lib K} (hL : L.Exact)
    (hc : Complete S0.elements (S0.mpcs ++ new) (regKeys calls) (fixKeys fixs)) (st : Settings K) (tc : TimeControl K) {o : Obj K}
    (ho : o.firstRun = true) (e : E) (inner fuel : Nat) :
    dropObj (nonlinearSolveO L el loads fixs st tc calls new o S0 e inner fuel) =
      nonlinearSolve (eqs L) el loads fixs st tc calls new S0 e inner fuel ∧
    (∃ eqs', Exact eqs' ∧ Like L eqs' ∧ nonlinearSolve (eqs L) el loads fixs st tc calls new S0 e inner fuel =
      nonlinearSolve eqs' el loads fixs st tc calls new S0 e inner fuel) ∧
    ∀ o' r, nonlinearSolveO L el loads fixs st tc calls new o S0 e inner fuel = some (.ok (o', r)) →
      o' = o.told ∨ ∃ x, o'.destroy = .ok x := by
  rcases prepare_or_fatal h.legal with hf | ⟨S1, num', A, hprep, hnum, hb⟩
  · refine ⟨?_, ⟨guard L, guard_exact hL, like_guard L, ?_⟩, ?_⟩
    · unfold nonlinearSolveO nonlinearSolve; rw [hf]; rfl
    · unfold nonlinearSolve; rw [hf]
    · intro o' r hh; unfold nonlinearSolveO at hh; rw [hf] at hh; cases hh
  obtain ⟨p, hpat⟩ := running_pattern hb
  have hp : p.Legal := by
    have hrun := hb.run
    obtain ⟨F, hF, rows1, rows2, hbl⟩ := live_blocks hrun.during.live
    have hQ : 0 < S1.nMats := by unfold Storage.nMats; split <;> omega
    obtain ⟨_, _, ⟨B, b1, _⟩⟩ := hbl 0 hQ
    rw [← hpat S1 ⟨_, _, _, _, hrun⟩ F B hF b1]
    exact (run_legal h.legal hprep hb hrun hF b1).mpr hc
  have hstart : Between L p S1 A (regKeys calls) num' fixs o.told (⟨S1, e, List.replicate S1.nConstr 0,
      List.replicate (S1.nConstr + S1.nUnknown + S1.nMpc) 0, tc, []⟩ : NState E K) :=
    ⟨⟨_, _, _, _, hb.run⟩, books_start hb e tc, told_ready L p ho⟩
  obtain ⟨k1, k2⟩ := loadSteps_same hb h.loads (h.elems S1 num' hprep hnum) hL hp hpat st
    ((tc.endTime - tc.startTime) / st.nSteps) inner fuel [] hstart
  have hO : nonlinearSolveO L el loads fixs st tc calls new o S0 e inner fuel = loadStepsO L el loads fixs st
      ((tc.endTime - tc.startTime) / st.nSteps) inner fuel o.told ⟨S1, e, List.replicate S1.nConstr 0,
        List.replicate (S1.nConstr + S1.nUnknown + S1.nMpc) 0, tc, []⟩ [] := by
    simp only [nonlinearSolveO, hprep]
  have hE : ∀ eqs' : EqSolver K, nonlinearSolve eqs' el loads fixs st tc calls new S0 e inner fuel = loadSteps eqs' el loads fixs st
      ((tc.endTime - tc.startTime) / st.nSteps) inner fuel ⟨S1, e, List.replicate S1.nConstr 0,
        List.replicate (S1.nConstr + S1.nUnknown + S1.nMpc) 0, tc, []⟩ [] := by
    intro eqs'
    simp only [nonlinearSolve, hprep]
  rw [hO]
  refine ⟨?_, ⟨guard L, guard_exact hL, like_guard L, ?_⟩, ?_⟩
  · rw [hE, k1 _ (fun _ _ _ _ => rfl)]
  · rw [hE, hE, ← k1 _ (like_guard L), k1 _ (fun _ _ _ _ => rfl)]
  · intro o' r hh
    obtain ⟨m1, m2⟩ := k2 o' r hh
    rcases m2 with m2 | m2
    · exact Or.inl m2
    · exact Or.inr (ready_destroy m1 m2)

/-- A structure that is not legal: the first call of a new object is outside the contract of the library. -/
theorem factorize_ub (L : Lib K) {o : Obj K} (ho : o.firstRun = true) {B : SpMat K} {n : Nat} {rows : List (List Nat)}
    {f : Nat → Nat → K} (h : SymBlk B n rows f) (hl : ¬ (patternOf B).Legal) : o.told.factorize L B = .ub := by
  obtain ⟨a, ha⟩ := has_of_blk h
  have h1 : arrays B.si.nRows B = .ok (patternOf B, a) := ha.arrays
  unfold Obj.factorize Obj.initialize Lib.phase11
  simp only [Obj.told, Obj.setPositive, Obj.setSymmetric, ho, if_true, Bool.not_true, Bool.false_eq_true, if_false, h1, Res.ok_bind,
    if_neg (fun hh : _ ∧ _ => hl hh.1)]
  rfl

/-- **C112, the other models.** With a constraint equation, or with a free DoF that no element uses, the first iteration of
`NonlinearFESolver` with PARDISO leaves the contract of the library (if the preparation is finished and there is a first load step). -/
theorem C112_nonlinear_violated (h : Problem S0 calls new loads fixs el) (L : Lib K)
    (hc : ¬ Complete S0.elements (S0.mpcs ++ new) (regKeys calls) (fixKeys fixs)) {st : Settings K} {tc tc' : TimeControl K}
    (ht : tc.nextStep ((tc.endTime - tc.startTime) / st.nSteps) = .ok (true, tc')) {o : Obj K}
    (ho : o.firstRun = true) (e : E) {inner fuel : Nat} (hi : 0 < inner) (hf : 0 < fuel) :
    (nonlinearSolveO L el loads fixs st tc calls new o S0 e inner fuel = some .fatal ∧ S0.prepare calls new (fixKeys fixs) = .fatal) ∨
    (nonlinearSolveO L el loads fixs st tc calls new o S0 e inner fuel = some .ub ∧
      ∃ S1, S0.prepare calls new (fixKeys fixs) = .ok S1) := by
  rcases prepare_or_fatal h.legal with hf | ⟨S1, num', A, hprep, hnum, hb⟩
  · left; refine ⟨?_, hf⟩; unfold nonlinearSolveO; rw [hf]
  right
  refine ⟨?_, S1, hprep⟩
  obtain ⟨inner, rfl⟩ : ∃ m, inner = m + 1 := ⟨inner - 1, by omega⟩
  obtain ⟨fuel, rfl⟩ : ∃ m, fuel = m + 1 := ⟨fuel - 1, by omega⟩
  obtain ⟨S3, F, B, rows, f, rhs, guess, ⟨M, v, u, r, e1⟩, e2, e3, e4, e5, g, e6, e7, e8⟩ := iteration_both
    (s := (⟨S1, e, List.replicate S1.nConstr 0, List.replicate (S1.nConstr + S1.nUnknown + S1.nMpc) 0, tc', []⟩ : NState E K))
    hb h.loads (h.elems S1 num' hprep hnum) ⟨_, _, _, _, hb.run⟩ (books_start hb e tc')
  have hleg : ¬ (patternOf B).Legal := fun hl => hc ((run_legal h.legal hprep hb e1 e2 e3).mp hl)
  have hit : iterationO L el loads fixs o.told (⟨S1, e, List.replicate S1.nConstr 0,
      List.replicate (S1.nConstr + S1.nUnknown + S1.nMpc) 0, tc', []⟩ : NState E K) = .ub := by
    rw [e7]
    unfold Obj.solve
    rw [factorize_ub L ho e4 hleg]
    rfl
  simp only [nonlinearSolveO, hprep, loadStepsO, ht, loadStepO, hit]

end nonlinear

/-! ## A whole transient solution -/

section transient
variable [Field K] [LinearOrder K] {E : Type} {S0 S1 : Storage K} {calls : List RegCall} {new : List (Mpc K)} {loads fixs : List (Bc K)}
    {num' : Key → Nat} {A : Side → Spec} {el : Elems E K}

theorem timeLoop_congr {f g : TState E K → Res (TState E K)} (P : TState E K → Prop) (hfg : ∀ s, P s → f s = g s)
    (hP : ∀ s s', P s → f s = .ok s' → P s') (dt t1 : K) : ∀ (fuel : Nat) (cur : K) (k : Nat) (s : TState E K)
    (seen : List (Nat × K × TState E K)), P s → timeLoop f dt t1 fuel cur k s seen = timeLoop g dt t1 fuel cur k s seen := by
  intro fuel
  induction fuel with
  | zero => intro _ _ _ _ _; rfl
  | succ n ih =>
    intro cur k s seen hs
    by_cases hle : cur ≤ t1
    · have hg := hfg s hs
      cases hf : f s with
      | ok s' =>
        rw [hf] at hg
        simp only [timeLoop, if_pos hle, hf, ← hg]
        exact ih _ _ _ _ (hP s s' hs hf)
      | fatal => rw [hf] at hg; simp only [timeLoop, if_pos hle, hf, ← hg]
      | assert => rw [hf] at hg; simp only [timeLoop, if_pos hle, hf, ← hg]
      | ub => rw [hf] at hg; simp only [timeLoop, if_pos hle, hf, ← hg]
    · simp only [timeLoop, if_neg hle]

/-- `timeStep` and `timeStepO` up to the call of the equation solver and after it. -/
theorem timeStep_both (hp : Pre S1 A) (ht : S1.transient = true) (nm : Newmark K) (Km : SpMat K)
    {M : Nat → Nat → Nat → K} {v u r w z : Nat → K} {s : TState E K} (h : TRun S1 A M v u r w z s) :
    ∃ rhs guess, rhs.length = S1.nUnknown + S1.nMpc ∧ ∃ g : List K → Res (TState E K),
      (∀ eqs' : EqSolver K, timeStep eqs' el nm Km s = eqs' Km rhs guess >>= g) ∧
      ∀ L o, timeStepO L o el nm Km s = o.substitute L Km rhs >>= g := by
  have hd := hp.dofs
  have c1 := h.run.nConstr
  have c2 := h.run.nUnknown
  have c3 := h.run.nMpc
  have hmats : s.S.nMats = 3 := by rw [h.run.nMats]; unfold Storage.nMats; rw [ht]; rfl
  obtain ⟨F, hF, rows1, rows2, hblk⟩ := live_blocks h.run.during.live
  obtain ⟨_, _, M22, hM, sM⟩ := hblk 2 (by omega)
  obtain ⟨_, _, C22, hC, sC⟩ := hblk 1 (by omega)
  rw [c1, c2, c3] at sM sC
  have hu := h.run.U.seg (off := S1.nConstr) (n := S1.nUnknown + S1.nMpc) (by omega)
  have hw := h.V.seg (off := S1.nConstr) (n := S1.nUnknown + S1.nMpc) (by omega)
  have hz := h.A.seg (off := S1.nConstr) (n := S1.nUnknown + S1.nMpc) (by omega)
  have hrhs := (h.run.F.seg (off := S1.nConstr) (n := S1.nUnknown + S1.nMpc) (by omega)).zipWith (· + ·)
    (h.run.R.seg (off := S1.nConstr) (n := S1.nUnknown + S1.nMpc) (by omega))
  obtain ⟨R1, p1, q1⟩ := sM.bv (comb3_ok nm.a0 nm.a2 nm.a3 hu hw hz) hrhs 1
  obtain ⟨R2, p2, q2⟩ := sC.bv (comb3_ok nm.a1 nm.a4 nm.a5 hu hw hz) q1 1
  rw [← c1, ← c2, ← c3] at p1 p2
  refine ⟨R2, List.replicate (s.S.nUnknown + s.S.nMpc) 0, q2.1, fun x => (do
      let Un := seg s.S.vecU 0 s.S.nConstr ++ x
      let An := List.zipWith (· - ·) (List.zipWith (· - ·) ((List.zipWith (· - ·) Un s.S.vecU).map (nm.a0 * ·))
        (s.v.map (nm.a2 * ·))) (s.a.map (nm.a3 * ·))
      let Vn := List.zipWith (· + ·) (List.zipWith (· + ·) s.v (An.map (nm.a6 * ·))) (s.a.map (nm.a7 * ·))
      let S := withUR s.S Un s.S.vecR
      .ok ⟨S, el.update s.e S, Vn, An⟩), ?_, ?_⟩
  · intro eqs'
    unfold timeStep
    simp only [hF, hM, hC, Res.ok_bind, p1, p2]
    rfl
  · intro L o
    unfold timeStepO
    simp only [hF, hM, hC, Res.ok_bind, p1, p2]
    rfl

/-- The matrix of the time steps has the structure of the stiffness matrix. -/
theorem start_pattern {nm : Newmark K} {iv : K} {S : Storage K} {e : E} {s : TState E K} {Km : SpMat K}
    (h : transientStart el loads fixs iv nm S e = .ok (s, Km)) :
    ∃ F K22, matOf s.S = .ok F ∧ blockMat F 0 2 2 = .ok K22 ∧ patternOf Km = patternOf K22 := by
  unfold transientStart at h
  simp only [Res.bind_eq_ok] at h
  obtain ⟨S2, _, S3, _, F, hF, K22, hK, C22, _, M22, _, Km', hKm, h⟩ := h
  simp only [Res.ok.injEq, Prod.mk.injEq] at h
  obtain ⟨rfl, rfl⟩ := h
  refine ⟨F, K22, hF, hK, ?_⟩
  unfold kmod at hKm
  split at hKm
  · rw [Res.bind_eq_ok] at hKm
    obtain ⟨v, _, hv⟩ := hKm
    rw [Res.ok.injEq] at hv
    rw [← hv]
    rfl
  · cases hKm

/-- The time loop on one object. -/
theorem steps_same (hpre : Pre S1 A) (htr : S1.transient = true) {L : Lib K} (hL : L.Exact) {nm : Newmark K} {Km : SpMat K}
    (hp : (patternOf Km).Legal) {rows : List (List Nat)} {M : Nat → Nat → Nat → K} {v u r w z : Nat → K}
    (hKm : SymBlk Km (S1.nUnknown + S1.nMpc) rows (kmodEntry nm M S1.nConstr)) {s : TState E K} (h : TRun S1 A M v u r w z s)
    {o : Obj K} (ho : Ready L (patternOf Km) o) (dt : K) {t1 cur : K} (hle : cur ≤ t1) {fuel : Nat} (hf : 0 < fuel) :
    (o.factorize L Km = .fatal ∧ ∀ eqs', Like L eqs' → timeLoop (timeStep eqs' el nm Km) dt t1 fuel cur 1 s [] = some .fatal) ∨
    ∃ o', o.factorize L Km = .ok o' ∧ (∃ x, o'.destroy = .ok x) ∧ ∀ eqs', Like L eqs' →
      timeLoop (timeStepO L o' el nm Km) dt t1 fuel cur 1 s [] = timeLoop (timeStep eqs' el nm Km) dt t1 fuel cur 1 s [] := by
  have hsuit : Suits Km := ⟨_, _, _, hKm, hp⟩
  obtain ⟨a, ha⟩ := has_of_blk hKm
  have hn : (patternOf Km).n = S1.nUnknown + S1.nMpc := hKm.nRows
  rcases factorize_ready hp ho ha with ⟨hs, hnum, o', e, hl⟩ | ⟨hno, e⟩
  · right
    refine ⟨o', e, by unfold Obj.destroy; rw [hl.handle]; exact ⟨_, rfl⟩, fun eqs' he => ?_⟩
    have hsame : ∀ {u w z : Nat → K} {s : TState E K}, TRun S1 A M v u r w z s → ∀ eqs' : EqSolver K, Like L eqs' →
        timeStepO L o' el nm Km s = timeStep eqs' el nm Km s := by
      intro u w z s h eqs' he
      obtain ⟨rhs, guess, h1, g, h2, h3⟩ := timeStep_both (el := el) hpre htr nm Km h
      have hr : rhs.length = (patternOf Km).n := by rw [hn]; exact h1
      rw [h2, h3, he Km rhs guess hsuit, eqs_ready hp ha hr, substitute_loaded hl ha hr]
      unfold outcome
      rw [if_pos ⟨hs, hnum⟩]
    refine timeLoop_congr (fun s => ∃ u w z, TRun S1 A M v u r w z s) ?_ ?_ dt t1 fuel cur 1 s [] ⟨u, w, z, h⟩
    · rintro s ⟨u, w, z, h⟩
      exact hsame h eqs' he
    · rintro s s' ⟨u, w, z, h⟩ hst
      rw [hsame h (guard L) (like_guard L)] at hst
      rcases timeStep_ok (guard_exact hL) hpre htr h hKm (el := el) with ⟨k, _⟩ | ⟨s2, u', w', z', k1, k2, _⟩
      · rw [hst] at k; cases k
      · rw [hst, Res.ok.injEq] at k1
        subst k1
        exact ⟨u', w', z', k2⟩
  · left
    refine ⟨e, fun eqs' he => ?_⟩
    obtain ⟨fuel, rfl⟩ : ∃ m, fuel = m + 1 := ⟨fuel - 1, by omega⟩
    obtain ⟨rhs, guess, h1, g, h2, h3⟩ := timeStep_both (el := el) hpre htr nm Km h
    have hr : rhs.length = (patternOf Km).n := by rw [hn]; exact h1
    have hst : timeStep eqs' el nm Km s = .fatal := by
      rw [h2, he Km rhs guess hsuit, eqs_ready hp ha hr]
      unfold outcome
      rw [if_neg hno]
      rfl
    simp only [timeLoop, if_pos hle, hst]

/-- **C112, transient solution.** `LinearTransientFESolver` with PARDISO on a problem without constraint equations whose free DoFs all
belong to elements: factorising once and substituting in every step gives what a new object in every step would give (`eqs L`), if at
least one step is made; afterwards the object can be destroyed. This is the run of an exact equation solver, so what C25, C26, C102,
C104 and C111 say for these holds with PARDISO. -/
theorem C112_transient_partial (h : Problem { S0 with transient := true } calls new loads fixs el) {L : Lib K} (hL : L.Exact)
    (hc : Complete S0.elements (S0.mpcs ++ new) (regKeys calls) (fixKeys fixs)) {st : TSettings K}
    (ht : st.time0 + (st.time1 - st.time0) / st.n ≤ st.time1) {o : Obj K} (ho : o.firstRun = true) (e : E) {fuel : Nat} (hf : 0 < fuel) :
    dropObj (transientSolveO L el loads fixs st calls new o S0 e fuel) = transientSolve (eqs L) el loads fixs st calls new S0 e fuel ∧
    (∃ eqs', Exact eqs' ∧ Like L eqs' ∧ transientSolve (eqs L) el loads fixs st calls new S0 e fuel =
      transientSolve eqs' el loads fixs st calls new S0 e fuel) ∧
    ∀ o' r, transientSolveO L el loads fixs st calls new o S0 e fuel = some (.ok (o', r)) → ∃ x, o'.destroy = .ok x := by
  rcases prepare_or_fatal h.legal with hfat | ⟨S1, num', A, hprep, hnum, hb⟩
  · refine ⟨?_, ⟨guard L, guard_exact hL, like_guard L, ?_⟩, ?_⟩
    · simp only [transientSolveO, transientSolve, hfat, Res.fatal_bind, dropObj]
    · simp only [transientSolve, hfat, Res.fatal_bind]
    · intro o' r hh; simp [transientSolveO, hfat] at hh
  have htr : S1.transient = true := hb.prep.ready.mesh.transient
  obtain ⟨start, Km, rows, e1, e2, e3, e4⟩ := transientStart_ok hb h.loads (h.elems S1 num' hprep hnum) htr st.initValue
    (newmark st.alpha st.delta ((st.time1 - st.time0) / st.n)) e
  obtain ⟨F, K22, hF, hK, hpK⟩ := start_pattern e1
  have hp : (patternOf Km).Legal := by
    rw [hpK]
    exact (run_legal h.legal hprep hb e3.run hF hK).mpr hc
  have hE : ∀ eqs' : EqSolver K, transientSolve eqs' el loads fixs st calls new S0 e fuel =
      timeLoop (timeStep eqs' el (newmark st.alpha st.delta ((st.time1 - st.time0) / st.n)) Km) ((st.time1 - st.time0) / st.n) st.time1
        fuel (st.time0 + (st.time1 - st.time0) / st.n) 1 start [] := by
    intro eqs'
    simp only [transientSolve, hprep, Res.ok_bind, e1]
  have hready : Ready L (patternOf Km) o.told := told_ready L _ ho
  rcases steps_same (el := el) hb.prep.pre htr hL hp e4 e3 hready ((st.time1 - st.time0) / st.n) ht hf with ⟨k1, k2⟩ | ⟨o', k1, k2, k3⟩
  · have hO : transientSolveO L el loads fixs st calls new o S0 e fuel = some .fatal := by
      simp only [transientSolveO, hprep, Res.ok_bind, e1, k1, Res.fatal_bind]
    refine ⟨?_, ⟨guard L, guard_exact hL, like_guard L, ?_⟩, ?_⟩
    · rw [hO, hE, k2 _ (fun _ _ _ _ => rfl)]; rfl
    · rw [hE, hE, k2 _ (fun _ _ _ _ => rfl), k2 _ (like_guard L)]
    · intro o2 r hh; rw [hO] at hh; cases hh
  · have hO : transientSolveO L el loads fixs st calls new o S0 e fuel = (timeLoop (timeStepO L o' el
        (newmark st.alpha st.delta ((st.time1 - st.time0) / st.n)) Km) ((st.time1 - st.time0) / st.n) st.time1
        fuel (st.time0 + (st.time1 - st.time0) / st.n) 1 start []).map (fun r => (do
          let r ← r
          .ok (o', r))) := by
      simp only [transientSolveO, hprep, Res.ok_bind, e1, k1]
    rw [hO, k3 (eqs L) (fun _ _ _ _ => rfl)]
    refine ⟨?_, ⟨guard L, guard_exact hL, like_guard L, ?_⟩, ?_⟩
    · rw [hE]
      cases timeLoop (timeStep (eqs L) el (newmark st.alpha st.delta ((st.time1 - st.time0) / st.n)) Km)
          ((st.time1 - st.time0) / st.n) st.time1 fuel (st.time0 + (st.time1 - st.time0) / st.n) 1 start [] with
      | none => rfl
      | some r => cases r <;> rfl
    · rw [hE, hE, ← k3 _ (fun _ _ _ _ => rfl), k3 _ (like_guard L)]
    · intro o2 r hh
      cases hr : timeLoop (timeStep (eqs L) el (newmark st.alpha st.delta ((st.time1 - st.time0) / st.n)) Km)
          ((st.time1 - st.time0) / st.n) st.time1 fuel (st.time0 + (st.time1 - st.time0) / st.n) 1 start [] with
      | none => rw [hr] at hh; cases hh
      | some q =>
        rw [hr] at hh
        cases q with
        | ok y =>
          simp only [Option.map_some, Res.ok_bind, Option.some.injEq, Res.ok.injEq, Prod.mk.injEq] at hh
          rw [← hh.1]
          exact k2
        | fatal => cases hh
        | assert => cases hh
        | ub => cases hh

/-- **C112, the other models.** With a constraint equation, or with a free DoF that no element uses, `LinearTransientFESolver` with
PARDISO leaves the contract of the library before its first step (if the preparation is finished). -/
theorem C112_transient_violated (h : Problem { S0 with transient := true } calls new loads fixs el) (L : Lib K)
    (hc : ¬ Complete S0.elements (S0.mpcs ++ new) (regKeys calls) (fixKeys fixs)) (st : TSettings K) {o : Obj K}
    (ho : o.firstRun = true) (e : E) (fuel : Nat) :
    (transientSolveO L el loads fixs st calls new o S0 e fuel = some .fatal ∧
      { S0 with transient := true }.prepare calls new (fixKeys fixs) = .fatal) ∨
    (transientSolveO L el loads fixs st calls new o S0 e fuel = some .ub ∧
      ∃ S1, { S0 with transient := true }.prepare calls new (fixKeys fixs) = .ok S1) := by
  rcases prepare_or_fatal h.legal with hfat | ⟨S1, num', A, hprep, hnum, hb⟩
  · left
    exact ⟨by simp only [transientSolveO, hfat, Res.fatal_bind], hfat⟩
  right
  refine ⟨?_, S1, hprep⟩
  have htr : S1.transient = true := hb.prep.ready.mesh.transient
  obtain ⟨start, Km, rows, e1, e2, e3, e4⟩ := transientStart_ok hb h.loads (h.elems S1 num' hprep hnum) htr st.initValue
    (newmark st.alpha st.delta ((st.time1 - st.time0) / st.n)) e
  obtain ⟨F, K22, hF, hK, hpK⟩ := start_pattern e1
  have hleg : ¬ (patternOf Km).Legal := by
    rw [hpK]
    exact fun hl => hc ((run_legal h.legal hprep hb e3.run hF hK).mp hl)
  simp only [transientSolveO, hprep, Res.ok_bind, e1, factorize_ub L ho e4 hleg, Res.ub_bind]

end transient

end Nla3d.Pardiso
