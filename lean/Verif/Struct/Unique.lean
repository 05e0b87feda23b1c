import Verif.Struct.Props
import Verif.Solver.Nonlinear

/-!
# C85: the solution is the only one
-/

namespace Nla3d.Struct

open Nla3d.Dof Nla3d.Block Nla3d.Sparse Nla3d.Storage Nla3d.Solver Finset

variable {K : Type} [Field K] [LinearOrder K] [IsStrictOrderedRing K]

/-- The balance of every DoF. -/
def Balanced (calls : List RegCall) (els : List (LinEl K)) (ms : List (Mpc K)) (l : List K) (u r : Key → K) : Prop :=
  ∀ k ∈ regKeys calls, (els.map fun x => x.forceOn u k).sum + conForce ms l k = r k

theorem forceOn_congr {S0 : Storage K} {calls : List RegCall} {x : LinEl K} (hx : Placed S0 calls x) {u v : Key → K}
    (h : ∀ k ∈ regKeys calls, u k = v k) (k : Key) : x.forceOn u k = x.forceOn v k := by
  unfold LinEl.forceOn LinEl.force
  refine Finset.sum_congr rfl fun a _ => ?_
  have : ∀ b ∈ range x.n, x.Ke a b * u (localKey x.nodes x.dofs b) = x.Ke a b * v (localKey x.nodes x.dofs b) := fun b hb => by
    rw [h _ (localKey_reg hx.on (Finset.mem_range.mp hb))]
  rw [Finset.sum_congr rfl this]

theorem sum_forceOn_congr {S0 : Storage K} {calls : List RegCall} {els : List (LinEl K)} (hp : ∀ x ∈ els, Placed S0 calls x)
    {u v : Key → K} (h : ∀ k ∈ regKeys calls, u k = v k) (k : Key) :
    (els.map fun x => x.forceOn u k).sum = (els.map fun x => x.forceOn v k).sum :=
  congrArg List.sum (List.map_congr_left fun x hx => forceOn_congr (hp x hx) h k)

/-- Every equation number of a DoF belongs to one. -/
theorem num_onto {S0 S1 : Storage K} {calls : List RegCall} {new : List (Mpc K)} {fixs : List (Bc K)} {num : Key → Nat}
    {A : Side → Spec} (hb : Base S0 S1 calls new fixs num A) {i : Nat} (h1 : S1.nConstr < i) (h2 : i ≤ S1.nDofs) :
    ∃ k ∈ regKeys calls, k ∉ fixKeys fixs ∧ num k = i := by
  obtain ⟨k, ⟨hk, hf⟩, he⟩ := hb.prep.ready.unk.surjOn (show i ∈ Set.Ico (S1.nConstr + 1) (S1.nDofs + 1) from ⟨by omega, by omega⟩)
  exact ⟨k, hk, hf, by rw [hb.agree k hk, he]⟩

/-- A vector with given values at the DoFs and given multipliers. -/
theorem vector_exists {S0 S1 : Storage K} {calls : List RegCall} {new : List (Mpc K)} {fixs : List (Bc K)} {num : Key → Nat}
    {A : Side → Spec} (hb : Base S0 S1 calls new fixs num A) (u : Key → K) (l : List K) (hl : l.length = (S0.mpcs ++ new).length) :
    ∃ v : Nat → K, (∀ k ∈ regKeys calls, v (num k) = u k) ∧ S1.mpcs.map (fun m => v m.eqNum) = l := by
  classical
  refine ⟨fun i => if h : ∃ k ∈ regKeys calls, num k = i then u h.choose else l.getD (i - (S1.nDofs + 1)) 0, ?_, ?_⟩
  · intro k hk
    have hex : ∃ k' ∈ regKeys calls, num k' = num k := ⟨k, hk, rfl⟩
    simp only
    rw [dif_pos hex, hb.inj _ hex.choose_spec.1 _ hk hex.choose_spec.2]
  · have hlen : S1.mpcs.length = l.length := by
      rw [hl]
      have := congrArg List.length hb.prep.ready.terms
      simpa using this
    have h1 : S1.mpcs.map (fun m => (fun i => if h : ∃ k ∈ regKeys calls, num k = i then u h.choose else l.getD (i - (S1.nDofs + 1)) 0) m.eqNum) =
        (S1.mpcs.map Mpc.eqNum).map fun i => if h : ∃ k ∈ regKeys calls, num k = i then u h.choose else l.getD (i - (S1.nDofs + 1)) 0 := by
      rw [List.map_map]; rfl
    rw [h1, hb.prep.ready.eqNums, hlen]
    apply List.ext_getElem
    · simp
    · intro i hi1 hi2
      rw [List.getElem_map, List.getElem_range']
      have hne : ¬ ∃ k ∈ regKeys calls, num k = S1.nDofs + 1 + 1 * i := by
        rintro ⟨k, hk, he⟩
        have := hb.range hk
        omega
      rw [dif_neg hne, show S1.nDofs + 1 + 1 * i - (S1.nDofs + 1) = i by omega, List.getD_eq_getElem?_getD,
        List.getElem?_eq_getElem hi2]
      rfl

/-- The rows of the constraint equations. -/
theorem con_row {E : Type} {S0 S1 : Storage K} {calls : List RegCall} {new : List (Mpc K)} {loads fixs : List (Bc K)} {num : Key → Nat}
    {A : Side → Spec} (hb : Base S0 S1 calls new fixs num A) {els : List (LinEl K)} {update : E → Storage K → E}
    (hp1 : S0.prepare calls new (fixKeys fixs) = .ok S1) (hn : ∀ k ∈ regKeys calls, S1.eqNumber k.1 k.2.1 k.2.2 = .ok (num k))
    (hprob : Problem S0 calls new loads fixs (linear els update)) (e : E) {m : Mpc K} (hm : m ∈ S1.mpcs) (v : Nat → K) :
    rowMul (Assembled (linear els update) e S1 num 0) v (S1.nDofs + S1.nMpc) m.eqNum =
      (m.eq.map fun t => t.coef * v (num (.node, t.node, t.dof))).sum := by
  have hle := hprob.elems S1 num hp1 hn e S1 rfl
  obtain ⟨_, _, h3⟩ := mpc_row hb (build := els.flatMap (LinEl.adds S1)) (cm := []) (ms := S1.mpcs) hle.1 (by simp) rfl hm
  have h4 := h3 fun j => v (j + 1)
  unfold rowMul Assembled
  have hA : asmM S1.transient (Storage.num A) (els.flatMap (LinEl.adds S1)) S1.mpcs [] 0 m.eqNum =
      asmM S1.transient num ((linear els update).build e S1) ((linear els update).upd e S1 S1.mpcs) ((linear els update).cm e S1) 0 m.eqNum := by
    funext j
    have := mpcContribs_congr (el := linear els update) (e := e) hb hle.2.2
    unfold asmM
    rw [← this]
    rfl
  rw [← hA, h4]
  refine congrArg List.sum (List.map_congr_left fun t ht => ?_)
  have := hb.range ((hb.prep.ready.isSome _).mp ((hb.prep.pre.terms m hm).2 t ht))
  rw [Nat.sub_add_cancel this.1]

/-- **C85.** If the linear solution with the Gauss solver succeeds, the reported displacements and reactions and the
multipliers are the only ones that meet the prescribed values, the constraint equations and the loads at free DoFs and keep
every DoF in balance. -/
theorem C85_unique {E : Type} {S0 S' : Storage K} {calls : List RegCall} {new : List (Mpc K)} {loads fixs : List (Bc K)}
    {els : List (LinEl K)} {update : E → Storage K → E} {e e' : E}
    (hl : LegalModel S0 calls new (fixKeys fixs)) (hload : ∀ l ∈ loads, keyOf l ∈ regKeys calls) (hp : ∀ x ∈ els, Placed S0 calls x)
    (hfix : ∀ f ∈ fixs, f.value = 0 ∨ (1 / 10 ^ 20 : K) < |f.value|)
    (h : linearSolve Gauss.solveEquations (linear els update) loads fixs calls new S0 e = .ok (S', e')) {u' r' : Key → K} {l' : List K}
    (hlen : l'.length = (S0.mpcs ++ new).length) (hmeets : Meets S0 calls new loads fixs u' r')
    (hbal : Balanced calls els (S0.mpcs ++ new) l' u' r') :
    ∃ (u r : Key → K), Reported S' (regKeys calls) u r ∧ Balanced calls els (S0.mpcs ++ new) l' u r ∧
      ∀ k ∈ regKeys calls, u k = u' k ∧ r k = r' k := by
  obtain ⟨S1, num, A, h1, h2, hb, ha, hm, hrow, hsuc⟩ := solved_model hl hload hp hfix gauss_exact h
  obtain ⟨hr1, hr2⟩ := reported hl hb ha hm
  have hdet := gauss_succeeds hsuc
  have hprob := linear_problem (E := E) (update := update) hl hload hp
  obtain ⟨v, hv1, hv2⟩ := vector_exists hb u' l' hlen
  have hdofs := hb.prep.pre.dofs
  -- both vectors satisfy the same rows
  have hsame : ∀ i, S1.nConstr < i → i ≤ S1.nDofs + S1.nMpc →
      rowMul (Assembled (linear els update) e S1 num 0) v (S1.nDofs + S1.nMpc) i =
        rowMul (Assembled (linear els update) e S1 num 0) (comp S'.vecU) (S1.nDofs + S1.nMpc) i := by
    intro i i1 i2
    by_cases hi : i ≤ S1.nDofs
    · obtain ⟨k, hk, hf, rfl⟩ := num_onto hb i1 hi
      have a1 := row_eq hb h2 hp update e v hk
      rw [sum_forceOn_congr hp (v := u') hv1, conForce_eq v k _ _ hb.prep.ready.terms, hv2, hbal k hk, hmeets.applied k hk hf] at a1
      rw [hrow _ (by omega) i2, ha.applied k hk hf, ← a1]
      ring
    · have hmem : i ∈ S1.mpcs.map Mpc.eqNum := by
        rw [hb.prep.ready.eqNums, List.mem_range'_1]
        have : S1.nMpc = S1.mpcs.length := rfl
        omega
      obtain ⟨m, hmm, rfl⟩ := List.mem_map.mp hmem
      rw [con_row hb h1 h2 hprob e hmm, con_row hb h1 h2 hprob e hmm, ha.mpcs m (by rw [hm]; exact hmm)]
      have hterm : (m.eq, m.b) ∈ (S0.mpcs ++ new).map (fun m => (m.eq, m.b)) := by
        rw [← hb.prep.ready.terms]; exact List.mem_map.mpr ⟨m, hmm, rfl⟩
      obtain ⟨m0, hm0, he0⟩ := List.mem_map.mp hterm
      rw [Prod.mk.injEq] at he0
      have := hmeets.constraints m0 hm0
      rw [he0.1, he0.2] at this
      rw [← this]
      refine congrArg List.sum (List.map_congr_left fun t ht => ?_)
      rw [hv1 _ ((hb.prep.ready.isSome _).mp ((hb.prep.pre.terms m hmm).2 t ht))]
  -- they agree at the fixed DoFs
  have hcon : ∀ i, 0 < i → i ≤ S1.nConstr → v i = comp S'.vecU i := by
    intro i i1 i2
    obtain ⟨k, hk, hreg, rfl⟩ := hb.fixOf i1 i2
    obtain ⟨x, hx⟩ := Option.isSome_iff_exists.mp (lastFix_isSome.mpr hk)
    rw [hv1 k hreg, hmeets.prescribed k hreg x hx, ha.prescribed k hreg x hx]
  -- hence everywhere
  have hall : ∀ i, 0 < i → i ≤ S1.nDofs + S1.nMpc → v i = comp S'.vecU i := by
    have hN : S1.nDofs + S1.nMpc = S1.nConstr + (S1.nUnknown + S1.nMpc) := by omega
    have hz : (Matrix.of fun (i j : Fin (S1.nUnknown + S1.nMpc)) => Assembled (linear els update) e S1 num 0
        (S1.nConstr + (i + 1)) (S1.nConstr + (j + 1))).mulVec
          (fun j => v (S1.nConstr + (j + 1)) - comp S'.vecU (S1.nConstr + (j + 1))) = 0 := by
      funext i
      have hs := hsame (S1.nConstr + (i + 1)) (by omega) (by omega)
      unfold rowMul at hs
      rw [hN, Finset.sum_range_add (n := S1.nConstr), Finset.sum_range_add (n := S1.nConstr)] at hs
      have hfirst : ∀ j ∈ range S1.nConstr, Assembled (linear els update) e S1 num 0 (S1.nConstr + (i + 1)) (j + 1) * v (j + 1) =
          Assembled (linear els update) e S1 num 0 (S1.nConstr + (i + 1)) (j + 1) * comp S'.vecU (j + 1) := by
        intro j hj
        rw [hcon (j + 1) (by omega) (by have := Finset.mem_range.mp hj; omega)]
      rw [Finset.sum_congr rfl hfirst, add_right_inj] at hs
      simp only [Matrix.mulVec, dotProduct, Matrix.of_apply, Pi.zero_apply, mul_sub, Finset.sum_sub_distrib]
      rw [sub_eq_zero]
      rw [Finset.sum_range, Finset.sum_range] at hs
      simpa only [add_assoc] using hs
    have hzero := Matrix.eq_zero_of_mulVec_eq_zero hdet hz
    intro i i1 i2
    by_cases hi : i ≤ S1.nConstr
    · exact hcon i i1 hi
    · have := congrFun hzero ⟨i - S1.nConstr - 1, by omega⟩
      simp only [Pi.zero_apply] at this
      rw [show S1.nConstr + (i - S1.nConstr - 1 + 1) = i by omega, sub_eq_zero] at this
      exact this
  have hu : ∀ k ∈ regKeys calls, comp S'.vecU (num k) = u' k := by
    intro k hk
    have := hb.range hk
    rw [← hv1 k hk, hall _ this.1 (by omega)]
  have hlam : S1.mpcs.map (fun m => comp S'.vecU m.eqNum) = l' := by
    rw [← hv2]
    refine List.map_congr_left fun m hmm => ?_
    have := hb.prep.pre.eqNum m hmm
    rw [hall _ (by omega) this.2]
  have hbal' : Balanced calls els (S0.mpcs ++ new) l' (fun k => comp S'.vecU (num k)) (fun k => comp S'.vecR (num k)) := by
    intro k hk
    have := hb.range hk
    have h3 := row_eq hb h2 hp update e (comp S'.vecU) hk
    rw [hrow _ this.1 (by omega), add_sub_cancel_left, conForce_eq (comp S'.vecU) k _ _ hb.prep.ready.terms, hlam] at h3
    exact h3.symm
  refine ⟨_, _, hr1, hbal', fun k hk => ⟨hu k hk, ?_⟩⟩
  have h5 := hbal' k hk
  rw [sum_forceOn_congr hp hu, hbal k hk] at h5
  exact h5.symm

end Nla3d.Struct
