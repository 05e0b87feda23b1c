import Verif.Prog.Conditions
import Mathlib.LinearAlgebra.Matrix.ToLinearEquiv

/-!
# The equations of an iteration that completes are regular
-/

namespace Nla3d.Prog

open Nla3d.Dof Nla3d.Storage Nla3d.Iso Nla3d.Newton Nla3d.Labels Nla3d.Material Nla3d.Hyper
open Nla3d.Solver (Bc keyOf lastFix fixKeys EqSolver Reached iteration NState base_of_prepare Base zeroR comp Succeeds)
open Nla3d.Rigid hiding pre update
open Nla3d.Main (Job)
open Nla3d.Cmd (Options)
open Nla3d.Struct (mpcForce)

noncomputable section

theorem vecOf_add (regs : List Key) (num : Key → Nat) (v w : Vals) (i : Nat) :
    vecOf regs num (v + w) i = vecOf regs num v i + vecOf regs num w i := by
  unfold vecOf
  split <;> simp

theorem vecOf_smul (regs : List Key) (num : Key → Nat) (a : ℝ) (v : Vals) (i : Nat) :
    vecOf regs num (a • v) i = a * vecOf regs num v i := by
  unfold vecOf
  split <;> simp

/-- A matrix as a bilinear form of directions. -/
def formOf (regs : List Key) (num : Key → Nat) (n : Nat) (M : Nat → Nat → ℝ) : Vals →ₗ[ℝ] Vals →ₗ[ℝ] ℝ :=
  LinearMap.mk₂ ℝ (fun w v => ∑ i ∈ Finset.Icc 1 n, vecOf regs num v i * ∑ jj ∈ Finset.Icc 1 n, M i jj * vecOf regs num w jj)
    (fun w w' v => by
      rw [← Finset.sum_add_distrib]
      refine Finset.sum_congr rfl fun i _ => ?_
      rw [← mul_add, ← Finset.sum_add_distrib]
      simp only [vecOf_add, mul_add])
    (fun a w v => by
      rw [smul_eq_mul, Finset.mul_sum]
      refine Finset.sum_congr rfl fun i _ => ?_
      simp only [vecOf_smul, mul_left_comm _ a, ← Finset.mul_sum])
    (fun w v v' => by
      rw [← Finset.sum_add_distrib]
      refine Finset.sum_congr rfl fun i _ => ?_
      rw [← add_mul, vecOf_add])
    (fun a w v => by
      rw [smul_eq_mul, Finset.mul_sum]
      refine Finset.sum_congr rfl fun i _ => ?_
      rw [vecOf_smul, mul_assoc])

variable {o : Options ℝ} {ref : List ℝ} {j : Job ℝ} {els : List El} {num : Key → Nat} {W : ℝ → ℝ → ℝ} {k : ℝ} {eqs : EqSolver ℝ}
  {S1 : Storage ℝ}

/-- The equations of an iteration determine its increments and multipliers, if the equation solver has not stopped. -/
theorem regular_of (h : Runnable o ref j) (ha : AllMade j.type W k j.pos 1 j.elems els) (he : Solver.Exact eqs)
    (hp : (storeOf j).prepare (regsOf j) (newOf j) (fixKeys j.fixs) = .ok S1)
    (hn : ∀ f ∈ regKeys (regsOf j), S1.eqNumber f.1 f.2.1 f.2.2 = .ok (num f)) {s s' : NState (Group els) ℝ}
    (hs : Reached eqs (hyper els (updOf j els)) j.loads j.fixs S1 (Group.given els) s)
    (hit : iteration eqs (hyper els (updOf j els)) j.loads j.fixs s = .ok s')
    (hdet : ∀ n a, Succeeds eqs n a → (Matrix.of fun (i j : Fin n) => a i j).det ≠ 0) (hsound : Sound j (valuesOf j num s))
    (hplain : ∀ b, j.rigid = some b → Plain (turn b (valuesOf j num s))) : Regular W k j (valuesOf j num s) := by
  have hm := job_model h ha
  have hprob := hyper_problem hm
  obtain ⟨A, hb⟩ := base_of_prepare hm.legal hp hn
  obtain ⟨K, F, h1, h2, h3, h4, h5, h6⟩ := newton_core hm he hp hn
  rcases h6 s hs with ⟨hf, _⟩ | ⟨_, _, _, _, _, hsuc⟩
  · rw [hit] at hf; simp at hf
  have hdet := hdet _ _ hsuc
  obtain ⟨hrun, _⟩ := Solver.reached_inv hb hm.loads (hprob.elems S1 num hp hn) he hs
  obtain ⟨_, _, _, _, hrun⟩ := hrun
  have hsh : SameShape S1.mpcs (updOf j els s.e (zeroR s.S) s.S.mpcs) := Eq.trans (hm.shape s.e (zeroR s.S) s.S.mpcs) hrun.during.shape
  obtain ⟨hml, hmn⟩ := mpc_number hb hsh
  have hms := shape_mpcs hb hsh
  have hcat := fun q m => conditions_at (q := q) (m := m) h ha he hp hn hs hplain
  have hcl : (updOf j els s.e (zeroR s.S) s.S.mpcs).length = (conditions j (valuesOf j num s)).length := by rw [hml, conditions_length]
  have hnM : S1.nMpc = (conditions j (valuesOf j num s)).length := by rw [← hcl, hsh.length]; rfl
  have hdofs := hb.prep.pre.dofs
  generalize updOf j els s.e (zeroR s.S) s.S.mpcs = ms at *
  have hreg : ∀ f, Has j f → f ∈ regKeys (regsOf j) := fun f hf => (regKeys_has j f).mpr hf
  have hF : ∀ (z : ℝ) (u v : Nat → ℝ), (∀ e ∈ els, e.Sound num u) →
      HasDerivAt (fun s : ℝ => (els.map (El.potential z num (fun j => u j + s * v j))).sum)
        (-∑ i ∈ Finset.Icc 1 S1.nDofs, F u i * v i) 0 := by
    intro z u v hu
    rw [← sum_to (m := S1.nMpc) fun i hi => by rw [h4 u i hi, zero_mul]]
    exact h5 z u v hu
  have hK : ∀ u v : Nat → ℝ, (∀ e ∈ els, e.Sound num u) → ∀ i,
      HasDerivAt (fun s : ℝ => F (fun j => u j + s * v j) i) (-∑ j ∈ Finset.Icc 1 S1.nDofs, K u i j * v j) 0 := by
    intro u v hu i
    rw [← sum_to (m := S1.nMpc) fun j hj => by rw [h2 u i j hj, zero_mul]]
    exact h3 u v hu i
  refine ⟨formOf (regKeys (regsOf j)) num S1.nDofs (K (comp s.S.vecU)), fun w v => ?_, fun w μ hw hrow hcon => ?_⟩
  · exact slope_deriv h ha hF hK (fun g hg => valsAt_has hg) (fun g hg => (vecOf_has hb v hg).symm)
      (fun g hg => (vecOf_has hb w hg).symm) hsound
  -- increments and multipliers as one vector
  let V : Nat → ℝ := fun i => if i ≤ S1.nDofs then vecOf (regKeys (regsOf j)) num w i else μ (i - S1.nDofs - 1)
  have hV : ∀ f, Has j f → V (num f) = w f := fun f hf => by
    have := hb.range (hreg f hf)
    rw [← vecOf_has hb w hf]
    exact if_pos this.2
  have hVm : ∀ m, V (S1.nDofs + 1 + m) = μ m := fun m => by
    rw [show V (S1.nDofs + 1 + m) = μ (S1.nDofs + 1 + m - S1.nDofs - 1) from if_neg (by omega)]
    congr 1
    omega
  have hV0 : ∀ i, 0 < i → i ≤ S1.nConstr → V i = 0 := by
    intro i i1 i2
    obtain ⟨f, f1, f2, f3⟩ := hb.fixOf i1 i2
    rw [← f3, hV f ((regKeys_has j f).mp f2)]
    exact hw f fun hc => hc.2 f1
  have hK0 : ∀ i, ∑ jj ∈ Finset.range (S1.nDofs + S1.nMpc), K (comp s.S.vecU) i (jj + 1) * V (jj + 1) =
      ∑ jj ∈ Finset.Icc 1 S1.nDofs, K (comp s.S.vecU) i jj * vecOf (regKeys (regsOf j)) num w jj := by
    intro i
    rw [← sum_icc (S1.nDofs + S1.nMpc) (fun jj => K (comp s.S.vecU) i jj * V jj), sum_to fun jj hjj => by rw [h2 _ _ _ hjj, zero_mul]]
    refine Finset.sum_congr rfl fun jj hjj => ?_
    rw [show V jj = _ from if_pos (Finset.mem_Icc.mp hjj).2]
  have hform : ∀ f, Has j f → formOf (regKeys (regsOf j)) num S1.nDofs (K (comp s.S.vecU)) w (Pi.single f 1) =
      ∑ jj ∈ Finset.Icc 1 S1.nDofs, K (comp s.S.vecU) (num f) jj * vecOf (regKeys (regsOf j)) num w jj := by
    intro f hf
    have hr := hb.range (hreg f hf)
    show ∑ i ∈ Finset.Icc 1 S1.nDofs, vecOf (regKeys (regsOf j)) num (Pi.single f 1) i *
      ∑ jj ∈ Finset.Icc 1 S1.nDofs, K (comp s.S.vecU) i jj * vecOf (regKeys (regsOf j)) num w jj = _
    rw [Finset.sum_eq_single (num f)]
    · rw [vecOf_has hb _ hf, Pi.single_eq_same, one_mul]
    · intro i hi hne
      have hi := Finset.mem_Icc.mp hi
      obtain ⟨g, g1, g2⟩ := dofOf hb (i := i) (by omega) hi.2
      rw [← g2, vecOf_has hb _ ((regKeys_has j g).mp g1), Pi.single_eq_of_ne (by rintro rfl; exact hne g2.symm), zero_mul]
    · intro hni
      exact absurd (Finset.mem_Icc.mpr ⟨by omega, by omega⟩) hni
  have hfull : ∀ i, S1.nConstr < i → i ≤ S1.nDofs + S1.nMpc →
      ∑ jj ∈ Finset.range (S1.nDofs + S1.nMpc), (K (comp s.S.vecU) i (jj + 1) +
        matSum 0 i (jj + 1) (ms.flatMap (mpcContribs num))) * V (jj + 1) = 0 := by
    intro i i1 i2
    simp only [add_mul, Finset.sum_add_distrib]
    rw [hK0]
    by_cases hi : i ≤ S1.nDofs
    · obtain ⟨f, f1, f2⟩ := dofOf hb (i := i) (by omega) hi
      have hh := (regKeys_has j f).mp f1
      have hfree : Free j f := ⟨hh, fun hc => by have := hb.fixRange hc; omega⟩
      rw [← f2, Struct.row_mpcs V f1 hb.inj (fun k hk => hb.range hk) (Nat.le_add_right _ _) ms hms,
        force_conditions hcl hmn hcat f, ← hform f hh]
      simp only [hVm]
      exact hrow f hfree
    · have hq : i - S1.nDofs - 1 < ms.length := by omega
      have hmq : ms[i - S1.nDofs - 1]? = some ms[i - S1.nDofs - 1] := List.getElem?_eq_getElem _
      have hmem : ms[i - S1.nDofs - 1] ∈ ms := List.getElem_mem _
      obtain ⟨c, c1, c2⟩ := hcat _ _ hmq
      have hnum := hmn _ _ hmq
      have hi' : i = (ms[i - S1.nDofs - 1]).eqNum := by omega
      have hrange := hms _ hmem
      rw [Finset.sum_eq_zero fun jj _ => by rw [h1, h2 _ _ _ (by omega), zero_mul], zero_add]
      rw [hi', row_condition (n := S1.nDofs) (fun m hm => (hms m hm).1) ?_ (fun m hm t ht => hb.range ((hms m hm).2 t ht)) hmem]
      · rw [← hcon c (List.mem_of_getElem? c1), c2]
        unfold lhs
        congr 1
        refine List.map_congr_left fun t ht => ?_
        exact congrArg _ (hV _ ((regKeys_has j _).mp (hrange.2 t ht)))
      · have e : ms.map Mpc.eqNum = S1.mpcs.map Mpc.eqNum := by
          have := congrArg (List.map Prod.fst) hsh
          rw [List.map_map, List.map_map] at this
          exact this
        rw [e, hb.prep.ready.eqNums]
        exact List.nodup_range'
  have hzero := Matrix.eq_zero_of_mulVec_eq_zero hdet (v := fun q : Fin (S1.nUnknown + S1.nMpc) => V (S1.nConstr + (q + 1))) (by
    funext q
    have := hfull (S1.nConstr + (q + 1)) (by omega) (by have := q.2; omega)
    rw [show S1.nDofs + S1.nMpc = S1.nConstr + (S1.nUnknown + S1.nMpc) by omega, Finset.sum_range_add, Finset.sum_eq_zero
      (s := Finset.range S1.nConstr) fun jj hjj => by rw [hV0 _ (by omega) (by have := Finset.mem_range.mp hjj; omega), mul_zero],
      zero_add, Finset.sum_range] at this
    exact this)
  have hall : ∀ i, S1.nConstr < i → i ≤ S1.nDofs + S1.nMpc → V i = 0 := by
    intro i i1 i2
    have := congrFun hzero ⟨i - S1.nConstr - 1, by omega⟩
    simp only [Pi.zero_apply] at this
    rwa [show S1.nConstr + (i - S1.nConstr - 1 + 1) = i by omega] at this
  refine ⟨?_, fun m hm => ?_⟩
  · funext f
    by_cases hf : Free j f
    · have := hb.freeRange (hreg f hf.1) hf.2
      rw [← hV f hf.1, hall _ this.1 (by omega)]
      rfl
    · rw [hw f hf]
      rfl
  · rw [← hVm m]
    exact hall _ (by omega) (by omega)

end

end Nla3d.Prog
