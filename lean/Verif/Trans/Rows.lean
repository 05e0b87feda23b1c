import Verif.Trans.Model
import Verif.Struct.Unique
import Verif.Solver.TransientProps

/-!
# The rows of the transient equations
-/

namespace Nla3d.Trans

open Nla3d.Dof Nla3d.Block Nla3d.Sparse Nla3d.Storage Nla3d.Solver Nla3d.Struct Finset

variable {K : Type}

theorem capAdds_num {S0 S1 S : Storage K} {calls : List RegCall} {num : Key → Nat} {x : LinEl K} (hx : Placed S0 calls x)
    (hn : ∀ k ∈ regKeys calls, S1.eqNumber k.1 k.2.1 k.2.2 = .ok (num k))
    (hS : ∀ n t, S.eqNumber .node n t = S1.eqNumber .node n t) :
    capAdds S x = elemContribs .C (eqOf num x.nodes x.dofs) x.Ke x.n := by
  unfold capAdds elemContribs
  refine List.map_congr_left ?_
  rintro ⟨a, b⟩ hp
  have := mem_packed.mp hp
  simp only
  rw [eq_num hx hn hS (by omega), eq_num hx hn hS this.2]
  rfl

/-- Building all capacities makes the additions the solver is given. -/
theorem assembleCaps_eq [AddCommMonoid K] {S0 S1 : Storage K} {calls : List RegCall} {new : List (Mpc K)} {cs : List Key}
    {num : Key → Nat} (ht : S1.transient = true) : ∀ (caps : List (LinEl K)), (∀ x ∈ caps, Placed S0 calls x) →
    ∀ S, Session S0 calls new cs S1 num S →
    assembleCaps caps S = Res.foldlM' Storage.contribute S (caps.flatMap (capAdds S1)) ∧ ∃ S', assembleCaps caps S = .ok S' := by
  intro caps
  induction caps with
  | nil => intro _ S _; exact ⟨rfl, S, rfl⟩
  | cons x caps ih =>
    intro hp S hS
    have hx := hp x (by simp)
    obtain ⟨A, M, v, hpr, _, _⟩ := session_during hS
    have ho : OnElement S1 (regKeys calls) x.nodes x.dofs := OnElement.congr hx.on hpr.ready.mesh.elements
    have hw := elem_wanted (num' := num) (w := .C) (Or.inr ht) ho x.Ke
    have hk := assembleWith_eq (K := K) (w := .C) (num := num) (S := S) (Ke := x.Ke) (rest := []) (local_numbers hS ho)
    rw [List.append_nil] at hk
    have ha := capAdds_num hx hS.numbers (S := S1) (fun _ _ => rfl)
    have h1 : assembleCap x S = Res.foldlM' Storage.contribute S (capAdds S1 x) := by
      rw [ha]
      exact hk
    obtain ⟨S', s1, s2, _⟩ := contribs_session hS (l := capAdds S1 x) (by rw [ha]; exact hw)
    obtain ⟨i1, i2⟩ := ih (fun y hy => hp y (by simp [hy])) S' s2
    unfold assembleCaps at *
    rw [Res.foldlM'_cons, h1, s1, Res.ok_bind, List.flatMap_cons, Res.foldlM'_append, s1, Res.ok_bind]
    exact ⟨i1, i2⟩

/-- A model of placed elements is a problem for the transient solver. -/
theorem evolving_problem [Field K] {E : Type} {S0 : Storage K} {calls : List RegCall} {new : List (Mpc K)} {loads fixs : List (Bc K)}
    {els caps : List (LinEl K)} {update : E → Storage K → E} (hl : LegalModel S0 calls new (fixKeys fixs)) (ht : S0.transient = true)
    (hload : ∀ l ∈ loads, keyOf l ∈ regKeys calls) (hp : ∀ x ∈ els, Placed S0 calls x) (hc : ∀ x ∈ caps, Placed S0 calls x) :
    Problem S0 calls new loads fixs (evolving els caps update) := by
  have hlin := linear_problem (E := E) (update := update) hl hload hp
  refine ⟨hl, hload, ?_⟩
  intro S1 num hprep hnum e S hS
  obtain ⟨A, hpr⟩ := prepared hl hprep
  obtain ⟨h1, _, h3⟩ := hlin.elems S1 num hprep hnum e S hS
  refine ⟨h1, ?_, h3⟩
  intro c hcc
  obtain ⟨x, hx, hcc⟩ := List.mem_flatMap.mp hcc
  have hpx := hc x hx
  have ho : OnElement S1 (regKeys calls) x.nodes x.dofs := OnElement.congr hpx.on hpr.ready.mesh.elements
  rw [capAdds_num hpx hnum (fun n t => alike_eqNumber hS .node n t)] at hcc
  obtain ⟨⟨a, b⟩, hab, rfl⟩ := List.mem_map.mp hcc
  have hm := mem_packed.mp hab
  obtain ⟨n, n1, t, t1, k1⟩ := localKey_mem (nodes := x.nodes) (dofs := x.dofs) (a := a) (by
    have : x.n = x.nodes.length * x.dofs.length := rfl
    omega)
  obtain ⟨n', n2, t', t2, k2⟩ := localKey_mem (nodes := x.nodes) (dofs := x.dofs) (a := b) hm.2
  obtain ⟨en, hen⟩ := ho.elem
  refine ⟨Or.inr (hpr.ready.mesh.transient.trans ht), en, localKey x.nodes x.dofs a, localKey x.nodes x.dofs b, ?_, ?_, ?_, ?_, rfl, rfl⟩
  · rw [k1]; exact ho.dofsReg n n1 t t1
  · rw [k2]; exact ho.dofsReg n' n2 t' t2
  · rw [k1]; show n ∈ elNodes S1.elements en; rw [← hen]; exact n1
  · rw [k2]; show n' ∈ elNodes S1.elements en; rw [← hen]; exact n2

/-- What a matrix of capacities does to the DoF `k`. -/
def capOn [CommRing K] (x : LinEl K) (v : Key → K) (k : Key) : K :=
  ∑ a ∈ range x.n, if localKey x.nodes x.dofs a = k then ∑ b ∈ range x.n, x.Ke a b * v (localKey x.nodes x.dofs b) else 0

section
variable [Field K] [LinearOrder K] [IsStrictOrderedRing K] {E : Type} {S0 S1 : Storage K} {calls : List RegCall} {new : List (Mpc K)} {fixs : List (Bc K)}
  {num : Key → Nat} {A : Side → Spec} (hb : Base S0 S1 calls new fixs num A)
  (hn : ∀ k ∈ regKeys calls, S1.eqNumber k.1 k.2.1 k.2.2 = .ok (num k)) (ht : S1.transient = true)
  {els caps : List (LinEl K)} (hc : ∀ x ∈ caps, Placed S0 calls x)
  (update : E → Storage K → E) (e : E) (y : K)

theorem matSum_other {q : Nat} {w : Which} (hw : w.idx ≠ q) (i j : Nat) (eq : Nat → Nat) (Ke : Nat → Nat → K) (n : Nat) :
    matSum q i j (elemContribs w eq Ke n) = 0 := by
  unfold elemContribs
  induction packed n with
  | nil => rfl
  | cons p l ih => rw [List.map_cons]; simp only [matSum]; rw [ih, if_neg (fun h => hw h.1), zero_add]

theorem matSum_caps {q : Nat} (hq : q ≠ 1) (S : Storage K) (i j : Nat) : ∀ caps : List (LinEl K),
    matSum q i j (caps.flatMap (capAdds S)) = 0 := by
  intro caps
  induction caps with
  | nil => rfl
  | cons x caps ih =>
    rw [List.flatMap_cons, matSum_append, ih, add_zero]
    exact matSum_other (by simpa [Which.idx] using hq.symm) _ _ _ _ _

theorem loadSum_caps (S : Storage K) (i : Nat) : ∀ caps : List (LinEl K), loadSum i (caps.flatMap (capAdds S)) = 0 := by
  intro caps
  induction caps with
  | nil => rfl
  | cons x caps ih =>
    rw [List.flatMap_cons, loadSum_append, ih, add_zero]
    exact loadSum_elem _ _ _ _ _

include ht in
/-- The stiffness is that of the linear solution. -/
theorem tMat_stiff (i j : Nat) : tMat (evolving els caps update) e S1 num y 0 i j = Assembled (linear els update) e S1 num 0 i j := by
  unfold tMat Assembled asmM
  rw [ht]
  simp only [if_true, evolving, linear, matSum_append, matSum_caps (by decide : (0 : Nat) ≠ 1), List.append_nil, add_zero]
  rfl

include ht in
theorem tLoad_eq (i : Nat) : tLoad (evolving els caps update) e S1 y i = AssembledLoad (linear els update) e S1 i := by
  unfold tLoad AssembledLoad asmV
  rw [ht]
  simp only [if_true, evolving, linear, loadSum_caps]
  rfl

theorem tMat_mass (i j : Nat) : tMat (evolving els caps update) e S1 num y 2 i j = 0 := by
  unfold tMat asmM
  simp only [if_true, evolving]
  exact matSum_caps (by decide) _ _ _ _

include hb hn hc in
/-- The row of a DoF in the matrix of capacities. -/
theorem row_cap (v : Nat → K) {k : Key} (hk : k ∈ regKeys calls) :
    rowMul (tMat (evolving els caps update) e S1 num y 1) v (S1.nDofs + S1.nMpc) (num k) =
      (caps.map fun x => capOn x (fun k => v (num k)) k).sum := by
  have hM : ∀ i j, tMat (evolving els caps update) e S1 num y 1 i j = matSum 1 i j (caps.flatMap (capAdds (initialStorage S1 y))) := by
    intro i j
    unfold tMat asmM
    simp [evolving]
  unfold rowMul
  simp only [hM]
  clear hM
  induction caps with
  | nil => simp [matSum]
  | cons x caps ih =>
    have ih' := ih fun y hy => hc y (by simp [hy])
    have hx := hc x (by simp)
    simp only [List.flatMap_cons, matSum_append, add_mul, Finset.sum_add_distrib, List.map_cons, List.sum_cons]
    rw [← ih']
    congr 1
    rw [capAdds_num hx hn (fun n t => alike_eqNumber (show Alike S1 (initialStorage S1 y) from rfl) .node n t)]
    have hloc : ∀ a < x.n, localKey x.nodes x.dofs a ∈ regKeys calls := fun a ha => localKey_reg hx.on ha
    have hinj : ∀ a < x.n, ∀ b < x.n, eqOf num x.nodes x.dofs a = eqOf num x.nodes x.dofs b → a = b := fun a ha b hb' he =>
      localKey_inj hx.distinct hx.on.dofsNodup ha hb' (hb.inj _ (hloc a ha) _ (hloc b hb') he)
    simp only [matSum_scatter (w := .C) (q := 1) hinj hx.symm rfl]
    rw [row_scatter (N := S1.nDofs + S1.nMpc) (eq := eqOf num x.nodes x.dofs) x.Ke v (fun a ha => by
      have := hb.range (hloc a ha); unfold eqOf; omega) (num k)]
    unfold capOn
    refine Finset.sum_congr rfl fun a ha => ?_
    have hiff : eqOf num x.nodes x.dofs a = num k ↔ localKey x.nodes x.dofs a = k :=
      ⟨fun h => hb.inj _ (hloc a (Finset.mem_range.mp ha)) _ hk h, fun h => by unfold eqOf; rw [h]⟩
    by_cases h : localKey x.nodes x.dofs a = k
    · rw [if_pos (hiff.mpr h), if_pos h]
      rfl
    · rw [if_neg (fun h' => h (hiff.mp h')), if_neg h]

end

end Nla3d.Trans
