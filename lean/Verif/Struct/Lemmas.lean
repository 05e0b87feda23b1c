import Verif.Struct.Model
import Verif.Solver.LinearProps
import Verif.Post.Reaction

/-!
# Equilibrium of solved structures: specification and lemmas
-/

namespace Nla3d.Struct

open Nla3d.Dof Nla3d.Block Nla3d.Sparse Nla3d.Storage Nla3d.Solver Finset

variable {K : Type}

/-! ## Specification -/

/-- The element is one of the mesh, its DoFs are registered, its nodes are distinct and its matrix is symmetric. -/
structure Placed (S0 : Storage K) (calls : List RegCall) (x : LinEl K) : Prop where
  on : OnElement S0 (regKeys calls) x.nodes x.dofs
  distinct : x.nodes.Nodup
  symm : ∀ a < x.n, ∀ b < x.n, x.Ke a b = x.Ke b a

section spec
variable [CommRing K]

/-- The load vector of an element, zero if there is none. -/
def LinEl.load (x : LinEl K) (a : Nat) : K :=
  match x.Fe with
  | none => 0
  | some f => f a

/-- Force of an element on local DoF `a` for displacements `u`: `Ke u - Fe`. -/
def LinEl.force (x : LinEl K) (u : Key → K) (a : Nat) : K :=
  ∑ b ∈ range x.n, x.Ke a b * u (localKey x.nodes x.dofs b) - x.load a

/-- Force of an element on the DoF `k`. -/
def LinEl.forceOn (x : LinEl K) (u : Key → K) (k : Key) : K :=
  ∑ a ∈ range x.n, if localKey x.nodes x.dofs a = k then x.force u a else 0

/-- Force of the constraints on the DoF `k`, with the multipliers `l`. -/
def mpcForce (ms : List (Mpc K)) (l : Nat → K) (k : Key) : K :=
  (ms.map fun m => (m.eq.map fun t => if (Side.node, t.node, t.dof) = k then t.coef * l m.eqNum else 0).sum).sum

end spec

/-! ## The additions of an element -/

theorem alike_eqNumber {S1 S : Storage K} (h : Alike S1 S) (a : Side) (n : Nat) (t : DofType) :
    S.eqNumber a n t = S1.eqNumber a n t := by
  rw [h]; cases a <;> rfl

theorem OnElement.congr {S0 S1 : Storage K} {regs : List Key} {nodes : List Nat} {dofs : List DofType}
    (h : OnElement S0 regs nodes dofs) (he : S1.elements = S0.elements) : OnElement S1 regs nodes dofs :=
  ⟨by rw [he]; exact h.elem, h.dofsReg, h.dofsNodup⟩

theorem localKey_reg {S0 : Storage K} {regs : List Key} {nodes : List Nat} {dofs : List DofType}
    (h : OnElement S0 regs nodes dofs) {a : Nat} (ha : a < nodes.length * dofs.length) : localKey nodes dofs a ∈ regs := by
  obtain ⟨n, n1, t, t1, k1⟩ := localKey_mem ha
  rw [k1]
  exact h.dofsReg n n1 t t1

theorem eq_num {S0 S1 S : Storage K} {calls : List RegCall} {num : Key → Nat} {x : LinEl K} (hx : Placed S0 calls x)
    (hn : ∀ k ∈ regKeys calls, S1.eqNumber k.1 k.2.1 k.2.2 = .ok (num k))
    (hS : ∀ n t, S.eqNumber .node n t = S1.eqNumber .node n t) {a : Nat} (ha : a < x.n) :
    x.eq S a = num (localKey x.nodes x.dofs a) := by
  have := hn _ (localKey_reg hx.on ha)
  unfold LinEl.eq
  rw [hS]
  have h2 : S1.eqNumber .node (localKey x.nodes x.dofs a).2.1 (localKey x.nodes x.dofs a).2.2 =
      .ok (num (localKey x.nodes x.dofs a)) := this
  rw [h2]

/-- The additions of the load vector. -/
def loadAdds (eq : Nat → Nat) (Fe : Option (Nat → K)) (n : Nat) : List (Contrib K) :=
  match Fe with
  | none => []
  | some f => loadContribs eq f n

theorem adds_num {S0 S1 S : Storage K} {calls : List RegCall} {num : Key → Nat} {x : LinEl K} (hx : Placed S0 calls x)
    (hn : ∀ k ∈ regKeys calls, S1.eqNumber k.1 k.2.1 k.2.2 = .ok (num k))
    (hS : ∀ n t, S.eqNumber .node n t = S1.eqNumber .node n t) :
    x.adds S = elemContribs .K (eqOf num x.nodes x.dofs) x.Ke x.n ++ loadAdds (eqOf num x.nodes x.dofs) x.Fe x.n := by
  unfold LinEl.adds
  congr 1
  · unfold elemContribs
    refine List.map_congr_left ?_
    rintro ⟨a, b⟩ hp
    have := mem_packed.mp hp
    simp only
    rw [eq_num hx hn hS (by omega), eq_num hx hn hS this.2]
    rfl
  · cases x.Fe with
    | none => rfl
    | some f =>
      unfold loadAdds loadContribs
      refine List.map_congr_left fun a ha => ?_
      rw [eq_num hx hn hS (List.mem_range.mp ha)]
      rfl

/-- The calls of `assembleK` make the additions of `adds`. -/
theorem assemble_eq [AddCommMonoid K] {S0 S1 S : Storage K} {calls : List RegCall} {new : List (Mpc K)} {cs : List Key}
    {num : Key → Nat} (h : Session S0 calls new cs S1 num S) {x : LinEl K} (hx : Placed S0 calls x) :
    x.assemble S = Res.foldlM' Storage.contribute S (x.adds S1) ∧
    ∀ c ∈ x.adds S1, Wanted S1 (regKeys calls) num c := by
  obtain ⟨A, M, v, hp, hnn, hd⟩ := session_during h
  have ho : OnElement S1 (regKeys calls) x.nodes x.dofs := OnElement.congr hx.on hp.ready.mesh.elements
  have hw := elem_wanted (num' := num) (w := .K) (Or.inl rfl) ho x.Ke
  have hl := local_numbers h ho
  have ha := adds_num hx h.numbers (S := S1) (fun _ _ => rfl)
  have hk := assembleWith_eq (K := K) (w := .K) (num := num) (S := S) (Ke := x.Ke) (rest := []) hl
  rw [List.append_nil] at hk
  rw [ha]
  unfold LinEl.assemble loadAdds
  cases hF : x.Fe with
  | none =>
    simp only [List.append_nil]
    refine ⟨?_, hw⟩
    unfold Storage.assembleK
    exact hk
  | some f =>
    simp only
    refine ⟨?_, ?_⟩
    · unfold Storage.assembleKF
      rw [Res.foldlM'_append]
      rw [hk]
      have hc : Res.foldlM' Storage.contribute S (elemContribs .K (eqOf num x.nodes x.dofs) x.Ke x.n) =
        Res.foldlM' Storage.contribute S (elemContribs .K (fun a => num (localKey x.nodes x.dofs a)) x.Ke
          (x.nodes.length * x.dofs.length)) := rfl
      obtain ⟨S', s1, s2, _⟩ := contribs_session h hw
      rw [← hc, s1, Res.ok_bind, Res.ok_bind]
      have hf := assembleF_eq (K := K) (num := num) (S := S') (Fe := f) (rest := []) (local_numbers s2 ho)
      rw [List.append_nil] at hf
      exact hf
    · intro c hc
      rcases List.mem_append.mp hc with hc | hc
      · exact hw c hc
      · obtain ⟨a, ha', rfl⟩ := List.mem_map.mp hc
        have hr := hp.ready.num_range (localKey_reg hx.on (List.mem_range.mp ha'))
        show 0 < eqOf num x.nodes x.dofs a ∧ eqOf num x.nodes x.dofs a ≤ _
        unfold eqOf
        rw [hnn _ (localKey_reg hx.on (List.mem_range.mp ha'))]
        omega

/-- Building all elements makes the additions the solver is given. -/
theorem assembleAll_eq [AddCommMonoid K] {S0 S1 : Storage K} {calls : List RegCall} {new : List (Mpc K)} {cs : List Key}
    {num : Key → Nat} : ∀ (els : List (LinEl K)), (∀ x ∈ els, Placed S0 calls x) → ∀ S, Session S0 calls new cs S1 num S →
    assembleAll els S = Res.foldlM' Storage.contribute S (els.flatMap (LinEl.adds S1)) ∧
    ∃ S', assembleAll els S = .ok S' := by
  intro els
  induction els with
  | nil => intro _ S _; exact ⟨rfl, S, rfl⟩
  | cons x els ih =>
    intro hp S hS
    obtain ⟨h1, h2⟩ := assemble_eq hS (hp x (by simp))
    obtain ⟨S', s1, s2, _⟩ := contribs_session hS h2
    obtain ⟨i1, i2⟩ := ih (fun y hy => hp y (by simp [hy])) S' s2
    unfold assembleAll at *
    rw [Res.foldlM'_cons, h1, s1, Res.ok_bind, List.flatMap_cons, Res.foldlM'_append, s1, Res.ok_bind]
    exact ⟨i1, i2⟩

/-- A model of placed elements is a problem for the solver. -/
theorem linear_problem [Field K] {E : Type} {S0 : Storage K} {calls : List RegCall} {new : List (Mpc K)} {loads fixs : List (Bc K)}
    {els : List (LinEl K)} {update : E → Storage K → E} (hl : LegalModel S0 calls new (fixKeys fixs))
    (hload : ∀ l ∈ loads, keyOf l ∈ regKeys calls) (hp : ∀ x ∈ els, Placed S0 calls x) :
    Problem S0 calls new loads fixs (linear els update) := by
  refine ⟨hl, hload, ?_⟩
  intro S1 num hprep hnum e S hS
  obtain ⟨A, hpr⟩ := prepared hl hprep
  refine ⟨?_, fun c hc => by simp [linear] at hc, fun ms => rfl⟩
  intro c hc
  obtain ⟨x, hx, hc⟩ := List.mem_flatMap.mp hc
  have hpx := hp x hx
  have ho : OnElement S1 (regKeys calls) x.nodes x.dofs := OnElement.congr hpx.on hpr.ready.mesh.elements
  rw [adds_num hpx hnum (fun n t => alike_eqNumber hS .node n t)] at hc
  rcases List.mem_append.mp hc with hc | hc
  · obtain ⟨⟨a, b⟩, hab, rfl⟩ := List.mem_map.mp hc
    have hm := mem_packed.mp hab
    obtain ⟨n, n1, t, t1, k1⟩ := localKey_mem (nodes := x.nodes) (dofs := x.dofs) (a := a) (by
      have : x.n = x.nodes.length * x.dofs.length := rfl
      omega)
    obtain ⟨n', n2, t', t2, k2⟩ := localKey_mem (nodes := x.nodes) (dofs := x.dofs) (a := b) hm.2
    obtain ⟨en, hen⟩ := ho.elem
    refine ⟨Or.inl rfl, en, localKey x.nodes x.dofs a, localKey x.nodes x.dofs b, ?_, ?_, ?_, ?_, rfl, rfl⟩
    · rw [k1]; exact ho.dofsReg n n1 t t1
    · rw [k2]; exact ho.dofsReg n' n2 t' t2
    · rw [k1]; show n ∈ elNodes S1.elements en; rw [← hen]; exact n1
    · rw [k2]; show n' ∈ elNodes S1.elements en; rw [← hen]; exact n2
  · cases hF : x.Fe with
    | none => rw [hF] at hc; simp [loadAdds] at hc
    | some f =>
      rw [hF] at hc
      obtain ⟨a, ha, rfl⟩ := List.mem_map.mp hc
      exact ⟨_, localKey_reg ho (List.mem_range.mp ha), rfl⟩

end Nla3d.Struct
