import Verif.Storage.Props
import Mathlib.Tactic.IntervalCases

/-!
# C14: when the preparation stops
-/

namespace Nla3d.Storage

open Nla3d.Dof Nla3d.Block

variable {K : Type}

/-- Two DoFs of one element: of its nodes or its own. -/
def Together (els : List (List Nat)) (f g : Key) : Prop :=
  ∃ e ns, els[e]? = some ns ∧ ∀ h ∈ [f, g], h.1 = .node ∧ h.2.1 ∈ ns ∨ h.1 = .elem ∧ h.2.1 = e + 1

theorem Together.symm {els : List (List Nat)} {f g : Key} (h : Together els f g) : Together els g f := by
  obtain ⟨e, ns, h1, h2⟩ := h
  exact ⟨e, ns, h1, fun x hx => h2 x (by simp at hx ⊢; tauto)⟩

/-- The preparation stops if all DoFs are constrained or a row needs too many entries. -/
theorem prepare_stops [AddMonoid K] {S : Storage K} {calls : List RegCall} {new : List (Mpc K)} {cs : List Key}
    (hl : LegalModel S calls new cs) (hf : S.prepare calls new cs = .fatal) :
    cs.toFinset.card = (regKeys calls).toFinset.card ∨
    ∃ S1 A T, Ready S S1 calls new cs A ∧ Pre (S1.prep T) A ∧ ¬ Fits (bsizes S1) 100 (gAll (S1.prep T) A) := by
  rcases setup_cases hl.setup with ⟨hc, S1, A, e1, e2⟩ | ⟨hc, e1⟩
  · right
    have hmesh : MeshOk S1 := by
      intro ns hns n hn
      have := hl.mesh ns (by rw [← e2.mesh.elements]; exact hns) n hn
      rw [e2.mesh.nNodes]; exact this
    obtain ⟨T, t1, _, _, t4⟩ := learnTopology_ok hmesh
    have hpre := e2.pre hl t4
    have hprep : S.prepare calls new cs = S1.initSolution := by unfold Storage.prepare; rw [e1]; rfl
    refine ⟨S1, A, T, e2, hpre, ?_⟩
    rw [hprep] at hf
    have hsz := hl.size
    rcases initSolution_cases t1 hpre (by
      intro n hn
      have h1 := e2.nUnknown
      have h2 := e2.nDofs
      have h3 := e2.nMpc
      simp only [List.mem_cons, List.not_mem_nil, or_false] at hn
      rcases hn with rfl | rfl <;> omega) with ⟨_, F, i1, _⟩ | ⟨hf, _⟩
    · rw [hf] at i1; simp at i1
    · exact hf
  · exact Or.inl hc

/-- The registered entries: pairs of DoFs of one element, or an equation and a DoF in it. -/
theorem gAll_mem [Zero K] {S S1 : Storage K} {calls : List RegCall} {new : List (Mpc K)} {cs : List Key} {A : Side → Spec}
    (h : Ready S S1 calls new cs A) {T : List (List Nat)} (hp : Pre (S1.prep T) A) {i c : Nat} (hm : (i, c) ∈ gAll (S1.prep T) A) :
    (∃ f g, f ∈ regKeys calls ∧ g ∈ regKeys calls ∧ num A f = i ∧ num A g = c ∧ Together S1.elements f g) ∨
    ∃ (q : Nat) (m : Mpc K), S1.mpcs[q]? = some m ∧ i = m.eqNum ∧ ∃ t ∈ m.eq, c = num A (.node, t.node, t.dof) := by
  have key : ∀ {s n d}, 0 < n ∧ n ≤ (S1.prep T).size s → d ∈ ents (S1.prep T) s n →
      ∃ f, f ∈ regKeys calls ∧ num A f = d.eq ∧ f.1 = s ∧ f.2.1 = n := by
    intro s n d hn hd
    have := ((hp.sim.ents hn).2 d).mp hd
    refine ⟨(s, n, d.type), (h.isSome _).mp (by rw [this]; rfl), num_eq this, rfl, rfl⟩
  have pair : ∀ {s n s' n' : _}, 0 < n ∧ n ≤ (S1.prep T).size s → 0 < n' ∧ n' ≤ (S1.prep T).size s' →
      (i, c) ∈ eqPairs (ents (S1.prep T) s n) (ents (S1.prep T) s' n') →
      (∃ e ns, S1.elements[e]? = some ns ∧ (s = .node ∧ n ∈ ns ∨ s = .elem ∧ n = e + 1) ∧ (s' = .node ∧ n' ∈ ns ∨ s' = .elem ∧ n' = e + 1)) →
      ∃ f g, f ∈ regKeys calls ∧ g ∈ regKeys calls ∧ num A f = i ∧ num A g = c ∧ Together S1.elements f g := by
    rintro s n s' n' h1 h2 h3 ⟨e, ns, e1, e2, e3⟩
    unfold eqPairs at h3
    simp only [List.mem_flatMap, List.mem_map, Prod.mk.injEq] at h3
    obtain ⟨d1, a1, d2, a2, rfl, rfl⟩ := h3
    obtain ⟨f, f1, f2, f3, f4⟩ := key h1 a1
    obtain ⟨g, g1, g2, g3, g4⟩ := key h2 a2
    refine ⟨f, g, f1, g1, f2, g2, e, ns, e1, ?_⟩
    intro x hx
    rcases List.mem_cons.mp hx with rfl | hx
    · rw [f3, f4]; exact e2
    · rw [List.mem_singleton] at hx
      subst hx
      rw [g3, g4]; exact e3
  unfold gAll at hm
  rcases List.mem_append.mp hm with hm | hm
  · left
    obtain ⟨nn, n1, hm⟩ := List.mem_flatMap.mp hm
    obtain ⟨n0, n2, rfl⟩ := List.mem_map.mp n1
    have n2 := List.mem_range.mp n2
    have hnn : 0 < n0 + 1 ∧ n0 + 1 ≤ (S1.prep T).nNodes := ⟨by omega, by omega⟩
    unfold gAt at hm
    obtain ⟨en, e1, hm⟩ := List.mem_flatMap.mp hm
    obtain ⟨ss, t1, t2⟩ := hp.topo (n0 + 1) hnn.1 hnn.2
    rw [t1] at e1
    have hin := (t2 en).mp e1
    obtain ⟨_, hen, hread⟩ := elNodes_ok hp.mesh hin
    have hget : S1.elements[en - 1]? = some (elNodes (S1.prep T).elements en) := Res.read_eq_ok.mp hread
    unfold gElem at hm
    rcases List.mem_append.mp hm with hm | hm
    · exact pair (s := .elem) (s' := .node) hen hnn hm ⟨en - 1, _, hget, Or.inr ⟨rfl, by omega⟩, Or.inl ⟨rfl, hin⟩⟩
    · obtain ⟨n2', q1, hm⟩ := List.mem_flatMap.mp hm
      unfold gNode at hm
      split at hm
      · simp at hm
      · exact pair (s := .node) (s' := .node) (elNodes_ok hp.mesh q1).1 hnn hm ⟨en - 1, _, hget, Or.inl ⟨rfl, q1⟩, Or.inl ⟨rfl, hin⟩⟩
  rcases List.mem_append.mp hm with hm | hm
  · left
    obtain ⟨en, n1, hm⟩ := List.mem_flatMap.mp hm
    obtain ⟨e0, n2, rfl⟩ := List.mem_map.mp n1
    have n2 := List.mem_range.mp n2
    have hlt : e0 < S1.elements.length := n2
    have hen : 0 < e0 + 1 ∧ e0 + 1 ≤ (S1.prep T).nElements := ⟨by omega, by omega⟩
    exact pair (s := .elem) (s' := .elem) hen hen hm ⟨e0, _, List.getElem?_eq_getElem hlt, Or.inr ⟨rfl, rfl⟩, Or.inr ⟨rfl, rfl⟩⟩
  · right
    obtain ⟨m, m1, hm⟩ := List.mem_flatMap.mp hm
    unfold gMpc at hm
    obtain ⟨t, t1, t2⟩ := List.mem_map.mp hm
    rw [Prod.mk.injEq] at t2
    obtain ⟨q, hq⟩ := List.getElem?_of_mem m1
    exact ⟨q, m, hq, t2.1.symm, t, t1, t2.2.symm⟩

/-- **C14, why the preparation stops.** On a legal model `initSolutionData` is fatal only if all DoFs are constrained, or some DoF has
more than 100 partners: DoFs in the same elements (itself included) and MPC equations with it. -/
theorem C14_prepare_stops [AddMonoid K] {S : Storage K} {calls : List RegCall} {new : List (Mpc K)} {cs : List Key}
    (hl : LegalModel S calls new cs) (hf : S.prepare calls new cs = .fatal) :
    (∀ k ∈ regKeys calls, k ∈ cs) ∨
    ∃ f ∈ regKeys calls, ∃ (P : Finset Key) (Q : Finset Nat), (∀ g ∈ P, g ∈ regKeys calls ∧ Together S.elements f g) ∧
      (∀ q ∈ Q, ∃ m, (S.mpcs ++ new)[q]? = some m ∧ ∃ t ∈ m.eq, f = (.node, t.node, t.dof)) ∧ 100 < P.card + Q.card := by
  classical
  rcases prepare_stops hl hf with hc | ⟨S1, A, T, h, hp, hnf⟩
  · left
    intro k hk
    have hsub : cs.toFinset ⊆ (regKeys calls).toFinset := fun x hx => List.mem_toFinset.mpr (hl.setup.cons x (List.mem_toFinset.mp hx))
    have := Finset.eq_of_subset_of_card_le hsub (by omega)
    rw [← List.mem_toFinset, this]
    exact List.mem_toFinset.mpr hk
  right
  unfold Fits at hnf
  push Not at hnf
  obtain ⟨a, b, p, hab, hpos, hb1, hb2, hcard⟩ := hnf
  obtain ⟨ha1, ha2, hp1, hp2⟩ := hpos
  have hdofs := h.nUnknown
  -- global numbers
  have hlen : (bsizes S1).length = 2 := rfl
  have hmono : ∀ c, c ∈ rowCols (bsizes S1) (gAll (S1.prep T) A) a b p → glob (bsizes S1) a p ≤ glob (bsizes S1) b c ∧
      Reg (gAll (S1.prep T) A) (glob (bsizes S1) a p) (glob (bsizes S1) b c) := by
    intro c hc
    unfold rowCols at hc
    simp only [List.mem_toFinset, List.mem_filter, List.mem_range, decide_eq_true_eq] at hc
    refine ⟨?_, hc.2.2.2⟩
    rw [hlen] at ha2 hb2
    have h1 := hc.2.2.1
    unfold glob
    interval_cases a <;> interval_cases b <;> simp at hp2 h1 ⊢ <;> omega
  obtain ⟨hpt, heq⟩ : (∀ q (m : Mpc K), S1.mpcs[q]? = some m → m.eqNum = S1.nDofs + 1 + q) ∧
      ∀ (q : Nat) (m : Mpc K), S1.mpcs[q]? = some m → ∃ m0, (S.mpcs ++ new)[q]? = some m0 ∧ m0.eq = m.eq := by
    constructor
    · intro q m hq
      have e := congrArg (fun l => l[q]?) h.eqNums
      simp only [List.getElem?_map, hq, Option.map_some] at e
      rw [List.getElem?_range' (List.getElem?_eq_some_iff.mp hq).1, Option.some.injEq] at e
      omega
    · intro q m hq
      have e := congrArg (fun l => l[q]?) h.terms
      simp only [List.getElem?_map, hq, Option.map_some] at e
      obtain ⟨m0, e1, e2⟩ := Option.map_eq_some_iff.mp e.symm
      rw [Prod.mk.injEq] at e2
      exact ⟨m0, e1, e2.1⟩
  have hterm : ∀ (q : Nat) (m : Mpc K), S1.mpcs[q]? = some m → ∀ t ∈ m.eq, (Side.node, t.node, t.dof) ∈ regKeys calls := by
    intro q m hq t ht
    exact (h.isSome _).mp ((hp.terms m (List.mem_of_getElem? hq)).2 t ht)
  -- every column is that of a partner
  have hcol : ∀ c, c ∈ rowCols (bsizes S1) (gAll (S1.prep T) A) a b p → ∃ f ∈ regKeys calls, num A f = glob (bsizes S1) a p ∧
      ((∃ g ∈ regKeys calls, num A g = glob (bsizes S1) b c ∧ Together S1.elements f g) ∨
       ∃ (q : Nat) (m : Mpc K), S1.mpcs[q]? = some m ∧ glob (bsizes S1) b c = S1.nDofs + 1 + q ∧ ∃ t ∈ m.eq, f = (.node, t.node, t.dof)) := by
    intro c hc
    obtain ⟨h1, h2⟩ := hmono c hc
    rcases h2 with h2 | h2
    · rcases gAll_mem h hp h2 with ⟨f, g, f1, g1, f2, g2, h3⟩ | ⟨q, m, m1, m2, t, t1, t2⟩
      · exact ⟨f, f1, f2, Or.inl ⟨g, g1, g2, h3⟩⟩
      · exfalso
        have := hpt q m m1
        have := h.num_range (hterm q m m1 t t1)
        omega
    · rcases gAll_mem h hp h2 with ⟨f, g, f1, g1, f2, g2, h3⟩ | ⟨q, m, m1, m2, t, t1, t2⟩
      · exact ⟨g, g1, g2, Or.inl ⟨f, f1, f2, h3.symm⟩⟩
      · exact ⟨_, hterm q m m1 t t1, t2.symm, Or.inr ⟨q, m, m1, by rw [m2, hpt q m m1], t, t1, rfl⟩⟩
  obtain ⟨c0, hc0⟩ : (rowCols (bsizes S1) (gAll (S1.prep T) A) a b p).Nonempty := Finset.card_pos.mp (by omega)
  obtain ⟨f, f1, f2, _⟩ := hcol c0 hc0
  refine ⟨f, f1, (regKeys calls).toFinset.filter (fun g => Together S.elements f g),
    (Finset.range S1.mpcs.length).filter (fun q => ∃ m, (S.mpcs ++ new)[q]? = some m ∧ ∃ t ∈ m.eq, f = (.node, t.node, t.dof)),
    fun g hg => ?_, fun q hq => (Finset.mem_filter.mp hq).2, ?_⟩
  · obtain ⟨h1, h2⟩ := Finset.mem_filter.mp hg
    exact ⟨List.mem_toFinset.mp h1, h2⟩
  · refine lt_of_lt_of_le hcard ?_
    rw [← Finset.card_image_of_injective (rowCols (bsizes S1) (gAll (S1.prep T) A) a b p)
      (f := fun c => glob (bsizes S1) b c) (fun x y hxy => by simpa [glob] using hxy)]
    refine le_trans (Finset.card_le_card (t := ((regKeys calls).toFinset.filter (fun g => Together S.elements f g)).image (num A) ∪
      ((Finset.range S1.mpcs.length).filter (fun q => ∃ m, (S.mpcs ++ new)[q]? = some m ∧
        ∃ t ∈ m.eq, f = (.node, t.node, t.dof))).image (fun q => S1.nDofs + 1 + q)) ?_)
      (le_trans (Finset.card_union_le _ _) (Nat.add_le_add Finset.card_image_le Finset.card_image_le))
    intro y hy
    obtain ⟨c, c1, rfl⟩ := Finset.mem_image.mp hy
    obtain ⟨f', q1, q2, q3⟩ := hcol c c1
    obtain rfl := h.num_inj q1 f1 (q2.trans f2.symm)
    rw [Finset.mem_union]
    rcases q3 with ⟨g, g1, g2, g3⟩ | ⟨q, m, m1, m2, t, t1, t2⟩
    · left
      rw [h.mesh.elements] at g3
      exact Finset.mem_image.mpr ⟨g, Finset.mem_filter.mpr ⟨List.mem_toFinset.mpr g1, g3⟩, g2⟩
    · right
      obtain ⟨m0, e1, e2⟩ := heq q m m1
      exact Finset.mem_image.mpr ⟨q, Finset.mem_filter.mpr ⟨Finset.mem_range.mpr (List.getElem?_eq_some_iff.mp m1).1, m0, e1, t,
        by rw [e2]; exact t1, t2⟩, m2.symm⟩

/-- The outcome is the fatal stop. -/
def isFatal {α : Type} : Res α → Bool
  | .fatal => true
  | _ => false

theorem fatal_of {α : Type} {r : Res α} (h : isFatal r = true) : r = .fatal := by
  cases r with
  | fatal => rfl
  | _ => exact absurd h (by simp [isFatal])

/-- 101 equations with one DoF. -/
def crowd : Storage ℤ := Storage.fresh 1 [] (List.replicate 101 ⟨[⟨1, .UX, 1⟩], 0, 0⟩) false

theorem crowd_legal : LegalModel crowd [⟨.node, 1, [.UX]⟩] [] [] := by
  have hmem : ∀ m ∈ crowd.mpcs ++ [], m = ⟨[⟨1, .UX, 1⟩], 0, 0⟩ := fun m hm => by
    rw [List.append_nil] at hm
    exact List.eq_of_mem_replicate hm
  refine ⟨⟨?_, by decide, by decide, by simp, ?_, rfl⟩, ?_, ?_, ?_⟩
  · unfold LegalReg; decide
  · intro m hm; rw [hmem m hm]; simp
  · intro ns hns; simp [crowd, Storage.fresh] at hns
  · intro m hm t ht
    rw [hmem m hm, List.mem_singleton] at ht
    subst ht
    decide
  · show _ + (List.replicate 101 _ ++ []).length < _
    simp [Sparse.invalid, regKeys]

example : (∀ k ∈ regKeys [⟨.node, 1, [.UX]⟩], k ∈ ([] : List Key)) ∨
    ∃ f ∈ regKeys [⟨.node, 1, [.UX]⟩], ∃ (P : Finset Key) (Q : Finset Nat),
      (∀ g ∈ P, g ∈ regKeys [⟨.node, 1, [.UX]⟩] ∧ Together crowd.elements f g) ∧
      (∀ q ∈ Q, ∃ m, (crowd.mpcs ++ [])[q]? = some m ∧ ∃ t ∈ m.eq, f = (.node, t.node, t.dof)) ∧ 100 < P.card + Q.card := by
  have h : isFatal (crowd.prepare [⟨.node, 1, [.UX]⟩] [] []) = true := by decide +kernel
  exact C14_prepare_stops crowd_legal (fatal_of h)

end Nla3d.Storage
