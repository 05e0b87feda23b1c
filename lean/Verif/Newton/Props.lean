import Verif.Newton.Lemmas

/-!
# The assembled matrix is the derivative of the assembled residual: C81
-/

namespace Nla3d.Newton

open Nla3d.Storage Nla3d.Dof Nla3d.Iso Nla3d.Hyper Nla3d.Material Nla3d.Mixed

noncomputable section

/-! ## Sums of element laws -/

/-- Element law of unspecified size. -/
structure Part where
  m : Nat
  eq : Nat → Nat
  Ke : (Nat → ℝ) → Nat → Nat → ℝ
  Fe : (Nat → ℝ) → Nat → ℝ

/-- The matrix of a list of elements. -/
def sumK (ps : List Part) (u : Nat → ℝ) (i j : Nat) : ℝ := (ps.map (fun p => scatter p.m p.eq (p.Ke u) i j)).sum

/-- The vector of a list of elements. -/
def sumF (ps : List Part) (u : Nat → ℝ) (i : Nat) : ℝ := (ps.map (fun p => scatterV p.m p.eq (p.Fe u) i)).sum

theorem scatter_symm {m : Nat} {eq : Nat → Nat} {Ke : Nat → Nat → ℝ} (h : ∀ a b, Ke a b = Ke b a) (i j : Nat) :
    scatter m eq Ke i j = scatter m eq Ke j i := by
  unfold scatter
  rw [Finset.sum_comm]
  refine Finset.sum_congr rfl fun a _ => Finset.sum_congr rfl fun b _ => ?_
  rw [h]
  simp only [and_comm]

theorem scatter_row {m N : Nat} {eq : Nat → Nat} (Ke : Nat → Nat → ℝ) (v : Nat → ℝ) (h : ∀ a < m, 0 < eq a ∧ eq a ≤ N) (i : Nat) :
    ∑ j ∈ Finset.Icc 1 N, scatter m eq Ke i j * v j =
      ∑ a ∈ Finset.range m, if eq a = i then ∑ b ∈ Finset.range m, Ke a b * v (eq b) else 0 := by
  unfold scatter
  simp only [Finset.sum_mul]
  rw [Finset.sum_comm]
  refine Finset.sum_congr rfl fun a _ => ?_
  rw [Finset.sum_comm]
  by_cases hi : eq a = i
  · rw [if_pos hi]
    refine Finset.sum_congr rfl fun b hb => ?_
    have hb' := h b (Finset.mem_range.mp hb)
    rw [Finset.sum_eq_single (eq b)]
    · simp [hi]
    · intro j _ hj
      simp [Ne.symm hj]
    · intro hn
      exact absurd (Finset.mem_Icc.mpr ⟨hb'.1, hb'.2⟩) hn
  · rw [if_neg hi]
    refine Finset.sum_eq_zero fun b _ => Finset.sum_eq_zero fun j _ => ?_
    simp [hi]

theorem scatterV_deriv {m : Nat} {eq : Nat → Nat} {f : ℝ → Nat → ℝ} {d : Nat → ℝ} {x : ℝ}
    (h : ∀ a < m, HasDerivAt (fun s => f s a) (d a) x) (i : Nat) :
    HasDerivAt (fun s => scatterV m eq (f s) i) (scatterV m eq d i) x := by
  unfold scatterV
  refine HasDerivAt.fun_sum fun a ha => ?_
  by_cases hi : eq a = i
  · simp only [if_pos hi]
    exact h a (Finset.mem_range.mp ha)
  · simp only [if_neg hi]
    exact hasDerivAt_const _ _

variable {S0 S1 S : Storage ℝ} {calls : List RegCall} {new : List (Mpc ℝ)} {cs : List Key} {num : Key → Nat}

theorem el_law (h : Session S0 calls new cs S1 num S) {e : El} (hr : e.Ready S1 (regKeys calls)) :
    ∃ p : Part, Law S0 calls new cs S1 num e p.m p.eq p.Ke p.Fe := by
  cases e with
  | hex e =>
    obtain ⟨Ke, Fe, hl⟩ := hex_law h hr
    exact ⟨⟨_, _, Ke, Fe⟩, hl⟩
  | plane e =>
    obtain ⟨Ke, Fe, hl⟩ := plane_law h hr
    exact ⟨⟨_, _, Ke, Fe⟩, hl⟩

theorem els_law (h : Session S0 calls new cs S1 num S) : ∀ els : List El, (∀ e ∈ els, e.Ready S1 (regKeys calls)) →
    ∃ ps : List Part, List.Forall₂ (fun e p => Law S0 calls new cs S1 num e p.m p.eq p.Ke p.Fe) els ps := by
  intro els
  induction els with
  | nil => intro _; exact ⟨[], .nil⟩
  | cons e els ih =>
    intro hr
    obtain ⟨ps, h1⟩ := ih (fun x hx => hr x (by simp [hx]))
    obtain ⟨p, h2⟩ := el_law h (hr e (by simp))
    exact ⟨p :: ps, .cons h2 h1⟩

/-- After the update of all elements each of them builds its part. -/
def Builds (S0 : Storage ℝ) (calls : List RegCall) (new : List (Mpc ℝ)) (cs : List Key) (S1 : Storage ℝ) (num : Key → Nat)
    (U : List ℝ) (u : Nat → ℝ) (e : El) (p : Part) : Prop :=
  ∀ S', Session S0 calls new cs S1 num S' → ∃ S'', build U S' e = .ok S'' ∧ Session S0 calls new cs S1 num S'' ∧
    Grows S1 S' S'' (fun w i j => if w = .K then scatter p.m p.eq (p.Ke u) i j else 0) (fun i => scatterV p.m p.eq (p.Fe u) i)

theorem updateAll_law (h : Session S0 calls new cs S1 num S) {U : List ℝ} {u : Nat → ℝ} (hU : Holds (S1.nDofs + S1.nMpc) U u)
    {els : List El} {ps : List Part} (hl : List.Forall₂ (fun e p => Law S0 calls new cs S1 num e p.m p.eq p.Ke p.Fe) els ps) :
    ∀ els', List.Forall₂ El.Same els els' → ∀ acc : List El,
    ∃ els'', Res.foldlM' (fun l e => do
        let e ← update { S with vecU := U } e
        .ok (l ++ [e])) acc els' = .ok (acc ++ els'') ∧ List.Forall₂ El.Same els els'' ∧
      List.Forall₂ (Builds S0 calls new cs S1 num U u) els'' ps := by
  induction hl with
  | nil =>
    intro els' hs acc
    cases hs
    exact ⟨[], by simp, .nil, .nil⟩
  | cons hp hps ih =>
    intro els' hs acc
    cases hs with
    | cons s1 s2 =>
      obtain ⟨e'', r1, r2, r3⟩ := hp.run _ s1 U u hU S h
      obtain ⟨els'', t1, t2, t3⟩ := ih _ s2 (acc ++ [e''])
      refine ⟨e'' :: els'', ?_, .cons r2 t2, .cons r3 t3⟩
      rw [Res.foldlM'_cons, r1]
      simp only [Res.ok_bind]
      rw [t1]
      simp

theorem buildAll_law {U : List ℝ} {u : Nat → ℝ} {els : List El} {ps : List Part}
    (hl : List.Forall₂ (Builds S0 calls new cs S1 num U u) els ps) : ∀ S, Session S0 calls new cs S1 num S →
    ∃ S', Res.foldlM' (build U) S els = .ok S' ∧ Session S0 calls new cs S1 num S' ∧
      Grows S1 S S' (fun w i j => if w = .K then sumK ps u i j else 0) (sumF ps u) := by
  induction hl with
  | nil =>
    intro S h
    refine ⟨S, rfl, h, ?_, ?_⟩
    · intro w i j x _ _ _ _ _ hx
      simpa [sumK] using hx
    · intro i x _ _ hx
      simpa [sumF] using hx
  | cons hp hps ih =>
    intro S h
    obtain ⟨S2, r1, r2, r3, r4⟩ := hp S h
    obtain ⟨S3, t1, t2, t3, t4⟩ := ih S2 r2
    refine ⟨S3, by rw [Res.foldlM'_cons, r1]; exact t1, t2, ?_, ?_⟩
    · intro w i j x hw i1 i2 j1 j2 hx
      have := t3 w i j _ hw i1 i2 j1 j2 (r3 w i j x hw i1 i2 j1 j2 hx)
      rw [add_assoc] at this
      convert this using 2
      by_cases hk : w = .K <;> simp [hk, sumK]
    · intro i x i1 i2 hx
      have := t4 i _ i1 i2 (r4 i x i1 i2 hx)
      rw [add_assoc] at this
      convert this using 2
      simp [sumF]

theorem sumK_symm {els : List El} {ps : List Part} (hl : List.Forall₂ (fun e p => Law S0 calls new cs S1 num e p.m p.eq p.Ke p.Fe) els ps) :
    ∀ u i j, sumK ps u i j = sumK ps u j i := by
  intro u i j
  unfold sumK
  congr 1
  induction hl with
  | nil => rfl
  | cons hp _ ih => rw [List.map_cons, List.map_cons, ih, scatter_symm (hp.symm u)]

theorem sumF_deriv {els : List El} {ps : List Part} (hl : List.Forall₂ (fun e p => Law S0 calls new cs S1 num e p.m p.eq p.Ke p.Fe) els ps) :
    ∀ u v : Nat → ℝ, (∀ e ∈ els, e.Sound num u) → ∀ i,
      HasDerivAt (fun s : ℝ => sumF ps (fun j => u j + s * v j) i) (-∑ j ∈ Finset.Icc 1 (S1.nDofs + S1.nMpc), sumK ps u i j * v j) 0 := by
  intro u v hsound i
  induction hl with
  | nil => simpa [sumK, sumF] using hasDerivAt_const (0 : ℝ) (0 : ℝ)
  | @cons e p els ps hp _ ih =>
    have d1 := scatterV_deriv (eq := p.eq) (hp.deriv u v (hsound e (by simp))) i
    have d2 := ih (fun x hx => hsound x (by simp [hx]))
    have d := d1.add d2
    refine (d.congr_of_eventuallyEq (Filter.Eventually.of_forall fun s => ?_)).congr_deriv ?_
    · simp [sumF]
    · have e1 : scatterV p.m p.eq (fun a => -∑ b ∈ Finset.range p.m, p.Ke u a b * v (p.eq b)) i =
          -∑ j ∈ Finset.Icc 1 (S1.nDofs + S1.nMpc), scatter p.m p.eq (p.Ke u) i j * v j := by
        rw [scatter_row _ _ hp.range]
        unfold scatterV
        rw [← Finset.sum_neg_distrib]
        refine Finset.sum_congr rfl fun a _ => ?_
        by_cases hi : p.eq a = i <;> simp [hi]
      rw [e1, ← neg_add, ← Finset.sum_add_distrib]
      congr 1
      refine Finset.sum_congr rfl fun j _ => ?_
      simp [sumK, add_mul]

/-- The matrix is continuous where the displaced elements are not degenerate. -/
theorem sumK_cont {els : List El} {ps : List Part} (hl : List.Forall₂ (fun e p => Law S0 calls new cs S1 num e p.m p.eq p.Ke p.Fe) els ps) :
    (∀ e ∈ els, e.Smooth) → ∀ u : Nat → ℝ, (∀ e ∈ els, e.Sound num u) → ∀ i j, ContinuousAt (fun u => sumK ps u i j) u := by
  intro hs u hu i j
  induction hl with
  | nil => simpa [sumK] using continuousAt_const
  | @cons e p els ps hp _ ih =>
    have d1 : ContinuousAt (fun u => scatter p.m p.eq (p.Ke u) i j) u := by
      unfold scatter
      refine tendsto_finset_sum _ fun a _ => tendsto_finset_sum _ fun b _ => ?_
      by_cases hc : p.eq a = i ∧ p.eq b = j
      · simp only [if_pos hc]
        exact hp.cont (hs e (by simp)) u (hu e (by simp)) a b
      · simp only [if_neg hc]
        exact tendsto_const_nhds
    have d2 := ih (fun x hx => hs x (by simp [hx])) (fun x hx => hu x (by simp [hx]))
    simp only [sumK, List.map_cons, List.sum_cons]
    exact d1.add d2

/-- Only the values of the DoFs matter. -/
theorem sum_loc {els : List El} {ps : List Part} (hl : List.Forall₂ (fun e p => Law S0 calls new cs S1 num e p.m p.eq p.Ke p.Fe) els ps) :
    ∀ u u' : Nat → ℝ, (∀ i, 0 < i → i ≤ S1.nDofs → u i = u' i) →
      sumK ps u = sumK ps u' ∧ sumF ps u = sumF ps u' ∧ ((∀ e ∈ els, e.Sound num u) → ∀ e ∈ els, e.Sound num u') := by
  intro u u' hu
  induction hl with
  | nil => exact ⟨rfl, rfl, fun _ e he => by simp at he⟩
  | @cons e p els ps hp _ ih =>
    obtain ⟨a1, a2, a3⟩ := hp.loc u u' hu
    obtain ⟨b1, b2, b3⟩ := ih
    refine ⟨?_, ?_, ?_⟩
    · funext i j
      have := congrFun (congrFun b1 i) j
      simp only [sumK, List.map_cons, List.sum_cons, a1] at this ⊢
      rw [this]
    · funext i
      have := congrFun b2 i
      simp only [sumF, List.map_cons, List.sum_cons, a2] at this ⊢
      rw [this]
    · intro h x hx
      rcases List.mem_cons.mp hx with rfl | hx
      · exact a3 (h _ (by simp))
      · exact b3 (fun y hy => h y (by simp [hy])) x hx

theorem sound_near {els : List El} {ps : List Part} (hl : List.Forall₂ (fun e p => Law S0 calls new cs S1 num e p.m p.eq p.Ke p.Fe) els ps) :
    ∀ u : Nat → ℝ, (∀ e ∈ els, e.Sound num u) → ∀ᶠ u' in nhds u, ∀ e ∈ els, e.Sound num u' := by
  intro u hu
  refine eventually_all_mem fun e he => ?_
  have key : ∃ p : Part, Law S0 calls new cs S1 num e p.m p.eq p.Ke p.Fe := by
    clear hu
    induction hl with
    | nil => simp at he
    | @cons e' p els ps hp _ ih =>
      rcases List.mem_cons.mp he with rfl | he
      · exact ⟨p, hp⟩
      · exact ih he
  obtain ⟨p, hp⟩ := key
  exact hp.near u (hu e he)

theorem scatterV_dot {m N : Nat} {eq : Nat → Nat} (f v : Nat → ℝ) (h : ∀ a < m, 0 < eq a ∧ eq a ≤ N) :
    ∑ i ∈ Finset.Icc 1 N, scatterV m eq f i * v i = ∑ a ∈ Finset.range m, f a * v (eq a) := by
  unfold scatterV
  simp only [Finset.sum_mul]
  rw [Finset.sum_comm]
  refine Finset.sum_congr rfl fun a ha => ?_
  have h1 := h a (Finset.mem_range.mp ha)
  rw [Finset.sum_eq_single (eq a)]
  · simp
  · intro i _ hi
    simp [Ne.symm hi]
  · intro hn
    exact absurd (Finset.mem_Icc.mpr ⟨h1.1, h1.2⟩) hn

theorem sumF_potential {els : List El} {ps : List Part}
    (hl : List.Forall₂ (fun e p => Law S0 calls new cs S1 num e p.m p.eq p.Ke p.Fe) els ps) (z : ℝ) :
    ∀ u v : Nat → ℝ, (∀ e ∈ els, e.Sound num u) →
      HasDerivAt (fun s : ℝ => (els.map (El.potential z num (fun j => u j + s * v j))).sum)
        (-∑ i ∈ Finset.Icc 1 (S1.nDofs + S1.nMpc), sumF ps u i * v i) 0 := by
  intro u v hsound
  induction hl with
  | nil => simpa [sumF] using hasDerivAt_const (0 : ℝ) (0 : ℝ)
  | @cons e p els ps hp _ ih =>
    have d := (hp.pot z u v (hsound e (by simp))).add (ih (fun x hx => hsound x (by simp [hx])))
    refine (d.congr_of_eventuallyEq (Filter.Eventually.of_forall fun s => ?_)).congr_deriv ?_
    · simp
    · rw [← scatterV_dot _ _ hp.range, ← neg_add, ← Finset.sum_add_distrib]
      congr 1
      refine Finset.sum_congr rfl fun j _ => ?_
      simp [sumF, add_mul]

/-! ## C81 -/

/-- **C81.** For any model of SOLID81 and PLANE41 elements there are one matrix function `K` and one vector function `F` of the
unknowns, such that from every state of a session, with any earlier state at the integration points, updating all elements with
unknowns `u` and building them adds exactly `K u` to the stiffness matrix and `F u` to the load vector. `K u` is symmetric and is
exactly minus the derivative of `F` at `u`, in every direction, where the displaced elements are not degenerate. -/
theorem C81_newton (h : Session S0 calls new cs S1 num S) {els : List El} (hr : ∀ e ∈ els, e.Ready S1 (regKeys calls)) :
    ∃ (K : (Nat → ℝ) → Nat → Nat → ℝ) (F : (Nat → ℝ) → Nat → ℝ),
      (∀ S els' U u, Session S0 calls new cs S1 num S → List.Forall₂ El.Same els els' → Holds (S1.nDofs + S1.nMpc) U u →
        ∃ S' els'', pass U S els' = .ok (S', els'') ∧ Session S0 calls new cs S1 num S' ∧ List.Forall₂ El.Same els els'' ∧
          Grows S1 S S' (fun w i j => if w = .K then K u i j else 0) (F u)) ∧
      (∀ u i j, K u i j = K u j i) ∧
      ∀ u v : Nat → ℝ, (∀ e ∈ els, e.Sound num u) → ∀ i,
        HasDerivAt (fun s : ℝ => F (fun j => u j + s * v j) i) (-∑ j ∈ Finset.Icc 1 (S1.nDofs + S1.nMpc), K u i j * v j) 0 := by
  obtain ⟨ps, hl⟩ := els_law h els hr
  refine ⟨sumK ps, sumF ps, ?_, ?_, ?_⟩
  · intro S els' U u hS hs hU
    obtain ⟨els'', u1, u2, u3⟩ := updateAll_law hS hU hl els' hs []
    obtain ⟨S', b1, b2, b3⟩ := buildAll_law u3 S hS
    refine ⟨S', els'', ?_, b2, u2, b3⟩
    unfold pass updateAll
    rw [u1, List.nil_append, Res.ok_bind, b1]
    rfl
  · exact sumK_symm hl
  · exact sumF_deriv hl

/-! A cube with a plane element on its lower face meets the hypotheses. -/

/-- The mesh. -/
def demo : Storage ℝ := Storage.fresh 8 [[1, 2, 3, 4, 5, 6, 7, 8], [1, 2, 3, 4]] [] false

/-- Registrations of `demo`. -/
def demoCalls : List RegCall :=
  [(.node, 1, [.UX, .UY, .UZ]), (.node, 2, [.UX, .UY, .UZ]), (.node, 3, [.UX, .UY, .UZ]), (.node, 4, [.UX, .UY, .UZ]),
   (.node, 5, [.UX, .UY, .UZ]), (.node, 6, [.UX, .UY, .UZ]), (.node, 7, [.UX, .UY, .UZ]), (.node, 8, [.UX, .UY, .UZ]),
   (.elem, 1, [.HYDRO_PRESSURE]),
   (.node, 1, [.UX, .UY]), (.node, 2, [.UX, .UY]), (.node, 3, [.UX, .UY]), (.node, 4, [.UX, .UY]), (.elem, 2, [.HYDRO_PRESSURE])]

theorem demo_session : ∃ S1 num, Session demo demoCalls [] [(.node, 1, .UX)] S1 num S1 ∧
    OnMixed S1 (regKeys demoCalls) 1 (List.ofFn ![1, 2, 3, 4, 5, 6, 7, 8]) solidDofs ∧
    OnMixed S1 (regKeys demoCalls) 2 (List.ofFn ![1, 2, 3, 4]) planeDofs := by
  have hl : LegalModel demo demoCalls [] [(.node, 1, .UX)] := by
    refine ⟨⟨?_, ?_, ?_, ?_, ?_, rfl⟩, ?_, ?_, ?_⟩
    · unfold LegalReg; decide
    · decide
    · decide
    · decide
    · intro m hm; simp [demo, Storage.fresh] at hm
    · unfold MeshOk; decide
    · intro m hm; simp [demo, Storage.fresh] at hm
    · decide
  obtain ⟨S1, num, h1, h2⟩ := prepare_small hl (by decide) (by decide)
  refine ⟨S1, num, ⟨hl, h1, h2, [], by simp, rfl⟩, ?_, ?_⟩
  all_goals
    obtain ⟨A, hp⟩ := prepared hl h1
    have hel : S1.elements = [[1, 2, 3, 4, 5, 6, 7, 8], [1, 2, 3, 4]] := hp.ready.mesh.elements
    exact ⟨by rw [hel]; rfl, by decide, by decide, by decide, by decide⟩

example : ∃ (S1 : Storage ℝ) (num : Key → Nat) (els : List El), Session demo demoCalls [] [(.node, 1, .UX)] S1 num S1 ∧ els.length = 2 ∧
    (∀ e ∈ els, El.Ready S1 (regKeys demoCalls) e) ∧ ∀ e ∈ els, El.Sound num (fun _ => 0) e := by
  obtain ⟨S1, num, h, m1, m2⟩ := demo_session
  have j1 : ∀ x, (jac hexa (affine 1 0 hexaNodes) x).det ≠ 0 := by
    intro x
    rw [jac_affine C34_hexa _ _ _ (hexa_repr x)]
    simp
  have j2 : ∀ x, (jac quad (affine 1 0 quadNodes) x).det ≠ 0 := by
    intro x
    rw [jac_affine C34_quad _ _ _ (quad_repr x)]
    simp
  obtain ⟨g1, a1, _, _⟩ := makeJacob_good (S := hexa) (o := 2) (fun q _ => j1 q.xi)
  obtain ⟨g2, a2, _, _⟩ := makeJacob_good (S := quad) (o := 2) (fun q _ => j2 q.xi)
  refine ⟨S1, num, [.hex ⟨neoHookean ![2, 1], 7, 2, affine 1 0 hexaNodes, g1,
      List.replicate (nOfIntPoints hexa g1) Point.initial, 1, ![1, 2, 3, 4, 5, 6, 7, 8]⟩,
    .plane ⟨mooneyRivlin ![2, 1, 5], 9, 2, affine 1 0 quadNodes, g2,
      List.replicate (nOfIntPoints quad g2) Point2.initial, 2, ![1, 2, 3, 4]⟩], h, rfl, ?_, ?_⟩
  · intro e he
    simp only [List.mem_cons, List.not_mem_nil, or_false] at he
    rcases he with rfl | rfl
    · exact ⟨C46_neoHookean _, m1, fun q _ => j1 q.xi, a1, by simp⟩
    · exact ⟨C46_mooneyRivlin _, m2, fun q _ => j2 q.xi, a2, by simp⟩
  · intro e he
    simp only [List.mem_cons, List.not_mem_nil, or_false] at he
    rcases he with rfl | rfl
    · intro q _
      rw [show Hex.disp num (fun _ => 0) _ = 0 from rfl, add_zero]
      exact j1 q.xi
    · intro q _
      rw [show Quad.disp num (fun _ => 0) _ = 0 from rfl, add_zero]
      exact j2 q.xi

end

end Nla3d.Newton
