import Verif.Struct.Physics

/-!
# Models that are solved

A model with one free DoF is solved if the elements resist it. Used to show that the hypotheses of the theorems on solved
models are met by actual structures.
-/

noncomputable section

namespace Nla3d.Struct

open Nla3d.Dof Nla3d.Block Nla3d.Sparse Nla3d.Storage Nla3d.Solver Finset
open scoped Matrix

section
variable {K : Type} [Field K] [LinearOrder K] [IsStrictOrderedRing K]

/-- A model with one free DoF and no constraint equations, on which the elements act with a stiffness of at least `1e-20`. -/
theorem one_free {E : Type} {S0 : Storage K} {calls : List RegCall} {loads fixs : List (Bc K)}
    {els : List (LinEl K)} {update : E → Storage K → E} {e : E} {k0 : Key}
    (hl : LegalModel S0 calls [] (fixKeys fixs)) (hm : S0.mpcs = []) (hload : ∀ l ∈ loads, keyOf l ∈ regKeys calls)
    (hp : ∀ x ∈ els, Placed S0 calls x) (hk : k0 ∈ regKeys calls) (hfree : k0 ∉ fixKeys fixs)
    (hall : ∀ k ∈ regKeys calls, k ≠ k0 → k ∈ fixKeys fixs) (hsmall : (regKeys calls).toFinset.card ≤ 100)
    (hst : (1 / 10 ^ 20 : K) ≤ |(els.map fun x => x.forceOn (fun k => if k = k0 then 1 else 0) k0).sum -
      (els.map fun x => x.forceOn (fun _ => 0) k0).sum|) :
    ∃ S' e', linearSolve Gauss.solveEquations (linear els update) loads fixs calls [] S0 e = .ok (S', e') := by
  have hprob := linear_problem (E := E) (update := update) hl hload hp
  have hins : (regKeys calls).toFinset = insert k0 (fixKeys fixs).toFinset := by
    ext k
    rw [List.mem_toFinset, Finset.mem_insert, List.mem_toFinset]
    constructor
    · intro h
      by_cases c : k = k0
      · exact Or.inl c
      · exact Or.inr (hall k h c)
    · rintro (rfl | h)
      · exact hk
      · exact hl.setup.cons k h
  have hcard : (regKeys calls).toFinset.card = (fixKeys fixs).toFinset.card + 1 := by
    rw [hins, Finset.card_insert_of_notMem (by rwa [List.mem_toFinset])]
  rcases linear_solve hprob gauss_exact e with ⟨_, hf⟩ | ⟨S1, num, hprep, hnum, ⟨_, hstop⟩ | ⟨S', e', h1, _⟩⟩
  · exfalso
    obtain ⟨S1, num, h1, _⟩ := prepare_small hl (by omega) (by rw [hm]; simpa using hsmall)
    rw [hf] at h1
    simp at h1
  · exfalso
    obtain ⟨A, hb⟩ := base_of_prepare hl hprep hnum
    have c1 : S1.nConstr = (fixKeys fixs).toFinset.card := hb.prep.ready.nConstr
    have c2 : S1.nDofs = (regKeys calls).toFinset.card := hb.prep.ready.nDofs
    have c3 := hb.prep.pre.dofs
    have c4 : S1.nMpc = 0 := by
      have := hb.prep.ready.nMpc
      rw [this, hm]; rfl
    have hfr := hb.freeRange hk hfree
    have hn0 : num k0 = S1.nConstr + 1 := by omega
    have hM : S1.mpcs = [] := List.length_eq_zero_iff.mp c4
    have hN : S1.nDofs + S1.nMpc = S1.nConstr + 1 := by omega
    have r1 := row_eq hb hnum hp update e (fun j => if j = num k0 then (1 : K) else 0) hk
    have r2 := row_eq hb hnum hp update e (fun _ => (0 : K)) hk
    have hind : (els.map fun x => x.forceOn (fun k => if num k = num k0 then (1 : K) else 0) k0).sum =
        (els.map fun x => x.forceOn (fun k => if k = k0 then (1 : K) else 0) k0).sum := by
      refine congrArg List.sum (List.map_congr_left fun x hx => ?_)
      refine forceOn_congr (hp x hx) ?_ _
      intro k hk'
      by_cases c : k = k0
      · rw [c, if_pos rfl, if_pos rfl]
      · rw [if_neg c, if_neg fun h => c (hb.inj _ hk' _ hk h)]
    rw [hind, hM] at r1
    rw [hM] at r2
    simp only [mpcForce, List.map_nil, List.sum_nil, add_zero] at r1 r2
    have hrow : ∀ a : K, rowMul (Assembled (linear els update) e S1 num 0) (fun j => if j = num k0 then a else 0) (S1.nDofs + S1.nMpc) (num k0) =
        Assembled (linear els update) e S1 num 0 (num k0) (num k0) * a := by
      intro a
      unfold rowMul
      rw [Finset.sum_eq_single (num k0 - 1)]
      · have : num k0 - 1 + 1 = num k0 := by omega
        rw [this]
        beta_reduce
        rw [if_pos rfl]
      · intro b _ hbne
        beta_reduce
        rw [if_neg (by omega), mul_zero]
      · intro h
        exact absurd (Finset.mem_range.mpr (by omega)) h
    have hz := hrow 0
    simp only [ite_self, mul_zero] at hz
    rw [hrow 1, mul_one] at r1
    rw [hz] at r2
    rw [← r1, ← r2, zero_sub, sub_neg_eq_add, sub_add_cancel] at hst
    have cu : S1.nUnknown + S1.nMpc = 1 := by omega
    rw [cu] at hstop
    rcases gauss_stops hstop with h | ⟨i, a', hi, hr, hq⟩
    · omega
    · have : i = 0 := by omega
      subst this
      cases hr
      have := hq 0 (le_refl 0) (by omega)
      beta_reduce at this
      rw [zero_add, ← hn0] at this
      exact absurd hst (not_le.mpr this)
  · exact ⟨S', e', h1⟩

end

/-! ## A truss -/

/-- What `buildK` hands over for a bar. -/
def Bar.el (geo : Nat → Fin 3 → ℝ) (b : Bar) : LinEl ℝ where
  nodes := [b.n 0, b.n 1]
  dofs := [.UX, .UY, .UZ]
  Ke i j := if h : i < 6 ∧ j < 6 then
    Bars.assembled ((Bars.trussK (fun a => geo (b.n a)) b.E b.A).getD 0) ⟨i, h.1⟩ ⟨j, h.2⟩ else 0

theorem Bar.el_truss {geo : Nat → Fin 3 → ℝ} {b : Bar} (hne : geo (b.n 0) ≠ geo (b.n 1)) : TrussEl geo b.n b.E b.A (b.el geo) := by
  obtain ⟨Ke, h1, _⟩ := Bars.C42_stiffness (pos := fun a => geo (b.n a)) hne b.E b.A
  refine ⟨rfl, rfl, ⟨Ke, h1, ?_⟩, rfl⟩
  intro i j hij
  have : i.val < 6 ∧ j.val < 6 := ⟨i.2, j.2⟩
  show (if h : _ then _ else _) = _
  rw [dif_pos this, h1]
  show (if i ≤ j then Ke i j else Ke j i) = _
  rw [if_pos hij]

theorem Bar.el_symm {geo : Nat → Fin 3 → ℝ} {b : Bar} (hne : geo (b.n 0) ≠ geo (b.n 1)) (i j : Nat) :
    (b.el geo).Ke i j = (b.el geo).Ke j i := by
  obtain ⟨Ke, h1, h2, _⟩ := Bars.C42_stiffness (pos := fun a => geo (b.n a)) hne b.E b.A
  show (if h : _ then _ else _) = (if h : _ then _ else _)
  by_cases h : i < 6 ∧ j < 6
  · rw [dif_pos h, dif_pos h.symm, h1]
    exact congrFun (congrFun h2.eq _) _
  · rw [dif_neg h, dif_neg fun c => h c.symm]

/-- Two supports above each other and a joint in front of them. -/
def tripod : Nat → Fin 3 → ℝ
  | 1 => ![0, 3, 0]
  | 2 => ![0, -3, 0]
  | _ => ![4, 0, 0]

/-- The two bars to the joint. -/
def tripodBars : List Bar := [⟨![1, 3], 10, 2⟩, ⟨![2, 3], 10, 2⟩]

/-- The storage: three nodes, two elements. -/
def tripodStorage : Storage ℝ := Storage.fresh 3 [[1, 3], [2, 3]] [] false

/-- Both elements register the displacements of their nodes. -/
def tripodCalls : List RegCall := [(.node, 1, [.UX, .UY, .UZ]), (.node, 3, [.UX, .UY, .UZ]), (.node, 2, [.UX, .UY, .UZ]),
  (.node, 3, [.UX, .UY, .UZ])]

/-- All supported but `UX` of the joint; one support is moved. -/
def tripodFixs : List (Bc ℝ) := [⟨1, .UX, 0⟩, ⟨1, .UY, 0⟩, ⟨1, .UZ, 0⟩, ⟨2, .UX, 0⟩, ⟨2, .UY, 2⟩, ⟨2, .UZ, 0⟩, ⟨3, .UY, 0⟩, ⟨3, .UZ, 0⟩]

theorem tripod_truss : Truss tripod tripodBars (tripodBars.map (Bar.el tripod)) := by
  have hne : ∀ b ∈ tripodBars, tripod (b.n 0) ≠ tripod (b.n 1) := by
    intro b hb h
    have := congrFun h 0
    simp only [tripodBars, List.mem_cons, List.not_mem_nil, or_false] at hb
    rcases hb with rfl | rfl <;> simp [tripod] at this
  exact ⟨List.forall₂_map_right_iff.mpr (List.forall₂_same.mpr fun b hb => Bar.el_truss (hne b hb)), hne⟩

theorem tripod_legal : LegalModel tripodStorage tripodCalls [] (fixKeys tripodFixs) := by
  have hk : fixKeys tripodFixs = [(.node, 1, .UX), (.node, 1, .UY), (.node, 1, .UZ), (.node, 2, .UX), (.node, 2, .UY), (.node, 2, .UZ),
    (.node, 3, .UY), (.node, 3, .UZ)] := rfl
  rw [hk]
  refine ⟨⟨?_, ?_, ?_, ?_, ?_, rfl⟩, ?_, ?_, ?_⟩
  · unfold LegalReg; decide
  · decide
  · decide
  · decide
  · intro m hm; simp [tripodStorage, Storage.fresh] at hm
  · unfold MeshOk; decide
  · intro m hm; simp [tripodStorage, Storage.fresh] at hm
  · decide

theorem tripod_placed : ∀ x ∈ tripodBars.map (Bar.el tripod), Placed tripodStorage tripodCalls x := by
  intro x hx
  obtain ⟨b, hb, rfl⟩ := List.mem_map.mp hx
  refine ⟨?_, ?_, fun i _ j _ => Bar.el_symm (tripod_truss.length b hb) i j⟩
  · simp only [tripodBars, List.mem_cons, List.not_mem_nil, or_false] at hb
    rcases hb with rfl | rfl
    · exact ⟨⟨1, rfl⟩, by decide, by decide⟩
    · exact ⟨⟨2, rfl⟩, by decide, by decide⟩
  · simp only [tripodBars, List.mem_cons, List.not_mem_nil, or_false] at hb
    rcases hb with rfl | rfl <;> simp [Bar.el]

theorem tripod_length (b : Bar) (hb : b ∈ tripodBars) : Bars.length (tripod (b.n 1) - tripod (b.n 0)) = 5 := by
  simp only [tripodBars, List.mem_cons, List.not_mem_nil, or_false] at hb
  have : Bars.qlength (tripod (b.n 1) - tripod (b.n 0)) = 5 ^ 2 := by
    rcases hb with rfl | rfl <;> simp [tripod, Bars.qlength] <;> norm_num
  unfold Bars.length
  rw [this, Real.sqrt_sq (by norm_num)]

theorem tripod_force (u : Key → ℝ) (b : Bar) (hb : b ∈ tripodBars) :
    (b.el tripod).forceOn u (.node, 3, .UX) = 16 / 5 *
      (Bars.dot (nodal u (b.n 1) - nodal u (b.n 0)) (tripod (b.n 1) - tripod (b.n 0)) / 5) := by
  have hne := tripod_truss.length b hb
  have h := (Bar.el_truss hne).forceOn (fun i _ j _ => Bar.el_symm hne i j) hne u
    (Bars.C42_stress (pos := fun a => tripod (b.n a)) hne b.E (fun a => nodal u (b.n a))) 3 0
  refine Eq.trans h ?_
  unfold Bar.dir Bars.unit Bars.elongation
  have hL := tripod_length b hb
  simp only [tripodBars, List.mem_cons, List.not_mem_nil, or_false] at hb
  rcases hb with rfl | rfl <;> dsimp only at hL ⊢ <;> rw [hL] <;> simp [Bar.sign, tripod] <;> ring

/-- The truss is solved, with a load at the joint and one support moved. -/
theorem tripod_solved (F : ℝ) : ∃ S' e', linearSolve Gauss.solveEquations (linear (tripodBars.map (Bar.el tripod)) (fun _ _ => ()))
    [⟨3, .UX, F⟩] tripodFixs tripodCalls [] tripodStorage () = .ok (S', e') := by
  refine one_free (k0 := (.node, 3, .UX)) tripod_legal rfl (by simp [keyOf]; decide) tripod_placed (by decide) (by decide) (by decide) (by decide) ?_
  have h : ∀ u : Key → ℝ, ((tripodBars.map (Bar.el tripod)).map fun x => x.forceOn u (.node, 3, .UX)).sum = (tripodBars.map fun b => 16 / 5 *
      (Bars.dot (nodal u (b.n 1) - nodal u (b.n 0)) (tripod (b.n 1) - tripod (b.n 0)) / 5)).sum := by
    intro u
    rw [List.map_map]
    exact congrArg List.sum (List.map_congr_left fun b hb => tripod_force u b hb)
  rw [h, h]
  simp [tripodBars, tripod, nodal, axis, Bars.dot]
  norm_num

/-! ## A tetrahedron -/

/-- What `buildK` hands over for a tetrahedron with an initial strain. -/
def tetraEl (geo : Nat → Fin 3 → ℝ) (n : Fin 4 → Nat) (e : Tetra.Elem0) : LinEl ℝ where
  nodes := [n 0, n 1, n 2, n 3]
  dofs := [.UX, .UY, .UZ]
  Ke i j := Dense.ext (Tetra.stiff0 (fun a => geo (n a)) e.E e.my) i j
  Fe := some fun i => if h : i < 12 then Tetra.load0 (fun a => geo (n a)) e.E e.my (strains0 e) ⟨i, h⟩ else 0

theorem tetraEl_tetra {geo : Nat → Fin 3 → ℝ} {n : Fin 4 → Nat} {e : Tetra.Elem0} (hd : (Tetra.matS fun a => geo (n a)).det ≠ 0)
    (ha : Tetra.Admissible e) (hs : (e.alpha ≠ 0 ∧ e.T ≠ 0) ∨ e.strains ≠ 0 ∨ e.stress ≠ 0) : TetraEl geo n e (tetraEl geo n e) := by
  refine ⟨rfl, rfl, ?_⟩
  have h := Tetra.buildK0_eq hd e (Or.inr (Tetra.elast_regular ha.E ha.lo ha.hi))
  rw [if_pos hs] at h
  rw [h]
  refine ⟨_, congrArg Res.ok (Prod.ext rfl (Prod.ext rfl ?_))⟩
  show some _ = some _
  rw [Option.some.injEq]
  refine List.ext_getElem? fun i => ?_
  rw [List.getElem?_ofFn, List.getElem?_map]
  by_cases hi : i < 12
  · rw [dif_pos hi, List.getElem?_range hi, Option.map_some, dif_pos hi]
    rfl
  · rw [dif_neg hi, List.getElem?_eq_none (by simpa using hi)]
    rfl

theorem tetraEl_symm (geo : Nat → Fin 3 → ℝ) (n : Fin 4 → Nat) (e : Tetra.Elem0) (i j : Nat) :
    (tetraEl geo n e).Ke i j = (tetraEl geo n e).Ke j i := by
  show Dense.ext _ i j = Dense.ext _ j i
  unfold Dense.ext
  by_cases h : i < 12 ∧ j < 12
  · rw [dif_pos h, dif_pos h.symm]
    exact congrFun (congrFun (Tetra.stiff0_symm (fun a => geo (n a)) e.E e.my) _) _
  · rw [dif_neg h, dif_neg fun c => h c.symm]

/-- The corners. -/
def corner : Nat → Fin 3 → ℝ
  | 2 => ![1, 0, 0]
  | 3 => ![0, 1, 0]
  | 4 => ![0, 0, 1]
  | _ => ![0, 0, 0]

/-- A heated element. -/
def heated : Tetra.Elem0 := Tetra.fresh 10 (1 / 4) (1 / 20) 60

def cornerEl : LinEl ℝ := tetraEl corner ![1, 2, 3, 4] heated

def cornerStorage : Storage ℝ := Storage.fresh 4 [[1, 2, 3, 4]] [] false

def cornerCalls : List RegCall := [(.node, 1, [.UX, .UY, .UZ]), (.node, 2, [.UX, .UY, .UZ]), (.node, 3, [.UX, .UY, .UZ]),
  (.node, 4, [.UX, .UY, .UZ])]

/-- The supports follow the free expansion by `alpha T = 3`; `UX` of the second node is free. -/
def cornerFixs : List (Bc ℝ) := [⟨1, .UX, 0⟩, ⟨1, .UY, 0⟩, ⟨1, .UZ, 0⟩, ⟨2, .UY, 0⟩, ⟨2, .UZ, 0⟩, ⟨3, .UX, 0⟩, ⟨3, .UY, 3⟩, ⟨3, .UZ, 0⟩,
  ⟨4, .UX, 0⟩, ⟨4, .UY, 0⟩, ⟨4, .UZ, 3⟩]

theorem corner_det : (Tetra.matS fun a => corner (![1, 2, 3, 4] a)).det = 1 := by
  simp [Tetra.matS, corner, Matrix.det_succ_row_zero, Fin.sum_univ_succ, Fin.succAbove]

theorem heated_admissible : Tetra.Admissible heated := by
  refine ⟨?_, ?_, ?_⟩ <;> norm_num [heated, Tetra.fresh]

theorem corner_tetra : TetraEl corner ![1, 2, 3, 4] heated cornerEl :=
  tetraEl_tetra (by rw [corner_det]; norm_num) heated_admissible (Or.inl (by norm_num [heated, Tetra.fresh]))

theorem corner_legal : LegalModel cornerStorage cornerCalls [] (fixKeys cornerFixs) := by
  have hk : fixKeys cornerFixs = [(.node, 1, .UX), (.node, 1, .UY), (.node, 1, .UZ), (.node, 2, .UY), (.node, 2, .UZ),
    (.node, 3, .UX), (.node, 3, .UY), (.node, 3, .UZ), (.node, 4, .UX), (.node, 4, .UY), (.node, 4, .UZ)] := rfl
  rw [hk]
  refine ⟨⟨?_, ?_, ?_, ?_, ?_, rfl⟩, ?_, ?_, ?_⟩
  · unfold LegalReg; decide
  · decide
  · decide
  · decide
  · intro m hm; simp [cornerStorage, Storage.fresh] at hm
  · unfold MeshOk; decide
  · intro m hm; simp [cornerStorage, Storage.fresh] at hm
  · decide

theorem corner_placed : ∀ x ∈ [cornerEl], Placed cornerStorage cornerCalls x := by
  intro x hx
  rw [List.mem_singleton] at hx
  subst hx
  exact ⟨⟨⟨1, rfl⟩, by decide, by decide⟩, by decide, fun i _ j _ => tetraEl_symm _ _ _ i j⟩

theorem work_single (x : LinEl ℝ) (u : Key → ℝ) (k0 : Key) : x.work (fun k => if k = k0 then 1 else 0) u = x.forceOn u k0 := by
  unfold LinEl.work LinEl.forceOn
  refine Finset.sum_congr rfl fun a _ => ?_
  by_cases h : localKey x.nodes x.dofs a = k0 <;> simp [h]

theorem corner_solved : ∃ S' e', linearSolve Gauss.solveEquations (linear [cornerEl] (fun _ _ => ()))
    [] cornerFixs cornerCalls [] cornerStorage () = .ok (S', e') := by
  refine one_free (k0 := (.node, 2, .UX)) corner_legal rfl (by simp) corner_placed (by decide) (by decide) (by decide) (by decide) ?_
  have hd : (Tetra.matS fun a => corner (![1, 2, 3, 4] a)).det ≠ 0 := by rw [corner_det]; norm_num
  have hs := corner_tetra.solid hd (Or.inl rfl) (fun i _ j _ => tetraEl_symm _ _ _ i j)
  simp only [List.map_cons, List.map_nil, List.sum_cons, List.sum_nil, add_zero, ← work_single]
  rw [hs.work, hs.work, ← dotProduct_sub, sub_sub_sub_cancel_right, ← Matrix.mulVec_sub]
  have e1 : (vecOf fun a => nodal (fun _ => (0 : ℝ)) (![1, 2, 3, 4] a) : Fin (4 * 3) → ℝ) = 0 := rfl
  have e2 : (vecOf fun a => nodal (fun k => if k = (Side.node, 2, DofType.UX) then (1 : ℝ) else 0) (![1, 2, 3, 4] a) : Fin (4 * 3) → ℝ) =
      Tetra.vec12 (Tetra.affineField (fun a => corner (![1, 2, 3, 4] a)) 0 (Matrix.single 0 0 1)) := by
    rw [vecOf_four]
    congr 1
    funext a i
    fin_cases a <;> fin_cases i <;> simp [nodal, axis, Tetra.affineField, corner, Matrix.single, Fin.sum_univ_three]
  rw [e1, e2, sub_zero]
  unfold Tetra.stiff0
  rw [Matrix.smul_mulVec, dotProduct_smul, ← Matrix.mulVec_mulVec, ← Matrix.mulVec_mulVec, Tetra.strain_affine hd,
    Matrix.dotProduct_mulVec, Matrix.vecMul_transpose, Tetra.strain_affine hd,
    Tetra.elast_hooke (by norm_num [heated, Tetra.fresh]) (by norm_num [heated, Tetra.fresh]), corner_det]
  simp [Tetra.symGrad, Tetra.hooke, heated, Tetra.fresh, Matrix.single, dotProduct, Fin.sum_univ_succ, Tetra.lameLam, Tetra.lameMu]
  norm_num

/-! ## The theorems on these models -/

theorem tripod_values : ∀ f ∈ tripodFixs, f.value = 0 ∨ (1 / 10 ^ 20 : ℝ) < |f.value| := by
  intro f hf
  simp only [tripodFixs, List.mem_cons, List.not_mem_nil, or_false] at hf
  rcases hf with rfl | rfl | rfl | rfl | rfl | rfl | rfl | rfl <;> norm_num

theorem tripod_loads (F : ℝ) : ∀ l ∈ [(⟨3, .UX, F⟩ : Bc ℝ)], keyOf l ∈ regKeys tripodCalls := by simp [keyOf]; decide

theorem tripod_mech : ∀ x ∈ tripodBars.map (Bar.el tripod), Mech tripod x := by
  intro x hx
  obtain ⟨b, hb, rfl⟩ := List.mem_map.mp hx
  exact .truss b.n b.E b.A (Bar.el_truss (tripod_truss.length b hb)) (tripod_truss.length b hb)

/-- C83: the joint of the truss is in balance. -/
example : ∃ (S' : Storage ℝ) (u r : Key → ℝ) (s : Bar → ℝ), Reported S' (regKeys tripodCalls) u r ∧
    Meets tripodStorage tripodCalls [] [⟨3, .UX, 7⟩] tripodFixs u r ∧
    (tripodBars.map fun b => b.A * s b * b.sign 3 * b.dir tripod 0).sum = 7 := by
  obtain ⟨S', e', h⟩ := tripod_solved 7
  obtain ⟨u, r, l, s, h1, h2, h3, _, h4⟩ := C83_joints tripod_legal (tripod_loads 7) tripod_placed tripod_truss tripod_values gauss_exact h
  refine ⟨S', u, r, s, h1, h2, ?_⟩
  have := h4 3 0 (by decide)
  rw [h2.applied (.node, 3, axis 0) (by decide) (by decide)] at this
  simpa [conForce, tripodStorage, Storage.fresh, loadsOn, keyOf, axis] using this

/-- C84: resultants. -/
example : ∃ (S' : Storage ℝ) (R : Nat → Fin 3 → ℝ), (∀ n ∈ ({1, 2, 3} : Finset Nat), ∀ i, Post.reaction S' n (axis i) = .ok (R n i)) ∧
    R 1 + R 2 + R 3 = 0 := by
  obtain ⟨S', e', h⟩ := tripod_solved 7
  obtain ⟨R, h1, h2, _⟩ := C84_resultants tripod_legal (tripod_loads 7) tripod_placed tripod_mech tripod_values gauss_exact h rfl
    (ns := {1, 2, 3}) (by
      intro k
      constructor
      · intro hk
        have : k ∈ (([1, 3, 2] : List Nat).flatMap fun n => [(Side.node, n, axis 0), (.node, n, axis 1), (.node, n, axis 2)]) := by
          revert hk
          rw [← List.mem_toFinset, ← List.mem_toFinset]
          exact fun hk => (by decide : (regKeys tripodCalls).toFinset ⊆ _) hk
        simp only [List.mem_flatMap, List.mem_cons, List.not_mem_nil, or_false] at this
        obtain ⟨n, hn, hk⟩ := this
        refine ⟨n, by simp; tauto, ?_⟩
        rcases hk with h | h | h
        exacts [⟨0, h⟩, ⟨1, h⟩, ⟨2, h⟩]
      · rintro ⟨n, hn, i, rfl⟩
        simp only [Finset.mem_insert, Finset.mem_singleton] at hn
        rcases hn with rfl | rfl | rfl <;> fin_cases i <;> decide)
  exact ⟨S', R, h1, by simpa [add_assoc] using h2⟩

/-- C84: energy. -/
example : ∃ (S' : Storage ℝ) (u r : Key → ℝ), Reported S' (regKeys tripodCalls) u r ∧ 0 ≤ ∑ k ∈ (regKeys tripodCalls).toFinset, u k * r k := by
  obtain ⟨S', e', h⟩ := tripod_solved 7
  obtain ⟨u, r, h1, _, _, h2⟩ := C84_energy tripod_legal (tripod_loads 7) tripod_placed tripod_truss tripod_values gauss_exact h
    (by simp [tripodStorage, Storage.fresh])
  refine ⟨S', u, r, h1, h2 ?_⟩
  intro b hb
  simp only [tripodBars, List.mem_cons, List.not_mem_nil, or_false] at hb
  rcases hb with rfl | rfl <;> norm_num

/-- C85: the heated tetrahedron expands freely. -/
example : ∃ S' : Storage ℝ, Post.solution S' .node 2 .UX = .ok 3 ∧ Post.reaction S' 3 .UY = .ok 0 := by
  obtain ⟨S', e', h⟩ := corner_solved
  have := C85_thermal (t := 0) (alpha := 1 / 20) (T := 60) (geo := corner) (by norm_num) (by norm_num) corner_legal corner_placed (by
      intro x hx
      rw [List.mem_singleton] at hx
      subst hx
      exact ⟨_, _, _, corner_tetra, by rw [corner_det]; norm_num, heated_admissible⟩) (by
      intro f hf
      simp only [cornerFixs, List.mem_cons, List.not_mem_nil, or_false] at hf
      rcases hf with rfl | rfl | rfl | rfl | rfl | rfl | rfl | rfl | rfl | rfl | rfl <;> norm_num) (by
      intro f hf
      simp only [cornerFixs, List.mem_cons, List.not_mem_nil, or_false] at hf
      rcases hf with rfl | rfl | rfl | rfl | rfl | rfl | rfl | rfl | rfl | rfl | rfl <;>
        simp [keyOf, affine, Tetra.expansion, Matrix.smul_mulVec, corner] <;> norm_num) (by simp [cornerStorage, Storage.fresh]) h
  refine ⟨S', ?_, (this 3 1 (by decide)).2⟩
  rw [show DofType.UX = axis 0 from rfl, (this 2 0 (by decide)).1]
  norm_num [corner]

theorem tripod_by (F : ℝ) : ∃ u r, SolvedBy (tripodBars.map (Bar.el tripod)) tripodStorage tripodCalls [] [⟨3, .UX, F⟩] tripodFixs u r := by
  obtain ⟨S', e', h⟩ := tripod_solved F
  obtain ⟨u, r, _, h1, _⟩ := C83_equilibrium tripod_legal (tripod_loads F) tripod_placed tripod_values gauss_exact h
  exact ⟨u, r, tripod_legal, tripod_loads F, tripod_values, ⟨Unit, _, _, _, S', h, h1⟩, by decide⟩

theorem tripod_homogeneous : Homogeneous (tripodBars.map (Bar.el tripod)) (tripodStorage.mpcs ++ []) := by
  refine ⟨?_, by simp [tripodStorage, Storage.fresh]⟩
  intro x hx
  obtain ⟨b, hb, rfl⟩ := List.mem_map.mp hx
  exact fun a _ => rfl

/-- C86: with the support moved by 2 in all cases, the answer to 10 is twice that to 7 minus that to 4. -/
example : ∃ u1 r1 u2 r2 u3 r3 : Key → ℝ,
    SolvedBy (tripodBars.map (Bar.el tripod)) tripodStorage tripodCalls [] [⟨3, .UX, 7⟩] tripodFixs u1 r1 ∧
    SolvedBy (tripodBars.map (Bar.el tripod)) tripodStorage tripodCalls [] [⟨3, .UX, 4⟩] tripodFixs u2 r2 ∧
    SolvedBy (tripodBars.map (Bar.el tripod)) tripodStorage tripodCalls [] [⟨3, .UX, 10⟩] tripodFixs u3 r3 ∧
    (∀ k ∈ regKeys tripodCalls, u3 k = 2 * u1 k + -1 * u2 k ∧ r3 k = 2 * r1 k + -1 * r2 k) ∧
    ∑ k ∈ (regKeys tripodCalls).toFinset, u2 k * r1 k = ∑ k ∈ (regKeys tripodCalls).toFinset, u1 k * r2 k := by
  obtain ⟨u1, r1, h1⟩ := tripod_by 7
  obtain ⟨u2, r2, h2⟩ := tripod_by 4
  obtain ⟨u3, r3, h3⟩ := tripod_by 10
  refine ⟨u1, r1, u2, r2, u3, r3, h1, h2, h3, ?_, C86_reciprocity tripod_placed tripod_homogeneous h1 h2⟩
  refine C86_superposition tripod_placed tripod_homogeneous h1 h2 h3 2 (-1) (fun _ => Iff.rfl) (fun _ => Iff.rfl) ?_ ?_
  · intro k
    by_cases hk : (Side.node, 3, DofType.UX) = k <;> simp [loadsOn, keyOf, hk] <;> norm_num
  · intro k x y hx hy
    rw [hx, Option.some.injEq] at hy
    rw [hx, ← hy]
    congr 1
    ring

end Nla3d.Struct
