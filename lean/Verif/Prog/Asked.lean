import Verif.Prog.FileSpec
import Verif.Prog.Elements

/-!
# The answers of a hexahedron
-/

namespace Nla3d.Prog

open Nla3d.Dof Nla3d.Storage Nla3d.Iso Nla3d.Newton Nla3d.Labels Nla3d.Material Nla3d.Hyper
open Nla3d.Dense (pack matBTDBprod_eq)

noncomputable section

/-! ## Means -/

theorem askLoop_of_fold {α : Type} {w : Nat → Res ℝ} {sum : ℝ} {q : Nat → ℝ → α → Res (Option α)} : ∀ (l : List Nat) (x y : α),
    Res.foldlM' (fun x np => do
      let d ← w np
      match ← q np (d / sum * 1) x with
      | some y => .ok y
      | none => .ub) x l = .ok y → askLoop w sum q l x = .ok (some y) := by
  intro l
  induction l with
  | nil =>
    intro x y h
    simp only [Res.foldlM'_nil, Res.ok.injEq] at h
    subst h
    rfl
  | cons np l ih =>
    intro x y h
    rw [Res.foldlM'_cons] at h
    obtain ⟨z, h1, h2⟩ := Res.bind_eq_ok.mp h
    obtain ⟨d, d1, d2⟩ := Res.bind_eq_ok.mp h1
    obtain ⟨o, o1, o2⟩ := Res.bind_eq_ok.mp d2
    unfold askLoop
    rw [d1, Res.ok_bind, o1, Res.ok_bind]
    cases o with
    | none => simp at o2
    | some z' =>
      simp only [Res.ok.injEq] at o2
      subst o2
      exact ih _ _ h2

/-- A query that is known gives the mean. -/
theorem askMean_eq {d nn : Nat} {S : Shape d nn} {pos : Fin nn → Fin d → ℝ} {g : Geom d nn} (hg : Good S pos g)
    {α M : Type} [AddCommGroup M] [Module ℝ M] (e : M → α) (q : Nat → ℝ → α → Res (Option α)) (X : QuadPt d → M)
    {o : Nat} (ho : g.scheme = schemeIndex o)
    (h : ∀ (k : Nat) (hk : k < (S.table (schemeIndex o)).length) (s : ℝ) (T : M),
      q k s (e T) = .ok (some (e (T + s • X (S.table (schemeIndex o))[k])))) {z : α} (hz : z = e 0) :
    askMean S g q z = .ok (some (e (mean S o pos X))) := by
  subst hz
  have key := meanQuery_eq hg e (fun np s x => do
    match ← q np s x with
    | some y => .ok y
    | none => .ub) X (by
      rw [ho]
      intro k hk s T
      rw [h k hk, Res.ok_bind]) 1 0
  unfold meanQuery at key
  unfold askMean
  obtain ⟨v, v1, v2⟩ := Res.bind_eq_ok.mp key
  rw [v1, Res.ok_bind]
  rw [askLoop_of_fold _ _ _ v2, zero_add, one_smul, ho]
  rfl

/-- A query that is not known. -/
theorem askMean_none {d nn : Nat} {S : Shape d nn} {pos : Fin nn → Fin d → ℝ} {g : Geom d nn} (hg : Good S pos g) {α : Type}
    (q : Nat → ℝ → α → Res (Option α)) (h : ∀ k s x, q k s x = .ok none) (hn : 0 < (S.table g.scheme).length) (x : α) :
    askMean S g q x = .ok none := by
  unfold askMean
  rw [hg.volume, Res.ok_bind]
  show askLoop _ _ _ (List.range (S.table g.scheme).length) _ = _
  obtain ⟨n, hn'⟩ : ∃ n, (S.table g.scheme).length = n + 1 := ⟨_, (Nat.succ_pred_eq_of_pos hn).symm⟩
  rw [hn', List.range_succ_eq_map]
  unfold askLoop
  rw [hg.intWeight (np := 0) (by omega), Res.ok_bind, h, Res.ok_bind]

/-! ## Stress -/

theorem density_curve (F H : Mat3) (hF : F.det ≠ 0) :
    Curve (fun s : ℝ => (F + s • H).transpose * (F + s • H)) (H.transpose * F + F.transpose * H) 0 := by
  refine ⟨fun s => isSymm_gram _, fun i j => ?_, ?_⟩
  · have e : (fun s : ℝ => ((F + s • H).transpose * (F + s • H)) i j) = fun s : ℝ => ∑ c, (F c i + s * H c i) * (F c j + s * H c j) := by
      funext s
      simp [Matrix.mul_apply]
    rw [e]
    have hd : ∀ c, HasDerivAt (fun s : ℝ => (F c i + s * H c i) * (F c j + s * H c j)) (H c i * F c j + F c i * H c j) 0 := by
      intro c
      have h1 : HasDerivAt (fun s : ℝ => F c i + s * H c i) (H c i) 0 := by
        simpa using ((hasDerivAt_id (0 : ℝ)).mul_const (H c i)).const_add (F c i)
      have h2 : HasDerivAt (fun s : ℝ => F c j + s * H c j) (H c j) 0 := by
        simpa using ((hasDerivAt_id (0 : ℝ)).mul_const (H c j)).const_add (F c j)
      have h3 := h1.fun_mul h2
      simp only [zero_mul, add_zero] at h3
      exact h3
    refine (HasDerivAt.fun_sum fun c _ => hd c).congr_deriv ?_
    simp [Matrix.mul_apply, Finset.sum_add_distrib]
  · simp only [zero_smul, add_zero]
    exact posDef_gram hF

/-- The stress of the code is the stress of the specification. -/
theorem isStress {W : ℝ → ℝ → ℝ} {E : Energy} (hE : IsLaw W E) (k p : ℝ) {F : Mat3} (hF : F.det ≠ 0) :
    IsStress W k p F (unpack6 (stressEntry E (pack6 (F.transpose * F)) p)) := by
  obtain ⟨S, h1, h2⟩ := C47_stress hE.1
  have hS : S (F.transpose * F) p = unpack6 (stressEntry E (pack6 (F.transpose * F)) p) := by
    have := h1 (F.transpose * F) p
    rw [stressOf_eq, Res.ok.injEq] at this
    exact this.symm
  rw [← hS]
  have hsym : (S (F.transpose * F) p).IsSymm := by rw [hS]; exact unpack6_symm _
  refine ⟨hsym, fun H => ?_⟩
  have hd := h2 _ _ 0 p 0 (density_curve F H hF)
  simp only [zero_smul, add_zero] at hd
  have e : (fun s : ℝ => density W k p (F + s • H)) =
      fun s : ℝ => energy E p 0 ((F + s • H).transpose * (F + s • H)) - p ^ 2 / (2 * k) := by
    funext s
    rw [density_eq hE]
  rw [e]
  refine (hd.sub_const _).congr_deriv ?_
  generalize S (F.transpose * F) p = T at hsym
  have h10 : T 1 0 = T 0 1 := hsym.apply 0 1
  have h20 : T 2 0 = T 0 2 := hsym.apply 0 2
  have h21 : T 2 1 = T 1 2 := hsym.apply 1 2
  simp only [Matrix.mul_apply, Matrix.add_apply, Matrix.transpose_apply, Fin.sum_univ_three, h10, h20, h21]
  ring

/-! ## The answers of a hexahedron -/

/-- The answers for given data of a cell. -/
def answersFor (c : CellData) : Answers :=
  ⟨[none, some c.sp, none, some c.wu, some c.wp, some c.vol], [none, some c.ic, none, none],
    [none, some (pack6 c.couchy), some (pack6 c.pk2), some (pack6 c.green), some (pack6 c.cauchyGreen), none]⟩

theorem pack6_zero : (0 : Fin 6 → ℝ) = pack6 0 := by
  funext i
  fin_cases i <;> rfl

theorem entries_pack (T : Mat3) : entries 6 (pack T) = .ok (pack6 T) := by
  rw [pack3, entries_ofFn]

/-- COUCHY at a point in any case. -/
theorem solidCouchy_any {pts : List Point} {k : Nat} {pt : Point} {F S : Mat3} (hk : pts[k]? = some pt) (h : pt.Holds F S)
    (p scale : ℝ) (T : Mat3) : solidCouchy pts p k scale (pack T) = .ok (pack (T + scale • ((1 / JC (pack6 (F.transpose * F))) •
      (F * unpack6 (fun i => pack6 S i + p * JC (pack6 (F.transpose * F)) *
        invCC (pack6 (F.transpose * F)) (JC (pack6 (F.transpose * F))) i) * F.transpose)))) := by
  unfold solidCouchy
  rw [Res.read_eq_ok.mpr hk, Res.ok_bind]
  simp only
  rw [holds_F h, h.C, h.S]
  have e : List.ofFn (fun i => pack6 S i + p * JC (pack6 (F.transpose * F)) *
      invCC (pack6 (F.transpose * F)) (JC (pack6 (F.transpose * F))) i) =
      pack (unpack6 (fun i => pack6 S i + p * JC (pack6 (F.transpose * F)) *
      invCC (pack6 (F.transpose * F)) (JC (pack6 (F.transpose * F))) i)) := by
    rw [pack3, pack6_unpack6]
  rw [e, matBTDBprod_eq _ (unpack6_symm _), Matrix.transpose_transpose]
  congr 3
  rw [smul_smul, mul_comm]

/-- PK2 at a point in any case. -/
theorem solidPK2_any {pts : List Point} {k : Nat} {pt : Point} {F S : Mat3} (hk : pts[k]? = some pt) (h : pt.Holds F S)
    (hS : S.IsSymm) (p : ℝ) (scale : ℝ) (T : Mat3) : solidPK2 pts p k scale (pack6 T) =
      .ok (pack6 (T + scale • (S + (p * JC (pack6 (F.transpose * F))) •
        unpack6 (invCC (pack6 (F.transpose * F)) (JC (pack6 (F.transpose * F))))))) := by
  unfold solidPK2
  rw [Res.read_eq_ok.mpr hk, Res.ok_bind]
  simp only
  rw [h.C, h.S]
  congr 1
  funext i
  rw [pack6_lin]
  congr 2
  conv_rhs => rw [← unpack6_pack6 hS, ← unpack6_add, pack6_unpack6]

theorem gram_inv {F : Mat3} (h : F.det ≠ 0) :
    unpack6 (invCC (pack6 (F.transpose * F)) (JC (pack6 (F.transpose * F)))) = (F.transpose * F)⁻¹ :=
  (Matrix.inv_eq_left_inv (C45_inv (posDef_gram h)).2).symm

/-- What a hexahedron holds at its points. -/
structure Filled (e : Hex) (u : Fin 8 → Fin 3 → ℝ) (p : ℝ) : Prop where
  order : e.g.scheme = schemeIndex 2
  good : Good hexa e.pos e.g
  shape : ∀ q ∈ hexa.table (schemeIndex 2), (jac hexa e.pos q.xi).det ≠ 0
  pts : e.pts = (hexa.table (schemeIndex 2)).map (fun q => pointOf e.E (grads hexa e.pos q.xi) u p)

theorem Filled.point {e : Hex} {u : Fin 8 → Fin 3 → ℝ} {p : ℝ} (h : Filled e u p) {k : Nat} (hk : k < (hexa.table (schemeIndex 2)).length) :
    ∃ pt, e.pts[k]? = some pt ∧ pt.Holds (defGrad hexa e.pos u (hexa.table (schemeIndex 2))[k].xi)
      (unpack6 (stressEntry e.E (pack6 ((defGrad hexa e.pos u (hexa.table (schemeIndex 2))[k].xi).transpose *
        defGrad hexa e.pos u (hexa.table (schemeIndex 2))[k].xi)) p)) := by
  have hs := h.shape _ (List.getElem_mem hk)
  exact ⟨_, by rw [h.pts, List.getElem?_map, List.getElem?_eq_getElem hk]; rfl, pointOf_holds e.E e.pos u _ p hs (defGrad_isDefGrad hs)⟩

theorem table_pos : 0 < (hexa.table (schemeIndex 2)).length := by decide

section
variable {e : Hex} {u : Fin 8 → Fin 3 → ℝ} {p : ℝ} {S : Storage ℝ}

theorem hex_scalars {W : ℝ → ℝ → ℝ} (hE : IsLaw W e.E) (h : Filled e u p) (hp : Post.solution S .elem e.en .HYDRO_PRESSURE = .ok p) :
    Vtk.collect (scalarOf S (.hex e)) Vtk.scalarCodes = .ok [some (mean hexa 2 e.pos (fun _ => p)), none,
      some (mean hexa 2 e.pos (fun q => W (invariants ((defGrad hexa e.pos u q.xi).transpose * defGrad hexa e.pos u q.xi) 0)
        (invariants ((defGrad hexa e.pos u q.xi).transpose * defGrad hexa e.pos u q.xi) 1))),
      some (mean hexa 2 e.pos (fun q => e.k / 2 * (|(defGrad hexa e.pos u q.xi).det| - 1) ^ 2)),
      some (mean hexa 2 e.pos (fun _ => ((hexa.table (schemeIndex 2)).map (fun q => q.w * (jac hexa e.pos q.xi).det)).sum))] := by
  have h1 : scalarOf S (.hex e) 1 = .ok (some (mean hexa 2 e.pos (fun _ => p))) := by
    refine askMean_eq h.good id _ _ h.order (fun k hk s T => ?_) rfl
    show (do
      let p ← Post.solution S .elem e.en .HYDRO_PRESSURE
      Res.ok (some (T + p * s))) = _
    rw [hp, Res.ok_bind]
    simp [mul_comm]
  have h2 : scalarOf S (.hex e) 2 = .ok none :=
    askMean_none h.good _ (fun _ _ _ => rfl) (by rw [h.order]; exact table_pos) _
  have h3 : scalarOf S (.hex e) 3 = .ok (some (mean hexa 2 e.pos (fun q =>
      W (invariants ((defGrad hexa e.pos u q.xi).transpose * defGrad hexa e.pos u q.xi) 0)
        (invariants ((defGrad hexa e.pos u q.xi).transpose * defGrad hexa e.pos u q.xi) 1)))) := by
    refine askMean_eq h.good id _ _ h.order (fun k hk s T => ?_) rfl
    obtain ⟨pt, a, b⟩ := h.point hk
    show known (solidWU e.E e.pts k s T) = _
    rw [solidWU_eq e.E a b, hE.2]
    rfl
  have h4 : scalarOf S (.hex e) 4 = .ok (some (mean hexa 2 e.pos (fun q => e.k / 2 * (|(defGrad hexa e.pos u q.xi).det| - 1) ^ 2))) := by
    refine askMean_eq h.good id _ _ h.order (fun k hk s T => ?_) rfl
    obtain ⟨pt, a, b⟩ := h.point hk
    show known (solidWP e.k e.pts k s T) = _
    unfold solidWP known
    rw [Res.read_eq_ok.mpr a, Res.ok_bind]
    simp only
    rw [Res.ok_bind, b.C, JC_eq, det_pack6 (isSymm_gram _), Matrix.det_mul, Matrix.det_transpose, Real.sqrt_mul_self_eq_abs]
    simp only [id, smul_eq_mul, Res.ok.injEq, Option.some.injEq]
    ring
  have h5 : scalarOf S (.hex e) 5 = .ok (some (mean hexa 2 e.pos (fun _ =>
      ((hexa.table (schemeIndex 2)).map (fun q => q.w * (jac hexa e.pos q.xi).det)).sum))) := by
    refine askMean_eq h.good id _ _ h.order (fun k hk s T => ?_) rfl
    show (do
      let v ← volume hexa e.g
      Res.ok (some (T + v * s))) = _
    rw [h.good.volume, Res.ok_bind, h.order]
    simp [mul_comm]
  simp only [Vtk.scalarCodes, Vtk.collect, h1, h2, h3, h4, h5, Res.ok_bind]

theorem hex_vectors (h : Filled e u p) : Vtk.collect (vectorOf (.hex e)) Vtk.vectorCodes =
    .ok [some (mean hexa 2 e.pos (fun q => invariants ((defGrad hexa e.pos u q.xi).transpose * defGrad hexa e.pos u q.xi))),
      none, none] := by
  have h1 : vectorOf (.hex e) 1 = .ok (some (mean hexa 2 e.pos (fun q =>
      invariants ((defGrad hexa e.pos u q.xi).transpose * defGrad hexa e.pos u q.xi)))) := by
    refine askMean_eq h.good id _ _ h.order (fun k hk s T => ?_) rfl
    obtain ⟨pt, a, b⟩ := h.point hk
    show known (solidIC e.pts k s T) = _
    rw [C69_solid_invariants a b]
    rfl
  have h2 : vectorOf (.hex e) 2 = .ok none :=
    askMean_none h.good _ (fun _ _ _ => rfl) (by rw [h.order]; exact table_pos) _
  have h3 : vectorOf (.hex e) 3 = .ok none :=
    askMean_none h.good _ (fun _ _ _ => rfl) (by rw [h.order]; exact table_pos) _
  simp only [Vtk.vectorCodes, Vtk.collect, h1, h2, h3, Res.ok_bind]

theorem hex_tensors (h : Filled e u p) (hp : Post.solution S .elem e.en .HYDRO_PRESSURE = .ok p) : ∃ σ P : Mat3,
    Vtk.collect (tensorOf S (.hex e)) Vtk.tensorCodes = .ok [some (pack6 σ), some (pack6 P),
      some (pack6 (mean hexa 2 e.pos (fun q => (1 / 2 : ℝ) • ((defGrad hexa e.pos u q.xi).transpose * defGrad hexa e.pos u q.xi - 1)))),
      some (pack6 (mean hexa 2 e.pos (fun q => (defGrad hexa e.pos u q.xi).transpose * defGrad hexa e.pos u q.xi))), none] ∧
    ((∀ q ∈ hexa.table (schemeIndex 2), 0 < (defGrad hexa e.pos u q.xi).det) →
      σ = mean hexa 2 e.pos (fun q => (1 / (defGrad hexa e.pos u q.xi).det) • (defGrad hexa e.pos u q.xi *
        unpack6 (stressEntry e.E (pack6 ((defGrad hexa e.pos u q.xi).transpose * defGrad hexa e.pos u q.xi)) p) *
        (defGrad hexa e.pos u q.xi).transpose) + p • (1 : Mat3)) ∧
      P = mean hexa 2 e.pos (fun q =>
        unpack6 (stressEntry e.E (pack6 ((defGrad hexa e.pos u q.xi).transpose * defGrad hexa e.pos u q.xi)) p) +
        (p * (defGrad hexa e.pos u q.xi).det) • ((defGrad hexa e.pos u q.xi).transpose * defGrad hexa e.pos u q.xi)⁻¹)) := by
  have hc : ∀ X : QuadPt 3 → Mat3, (∀ (k : Nat) (hk : k < (hexa.table (schemeIndex 2)).length) (s : ℝ) (T : Mat3),
      solidCouchy e.pts p k s (pack T) = .ok (pack (T + s • X (hexa.table (schemeIndex 2))[k]))) →
      tensorOf S (.hex e) 1 = .ok (some (pack6 (mean hexa 2 e.pos X))) := by
    intro X hX
    refine askMean_eq h.good pack6 _ _ h.order (fun k hk s T => ?_) pack6_zero
    show (do
      let p ← Post.solution S .elem e.en .HYDRO_PRESSURE
      let T ← solidCouchy e.pts p k s (List.ofFn (pack6 T))
      known (entries 6 T)) = _
    rw [hp, Res.ok_bind, ← pack3, hX k hk, Res.ok_bind, entries_pack]
    rfl
  have hP : ∀ X : QuadPt 3 → Mat3, (∀ (k : Nat) (hk : k < (hexa.table (schemeIndex 2)).length) (s : ℝ) (T : Mat3),
      solidPK2 e.pts p k s (pack6 T) = .ok (pack6 (T + s • X (hexa.table (schemeIndex 2))[k]))) →
      tensorOf S (.hex e) 2 = .ok (some (pack6 (mean hexa 2 e.pos X))) := by
    intro X hX
    refine askMean_eq h.good pack6 _ _ h.order (fun k hk s T => ?_) pack6_zero
    show (do
      let p ← Post.solution S .elem e.en .HYDRO_PRESSURE
      known (solidPK2 e.pts p k s (pack6 T))) = _
    rw [hp, Res.ok_bind, hX k hk]
    rfl
  have h3 : tensorOf S (.hex e) 3 = .ok (some (pack6 (mean hexa 2 e.pos (fun q =>
      (1 / 2 : ℝ) • ((defGrad hexa e.pos u q.xi).transpose * defGrad hexa e.pos u q.xi - 1))))) := by
    refine askMean_eq h.good pack6 _ _ h.order (fun k hk s T => ?_) pack6_zero
    obtain ⟨pt, a, b⟩ := h.point hk
    show known (solidEq e.pts k s (pack6 T)) = _
    unfold solidEq known
    rw [Res.read_eq_ok.mpr a, Res.ok_bind, Res.ok_bind, b.C, pack6_E]
  have h4 : tensorOf S (.hex e) 4 = .ok (some (pack6 (mean hexa 2 e.pos (fun q =>
      (defGrad hexa e.pos u q.xi).transpose * defGrad hexa e.pos u q.xi)))) := by
    refine askMean_eq h.good pack6 _ _ h.order (fun k hk s T => ?_) pack6_zero
    obtain ⟨pt, a, b⟩ := h.point hk
    show known (solidCq e.pts k s (pack6 T)) = _
    unfold solidCq known
    rw [Res.read_eq_ok.mpr a, Res.ok_bind, Res.ok_bind, b.C]
    exact congrArg (fun f => Res.ok (some f)) (funext fun i => (pack6_lin _ _ _ i).symm)
  have h5 : tensorOf S (.hex e) 5 = .ok none :=
    askMean_none h.good _ (fun _ _ _ => rfl) (by rw [h.order]; exact table_pos) _
  have key : ∀ σ P : Mat3, tensorOf S (.hex e) 1 = .ok (some (pack6 σ)) → tensorOf S (.hex e) 2 = .ok (some (pack6 P)) →
      Vtk.collect (tensorOf S (.hex e)) Vtk.tensorCodes = .ok [some (pack6 σ), some (pack6 P),
      some (pack6 (mean hexa 2 e.pos (fun q => (1 / 2 : ℝ) • ((defGrad hexa e.pos u q.xi).transpose * defGrad hexa e.pos u q.xi - 1)))),
      some (pack6 (mean hexa 2 e.pos (fun q => (defGrad hexa e.pos u q.xi).transpose * defGrad hexa e.pos u q.xi))), none] := by
    intro σ P h1 h2
    simp only [Vtk.tensorCodes, Vtk.collect, h1, h2, h3, h4, h5, Res.ok_bind]
  by_cases hpos : ∀ q ∈ hexa.table (schemeIndex 2), 0 < (defGrad hexa e.pos u q.xi).det
  · have h1 := hc (fun q => (1 / (defGrad hexa e.pos u q.xi).det) • (defGrad hexa e.pos u q.xi *
        unpack6 (stressEntry e.E (pack6 ((defGrad hexa e.pos u q.xi).transpose * defGrad hexa e.pos u q.xi)) p) *
        (defGrad hexa e.pos u q.xi).transpose) + p • (1 : Mat3)) (by
      intro k hk s T
      obtain ⟨pt, a, b⟩ := h.point hk
      exact solidCouchy_eq a b (unpack6_symm _) (hpos _ (List.getElem_mem hk)) p s T)
    have h2 := hP (fun q =>
        unpack6 (stressEntry e.E (pack6 ((defGrad hexa e.pos u q.xi).transpose * defGrad hexa e.pos u q.xi)) p) +
        (p * (defGrad hexa e.pos u q.xi).det) • ((defGrad hexa e.pos u q.xi).transpose * defGrad hexa e.pos u q.xi)⁻¹) (by
      intro k hk s T
      obtain ⟨pt, a, b⟩ := h.point hk
      have hd := hpos _ (List.getElem_mem hk)
      rw [solidPK2_any a b (unpack6_symm _), gram_inv hd.ne', JC_gram hd])
    exact ⟨_, _, key _ _ h1 h2, fun _ => ⟨rfl, rfl⟩⟩
  · have h1 := hc (fun q => (1 / JC (pack6 ((defGrad hexa e.pos u q.xi).transpose * defGrad hexa e.pos u q.xi))) •
        (defGrad hexa e.pos u q.xi *
        unpack6 (fun i => pack6 (unpack6 (stressEntry e.E (pack6 ((defGrad hexa e.pos u q.xi).transpose * defGrad hexa e.pos u q.xi)) p)) i +
          p * JC (pack6 ((defGrad hexa e.pos u q.xi).transpose * defGrad hexa e.pos u q.xi)) *
          invCC (pack6 ((defGrad hexa e.pos u q.xi).transpose * defGrad hexa e.pos u q.xi))
            (JC (pack6 ((defGrad hexa e.pos u q.xi).transpose * defGrad hexa e.pos u q.xi))) i) *
        (defGrad hexa e.pos u q.xi).transpose)) (by
      intro k hk s T
      obtain ⟨pt, a, b⟩ := h.point hk
      exact solidCouchy_any a b p s T)
    have h2 := hP (fun q =>
        unpack6 (stressEntry e.E (pack6 ((defGrad hexa e.pos u q.xi).transpose * defGrad hexa e.pos u q.xi)) p) +
        (p * JC (pack6 ((defGrad hexa e.pos u q.xi).transpose * defGrad hexa e.pos u q.xi))) •
          unpack6 (invCC (pack6 ((defGrad hexa e.pos u q.xi).transpose * defGrad hexa e.pos u q.xi))
            (JC (pack6 ((defGrad hexa e.pos u q.xi).transpose * defGrad hexa e.pos u q.xi))))) (by
      intro k hk s T
      obtain ⟨pt, a, b⟩ := h.point hk
      exact solidPK2_any a b (unpack6_symm _) p s T)
    exact ⟨_, _, key _ _ h1 h2, fun h => absurd h hpos⟩

end

/-- The answers of a hexahedron of a job are those of the specification. -/
theorem hex_answers {W : ℝ → ℝ → ℝ} {k : ℝ} {pos : List (ℝ × ℝ × ℝ)} {ns : List Nat} {x : Vals} {p : ℝ} {e : Hex} {S : Storage ℝ}
    (hE : IsLaw W e.E) (hk : e.k = k) (hpos : e.pos = nodePos pos ns) (h : Filled e (nodeDisp x ns) p)
    (hp : Post.solution S .elem e.en .HYDRO_PRESSURE = .ok p) : ∃ c : CellData, c.pressure = p ∧
      answersOf S (.hex e) = .ok (answersFor c) ∧ (volumeOf pos ns ≠ 0 → MeansOf W k pos x p ns c) := by
  obtain ⟨σ, P, h1, h2⟩ := hex_tensors h hp
  have h3 := hex_scalars hE h hp
  have h4 := hex_vectors h
  have hsh := h.shape
  subst hk
  rw [hpos] at h1 h2 h3 h4 hsh
  refine ⟨⟨p, meanOf pos ns (fun _ => p),
    meanOf pos ns (fun q => W (invariants ((gradAt pos x ns q).transpose * gradAt pos x ns q) 0)
      (invariants ((gradAt pos x ns q).transpose * gradAt pos x ns q) 1)),
    meanOf pos ns (fun q => e.k / 2 * (|(gradAt pos x ns q).det| - 1) ^ 2), meanOf pos ns (fun _ => volumeOf pos ns),
    meanOf pos ns (fun q => invariants ((gradAt pos x ns q).transpose * gradAt pos x ns q)), σ, P,
    meanOf pos ns (fun q => (1 / 2 : ℝ) • ((gradAt pos x ns q).transpose * gradAt pos x ns q - 1)),
    meanOf pos ns (fun q => (gradAt pos x ns q).transpose * gradAt pos x ns q)⟩, rfl, ?_, ?_⟩
  · unfold answersOf
    rw [h3, Res.ok_bind, h4, Res.ok_bind, h1, Res.ok_bind]
    rfl
  · intro hv
    refine ⟨mean_const _ _ _ hv _, rfl, rfl, mean_const _ _ _ hv _, rfl, rfl, rfl, fun hd => ⟨_, fun q hq => isStress hE e.k p (hd q hq).ne', ?_⟩⟩
    exact h2 hd

end

end Nla3d.Prog
