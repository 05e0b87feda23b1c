import Verif.Thermal.Model
import Verif.Iso.Props

/-!
# Closed forms of the thermal element loops
-/

namespace Nla3d.Thermal

open Iso Dense
open Finset hiding ext

/-- A loop over the integration points every turn of which adds something to the (encoded) state. -/
theorem pointsLoop {α σ τ : Type} [AddCommMonoid τ] (qs : List α) (body : σ → Nat → Res σ) (e : τ → σ) (f : α → τ)
    (h : ∀ (k : Nat) (hk : k < qs.length) (t : τ), body (e t) k = .ok (e (t + f qs[k]))) (t : τ) :
    Res.foldlM' body (e t) (List.range qs.length) = .ok (e (t + (qs.map f).sum)) := by
  obtain ⟨s, h1, h2⟩ := Res.foldlM'_range body (fun k s => s = e (t + ((qs.take k).map f).sum)) qs.length (e t) (by simp) (by
    rintro k s hk rfl
    refine ⟨_, h k hk _, ?_⟩
    rw [List.take_succ_eq_append_getElem hk, List.map_append, List.sum_append, add_assoc]; simp)
  rw [h1, h2, List.take_length]

theorem sum_pair {α A B : Type} [AddCommMonoid A] [AddCommMonoid B] (f : α → A) (g : α → B) (qs : List α) :
    (qs.map (fun q => (f q, g q))).sum = ((qs.map f).sum, (qs.map g).sum) := by
  induction qs with
  | nil => rfl
  | cons q qs ih => rw [List.map_cons, List.sum_cons, ih]; simp

/-- The double loop `comp(i, j) += f(i, j)` over the upper triangle adds a matrix. -/
theorem upperLoop {n : Nat} (hn : n * (n + 1) / 2 ≤ 65536) (M : Matrix (Fin n) (Fin n) ℝ) (f : Nat → Nat → ℝ)
    (hf : ∀ i j, i ≤ j → j < n → f i j = ext M i j) (C : Matrix (Fin n) (Fin n) ℝ) :
    Res.foldlM' (fun A i => Res.foldlM' (fun A j => acc A (comp n i j) (f i j)) A (List.range' i (n - i))) (pack C)
      (List.range n) = .ok (pack (C + M)) := by
  obtain ⟨g, hg, hge⟩ := pack_arr C
  have key := addLoop (L := off n n)
    (fun A i => Res.foldlM' (fun A j => acc A (comp n i j) (f i j)) A (List.range' i (n - i)))
    (fun i q => ∑ j ∈ Ico i (i + (n - i)), if q = comp n i j then f i j else 0) 0 n hg (by
      intro i _ hi A h hA
      exact addLoop (L := off n n) (fun A j => acc A (comp n i j) (f i j)) (fun j q => if q = comp n i j then f i j else 0)
        i (n - i) hA (by
          intro j hj1 hj2 A h hA
          have hp : comp n i j < off n n := by rw [comp_eq hn hj1 (by omega)]; exact upos_lt hj1 (by omega)
          obtain ⟨A', e1, e2⟩ := hA.acc hp (f i j)
          exact ⟨A', e1, e2⟩))
  obtain ⟨A', e1, e2⟩ := key
  rw [List.range_eq_range', e1]
  congr 1
  apply eq_pack e2
  intro i j hij hj
  rw [hge i j hij hj, Nat.zero_add]
  have h1 : ∀ i' ∈ Ico 0 n, (∑ j' ∈ Ico i' (i' + (n - i')), if off n i + (j - i) = comp n i' j' then f i' j' else 0)
      = if i' = i then f i j else 0 := by
    intro i' hi'
    rw [mem_Ico] at hi'
    split
    · next he =>
      subst he
      rw [Finset.sum_eq_single j]
      · rw [comp_eq hn hij hj, if_pos rfl]
      · intro j' hj' hne
        rw [mem_Ico] at hj'
        rw [comp_eq hn hj'.1 (by omega), if_neg]
        intro h
        exact hne ((upos_inj hij hj hj'.1 (by omega)).mp h).2.symm
      · intro h; exact absurd (mem_Ico.mpr ⟨hij, by omega⟩) h
    · next he =>
      apply Finset.sum_eq_zero
      intro j' hj'
      rw [mem_Ico] at hj'
      rw [comp_eq hn hj'.1 (by omega), if_neg]
      intro h
      exact he ((upos_inj hij hj hj'.1 (by omega)).mp h).1.symm
  rw [Finset.sum_congr rfl h1, Finset.sum_ite_eq' (Ico 0 n) i, if_pos (mem_Ico.mpr ⟨by omega, by omega⟩), hf i j hij hj]
  rw [ext_add]

/-! ## QUADTH -/

/-- The matrix of `make_B`. -/
noncomputable def B (pos : Fin 4 → Fin 2 → ℝ) (x : Fin 2 → ℝ) : Matrix (Fin 2) (Fin 4) ℝ :=
  Matrix.of fun i a => grads quad pos x a i

/-- The Jacobian at an integration point times its weight. -/
noncomputable def wdet (pos : Fin 4 → Fin 2 → ℝ) (q : QuadPt 2) : ℝ := q.w * (jac quad pos q.xi).det

theorem makeB_eq {pos : Fin 4 → Fin 2 → ℝ} {g : Geom 2 4} (h : Good quad pos g) {np : Nat}
    (hn : np < (quad.table g.scheme).length) : makeB g np = .ok (flat (B pos (quad.table g.scheme)[np].xi)) := by
  have e : Res.read g.NiXj np = .ok (grads quad pos (quad.table g.scheme)[np].xi) := by
    rw [Res.read_eq_ok, h.NiXj, List.getElem?_map, List.getElem?_eq_getElem hn]; rfl
  unfold makeB
  rw [e, Res.ok_bind]
  simp [flat, rectPairs, List.range_succ, ext, B]

theorem matK_eq (k : ℝ) : matK k = .ok (pack (k • (1 : Matrix (Fin 2) (Fin 2) ℝ))) := by
  have h0 : comp 2 0 0 = 0 := by decide
  have h1 : comp 2 1 1 = 2 := by decide
  simp [matK, Res.write, h0, h1, pack, upperPairs, List.range_succ, List.range', ext, List.replicate]

theorem formFuncAt_eq {g : Geom 2 4} {np : Nat} (hn : np < (quad.table g.scheme).length) :
    formFuncAt quad g np = .ok (quad.formFunc (quad.table g.scheme)[np].xi) := by
  unfold formFuncAt; rw [Res.read_of_lt hn, Res.ok_bind]

theorem pack_zero {n : Nat} (hn : n * (n + 1) / 2 = m) : pack (0 : Matrix (Fin n) (Fin n) ℝ) = List.replicate m 0 := by
  apply List.eq_replicate_iff.mpr
  refine ⟨by rw [pack_length, off_total, hn], ?_⟩
  intro x hx
  unfold pack at hx
  obtain ⟨p, _, rfl⟩ := List.mem_map.mp hx
  unfold ext
  split <;> rfl

/-- The contribution of one integration point to the conductivity matrix. -/
noncomputable def condPt (pos : Fin 4 → Fin 2 → ℝ) (k : ℝ) (q : QuadPt 2) : Matrix (Fin 4) (Fin 4) ℝ :=
  wdet pos q • ((B pos q.xi).transpose * (k • (1 : Matrix (Fin 2) (Fin 2) ℝ)) * B pos q.xi)

/-- The contribution of one integration point to the load. -/
noncomputable def loadPt (pos : Fin 4 → Fin 2 → ℝ) (flux : ℝ) (q : QuadPt 2) : Fin 4 → ℝ :=
  fun a => quad.formFunc q.xi a * (flux * wdet pos q)

theorem quadK_eq {pos : Fin 4 → Fin 2 → ℝ} {g : Geom 2 4} (h : Good quad pos g) (k flux : ℝ) :
    quadK g k flux = .ok (pack ((quad.table g.scheme).map (condPt pos k)).sum,
      ((quad.table g.scheme).map (loadPt pos flux)).sum) := by
  unfold quadK nOfIntPoints
  rw [matK_eq, Res.ok_bind]
  have := pointsLoop (quad.table g.scheme) (fun (st : List ℝ × (Fin 4 → ℝ)) np => do
    let dWt ← intWeight quad g np
    let B ← makeB g np
    let Ke ← matBTDBprod 2 4 B (pack (k • (1 : Matrix (Fin 2) (Fin 2) ℝ))) dWt st.1
    if flux ≠ 0 then
      let ff ← formFuncAt quad g np
      Res.ok (Ke, fun a => st.2 a + ff a * (flux * dWt))
    else Res.ok (Ke, st.2)) (fun t : Matrix (Fin 4) (Fin 4) ℝ × (Fin 4 → ℝ) => (pack t.1, t.2))
    (fun q => (condPt pos k q, loadPt pos flux q)) (by
      rintro np hn ⟨K, F⟩
      have hs : (k • (1 : Matrix (Fin 2) (Fin 2) ℝ)).IsSymm := by
        unfold Matrix.IsSymm; rw [Matrix.transpose_smul, Matrix.transpose_one]
      simp only [h.intWeight hn, makeB_eq h hn, Res.ok_bind, matBTDBprod_eq _ hs, formFuncAt_eq hn]
      by_cases hf : flux = 0
      · rw [if_neg (not_not.mpr hf)]
        have : loadPt pos flux (quad.table g.scheme)[np] = 0 := by funext a; simp [loadPt, hf]
        rw [Prod.mk_add_mk, this, add_zero]; rfl
      · rw [if_pos hf]; rfl) (0, 0)
  simp only [pack_zero (n := 4) (m := 10) rfl] at this
  refine Eq.trans this ?_
  congr 1
  rw [sum_pair, Prod.mk_add_mk, zero_add, zero_add]

/-- The contribution of one integration point to the capacity matrix. -/
noncomputable def capPt (pos : Fin 4 → Fin 2 → ℝ) (rho c : ℝ) (q : QuadPt 2) : Matrix (Fin 4) (Fin 4) ℝ :=
  Matrix.of fun a b => quad.formFunc q.xi a * quad.formFunc q.xi b * rho * c * wdet pos q

theorem quadC_eq {pos : Fin 4 → Fin 2 → ℝ} {g : Geom 2 4} (h : Good quad pos g) (rho c : ℝ) :
    quadC g rho c = .ok (pack ((quad.table g.scheme).map (capPt pos rho c)).sum) := by
  unfold quadC nOfIntPoints
  have := pointsLoop (quad.table g.scheme) (fun Ce np => do
    let dWt ← intWeight quad g np
    let ff ← formFuncAt quad g np
    Res.foldlM' (fun Ce i => Res.foldlM' (fun Ce j =>
      acc Ce (comp 4 i j) (ff (Fin.ofNat 4 i) * ff (Fin.ofNat 4 j) * rho * c * dWt)) Ce (List.range' i (4 - i))) Ce
      (List.range 4)) (fun t : Matrix (Fin 4) (Fin 4) ℝ => pack t) (capPt pos rho c) (by
      intro np hn C
      simp only [h.intWeight hn, formFuncAt_eq hn, Res.ok_bind]
      rw [← upperLoop (n := 4) (by decide) (capPt pos rho c (quad.table g.scheme)[np])
        (fun i j => quad.formFunc (quad.table g.scheme)[np].xi (Fin.ofNat 4 i) *
          quad.formFunc (quad.table g.scheme)[np].xi (Fin.ofNat 4 j) * rho * c *
          ((quad.table g.scheme)[np].w * (jac quad pos (quad.table g.scheme)[np].xi).det))]
      intro i j hij hj
      have hi : i < 4 := by omega
      have e1 : Fin.ofNat 4 i = ⟨i, hi⟩ := by ext; simp [Nat.mod_eq_of_lt hi]
      have e2 : Fin.ofNat 4 j = ⟨j, hj⟩ := by ext; simp [Nat.mod_eq_of_lt hj]
      rw [e1, e2]
      unfold ext
      rw [dif_pos ⟨hi, hj⟩]
      rfl) 0
  rw [pack_zero (n := 4) (m := 10) rfl, zero_add] at this
  exact this

/-! ## SurfaceLINETH -/

/-- `htc * N N^T` at an integration point of a line with Jacobian `det`. -/
noncomputable def convPt (htc det : ℝ) (q : QuadPt 1) : Matrix (Fin 2) (Fin 2) ℝ :=
  Matrix.of fun a b => line.formFunc q.xi a * line.formFunc q.xi b * htc * (q.w * det)

theorem convPt_symm (htc det : ℝ) (q : QuadPt 1) : (convPt htc det q).IsSymm := by
  ext a b; simp only [convPt, Matrix.transpose_apply, Matrix.of_apply]; ring

theorem surfaceTmp_eq (htc det : ℝ) (q : QuadPt 1) :
    surfaceTmp (line.formFunc q.xi) htc (q.w * det) = .ok (pack (convPt htc det q)) := by
  have h0 : comp 2 0 0 = 0 := by decide
  have h1 : comp 2 1 1 = 2 := by decide
  have h2 : comp 2 0 1 = 1 := by decide
  have h3 : comp 2 1 0 = 1 := by decide
  simp [surfaceTmp, Res.write, Res.read, h0, h1, h2, h3, pack, upperPairs, List.range_succ, List.range', ext, List.replicate,
    convPt]

theorem lineFunc_eq {g : LineGeom} {np : Nat} (hn : np < (line.table g.scheme).length) :
    lineFunc g np = .ok (line.formFunc (line.table g.scheme)[np].xi) := by
  unfold lineFunc; rw [Res.read_of_lt hn, Res.ok_bind]

/-- The contribution of one integration point to the load by the flux. -/
noncomputable def fluxPt (flux det : ℝ) (q : QuadPt 1) : Fin 2 → ℝ := fun a => line.formFunc q.xi a * (flux * (q.w * det))

theorem surfaceK_eq {g : LineGeom} (hd : 0 < g.det) (s : Surface) :
    surfaceK g s = .ok (pack ((line.table g.scheme).map (convPt s.htc g.det)).sum,
      List.ofFn (((line.table g.scheme).map (fluxPt s.flux g.det)).sum +
        ((line.table g.scheme).map (convPt s.htc g.det)).sum.mulVec s.etemp)) := by
  have hF : surfaceFlux g s = Res.ok (List.ofFn ((line.table g.scheme).map (fluxPt s.flux g.det)).sum) := by
    unfold surfaceFlux
    by_cases hf : s.flux = 0
    · rw [if_neg (not_not.mpr hf)]
      have : ∀ qs : List (QuadPt 1), (qs.map (fluxPt s.flux g.det)).sum = 0 := by
        intro qs
        induction qs with
        | nil => rfl
        | cons q qs ih =>
          rw [List.map_cons, List.sum_cons, ih]
          funext a; simp [fluxPt, hf]
      rw [this]; simp [List.replicate]
    · rw [if_pos hf]
      have := pointsLoop (line.table g.scheme) (fun Fe np => do
        let dWt ← lineIntWeight g np
        let N ← lineFunc g np
        let Fe ← acc Fe 0 (N 0 * (s.flux * dWt))
        acc Fe 1 (N 1 * (s.flux * dWt))) (fun t : Fin 2 → ℝ => List.ofFn t) (fluxPt s.flux g.det) (by
          intro np hn F
          simp only [lineIntWeight_eq hd hn, lineFunc_eq hn, Res.ok_bind]
          simp [acc, Res.read, Res.write, fluxPt]) 0
      rw [zero_add] at this
      rw [← this]; simp [List.replicate]
  unfold surfaceK
  rw [hF, Res.ok_bind]
  generalize ((line.table g.scheme).map (fluxPt s.flux g.det)).sum = F0
  by_cases hh : s.htc = 0
  · rw [if_neg (not_not.mpr hh)]
    have : ∀ qs : List (QuadPt 1), (qs.map (convPt s.htc g.det)).sum = 0 := by
      intro qs
      induction qs with
      | nil => rfl
      | cons q qs ih =>
        rw [List.map_cons, List.sum_cons, ih]
        ext a b; simp [convPt, hh]
    rw [this, pack_zero (n := 2) (m := 3) rfl]; simp
  · rw [if_pos hh]
    have := pointsLoop (line.table g.scheme) (fun (st : List ℝ × List ℝ) np => do
      let dWt ← lineIntWeight g np
      let N ← lineFunc g np
      let tmp ← surfaceTmp N s.htc dWt
      let Ke ← symAdd 2 st.1 tmp
      let Fe ← matBVprodSym 2 tmp (List.ofFn s.etemp) 1 st.2
      Res.ok (Ke, Fe)) (fun t : Matrix (Fin 2) (Fin 2) ℝ × (Fin 2 → ℝ) => (pack t.1, List.ofFn t.2))
      (fun q => (convPt s.htc g.det q, (convPt s.htc g.det q).mulVec s.etemp)) (by
        rintro np hn ⟨K, F⟩
        simp only [lineIntWeight_eq hd hn, lineFunc_eq hn, surfaceTmp_eq, Res.ok_bind, C31_symAdd (n := 2) (by decide),
          matBVprodSym_eq (convPt_symm _ _ _), one_smul]
        rfl) (0, F0)
    rw [sum_pair] at this
    dsimp only at this
    rw [pack_zero (n := 2) (m := 3) rfl] at this
    rw [this]
    have e : ∀ qs : List (QuadPt 1), (qs.map (fun q => (convPt s.htc g.det q).mulVec s.etemp)).sum
        = (qs.map (convPt s.htc g.det)).sum.mulVec s.etemp := by
      intro qs
      induction qs with
      | nil => simp
      | cons q qs ih => rw [List.map_cons, List.sum_cons, ih, List.map_cons, List.sum_cons, Matrix.add_mulVec]
    rw [Prod.mk_add_mk, zero_add, e]

end Nla3d.Thermal
