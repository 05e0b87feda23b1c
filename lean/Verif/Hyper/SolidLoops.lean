import Verif.Hyper.Tangent

/-!
# What `update` and `buildK` of SOLID81 compute
-/

noncomputable section

namespace Nla3d.Hyper

open Iso Dense Material Thermal
open Finset hiding ext

/-- `matB`. -/
def Bmat (G : Fin 8 → Fin 3 → ℝ) (o : Fin 9 → ℝ) : Matrix (Fin 6) (Fin 24) ℝ := BL G + (2 : ℝ) • (Omega o * BNL G)

theorem Bmat_mulVec (G : Fin 8 → Fin 3 → ℝ) (o : Fin 9 → ℝ) (v : Fin 24 → ℝ) : (Bmat G o).mulVec v = bvec o (grad9 G v) := by
  unfold Bmat bvec
  rw [Matrix.add_mulVec, Matrix.smul_mulVec, ← Matrix.mulVec_mulVec, BL_mulVec, BNL_mulVec]

theorem solidB_eq (G : Fin 8 → Fin 3 → ℝ) (o : Fin 9 → ℝ) : solidB G o = .ok (flat (Bmat G o)) := by
  unfold solidB
  rw [makeBL_eq, Res.ok_bind, makeOmega_eq, Res.ok_bind, makeBNL_eq, Res.ok_bind, matABprod_eq]
  rfl

/-- `matD_d`. -/
def Dmat (E : Energy) (C : Fin 6 → ℝ) (p : ℝ) : Matrix (Fin 6) (Fin 6) ℝ := Matrix.of fun i j => tangentEntry E C p i j

theorem Dmat_symm (E : Energy) (C : Fin 6 → ℝ) (p : ℝ) : (Dmat E C p).IsSymm := by
  ext i j; exact tangent_symm E C p j i

theorem getD_solid (E : Energy) (C : Fin 6 → ℝ) (p : ℝ) :
    getDdDp_UP E defaultComps C p (List.replicate 21 0) (List.replicate 6 0) =
      .ok (pack (Dmat E C p), List.ofFn (pressEntry C)) := by
  rw [getDdDp_eq _ _ _ _ _ _ (by simp [defaultComps]) (by simp [defaultComps])]
  congr 2

/-- The unknowns of the nodes as `Vec<24>`. -/
def vec24 (u : Fin 8 → Fin 3 → ℝ) : Fin 24 → ℝ := fun i => u ⟨i.val / 3, by omega⟩ ⟨i.val % 3, by omega⟩

theorem vec24_at (u : Fin 8 → Fin 3 → ℝ) (a : Fin 8) (c : Fin 3) : vec24 u (at3 a c) = u a c := by
  have ha := a.isLt
  have hc := c.isLt
  unfold vec24 at3
  congr 1
  · apply Fin.ext; show (a.val * 3 + c.val) / 3 = a.val; omega
  · apply Fin.ext; show (a.val * 3 + c.val) % 3 = c.val; omega

theorem vec24_line (u δ : Fin 8 → Fin 3 → ℝ) (s : ℝ) : vec24 (u + s • δ) = vec24 u + s • vec24 δ := rfl

theorem grad9_line (G : Fin 8 → Fin 3 → ℝ) (v w : Fin 24 → ℝ) (s : ℝ) : grad9 G (v + s • w) = grad9 G v + s • grad9 G w := by
  rw [← BNL_mulVec, ← BNL_mulVec, ← BNL_mulVec, Matrix.mulVec_add, Matrix.mulVec_smul]

/-- The state of a point after `update`. -/
def pointOf (E : Energy) (G : Fin 8 → Fin 3 → ℝ) (u : Fin 8 → Fin 3 → ℝ) (p : ℝ) : Point :=
  let o := grad9 G (vec24 u)
  ⟨o, solidC o, stressEntry E (solidC o) p⟩

theorem entries_ofFn {n : Nat} (f : Fin n → ℝ) : entries n (List.ofFn f) = .ok f := by
  unfold entries
  rw [if_pos List.length_ofFn]
  congr 1
  funext i
  simp

theorem getS_solid (E : Energy) (C S : Fin 6 → ℝ) (p : ℝ) :
    getS_UP E defaultComps C p (List.ofFn S) = .ok (List.ofFn (stressEntry E C p)) := by
  rw [getS_eq _ _ _ _ _ (by simp [defaultComps])]
  congr 1

theorem update_loop {α : Type} (qs : List α) {σ : Type} (body : List σ → Nat → Res (List σ)) (P : α → σ)
    (h : ∀ (k : Nat) (hk : k < qs.length) (L : List σ), L.length = qs.length → body L k = Res.write L k (P qs[k]))
    (L : List σ) (hL : L.length = qs.length) :
    Res.foldlM' body L (List.range qs.length) = .ok (qs.map P) := by
  obtain ⟨s, h1, h2⟩ := Res.foldlM'_range body (fun k s => s = (qs.take k).map P ++ L.drop k) qs.length L (by simp) (by
    rintro k s hk rfl
    have hlen : ((qs.take k).map P).length = k := by simp; omega
    rw [h k hk _ (by simp; omega)]
    have := write_next ((qs.take k).map P) L (P qs[k]) (by rw [hlen]; omega)
    rw [hlen] at this
    refine ⟨_, this, ?_⟩
    rw [List.take_succ_eq_append_getElem hk, List.map_append]
    simp; omega)
  rw [h1, h2, List.take_length, List.drop_eq_nil_of_le (by omega), List.append_nil]

theorem solidUpdate_eq (E : Energy) {pos : Fin 8 → Fin 3 → ℝ} {g : Geom 3 8} (hg : Good hexa pos g)
    (u : Fin 8 → Fin 3 → ℝ) (p : ℝ) (pts : List Point) (hp : pts.length = nOfIntPoints hexa g) :
    solidUpdate E g u p pts = .ok ((hexa.table g.scheme).map (fun q => pointOf E (grads hexa pos q.xi) u p)) := by
  unfold solidUpdate
  refine update_loop (hexa.table g.scheme) _ (fun q => pointOf E (grads hexa pos q.xi) u p) ?_ pts hp
  intro k hk L hL
  have e : Res.read g.NiXj k = .ok (grads hexa pos (hexa.table g.scheme)[k].xi) := by
    rw [Res.read_eq_ok, hg.NiXj, List.getElem?_map, List.getElem?_eq_getElem hk]; rfl
  have hz : List.replicate 9 (0 : ℝ) = List.ofFn (0 : Fin 9 → ℝ) := by simp [List.ofFn_succ, List.replicate]
  rw [e, Res.ok_bind, makeBNL_eq, Res.ok_bind, Res.read_of_lt (by omega), Res.ok_bind, hz]
  change (matBVprod 9 24 _ (List.ofFn (vec24 u)) 1 _ >>= _) = _
  rw [matBVprod_eq, Res.ok_bind, entries_ofFn, Res.ok_bind, zero_add, one_smul, BNL_mulVec, getS_solid, Res.ok_bind, entries_ofFn]
  rfl

/-- The sums `buildK` accumulates. -/
abbrev Tot := Matrix (Fin 24) (Fin 24) ℝ × (Fin 24 → ℝ) × ℝ × (Fin 24 → ℝ) × ℝ

def enc (t : Tot) : Sys81 := ⟨pack t.1, List.ofFn t.2.1, t.2.2.1, List.ofFn t.2.2.2.1, t.2.2.2.2⟩

/-- What an integration point adds. -/
def term (E : Energy) (k : ℝ) (G : Fin 8 → Fin 3 → ℝ) (w : ℝ) (pt : Point) (p : ℝ) : Tot :=
  ((1 / 2 * w) • ((Bmat G pt.O).transpose * Dmat E pt.C p * Bmat G pt.O) + w • ((BNL G).transpose * S9 pt.S * BNL G),
   (1 / 2 * w) • (Bmat G pt.O).transpose.mulVec (pressEntry pt.C),
   -1 / k * w,
   (-(1 / 2) * w) • (Bmat G pt.O).transpose.mulVec pt.S,
   -(JC pt.C - 1 - p / k) * w)

theorem solidPoint_eq (E : Energy) (k : ℝ) {pos : Fin 8 → Fin 3 → ℝ} {g : Geom 3 8} (hg : Good hexa pos g)
    (P : QuadPt 3 → Point) (p : ℝ) (t : Tot) {np : Nat} (hn : np < (hexa.table g.scheme).length) :
    solidPoint E k g ((hexa.table g.scheme).map P) p (enc t) np =
      .ok (enc (t + term E k (grads hexa pos (hexa.table g.scheme)[np].xi)
        ((hexa.table g.scheme)[np].w * (jac hexa pos (hexa.table g.scheme)[np].xi).det) (P (hexa.table g.scheme)[np]) p)) := by
  have e : Res.read g.NiXj np = .ok (grads hexa pos (hexa.table g.scheme)[np].xi) := by
    rw [Res.read_eq_ok, hg.NiXj, List.getElem?_map, List.getElem?_eq_getElem hn]; rfl
  have e2 : Res.read ((hexa.table g.scheme).map P) np = .ok (P (hexa.table g.scheme)[np]) := by
    rw [Res.read_eq_ok, List.getElem?_map, List.getElem?_eq_getElem hn]; rfl
  unfold solidPoint enc
  rw [hg.intWeight hn, Res.ok_bind, e2, Res.ok_bind, getD_solid, Res.ok_bind]
  dsimp only
  rw [e, Res.ok_bind, solidB_eq, Res.ok_bind, makeS_eq, Res.ok_bind, makeBNL_eq, Res.ok_bind,
    matBTDBprod_eq _ (Dmat_symm E _ p), Res.ok_bind, matBTDBprod_eq _ (S9_symm _), Res.ok_bind, matBTVprod_eq, Res.ok_bind,
    matBTVprod_eq, Res.ok_bind]
  simp only [term, Prod.fst_add, Prod.snd_add, add_assoc]

/-- What `buildK` assembles. -/
def total (E : Energy) (k : ℝ) (pos : Fin 8 → Fin 3 → ℝ) (qs : List (QuadPt 3)) (P : QuadPt 3 → Point) (p : ℝ) : Tot :=
  (qs.map (fun q => term E k (grads hexa pos q.xi) (q.w * (jac hexa pos q.xi).det) (P q) p)).sum

theorem solidK_eq (E : Energy) (k : ℝ) {pos : Fin 8 → Fin 3 → ℝ} {g : Geom 3 8} (hg : Good hexa pos g)
    (P : QuadPt 3 → Point) (p : ℝ) :
    solidK E k g ((hexa.table g.scheme).map P) p = .ok (enc (total E k pos (hexa.table g.scheme) P p)) := by
  unfold solidK nOfIntPoints
  have h0 : (⟨List.replicate 300 0, List.replicate 24 0, 0, List.replicate 24 0, 0⟩ : Sys81) = enc 0 := by
    unfold enc
    rw [← pack_zero (n := 24) (m := 300) rfl]
    simp [List.ofFn_succ, List.replicate]
  rw [h0, pointsLoop (hexa.table g.scheme) _ enc (fun q => term E k (grads hexa pos q.xi)
    (q.w * (jac hexa pos q.xi).det) (P q) p) (fun np hn t => solidPoint_eq E k hg P p t hn) 0, zero_add]
  rfl

end Nla3d.Hyper
