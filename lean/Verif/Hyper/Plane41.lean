import Verif.Hyper.Solid81

/-!
# Properties of PLANE41: C68
-/

noncomputable section

namespace Nla3d.Hyper

open Iso Dense Material Thermal
open Finset hiding ext

/-- The displacement gradient of a plane element as a gradient in space. -/
def emb (o : Fin 4 → ℝ) : Fin 9 → ℝ := ![o 0, o 1, 0, o 2, o 3, 0, 0, 0, 0]

theorem emb_line (o h : Fin 4 → ℝ) (s : ℝ) : emb (o + s • h) = emb o + s • emb h := by
  funext r; fin_cases r <;> simp [emb]

theorem planeC_emb (o : Fin 4 → ℝ) : planeCVec (planeC o) = solidC (emb o) := by
  funext r; fin_cases r <;> simp [planeCVec, planeC, solidC, emb] <;> ring

/-- The position of direction `c` at node `a`. -/
def at2 (a : Fin 4) (c : Fin 2) : Fin 8 := ⟨a.val * 2 + c.val, by omega⟩

/-- The gradient of nodal values, in the order of `O`. -/
def grad4 (G : Fin 4 → Fin 2 → ℝ) (v : Fin 8 → ℝ) : Fin 4 → ℝ :=
  ![∑ a, G a 0 * v (at2 a 0), ∑ a, G a 1 * v (at2 a 0), ∑ a, G a 0 * v (at2 a 1), ∑ a, G a 1 * v (at2 a 1)]

theorem Bomega_mulVec (G : Fin 4 → Fin 2 → ℝ) (v : Fin 8 → ℝ) : (planeBomega G).mulVec v = grad4 G v := by
  funext r
  fin_cases r <;>
    simp [planeBomega, grad4, Matrix.mulVec, dotProduct, Fin.sum_univ_succ, at2] <;> rfl

/-- `matB`. -/
def Bp (G : Fin 4 → Fin 2 → ℝ) (o : Fin 4 → ℝ) : Matrix (Fin 3) (Fin 8) ℝ := planeB G + planeO o * planeBomega G

/-- The three components of the plane element. -/
def comp3 : Fin 3 → Fin 6 := ![0, 3, 1]

theorem planeB_mulVec (G : Fin 4 → Fin 2 → ℝ) (v : Fin 8 → ℝ) :
    (planeB G).mulVec v = ![grad4 G v 0, grad4 G v 3, grad4 G v 1 + grad4 G v 2] := by
  funext r
  fin_cases r <;>
    simp [planeB, grad4, Matrix.mulVec, dotProduct, Fin.sum_univ_succ, at2]
  ring

theorem Bp_mulVec (G : Fin 4 → Fin 2 → ℝ) (o : Fin 4 → ℝ) (v : Fin 8 → ℝ) (c : Fin 3) :
    (Bp G o).mulVec v c = 1 / 2 * bvec (emb o) (emb (grad4 G v)) (comp3 c) := by
  unfold Bp
  rw [Matrix.add_mulVec, ← Matrix.mulVec_mulVec, Bomega_mulVec, planeB_mulVec]
  generalize grad4 G v = h
  fin_cases c <;>
    simp [bvec_cvar, mult, cvar, comp3, emb, planeO, Matrix.mulVec, dotProduct, Fin.sum_univ_succ] <;> ring

theorem bvec_emb (o h : Fin 4 → ℝ) (f : Fin 6 → ℝ) :
    ∑ k, bvec (emb o) (emb h) k * f k = ∑ c, bvec (emb o) (emb h) (comp3 c) * f (comp3 c) := by
  simp [bvec_cvar, mult, cvar, comp3, emb, Fin.sum_univ_succ]
  try ring

theorem S_emb (S : Fin 6 → ℝ) (v h : Fin 4 → ℝ) :
    emb v ⬝ᵥ (S9 S).mulVec (emb h) = v ⬝ᵥ (planeS (fun c => S (comp3 c))).mulVec h := by
  simp [S9, planeS, emb, comp3, Matrix.mulVec, dotProduct, Fin.sum_univ_succ]
  try ring

/-- `matE_c`. -/
def D3 (E : Energy) (C : Fin 6 → ℝ) (p : ℝ) : Matrix (Fin 3) (Fin 3) ℝ :=
  Matrix.of fun i j => tangentEntry E C p (comp3 i) (comp3 j)

theorem D3_symm (E : Energy) (C : Fin 6 → ℝ) (p : ℝ) : (D3 E C p).IsSymm := by
  ext i j; exact tangent_symm E C p _ _

theorem getD_plane (E : Energy) (C : Fin 6 → ℝ) (p : ℝ) :
    getDdDp_UP E planeComps C p (List.replicate 6 0) (List.replicate 3 0) =
      .ok (pack (D3 E C p), List.ofFn (fun c => pressEntry C (comp3 c))) := by
  rw [getDdDp_eq _ _ _ _ _ _ (by simp [planeComps]) (by simp [planeComps])]
  congr 2

theorem getS_plane (E : Energy) (C : Fin 6 → ℝ) (S : Fin 3 → ℝ) (p : ℝ) :
    getS_UP E planeComps C p (List.ofFn S) = .ok (List.ofFn (fun c => stressEntry E C p (comp3 c))) := by
  rw [getS_eq _ _ _ _ _ (by simp [planeComps])]
  congr 1

theorem entries_flat (M : Matrix (Fin 3) (Fin 3) ℝ) :
    entries 9 (flat M) = .ok (fun i => M ⟨i.val / 3, by omega⟩ ⟨i.val % 3, by omega⟩) := by
  unfold entries
  rw [if_pos (flat_length M)]
  congr 1
  funext i
  fin_cases i <;> rfl

theorem of_entries (M : Matrix (Fin 3) (Fin 3) ℝ) :
    (Matrix.of fun (i j : Fin 3) => M ⟨(i.val * 3 + j.val) / 3, by omega⟩ ⟨(i.val * 3 + j.val) % 3, by omega⟩) = M := by
  ext i j
  fin_cases i <;> fin_cases j <;> rfl

/-- The unknowns of the nodes as `Vec<8>`. -/
def vec8 (u : Fin 4 → Fin 2 → ℝ) : Fin 8 → ℝ := fun i => u ⟨i.val / 2, by omega⟩ ⟨i.val % 2, by omega⟩

theorem vec8_at (u : Fin 4 → Fin 2 → ℝ) (a : Fin 4) (c : Fin 2) : vec8 u (at2 a c) = u a c := by
  have ha := a.isLt
  have hc := c.isLt
  unfold vec8 at2
  congr 1
  · apply Fin.ext; show (a.val * 2 + c.val) / 2 = a.val; omega
  · apply Fin.ext; show (a.val * 2 + c.val) % 2 = c.val; omega

theorem vec8_line (u δ : Fin 4 → Fin 2 → ℝ) (s : ℝ) : vec8 (u + s • δ) = vec8 u + s • vec8 δ := rfl

theorem grad4_line (G : Fin 4 → Fin 2 → ℝ) (v w : Fin 8 → ℝ) (s : ℝ) : grad4 G (v + s • w) = grad4 G v + s • grad4 G w := by
  rw [← Bomega_mulVec, ← Bomega_mulVec, ← Bomega_mulVec, Matrix.mulVec_add, Matrix.mulVec_smul]

/-- The state of a point after `update`. -/
def pointOf2 (E : Energy) (G : Fin 4 → Fin 2 → ℝ) (u : Fin 4 → Fin 2 → ℝ) (p : ℝ) : Point2 :=
  let o := grad4 G (vec8 u)
  ⟨o, planeC o, fun c => stressEntry E (solidC (emb o)) p (comp3 c)⟩

theorem planeUpdate_eq (E : Energy) {pos : Fin 4 → Fin 2 → ℝ} {g : Geom 2 4} (hg : Good quad pos g)
    (u : Fin 4 → Fin 2 → ℝ) (p : ℝ) (pts : List Point2) (hp : pts.length = nOfIntPoints quad g) :
    planeUpdate E g u p pts = .ok ((quad.table g.scheme).map (fun q => pointOf2 E (grads quad pos q.xi) u p)) := by
  unfold planeUpdate
  refine update_loop (quad.table g.scheme) _ (fun q => pointOf2 E (grads quad pos q.xi) u p) ?_ pts hp
  intro k hk L hL
  have e : Res.read g.NiXj k = .ok (grads quad pos (quad.table g.scheme)[k].xi) := by
    rw [Res.read_eq_ok, hg.NiXj, List.getElem?_map, List.getElem?_eq_getElem hk]; rfl
  rw [e, Res.ok_bind, Res.read_of_lt (by omega), Res.ok_bind]
  dsimp only
  rw [getS_plane, Res.ok_bind, entries_ofFn]
  change Res.write L k ⟨(planeBomega _).mulVec (vec8 u), _, _⟩ = _
  rw [show (fun i : Fin 8 => u ⟨i.val / 2, by omega⟩ ⟨i.val % 2, by omega⟩) = vec8 u from rfl, Bomega_mulVec, planeC_emb]
  rfl

abbrev Tot2 := Matrix (Fin 8) (Fin 8) ℝ × (Fin 8 → ℝ) × ℝ × (Fin 8 → ℝ) × ℝ

def enc2 (t : Tot2) : Acc41 := ⟨t.1, t.2.1, t.2.2.1, t.2.2.2.1, t.2.2.2.2⟩

/-- What an integration point adds. -/
def term2 (E : Energy) (k : ℝ) (G : Fin 4 → Fin 2 → ℝ) (w : ℝ) (pt : Point2) (p : ℝ) : Tot2 :=
  (w • ((2 : ℝ) • ((Bp G pt.O).transpose * D3 E (planeCVec pt.C) p * Bp G pt.O) +
      (planeBomega G).transpose * planeS pt.S * planeBomega G),
   w • (Bp G pt.O).transpose.mulVec (fun c => pressEntry (planeCVec pt.C) (comp3 c)),
   -(1 / k * w),
   w • (Bp G pt.O).transpose.mulVec pt.S,
   (JC (planeCVec pt.C) - 1 - p / k) * w)

theorem planePoint_eq (E : Energy) (k : ℝ) {pos : Fin 4 → Fin 2 → ℝ} {g : Geom 2 4} (hg : Good quad pos g)
    (P : QuadPt 2 → Point2) (p : ℝ) (t : Tot2) {np : Nat} (hn : np < (quad.table g.scheme).length) :
    planePoint E k g ((quad.table g.scheme).map P) p (enc2 t) np =
      .ok (enc2 (t + term2 E k (grads quad pos (quad.table g.scheme)[np].xi)
        ((quad.table g.scheme)[np].w * (jac quad pos (quad.table g.scheme)[np].xi).det) (P (quad.table g.scheme)[np]) p)) := by
  have e : Res.read g.NiXj np = .ok (grads quad pos (quad.table g.scheme)[np].xi) := by
    rw [Res.read_eq_ok, hg.NiXj, List.getElem?_map, List.getElem?_eq_getElem hn]; rfl
  have e2 : Res.read ((quad.table g.scheme).map P) np = .ok (P (quad.table g.scheme)[np]) := by
    rw [Res.read_eq_ok, List.getElem?_map, List.getElem?_eq_getElem hn]; rfl
  unfold planePoint enc2
  rw [hg.intWeight hn, Res.ok_bind, e2, Res.ok_bind, getD_plane, Res.ok_bind]
  dsimp only
  rw [toMat_eq (D3_symm E _ p), Res.ok_bind, entries_flat, Res.ok_bind, entries_ofFn, Res.ok_bind, e, Res.ok_bind]
  rw [of_entries]
  simp only [term2, Prod.fst_add, Prod.snd_add, sub_eq_add_neg, Bp]

/-- The sums after `update` and `buildK`. -/
def tot2 (E : Energy) (k : ℝ) (pos : Fin 4 → Fin 2 → ℝ) (qs : List (QuadPt 2)) (u : Fin 4 → Fin 2 → ℝ) (p : ℝ) : Tot2 :=
  (qs.map (fun q => term2 E k (grads quad pos q.xi) (q.w * (jac quad pos q.xi).det) (pointOf2 E (grads quad pos q.xi) u p) p)).sum

/-- `update` followed by `buildK`. -/
def planeStep (E : Energy) (k : ℝ) (g : Geom 2 4) (pts : List Point2) (u : Fin 4 → Fin 2 → ℝ) (p : ℝ) :
    Res (Matrix (Fin 9) (Fin 9) ℝ × (Fin 9 → ℝ)) := do
  let pts ← planeUpdate E g u p pts
  planeK E k g pts p

theorem planeStep_eq (E : Energy) (k : ℝ) {pos : Fin 4 → Fin 2 → ℝ} {g : Geom 2 4} (hg : Good quad pos g)
    (pts : List Point2) (hp : pts.length = nOfIntPoints quad g) (u : Fin 4 → Fin 2 → ℝ) (p : ℝ) :
    planeStep E k g pts u p = .ok (planeJoin (enc2 (tot2 E k pos (quad.table g.scheme) u p))) := by
  unfold planeStep planeK nOfIntPoints
  rw [planeUpdate_eq E hg u p pts hp, Res.ok_bind]
  have h0 : (⟨0, 0, 0, 0, 0⟩ : Acc41) = enc2 0 := rfl
  have key := pointsLoop (quad.table g.scheme) (planePoint E k g ((quad.table g.scheme).map
      (fun q => pointOf2 E (grads quad pos q.xi) u p)) p) enc2 (fun q => term2 E k (grads quad pos q.xi)
    (q.w * (jac quad pos q.xi).det) (pointOf2 E (grads quad pos q.xi) u p) p)
    (fun np hn t => planePoint_eq E k hg (fun q => pointOf2 E (grads quad pos q.xi) u p) p t hn) 0
  rw [zero_add] at key
  rw [h0, key, Res.ok_bind]
  rfl

theorem term2_Qe (E : Energy) (k : ℝ) (G u : Fin 4 → Fin 2 → ℝ) (w p : ℝ) (v : Fin 8 → ℝ) :
    v ⬝ᵥ (term2 E k G w (pointOf2 E G u p) p).2.2.2.1 =
      1 / 2 * w * force E (emb (grad4 G (vec8 u))) p (emb (grad4 G v)) := by
  simp only [term2, pointOf2]
  rw [dotProduct_smul, dot_transpose, force, bvec_emb, dotProduct, smul_eq_mul, Finset.mul_sum, Finset.mul_sum]
  refine Finset.sum_congr rfl fun c _ => ?_
  rw [Bp_mulVec]
  ring

theorem term2_K (E : Energy) (k : ℝ) (G u : Fin 4 → Fin 2 → ℝ) (w p : ℝ) (v δ : Fin 8 → ℝ) :
    v ⬝ᵥ (term2 E k G w (pointOf2 E G u p) p).1.mulVec δ = 1 / 2 * w *
      (∑ i, bvec (emb (grad4 G (vec8 u))) (emb (grad4 G v)) i * (∑ l, tangentEntry E (solidC (emb (grad4 G (vec8 u)))) p i l *
        bvec (emb (grad4 G (vec8 u))) (emb (grad4 G δ)) l)) +
      w * (emb (grad4 G v) ⬝ᵥ (S9 (stressEntry E (solidC (emb (grad4 G (vec8 u)))) p)).mulVec (emb (grad4 G δ))) := by
  simp only [term2, pointOf2]
  rw [Matrix.smul_mulVec, dotProduct_smul, Matrix.add_mulVec, dotProduct_add, Matrix.smul_mulVec, dotProduct_smul, dot_BDB,
    dot_BDB, Bomega_mulVec, Bomega_mulVec, S_emb, bvec_emb, planeC_emb]
  have e : (Bp G (grad4 G (vec8 u))).mulVec v ⬝ᵥ (D3 E (solidC (emb (grad4 G (vec8 u)))) p).mulVec
      ((Bp G (grad4 G (vec8 u))).mulVec δ) = 1 / 4 * ∑ c, bvec (emb (grad4 G (vec8 u))) (emb (grad4 G v)) (comp3 c) *
      (∑ l, tangentEntry E (solidC (emb (grad4 G (vec8 u)))) p (comp3 c) l *
        bvec (emb (grad4 G (vec8 u))) (emb (grad4 G δ)) l) := by
    rw [dotProduct, Finset.mul_sum]
    refine Finset.sum_congr rfl fun c _ => ?_
    rw [Finset.sum_congr rfl (fun l _ => mul_comm (tangentEntry E (solidC (emb (grad4 G (vec8 u)))) p (comp3 c) l) _), bvec_emb,
      Bp_mulVec, Matrix.mulVec, dotProduct, Finset.mul_sum, Finset.mul_sum, Finset.mul_sum]
    refine Finset.sum_congr rfl fun l _ => ?_
    rw [Bp_mulVec]
    simp only [D3, Matrix.of_apply]
    ring
  rw [e]
  simp only [smul_eq_mul]
  ring

theorem term2_Kup (E : Energy) (k : ℝ) (G u : Fin 4 → Fin 2 → ℝ) (w p : ℝ) (v : Fin 8 → ℝ) :
    v ⬝ᵥ (term2 E k G w (pointOf2 E G u p) p).2.1 = 1 / 2 * w *
      (∑ i, bvec (emb (grad4 G (vec8 u))) (emb (grad4 G v)) i * pressEntry (solidC (emb (grad4 G (vec8 u)))) i) := by
  simp only [term2, pointOf2]
  rw [dotProduct_smul, dot_transpose, bvec_emb, dotProduct, smul_eq_mul, Finset.mul_sum, Finset.mul_sum, planeC_emb]
  refine Finset.sum_congr rfl fun c _ => ?_
  rw [Bp_mulVec]
  ring

theorem tot2_map {A : Type} [AddCommMonoid A] (L : Tot2 →+ A) (E : Energy) (k : ℝ) (pos : Fin 4 → Fin 2 → ℝ)
    (qs : List (QuadPt 2)) (u : Fin 4 → Fin 2 → ℝ) (p : ℝ) :
    L (tot2 E k pos qs u p) = (qs.map (fun q => L (term2 E k (grads quad pos q.xi) (q.w * (jac quad pos q.xi).det)
      (pointOf2 E (grads quad pos q.xi) u p) p))).sum := by
  unfold tot2
  rw [map_list_sum, List.map_map]
  rfl

def forceHom2 (v : Fin 8 → ℝ) : Tot2 →+ ℝ where
  toFun t := v ⬝ᵥ t.2.2.2.1
  map_zero' := by simp
  map_add' a b := by simp [dotProduct_add]

def stiffHom2 (v δ : Fin 8 → ℝ) : Tot2 →+ ℝ where
  toFun t := v ⬝ᵥ t.1.mulVec δ
  map_zero' := by simp
  map_add' a b := by simp [Matrix.add_mulVec, dotProduct_add]

def pressHom2 (v : Fin 8 → ℝ) : Tot2 →+ ℝ where
  toFun t := v ⬝ᵥ t.2.1
  map_zero' := by simp
  map_add' a b := by simp [dotProduct_add]

def volHom2 : Tot2 →+ ℝ where
  toFun t := t.2.2.2.2
  map_zero' := rfl
  map_add' _ _ := rfl

def kppHom2 : Tot2 →+ ℝ where
  toFun t := t.2.2.1
  map_zero' := rfl
  map_add' _ _ := rfl

/-- The deformation gradient of plane strain. -/
def plane3 (F : Matrix (Fin 2) (Fin 2) ℝ) : Mat3 := !![F 0 0, F 0 1, 0; F 1 0, F 1 1, 0; 0, 0, 1]

theorem grad4_disp (pos u : Fin 4 → Fin 2 → ℝ) (x : Fin 2 → ℝ) (i j : Fin 2) :
    grad4 (grads quad pos x) (vec8 u) ⟨2 * i.val + j.val, by omega⟩ = dispGrad quad pos u x i j := by
  unfold grad4
  simp only [vec8_at, dispGrad, Matrix.of_apply, mul_comm (u _ _)]
  fin_cases i <;> fin_cases j <;> rfl

theorem planeC_disp (pos u : Fin 4 → Fin 2 → ℝ) (x : Fin 2 → ℝ) :
    solidC (emb (grad4 (grads quad pos x) (vec8 u))) =
      pack6 ((plane3 (1 + dispGrad quad pos u x)).transpose * plane3 (1 + dispGrad quad pos u x)) := by
  have g := grad4_disp pos u x
  generalize grad4 (grads quad pos x) (vec8 u) = o at g
  generalize dispGrad quad pos u x = H at g
  have g00 : o 0 = H 0 0 := g 0 0
  have g01 : o 1 = H 0 1 := g 0 1
  have g10 : o 2 = H 1 0 := g 1 0
  have g11 : o 3 = H 1 1 := g 1 1
  funext k
  fin_cases k <;>
    simp [solidC, emb, pack6, plane3, Matrix.mul_apply, Fin.sum_univ_three, g00, g01, g10, g11] <;> ring

theorem det_plane3 (F : Matrix (Fin 2) (Fin 2) ℝ) : (plane3 F).det = F.det := by
  rw [Matrix.det_fin_three, Matrix.det_fin_two]
  simp [plane3]

theorem detP_disp2 (pos u : Fin 4 → Fin 2 → ℝ) (x : Fin 2 → ℝ) (h : (jac quad pos x).det ≠ 0)
    (hu : (jac quad (pos + u) x).det ≠ 0) : 0 < detP (solidC (emb (grad4 (grads quad pos x) (vec8 u)))) := by
  rw [planeC_disp, det_pack6 (isSymm_gram _), Matrix.det_mul, Matrix.det_transpose, det_plane3]
  rw [jac_disp quad pos u x h, Matrix.det_mul, Matrix.det_transpose] at hu
  exact mul_self_pos.mpr (right_ne_zero_of_mul hu)

theorem deriv_tot2_Qe {E : Energy} (hE : E.Consistent) (k : ℝ) (pos : Fin 4 → Fin 2 → ℝ) (qs : List (QuadPt 2))
    (h : ∀ q ∈ qs, (jac quad pos q.xi).det ≠ 0) (u δ : Fin 4 → Fin 2 → ℝ) (p π : ℝ)
    (hu : ∀ q ∈ qs, (jac quad (pos + u) q.xi).det ≠ 0) (v : Fin 8 → ℝ) :
    HasDerivAt (fun s : ℝ => v ⬝ᵥ (tot2 E k pos qs (u + s • δ) (p + s * π)).2.2.2.1)
      (v ⬝ᵥ (tot2 E k pos qs u p).1.mulVec (vec8 δ) + π * (v ⬝ᵥ (tot2 E k pos qs u p).2.1)) 0 := by
  have e1 : ∀ s : ℝ, v ⬝ᵥ (tot2 E k pos qs (u + s • δ) (p + s * π)).2.2.2.1 = (qs.map (fun q =>
      1 / 2 * (q.w * (jac quad pos q.xi).det) * force E (emb (grad4 (grads quad pos q.xi) (vec8 u)) +
        s • emb (grad4 (grads quad pos q.xi) (vec8 δ))) (p + s * π) (emb (grad4 (grads quad pos q.xi) v)))).sum := by
    intro s
    refine (tot2_map (forceHom2 v) E k pos qs (u + s • δ) (p + s * π)).trans ?_
    congr 1
    refine List.map_congr_left fun q _ => ?_
    refine (term2_Qe E k _ _ _ _ v).trans ?_
    rw [vec8_line, grad4_line, emb_line]
  simp only [e1]
  have e2 : v ⬝ᵥ (tot2 E k pos qs u p).1.mulVec (vec8 δ) + π * (v ⬝ᵥ (tot2 E k pos qs u p).2.1) =
      (qs.map (fun q => stiffHom2 v (vec8 δ) (term2 E k (grads quad pos q.xi) (q.w * (jac quad pos q.xi).det)
        (pointOf2 E (grads quad pos q.xi) u p) p) + π * pressHom2 v (term2 E k (grads quad pos q.xi)
        (q.w * (jac quad pos q.xi).det) (pointOf2 E (grads quad pos q.xi) u p) p))).sum := by
    rw [listSum_lin, ← tot2_map, ← tot2_map]
    rfl
  rw [e2]
  apply hasDerivAt_listSum
  intro q hq
  have hD := detP_disp2 pos u q.xi (h q hq) (hu q hq)
  have hd := deriv_force hE (emb (grad4 (grads quad pos q.xi) (vec8 u))) (emb (grad4 (grads quad pos q.xi) (vec8 δ)))
    (emb (grad4 (grads quad pos q.xi) v)) p π 0 (by simpa using hD)
  simp only [zero_smul, add_zero, zero_mul] at hd
  refine (hd.const_mul (1 / 2 * (q.w * (jac quad pos q.xi).det))).congr_deriv ?_
  have a := term2_K E k (grads quad pos q.xi) u (q.w * (jac quad pos q.xi).det) p v (vec8 δ)
  have b := term2_Kup E k (grads quad pos q.xi) u (q.w * (jac quad pos q.xi).det) p v
  simp only [stiffHom2, pressHom2, AddMonoidHom.coe_mk, ZeroHom.coe_mk]
  rw [a, b]
  ring

theorem deriv_tot2_Fp (E : Energy) (k : ℝ) (pos : Fin 4 → Fin 2 → ℝ) (qs : List (QuadPt 2))
    (h : ∀ q ∈ qs, (jac quad pos q.xi).det ≠ 0) (u δ : Fin 4 → Fin 2 → ℝ) (p π : ℝ)
    (hu : ∀ q ∈ qs, (jac quad (pos + u) q.xi).det ≠ 0) :
    HasDerivAt (fun s : ℝ => (tot2 E k pos qs (u + s • δ) (p + s * π)).2.2.2.2)
      ((tot2 E k pos qs u p).2.1 ⬝ᵥ vec8 δ + (tot2 E k pos qs u p).2.2.1 * π) 0 := by
  have e1 : ∀ s : ℝ, (tot2 E k pos qs (u + s • δ) (p + s * π)).2.2.2.2 = (qs.map (fun q =>
      (JC (solidC (emb (grad4 (grads quad pos q.xi) (vec8 u)) + s • emb (grad4 (grads quad pos q.xi) (vec8 δ)))) - 1 -
        (p + s * π) / k) * (q.w * (jac quad pos q.xi).det))).sum := by
    intro s
    refine (tot2_map volHom2 E k pos qs (u + s • δ) (p + s * π)).trans ?_
    congr 1
    refine List.map_congr_left fun q _ => ?_
    simp only [volHom2, AddMonoidHom.coe_mk, ZeroHom.coe_mk, term2, pointOf2]
    rw [planeC_emb, vec8_line, grad4_line, emb_line]
  simp only [e1]
  have e2 : (tot2 E k pos qs u p).2.1 ⬝ᵥ vec8 δ + (tot2 E k pos qs u p).2.2.1 * π =
      (qs.map (fun q => pressHom2 (vec8 δ) (term2 E k (grads quad pos q.xi) (q.w * (jac quad pos q.xi).det)
        (pointOf2 E (grads quad pos q.xi) u p) p) + π * kppHom2 (term2 E k (grads quad pos q.xi)
        (q.w * (jac quad pos q.xi).det) (pointOf2 E (grads quad pos q.xi) u p) p))).sum := by
    rw [listSum_lin, ← tot2_map, ← tot2_map, dotProduct_comm, mul_comm _ π]
    rfl
  rw [e2]
  apply hasDerivAt_listSum
  intro q hq
  have hD := detP_disp2 pos u q.xi (h q hq) (hu q hq)
  have hd := deriv_volume (emb (grad4 (grads quad pos q.xi) (vec8 u))) (emb (grad4 (grads quad pos q.xi) (vec8 δ))) 0
    (by simpa using hD)
  simp only [zero_smul, add_zero] at hd
  have hp : HasDerivAt (fun s : ℝ => (p + s * π) / k) (π / k) 0 := by
    have := ((((hasDerivAt_id (0 : ℝ)).mul_const π).const_add p)).div_const k
    simpa using this
  refine (((hd.sub_const 1).fun_sub hp).mul_const (q.w * (jac quad pos q.xi).det)).congr_deriv ?_
  have b := term2_Kup E k (grads quad pos q.xi) u (q.w * (jac quad pos q.xi).det) p (vec8 δ)
  simp only [kppHom2, pressHom2, AddMonoidHom.coe_mk, ZeroHom.coe_mk]
  rw [b]
  simp only [term2]
  ring

/-- The unknowns of the element: of the nodes, then the pressure. -/
def vec9 (u : Fin 4 → Fin 2 → ℝ) (p : ℝ) : Fin 9 → ℝ := fun i => if h : i.val < 8 then vec8 u ⟨i, h⟩ else p

theorem join_mulVec (s : Acc41) (u : Fin 4 → Fin 2 → ℝ) (p : ℝ) (i : Fin 9) :
    (planeJoin s).1.mulVec (vec9 u p) i = if h : i.val < 8 then s.Kuu.mulVec (vec8 u) ⟨i, h⟩ + s.Kup ⟨i, h⟩ * p
      else s.Kup ⬝ᵥ vec8 u + s.Kpp * p := by
  rw [Matrix.mulVec, dotProduct, Fin.sum_univ_castSucc]
  by_cases h : i.val < 8
  · simp [planeJoin, vec9, h, Matrix.mulVec, dotProduct]
  · simp [planeJoin, vec9, h, dotProduct]

theorem tot2_symm (E : Energy) (k : ℝ) (pos : Fin 4 → Fin 2 → ℝ) (qs : List (QuadPt 2)) (u : Fin 4 → Fin 2 → ℝ) (p : ℝ) :
    (tot2 E k pos qs u p).1.IsSymm := by
  unfold tot2
  induction qs with
  | nil => simp [Matrix.IsSymm]
  | cons q qs ih =>
    rw [List.map_cons, List.sum_cons]
    refine Matrix.IsSymm.add ?_ ih
    simp only [term2]
    refine Matrix.IsSymm.smul (Matrix.IsSymm.add (Matrix.IsSymm.smul ?_ _) ?_) _
    · unfold Matrix.IsSymm
      rw [Matrix.transpose_mul, Matrix.transpose_mul, Matrix.transpose_transpose, (D3_symm E _ p).eq, Matrix.mul_assoc]
    · have hs : (planeS (pointOf2 E (grads quad pos q.xi) u p).S).IsSymm := by
        ext i j; fin_cases i <;> fin_cases j <;> rfl
      unfold Matrix.IsSymm
      rw [Matrix.transpose_mul, Matrix.transpose_mul, Matrix.transpose_transpose, hs.eq, Matrix.mul_assoc]

theorem join_symm {s : Acc41} (h : s.Kuu.IsSymm) : (planeJoin s).1.IsSymm := by
  ext i j
  simp only [planeJoin, Matrix.transpose_apply, Matrix.of_apply]
  by_cases hi : i.val < 8 <;> by_cases hj : j.val < 8
  · simp only [hi, hj, dite_true]; exact h.apply _ _
  · simp [hi, hj]
  · simp [hi, hj]
  · simp [hi, hj]

/-- C68. `update` of PLANE41 stores at every integration point the displacement gradient, the plane components of `FᵀF` and of the
second Piola-Kirchhoff stress of the material under plane strain. -/
theorem C68_update (E : Energy) (o : Nat) (pos : Fin 4 → Fin 2 → ℝ)
    (h : ∀ q ∈ quad.table (schemeIndex o), (jac quad pos q.xi).det ≠ 0) :
    ∃ g, makeJacob quad o pos = .ok g ∧ ∀ (u : Fin 4 → Fin 2 → ℝ) (p : ℝ) (pts : List Point2),
      pts.length = nOfIntPoints quad g → ∃ pts', planeUpdate E g u p pts = .ok pts' ∧
        pts'.length = (quad.table (schemeIndex o)).length ∧
        ∀ (k : Nat) (q : QuadPt 2) (pt : Point2) (F : Matrix (Fin 2) (Fin 2) ℝ), (quad.table (schemeIndex o))[k]? = some q →
          pts'[k]? = some pt → IsDefGrad quad pos u q.xi F →
          (∀ i j : Fin 2, pt.O ⟨2 * i.val + j.val, by omega⟩ = (F - 1) i j) ∧
          !![pt.C 0, pt.C 2; pt.C 2, pt.C 1] = F.transpose * F ∧
          ∃ S : Mat3, stressOf E ((plane3 F).transpose * plane3 F) p = .ok S ∧ pt.S = ![S 0 0, S 1 1, S 0 1] := by
  obtain ⟨g, h1, h2, h3⟩ := makeJacob_good h
  refine ⟨g, h1, fun u p pts hp => ⟨_, planeUpdate_eq E h3 u p pts hp, by rw [List.length_map, h2], ?_⟩⟩
  intro k q pt F hq hpt hF
  rw [List.getElem?_map, h2, hq] at hpt
  simp only [Option.map_some, Option.some.injEq] at hpt
  subst hpt
  have hq' : q ∈ quad.table (schemeIndex o) := List.mem_of_getElem? hq
  rw [defGrad_eq (h q hq')] at hF
  subst hF
  refine ⟨?_, ?_, _, stressOf_eq _ _ _, ?_⟩
  · intro i j
    rw [show (pointOf2 E (grads quad pos q.xi) u p).O = grad4 (grads quad pos q.xi) (vec8 u) from rfl, grad4_disp,
      add_sub_cancel_left]
  · have g := grad4_disp pos u q.xi
    simp only [pointOf2]
    generalize grad4 (grads quad pos q.xi) (vec8 u) = w at g
    generalize dispGrad quad pos u q.xi = H at g
    have g00 : w 0 = H 0 0 := g 0 0
    have g01 : w 1 = H 0 1 := g 0 1
    have g10 : w 2 = H 1 0 := g 1 0
    have g11 : w 3 = H 1 1 := g 1 1
    ext i j
    fin_cases i <;> fin_cases j <;>
      simp [planeC, Matrix.mul_apply, Fin.sum_univ_two, g00, g01, g10, g11] <;> ring
  · rw [← planeC_disp]
    simp only [pointOf2]
    funext c
    fin_cases c <;> rfl

/-- C68. The matrix PLANE41 assembles after `update` is symmetric and is the exact derivative of minus the forces it assembles. -/
theorem C68_tangent {E : Energy} (hE : E.Consistent) (k : ℝ) (o : Nat) (pos : Fin 4 → Fin 2 → ℝ)
    (h : ∀ q ∈ quad.table (schemeIndex o), (jac quad pos q.xi).det ≠ 0) :
    ∃ g, makeJacob quad o pos = .ok g ∧
    ∃ (Ke : (Fin 4 → Fin 2 → ℝ) → ℝ → Matrix (Fin 9) (Fin 9) ℝ) (Fe : (Fin 4 → Fin 2 → ℝ) → ℝ → Fin 9 → ℝ),
      (∀ pts u p, pts.length = nOfIntPoints quad g → planeStep E k g pts u p = .ok (Ke u p, Fe u p)) ∧
      (∀ u p, (Ke u p).IsSymm) ∧
      ∀ u p δ π, (∀ q ∈ quad.table (schemeIndex o), (jac quad (pos + u) q.xi).det ≠ 0) → ∀ i,
        HasDerivAt (fun s : ℝ => Fe (u + s • δ) (p + s * π) i) (-((Ke u p).mulVec (vec9 δ π) i)) 0 := by
  obtain ⟨g, h1, h2, h3⟩ := makeJacob_good h
  rw [← h2] at h
  refine ⟨g, h1, fun u p => (planeJoin (enc2 (tot2 E k pos (quad.table g.scheme) u p))).1,
    fun u p => (planeJoin (enc2 (tot2 E k pos (quad.table g.scheme) u p))).2,
    fun pts u p hp => planeStep_eq E k h3 pts hp u p, fun u p => join_symm (tot2_symm E k pos _ u p), ?_⟩
  intro u p δ π hu i
  rw [← h2] at hu
  dsimp only
  rw [join_mulVec]
  by_cases hi : i.val < 8
  · rw [dif_pos hi]
    have := (deriv_tot2_Qe hE k pos _ h u δ p π hu (Pi.single ⟨i, hi⟩ 1)).fun_neg
    simp only [single_dotProduct, one_mul] at this
    simp only [planeJoin, hi, dite_true]
    refine this.congr_deriv ?_
    simp only [enc2]
    ring
  · rw [dif_neg hi]
    have := (deriv_tot2_Fp E k pos _ h u δ p π hu).fun_neg
    simp only [planeJoin, hi, dite_false]
    exact this

/-- C68. The forces are minus the derivatives of the potential `∑ w (W + p (J - 1) - p² / 2k)` of the element in plane strain. -/
theorem C68_potential {E : Energy} (hE : E.Consistent) (k z : ℝ) (o : Nat) (pos : Fin 4 → Fin 2 → ℝ)
    (h : ∀ q ∈ quad.table (schemeIndex o), (jac quad pos q.xi).det ≠ 0) :
    ∃ g, makeJacob quad o pos = .ok g ∧ ∃ (Ke : (Fin 4 → Fin 2 → ℝ) → ℝ → Matrix (Fin 9) (Fin 9) ℝ)
      (Fe : (Fin 4 → Fin 2 → ℝ) → ℝ → Fin 9 → ℝ),
      (∀ pts u p, pts.length = nOfIntPoints quad g → planeStep E k g pts u p = .ok (Ke u p, Fe u p)) ∧
      ∀ (F : QuadPt 2 → (Fin 4 → Fin 2 → ℝ) → Matrix (Fin 2) (Fin 2) ℝ),
        (∀ q ∈ quad.table (schemeIndex o), ∀ u, IsDefGrad quad pos u q.xi (F q u)) →
        ∀ u p δ, (∀ q ∈ quad.table (schemeIndex o), (F q u).det ≠ 0) →
          HasDerivAt (fun s : ℝ => ((quad.table (schemeIndex o)).map (fun q => q.w * (jac quad pos q.xi).det *
            (energy E p z ((plane3 (F q (u + s • δ))).transpose * plane3 (F q (u + s • δ))) - p ^ 2 / (2 * k)))).sum)
            (-(Fe u p ⬝ᵥ vec9 δ 0)) 0 ∧
          HasDerivAt (fun s : ℝ => ((quad.table (schemeIndex o)).map (fun q => q.w * (jac quad pos q.xi).det *
            (energy E s z ((plane3 (F q u)).transpose * plane3 (F q u)) - s ^ 2 / (2 * k)))).sum)
            (-Fe u p 8) p := by
  obtain ⟨g, h1, h2, h3⟩ := makeJacob_good h
  rw [← h2] at h ⊢
  refine ⟨g, h1, fun u p => (planeJoin (enc2 (tot2 E k pos (quad.table g.scheme) u p))).1,
    fun u p => (planeJoin (enc2 (tot2 E k pos (quad.table g.scheme) u p))).2,
    fun pts u p hp => planeStep_eq E k h3 pts hp u p, ?_⟩
  intro F hF u p δ hu
  have eF : ∀ q ∈ quad.table g.scheme, ∀ u, F q u = 1 + dispGrad quad pos u q.xi :=
    fun q hq u => (defGrad_eq (h q hq)).mp (hF q hq u)
  have hD : ∀ q ∈ quad.table g.scheme, 0 < detP (solidC (emb (grad4 (grads quad pos q.xi) (vec8 u)))) := by
    intro q hq
    rw [planeC_disp, det_pack6 (isSymm_gram _), Matrix.det_mul, Matrix.det_transpose, ← eF q hq, det_plane3]
    exact mul_self_pos.mpr (hu q hq)
  constructor
  · have e2 : -((planeJoin (enc2 (tot2 E k pos (quad.table g.scheme) u p))).2 ⬝ᵥ vec9 δ 0) =
        ((quad.table g.scheme).map (fun q => forceHom2 (vec8 δ) (term2 E k (grads quad pos q.xi)
          (q.w * (jac quad pos q.xi).det) (pointOf2 E (grads quad pos q.xi) u p) p))).sum := by
      rw [← tot2_map, dotProduct, Fin.sum_univ_castSucc]
      simp [planeJoin, vec9, forceHom2, enc2, dotProduct, mul_comm]
    rw [e2]
    apply hasDerivAt_listSum
    intro q hq
    have hγ : ∀ i, HasDerivAt (fun s : ℝ => solidC (emb (grad4 (grads quad pos q.xi) (vec8 u)) +
        s • emb (grad4 (grads quad pos q.xi) (vec8 δ))) i) _ 0 := fun i => deriv_solidC _ _ 0 i
    have hd := deriv_energy hγ (by simpa using hD q hq) hE p z
    rw [ddot_bvec] at hd
    simp only [zero_smul, add_zero] at hd
    have ev : ∀ᶠ s : ℝ in nhds 0, 0 < detP (solidC (emb (grad4 (grads quad pos q.xi) (vec8 u)) +
        s • emb (grad4 (grads quad pos q.xi) (vec8 δ)))) := eventually_pos hγ (by simpa using hD q hq)
    have h5 : HasDerivAt (fun s : ℝ => energy E p z ((plane3 (F q (u + s • δ))).transpose * plane3 (F q (u + s • δ))))
        ((∑ i, stressEntry E (solidC (emb (grad4 (grads quad pos q.xi) (vec8 u)))) p i *
          bvec (emb (grad4 (grads quad pos q.xi) (vec8 u))) (emb (grad4 (grads quad pos q.xi) (vec8 δ))) i) / 2) 0 := by
      refine hd.congr_of_eventuallyEq ?_
      filter_upwards [ev] with s hs
      have e3 := planeC_disp pos (u + s • δ) q.xi
      rw [vec8_line, grad4_line, emb_line] at e3
      rw [e3, det_pack6 (isSymm_gram _)] at hs
      rw [eF q hq, energy_eq E p z (isSymm_gram _) hs, e3]
    refine ((h5.sub_const (p ^ 2 / (2 * k))).const_mul _).congr_deriv ?_
    have a := term2_Qe E k (grads quad pos q.xi) u (q.w * (jac quad pos q.xi).det) p (vec8 δ)
    simp only [forceHom2, AddMonoidHom.coe_mk, ZeroHom.coe_mk]
    rw [a, force, Finset.sum_congr rfl (fun i _ => mul_comm _ _)]
    ring
  · have e2 : -((planeJoin (enc2 (tot2 E k pos (quad.table g.scheme) u p))).2 8) = ((quad.table g.scheme).map (fun q =>
        volHom2 (term2 E k (grads quad pos q.xi) (q.w * (jac quad pos q.xi).det)
        (pointOf2 E (grads quad pos q.xi) u p) p))).sum := by
      rw [← tot2_map]
      simp [planeJoin, volHom2, enc2]
    dsimp only
    rw [e2]
    apply hasDerivAt_listSum
    intro q hq
    have hdet : 0 < ((plane3 (F q u)).transpose * plane3 (F q u)).det := by
      have := hD q hq
      rwa [planeC_disp, det_pack6 (isSymm_gram _), ← eF q hq] at this
    have e5 : (fun s : ℝ => q.w * (jac quad pos q.xi).det *
          (energy E s z ((plane3 (F q u)).transpose * plane3 (F q u)) - s ^ 2 / (2 * k))) =
        fun s => q.w * (jac quad pos q.xi).det * (energy E 0 z ((plane3 (F q u)).transpose * plane3 (F q u)) +
        s * (JC (solidC (emb (grad4 (grads quad pos q.xi) (vec8 u)))) - 1) - s ^ 2 / (2 * k)) := by
      funext s
      rw [energy_eq E s z (isSymm_gram _) hdet, energy_eq E 0 z (isSymm_gram _) hdet, planeC_disp, ← eF q hq]
      ring
    rw [e5]
    have h6 := (((hasDerivAt_id p).mul_const (JC (solidC (emb (grad4 (grads quad pos q.xi) (vec8 u)))) - 1)).const_add
      (energy E 0 z ((plane3 (F q u)).transpose * plane3 (F q u)))).fun_sub (((hasDerivAt_id p).fun_pow 2).div_const (2 * k))
    refine (h6.const_mul (q.w * (jac quad pos q.xi).det)).congr_deriv ?_
    simp only [volHom2, AddMonoidHom.coe_mk, ZeroHom.coe_mk, term2, pointOf2, planeC_emb, id]
    by_cases hk : k = 0
    · subst hk; simp; ring
    · field_simp; ring

/-- C68. The forces are in equilibrium. -/
theorem C68_balance (E : Energy) (k : ℝ) (o : Nat) (pos : Fin 4 → Fin 2 → ℝ)
    (h : ∀ q ∈ quad.table (schemeIndex o), (jac quad pos q.xi).det ≠ 0) :
    ∃ g, makeJacob quad o pos = .ok g ∧ ∀ pts u p, pts.length = nOfIntPoints quad g →
      ∃ Ke Fe, planeStep E k g pts u p = .ok (Ke, Fe) ∧ ∀ c : Fin 2, ∑ a : Fin 4, Fe ⟨2 * a.val + c.val, by omega⟩ = 0 := by
  obtain ⟨g, h1, h2, h3⟩ := makeJacob_good h
  rw [← h2] at h
  refine ⟨g, h1, fun pts u p hp => ⟨_, _, planeStep_eq E k h3 pts hp u p, ?_⟩⟩
  intro c
  have hv : vec8 (fun _ i => if i = c then 1 else 0) ⬝ᵥ (tot2 E k pos (quad.table g.scheme) u p).2.2.2.1 = 0 := by
    refine (tot2_map (forceHom2 _) E k pos (quad.table g.scheme) u p).trans ?_
    apply List.sum_eq_zero
    intro x hx
    rw [List.mem_map] at hx
    obtain ⟨q, hq, rfl⟩ := hx
    refine (term2_Qe E k _ _ _ _ _).trans ?_
    have hs := (exact_grads C34_quad pos q.xi (h q hq)).1
    have e0 : emb (grad4 (grads quad pos q.xi) (vec8 (fun _ i => if i = c then 1 else 0))) = 0 := by
      unfold grad4
      simp only [vec8_at, ← Finset.sum_mul, hs, zero_mul]
      funext r; fin_cases r <;> rfl
    rw [e0]
    unfold force
    have e1 : ∀ w, bvec w 0 = 0 := by
      intro w
      unfold bvec
      rw [Matrix.mulVec_zero, smul_zero, add_zero]
      funext r; fin_cases r <;> simp [lin6]
    simp [e1]
  have e : ∑ a : Fin 4, (planeJoin (enc2 (tot2 E k pos (quad.table g.scheme) u p))).2 ⟨2 * a.val + c.val, by omega⟩ =
      -(vec8 (fun _ i => if i = c then 1 else 0) ⬝ᵥ (tot2 E k pos (quad.table g.scheme) u p).2.2.2.1) := by
    rw [dotProduct]
    simp only [vec8, planeJoin, enc2]
    generalize (tot2 E k pos (quad.table g.scheme) u p).2.2.2.1 = f
    rw [Fin.sum_univ_four]
    simp only [Fin.sum_univ_succ]
    fin_cases c <;> simp [Fin.succ, Fin.ext_iff] <;> ring!
  refine e.trans ?_
  rw [hv, neg_zero]

end Nla3d.Hyper
