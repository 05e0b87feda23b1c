import Verif.Newton.Group
import Verif.Newton.Energy
import Verif.Mixed.Props
import Verif.Hyper.Solid81
import Verif.Hyper.Plane41
import Verif.Hyper.Smooth
import Verif.Post.Reaction
import Verif.Solver.Setting

/-!
# Elements of a pass
-/

namespace Nla3d.Newton

open Nla3d.Storage Nla3d.Dof Nla3d.Iso Nla3d.Hyper Nla3d.Material Nla3d.Mixed

noncomputable section

/-! ## Specification -/

/-- The list `U` holds the values `u` of the `n` unknowns, which are numbered from 1. -/
def Holds (n : Nat) (U : List ℝ) (u : Nat → ℝ) : Prop := U.length = n ∧ ∀ i, 0 < i → i ≤ n → U[i - 1]? = some (u i)

/-- A hexahedron that is ready for a pass. -/
structure Hex.Ready (S1 : Storage ℝ) (regs : List Key) (e : Hex) : Prop where
  material : e.E.Consistent
  mesh : OnMixed S1 regs e.en (List.ofFn e.nodes) solidDofs
  shape : ∀ q ∈ hexa.table (schemeIndex e.order), (jac hexa e.pos q.xi).det ≠ 0
  made : makeJacob hexa e.order e.pos = .ok e.g
  points : e.pts.length = nOfIntPoints hexa e.g

/-- A plane element that is ready for a pass. -/
structure Quad.Ready (S1 : Storage ℝ) (regs : List Key) (e : Quad) : Prop where
  material : e.E.Consistent
  mesh : OnMixed S1 regs e.en (List.ofFn e.nodes) planeDofs
  shape : ∀ q ∈ quad.table (schemeIndex e.order), (jac quad e.pos q.xi).det ≠ 0
  made : makeJacob quad e.order e.pos = .ok e.g
  points : e.pts.length = nOfIntPoints quad e.g

/-- An element that is ready for a pass. -/
def El.Ready (S1 : Storage ℝ) (regs : List Key) : El → Prop
  | .hex e => e.Ready S1 regs
  | .plane e => e.Ready S1 regs

/-- The displaced element is not degenerate at the integration points. -/
def El.Sound (num : Key → Nat) (u : Nat → ℝ) : El → Prop
  | .hex e => ∀ q ∈ hexa.table (schemeIndex e.order), (jac hexa (e.pos + e.disp num u) q.xi).det ≠ 0
  | .plane e => ∀ q ∈ quad.table (schemeIndex e.order), (jac quad (e.pos + e.disp num u) q.xi).det ≠ 0

/-- The same element, with any state at its integration points. -/
def El.Same : El → El → Prop
  | .hex e, .hex e' => ∃ pts, pts.length = e.pts.length ∧ e' = { e with pts := pts }
  | .plane e, .plane e' => ∃ pts, pts.length = e.pts.length ∧ e' = { e with pts := pts }
  | _, _ => False

/-- The state that `pre` gives the integration points. -/
def El.Fresh : El → Prop
  | .hex e => e.pts = List.replicate (nOfIntPoints hexa e.g) Point.initial
  | .plane e => e.pts = List.replicate (nOfIntPoints quad e.g) Point2.initial

/-- The material of the element has continuous second derivatives. -/
def El.Smooth : El → Prop
  | .hex e => e.E.Smooth
  | .plane e => e.E.Smooth

/-- What one element contributes: `eq a` is the equation of its local DoF `a`. -/
structure Law (S0 : Storage ℝ) (calls : List RegCall) (new : List (Mpc ℝ)) (cs : List Key) (S1 : Storage ℝ) (num : Key → Nat)
    (e : El) (m : Nat) (eq : Nat → Nat) (Ke : (Nat → ℝ) → Nat → Nat → ℝ) (Fe : (Nat → ℝ) → Nat → ℝ) : Prop where
  range : ∀ a < m, 0 < eq a ∧ eq a ≤ S1.nDofs + S1.nMpc
  run : ∀ e', El.Same e e' → ∀ U u, Holds (S1.nDofs + S1.nMpc) U u → ∀ S, Session S0 calls new cs S1 num S →
    ∃ e'', update { S with vecU := U } e' = .ok e'' ∧ El.Same e e'' ∧
      ∀ S', Session S0 calls new cs S1 num S' → ∃ S'', build U S' e'' = .ok S'' ∧ Session S0 calls new cs S1 num S'' ∧
        Grows S1 S' S'' (fun w i j => if w = .K then scatter m eq (Ke u) i j else 0) (fun i => scatterV m eq (Fe u) i)
  symm : ∀ u a b, Ke u a b = Ke u b a
  deriv : ∀ u v : Nat → ℝ, e.Sound num u → ∀ a < m,
    HasDerivAt (fun s : ℝ => Fe (fun i => u i + s * v i) a) (-∑ b ∈ Finset.range m, Ke u a b * v (eq b)) 0
  list : ∀ e', El.Same e e' → ∀ U u, Holds (S1.nDofs + S1.nMpc) U u → ∀ S, Session S0 calls new cs S1 num S →
    ∀ e'', update { S with vecU := U } e' = .ok e'' → ∀ S', Session S0 calls new cs S1 num S' →
      build U S' e'' = Res.foldlM' Storage.contribute S' (El.adds { S' with vecU := U } e'') ∧
      ∀ i j, matSum 0 i j (El.adds { S' with vecU := U } e'') = scatter m eq (Ke u) i j ∧
        loadSum i (El.adds { S' with vecU := U } e'') = scatterV m eq (Fe u) i
  start : e.Fresh → ∀ U, Holds (S1.nDofs + S1.nMpc) U (fun _ => 0) → ∀ S, Session S0 calls new cs S1 num S →
    update { S with vecU := U } e = .ok e
  pot : ∀ (z : ℝ) (u v : Nat → ℝ), e.Sound num u →
    HasDerivAt (fun s : ℝ => e.potential z num (fun i => u i + s * v i)) (-∑ a ∈ Finset.range m, Fe u a * v (eq a)) 0
  cont : e.Smooth → ∀ u : Nat → ℝ, e.Sound num u → ∀ a b, ContinuousAt (fun u => Ke u a b) u
  loc : ∀ u u' : Nat → ℝ, (∀ i, 0 < i → i ≤ S1.nDofs → u i = u' i) → Ke u = Ke u' ∧ Fe u = Fe u' ∧ (e.Sound num u → e.Sound num u')
  near : ∀ u : Nat → ℝ, e.Sound num u → ∀ᶠ u' in nhds u, e.Sound num u'

/-! ## Reading the solution -/

theorem solution_holds {S0 S1 S : Storage ℝ} {calls : List RegCall} {new : List (Mpc ℝ)} {cs : List Key} {num : Key → Nat}
    (h : Session S0 calls new cs S1 num S) {U : List ℝ} {u : Nat → ℝ} (hU : Holds (S1.nDofs + S1.nMpc) U u) {k : Key}
    (hk : k ∈ regKeys calls) : Post.solution { S with vecU := U } k.1 k.2.1 k.2.2 = .ok (u (num k)) ∧
      0 < num k ∧ num k ≤ S1.nDofs + S1.nMpc := by
  obtain ⟨A, M, v, hp, hn, hd⟩ := session_during h
  have hr := hp.ready.num_range hk
  rw [← hn k hk] at hr
  have he : S.eqNumber k.1 k.2.1 k.2.2 = .ok (num k) := by rw [hd.frame.eqNumber]; exact h.numbers k hk
  have he' : ({ S with vecU := U } : Storage ℝ).eqNumber k.1 k.2.1 k.2.2 = .ok (num k) := by
    rw [← he]
    obtain ⟨s, n, t⟩ := k
    cases s <;> rfl
  refine ⟨?_, by omega, by omega⟩
  unfold Post.solution
  have hl : ({ S with vecU := U } : Storage ℝ).vecU.length = S1.nDofs + S1.nMpc := hU.1
  rw [if_pos (by omega), he', Res.ok_bind, if_pos (by omega)]
  exact Res.read_eq_ok.mpr (hU.2 (num k) (by omega) (by omega))

theorem readU_map {S : Storage ℝ} (f : Nat × DofType → ℝ) : ∀ (l : List (Nat × DofType)) (acc : List ℝ),
    (∀ p ∈ l, Post.solution S .node p.1 p.2 = .ok (f p)) →
    Res.foldlM' (fun U p => do
      let x ← Post.solution S .node p.1 p.2
      .ok (U ++ [x])) acc l = .ok (acc ++ l.map f) := by
  intro l
  induction l with
  | nil => intro acc _; simp
  | cons p l ih =>
    intro acc hf
    rw [Res.foldlM'_cons, hf p (by simp)]
    simp only [Res.ok_bind]
    rw [ih _ (fun q hq => hf q (by simp [hq]))]
    simp

theorem readU_eq {S0 S1 S : Storage ℝ} {calls : List RegCall} {new : List (Mpc ℝ)} {cs : List Key} {num : Key → Nat}
    (h : Session S0 calls new cs S1 num S) {U : List ℝ} {u : Nat → ℝ} (hU : Holds (S1.nDofs + S1.nMpc) U u) {en : Nat}
    {nodes : List Nat} {dofs : List DofType} (ho : OnMixed S1 (regKeys calls) en nodes dofs) :
    readU { S with vecU := U } (nodeDofs nodes dofs) =
      .ok ((List.range (nodes.length * dofs.length)).map (fun a => u (num (localKey nodes dofs a)))) := by
  unfold readU
  have e := readU_map (S := { S with vecU := U }) (fun p => u (num (.node, p.1, p.2))) (nodeDofs nodes dofs) [] (by
    rintro ⟨n, t⟩ hp
    unfold nodeDofs at hp
    simp only [List.mem_flatMap, List.mem_map, Prod.mk.injEq] at hp
    obtain ⟨n', h1, t', h2, rfl, rfl⟩ := hp
    exact (solution_holds h hU (ho.dofsReg n' h1 t' h2)).1)
  refine e.trans ?_
  rw [List.nil_append]
  unfold nodeDofs
  rw [pairs_eq, List.map_map]
  rfl

/-! ## Local vectors -/

theorem sum_fin {n : Nat} (f : Nat → ℝ) : ∑ a : Fin n, f a.val = ∑ a ∈ Finset.range n, f a :=
  Fin.sum_univ_eq_sum_range f n

theorem ofFn_range {n : Nat} (f : Fin n → ℝ) : List.ofFn f = (List.range n).map (extV f) := by
  apply List.ext_getElem?
  intro i
  by_cases hi : i < n
  · simp [hi, extV]
  · simp [hi]

theorem hexKey (nodes : Fin 8 → Nat) (en : Nat) {b : Nat} (hb : b < 24) :
    mixedKey (List.ofFn nodes) solidDofs en b =
      (.node, nodes ⟨b / 3, by omega⟩, (![.UX, .UY, .UZ] : Fin 3 → DofType) ⟨b % 3, by omega⟩) := by
  unfold mixedKey
  rw [if_pos (by simp [solidDofs]; omega)]
  unfold localKey
  have h1 : b / 3 < 8 := by omega
  have h2 : ∀ c (hc : c < 3), (solidDofs.getD c .UNDEFINED) = (![.UX, .UY, .UZ] : Fin 3 → DofType) ⟨c, hc⟩ := by
    intro c hc
    interval_cases c <;> rfl
  rw [show solidDofs.length = 3 from rfl, h2 (b % 3) (by omega), List.getD_eq_getElem?_getD, List.getElem?_ofFn, dif_pos h1]
  rfl

theorem hexKey_last (nodes : Fin 8 → Nat) (en : Nat) :
    mixedKey (List.ofFn nodes) solidDofs en 24 = (.elem, en, .HYDRO_PRESSURE) := by
  unfold mixedKey
  rw [if_neg (by simp [solidDofs])]

theorem planeKey (nodes : Fin 4 → Nat) (en : Nat) {b : Nat} (hb : b < 8) :
    mixedKey (List.ofFn nodes) planeDofs en b =
      (.node, nodes ⟨b / 2, by omega⟩, (![.UX, .UY] : Fin 2 → DofType) ⟨b % 2, by omega⟩) := by
  unfold mixedKey
  rw [if_pos (by simp [planeDofs]; omega)]
  unfold localKey
  have h1 : b / 2 < 4 := by omega
  have h2 : ∀ c (hc : c < 2), (planeDofs.getD c .UNDEFINED) = (![.UX, .UY] : Fin 2 → DofType) ⟨c, hc⟩ := by
    intro c hc
    interval_cases c <;> rfl
  rw [show planeDofs.length = 2 from rfl, h2 (b % 2) (by omega), List.getD_eq_getElem?_getD, List.getElem?_ofFn, dif_pos h1]
  rfl

theorem planeKey_last (nodes : Fin 4 → Nat) (en : Nat) :
    mixedKey (List.ofFn nodes) planeDofs en 8 = (.elem, en, .HYDRO_PRESSURE) := by
  unfold mixedKey
  rw [if_neg (by simp [planeDofs])]

/-! ## The undeformed state -/

theorem stress_initial (E : Energy) (ij : Fin 6) : stressEntry E ![1, 0, 0, 1, 0, 1] 0 ij = 0 := by
  have h0 : ICC ![1, 0, 0, 1, 0, 1] 0 = 3 := by simp [ICC]; norm_num
  have h1 : ICC ![1, 0, 0, 1, 0, 1] 1 = 3 := by simp [ICC]; norm_num
  have h2 : ICC ![1, 0, 0, 1, 0, 1] 2 = 1 := by simp [ICC, JC]
  unfold stressEntry
  simp only [h0, h1, h2]
  fin_cases ij <;> simp [arrA, arrB, matI, invCC] <;> norm_num

theorem point_initial (E : Energy) (G : Fin 8 → Fin 3 → ℝ) : pointOf E G (fun _ _ => 0) 0 = Point.initial := by
  have h0 : grad9 G (vec24 (fun _ _ => 0)) = fun _ => 0 := by
    funext i
    fin_cases i <;> simp [grad9, vec24]
  have h1 : solidC (fun _ => 0) = ![1, 0, 0, 1, 0, 1] := by
    funext i
    fin_cases i <;> simp [solidC]
  unfold pointOf Point.initial
  simp only [h0, h1]
  congr 1
  funext ij
  exact stress_initial E ij

theorem point2_initial (E : Energy) (G : Fin 4 → Fin 2 → ℝ) : pointOf2 E G (fun _ _ => 0) 0 = Point2.initial := by
  have h0 : grad4 G (vec8 (fun _ _ => 0)) = fun _ => 0 := by
    funext i
    fin_cases i <;> simp [grad4, vec8]
  have h1 : planeC (fun _ => 0) = ![1, 1, 0] := by
    funext i
    fin_cases i <;> simp [planeC]
  have h2 : solidC (emb (fun _ => 0)) = ![1, 0, 0, 1, 0, 1] := by
    funext i
    fin_cases i <;> simp [solidC, emb]
  unfold pointOf2 Point2.initial
  simp only [h0, h1, h2]
  congr 1
  funext ij
  exact stress_initial E _

/-! ## Dependence on the unknowns -/

theorem dof_range {S0 S1 S : Storage ℝ} {calls : List RegCall} {new : List (Mpc ℝ)} {cs : List Key} {num : Key → Nat}
    (h : Session S0 calls new cs S1 num S) {k : Key} (hk : k ∈ regKeys calls) : 0 < num k ∧ num k ≤ S1.nDofs := by
  obtain ⟨A, M, v, hp, hn, _⟩ := session_during h
  rw [hn k hk]
  exact hp.ready.num_range hk

theorem hex_loc {S0 S1 S : Storage ℝ} {calls : List RegCall} {new : List (Mpc ℝ)} {cs : List Key} {num : Key → Nat}
    (h : Session S0 calls new cs S1 num S) {e : Hex} (hr : e.Ready S1 (regKeys calls)) {u u' : Nat → ℝ}
    (hu : ∀ i, 0 < i → i ≤ S1.nDofs → u i = u' i) : e.disp num u = e.disp num u' := by
  funext a c
  have hm : (Side.node, e.nodes a, (![.UX, .UY, .UZ] : Fin 3 → DofType) c) ∈ regKeys calls :=
    hr.mesh.dofsReg _ (List.mem_ofFn.mpr ⟨a, rfl⟩) _ (by fin_cases c <;> simp [solidDofs])
  exact hu _ (dof_range h hm).1 (dof_range h hm).2

theorem plane_loc {S0 S1 S : Storage ℝ} {calls : List RegCall} {new : List (Mpc ℝ)} {cs : List Key} {num : Key → Nat}
    (h : Session S0 calls new cs S1 num S) {e : Quad} (hr : e.Ready S1 (regKeys calls)) {u u' : Nat → ℝ}
    (hu : ∀ i, 0 < i → i ≤ S1.nDofs → u i = u' i) : e.disp num u = e.disp num u' := by
  funext a c
  have hm : (Side.node, e.nodes a, (![.UX, .UY] : Fin 2 → DofType) c) ∈ regKeys calls :=
    hr.mesh.dofsReg _ (List.mem_ofFn.mpr ⟨a, rfl⟩) _ (by fin_cases c <;> simp [planeDofs])
  exact hu _ (dof_range h hm).1 (dof_range h hm).2

theorem hex_det (e : Hex) (num : Key → Nat) (q : QuadPt 3) (u : Nat → ℝ) :
    ContinuousAt (fun u => (jac hexa (e.pos + e.disp num u) q.xi).det) u := by
  refine Continuous.continuousAt ?_
  refine Continuous.matrix_det ?_
  refine continuous_pi fun i => continuous_pi fun j => ?_
  unfold jac
  simp only [Pi.add_apply, Hex.disp]
  fun_prop

theorem plane_det (e : Quad) (num : Key → Nat) (q : QuadPt 2) (u : Nat → ℝ) :
    ContinuousAt (fun u => (jac quad (e.pos + e.disp num u) q.xi).det) u := by
  refine Continuous.continuousAt ?_
  refine Continuous.matrix_det ?_
  refine continuous_pi fun i => continuous_pi fun j => ?_
  unfold jac
  simp only [Pi.add_apply, Quad.disp]
  fun_prop

theorem eventually_all_mem {α β : Type} {f : Filter β} {P : β → α → Prop} {l : List α} (h : ∀ a ∈ l, ∀ᶠ b in f, P b a) :
    ∀ᶠ b in f, ∀ a ∈ l, P b a := by
  induction l with
  | nil => simp
  | cons a l ih =>
    filter_upwards [h a (by simp), ih fun x hx => h x (by simp [hx])] with b h1 h2 x hx
    rcases List.mem_cons.mp hx with rfl | hx
    · exact h1
    · exact h2 x hx

/-! ## SOLID81 -/

theorem hex_points {S1 : Storage ℝ} {regs : List Key} {e : Hex} (hr : e.Ready S1 regs) (P : QuadPt 3 → Point) :
    ((hexa.table e.g.scheme).map P).length = e.pts.length := by
  rw [List.length_map, hr.points]; rfl

theorem plane_points {S1 : Storage ℝ} {regs : List Key} {e : Quad} (hr : e.Ready S1 regs) (P : QuadPt 2 → Point2) :
    ((quad.table e.g.scheme).map P).length = e.pts.length := by
  rw [List.length_map, hr.points]; rfl

theorem hex_update {S0 S1 S : Storage ℝ} {calls : List RegCall} {new : List (Mpc ℝ)} {cs : List Key} {num : Key → Nat}
    (hS2 : Session S0 calls new cs S1 num S) {e : Hex} (hr : e.Ready S1 (regKeys calls)) {pts : List Point}
    (p1 : pts.length = e.pts.length) {U : List ℝ} {u : Nat → ℝ} (hU : Holds (S1.nDofs + S1.nMpc) U u) :
    update { S with vecU := U } (.hex { e with pts := pts }) = .ok (.hex { e with pts := (hexa.table e.g.scheme).map (fun q =>
      pointOf e.E (grads hexa e.pos q.xi) (e.disp num u) (u (num (.elem, e.en, .HYDRO_PRESSURE)))) }) := by
  obtain ⟨g', g2, _, g3⟩ := makeJacob_good hr.shape
  rw [hr.made, Res.ok.injEq] at g2
  subst g2
  have hlen : (List.ofFn e.nodes).length * solidDofs.length = 24 := by simp [solidDofs]
  have hp := (solution_holds hS2 hU hr.mesh.pressure).1
  have hpl : pts.length = nOfIntPoints hexa e.g := p1.trans hr.points
  have hu := solidUpdate_eq e.E g3 (e.disp num u) (u (num (.elem, e.en, .HYDRO_PRESSURE))) pts hpl
  unfold update
  simp only
  rw [readU_eq hS2 hU hr.mesh, Res.ok_bind, hp, Res.ok_bind]
  have hd : (fun (a : Fin 8) (c : Fin 3) => ((List.range ((List.ofFn e.nodes).length * solidDofs.length)).map
      (fun a => u (num (localKey (List.ofFn e.nodes) solidDofs a)))).getD (a.val * 3 + c.val) 0) = e.disp num u := by
    funext a c
    have ha := a.isLt
    have hc := c.isLt
    have hk := hexKey e.nodes e.en (b := a.val * 3 + c.val) (by omega)
    rw [hlen]
    unfold mixedKey at hk
    rw [if_pos (by omega)] at hk
    rw [List.getD_eq_getElem?_getD, List.getElem?_map, List.getElem?_range (by omega)]
    simp only [Option.map_some, Option.getD_some]
    rw [hk]
    unfold Hex.disp
    have i1 : (⟨(a.val * 3 + c.val) / 3, by omega⟩ : Fin 8) = a := by
      apply Fin.ext; show (a.val * 3 + c.val) / 3 = a.val; omega
    have i2 : (⟨(a.val * 3 + c.val) % 3, by omega⟩ : Fin 3) = c := by
      apply Fin.ext; show (a.val * 3 + c.val) % 3 = c.val; omega
    rw [i1, i2]
  rw [hd, hu, Res.ok_bind]

theorem hex_law {S0 S1 S : Storage ℝ} {calls : List RegCall} {new : List (Mpc ℝ)} {cs : List Key} {num : Key → Nat}
    (h : Session S0 calls new cs S1 num S) {e : Hex} (hr : e.Ready S1 (regKeys calls)) :
    ∃ Ke Fe, Law S0 calls new cs S1 num (.hex e) 25 (mixedEq num (List.ofFn e.nodes) solidDofs e.en) Ke Fe := by
  obtain ⟨g, g1, Kuu, Kup, Fu, Kpp, Fp, hstep, hsym, hder, hcont⟩ := solid_tangent hr.material e.k e.order e.pos hr.shape
  obtain ⟨g', g2, _, g3⟩ := makeJacob_good hr.shape
  rw [hr.made, Res.ok.injEq] at g1 g2
  subst g1
  subst g2
  have hlen : (List.ofFn e.nodes).length * solidDofs.length = 24 := by simp [solidDofs]
  refine ⟨fun u => bordered 24 (Dense.ext (Kuu (e.disp num u) (u (num (.elem, e.en, .HYDRO_PRESSURE)))))
      (extV (Kup (e.disp num u) (u (num (.elem, e.en, .HYDRO_PRESSURE)))))
      (Kpp (e.disp num u) (u (num (.elem, e.en, .HYDRO_PRESSURE)))),
    fun u => extended 24 (extV (Fu (e.disp num u) (u (num (.elem, e.en, .HYDRO_PRESSURE)))))
      (Fp (e.disp num u) (u (num (.elem, e.en, .HYDRO_PRESSURE)))), ?_, ?_, ?_, ?_, ?_, ?_, ?_, ?_, ?_, ?_⟩
  · intro a ha
    have hU : Holds (S1.nDofs + S1.nMpc) (List.replicate (S1.nDofs + S1.nMpc) 0) (fun _ => (0 : ℝ)) :=
      ⟨by simp, fun i h1 h2 => by rw [List.getElem?_replicate, if_pos (by omega)]⟩
    exact (solution_holds h hU (mixedKey_mem hr.mesh a).1).2
  · intro e' he' U u hU S2 hS2
    cases e' with
    | plane e' => exact he'.elim
    | hex e' =>
      obtain ⟨pts, p1, rfl⟩ := he'
      have hp := (solution_holds hS2 hU hr.mesh.pressure).1
      have hpl : pts.length = nOfIntPoints hexa e.g := p1.trans hr.points
      have hu := solidUpdate_eq e.E g3 (e.disp num u) (u (num (.elem, e.en, .HYDRO_PRESSURE))) pts hpl
      have hlp := hex_points hr (fun q => pointOf e.E (grads hexa e.pos q.xi) (e.disp num u) (u (num (.elem, e.en, .HYDRO_PRESSURE))))
      have hup := hex_update hS2 hr p1 hU
      generalize (hexa.table e.g.scheme).map (fun q => pointOf e.E (grads hexa e.pos q.xi) (e.disp num u) (u (num (.elem, e.en, .HYDRO_PRESSURE)))) = pts2 at hu hlp hup
      refine ⟨.hex { e with pts := pts2 }, ?_, ⟨pts2, hlp, rfl⟩, ?_⟩
      · exact hup
      · intro S' hS'
        have hp' := (solution_holds hS' hU hr.mesh.pressure).1
        have hs := hstep pts (e.disp num u) (u (num (.elem, e.en, .HYDRO_PRESSURE))) hpl
        unfold solidStep at hs
        rw [hu, Res.ok_bind] at hs
        obtain ⟨S'', s1, s2, s3⟩ := C80_solid hS' hr.mesh
          (Kuu := Dense.ext (Kuu (e.disp num u) (u (num (.elem, e.en, .HYDRO_PRESSURE))))) (by
            intro a b
            unfold Dense.ext
            by_cases hab : a < 24 ∧ b < 24
            · rw [dif_pos hab, dif_pos ⟨hab.2, hab.1⟩]
              exact ((hsym _ _).apply _ _)
            · rw [dif_neg hab, dif_neg (fun hh => hab ⟨hh.2, hh.1⟩)])
          (extV (Kup (e.disp num u) (u (num (.elem, e.en, .HYDRO_PRESSURE)))))
          (Kpp (e.disp num u) (u (num (.elem, e.en, .HYDRO_PRESSURE))))
          (extV (Fu (e.disp num u) (u (num (.elem, e.en, .HYDRO_PRESSURE)))))
          (Fp (e.disp num u) (u (num (.elem, e.en, .HYDRO_PRESSURE)))) (n := 24) (by simp)
        refine ⟨S'', ?_, s2, s3⟩
        unfold build
        simp only
        rw [hp', Res.ok_bind, hs, Res.ok_bind]
        simp only
        rw [ofFn_range, ofFn_range]
        exact s1
  · intro u a b
    unfold bordered
    have hs : Dense.ext (Kuu (e.disp num u) (u (num (.elem, e.en, .HYDRO_PRESSURE)))) a b =
        Dense.ext (Kuu (e.disp num u) (u (num (.elem, e.en, .HYDRO_PRESSURE)))) b a := by
      unfold Dense.ext
      by_cases hab : a < 24 ∧ b < 24
      · rw [dif_pos hab, dif_pos ⟨hab.2, hab.1⟩]
        exact ((hsym _ _).apply _ _)
      · rw [dif_neg hab, dif_neg (fun hh => hab ⟨hh.2, hh.1⟩)]
    by_cases h1 : a < 24 <;> by_cases h2 : b < 24 <;> simp [h1, h2, hs]
  · intro u v hsound a ha
    obtain ⟨d1, d2⟩ := hder (e.disp num u) (u (num (.elem, e.en, .HYDRO_PRESSURE))) (e.disp num v)
      (v (num (.elem, e.en, .HYDRO_PRESSURE))) hsound
    have hlast : mixedEq num (List.ofFn e.nodes) solidDofs e.en 24 = num (.elem, e.en, .HYDRO_PRESSURE) := by
      unfold mixedEq; rw [hexKey_last]
    have hvec : ∀ b : Fin 24, vec24 (e.disp num v) b = v (mixedEq num (List.ofFn e.nodes) solidDofs e.en b.val) := by
      intro b
      unfold mixedEq
      rw [hexKey e.nodes e.en b.isLt]
      rfl
    rw [Finset.sum_range_succ, hlast]
    by_cases h24 : a < 24
    · refine (d1 ⟨a, h24⟩).congr_of_eventuallyEq (Filter.Eventually.of_forall fun s => ?_) |>.congr_deriv ?_
      · simp only [extended, if_pos h24, extV, dif_pos h24]
        rfl
      · congr 1
        congr 1
        · rw [Matrix.mulVec, dotProduct, ← sum_fin]
          refine Finset.sum_congr rfl fun b _ => ?_
          rw [hvec]
          simp [bordered, h24, Dense.ext]
        · simp [bordered, h24, extV]
    · obtain rfl : a = 24 := by omega
      refine d2.congr_of_eventuallyEq (Filter.Eventually.of_forall fun s => ?_) |>.congr_deriv ?_
      · simp only [extended, if_neg h24]
        rfl
      · refine congrArg Neg.neg (congrArg₂ (· + ·) ?_ ?_)
        · rw [dotProduct, ← sum_fin]
          refine Finset.sum_congr rfl fun b _ => ?_
          rw [hvec]
          simp [bordered, extV]
        · simp [bordered]
  · intro e' he' U u hU S2 hS2 e'' hup S' hS'
    cases e' with
    | plane e' => exact he'.elim
    | hex e' =>
      obtain ⟨pts, p1, rfl⟩ := he'
      have hpl : pts.length = nOfIntPoints hexa e.g := p1.trans hr.points
      rw [hex_update hS2 hr p1 hU, Res.ok.injEq] at hup
      subst hup
      have hs := hstep pts (e.disp num u) (u (num (.elem, e.en, .HYDRO_PRESSURE))) hpl
      unfold solidStep at hs
      rw [solidUpdate_eq e.E g3 (e.disp num u) (u (num (.elem, e.en, .HYDRO_PRESSURE))) pts hpl, Res.ok_bind] at hs
      have hp' := (solution_holds hS' hU hr.mesh.pressure).1
      have hsy : ∀ a b, Dense.ext (Kuu (e.disp num u) (u (num (.elem, e.en, .HYDRO_PRESSURE)))) a b =
          Dense.ext (Kuu (e.disp num u) (u (num (.elem, e.en, .HYDRO_PRESSURE)))) b a := by
        intro a b
        unfold Dense.ext
        by_cases hab : a < 24 ∧ b < 24
        · rw [dif_pos hab, dif_pos ⟨hab.2, hab.1⟩]
          exact ((hsym _ _).apply _ _)
        · rw [dif_neg hab, dif_neg (fun hh => hab ⟨hh.2, hh.1⟩)]
      have hnum : ∀ a, eqAt { S' with vecU := U } (mixedKey (List.ofFn e.nodes) solidDofs e.en a) =
          mixedEq num (List.ofFn e.nodes) solidDofs e.en a := by
        intro a
        refine eqAt_num ?_
        have hk := (mixedKey_mem hr.mesh a).1
        obtain ⟨A, M, v, _, _, hd⟩ := session_during hS'
        refine Eq.trans ?_ (hS'.numbers _ hk)
        rw [← hd.frame.eqNumber]
        generalize mixedKey (List.ofFn e.nodes) solidDofs e.en a = k
        obtain ⟨s, n, t⟩ := k
        cases s <;> rfl
      have hadds : El.adds { S' with vecU := U } (.hex { e with pts := (hexa.table e.g.scheme).map (fun q =>
          pointOf e.E (grads hexa e.pos q.xi) (e.disp num u) (u (num (.elem, e.en, .HYDRO_PRESSURE)))) }) =
          adds (mixedEq num (List.ofFn e.nodes) solidDofs e.en) (bordered 24
            (Dense.ext (Kuu (e.disp num u) (u (num (.elem, e.en, .HYDRO_PRESSURE)))))
            (extV (Kup (e.disp num u) (u (num (.elem, e.en, .HYDRO_PRESSURE)))))
            (Kpp (e.disp num u) (u (num (.elem, e.en, .HYDRO_PRESSURE))))) (packed 24 ++ border 24 ++ [(24, 24)]) ++
          (List.range 25).map (fun a => .load (mixedEq num (List.ofFn e.nodes) solidDofs e.en a)
            (extended 24 (extV (Fu (e.disp num u) (u (num (.elem, e.en, .HYDRO_PRESSURE)))))
              (Fp (e.disp num u) (u (num (.elem, e.en, .HYDRO_PRESSURE)))) a)) := by
        simp only [El.adds]
        rw [hp', Res.ok_bind, hs]
        simp only [hnum]
        rw [ofFn_range, ofFn_range]
        exact hexAdds_eq _ _ _ _ _ _
      refine ⟨?_, ?_⟩
      · rw [hadds]
        have key := assemble3_eq (numbered hS' hr.mesh) (Ke := bordered 24
            (Dense.ext (Kuu (e.disp num u) (u (num (.elem, e.en, .HYDRO_PRESSURE)))))
            (extV (Kup (e.disp num u) (u (num (.elem, e.en, .HYDRO_PRESSURE)))))
            (Kpp (e.disp num u) (u (num (.elem, e.en, .HYDRO_PRESSURE)))))
            (Fe := extended 24 (extV (Fu (e.disp num u) (u (num (.elem, e.en, .HYDRO_PRESSURE)))))
              (Fp (e.disp num u) (u (num (.elem, e.en, .HYDRO_PRESSURE))))) (n := 24) (by simp [solidDofs])
        obtain ⟨c1, c2, c3, c4, c5⟩ := bordered_lists 24
            (Dense.ext (Kuu (e.disp num u) (u (num (.elem, e.en, .HYDRO_PRESSURE)))))
            (extV (Kup (e.disp num u) (u (num (.elem, e.en, .HYDRO_PRESSURE)))))
            (Kpp (e.disp num u) (u (num (.elem, e.en, .HYDRO_PRESSURE))))
            (extV (Fu (e.disp num u) (u (num (.elem, e.en, .HYDRO_PRESSURE)))))
            (Fp (e.disp num u) (u (num (.elem, e.en, .HYDRO_PRESSURE))))
        rw [← c1, ← c2, ← c3, ← c4, ← c5] at key
        unfold build
        simp only
        rw [hp', Res.ok_bind, hs, Res.ok_bind]
        simp only
        rw [ofFn_range, ofFn_range]
        exact key
      · intro i j
        rw [hadds]
        refine mixed_sums _ ?_ ?_ (solid_norm 24) i j
        · intro a ha b hb hab
          obtain ⟨A, M, v, hpp, hnn, _⟩ := session_during hS'
          unfold mixedEq at hab
          rw [hnn _ (mixedKey_mem hr.mesh a).1, hnn _ (mixedKey_mem hr.mesh b).1] at hab
          exact mixedKey_inj hr.mesh a (by omega) b (by omega)
            (hpp.ready.num_inj (mixedKey_mem hr.mesh a).1 (mixedKey_mem hr.mesh b).1 hab)
        · intro a _ b _
          unfold bordered
          by_cases h1 : a < 24 <;> by_cases h2 : b < 24 <;> simp [h1, h2, hsy a b]
  · intro hf U hU S2 hS2
    have := hex_update hS2 hr rfl hU
    rw [this]
    refine congrArg (fun p => Res.ok (El.hex { e with pts := p })) ?_
    rw [show e.pts = List.replicate (nOfIntPoints hexa e.g) Point.initial from hf]
    refine Eq.trans (List.map_congr_left fun q _ => point_initial e.E (grads hexa e.pos q.xi)) ?_
    rw [List.map_const']
    rfl
  · intro z u v hsound
    obtain ⟨g', q1, Fu', Fp', q2, q3⟩ := solid_potential hr.material e.k z e.order e.pos hr.shape
    rw [hr.made, Res.ok.injEq] at q1
    subst q1
    have hFu : Fu' = Fu ∧ Fp' = Fp := by
      have key : ∀ w p, Fu' w p = Fu w p ∧ Fp' w p = Fp w p := by
        intro w p
        obtain ⟨st, t1, t2, t3⟩ := q2 e.pts w p hr.points
        rw [hstep e.pts w p hr.points, Res.ok.injEq] at t1
        subst t1
        exact ⟨(List.ofFn_injective t2).symm, t3.symm⟩
      exact ⟨funext fun w => funext fun p => (key w p).1, funext fun w => funext fun p => (key w p).2⟩
    obtain ⟨rfl, rfl⟩ := hFu
    have d := q3 (e.disp num u) (u (num (.elem, e.en, .HYDRO_PRESSURE))) (e.disp num v)
      (v (num (.elem, e.en, .HYDRO_PRESSURE))) hsound
    have hlast : mixedEq num (List.ofFn e.nodes) solidDofs e.en 24 = num (.elem, e.en, .HYDRO_PRESSURE) := by
      unfold mixedEq; rw [hexKey_last]
    refine d.congr_of_eventuallyEq (Filter.Eventually.of_forall fun s => rfl) |>.congr_deriv ?_
    rw [Finset.sum_range_succ, hlast, dotProduct, ← sum_fin]
    rfl
  · intro hs u hsound a b
    obtain ⟨c1, c2, c3⟩ := hcont hs (x := u) (fun u => e.disp num u) (fun u => u (num (.elem, e.en, .HYDRO_PRESSURE)))
      (fun a c => (continuous_apply _).continuousAt) (continuous_apply _).continuousAt hsound
    unfold bordered
    by_cases h1 : a < 24 <;> by_cases h2 : b < 24
    · simp only [h1, h2, if_true, Dense.ext, and_self, dite_true]; exact c1 _ _
    · simp only [h1, h2, if_true, if_false, extV, dite_true]; exact c2 _
    · simp only [h1, h2, if_true, if_false, extV, dite_true]; exact c2 _
    · simp only [h1, h2, if_false]; exact c3
  · intro u u' hu
    have hd := hex_loc h hr hu
    have hp : u (num (.elem, e.en, .HYDRO_PRESSURE)) = u' (num (.elem, e.en, .HYDRO_PRESSURE)) :=
      hu _ (dof_range h hr.mesh.pressure).1 (dof_range h hr.mesh.pressure).2
    refine ⟨?_, ?_, ?_⟩
    · rw [hd, hp]
    · rw [hd, hp]
    · intro hso q hq
      rw [← hd]
      exact hso q hq
  · intro u hso
    refine (eventually_all_mem fun q hq => ?_)
    exact (hex_det e num q u).eventually_ne (hso q hq)

/-! ## PLANE41 -/

theorem plane_update {S0 S1 S : Storage ℝ} {calls : List RegCall} {new : List (Mpc ℝ)} {cs : List Key} {num : Key → Nat}
    (hS2 : Session S0 calls new cs S1 num S) {e : Quad} (hr : e.Ready S1 (regKeys calls)) {pts : List Point2}
    (p1 : pts.length = e.pts.length) {U : List ℝ} {u : Nat → ℝ} (hU : Holds (S1.nDofs + S1.nMpc) U u) :
    update { S with vecU := U } (.plane { e with pts := pts }) = .ok (.plane { e with pts := (quad.table e.g.scheme).map (fun q =>
      pointOf2 e.E (grads quad e.pos q.xi) (e.disp num u) (u (num (.elem, e.en, .HYDRO_PRESSURE)))) }) := by
  obtain ⟨g', g2, _, g3⟩ := makeJacob_good hr.shape
  rw [hr.made, Res.ok.injEq] at g2
  subst g2
  have hlen : (List.ofFn e.nodes).length * planeDofs.length = 8 := by simp [planeDofs]
  have hp := (solution_holds hS2 hU hr.mesh.pressure).1
  have hpl : pts.length = nOfIntPoints quad e.g := p1.trans hr.points
  have hu := planeUpdate_eq e.E g3 (e.disp num u) (u (num (.elem, e.en, .HYDRO_PRESSURE))) pts hpl
  unfold update
  simp only
  rw [readU_eq hS2 hU hr.mesh, Res.ok_bind, hp, Res.ok_bind]
  have hd : (fun (a : Fin 4) (c : Fin 2) => ((List.range ((List.ofFn e.nodes).length * planeDofs.length)).map
      (fun a => u (num (localKey (List.ofFn e.nodes) planeDofs a)))).getD (a.val * 2 + c.val) 0) = e.disp num u := by
    funext a c
    have ha := a.isLt
    have hc := c.isLt
    have hk := planeKey e.nodes e.en (b := a.val * 2 + c.val) (by omega)
    rw [hlen]
    unfold mixedKey at hk
    rw [if_pos (by omega)] at hk
    rw [List.getD_eq_getElem?_getD, List.getElem?_map, List.getElem?_range (by omega)]
    simp only [Option.map_some, Option.getD_some]
    rw [hk]
    unfold Quad.disp
    have i1 : (⟨(a.val * 2 + c.val) / 2, by omega⟩ : Fin 4) = a := by
      apply Fin.ext; show (a.val * 2 + c.val) / 2 = a.val; omega
    have i2 : (⟨(a.val * 2 + c.val) % 2, by omega⟩ : Fin 2) = c := by
      apply Fin.ext; show (a.val * 2 + c.val) % 2 = c.val; omega
    rw [i1, i2]
  rw [hd, hu, Res.ok_bind]

theorem plane_law {S0 S1 S : Storage ℝ} {calls : List RegCall} {new : List (Mpc ℝ)} {cs : List Key} {num : Key → Nat}
    (h : Session S0 calls new cs S1 num S) {e : Quad} (hr : e.Ready S1 (regKeys calls)) :
    ∃ Ke Fe, Law S0 calls new cs S1 num (.plane e) 9 (mixedEq num (List.ofFn e.nodes) planeDofs e.en) Ke Fe := by
  obtain ⟨g, g1, Ke, Fe, hstep, hsym, hder, hcont⟩ := plane_tangent hr.material e.k e.order e.pos hr.shape
  obtain ⟨g', g2, _, g3⟩ := makeJacob_good hr.shape
  rw [hr.made, Res.ok.injEq] at g1 g2
  subst g1
  subst g2
  have hlen : (List.ofFn e.nodes).length * planeDofs.length = 8 := by simp [planeDofs]
  refine ⟨fun u => ext (Ke (e.disp num u) (u (num (.elem, e.en, .HYDRO_PRESSURE)))),
    fun u => extV (Fe (e.disp num u) (u (num (.elem, e.en, .HYDRO_PRESSURE)))), ?_, ?_, ?_, ?_, ?_, ?_, ?_, ?_, ?_, ?_⟩
  · intro a ha
    have hU : Holds (S1.nDofs + S1.nMpc) (List.replicate (S1.nDofs + S1.nMpc) 0) (fun _ => (0 : ℝ)) :=
      ⟨by simp, fun i h1 h2 => by rw [List.getElem?_replicate, if_pos (by omega)]⟩
    exact (solution_holds h hU (mixedKey_mem hr.mesh a).1).2
  · intro e' he' U u hU S2 hS2
    cases e' with
    | hex e' => exact he'.elim
    | plane e' =>
      obtain ⟨pts, p1, rfl⟩ := he'
      have hp := (solution_holds hS2 hU hr.mesh.pressure).1
      have hpl : pts.length = nOfIntPoints quad e.g := p1.trans hr.points
      have hu := planeUpdate_eq e.E g3 (e.disp num u) (u (num (.elem, e.en, .HYDRO_PRESSURE))) pts hpl
      have hlp := plane_points hr (fun q => pointOf2 e.E (grads quad e.pos q.xi) (e.disp num u) (u (num (.elem, e.en, .HYDRO_PRESSURE))))
      have hup := plane_update hS2 hr p1 hU
      generalize (quad.table e.g.scheme).map (fun q => pointOf2 e.E (grads quad e.pos q.xi) (e.disp num u) (u (num (.elem, e.en, .HYDRO_PRESSURE)))) = pts2 at hu hlp hup
      refine ⟨.plane { e with pts := pts2 }, ?_, ⟨pts2, hlp, rfl⟩, ?_⟩
      · exact hup
      · intro S' hS'
        have hp' := (solution_holds hS' hU hr.mesh.pressure).1
        have hs := hstep pts (e.disp num u) (u (num (.elem, e.en, .HYDRO_PRESSURE))) hpl
        unfold Hyper.planeStep at hs
        rw [hu, Res.ok_bind] at hs
        obtain ⟨S'', s1, s2, s3⟩ := C80_plane hS' hr.mesh (by simp)
          (Ke := Ke (e.disp num u) (u (num (.elem, e.en, .HYDRO_PRESSURE)))) (fun a b => ((hsym _ _).apply _ _))
          (Fe (e.disp num u) (u (num (.elem, e.en, .HYDRO_PRESSURE))))
        refine ⟨S'', ?_, s2, s3⟩
        unfold build
        simp only
        rw [hp', Res.ok_bind, hs, Res.ok_bind]
        exact s1
  · intro u a b
    unfold ext
    by_cases hab : a < 9 ∧ b < 9
    · rw [dif_pos hab, dif_pos ⟨hab.2, hab.1⟩]
      exact ((hsym _ _).apply _ _)
    · rw [dif_neg hab, dif_neg (fun hh => hab ⟨hh.2, hh.1⟩)]
  · intro u v hsound a ha
    have d := hder (e.disp num u) (u (num (.elem, e.en, .HYDRO_PRESSURE))) (e.disp num v)
      (v (num (.elem, e.en, .HYDRO_PRESSURE))) hsound ⟨a, ha⟩
    have hvec : ∀ b : Fin 9, vec9 (e.disp num v) (v (num (.elem, e.en, .HYDRO_PRESSURE))) b =
        v (mixedEq num (List.ofFn e.nodes) planeDofs e.en b.val) := by
      intro b
      unfold mixedEq vec9
      by_cases hb : b.val < 8
      · rw [dif_pos hb, planeKey e.nodes e.en hb]
        rfl
      · rw [dif_neg hb, show b.val = 8 by have := b.isLt; omega, planeKey_last]
    refine d.congr_of_eventuallyEq (Filter.Eventually.of_forall fun s => ?_) |>.congr_deriv ?_
    · simp only [extV, dif_pos ha]
      rfl
    · congr 1
      rw [Matrix.mulVec, dotProduct, ← sum_fin]
      refine Finset.sum_congr rfl fun b _ => ?_
      rw [hvec]
      simp [ext, ha]
  · intro e' he' U u hU S2 hS2 e'' hup S' hS'
    cases e' with
    | hex e' => exact he'.elim
    | plane e' =>
      obtain ⟨pts, p1, rfl⟩ := he'
      have hpl : pts.length = nOfIntPoints quad e.g := p1.trans hr.points
      rw [plane_update hS2 hr p1 hU, Res.ok.injEq] at hup
      subst hup
      have hs := hstep pts (e.disp num u) (u (num (.elem, e.en, .HYDRO_PRESSURE))) hpl
      unfold Hyper.planeStep at hs
      rw [planeUpdate_eq e.E g3 (e.disp num u) (u (num (.elem, e.en, .HYDRO_PRESSURE))) pts hpl, Res.ok_bind] at hs
      have hp' := (solution_holds hS' hU hr.mesh.pressure).1
      have hnum : ∀ a, eqAt { S' with vecU := U } (mixedKey (List.ofFn e.nodes) planeDofs e.en a) =
          mixedEq num (List.ofFn e.nodes) planeDofs e.en a := by
        intro a
        refine eqAt_num ?_
        have hk := (mixedKey_mem hr.mesh a).1
        obtain ⟨A, M, v, _, _, hd⟩ := session_during hS'
        refine Eq.trans ?_ (hS'.numbers _ hk)
        rw [← hd.frame.eqNumber]
        generalize mixedKey (List.ofFn e.nodes) planeDofs e.en a = k
        obtain ⟨s, n, t⟩ := k
        cases s <;> rfl
      have hadds : El.adds { S' with vecU := U } (.plane { e with pts := (quad.table e.g.scheme).map (fun q =>
          pointOf2 e.E (grads quad e.pos q.xi) (e.disp num u) (u (num (.elem, e.en, .HYDRO_PRESSURE)))) }) =
          adds (mixedEq num (List.ofFn e.nodes) planeDofs e.en)
            (ext (Ke (e.disp num u) (u (num (.elem, e.en, .HYDRO_PRESSURE))))) (planePairs ++ border 8 ++ [(8, 8)]) ++
          (List.range 9).map (fun a => .load (mixedEq num (List.ofFn e.nodes) planeDofs e.en a)
            (extV (Fe (e.disp num u) (u (num (.elem, e.en, .HYDRO_PRESSURE)))) a)) := by
        simp only [El.adds]
        rw [hp', Res.ok_bind, hs]
        simp only [hnum]
        rfl
      refine ⟨?_, ?_⟩
      · rw [hadds]
        unfold build
        simp only
        rw [hp', Res.ok_bind, hs, Res.ok_bind]
        exact assemble41_eq (numbered hS' hr.mesh) (by simp) _ _
      · intro i j
        rw [hadds]
        refine mixed_sums _ ?_ ?_ plane_perm i j
        · intro a ha b hb hab
          obtain ⟨A, M, v, hpp, hnn, _⟩ := session_during hS'
          unfold mixedEq at hab
          rw [hnn _ (mixedKey_mem hr.mesh a).1, hnn _ (mixedKey_mem hr.mesh b).1] at hab
          exact mixedKey_inj hr.mesh a (by omega) b (by omega)
            (hpp.ready.num_inj (mixedKey_mem hr.mesh a).1 (mixedKey_mem hr.mesh b).1 hab)
        · intro a ha b hb
          unfold ext
          rw [dif_pos ⟨ha, hb⟩, dif_pos ⟨hb, ha⟩]
          exact ((hsym _ _).apply _ _)
  · intro hf U hU S2 hS2
    have := plane_update hS2 hr rfl hU
    rw [this]
    refine congrArg (fun p => Res.ok (El.plane { e with pts := p })) ?_
    rw [show e.pts = List.replicate (nOfIntPoints quad e.g) Point2.initial from hf]
    refine Eq.trans (List.map_congr_left fun q _ => point2_initial e.E (grads quad e.pos q.xi)) ?_
    rw [List.map_const']
    rfl
  · intro z u v hsound
    obtain ⟨g', q1, Ke', Fe', q2, q3⟩ := plane_potential hr.material e.k z e.order e.pos hr.shape
    rw [hr.made, Res.ok.injEq] at q1
    subst q1
    have hFe : Fe' = Fe := by
      funext w p
      have t := q2 e.pts w p hr.points
      rw [hstep e.pts w p hr.points, Res.ok.injEq, Prod.mk.injEq] at t
      exact t.2.symm
    subst hFe
    have d := q3 (e.disp num u) (u (num (.elem, e.en, .HYDRO_PRESSURE))) (e.disp num v)
      (v (num (.elem, e.en, .HYDRO_PRESSURE))) hsound
    refine d.congr_of_eventuallyEq (Filter.Eventually.of_forall fun s => rfl) |>.congr_deriv ?_
    rw [dotProduct, ← sum_fin]
    rfl
  · intro hs u hsound a b
    have c := hcont hs (x := u) (fun u => e.disp num u) (fun u => u (num (.elem, e.en, .HYDRO_PRESSURE)))
      (fun a c => (continuous_apply _).continuousAt) (continuous_apply _).continuousAt hsound
    unfold ext
    by_cases hab : a < 9 ∧ b < 9
    · simp only [dif_pos hab]; exact c _ _
    · simp only [dif_neg hab]; exact continuousAt_const
  · intro u u' hu
    have hd := plane_loc h hr hu
    have hp : u (num (.elem, e.en, .HYDRO_PRESSURE)) = u' (num (.elem, e.en, .HYDRO_PRESSURE)) :=
      hu _ (dof_range h hr.mesh.pressure).1 (dof_range h hr.mesh.pressure).2
    refine ⟨?_, ?_, ?_⟩
    · rw [hd, hp]
    · rw [hd, hp]
    · intro hso q hq
      rw [← hd]
      exact hso q hq
  · intro u hso
    refine (eventually_all_mem fun q hq => ?_)
    exact (plane_det e num q u).eventually_ne (hso q hq)

end

end Nla3d.Newton
