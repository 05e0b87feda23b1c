import Verif.Trans.Scheme
import Verif.Struct.Heat

/-!
# C102: heat in a transient solution

Plane bodies of quadrilaterals (QUADTH) with conductivity, heat capacity and sources, and lines with flux and convection
(SurfaceLINETH).
-/

noncomputable section

namespace Nla3d.Trans

open Nla3d.Dof Nla3d.Block Nla3d.Sparse Nla3d.Storage Nla3d.Solver Nla3d.Struct Finset
open scoped Matrix

/-! ## Specification -/

/-- A quadrilateral with nodes, integration order, density and specific heat. -/
structure Body where
  n : Fin 4 → Nat
  o : Nat
  rho : ℝ
  c : ℝ

/-- What is handed over is what `buildC` computes. -/
def Body.Built (geo : Nat → Fin 3 → ℝ) (b : Body) (x : LinEl ℝ) : Prop :=
  x.nodes = List.ofFn b.n ∧ x.dofs = [.TEMP] ∧ ∃ g, Iso.makeJacob Iso.quad b.o (plane geo b.n) = .ok g ∧
    Thermal.quadC g b.rho b.c = .ok ((packed 4).map fun p => x.Ke p.1 p.2)

/-- Sound geometry; density and specific heat not negative. -/
def Body.Sound (geo : Nat → Fin 3 → ℝ) (b : Body) : Prop :=
  (∀ q ∈ Iso.quad.table (Iso.schemeIndex b.o), 0 < (Iso.jac Iso.quad (plane geo b.n) q.xi).det) ∧ 0 ≤ b.rho ∧ 0 ≤ b.c

/-- The integral over the body of density times specific heat times `f(T)`, by the quadrature of the element. -/
def Body.integral (geo : Nat → Fin 3 → ℝ) (b : Body) (f : ℝ → ℝ) (T : Key → ℝ) : ℝ :=
  ((Iso.quad.table (Iso.schemeIndex b.o)).map fun q => q.w * (Iso.jac Iso.quad (plane geo b.n) q.xi).det *
    (b.rho * b.c * f (∑ a, Iso.quad.formFunc q.xi a * temp T (b.n a)))).sum

/-- The heat of all bodies at the temperatures `T`. -/
def heat (geo : Nat → Fin 3 → ℝ) (bs : List Body) (T : Key → ℝ) : ℝ := (bs.map fun b => b.integral geo id T).sum

/-- The integral of density times specific heat times the square of the temperature. -/
def square (geo : Nat → Fin 3 → ℝ) (bs : List Body) (T : Key → ℝ) : ℝ := (bs.map fun b => b.integral geo (· ^ 2) T).sum

/-- The heat supplied per time at the temperatures `T`: loads at nodes, sources and surfaces. -/
def Supply (geo : Nat → Fin 3 → ℝ) (loads : List (Bc ℝ)) (hs : List HeatElem) (T : Key → ℝ) (Q : ℝ) : Prop :=
  ∃ G, List.Forall₂ (fun h g => h.Gain geo T g) hs G ∧ Q = (loads.map Bc.value).sum + G.sum

/-- No convection: what the element supplies does not depend on the temperature. -/
def NoFilm : HeatElem → Prop
  | .quad _ _ _ _ => True
  | .line _ _ s => s.pre.htc = 0

/-! ## Capacities -/

/-- The bilinear form of an element matrix. -/
def capWork (x : LinEl ℝ) (δ V : Key → ℝ) : ℝ := LinEl.work { x with Fe := none } δ V

theorem capOn_eq (x : LinEl ℝ) (V : Key → ℝ) (k : Key) : capOn x V k = LinEl.forceOn { x with Fe := none } V k := by
  unfold capOn LinEl.forceOn LinEl.force LinEl.load
  simp only [sub_zero]

theorem sum_capOn {x : LinEl ℝ} {regs : List Key} (h : ∀ a < x.n, localKey x.nodes x.dofs a ∈ regs) (δ V : Key → ℝ) :
    ∑ k ∈ regs.toFinset, δ k * capOn x V k = capWork x δ V := by
  simp only [capOn_eq]
  exact work_forceOn (x := { x with Fe := none }) h δ V

/-- The capacity matrix. -/
def capMat (geo : Nat → Fin 3 → ℝ) (b : Body) : Matrix (Fin 4) (Fin 4) ℝ :=
  ((Iso.quad.table (Iso.schemeIndex b.o)).map (Thermal.capPt (plane geo b.n) b.rho b.c)).sum

theorem capMat_symm (geo : Nat → Fin 3 → ℝ) (b : Body) : (capMat geo b).IsSymm := by
  apply Thermal.sum_induct (fun K : Matrix (Fin 4) (Fin 4) ℝ => K.IsSymm)
  · exact Matrix.isSymm_zero
  · intro a b ha hb; exact ha.add hb
  · intro q _
    ext a b
    simp only [Matrix.transpose_apply, Thermal.capPt, Matrix.of_apply]
    ring

theorem Body.Built.scalar {geo : Nat → Fin 3 → ℝ} {b : Body} {x : LinEl ℝ} (hb : b.Built geo x) (hok : b.Sound geo)
    (hs : ∀ i < x.n, ∀ j < x.n, x.Ke i j = x.Ke j i) : Scalar { x with Fe := none } b.n (capMat geo b) 0 := by
  obtain ⟨h1, h2, g, h3, h4⟩ := hb
  obtain ⟨g', e1, e2, e3⟩ := Iso.makeJacob_good (S := Iso.quad) (o := b.o) (pos := plane geo b.n) (fun q hq => (hok.1 q hq).ne')
  rw [h3, Res.ok.injEq] at e1
  subst e1
  have e4 := Thermal.quadC_eq e3 b.rho b.c
  rw [h4, e2, Res.ok.injEq] at e4
  have hn : x.n = 4 := by unfold LinEl.n; rw [h1, h2]; rfl
  exact ⟨h1, h2, fun i j => matrix_of_pack (x := { x with Fe := none }) hn hs (capMat_symm geo b) e4.symm i j, fun _ => rfl⟩

theorem capMat_form (geo : Nat → Fin 3 → ℝ) (b : Body) (u v : Fin 4 → ℝ) : u ⬝ᵥ (capMat geo b *ᵥ v) =
    ((Iso.quad.table (Iso.schemeIndex b.o)).map fun q => q.w * (Iso.jac Iso.quad (plane geo b.n) q.xi).det *
      (b.rho * b.c * ((∑ a, Iso.quad.formFunc q.xi a * u a) * ∑ a, Iso.quad.formFunc q.xi a * v a))).sum := by
  unfold capMat
  generalize Iso.quad.table (Iso.schemeIndex b.o) = qs
  induction qs with
  | nil => simp
  | cons q qs ih =>
    simp only [List.map_cons, List.sum_cons, Matrix.add_mulVec, dotProduct_add]
    rw [ih]
    congr 1
    simp only [dotProduct, Matrix.mulVec, Thermal.capPt, Matrix.of_apply, Thermal.wdet, Finset.mul_sum, Finset.sum_mul]
    rw [Finset.sum_comm]
    refine Finset.sum_congr rfl fun i _ => Finset.sum_congr rfl fun j _ => ?_
    ring

theorem Body.Built.work {geo : Nat → Fin 3 → ℝ} {b : Body} {x : LinEl ℝ} (hb : b.Built geo x) (hok : b.Sound geo)
    (hs : ∀ i < x.n, ∀ j < x.n, x.Ke i j = x.Ke j i) (δ V : Key → ℝ) :
    capWork x δ V = ((Iso.quad.table (Iso.schemeIndex b.o)).map fun q => q.w * (Iso.jac Iso.quad (plane geo b.n) q.xi).det *
      (b.rho * b.c * ((∑ a, Iso.quad.formFunc q.xi a * temp δ (b.n a)) * ∑ a, Iso.quad.formFunc q.xi a * temp V (b.n a)))).sum := by
  unfold capWork
  rw [(hb.scalar hok hs).work, sub_zero, capMat_form]

theorem integral_add (geo : Nat → Fin 3 → ℝ) (b : Body) (u v : Key → ℝ) :
    b.integral geo id (fun k => u k + v k) = b.integral geo id u + b.integral geo id v := by
  unfold Body.integral
  rw [← List.sum_map_add]
  refine congrArg List.sum (List.map_congr_left fun q _ => ?_)
  simp only [id, temp, mul_add, Finset.sum_add_distrib]

theorem integral_smul (geo : Nat → Fin 3 → ℝ) (b : Body) (c : ℝ) (u : Key → ℝ) :
    b.integral geo id (fun k => c * u k) = c * b.integral geo id u := by
  unfold Body.integral
  rw [← List.sum_map_mul_left]
  refine congrArg List.sum (List.map_congr_left fun q _ => ?_)
  simp only [id, temp]
  have : ∑ a, Iso.quad.formFunc q.xi a * (c * u (Side.node, b.n a, DofType.TEMP)) =
      c * ∑ a, Iso.quad.formFunc q.xi a * u (Side.node, b.n a, DofType.TEMP) := by
    rw [Finset.mul_sum]
    exact Finset.sum_congr rfl fun a _ => by ring
  rw [this]
  ring

theorem heat_add (geo : Nat → Fin 3 → ℝ) (bs : List Body) (u v : Key → ℝ) :
    heat geo bs (fun k => u k + v k) = heat geo bs u + heat geo bs v := by
  unfold heat
  simp only [integral_add]
  exact List.sum_map_add

theorem heat_smul (geo : Nat → Fin 3 → ℝ) (bs : List Body) (c : ℝ) (u : Key → ℝ) : heat geo bs (fun k => c * u k) = c * heat geo bs u := by
  unfold heat
  simp only [integral_smul]
  rw [List.sum_map_mul_left]

/-- The heat of temperatures is what the capacities make of them. -/
theorem heat_caps {geo : Nat → Fin 3 → ℝ} {S0 : Storage ℝ} {calls : List RegCall} {bs : List Body} {caps : List (LinEl ℝ)}
    (hb : List.Forall₂ (fun b x => b.Built geo x) bs caps) (hok : ∀ b ∈ bs, b.Sound geo) (hc : ∀ x ∈ caps, Placed S0 calls x) (V : Key → ℝ) :
    ∑ k ∈ (regKeys calls).toFinset, (caps.map fun x => capOn x V k).sum = heat geo bs V := by
  unfold heat
  induction hb with
  | nil => simp
  | @cons b x bs xs hx _ ih =>
    simp only [List.map_cons, List.sum_cons, Finset.sum_add_distrib]
    rw [ih (fun y hy => hok y (by simp [hy])) (fun y hy => hc y (by simp [hy]))]
    congr 1
    have h1 := sum_capOn (fun a ha => localKey_reg (hc x (by simp)).on ha) (fun _ => 1) V
    simp only [one_mul] at h1
    rw [h1, hx.work (hok b (by simp)) (hc x (by simp)).symm]
    unfold Body.integral
    refine congrArg List.sum (List.map_congr_left fun q _ => ?_)
    have h2 : ∑ a, Iso.quad.formFunc q.xi a * temp (fun _ => 1) (b.n a) = 1 := by
      simp only [temp, mul_one]
      exact Iso.C34_quad.sum_one q.xi
    rw [h2, one_mul]
    rfl

theorem heat_congr {geo : Nat → Fin 3 → ℝ} {S0 : Storage ℝ} {calls : List RegCall} {bs : List Body} {caps : List (LinEl ℝ)}
    (hb : List.Forall₂ (fun b x => b.Built geo x) bs caps) (hok : ∀ b ∈ bs, b.Sound geo) (hc : ∀ x ∈ caps, Placed S0 calls x) {u v : Key → ℝ}
    (h : ∀ k ∈ regKeys calls, u k = v k) : heat geo bs u = heat geo bs v := by
  rw [← heat_caps hb hok hc, ← heat_caps hb hok hc]
  exact Finset.sum_congr rfl fun k _ => caps_congr hc h k

/-- What the elements take in all is what they do not gain. -/
theorem sum_forces {geo : Nat → Fin 3 → ℝ} {S0 : Storage ℝ} {calls : List RegCall} {hs : List HeatElem} {els : List (LinEl ℝ)}
    (hels : List.Forall₂ (fun h x => h.Built geo x) hs els) (hok : ∀ h ∈ hs, h.Sound geo) (hp : ∀ x ∈ els, Placed S0 calls x) (T : Key → ℝ) :
    ∃ G, List.Forall₂ (fun h g => h.Gain geo T g) hs G ∧
      ∑ k ∈ (regKeys calls).toFinset, (els.map fun x => x.forceOn T k).sum = -G.sum := by
  induction hels with
  | nil => exact ⟨[], .nil, by simp⟩
  | @cons a x as xs hx _ ih =>
    obtain ⟨G, g1, g2⟩ := ih (fun y hy => hok y (by simp [hy])) (fun y hy => hp y (by simp [hy]))
    obtain ⟨m, n, M, F, e1, e2, _⟩ := hx.scalar (hok a (by simp)) (hp x (by simp)).symm
    refine ⟨_ :: G, .cons (e2 T) g1, ?_⟩
    simp only [List.map_cons, List.sum_cons, Finset.sum_add_distrib]
    rw [g2]
    have h1 := work_forceOn (fun a ha => localKey_reg (hp x (by simp)).on ha) (fun _ => 1) T
    simp only [one_mul] at h1
    rw [h1, e1.work]
    have : (fun a => temp (fun _ => 1) (n a)) ⬝ᵥ (M *ᵥ (fun a => temp T (n a)) - F) = ∑ a, (M *ᵥ (fun a => temp T (n a)) - F) a := by
      simp [dotProduct, temp]
    rw [this]
    ring

theorem sum_loads {regs : List Key} : ∀ {loads : List (Bc ℝ)}, (∀ l ∈ loads, keyOf l ∈ regs) →
    ∑ k ∈ regs.toFinset, loadsOn k loads = (loads.map Bc.value).sum := by
  intro loads
  induction loads with
  | nil => intro _; simp [loadsOn]
  | cons l loads ih =>
    intro h
    have h1 : ∀ k, loadsOn k (l :: loads) = (if keyOf l = k then l.value else 0) + loadsOn k loads := by
      intro k
      unfold loadsOn
      by_cases hk : keyOf l = k
      · simp [hk]
      · simp [hk]
    simp only [h1, Finset.sum_add_distrib]
    rw [ih fun y hy => h y (by simp [hy]), Finset.sum_ite_eq, if_pos (List.mem_toFinset.mpr (h l (by simp)))]
    rfl

section
variable {E : Type} {S0 : Storage ℝ} {calls : List RegCall} {new : List (Mpc ℝ)} {loads fixs : List (Bc ℝ)}
  {els caps : List (LinEl ℝ)} {update : E → Storage ℝ → E} {eqs : EqSolver ℝ} {e : E} {st : TSettings ℝ} {fuel : Nat}
  {seen : List (Nat × ℝ × TState E ℝ)} {last : Nat} {geo : Nat → Fin 3 → ℝ} {hs : List HeatElem} {bs : List Body}

/-- The rate of the heat is the supply. -/
theorem rate_supply (hels : List.Forall₂ (fun h x => h.Built geo x) hs els) (hok : ∀ h ∈ hs, h.Sound geo)
    (hcaps : List.Forall₂ (fun b x => b.Built geo x) bs caps) (hokc : ∀ b ∈ bs, b.Sound geo)
    (hp : ∀ x ∈ els, Placed S0 calls x) (hc : ∀ x ∈ caps, Placed S0 calls x) (hload : ∀ l ∈ loads, keyOf l ∈ regKeys calls)
    {V T : Key → ℝ} (hb : RateBalance (regKeys calls) loads [] els caps V T) : Supply geo loads hs T (heat geo bs V) := by
  obtain ⟨G, g1, g2⟩ := sum_forces hels hok hp T
  refine ⟨G, g1, ?_⟩
  have h1 : ∑ k ∈ (regKeys calls).toFinset, ((caps.map fun x => capOn x V k).sum + (els.map fun x => x.forceOn T k).sum) =
      ∑ k ∈ (regKeys calls).toFinset, loadsOn k loads :=
    Finset.sum_congr rfl fun k hk => hb k (List.mem_toFinset.mp hk) (by simp [fixKeys])
  rw [Finset.sum_add_distrib, heat_caps hcaps hokc hc, g2, sum_loads hload] at h1
  linarith

/-- **C102, balance of heat.** Without prescribed temperatures, after every step the rate of the heat of the body is the heat
supplied by loads, sources and surfaces at the reported temperatures. -/
theorem C102_rate (hM : TransientModel S0 calls new loads [] els caps st fuel) (he : Exact eqs)
    (hels : List.Forall₂ (fun h x => h.Built geo x) hs els) (hok : ∀ h ∈ hs, h.Sound geo)
    (hcaps : List.Forall₂ (fun b x => b.Built geo x) bs caps) (hokc : ∀ b ∈ bs, b.Sound geo)
    (h : transientSolve eqs (evolving els caps update) loads [] st calls new S0 e fuel = some (.ok (seen, last))) :
    ∃ T V A : Nat → Key → ℝ, Traced (regKeys calls) [] st seen T V A ∧ (AllClear (regKeys calls) [] st T V A →
      ∀ i < st.n, Supply geo loads hs (T (i + 1)) (heat geo bs (V (i + 1)))) := by
  obtain ⟨T, V, A, h1, h2⟩ := C102_history hM he h
  exact ⟨T, V, A, h1, fun hc i hi => rate_supply hels hok hcaps hokc hM.placed hM.placedCaps hM.loads (h2 i hi (hc i hi))⟩

/-- Without convection the supply does not depend on the temperature. -/
theorem supply_const (hs' : ∀ h ∈ hs, NoFilm h) {T T' : Key → ℝ} {Q Q' : ℝ} (h : Supply geo loads hs T Q) (h' : Supply geo loads hs T' Q') :
    Q = Q' := by
  obtain ⟨G, g1, rfl⟩ := h
  obtain ⟨G', g1', rfl⟩ := h'
  congr 1
  induction g1 generalizing G' with
  | nil => cases g1'; rfl
  | @cons a g as G ha _ ih =>
    cases g1' with
    | @cons _ g' _ G' ha' hG' =>
      rw [List.sum_cons, List.sum_cons, ih (fun y hy => hs' y (by simp [hy])) G' hG']
      congr 1
      have hn := hs' a (by simp)
      cases a with
      | quad n o k s =>
        obtain ⟨g1, V1, a1, a2, rfl⟩ := ha
        obtain ⟨g2, V2, b1, b2, rfl⟩ := ha'
        rw [a1, Res.ok.injEq] at b1
        subst b1
        rw [a2, Res.ok.injEq] at b2
        rw [b2]
      | line n o s =>
        have hn : s.pre.htc = 0 := hn
        unfold HeatElem.Gain at ha ha'
        rw [ha, ha', hn]
        simp only [zero_mul]

/-- The heat after `i` steps of length `dt` with the supply `Q`. -/
theorem heat_steps {n : Nat} {init alpha dt Q : ℝ} {H W B : Nat → ℝ} (hdt : dt ≠ 0) (h0 : W 0 = 0) (h0' : B 0 = 0)
    (hu : ∀ i < n, H (i + 1) = H i + dt * W i + dt * dt * ((1 / 2 - alpha) * B i + alpha * B (i + 1)))
    (hv : ∀ i < n, W (i + 1) = W i + dt * ((1 - 1 / 2) * B i + 1 / 2 * B (i + 1))) (hQ : ∀ i < n, W (i + 1) = Q) :
    ∀ i < n, H (i + 1) = H 0 + dt * Q * (if Even (i + 1) then (i + 1 : ℝ) - 2 * alpha else (i + 1 : ℝ) - 1 + 2 * alpha) ∧
      B (i + 1) = (if Even (i + 1) then -1 else 1) * (2 * Q / dt) := by
  intro i
  induction i with
  | zero =>
    intro hi
    have h1 := hv 0 hi
    have h2 := hu 0 hi
    rw [hQ 0 hi, h0, h0'] at h1
    rw [h0, h0'] at h2
    have hB : B 1 = 2 * Q / dt := by
      rw [eq_div_iff hdt]
      linarith
    rw [h2]
    simp only [zero_add] at *
    rw [hB, if_neg (by decide), if_neg (by decide)]
    constructor
    · push_cast
      field_simp
      ring
    · ring
  | succ i ih =>
    intro hi
    obtain ⟨i1, i2⟩ := ih (by omega)
    have h1 := hv (i + 1) hi
    have h2 := hu (i + 1) hi
    rw [hQ (i + 1) hi, hQ i (by omega)] at h1
    rw [hQ i (by omega)] at h2
    have hB : B (i + 1 + 1) = -B (i + 1) := by
      have : dt * (B (i + 1) + B (i + 1 + 1)) = 0 := by linarith
      rcases mul_eq_zero.mp this with h | h
      · exact absurd h hdt
      · linarith
    rw [h2, hB, i1, i2]
    by_cases hev : Even (i + 1)
    · rw [if_pos hev, if_pos hev, if_neg (by rw [Nat.even_add_one]; exact not_not_intro hev),
        if_neg (by rw [Nat.even_add_one]; exact not_not_intro hev)]
      constructor
      · push_cast
        field_simp
        ring
      · ring
    · rw [if_neg hev, if_neg hev, if_pos (Nat.even_add_one.mpr hev), if_pos (Nat.even_add_one.mpr hev)]
      constructor
      · push_cast
        field_simp
        ring
      · ring

theorem History.heat_law (hcaps : List.Forall₂ (fun b x => b.Built geo x) bs caps) (hokc : ∀ b ∈ bs, b.Sound geo)
    (hc : ∀ x ∈ caps, Placed S0 calls x) {n : Nat} {init alpha dt : ℝ} {T V A : Nat → Key → ℝ}
    (h : History (regKeys calls) fixs n init alpha (1 / 2) dt T V A) :
    heat geo bs (V 0) = 0 ∧ heat geo bs (A 0) = 0 ∧
    (∀ i < n, heat geo bs (T (i + 1)) = heat geo bs (T i) + dt * heat geo bs (V i) +
      dt * dt * ((1 / 2 - alpha) * heat geo bs (A i) + alpha * heat geo bs (A (i + 1)))) ∧
    ∀ i < n, heat geo bs (V (i + 1)) = heat geo bs (V i) + dt * ((1 - 1 / 2) * heat geo bs (A i) + 1 / 2 * heat geo bs (A (i + 1))) := by
  have hz : heat geo bs (fun _ => 0) = 0 := by
    have := heat_smul geo bs 0 (fun _ => 0)
    simpa using this
  refine ⟨?_, ?_, ?_, ?_⟩
  · rw [heat_congr hcaps hokc hc fun k hk => (h.rest k hk).1, hz]
  · rw [heat_congr hcaps hokc hc fun k hk => (h.rest k hk).2, hz]
  · intro i hi
    rw [heat_congr hcaps hokc hc (v := fun k => (T i k + dt * V i k) + dt * dt * ((1 / 2 - alpha) * A i k + alpha * A (i + 1) k))
      fun k hk => (h.step i hi k hk).1]
    rw [heat_add geo bs (fun k => T i k + dt * V i k), heat_add, heat_smul, heat_smul, heat_add geo bs (fun k => (1 / 2 - alpha) * A i k),
      heat_smul, heat_smul]
  · intro i hi
    rw [heat_congr hcaps hokc hc (v := fun k => V i k + dt * ((1 - 1 / 2) * A i k + 1 / 2 * A (i + 1) k)) fun k hk => (h.step i hi k hk).2]
    rw [heat_add, heat_smul, heat_add, heat_smul, heat_smul]

/-- **C102, what becomes of the supplied heat.** Without prescribed temperatures and convection the supply `Q` is constant. After step
`i` the body has taken up `i - 2 alpha` steps of supply if `i` is even and `i - 1 + 2 alpha` if `i` is odd; with the default
`alpha = 1/4`: `i - 1/2` steps. -/
theorem C102_heat (hM : TransientModel S0 calls new loads [] els caps st fuel) (he : Exact eqs)
    (hels : List.Forall₂ (fun h x => h.Built geo x) hs els) (hok : ∀ h ∈ hs, h.Sound geo) (hfilm : ∀ h ∈ hs, NoFilm h)
    (hcaps : List.Forall₂ (fun b x => b.Built geo x) bs caps) (hokc : ∀ b ∈ bs, b.Sound geo)
    (h : transientSolve eqs (evolving els caps update) loads [] st calls new S0 e fuel = some (.ok (seen, last))) :
    ∃ T V A : Nat → Key → ℝ, Traced (regKeys calls) [] st seen T V A ∧ (AllClear (regKeys calls) [] st T V A →
      ∃ Q, (∀ T, Supply geo loads hs T Q) ∧ ∀ i < st.n, heat geo bs (T (i + 1)) = heat geo bs (T 0) + stepOf st * Q *
        (if Even (i + 1) then (i + 1 : ℝ) - 2 * st.alpha else (i + 1 : ℝ) - 1 + 2 * st.alpha)) := by
  obtain ⟨T, V, A, h1, h2⟩ := C102_rate hM he hels hok hcaps hokc h
  refine ⟨T, V, A, h1, fun hc => ?_⟩
  have hsup : ∀ T, ∃ Q, Supply geo loads hs T Q := fun T => by
    obtain ⟨G, g1, _⟩ := sum_forces hels hok hM.placed T
    exact ⟨_, G, g1, rfl⟩
  obtain ⟨Q, hQ⟩ := hsup fun _ => 0
  have hall : ∀ T, Supply geo loads hs T Q := fun T => by
    obtain ⟨Q', hQ'⟩ := hsup T
    rwa [supply_const hfilm hQ hQ']
  refine ⟨Q, hall, ?_⟩
  have hh := h1.history
  rw [hM.delta] at hh
  obtain ⟨l1, l2, l3, l4⟩ := hh.heat_law (geo := geo) hcaps hokc hM.placedCaps
  have hdt : stepOf st ≠ 0 := by
    have : (0 : ℝ) < st.n := by exact_mod_cast hM.steps
    exact (div_pos (by linarith [hM.time]) this).ne'
  intro i hi
  exact (heat_steps (H := fun i => heat geo bs (T i)) (W := fun i => heat geo bs (V i)) (B := fun i => heat geo bs (A i)) (init := 0)
    hdt l1 l2 l3 l4 (fun i hi => supply_const hfilm (h2 hc i hi) hQ) i hi).1

/-- **C102, conservation of heat, the part that holds**: without supply the heat of the body stays what it was at the beginning.
Missing: supply, see `C102_heat_violated`. -/
theorem C102_heat_partial (hM : TransientModel S0 calls new loads [] els caps st fuel) (he : Exact eqs)
    (hels : List.Forall₂ (fun h x => h.Built geo x) hs els) (hok : ∀ h ∈ hs, h.Sound geo) (hfilm : ∀ h ∈ hs, NoFilm h)
    (hcaps : List.Forall₂ (fun b x => b.Built geo x) bs caps) (hokc : ∀ b ∈ bs, b.Sound geo) {T0 : Key → ℝ} (hQ : Supply geo loads hs T0 0)
    (h : transientSolve eqs (evolving els caps update) loads [] st calls new S0 e fuel = some (.ok (seen, last))) :
    ∃ T V A : Nat → Key → ℝ, Traced (regKeys calls) [] st seen T V A ∧ (AllClear (regKeys calls) [] st T V A →
      ∀ i < st.n, heat geo bs (T (i + 1)) = heat geo bs (T 0)) := by
  obtain ⟨T, V, A, h1, h2⟩ := C102_heat hM he hels hok hfilm hcaps hokc h
  refine ⟨T, V, A, h1, fun hc i hi => ?_⟩
  obtain ⟨Q, q1, q2⟩ := h2 hc
  rw [q2 i hi, supply_const hfilm (q1 T0) hQ]
  ring

/-- **C102, conservation of heat is violated** by every run with the default `alpha = 1/4` and supply other than zero: half of the heat
supplied in the first step is lost for good. -/
theorem C102_heat_violated (hM : TransientModel S0 calls new loads [] els caps st fuel) (he : Exact eqs) (ha : st.alpha = 1 / 4)
    (hels : List.Forall₂ (fun h x => h.Built geo x) hs els) (hok : ∀ h ∈ hs, h.Sound geo) (hfilm : ∀ h ∈ hs, NoFilm h)
    (hcaps : List.Forall₂ (fun b x => b.Built geo x) bs caps) (hokc : ∀ b ∈ bs, b.Sound geo) {T0 : Key → ℝ} {Q : ℝ}
    (hQ : Supply geo loads hs T0 Q) (hne : Q ≠ 0)
    (h : transientSolve eqs (evolving els caps update) loads [] st calls new S0 e fuel = some (.ok (seen, last))) :
    ∃ T V A : Nat → Key → ℝ, Traced (regKeys calls) [] st seen T V A ∧ (AllClear (regKeys calls) [] st T V A →
      ∀ i < st.n, heat geo bs (T (i + 1)) = heat geo bs (T 0) + (i + 1 : ℝ) * stepOf st * Q - stepOf st * Q / 2 ∧
        heat geo bs (T (i + 1)) ≠ heat geo bs (T 0) + (i + 1 : ℝ) * stepOf st * Q) := by
  obtain ⟨T, V, A, h1, h2⟩ := C102_heat hM he hels hok hfilm hcaps hokc h
  refine ⟨T, V, A, h1, fun hc i hi => ?_⟩
  obtain ⟨Q', q1, q2⟩ := h2 hc
  have e1 : heat geo bs (T (i + 1)) = heat geo bs (T 0) + (i + 1 : ℝ) * stepOf st * Q - stepOf st * Q / 2 := by
    rw [q2 i hi, supply_const hfilm (q1 T0) hQ, ha]
    split <;> ring
  refine ⟨e1, fun e2 => ?_⟩
  have hdt : 0 < stepOf st := by
    have : (0 : ℝ) < st.n := by exact_mod_cast hM.steps
    exact div_pos (by linarith [hM.time]) this
  have e3 : stepOf st * Q = 0 := by linarith
  rcases mul_eq_zero.mp e3 with h | h
  · exact hdt.ne' h
  · exact hne h

end

end Nla3d.Trans
