import Verif.Trans.Decay
import Verif.Trans.Contraction
import Verif.Struct.Stable

/-!
# C111: long transient runs and the steady solution
-/

noncomputable section

namespace Nla3d.Trans

open Nla3d.Dof Nla3d.Block Nla3d.Sparse Nla3d.Storage Nla3d.Solver Nla3d.Struct Finset

/-! ## Specification -/

/-- The matrices work against every change of the free values. -/
def Resists (regs : List Key) (fixs : List (Bc ℝ)) (xs : List (LinEl ℝ)) : Prop :=
  ∀ D : Key → ℝ, (∀ k, k ∉ regs ∨ k ∈ fixKeys fixs → D k = 0) → (∃ k, D k ≠ 0) →
    0 < ∑ k ∈ regs.toFinset, D k * (xs.map fun x => capOn x D k).sum

/-- Values that need no change: zero at the fixed DoFs, in balance at the free ones. -/
structure SteadyZero (regs : List Key) (loads fixs : List (Bc ℝ)) (els : List (LinEl ℝ)) (T : Key → ℝ) : Prop where
  fixed : ∀ k ∈ regs, k ∈ fixKeys fixs → T k = 0
  balance : ∀ k ∈ regs, k ∉ fixKeys fixs → (els.map fun x => x.forceOn T k).sum = loadsOn k loads

variable {S0 : Storage ℝ} {calls : List RegCall} {new : List (Mpc ℝ)} {loads fixs : List (Bc ℝ)} {els caps : List (LinEl ℝ)}

/-! ## The forms on the free values -/

/-- Values of all DoFs from those of the free ones. -/
def spread (calls : List RegCall) (fixs : List (Bc ℝ)) (d : {k // k ∈ freeKeys calls fixs} → ℝ) (k : Key) : ℝ :=
  if h : k ∈ freeKeys calls fixs then d ⟨k, h⟩ else 0

theorem spread_add (u v : {k // k ∈ freeKeys calls fixs} → ℝ) : spread calls fixs (u + v) = fun k => spread calls fixs u k + spread calls fixs v k := by
  funext k
  unfold spread
  split <;> simp

theorem spread_smul (t : ℝ) (v : {k // k ∈ freeKeys calls fixs} → ℝ) : spread calls fixs (t • v) = fun k => t * spread calls fixs v k := by
  funext k
  unfold spread
  split <;> simp

def form (calls : List RegCall) (fixs : List (Bc ℝ)) (xs : List (LinEl ℝ)) :
    ({k // k ∈ freeKeys calls fixs} → ℝ) →ₗ[ℝ] ({k // k ∈ freeKeys calls fixs} → ℝ) where
  toFun d k := (xs.map fun x => capOn x (spread calls fixs d) k).sum
  map_add' u v := by
    funext k
    simp only [spread_add, caps_add, Pi.add_apply]
  map_smul' t v := by
    funext k
    simp only [spread_smul, caps_smul, RingHom.id_apply, Pi.smul_apply, smul_eq_mul]

theorem mem_free {k : Key} : k ∈ freeKeys calls fixs ↔ k ∈ regKeys calls ∧ k ∉ fixKeys fixs := by
  simp [freeKeys]

theorem spread_out {k : Key} (h : k ∉ regKeys calls ∨ k ∈ fixKeys fixs) (d : {k // k ∈ freeKeys calls fixs} → ℝ) :
    spread calls fixs d k = 0 := by
  unfold spread
  rw [dif_neg]
  rw [mem_free]
  tauto

theorem form_dot (xs : List (LinEl ℝ)) (u v : {k // k ∈ freeKeys calls fixs} → ℝ) :
    u ⬝ᵥ form calls fixs xs v =
      ∑ k ∈ (regKeys calls).toFinset, spread calls fixs u k * (xs.map fun x => capOn x (spread calls fixs v) k).sum := by
  have h1 : ∑ k ∈ (regKeys calls).toFinset, spread calls fixs u k * (xs.map fun x => capOn x (spread calls fixs v) k).sum =
      ∑ k ∈ freeKeys calls fixs, spread calls fixs u k * (xs.map fun x => capOn x (spread calls fixs v) k).sum := by
    symm
    refine Finset.sum_subset (fun k hk => List.mem_toFinset.mpr (mem_free.mp hk).1) fun k _ hk => ?_
    unfold spread
    rw [dif_neg hk, zero_mul]
  rw [h1, ← Finset.sum_coe_sort]
  unfold dotProduct
  refine Finset.sum_congr rfl fun k _ => ?_
  have : spread calls fixs u k = u k := by
    unfold spread
    rw [dif_pos k.2]
  rw [this]
  rfl

theorem capWork_symm {S : Storage ℝ} {x : LinEl ℝ} (hx : Placed S calls x) (u v : Key → ℝ) : capWork x u v = capWork x v u := by
  unfold capWork LinEl.work LinEl.force LinEl.load
  simp only [sub_zero, Finset.mul_sum]
  rw [Finset.sum_comm]
  refine Finset.sum_congr rfl fun a ha => Finset.sum_congr rfl fun b hb => ?_
  have := hx.symm a (Finset.mem_range.mp ha) b (Finset.mem_range.mp hb)
  show u (localKey x.nodes x.dofs b) * (x.Ke b a * v (localKey x.nodes x.dofs a)) = v (localKey x.nodes x.dofs a) * (x.Ke a b * u (localKey x.nodes x.dofs b))
  rw [this]
  ring

theorem form_definite {S : Storage ℝ} {xs : List (LinEl ℝ)} (hp : ∀ x ∈ xs, Placed S calls x) (hr : Resists (regKeys calls) fixs xs) :
    Definite (form calls fixs xs) := by
  refine ⟨fun u v => ?_, fun u hu => ?_⟩
  · rw [form_dot, form_dot, capForm_sum hp, capForm_sum hp]
    exact congrArg List.sum (List.map_congr_left fun x hx => capWork_symm (hp x hx) _ _)
  · rw [form_dot]
    refine hr _ (fun k hk => spread_out hk u) ?_
    obtain ⟨k, hk⟩ := Function.ne_iff.mp hu
    refine ⟨k, ?_⟩
    unfold spread
    rw [dif_pos k.2]
    exact hk

/-! ## Approach -/

/-- The values at the free DoFs. -/
def restrict (calls : List RegCall) (fixs : List (Bc ℝ)) (T : Key → ℝ) (k : {k // k ∈ freeKeys calls fixs}) : ℝ := T k

theorem spread_restrict {T : Key → ℝ} (hT : ∀ k ∈ regKeys calls, k ∈ fixKeys fixs → T k = 0) {k : Key} (hk : k ∈ regKeys calls) :
    spread calls fixs (restrict calls fixs T) k = T k := by
  by_cases hf : k ∈ fixKeys fixs
  · rw [spread_out (Or.inr hf), hT k hk hf]
  · unfold spread
    rw [dif_pos (mem_free.mpr ⟨hk, hf⟩)]
    rfl

theorem form_restrict {S : Storage ℝ} {xs : List (LinEl ℝ)} (hp : ∀ x ∈ xs, Placed S calls x) {T : Key → ℝ}
    (hT : ∀ k ∈ regKeys calls, k ∈ fixKeys fixs → T k = 0) (k : {k // k ∈ freeKeys calls fixs}) :
    form calls fixs xs (restrict calls fixs T) k = (xs.map fun x => capOn x T k).sum :=
  caps_congr hp (fun _ hk => spread_restrict hT hk) k

/-- **C111, approach.** A model without constraint equations, whose capacities and conductivities resist every change of the free values,
the default parameters, and a length of the time step. There are a bound and a factor below one such that in every run with this step and
this initial value, however long, the value reported at a free DoF after step `i + 1` is as near to the steady value as the bound times the
`i`-th power of the factor. The steady values are those for prescribed values zero, whatever values are prescribed. -/
theorem C111_approach (hp : ∀ x ∈ els, Placed { S0 with transient := true } calls x)
    (hc : ∀ x ∈ caps, Placed { S0 with transient := true } calls x) (hC : Resists (regKeys calls) fixs caps)
    (hK : Resists (regKeys calls) fixs els) {Ts : Key → ℝ} (hs : SteadyZero (regKeys calls) loads fixs els Ts) {dt : ℝ} (hdt : 0 < dt) (y0 : ℝ) :
    ∃ B ρ : ℝ, 0 ≤ B ∧ 0 ≤ ρ ∧ ρ < 1 ∧ ∀ {E : Type} {update : E → Storage ℝ → E} {eqs : EqSolver ℝ} {e : E} {st : TSettings ℝ} {fuel : Nat}
      {seen : List (Nat × ℝ × TState E ℝ)} {last : Nat}, AnyModel S0 calls new loads fixs els caps st fuel → Exact eqs → st.alpha = 1 / 4 →
      stepOf st = dt → st.initValue = y0 →
      transientSolve eqs (evolving els caps update) loads fixs st calls new S0 e fuel = some (.ok (seen, last)) →
      ∃ T V A, Blind (regKeys calls) fixs st seen T V A ∧ (AllClear (regKeys calls) fixs st T V A →
        ∀ (i : Nat) (p : Nat × ℝ × TState E ℝ), seen[i]? = some p → ∀ m d, (Side.node, m, d) ∈ regKeys calls →
          (Side.node, m, d) ∉ fixKeys fixs → ∃ v, Post.solution p.2.2.S .node m d = .ok v ∧ |v - Ts (.node, m, d)| ≤ B * ρ ^ i) := by
  obtain ⟨B, ρ, b1, r0, r1, hvan⟩ := vanish (form_definite hc hC) (form_definite hp hK) (half_pos hdt)
    (restrict calls fixs fun k => y0 - Ts k)
  refine ⟨B, ρ, b1, r0, r1, ?_⟩
  intro E update eqs e st fuel seen last hM he ha hst hy h
  obtain ⟨_, _, _, T, V, A, _, _, _, _, _, h6, h7⟩ := run_any hM he h
  refine ⟨T, V, A, h6, fun hclear i p hip m d hk hf => ?_⟩
  have hh := h6.history
  rw [ha, hM.delta, hst, hy] at hh
  have hi : i < st.n := by
    rw [← h6.steps]
    exact (List.getElem?_eq_some_iff.mp hip).1
  refine ⟨_, h6.free i p hip m d hk hf, ?_⟩
  -- the distance from the steady values, zero at the fixed DoFs
  have hz : ∀ i ≤ st.n, ∀ k ∈ regKeys calls, k ∈ fixKeys fixs → (fun k => T i k - Ts k) k = 0 := fun i hi k hk hf => by
    beta_reduce
    rw [hh.fixed i hi k hk hf, hs.fixed k hk hf, sub_zero]
  have hforce : ∀ i, ∀ k ∈ regKeys calls, k ∉ fixKeys fixs →
      (els.map fun x => capOn x (fun k => T i k - Ts k) k).sum = (els.map fun x => x.forceOn (T i) k).sum - loadsOn k loads := by
    intro i k hk hf
    rw [← hs.balance k hk hf, ← sum_map_sub]
    exact congrArg List.sum (List.map_congr_left fun x _ => (forceOn_sub x _ _ k).symm)
  have hchange : ∀ i j, ∀ k, (caps.map fun x => capOn x (fun k => (T i k - Ts k) - (T j k - Ts k)) k).sum =
      (caps.map fun x => capOn x (fun k => T i k - T j k) k).sum := by
    intro i j k
    refine congrArg List.sum (List.map_congr_left fun x _ => congrArg (fun g => capOn x g k) (funext fun k => ?_))
    ring
  have := hvan st.n (fun i => restrict calls fixs fun k => T i k - Ts k) ?_ ?_ ?_ i hi ⟨(.node, m, d), mem_free.mpr ⟨hk, hf⟩⟩
  · exact this
  · funext k
    obtain ⟨k, hkf⟩ := k
    have := mem_free.mp hkf
    show T 0 k - Ts k = y0 - Ts k
    rw [hh.initial k this.1 this.2]
  · funext k
    obtain ⟨k, hkf⟩ := k
    have hkk := mem_free.mp hkf
    have h8 := hh.first hM.placedCaps hM.steps (h7 0 hM.steps (hclear 0 hM.steps)) hkk.1 hkk.2
    unfold Implicit at h8
    have e1 := form_restrict hc (fixs := fixs) (T := fun k => (T 1 k - Ts k) - (T 0 k - Ts k)) (fun k hk hf => by
      beta_reduce
      have h1 := hz 1 hM.steps k hk hf
      have h2 := hz 0 (by omega) k hk hf
      beta_reduce at h1 h2
      rw [h1, h2, sub_zero]) ⟨k, hkf⟩
    have e2 := form_restrict hp (fixs := fixs) (T := fun k => T 1 k - Ts k) (hz 1 hM.steps) ⟨k, hkf⟩
    rw [hchange 1 0] at e1
    rw [hforce 1 k hkk.1 hkk.2] at e2
    show form calls fixs caps (restrict calls fixs fun k => (T 1 k - Ts k) - (T 0 k - Ts k)) ⟨k, hkf⟩ +
      dt / 2 * form calls fixs els (restrict calls fixs fun k => T 1 k - Ts k) ⟨k, hkf⟩ = 0
    rw [e1, e2]
    linarith
  · intro i i1 i2
    funext k
    obtain ⟨k, hkf⟩ := k
    have hkk := mem_free.mp hkf
    obtain ⟨j, rfl⟩ : ∃ j, i = j + 1 := ⟨i - 1, by omega⟩
    have h8 := hh.later hM.placedCaps i2 (h7 j (by omega) (hclear j (by omega))) (h7 (j + 1) i2 (hclear (j + 1) i2)) hkk.1 hkk.2
    unfold Trapezoid at h8
    have e1 := form_restrict hc (fixs := fixs) (T := fun k => (T (j + 1 + 1) k - Ts k) - (T (j + 1) k - Ts k)) (fun k hk hf => by
      beta_reduce
      have h1 := hz (j + 1 + 1) i2 k hk hf
      have h2 := hz (j + 1) (by omega) k hk hf
      beta_reduce at h1 h2
      rw [h1, h2, sub_zero]) ⟨k, hkf⟩
    have e2 := form_restrict hp (fixs := fixs) (T := fun k => (T (j + 1) k - Ts k) + (T (j + 1 + 1) k - Ts k)) (fun k hk hf => by
      beta_reduce
      have h1 := hz (j + 1 + 1) i2 k hk hf
      have h2 := hz (j + 1) (by omega) k hk hf
      beta_reduce at h1 h2
      rw [h1, h2, add_zero]) ⟨k, hkf⟩
    rw [hchange (j + 1 + 1) (j + 1)] at e1
    rw [caps_add, hforce (j + 1) k hkk.1 hkk.2, hforce (j + 1 + 1) k hkk.1 hkk.2] at e2
    show form calls fixs caps (restrict calls fixs fun k => (T (j + 1 + 1) k - Ts k) - (T (j + 1) k - Ts k)) ⟨k, hkf⟩ +
      dt / 2 * form calls fixs els (restrict calls fixs fun k => (T (j + 1) k - Ts k) + (T (j + 1 + 1) k - Ts k)) ⟨k, hkf⟩ = 0
    rw [e1, e2]
    linarith

/-! ## The linear solver -/

/-- The prescribed values, zero elsewhere. -/
def given (fixs : List (Bc ℝ)) (k : Key) : ℝ := (lastFix k fixs).getD 0

theorem placed_transient {x : LinEl ℝ} (h : Placed S0 calls x) : Placed { S0 with transient := true } calls x :=
  ⟨⟨h.on.1, h.on.2, h.on.3⟩, h.distinct, h.symm⟩

/-- There are steady values. -/
theorem steady_exists (hp : ∀ x ∈ els, Placed S0 calls x) (hK : Resists (regKeys calls) fixs els) (loads : List (Bc ℝ)) :
    ∃ Ts, SteadyZero (regKeys calls) loads fixs els Ts := by
  have hdef := form_definite hp hK
  have hinj : Function.Injective (form calls fixs els) := by
    rw [← LinearMap.ker_eq_bot, LinearMap.ker_eq_bot']
    intro d hd
    by_contra hne
    have := hdef.pos d hne
    rw [hd, dotProduct_zero] at this
    exact lt_irrefl _ this
  obtain ⟨d, hd⟩ := LinearMap.surjective_of_injective hinj
    fun k => loadsOn k loads - (els.map fun x => x.forceOn (fun _ => 0) k).sum
  refine ⟨spread calls fixs d, fun k _ hf => spread_out (Or.inr hf) d, fun k hk hf => ?_⟩
  have h1 : (els.map fun x => capOn x (spread calls fixs d) k).sum = loadsOn k loads - (els.map fun x => x.forceOn (fun _ => 0) k).sum :=
    congrFun hd ⟨k, mem_free.mpr ⟨hk, hf⟩⟩
  have h2 : (els.map fun x => capOn x (spread calls fixs d) k).sum = (els.map fun x => x.forceOn (spread calls fixs d) k).sum -
      (els.map fun x => x.forceOn (fun _ => 0) k).sum := by
    rw [← sum_map_sub]
    refine congrArg List.sum (List.map_congr_left fun x _ => ?_)
    rw [forceOn_sub]
    simp only [sub_zero]
  linarith

/-- What the linear solver reports for a model without constraint equations. -/
theorem linear_report {E : Type} {S' : Storage ℝ} {update : E → Storage ℝ → E} {eqs : EqSolver ℝ} {e e' : E}
    (hl : LegalModel S0 calls new (fixKeys fixs)) (hload : ∀ l ∈ loads, keyOf l ∈ regKeys calls) (hp : ∀ x ∈ els, Placed S0 calls x)
    (hm : S0.mpcs ++ new = []) (hfix : ∀ f ∈ fixs, f.value = 0 ∨ (1 / 10 ^ 20 : ℝ) < |f.value|) (he : Exact eqs)
    (h : linearSolve eqs (linear els update) loads fixs calls new S0 e = .ok (S', e')) :
    ∃ u : Key → ℝ, (∀ m d, (Side.node, m, d) ∈ regKeys calls → Post.solution S' .node m d = .ok (u (.node, m, d))) ∧
      (∀ k ∈ regKeys calls, k ∈ fixKeys fixs → u k = given fixs k) ∧
      ∀ k ∈ regKeys calls, k ∉ fixKeys fixs → (els.map fun x => x.forceOn u k).sum = loadsOn k loads := by
  obtain ⟨u, r, l, h1, h2, _, h4⟩ := C83_equilibrium hl hload hp hfix he h
  refine ⟨u, h1.solution, fun k hk hf => ?_, fun k hk hf => ?_⟩
  · obtain ⟨x, hx⟩ := Option.isSome_iff_exists.mp (lastFix_isSome.mpr hf)
    rw [h2.prescribed k hk x hx]
    simp [given, hx]
  · have := h4 k hk
    rw [h2.applied k hk hf, hm] at this
    simpa [conForce] using this

/-- **C111, prescribed values zero.** What transient runs report approaches what the linear solver reports for the same model. -/
theorem C111_linear_partial {E' : Type} {S' : Storage ℝ} {update' : E' → Storage ℝ → E'} {eqs' : EqSolver ℝ} {e1 e2 : E'}
    (hl : LegalModel S0 calls new (fixKeys fixs)) (hload : ∀ l ∈ loads, keyOf l ∈ regKeys calls) (hp : ∀ x ∈ els, Placed S0 calls x)
    (hc : ∀ x ∈ caps, Placed S0 calls x) (hm : S0.mpcs ++ new = []) (hfix : ∀ f ∈ fixs, f.value = 0) (he' : Exact eqs')
    (hlin : linearSolve eqs' (linear els update') loads fixs calls new S0 e1 = .ok (S', e2))
    (hC : Resists (regKeys calls) fixs caps) (hK : Resists (regKeys calls) fixs els) {dt : ℝ} (hdt : 0 < dt) (y0 : ℝ) :
    ∃ B ρ : ℝ, 0 ≤ B ∧ 0 ≤ ρ ∧ ρ < 1 ∧ ∀ {E : Type} {update : E → Storage ℝ → E} {eqs : EqSolver ℝ} {e : E} {st : TSettings ℝ} {fuel : Nat}
      {seen : List (Nat × ℝ × TState E ℝ)} {last : Nat}, AnyModel S0 calls new loads fixs els caps st fuel → Exact eqs → st.alpha = 1 / 4 →
      stepOf st = dt → st.initValue = y0 →
      transientSolve eqs (evolving els caps update) loads fixs st calls new S0 e fuel = some (.ok (seen, last)) →
      ∃ T V A, Traced (regKeys calls) fixs st seen T V A ∧ (AllClear (regKeys calls) fixs st T V A →
        ∀ (i : Nat) (p : Nat × ℝ × TState E ℝ), seen[i]? = some p → ∀ m d, (Side.node, m, d) ∈ regKeys calls →
          ∃ v w, Post.solution p.2.2.S .node m d = .ok v ∧ Post.solution S' .node m d = .ok w ∧ |v - w| ≤ B * ρ ^ i) := by
  obtain ⟨u, u1, u2, u3⟩ := linear_report hl hload hp hm (fun f hf => Or.inl (hfix f hf)) he' hlin
  have hz : ∀ k, given fixs k = 0 := by
    intro k
    unfold given
    cases h : lastFix k fixs with
    | none => rfl
    | some x =>
      obtain ⟨f, hf, _, hx⟩ := lastFix_mem h
      rw [Option.getD_some, ← hx, hfix f hf]
  have hs : SteadyZero (regKeys calls) loads fixs els u := ⟨fun k hk hf => by rw [u2 k hk hf, hz k], u3⟩
  obtain ⟨B, ρ, b1, r0, r1, hB⟩ := C111_approach (new := new) (fun x hx => placed_transient (hp x hx)) (fun x hx => placed_transient (hc x hx)) hC hK hs hdt y0
  refine ⟨B, ρ, b1, r0, r1, ?_⟩
  intro E update eqs e st fuel seen last hM he ha hst hy h
  obtain ⟨T, V, A, t1, t2⟩ := hB hM he ha hst hy h
  have ht := t1.traced hfix
  refine ⟨T, V, A, ht, fun hclear i p hip m d hk => ?_⟩
  by_cases hf : (Side.node, m, d) ∈ fixKeys fixs
  · have hi : i < st.n := by
      rw [← t1.steps]
      exact (List.getElem?_eq_some_iff.mp hip).1
    refine ⟨_, _, ht.reported i p hip m d hk, u1 m d hk, ?_⟩
    rw [t1.history.fixed (i + 1) (by omega) _ hk hf, u2 _ hk hf, hz, sub_self, abs_zero]
    positivity
  · obtain ⟨v, v1, v2⟩ := t2 hclear i p hip m d hk hf
    exact ⟨v, _, v1, u1 m d hk, v2⟩

/-- **C111, other prescribed values, violated.** If the elements feel the prescribed values at a free DoF, there is a free DoF at which what
long transient runs report stays away from what the linear solver reports for the same model. -/
theorem C111_linear_violated {E' : Type} {S' : Storage ℝ} {update' : E' → Storage ℝ → E'} {eqs' : EqSolver ℝ} {e1 e2 : E'}
    (hnode : ∀ k ∈ regKeys calls, k.1 = .node)
    (hl : LegalModel S0 calls new (fixKeys fixs)) (hload : ∀ l ∈ loads, keyOf l ∈ regKeys calls) (hp : ∀ x ∈ els, Placed S0 calls x)
    (hc : ∀ x ∈ caps, Placed S0 calls x) (hm : S0.mpcs ++ new = []) (hfix : ∀ f ∈ fixs, f.value = 0 ∨ (1 / 10 ^ 20 : ℝ) < |f.value|)
    (hfelt : ∃ k ∈ regKeys calls, k ∉ fixKeys fixs ∧ (els.map fun x => capOn x (given fixs) k).sum ≠ 0) (he' : Exact eqs')
    (hlin : linearSolve eqs' (linear els update') loads fixs calls new S0 e1 = .ok (S', e2))
    (hC : Resists (regKeys calls) fixs caps) (hK : Resists (regKeys calls) fixs els) {dt : ℝ} (hdt : 0 < dt) (y0 : ℝ) :
    ∃ m d, (Side.node, m, d) ∈ regKeys calls ∧ (Side.node, m, d) ∉ fixKeys fixs ∧ ∃ δ > 0, ∃ N : Nat,
      ∀ {E : Type} {update : E → Storage ℝ → E} {eqs : EqSolver ℝ} {e : E} {st : TSettings ℝ} {fuel : Nat}
      {seen : List (Nat × ℝ × TState E ℝ)} {last : Nat}, AnyModel S0 calls new loads fixs els caps st fuel → Exact eqs → st.alpha = 1 / 4 →
      stepOf st = dt → st.initValue = y0 →
      transientSolve eqs (evolving els caps update) loads fixs st calls new S0 e fuel = some (.ok (seen, last)) →
      ∃ T V A, Blind (regKeys calls) fixs st seen T V A ∧ (AllClear (regKeys calls) fixs st T V A →
        ∀ (i : Nat) (p : Nat × ℝ × TState E ℝ), N ≤ i → seen[i]? = some p →
          ∃ v w, Post.solution p.2.2.S .node m d = .ok v ∧ Post.solution S' .node m d = .ok w ∧ δ ≤ |v - w|) := by
  obtain ⟨u, u1, u2, u3⟩ := linear_report hl hload hp hm hfix he' hlin
  obtain ⟨Ts, hs⟩ := steady_exists hp hK loads
  obtain ⟨k, hk, hf, hne⟩ : ∃ k ∈ regKeys calls, k ∉ fixKeys fixs ∧ u k ≠ Ts k := by
    by_contra hcon
    push Not at hcon
    obtain ⟨k, hk, hf, hne⟩ := hfelt
    refine hne ?_
    have hdiff : ∀ j ∈ regKeys calls, given fixs j = u j - Ts j := by
      intro j hj
      by_cases hjf : j ∈ fixKeys fixs
      · rw [u2 j hj hjf, hs.fixed j hj hjf, sub_zero]
      · rw [hcon j hj hjf, sub_self]
        unfold given
        cases h : lastFix j fixs with
        | none => rfl
        | some x => exact absurd (lastFix_isSome.mp (by rw [h]; rfl)) hjf
    rw [caps_congr hp hdiff k]
    have : (els.map fun x => capOn x (fun k => u k - Ts k) k).sum = (els.map fun x => x.forceOn u k).sum - (els.map fun x => x.forceOn Ts k).sum := by
      rw [← sum_map_sub]
      exact congrArg List.sum (List.map_congr_left fun x _ => (forceOn_sub x _ _ k).symm)
    rw [this, u3 k hk hf, hs.balance k hk hf, sub_self]
  obtain ⟨s, m, d⟩ := k
  obtain rfl : s = .node := hnode _ hk
  obtain ⟨B, ρ, b1, r0, r1, hB⟩ := C111_approach (new := new) (fun x hx => placed_transient (hp x hx)) (fun x hx => placed_transient (hc x hx)) hC hK hs hdt y0
  have hpos : 0 < |u (.node, m, d) - Ts (.node, m, d)| := abs_pos.mpr (sub_ne_zero.mpr hne)
  obtain ⟨N, hN⟩ := exists_pow_lt_of_lt_one (show 0 < |u (.node, m, d) - Ts (.node, m, d)| / (2 * (B + 1)) by positivity) r1
  refine ⟨m, d, hk, hf, |u (.node, m, d) - Ts (.node, m, d)| / 2, by positivity, N, ?_⟩
  intro E update eqs e st fuel seen last hM he ha hst hy h
  obtain ⟨T, V, A, t1, t2⟩ := hB hM he ha hst hy h
  refine ⟨T, V, A, t1, fun hclear i p hi hip => ?_⟩
  obtain ⟨v, v1, v2⟩ := t2 hclear i p hip m d hk hf
  refine ⟨v, _, v1, u1 m d hk, ?_⟩
  have h5 : B * ρ ^ i ≤ |u (.node, m, d) - Ts (.node, m, d)| / 2 := by
    have h6 : ρ ^ i ≤ ρ ^ N := pow_le_pow_of_le_one r0 r1.le hi
    calc B * ρ ^ i ≤ (B + 1) * ρ ^ N := mul_le_mul (by linarith) h6 (pow_nonneg r0 i) (by linarith)
      _ ≤ (B + 1) * (|u (.node, m, d) - Ts (.node, m, d)| / (2 * (B + 1))) := mul_le_mul_of_nonneg_left hN.le (by linarith)
      _ = |u (.node, m, d) - Ts (.node, m, d)| / 2 := by field_simp
  have h7 := abs_sub_abs_le_abs_sub (u (.node, m, d) - Ts (.node, m, d)) (v - Ts (.node, m, d))
  have h8 : |u (.node, m, d) - Ts (.node, m, d) - (v - Ts (.node, m, d))| = |v - u (.node, m, d)| := by
    rw [abs_sub_comm]
    congr 1
    ring
  rw [h8] at h7
  linarith

end Nla3d.Trans
