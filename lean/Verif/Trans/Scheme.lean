import Verif.Trans.Props

/-!
# C102: which scheme the steps are
-/

namespace Nla3d.Trans

open Nla3d.Dof Nla3d.Block Nla3d.Sparse Nla3d.Storage Nla3d.Solver Nla3d.Struct Finset

variable {K : Type} [Field K] [LinearOrder K] [IsStrictOrderedRing K]

/-- The trapezoidal rule at a DoF: capacity times change of value plus half a step of what the elements take before and after is a
step of load. -/
def Trapezoid (loads : List (Bc K)) (els caps : List (LinEl K)) (dt : K) (T T' : Key → K) (k : Key) : Prop :=
  (caps.map fun x => capOn x (fun k => T' k - T k) k).sum +
    dt / 2 * ((els.map fun x => x.forceOn T k).sum + (els.map fun x => x.forceOn T' k).sum) = dt * loadsOn k loads

/-- An implicit step of length `tau` at a DoF. -/
def Implicit (loads : List (Bc K)) (els caps : List (LinEl K)) (tau : K) (T T' : Key → K) (k : Key) : Prop :=
  (caps.map fun x => capOn x (fun k => T' k - T k) k).sum + tau * (els.map fun x => x.forceOn T' k).sum = tau * loadsOn k loads

section
variable {regs : List Key} {fixs : List (Bc K)} {n : Nat} {init dt : K} {T V A : Nat → Key → K}

theorem History.mean (h : History regs fixs n init (1 / 4) (1 / 2) dt T V A) {i : Nat} (hi : i < n) {k : Key} (hk : k ∈ regs) :
    T (i + 1) k - T i k = dt / 2 * (V i k + V (i + 1) k) := by
  obtain ⟨h1, h2⟩ := h.step i hi k hk
  unfold NewmarkU at h1
  unfold newmarkV at h2
  rw [h1, h2]
  ring

theorem caps_congr {S0 : Storage K} {calls : List RegCall} {caps : List (LinEl K)} (hc : ∀ x ∈ caps, Placed S0 calls x) {u v : Key → K}
    (h : ∀ k ∈ regKeys calls, u k = v k) (k : Key) : (caps.map fun x => capOn x u k).sum = (caps.map fun x => capOn x v k).sum :=
  congrArg List.sum (List.map_congr_left fun x hx => capOn_congr (hc x hx) h k)

theorem caps_add (caps : List (LinEl K)) (u v : Key → K) (k : Key) : (caps.map fun x => capOn x (fun k => u k + v k) k).sum =
    (caps.map fun x => capOn x u k).sum + (caps.map fun x => capOn x v k).sum := by
  rw [← List.sum_map_add]
  refine congrArg List.sum (List.map_congr_left fun x _ => ?_)
  have e1 := capOn_sub x (fun k => u k + v k) v k
  simp only [add_sub_cancel_right] at e1
  rw [e1]
  ring

theorem caps_smul (caps : List (LinEl K)) (c : K) (v : Key → K) (k : Key) : (caps.map fun x => capOn x (fun k => c * v k) k).sum =
    c * (caps.map fun x => capOn x v k).sum := by
  rw [← List.sum_map_mul_left]
  exact congrArg List.sum (List.map_congr_left fun x _ => capOn_smul x c v k)

theorem caps_zero (caps : List (LinEl K)) (k : Key) : (caps.map fun x => capOn x (fun _ => (0 : K)) k).sum = 0 := by
  have := caps_smul caps 0 (fun _ => 0) k
  simpa using this

/-- Change of the values, weighted with the capacities. -/
theorem History.change {S0 : Storage K} {calls : List RegCall} {caps : List (LinEl K)} (hc : ∀ x ∈ caps, Placed S0 calls x)
    (h : History (regKeys calls) fixs n init (1 / 4) (1 / 2) dt T V A) {i : Nat} (hi : i < n) (k : Key) :
    (caps.map fun x => capOn x (fun k => T (i + 1) k - T i k) k).sum =
      dt / 2 * ((caps.map fun x => capOn x (V i) k).sum + (caps.map fun x => capOn x (V (i + 1)) k).sum) := by
  rw [← caps_add, ← caps_smul]
  exact caps_congr hc (fun k hk => h.mean hi hk) k

theorem History.first {S0 : Storage K} {calls : List RegCall} {loads : List (Bc K)} {els caps : List (LinEl K)} (hc : ∀ x ∈ caps, Placed S0 calls x)
    (h : History (regKeys calls) fixs n init (1 / 4) (1 / 2) dt T V A) (hn : 0 < n)
    (hb : RateBalance (regKeys calls) loads fixs els caps (V 1) (T 1)) {k : Key} (hk : k ∈ regKeys calls) (hf : k ∉ fixKeys fixs) :
    Implicit loads els caps (dt / 2) (T 0) (T 1) k := by
  have e1 := h.change hc hn k
  rw [caps_congr hc (fun k hk => (h.rest k hk).1) k, caps_zero, zero_add] at e1
  have e2 := hb k hk hf
  unfold Implicit
  rw [e1, ← e2]
  ring

theorem History.later {S0 : Storage K} {calls : List RegCall} {loads : List (Bc K)} {els caps : List (LinEl K)} (hc : ∀ x ∈ caps, Placed S0 calls x)
    (h : History (regKeys calls) fixs n init (1 / 4) (1 / 2) dt T V A) {i : Nat} (hi : i < n)
    (hb : RateBalance (regKeys calls) loads fixs els caps (V i) (T i))
    (hb' : RateBalance (regKeys calls) loads fixs els caps (V (i + 1)) (T (i + 1))) {k : Key} (hk : k ∈ regKeys calls) (hf : k ∉ fixKeys fixs) :
    Trapezoid loads els caps dt (T i) (T (i + 1)) k := by
  have e1 := h.change hc hi k
  have e2 := hb k hk hf
  have e3 := hb' k hk hf
  unfold Trapezoid
  rw [e1]
  have : dt * loadsOn k loads = dt / 2 * (loadsOn k loads + loadsOn k loads) := by ring
  rw [this]
  nth_rw 1 [← e2]
  rw [← e3]
  ring

end

section
variable {E : Type} {S0 : Storage K} {calls : List RegCall} {new : List (Mpc K)} {loads fixs : List (Bc K)}
  {els caps : List (LinEl K)} {update : E → Storage K → E} {eqs : EqSolver K} {e : E} {st : TSettings K} {fuel : Nat}
  {seen : List (Nat × K × TState E K)} {last : Nat}

/-- **C102, trapezoidal rule, the part that holds**: with the default `alpha = 1/4` all steps but the first are steps of the
trapezoidal rule. The first one is an implicit step of half the length. Missing: the first step, see `C102_trapezoid_violated`. -/
theorem C102_trapezoid_partial (hM : TransientModel S0 calls new loads fixs els caps st fuel) (he : Exact eqs) (ha : st.alpha = 1 / 4)
    (h : transientSolve eqs (evolving els caps update) loads fixs st calls new S0 e fuel = some (.ok (seen, last))) :
    ∃ T V A : Nat → Key → K, Traced (regKeys calls) fixs st seen T V A ∧ (AllClear (regKeys calls) fixs st T V A →
      ∀ k ∈ regKeys calls, k ∉ fixKeys fixs → Implicit loads els caps (stepOf st / 2) (T 0) (T 1) k ∧
        ∀ i, 0 < i → i < st.n → Trapezoid loads els caps (stepOf st) (T i) (T (i + 1)) k) := by
  obtain ⟨T, V, A, h1, h2⟩ := C102_history hM he h
  refine ⟨T, V, A, h1, fun hc k hk hf => ?_⟩
  have hh := h1.history
  rw [ha, hM.delta] at hh
  refine ⟨hh.first hM.placedCaps hM.steps (h2 0 hM.steps (hc 0 hM.steps)) hk hf, fun i i1 i2 => ?_⟩
  obtain ⟨j, rfl⟩ : ∃ j, i = j + 1 := ⟨i - 1, by omega⟩
  exact hh.later hM.placedCaps i2 (h2 j (by omega) (hc j (by omega))) (h2 (j + 1) i2 (hc (j + 1) i2)) hk hf

/-- **C102, the trapezoidal rule is violated by the first step** of every run, at every free DoF where the initial values are not in
balance with the load: the solver starts with rate zero there. -/
theorem C102_trapezoid_violated (hM : TransientModel S0 calls new loads fixs els caps st fuel) (he : Exact eqs) (ha : st.alpha = 1 / 4)
    (h : transientSolve eqs (evolving els caps update) loads fixs st calls new S0 e fuel = some (.ok (seen, last))) :
    ∃ T V A : Nat → Key → K, Traced (regKeys calls) fixs st seen T V A ∧ (AllClear (regKeys calls) fixs st T V A →
      ∀ k ∈ regKeys calls, k ∉ fixKeys fixs → (els.map fun x => x.forceOn (T 0) k).sum ≠ loadsOn k loads →
        ¬ Trapezoid loads els caps (stepOf st) (T 0) (T 1) k) := by
  obtain ⟨T, V, A, h1, h2⟩ := C102_trapezoid_partial hM he ha h
  refine ⟨T, V, A, h1, fun hc k hk hf hne htrap => hne ?_⟩
  have h3 := (h2 hc k hk hf).1
  unfold Implicit at h3
  unfold Trapezoid at htrap
  have hdt : 0 < stepOf st := by
    have : (0 : K) < st.n := by exact_mod_cast hM.steps
    exact div_pos (by linarith [hM.time]) this
  have h4 : stepOf st / 2 * ((els.map fun x => x.forceOn (T 0) k).sum - loadsOn k loads) = 0 := by linarith
  rcases mul_eq_zero.mp h4 with h5 | h5
  · linarith
  · exact sub_eq_zero.mp h5

end

end Nla3d.Trans
