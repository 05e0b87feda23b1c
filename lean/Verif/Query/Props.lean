import Verif.Query.Model
import Verif.Vtk.SetUp
import Verif.Tetra.Props

/-!
# C115: the results asked from the linear elements
-/

noncomputable section

namespace Nla3d.Query

open Nla3d.Labels Nla3d.Vtk Nla3d.Post Nla3d.Storage Nla3d.Tetra

/-! ## Specification -/

/-- The contract of the getters (element.h:118-125): the result times `scale` is added to the value. -/
def Adds {α : Type} [Add α] [SMul ℝ α] (get : ℝ → α → Res (Option α)) (r : α) : Prop := ∀ s x, get s x = .ok (some (x + s • r))

/-- The element does not know the query. -/
def Unknown {α : Type} (get : ℝ → α → Res (Option α)) : Prop := ∀ s x, get s x = .ok none

/-- The components XX, XY, XZ, YY, YZ, ZZ of a symmetric matrix. -/
def sym6 (M : Matrix (Fin 3) (Fin 3) ℝ) : Fin 6 → ℝ := ![M 0 0, M 0 1, M 0 2, M 1 1, M 1 2, M 2 2]

/-- Small strains of a displacement gradient. -/
def smallStrain (H : Matrix (Fin 3) (Fin 3) ℝ) : Matrix (Fin 3) (Fin 3) ℝ := (1 / 2 : ℝ) • (H + H.transpose)

/-- Right Cauchy-Green tensor of a displacement gradient. -/
def cauchyGreen (H : Matrix (Fin 3) (Fin 3) ℝ) : Matrix (Fin 3) (Fin 3) ℝ := (1 + H).transpose * (1 + H)

/-- Hooke's stress. -/
def hookeStress (lam mu : ℝ) (e : Matrix (Fin 3) (Fin 3) ℝ) : Matrix (Fin 3) (Fin 3) ℝ := (lam * e.trace) • 1 + (2 * mu) • e

/-- Which queries an element type knows. -/
def Knows (t : ElementType) (kind query : Nat) : Prop :=
  (t = .TETRA0 ∧ (kind = 0 ∧ query = 5 ∨ kind = 2 ∧ (query = 3 ∨ query = 4 ∨ query = 5))) ∨
  (t = .TETRA1 ∧ (kind = 0 ∧ query = 5 ∨ kind = 1 ∧ (query = 2 ∨ query = 3))) ∨
  (t = .INTER0 ∧ kind = 2 ∧ query = 4)

/-- The classes without getters. -/
def LEl.WellTyped : LEl → Prop
  | .plain t => t = .TRUSS3 ∨ t = .QUADTH ∨ t = .SurfaceLINETH ∨ t = .TRIANGLE4
  | _ => True

/-- Elements that can be asked for everything. -/
def LEl.Ready : LEl → Prop
  | .tetra0 _ built => built = true
  | .inter3 _ _ => False
  | _ => True

/-! ## Lemmas -/

theorem addSix_eq (T : Fin 6 → ℝ) (xx yy zz xy yz xz : ℝ) : addSix T xx yy zz xy yz xz = T + ![xx, xy, xz, yy, yz, zz] := by
  have c : Dense.comp 3 0 0 = 0 ∧ Dense.comp 3 1 1 = 3 ∧ Dense.comp 3 2 2 = 5 ∧ Dense.comp 3 0 1 = 1 ∧ Dense.comp 3 1 2 = 4 ∧
      Dense.comp 3 0 2 = 2 := by decide
  obtain ⟨c1, c2, c3, c4, c5, c6⟩ := c
  funext i
  unfold addSix addComp
  simp only [c1, c2, c3, c4, c5, c6]
  fin_cases i <;> simp

theorem askCodes_ok {α : Type} {get : Nat → Res (Option α)} {f : Nat → Bool} :
    ∀ (codes set : List Nat), (∀ q ∈ codes, ∃ r, get q = .ok r ∧ r.isSome = f q) →
      askCodes get codes set = .ok (revealCodes f codes set) := by
  intro codes
  induction codes with
  | nil => intro set _; rfl
  | cons c codes ih =>
    intro set h
    obtain ⟨r, h1, h2⟩ := h c (by simp)
    unfold askCodes
    rw [h1, Res.ok_bind, h2, ih _ fun q hq => h q (List.mem_cons_of_mem _ hq)]
    rfl

theorem askCodes_ub {α : Type} {get : Nat → Res (Option α)} :
    ∀ (codes set : List Nat), (∀ q ∈ codes, (∃ r, get q = .ok r) ∨ get q = .ub) → (∃ q ∈ codes, get q = .ub) →
      askCodes get codes set = .ub := by
  intro codes
  induction codes with
  | nil => intro set _ ⟨q, hq, _⟩; simp at hq
  | cons c codes ih =>
    intro set h ⟨q, hq, hb⟩
    unfold askCodes
    rcases h c (by simp) with ⟨r, hr⟩ | hr
    · rw [hr, Res.ok_bind]
      refine ih _ (fun q hq => h q (List.mem_cons_of_mem _ hq)) ⟨q, ?_, hb⟩
      rcases List.mem_cons.mp hq with rfl | hq
      · rw [hr] at hb; cases hb
      · exact hq
    · rw [hr]; rfl

open Classical in
/-- What an element that can be asked for everything answers. -/
theorem ready_asks {e : LEl} (hw : e.WellTyped) (hr : e.Ready) (q : Nat) :
    (∃ r, scalar e q gpMean 1 0 = .ok r ∧ r.isSome = decide (Knows e.type 0 q)) ∧
    (∃ r, vector e q gpMean 1 0 = .ok r ∧ r.isSome = decide (Knows e.type 1 q)) ∧
    (∃ r, tensor e q gpMean 1 0 = .ok r ∧ r.isSome = decide (Knows e.type 2 q)) := by
  cases e with
  | tetra0 e built =>
    obtain rfl : built = true := hr
    refine ⟨?_, ⟨none, rfl, by simp [Knows, LEl.type]⟩, ?_⟩
    · by_cases h5 : q = 5
      · subst h5; exact ⟨_, rfl, by simp [Knows, LEl.type]⟩
      · exact ⟨none, by unfold scalar; split <;> simp_all, by simp [Knows, LEl.type, h5]⟩
    · unfold tensor
      dsimp only
      by_cases h4 : q = 4
      · rw [if_pos h4]; exact ⟨_, rfl, by simp [Knows, LEl.type, h4]⟩
      rw [if_neg h4]
      by_cases h3 : q = 3
      · rw [if_pos h3]; exact ⟨_, rfl, by simp [Knows, LEl.type, h3]⟩
      rw [if_neg h3]
      by_cases h5 : q = 5
      · rw [if_pos h5]; exact ⟨_, rfl, by simp [Knows, LEl.type, h5]⟩
      rw [if_neg h5]
      exact ⟨none, rfl, by simp [Knows, LEl.type, h3, h4, h5]⟩
  | tetra1 vol k flux =>
    refine ⟨?_, ?_, ⟨none, rfl, by simp [Knows, LEl.type]⟩⟩
    · by_cases h5 : q = 5
      · subst h5; exact ⟨_, rfl, by simp [Knows, LEl.type]⟩
      · exact ⟨none, by unfold scalar; split <;> simp_all, by simp [Knows, LEl.type, h5]⟩
    · by_cases h2 : q = 2
      · subst h2; exact ⟨_, rfl, by simp [Knows, LEl.type]⟩
      by_cases h3 : q = 3
      · subst h3; exact ⟨_, rfl, by simp [Knows, LEl.type]⟩
      exact ⟨none, by unfold vector; split <;> simp_all, by simp [Knows, LEl.type, h2, h3]⟩
  | inter0 s =>
    refine ⟨⟨none, rfl, by simp [Knows, LEl.type]⟩, ⟨none, rfl, by simp [Knows, LEl.type]⟩, ?_⟩
    unfold tensor
    dsimp only
    by_cases h4 : q = 4
    · rw [if_pos h4]; exact ⟨_, rfl, by simp [Knows, LEl.type, h4]⟩
    · rw [if_neg h4]; exact ⟨none, rfl, by simp [Knows, LEl.type, h4]⟩
  | inter3 s t => exact absurd hr id
  | plain t =>
    have ht : ¬ (t = .TETRA0) ∧ ¬ (t = .TETRA1) ∧ ¬ (t = .INTER0) := by
      rcases hw with rfl | rfl | rfl | rfl <;> decide
    refine ⟨⟨none, rfl, ?_⟩, ⟨none, rfl, ?_⟩, ⟨none, rfl, ?_⟩⟩ <;> simp [Knows, LEl.type, ht]

/-- Asking gives an answer or is undefined. -/
theorem asks_cases (e : LEl) (q : Nat) :
    ((∃ r, scalar e q gpMean 1 0 = .ok r) ∨ scalar e q gpMean 1 0 = .ub) ∧
    ((∃ r, vector e q gpMean 1 0 = .ok r) ∨ vector e q gpMean 1 0 = .ub) ∧
    ((∃ r, tensor e q gpMean 1 0 = .ok r) ∨ tensor e q gpMean 1 0 = .ub) := by
  refine ⟨?_, ?_, ?_⟩
  · unfold scalar
    split
    · split <;> simp
    · simp
    · simp
  · unfold vector
    split <;> simp
  · unfold tensor
    split
    · split_ifs <;> simp
    · split_ifs <;> simp
    · split_ifs <;> simp
    · simp

theorem askCodes_cases {α : Type} {get : Nat → Res (Option α)} (h : ∀ q, (∃ r, get q = .ok r) ∨ get q = .ub) (codes set : List Nat) :
    (∃ s, askCodes get codes set = .ok s) ∨ askCodes get codes set = .ub := by
  induction codes generalizing set with
  | nil => exact Or.inl ⟨_, rfl⟩
  | cons c codes ih =>
    unfold askCodes
    rcases h c with ⟨r, hr⟩ | hr
    · rw [hr, Res.ok_bind]; exact ih _
    · rw [hr]; exact Or.inr rfl

/-- Elements whose type makes asking undefined. -/
def Bad (fresh : Prop) (t : ElementType) : Prop := t = .INTER3 ∨ (fresh ∧ t = .TETRA0)

theorem reveal_ub {els : List LEl} {fresh : Prop} :
    ∀ (seen : List ElementType) (P : Proc), (∀ e ∈ els, e.WellTyped) → (fresh → ∀ e b, LEl.tetra0 e b ∈ els → b = false) →
      (∃ e ∈ els, e.type ∉ seen ∧ Bad fresh e.type) → revealAsk seen els P = .ub := by
  induction els with
  | nil => intro seen P _ _ ⟨e, he, _⟩; simp at he
  | cons a els ih =>
    intro seen P hw hf ⟨e, he, hs, hb⟩
    have hw' : ∀ e ∈ els, e.WellTyped := fun e he => hw e (List.mem_cons_of_mem _ he)
    have hf' : fresh → ∀ e b, LEl.tetra0 e b ∈ els → b = false := fun h e b hm => hf h e b (List.mem_cons_of_mem _ hm)
    unfold revealAsk
    by_cases ha : a.type ∈ seen
    · rw [if_pos ha]
      refine ih seen P hw' hf' ⟨e, ?_, hs, hb⟩
      rcases List.mem_cons.mp he with rfl | he
      · exact absurd ha hs
      · exact he
    · rw [if_neg ha]
      have c1 := askCodes_cases (get := fun q => scalar a q gpMean 1 0) (fun q => (asks_cases a q).1) scalarCodes P.scalarQ
      have c2 := askCodes_cases (get := fun q => vector a q gpMean 1 0) (fun q => (asks_cases a q).2.1) vectorCodes P.vectorQ
      have c3 := askCodes_cases (get := fun q => tensor a q gpMean 1 0) (fun q => (asks_cases a q).2.2) tensorCodes P.tensorQ
      by_cases hbad : Bad fresh a.type
      · have key : askCodes (fun q => scalar a q gpMean 1 0) scalarCodes P.scalarQ = .ub ∨
            askCodes (fun q => tensor a q gpMean 1 0) tensorCodes P.tensorQ = .ub := by
          cases a with
          | tetra0 e0 b =>
            rcases hbad with h | ⟨h, _⟩
            · cases h
            · obtain rfl := hf h e0 b (by simp)
              exact Or.inl (askCodes_ub _ _ (fun q _ => (asks_cases _ q).1) ⟨5, by decide, rfl⟩)
          | inter3 s t => exact Or.inr (askCodes_ub _ _ (fun q _ => (asks_cases _ q).2.2) ⟨1, by decide, rfl⟩)
          | tetra1 _ _ _ => rcases hbad with h | ⟨_, h⟩ <;> cases h
          | inter0 _ => rcases hbad with h | ⟨_, h⟩ <;> cases h
          | plain t =>
            have := hw (.plain t) (by simp)
            rcases this with rfl | rfl | rfl | rfl <;> rcases hbad with h | ⟨_, h⟩ <;> cases h
        rcases key with h | h
        · rw [h]; rfl
        · rcases c1 with ⟨s, c1⟩ | c1
          · rw [c1, Res.ok_bind]
            rcases c2 with ⟨v, c2⟩ | c2
            · rw [c2, Res.ok_bind, h]; rfl
            · rw [c2]; rfl
          · rw [c1]; rfl
      · have hrec : ∀ P', revealAsk (a.type :: seen) els P' = .ub := by
          intro P'
          have hne : e.type ≠ a.type := fun h => hbad (h ▸ hb)
          refine ih _ P' hw' hf' ⟨e, ?_, ?_, hb⟩
          · rcases List.mem_cons.mp he with rfl | he
            · exact absurd rfl hne
            · exact he
          · rw [List.mem_cons, not_or]; exact ⟨hne, hs⟩
        rcases c1 with ⟨s, c1⟩ | c1
        · rw [c1, Res.ok_bind]
          rcases c2 with ⟨v, c2⟩ | c2
          · rw [c2, Res.ok_bind]
            rcases c3 with ⟨t, c3⟩ | c3
            · rw [c3, Res.ok_bind]; exact hrec _
            · rw [c3]; rfl
          · rw [c2]; rfl
        · rw [c1]; rfl

open Classical in
theorem reveal_ready {els : List LEl} :
    ∀ (seen : List ElementType) (P : Proc), (∀ e ∈ els, e.WellTyped) → (∀ e ∈ els, e.Ready) →
      ∃ P', revealAsk seen els P = .ok P' ∧
        (∀ q, q ∈ P'.scalarQ ↔ q ∈ P.scalarQ ∨ q ∈ scalarCodes ∧ ∃ e ∈ els, e.type ∉ seen ∧ Knows e.type 0 q) ∧
        (∀ q, q ∈ P'.vectorQ ↔ q ∈ P.vectorQ ∨ q ∈ vectorCodes ∧ ∃ e ∈ els, e.type ∉ seen ∧ Knows e.type 1 q) ∧
        (∀ q, q ∈ P'.tensorQ ↔ q ∈ P.tensorQ ∨ q ∈ tensorCodes ∧ ∃ e ∈ els, e.type ∉ seen ∧ Knows e.type 2 q) ∧
        P'.useDisp = P.useDisp ∧ P'.nodal = P.nodal ∧ P'.elemental = P.elemental ∧ P'.writeAll = P.writeAll := by
  induction els with
  | nil => intro seen P _ _; exact ⟨P, rfl, by simp⟩
  | cons a els ih =>
    intro seen P hw hr
    have hw' : ∀ e ∈ els, e.WellTyped := fun e he => hw e (List.mem_cons_of_mem _ he)
    have hr' : ∀ e ∈ els, e.Ready := fun e he => hr e (List.mem_cons_of_mem _ he)
    unfold revealAsk
    by_cases ha : a.type ∈ seen
    · rw [if_pos ha]
      obtain ⟨P', h1, h2, h3, h4, h5⟩ := ih seen P hw' hr'
      have skip : ∀ (R : LEl → Prop), (∃ e ∈ a :: els, e.type ∉ seen ∧ R e) ↔ ∃ e ∈ els, e.type ∉ seen ∧ R e := by
        intro R
        constructor
        · rintro ⟨e, he, hs, hR⟩
          rcases List.mem_cons.mp he with rfl | he
          · exact absurd ha hs
          · exact ⟨e, he, hs, hR⟩
        · rintro ⟨e, he, h⟩
          exact ⟨e, List.mem_cons_of_mem _ he, h⟩
      refine ⟨P', h1, fun q => ?_, fun q => ?_, fun q => ?_, h5⟩
      · rw [h2, skip fun e => Knows e.type 0 q]
      · rw [h3, skip fun e => Knows e.type 1 q]
      · rw [h4, skip fun e => Knows e.type 2 q]
    · rw [if_neg ha]
      have hk := ready_asks (hw a (by simp)) (hr a (by simp))
      rw [askCodes_ok (f := fun q => decide (Knows a.type 0 q)) _ _ (fun q _ => (hk q).1), Res.ok_bind,
        askCodes_ok (f := fun q => decide (Knows a.type 1 q)) _ _ (fun q _ => (hk q).2.1), Res.ok_bind,
        askCodes_ok (f := fun q => decide (Knows a.type 2 q)) _ _ (fun q _ => (hk q).2.2), Res.ok_bind]
      obtain ⟨P', h1, h2, h3, h4, h5⟩ := ih (a.type :: seen) { P with
        scalarQ := revealCodes (fun q => decide (Knows a.type 0 q)) scalarCodes P.scalarQ
        vectorQ := revealCodes (fun q => decide (Knows a.type 1 q)) vectorCodes P.vectorQ
        tensorQ := revealCodes (fun q => decide (Knows a.type 2 q)) tensorCodes P.tensorQ } hw' hr'
      have step : ∀ (kind q : Nat) (set codes : List Nat),
          (q ∈ revealCodes (fun q => decide (Knows a.type kind q)) codes set ∨
            q ∈ codes ∧ ∃ e ∈ els, e.type ∉ a.type :: seen ∧ Knows e.type kind q) ↔
          (q ∈ set ∨ q ∈ codes ∧ ∃ e ∈ a :: els, e.type ∉ seen ∧ Knows e.type kind q) := by
        intro kind q set codes
        rw [mem_revealCodes]
        constructor
        · rintro ((h | ⟨hc, h⟩) | ⟨hc, e, he, hs, h⟩)
          · exact Or.inl h
          · exact Or.inr ⟨hc, a, by simp, ha, of_decide_eq_true h⟩
          · rw [List.mem_cons, not_or] at hs
            exact Or.inr ⟨hc, e, List.mem_cons_of_mem _ he, hs.2, h⟩
        · rintro (h | ⟨hc, e, he, hs, h⟩)
          · exact Or.inl (Or.inl h)
          · by_cases ht : e.type = a.type
            · exact Or.inl (Or.inr ⟨hc, decide_eq_true (ht ▸ h)⟩)
            · rcases List.mem_cons.mp he with rfl | he
              · exact absurd rfl ht
              · exact Or.inr ⟨hc, e, he, by rw [List.mem_cons, not_or]; exact ⟨ht, hs⟩, h⟩
      exact ⟨P', h1, fun q => (h2 q).trans (step 0 q _ _), fun q => (h3 q).trans (step 1 q _ _),
        fun q => (h4 q).trans (step 2 q _ _), h5⟩

/-! ## C115 -/

attribute [local irreducible] stiff0 load0 elast cond1 gradMat strainMat buildK0 buildK1 update0 update1

/-- **C115, TETRA1.** A heat tetrahedron that was built and updated with a linear temperature field answers `VOL` with its volume and
`FLUX` with `-k` times the gradient, times the scale, and knows nothing else but `GRADT`. -/
theorem C115_heat {pos : Fin 4 → Fin 3 → ℝ} (h : (matS pos).det ≠ 0) (k c : ℝ) (b : Fin 3 → ℝ) (T : Fin 4 → ℝ)
    (hT : ∀ a, T a = c + ∑ j, b j * pos a j) (gp : Nat) :
    ∃ vol K flux, buildK1 pos k = .ok (vol, K) ∧ update1 pos k vol T = .ok (List.ofFn flux) ∧
      Adds (scalar (.tetra1 vol k flux) 5 gp) ((matS pos).det / 6) ∧
      (∀ q, q ≠ 5 → Unknown (scalar (.tetra1 vol k flux) q gp)) ∧
      Adds (vector (.tetra1 vol k flux) 2 gp) (fun i => -k * b i) ∧
      (∀ q, q ≠ 2 → q ≠ 3 → Unknown (vector (.tetra1 vol k flux) q gp)) ∧
      (∀ q, Unknown (tensor (.tetra1 vol k flux) q gp)) := by
  obtain ⟨vol, K, h1, h2⟩ := C40_flux h k c b T hT
  have hv : vol = (matS pos).det / 6 := by
    exact congrArg Prod.fst (Res.ok.inj (h1.symm.trans (buildK1_eq h k)))
  refine ⟨vol, K, fun i => -k * b i, h1, h2, fun s x => ?_, fun q hq s x => ?_, fun s x => ?_, fun q h2 h3 s x => ?_, fun q s x => rfl⟩
  · show Res.ok (some (x + vol * s)) = _
    rw [hv, smul_eq_mul, mul_comm]
  · unfold scalar
    split <;> simp_all
  · show Res.ok (some (x + fun i => (-k * b i) * s)) = _
    congr 3
    funext i
    simp only [Pi.smul_apply, smul_eq_mul]
    ring
  · unfold vector
    split <;> simp_all

/-- **C115, gradient, negation.** `GRADT` is the gradient with the wrong sign. -/
theorem C115_gradient_violated {pos : Fin 4 → Fin 3 → ℝ} (h : (matS pos).det ≠ 0) {k : ℝ} (hk : k ≠ 0) (c : ℝ) {b : Fin 3 → ℝ} (hb : b ≠ 0)
    (T : Fin 4 → ℝ) (hT : ∀ a, T a = c + ∑ j, b j * pos a j) (gp : Nat) :
    ∃ vol K flux, buildK1 pos k = .ok (vol, K) ∧ update1 pos k vol T = .ok (List.ofFn flux) ∧
      Adds (vector (.tetra1 vol k flux) 3 gp) (-b) ∧ ¬ Adds (vector (.tetra1 vol k flux) 3 gp) b := by
  obtain ⟨vol, K, h1, h2⟩ := C40_flux h k c b T hT
  have key : Adds (vector (.tetra1 vol k fun i => -k * b i) 3 gp) (-b) := by
    intro s x
    show Res.ok (some (x + fun i => (-k * b i) * (s / k))) = _
    congr 3
    funext i
    simp only [Pi.smul_apply, Pi.neg_apply, smul_eq_mul]
    field_simp
  refine ⟨vol, K, fun i => -k * b i, h1, h2, key, fun hc => hb ?_⟩
  have e := (key 1 0).symm.trans (hc 1 0)
  have e := Option.some.inj (Res.ok.inj e)
  rw [one_smul, one_smul, zero_add, zero_add] at e
  funext i
  have := congrFun e i
  simp only [Pi.neg_apply] at this
  show b i = 0
  linarith

theorem hooke_sym6 (lam mu : ℝ) (H : Matrix (Fin 3) (Fin 3) ℝ) :
    (![hooke lam mu (symGrad H) 0, hooke lam mu (symGrad H) 3, hooke lam mu (symGrad H) 5, hooke lam mu (symGrad H) 1,
      hooke lam mu (symGrad H) 4, hooke lam mu (symGrad H) 2] : Fin 6 → ℝ) = sym6 (hookeStress lam mu (smallStrain H)) := by
  funext i
  fin_cases i <;>
    simp [hooke, symGrad, sym6, hookeStress, smallStrain, Matrix.trace, Fin.sum_univ_succ, Matrix.one_apply] <;> ring

theorem strain_sym6 (H : Matrix (Fin 3) (Fin 3) ℝ) :
    (![symGrad H 0, symGrad H 3, symGrad H 5, symGrad H 1, symGrad H 4, symGrad H 2] : Fin 6 → ℝ) =
      ![smallStrain H 0 0, 2 * smallStrain H 0 1, 2 * smallStrain H 0 2, smallStrain H 1 1, 2 * smallStrain H 1 2, smallStrain H 2 2] := by
  funext i
  fin_cases i <;> simp [symGrad, smallStrain] <;> ring

/-- **C115, TETRA0, partial.** A tetrahedron that was built and updated with a linear displacement field, asked with scale 1: `VOL` is
the volume, `TSTRAIN` the thermal strain. Missing: the scale (`C115_scale_violated`); what `E` and `C` are (`C115_strain_violated`);
`VOL` before `buildK` (`C115_fresh_violated`). -/
theorem C115_tetra0_partial {pos : Fin 4 → Fin 3 → ℝ} (h : (matS pos).det ≠ 0) {e : Elem0} (he : Admissible e) (t : Fin 3 → ℝ)
    (H : Matrix (Fin 3) (Fin 3) ℝ) (gp : Nat) :
    ∃ e1 K F e2, buildK0 pos e = .ok (e1, K, F) ∧ update0 pos (affineField pos t H) e1 = .ok e2 ∧
      (∀ x, scalar (.tetra0 e2 true) 5 gp 1 x = .ok (some (x + (matS pos).det / 6))) ∧
      (∀ x, tensor (.tetra0 e2 true) 5 gp 1 x = .ok (some (x + sym6 ((e.alpha * e.T) • 1)))) ∧
      (∀ q, q ≠ 5 → Unknown (scalar (.tetra0 e2 true) q gp)) ∧ (∀ q, Unknown (vector (.tetra0 e2 true) q gp)) ∧
      (∀ q, q ≠ 3 → q ≠ 4 → q ≠ 5 → Unknown (tensor (.tetra0 e2 true) q gp)) := by
  have hb := buildK0_eq h e (Or.inr (elast_regular he.E he.lo he.hi))
  obtain ⟨e1, K, F, e2, h1, h2, h3, h4⟩ := C38_strain h he t H
  have hst : e1.vol = (matS pos).det / 6 ∧ e1.alpha = e.alpha ∧ e1.T = e.T := by
    rw [h1] at hb
    split at hb <;>
    · have hb := congrArg Prod.fst (Res.ok.inj hb)
      dsimp only at hb
      rw [hb]
      exact ⟨rfl, rfl, rfl⟩
  have h2' : e2.vol = e1.vol ∧ e2.alpha = e1.alpha ∧ e2.T = e1.T := by
    rw [update0_eq h _ hst.1] at h2
    rw [← Res.ok.inj h2]
    exact ⟨rfl, rfl, rfl⟩
  refine ⟨e1, K, F, e2, h1, h2, fun x => ?_, fun x => ?_, fun q hq s x => ?_, fun q s x => rfl, fun q q3 q4 q5 s x => ?_⟩
  · show Res.ok (some (x + e2.vol)) = _
    rw [h2'.1, hst.1]
  · show Res.ok (some (addSix x (e2.alpha * e2.T) (e2.alpha * e2.T) (e2.alpha * e2.T) 0 0 0)) = _
    rw [addSix_eq, h2'.2.1, h2'.2.2, hst.2.1, hst.2.2]
    congr 3
    funext i
    fin_cases i <;> simp [sym6]
  · unfold scalar
    split <;> simp_all
  · unfold tensor
    simp [q3, q4, q5]

/-- **C115, strain and stress, negation.** `E`, the Lagrange strain, is answered with Hooke's stress, and `C`, which is `FᵀF`, with the
small strains, shear twice; `COUCHY` is not known. -/
theorem C115_strain_violated {pos : Fin 4 → Fin 3 → ℝ} (h : (matS pos).det ≠ 0) {e : Elem0} (he : Admissible e) (t : Fin 3 → ℝ)
    (H : Matrix (Fin 3) (Fin 3) ℝ) (gp : Nat) :
    ∃ e1 K F e2, buildK0 pos e = .ok (e1, K, F) ∧ update0 pos (affineField pos t H) e1 = .ok e2 ∧
      (∀ x, tensor (.tetra0 e2 true) 3 gp 1 x = .ok (some (x + sym6 (hookeStress (lameLam e.E e.my) (lameMu e.E e.my) (smallStrain H))))) ∧
      (∀ x, tensor (.tetra0 e2 true) 4 gp 1 x = .ok (some (x + ![smallStrain H 0 0, 2 * smallStrain H 0 1, 2 * smallStrain H 0 2,
        smallStrain H 1 1, 2 * smallStrain H 1 2, smallStrain H 2 2]))) ∧
      Unknown (tensor (.tetra0 e2 true) 1 gp) := by
  obtain ⟨e1, K, F, e2, h1, h2, h3, h4⟩ := C38_strain h he t H
  refine ⟨e1, K, F, e2, h1, h2, fun x => ?_, fun x => ?_, fun s x => rfl⟩
  · show Res.ok (some (addSix x (e2.stress 0) (e2.stress 1) (e2.stress 2) (e2.stress 3) (e2.stress 4) (e2.stress 5))) = _
    rw [addSix_eq, h4, hooke_sym6]
  · show Res.ok (some (addSix x (e2.strains 0) (e2.strains 1) (e2.strains 2) (e2.strains 3) (e2.strains 4) (e2.strains 5))) = _
    rw [addSix_eq, h3, strain_sym6]

/-- The same at rest: `C` of a tetrahedron that is not deformed is 0 and not the unit tensor. -/
theorem C115_rest_violated {pos : Fin 4 → Fin 3 → ℝ} (h : (matS pos).det ≠ 0) {e : Elem0} (he : Admissible e) (gp : Nat) :
    ∃ e1 K F e2, buildK0 pos e = .ok (e1, K, F) ∧ update0 pos (affineField pos 0 0) e1 = .ok e2 ∧
      tensor (.tetra0 e2 true) 4 gp 1 0 = .ok (some 0) ∧ sym6 (cauchyGreen 0) ≠ 0 := by
  obtain ⟨e1, K, F, e2, h1, h2, _, h4, _⟩ := C115_strain_violated h he 0 0 gp
  refine ⟨e1, K, F, e2, h1, h2, ?_, fun hc => ?_⟩
  · rw [h4, zero_add]
    congr 2
    funext i
    fin_cases i <;> simp [smallStrain]
  · have := congrFun hc 0
    simp [sym6, cauchyGreen] at this

/-- **C115, scale, negation.** TETRA0, INTER0 and INTER3 do not look at the scale: whatever it is, the whole value is added. -/
theorem C115_scale_violated (gp : Nat) :
    (∀ e : Elem0, e.vol ≠ 0 → ∀ r, ¬ Adds (scalar (.tetra0 e true) 5 gp) r) ∧
    (∀ (e : Elem0) b, e.strains ≠ 0 → ∀ r, ¬ Adds (tensor (.tetra0 e b) 4 gp) r) ∧
    (∀ (e : Elem0) b, e.stress ≠ 0 → ∀ r, ¬ Adds (tensor (.tetra0 e b) 3 gp) r) ∧
    (∀ s : Fin 3 → ℝ, s ≠ 0 → ∀ r, ¬ Adds (tensor (.inter0 s) 4 gp) r) ∧
    (∀ s t : Fin 3 → ℝ, s ≠ 0 → ∀ r, ¬ Adds (tensor (.inter3 s t) 4 gp) r) := by
  have six : ∀ (get : ℝ → (Fin 6 → ℝ) → Res (Option (Fin 6 → ℝ))) (xx yy zz xy yz xz : ℝ),
      (∀ s x, get s x = .ok (some (addSix x xx yy zz xy yz xz))) → ∀ r, Adds get r →
      xx = 0 ∧ yy = 0 ∧ zz = 0 ∧ xy = 0 ∧ yz = 0 ∧ xz = 0 := by
    intro get xx yy zz xy yz xz hg r hr
    have e := (hg 0 0).symm.trans (hr 0 0)
    have e := Option.some.inj (Res.ok.inj e)
    rw [addSix_eq, zero_smul, zero_add, zero_add] at e
    exact ⟨congrFun e 0, congrFun e 3, congrFun e 5, congrFun e 1, congrFun e 4, congrFun e 2⟩
  refine ⟨fun e he r hr => he ?_, fun e b he r hr => he ?_, fun e b he r hr => he ?_, fun s hs r hr => hs ?_, fun s t hs r hr => hs ?_⟩
  · have e := (show Res.ok (some ((0 : ℝ) + e.vol)) = _ from hr 0 0)
    have e := Option.some.inj (Res.ok.inj e)
    rw [zero_smul, zero_add, zero_add] at e
    exact e
  · obtain ⟨a0, a1, a2, a3, a4, a5⟩ := six _ _ _ _ _ _ _ (fun s x => rfl) r hr
    funext i
    fin_cases i <;> assumption
  · obtain ⟨a0, a1, a2, a3, a4, a5⟩ := six _ _ _ _ _ _ _ (fun s x => rfl) r hr
    funext i
    fin_cases i <;> assumption
  · obtain ⟨a0, a1, a2, a3, a4, a5⟩ := six _ _ _ _ _ _ _ (fun s x => rfl) r hr
    funext i
    fin_cases i <;> assumption
  · obtain ⟨a0, a1, a2, a3, a4, a5⟩ := six _ _ _ _ _ _ _ (fun s x => rfl) r hr
    funext i
    fin_cases i <;> assumption

/-- **C115, undefined answers, negation.** Every tensor query but `E` and `C` to an INTER3 element, and `VOL` of a TETRA0 element that was
not built yet, is undefined. -/
theorem C115_answer_violated (gp q : Nat) (s t : Fin 3 → ℝ) (e : Elem0) (c x : ℝ) (T : Fin 6 → ℝ) (h3 : q ≠ 3) (h4 : q ≠ 4) :
    tensor (.inter3 s t) q gp c T = .ub ∧ scalar (.tetra0 e false) 5 gp c x = .ub := by
  refine ⟨?_, rfl⟩
  unfold tensor
  simp [h3, h4]

/-- **C115, registering.** `registerResults` passes exactly for codes between `UNDEF` and `LAST`, and then adds just them. -/
theorem C115_register (last : Nat) (queries set : List Nat) :
    ((∃ s, register last queries set = .ok s) ↔ ∀ v ∈ queries, 0 < v ∧ v < last) ∧
    ∀ s, register last queries set = .ok s → ∀ q, q ∈ s ↔ q ∈ set ∨ q ∈ queries := by
  have fold : ∀ (l set : List Nat) (q : Nat), q ∈ l.foldl (fun s q => setInsert q s) set ↔ q ∈ set ∨ q ∈ l := by
    intro l
    induction l with
    | nil => intro set q; simp
    | cons a l ih =>
      intro set q
      rw [List.foldl_cons, ih, mem_setInsert, List.mem_cons]
      tauto
  unfold register
  by_cases h : queries.all (fun v => decide (0 < v ∧ v < last)) = true
  · rw [if_pos h]
    have h' := h
    rw [List.all_eq_true] at h'
    refine ⟨⟨fun _ v hv => of_decide_eq_true (h' v hv), fun _ => ⟨_, rfl⟩⟩, fun s hs q => ?_⟩
    injection hs with hs
    rw [← hs, fold]
  · rw [if_neg h]
    refine ⟨⟨fun ⟨s, hs⟩ => (by cases hs), fun hv => absurd (List.all_eq_true.mpr fun v hm => decide_eq_true (hv v hm)) h⟩,
      fun s hs => (by cases hs)⟩

/-- **C115, all results.** For elements that can be asked, `revealAllResults` adds exactly the queries that some element of the model
knows: `VOL` for tetrahedra, `FLUX` and `GRADT` for TETRA1, `E`, `C`, `TSTRAIN` for TETRA0, `C` for INTER0. -/
theorem C115_reveal_partial {els : List LEl} (hw : ∀ e ∈ els, e.WellTyped) (hr : ∀ e ∈ els, e.Ready) (P : Proc) :
    ∃ P', revealAsk [] els P = .ok P' ∧
      (∀ q, q ∈ P'.scalarQ ↔ q ∈ P.scalarQ ∨ ∃ e ∈ els, Knows e.type 0 q) ∧
      (∀ q, q ∈ P'.vectorQ ↔ q ∈ P.vectorQ ∨ ∃ e ∈ els, Knows e.type 1 q) ∧
      (∀ q, q ∈ P'.tensorQ ↔ q ∈ P.tensorQ ∨ ∃ e ∈ els, Knows e.type 2 q) := by
  obtain ⟨P', h1, h2, h3, h4, _⟩ := reveal_ready [] P hw hr
  have key : ∀ (kind q : Nat) (codes : List Nat), (∀ t, Knows t kind q → q ∈ codes) →
      ((q ∈ codes ∧ ∃ e ∈ els, e.type ∉ ([] : List ElementType) ∧ Knows e.type kind q) ↔ ∃ e ∈ els, Knows e.type kind q) := by
    intro kind q codes hc
    constructor
    · rintro ⟨_, e, he, _, hk⟩; exact ⟨e, he, hk⟩
    · rintro ⟨e, he, hk⟩; exact ⟨hc _ hk, e, he, by simp, hk⟩
  refine ⟨P', h1, fun q => ?_, fun q => ?_, fun q => ?_⟩
  · rw [h2, key 0 q]
    rintro t (⟨_, h⟩ | ⟨_, h⟩ | ⟨_, h⟩) <;> simp [scalarCodes] <;> omega
  · rw [h3, key 1 q]
    rintro t (⟨_, h⟩ | ⟨_, h⟩ | ⟨_, h⟩) <;> simp [vectorCodes] <;> omega
  · rw [h4, key 2 q]
    rintro t (⟨_, h⟩ | ⟨_, h⟩ | ⟨_, h⟩) <;> simp [tensorCodes] <;> omega

/-- **C115, all results at the start, negation.** `VtkProcessor::pre` comes before the first `buildK`. In a model with an INTER3 or a
TETRA0 element asking for all results is undefined there, and only there. -/
theorem C115_reveal_violated {els : List LEl} (hw : ∀ e ∈ els, e.WellTyped) (hf : ∀ e b, LEl.tetra0 e b ∈ els → b = false) (P : Proc) :
    revealAsk [] els P = .ub ↔ ∃ e ∈ els, e.type = .INTER3 ∨ e.type = .TETRA0 := by
  constructor
  · intro h
    by_contra hc
    push Not at hc
    obtain ⟨P', h1, _⟩ := reveal_ready (els := els) [] P hw (by
      intro e he
      have := hc e he
      cases e with
      | tetra0 e b => exact absurd rfl this.2
      | inter3 s t => exact absurd rfl this.1
      | tetra1 _ _ _ => trivial
      | inter0 _ => trivial
      | plain _ => trivial)
    rw [h1] at h
    cases h
  · rintro ⟨e, he, h⟩
    refine reveal_ub (fresh := True) [] P hw (fun _ => hf) ⟨e, he, by simp, ?_⟩
    rcases h with h | h
    · exact Or.inl h
    · exact Or.inr ⟨trivial, h⟩

end Nla3d.Query
