import Verif.Base

/-!
# Loop invariants for counted loops
-/

namespace Nla3d.Res

/-- A loop `for (k = a; k < a + m; k++)` with an invariant that every body execution preserves. -/
theorem foldlM'_range' {σ : Type _} (f : σ → Nat → Res σ) (P : Nat → σ → Prop) (m : Nat) :
    ∀ (a : Nat) (s : σ), P a s →
    (∀ k s, a ≤ k → k < a + m → P k s → ∃ s', f s k = ok s' ∧ P (k + 1) s') →
    ∃ s', foldlM' f s (List.range' a m) = ok s' ∧ P (a + m) s' := by
  induction m with
  | zero => intro a s h _; exact ⟨s, rfl, h⟩
  | succ m ih =>
    intro a s h hstep
    obtain ⟨s1, h1, h2⟩ := hstep a s (Nat.le_refl a) (by omega) h
    obtain ⟨s2, h3, h4⟩ := ih (a + 1) s1 h2 (fun k s hk hk' => hstep k s (by omega) (by omega))
    refine ⟨s2, ?_, by rw [show a + (m + 1) = a + 1 + m by omega]; exact h4⟩
    rw [List.range'_succ, foldlM'_cons, h1]
    exact h3

/-- A loop `for (k = 0; k < m; k++)`. -/
theorem foldlM'_range {σ : Type _} (f : σ → Nat → Res σ) (P : Nat → σ → Prop) (m : Nat) (s : σ) (h : P 0 s)
    (hstep : ∀ k s, k < m → P k s → ∃ s', f s k = ok s' ∧ P (k + 1) s') :
    ∃ s', foldlM' f s (List.range m) = ok s' ∧ P m s' := by
  obtain ⟨s', h1, h2⟩ := foldlM'_range' f P m 0 s h (fun k s _ hk => hstep k s (by omega))
  refine ⟨s', by rw [List.range_eq_range']; exact h1, by rw [Nat.zero_add] at h2; exact h2⟩

/-- A loop `for (k = a + m - 1; k >= a; k--)`. -/
theorem foldlM'_down {σ : Type _} (f : σ → Nat → Res σ) (P : Nat → σ → Prop) (m : Nat) :
    ∀ (a : Nat) (s : σ), P (a + m) s →
    (∀ k s, a ≤ k → k < a + m → P (k + 1) s → ∃ s', f s k = ok s' ∧ P k s') →
    ∃ s', foldlM' f s (List.range' a m).reverse = ok s' ∧ P a s' := by
  induction m with
  | zero => intro a s h _; exact ⟨s, rfl, h⟩
  | succ m ih =>
    intro a s h hstep
    obtain ⟨s1, h1, h2⟩ := hstep (a + m) s (by omega) (by omega) h
    obtain ⟨s2, h3, h4⟩ := ih a s1 h2 (fun k s hk hk' => hstep k s hk (by omega))
    refine ⟨s2, ?_, h4⟩
    rw [List.range'_1_concat, List.reverse_append, List.reverse_singleton, List.singleton_append, foldlM'_cons, h1]
    exact h3

end Nla3d.Res
