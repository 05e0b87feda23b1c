import Verif.Material.Stress
import Verif.Dense.Lemmas
import Verif.Loop

/-! # The output loops of the materials -/

namespace Nla3d.Material

open Nla3d.Dense (upperPairs comp off)

/-- Writing the entry after the ones written so far. -/
theorem write_next {α : Type} (w L : List α) (v : α) (h : w.length < L.length) :
    Res.write (w ++ L.drop w.length) w.length v = .ok ((w ++ [v]) ++ L.drop (w ++ [v]).length) := by
  rw [Res.write_eq_ok]
  refine ⟨by simp; omega, ?_⟩
  rw [List.set_append_right _ _ (Nat.le_refl _), Nat.sub_self]
  have e : (L.drop w.length).set 0 v = v :: L.drop (w.length + 1) := by
    rw [List.drop_eq_getElem_cons h]; rfl
  rw [e]
  simp

theorem read_fin {α : Type} (l : List α) (j : Nat) (h : j < l.length) : Res.read l j = .ok l[j] := Res.read_of_lt h

theorem getD_fin {α : Type} (l : List α) (j : Nat) (d : α) (h : j < l.length) : l.getD j d = l[j] := by
  simp [h]

theorem getS_eq (E : Energy) (comps : List (Fin 6)) (C : Fin 6 → ℝ) (p : ℝ) (S : List ℝ) (h : comps.length ≤ S.length) :
    getS_UP E comps C p S = .ok (comps.map (stressEntry E C p) ++ S.drop comps.length) := by
  obtain ⟨S', h1, h2⟩ := Res.foldlM'_range (fun S i => do
    let ij ← Res.read comps i
    Res.write S i (stressEntry E C p ij)) (fun i T => T = (comps.take i).map (stressEntry E C p) ++ S.drop i)
    comps.length S (by simp) (by
      rintro i T hi rfl
      rw [read_fin _ _ hi, Res.ok_bind]
      have hl : ((comps.take i).map (stressEntry E C p)).length = i := by simp; omega
      have := write_next ((comps.take i).map (stressEntry E C p)) S (stressEntry E C p comps[i]) (by rw [hl]; omega)
      rw [hl] at this
      refine ⟨_, this, ?_⟩
      have e : comps.take (i + 1) = comps.take i ++ [comps[i]] := List.take_succ_eq_append_getElem hi
      rw [List.length_append, hl, e, List.map_append]
      rfl)
  unfold getS_UP
  rw [h1, h2, List.take_length]

theorem inner_eq (comps : List (Fin 6)) (f : Fin 6 → ℝ) (L : List ℝ) (js : List Nat) : ∀ (w : List ℝ),
    (hj : ∀ j ∈ js, j < comps.length) → w.length + js.length ≤ L.length →
    ∃ vs, Res.foldlM' (fun (s : List ℝ × Nat) j => do
      let kl ← Res.read comps j
      let Dd ← Res.write s.1 s.2 (f kl)
      .ok (Dd, s.2 + 1)) (w ++ L.drop w.length, w.length) js =
      .ok ((w ++ vs) ++ L.drop (w ++ vs).length, (w ++ vs).length) ∧
      vs = js.map (fun j => f (comps.getD j 0)) := by
  induction js with
  | nil => intro w _ _; exact ⟨[], by simp, rfl⟩
  | cons j js ih =>
    intro w hj hl
    have hj0 := hj j (by simp)
    simp only [List.length_cons] at hl
    obtain ⟨vs, h1, h2⟩ := ih (w ++ [f comps[j]]) (fun j' hj' => hj j' (by simp [hj'])) (by simp; omega)
    refine ⟨f comps[j] :: vs, ?_, ?_⟩
    · rw [Res.foldlM'_cons]
      simp only [read_fin _ _ hj0, Res.ok_bind]
      rw [write_next w L _ (by omega), Res.ok_bind]
      have e : w.length + 1 = (w ++ [f comps[j]]).length := by simp
      rw [Res.ok_bind, e]
      refine h1.trans ?_
      simp
    · rw [List.map_cons, h2, getD_fin _ _ _ hj0]

theorem getDdDp_eq (E : Energy) (comps : List (Fin 6)) (C : Fin 6 → ℝ) (p : ℝ) (Dd Dp : List ℝ)
    (h1 : comps.length * (comps.length + 1) / 2 ≤ Dd.length) (h2 : comps.length ≤ Dp.length) :
    getDdDp_UP E comps C p Dd Dp = .ok
      ((upperPairs comps.length).map (fun q => tangentEntry E C p (comps.getD q.1 0) (comps.getD q.2 0)) ++
        Dd.drop (comps.length * (comps.length + 1) / 2),
       comps.map (pressEntry C) ++ Dp.drop comps.length) := by
  have hoff : ∀ i, ((List.range i).flatMap (fun i => (List.range' i (comps.length - i)).map (fun j => (i, j)))).length =
      off comps.length i := by
    intro i
    induction i with
    | zero => rfl
    | succ i ih => rw [List.range_succ, List.flatMap_append, List.length_append, ih, Dense.off_succ]; simp
  have hmono : ∀ i, i < comps.length → off comps.length (i + 1) ≤ off comps.length comps.length := by
    intro i hi
    unfold off
    exact Finset.sum_le_sum_of_subset (fun x hx => by rw [Finset.mem_range] at *; omega)
  obtain ⟨s', g1, g2⟩ := Res.foldlM'_range (fun (s : List ℝ × List ℝ × Nat) i => do
    let ij ← Res.read comps i
    let (Dd, ind) ← Res.foldlM' (fun (s : List ℝ × Nat) j => do
      let kl ← Res.read comps j
      let Dd ← Res.write s.1 s.2 (tangentEntry E C p ij kl)
      .ok (Dd, s.2 + 1)) (s.1, s.2.2) (List.range' i (comps.length - i))
    let Dp ← Res.write s.2.1 i (pressEntry C ij)
    .ok (Dd, Dp, ind)) (fun i s =>
      s.1 = (((List.range i).flatMap (fun i => (List.range' i (comps.length - i)).map (fun j => (i, j)))).map
        (fun q => tangentEntry E C p (comps.getD q.1 0) (comps.getD q.2 0))) ++ Dd.drop (off comps.length i) ∧
      s.2.1 = (comps.take i).map (pressEntry C) ++ Dp.drop i ∧ s.2.2 = off comps.length i)
    comps.length (Dd, Dp, 0) (by simp [off]) (by
      rintro i ⟨D, P, ind⟩ hi ⟨e1, e2, e3⟩
      simp only at e1 e2 e3
      subst e1 e2 e3
      simp only [read_fin _ _ hi, Res.ok_bind]
      have hb := hmono i hi
      rw [Dense.off_total] at hb
      generalize hw : (((List.range i).flatMap (fun i => (List.range' i (comps.length - i)).map (fun j => (i, j)))).map
        (fun q => tangentEntry E C p (comps.getD q.1 0) (comps.getD q.2 0))) = w
      have hwl : w.length = off comps.length i := by rw [← hw, List.length_map, hoff]
      obtain ⟨vs, k1, k2⟩ := inner_eq comps (tangentEntry E C p comps[i]) Dd (List.range' i (comps.length - i)) w
        (fun j hj => by rw [List.mem_range'_1] at hj; omega)
        (by rw [hwl, List.length_range', ← Dense.off_succ]; omega)
      rw [hwl] at k1
      rw [k1, Res.ok_bind]
      have hl : ((comps.take i).map (pressEntry C)).length = i := by simp; omega
      have hwr := write_next ((comps.take i).map (pressEntry C)) Dp (pressEntry C comps[i]) (by rw [hl]; omega)
      rw [hl] at hwr
      simp only [hwr, Res.ok_bind]
      refine ⟨_, rfl, ?_, ?_, ?_⟩
      · simp only
        have hvl : (w ++ vs).length = off comps.length (i + 1) := by
          rw [List.length_append, hwl, k2, Dense.off_succ]; simp
        rw [hvl, List.range_succ, List.flatMap_append, List.map_append, hw, k2]
        congr 2
        simp only [List.flatMap_cons, List.flatMap_nil, List.append_nil, List.map_map]
        apply List.map_congr_left
        intro j _
        simp only [Function.comp, getD_fin _ _ _ hi]
      · have e : comps.take (i + 1) = comps.take i ++ [comps[i]] := List.take_succ_eq_append_getElem hi
        simp only
        rw [List.length_append, hl, e, List.map_append]
        rfl
      · simp only
        rw [List.length_append, hwl, k2, Dense.off_succ]
        simp)
  unfold getDdDp_UP
  rw [g1, Res.ok_bind]
  obtain ⟨a, b, c⟩ := s'
  obtain ⟨g3, g4, -⟩ := g2
  simp only at g3 g4
  subst g3 g4
  rw [List.take_length, Dense.off_total]
  rfl

end Nla3d.Material
