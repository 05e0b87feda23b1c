import Verif.Truss.Run

/-!
# C110: the tables of the code
-/

noncomputable section

namespace Nla3d.Truss

open Nla3d.Dof Nla3d.Storage Nla3d.Solver Nla3d.Struct Finset

/-- The tables of the code with the supports of the nodes 1 and 4 moved by `a` in x and y, and other loads. -/
def moved (a : ℝ) (l : List (Bc ℝ)) : Input :=
  { shipped with
    fixs := [⟨1, .UZ, 0⟩, ⟨2, .UZ, 0⟩, ⟨3, .UZ, 0⟩, ⟨4, .UZ, 0⟩, ⟨5, .UZ, 0⟩, ⟨1, .UX, a⟩, ⟨1, .UY, a⟩, ⟨4, .UX, a⟩, ⟨4, .UY, a⟩]
    loads := l }

theorem shipped_moved : shipped = moved 0 [⟨2, .UY, -100⟩, ⟨5, .UX, 50⟩] := rfl

variable {a : ℝ} {l : List (Bc ℝ)}

theorem node_iff (n : Nat) : IsNode (moved a l) n ↔ n = 1 ∨ n = 2 ∨ n = 3 ∨ n = 4 ∨ n = 5 := by
  show 1 ≤ n ∧ n ≤ 5 ↔ _
  omega

theorem coord_moved (n : Nat) (i : Fin 3) : coord (moved a l) n i =
    12 * (([![0, 0, 0], ![16, 0, 0], ![16, 12, 0], ![32, 0, 0], ![32, 12, 0]] : List (Fin 3 → ℝ)).getD (n - 1) 0) i := rfl

theorem coord_1 : coord (moved a l) 1 = ![0, 0, 0] := by
  funext i; rw [coord_moved]; fin_cases i <;> simp
theorem coord_2 : coord (moved a l) 2 = ![192, 0, 0] := by
  funext i; rw [coord_moved]; fin_cases i <;> simp <;> norm_num
theorem coord_3 : coord (moved a l) 3 = ![192, 144, 0] := by
  funext i; rw [coord_moved]; fin_cases i <;> simp <;> norm_num
theorem coord_4 : coord (moved a l) 4 = ![384, 0, 0] := by
  funext i; rw [coord_moved]; fin_cases i <;> simp <;> norm_num
theorem coord_5 : coord (moved a l) 5 = ![384, 144, 0] := by
  funext i; rw [coord_moved]; fin_cases i <;> simp <;> norm_num

theorem length_moved (b : Nat × Nat) (hb : b ∈ shipped.elementTable) : length2 (moved a l) b = 36864 ∨ length2 (moved a l) b = 20736 ∨
    length2 (moved a l) b = 57600 := by
  simp only [shipped, List.mem_cons, List.not_mem_nil, or_false] at hb
  unfold length2
  rw [Fin.sum_univ_three]
  rcases hb with rfl | rfl | rfl | rfl | rfl | rfl | rfl | rfl <;>
    simp only [coord_1, coord_2, coord_3, coord_4, coord_5] <;> simp <;> norm_num

theorem moved_legal (ha : a = 0 ∨ 1 / 10 ^ 20 < |a|) (hl : ∀ f ∈ l, IsNode (moved a l) f.node ∧ (dir f.dof).isSome) : Legal (moved a l) := by
  refine ⟨?_, ?_, ?_, ?_, ?_, ?_, hl, ?_⟩
  · show [_, _, _, _, _] ≠ []
    simp
  · intro b hb
    have hb' : b ∈ shipped.elementTable := hb
    simp only [shipped, List.mem_cons, List.not_mem_nil, or_false] at hb'
    rw [node_iff, node_iff]
    rcases hb' with rfl | rfl | rfl | rfl | rfl | rfl | rfl | rfl <;> simp
  · intro b hb
    rcases length_moved (a := a) (l := l) b hb with h | h | h <;> rw [h] <;> norm_num
  · intro n hn
    rw [node_iff] at hn
    show ∃ b ∈ [(1, 3), (1, 2), (2, 3), (3, 5), (3, 4), (2, 5), (2, 4), (4, 5)], n = b.1 ∨ n = b.2
    rcases hn with rfl | rfl | rfl | rfl | rfl <;> simp
  · intro f hf
    have hf' : f ∈ [(⟨1, .UZ, 0⟩ : Bc ℝ), ⟨2, .UZ, 0⟩, ⟨3, .UZ, 0⟩, ⟨4, .UZ, 0⟩, ⟨5, .UZ, 0⟩, ⟨1, .UX, a⟩, ⟨1, .UY, a⟩, ⟨4, .UX, a⟩, ⟨4, .UY, a⟩] := hf
    simp only [List.mem_cons, List.not_mem_nil, or_false] at hf'
    rw [node_iff]
    rcases hf' with rfl | rfl | rfl | rfl | rfl | rfl | rfl | rfl | rfl <;> refine ⟨by simp, rfl, ?_⟩ <;> first | exact .inl rfl | exact ha
  · show [(1, DofType.UZ), (2, .UZ), (3, .UZ), (4, .UZ), (5, .UZ), (1, .UX), (1, .UY), (4, .UX), (4, .UY)].Nodup
    decide
  · show 3 * 5 < 4294967295
    norm_num

theorem sqrt_of {x y : ℝ} (hy : 0 ≤ y) (h : x = y * y) : √x = y := by rw [h, Real.sqrt_mul_self hy]

/-- The forces of the bars of the code at a node, for given displacements. -/
theorem joint_moved (w : Field) (n : Nat) (i : Fin 3) : ((moved a l).elementTable.map fun b => pull (moved a l) w b n i).sum =
    300000 * (
    ((w 3 0 - w 1 0) * 192 + (w 3 1 - w 1 1) * 144) / 57600 * (((if n = 3 then 1 else 0) - (if n = 1 then 1 else 0)) * ![192 / 240, 144 / 240, 0] i) +
    (w 2 0 - w 1 0) * 192 / 36864 * (((if n = 2 then 1 else 0) - (if n = 1 then 1 else 0)) * ![1, 0, 0] i) +
    (w 3 1 - w 2 1) * 144 / 20736 * (((if n = 3 then 1 else 0) - (if n = 2 then 1 else 0)) * ![0, 1, 0] i) +
    (w 5 0 - w 3 0) * 192 / 36864 * (((if n = 5 then 1 else 0) - (if n = 3 then 1 else 0)) * ![1, 0, 0] i) +
    ((w 4 0 - w 3 0) * 192 - (w 4 1 - w 3 1) * 144) / 57600 * (((if n = 4 then 1 else 0) - (if n = 3 then 1 else 0)) * ![192 / 240, -144 / 240, 0] i) +
    ((w 5 0 - w 2 0) * 192 + (w 5 1 - w 2 1) * 144) / 57600 * (((if n = 5 then 1 else 0) - (if n = 2 then 1 else 0)) * ![192 / 240, 144 / 240, 0] i) +
    (w 4 0 - w 2 0) * 192 / 36864 * (((if n = 4 then 1 else 0) - (if n = 2 then 1 else 0)) * ![1, 0, 0] i) +
    (w 5 1 - w 4 1) * 144 / 20736 * (((if n = 5 then 1 else 0) - (if n = 4 then 1 else 0)) * ![0, 1, 0] i)) := by
  have s1 : √(57600 : ℝ) = 240 := sqrt_of (by norm_num) (by norm_num)
  have s2 : √(36864 : ℝ) = 192 := sqrt_of (by norm_num) (by norm_num)
  have s3 : √(20736 : ℝ) = 144 := sqrt_of (by norm_num) (by norm_num)
  have p1 : ∀ b : Nat × Nat, ∀ L : ℝ, length2 (moved a l) b = L → pull (moved a l) w b n i = 300000 * (((w b.2 0 - w b.1 0) * (coord (moved a l) b.2 0 - coord (moved a l) b.1 0) +
      (w b.2 1 - w b.1 1) * (coord (moved a l) b.2 1 - coord (moved a l) b.1 1) + (w b.2 2 - w b.1 2) * (coord (moved a l) b.2 2 - coord (moved a l) b.1 2)) / L *
      (((if n = b.2 then 1 else 0) - (if n = b.1 then 1 else 0)) * ((coord (moved a l) b.2 i - coord (moved a l) b.1 i) / √L))) := by
    intro b L hL
    unfold pull strain
    rw [hL, Fin.sum_univ_three]
    show 30000 * 10 * _ * _ = _
    ring
  have l1 : ∀ b : Nat × Nat, length2 (moved a l) b = (coord (moved a l) b.2 0 - coord (moved a l) b.1 0) ^ 2 +
      (coord (moved a l) b.2 1 - coord (moved a l) b.1 1) ^ 2 + (coord (moved a l) b.2 2 - coord (moved a l) b.1 2) ^ 2 := by
    intro b
    unfold length2
    rw [Fin.sum_univ_three]
  show (List.map _ [(1, 3), (1, 2), (2, 3), (3, 5), (3, 4), (2, 5), (2, 4), (4, 5)]).sum = _
  simp only [List.map_cons, List.map_nil, List.sum_cons, List.sum_nil]
  rw [p1 (1, 3) 57600 (by rw [l1]; simp [coord_1, coord_3]; norm_num), p1 (1, 2) 36864 (by rw [l1]; simp [coord_1, coord_2]; norm_num),
    p1 (2, 3) 20736 (by rw [l1]; simp [coord_2, coord_3]; norm_num), p1 (3, 5) 36864 (by rw [l1]; simp [coord_5, coord_3]; norm_num),
    p1 (3, 4) 57600 (by rw [l1]; simp [coord_4, coord_3]; norm_num), p1 (2, 5) 57600 (by rw [l1]; simp [coord_5, coord_2]; norm_num),
    p1 (2, 4) 36864 (by rw [l1]; simp [coord_4, coord_2]; norm_num), p1 (4, 5) 20736 (by rw [l1]; simp [coord_4, coord_5]; norm_num)]
  rw [s1, s2, s3]
  simp only [coord_1, coord_2, coord_3, coord_4, coord_5]
  fin_cases i <;> simp <;> ring

theorem values_moved (n : Nat) (i : Fin 3) (hn : IsNode (moved a l) n) : valuesAt (moved a l).fixs n i =
    if i = 2 then [0] else if n = 1 ∨ n = 4 then [a] else [] := by
  show valuesAt [⟨1, .UZ, 0⟩, ⟨2, .UZ, 0⟩, ⟨3, .UZ, 0⟩, ⟨4, .UZ, 0⟩, ⟨5, .UZ, 0⟩, ⟨1, .UX, a⟩, ⟨1, .UY, a⟩, ⟨4, .UX, a⟩, ⟨4, .UY, a⟩] n i = _
  unfold valuesAt
  rw [node_iff] at hn
  rcases hn with rfl | rfl | rfl | rfl | rfl <;> fin_cases i <;> simp [dir]

theorem moved_not_stuck : ¬ (AllFixed (moved a l) ∨ Crowded (moved a l) ∨ Large (moved a l) ∨ IsSoft (moved a l)) := by
  rintro (h | ⟨n, ns, h, hc⟩ | ⟨s, h, hc⟩ | ⟨w, h1, ⟨n, i, h2⟩, h3⟩)
  · have hn : IsNode (moved a l) 2 := (node_iff 2).mpr (by simp)
    refine h 2 0 hn ?_
    rw [values_moved 2 0 hn]
    simp
  · have hsub : ns ⊆ Finset.range 6 := by
      intro m hm
      obtain ⟨b, hb, _, hmb⟩ := h m hm
      have hb' : b ∈ shipped.elementTable := hb
      simp only [shipped, List.mem_cons, List.not_mem_nil, or_false] at hb'
      rw [Finset.mem_range]
      rcases hb' with rfl | rfl | rfl | rfl | rfl | rfl | rfl | rfl <;> simp at hmb <;> omega
    have := Finset.card_le_card hsub
    rw [Finset.card_range] at this
    omega
  · have hsub : s ⊆ Finset.range 6 ×ˢ Finset.univ := by
      intro p hp
      have := (node_iff p.1).mp (h p hp).1
      rw [Finset.mem_product, Finset.mem_range]
      exact ⟨by omega, Finset.mem_univ _⟩
    have := Finset.card_le_card hsub
    rw [Finset.card_product, Finset.card_range, Finset.card_univ, Fintype.card_fin] at this
    omega
  · have hfree : IsNode (moved a l) n ∧ valuesAt (moved a l).fixs n i = [] := by
      by_contra hno
      have := h1 n i (by rw [not_and_or] at hno; exact hno)
      rw [this] at h2
      norm_num at h2
    have zero : ∀ n i, IsNode (moved a l) n → i = 2 ∨ n = 1 ∨ n = 4 → w n i = 0 := by
      intro n i hn hi
      refine h1 n i (.inr ?_)
      rw [values_moved n i hn]
      rcases hi with rfl | hi
      · simp
      · rw [if_pos hi]
        split <;> simp
    have n1 : IsNode (moved a l) 1 := (node_iff 1).mpr (by simp)
    have n2 : IsNode (moved a l) 2 := (node_iff 2).mpr (by simp)
    have n3 : IsNode (moved a l) 3 := (node_iff 3).mpr (by simp)
    have n4 : IsNode (moved a l) 4 := (node_iff 4).mpr (by simp)
    have n5 : IsNode (moved a l) 5 := (node_iff 5).mpr (by simp)
    have f20 := h3 2 0 n2 (by rw [values_moved 2 0 n2]; simp)
    have f21 := h3 2 1 n2 (by rw [values_moved 2 1 n2]; simp)
    have f30 := h3 3 0 n3 (by rw [values_moved 3 0 n3]; simp)
    have f31 := h3 3 1 n3 (by rw [values_moved 3 1 n3]; simp)
    have f50 := h3 5 0 n5 (by rw [values_moved 5 0 n5]; simp)
    have f51 := h3 5 1 n5 (by rw [values_moved 5 1 n5]; simp)
    rw [joint_moved] at f20 f21 f30 f31 f50 f51
    simp only [zero 1 0 n1 (by simp), zero 1 1 n1 (by simp), zero 4 0 n4 (by simp), zero 4 1 n4 (by simp)] at f20 f21 f30 f31 f50 f51
    rw [abs_lt] at f20 f21 f30 f31 f50 f51
    simp at f20 f21 f30 f31 f50 f51
    obtain ⟨hn, hv⟩ := hfree
    rw [values_moved n i hn] at hv
    rw [node_iff] at hn
    rcases hn with rfl | rfl | rfl | rfl | rfl <;> fin_cases i <;> simp at hv <;> simp at h2 <;> linarith

theorem moved_runs (h : Legal (moved a l)) {u r : Field} (hs : Statics (moved a l) u r) : ∃ S o, run (moved a l) = .ok (S, o) ∧
    Reports (moved a l) u r o ∧ ∀ n i, IsNode (moved a l) n → Post.solution S .node n (axis i) = .ok (u n i) := by
  rcases run_cases h with ⟨_, hf⟩ | ⟨S, o, u', r', a1, _, a3, a4, a5⟩
  · exact absurd hf moved_not_stuck
  · have he := a4 u r hs
    exact ⟨S, o, a1, a3.congr h he, fun n i hn => by rw [a5 n i hn, (he n i hn).1]⟩

/-- The displacements of the truss of the code: the equilibrium under its loads. -/
def shippedU : Field := fun n => ![![0, 0, 0], ![2191 / 150000, -(251137 / 2400000), 0], ![209 / 76800, -(1403 / 19200), 0], ![0, 0, 0],
  ![52877 / 9600000, -(6573 / 400000), 0]] (Fin.ofNat 5 (n - 1))

/-- Its forces: reactions at the nodes 1 and 4, the loads at the nodes 2 and 5. -/
def shippedR : Field := fun n => ![![603 / 32, 125 / 4, 0], ![0, -100, 0], ![0, 0, 0], ![-(2203 / 32), 275 / 4, 0], ![50, 0, 0]] (Fin.ofNat 5 (n - 1))

theorem shipped_legal : Legal shipped := by
  rw [shipped_moved]
  refine moved_legal (.inl rfl) fun f hf => ?_
  rw [node_iff]
  simp only [List.mem_cons, List.not_mem_nil, or_false] at hf
  rcases hf with rfl | rfl <;> exact ⟨by simp, rfl⟩

theorem shipped_statics : Statics shipped shippedU shippedR := by
  rw [shipped_moved]
  refine ⟨?_, ?_, ?_⟩
  · intro n i x hx
    have hn : IsNode (moved 0 [⟨2, .UY, -100⟩, ⟨5, .UX, 50⟩]) n := by
      unfold valuesAt at hx
      obtain ⟨f, hf, _⟩ := List.mem_map.mp hx
      have hf2 := of_decide_eq_true (List.mem_filter.mp hf).2
      have := ((shipped_moved ▸ shipped_legal).fixs f (List.mem_filter.mp hf).1).1
      rw [hf2.1] at this
      exact this
    rw [values_moved n i hn] at hx
    rw [node_iff] at hn
    rcases hn with rfl | rfl | rfl | rfl | rfl <;> fin_cases i <;> simp at hx <;> simp [shippedU, Fin.ofNat, hx]
  · intro n i hn hv
    rw [values_moved n i hn] at hv
    rw [node_iff] at hn
    show _ = (valuesAt [⟨2, .UY, -100⟩, ⟨5, .UX, 50⟩] n i).sum
    rcases hn with rfl | rfl | rfl | rfl | rfl <;> fin_cases i <;> simp at hv <;> simp [valuesAt, dir, shippedR, Fin.ofNat]
  · intro n i hn
    rw [joint_moved]
    rw [node_iff] at hn
    rcases hn with rfl | rfl | rfl | rfl | rfl <;> fin_cases i <;> simp [shippedR, shippedU, Fin.ofNat] <;> norm_num

theorem checks_pass {S : Storage ℝ} {u : Field} (hS : ∀ n i, IsNode shipped n → Post.solution S .node n (axis i) = .ok (u n i))
    (h20 : u 2 0 - 146067 / 10 ^ 7 < 1 / 10 ^ 7) (h21 : u 2 1 + 1046405 / 10 ^ 7 < 1 / 10 ^ 7) (h30 : u 3 0 - 27214 / 10 ^ 7 < 1 / 10 ^ 7)
    (h31 : u 3 1 + 730729 / 10 ^ 7 < 1 / 10 ^ 7) (h50 : u 5 0 - 55080 / 10 ^ 7 < 1 / 10 ^ 7) (h51 : u 5 1 + 164325 / 10 ^ 7 < 1 / 10 ^ 7) :
    Vtk.collect (checkOne S) shippedChecks = .ok (shippedChecks.map fun _ => ()) := by
  refine Vtk.collect_eq _ _ _ fun c hc => ?_
  have key : ∀ n i (x : ℝ), IsNode shipped n → u n i - x < 1 / 10 ^ 7 → checkOne S ⟨n, axis i, x⟩ = .ok () := by
    intro n i x hn hx
    unfold checkOne
    simp only [hS n i hn, Res.ok_bind]
    unfold Res.check
    rw [if_pos (decide_eq_true hx)]
  have hn : ∀ n, 1 ≤ n → n ≤ 5 → IsNode shipped n := fun n h1 h2 => ⟨h1, h2⟩
  simp only [shippedChecks, List.mem_cons, List.not_mem_nil, or_false] at hc
  rcases hc with rfl | rfl | rfl | rfl | rfl | rfl
  · exact key 2 0 _ (hn _ (by norm_num) (by norm_num)) h20
  · exact key 2 1 _ (hn _ (by norm_num) (by norm_num)) (by rw [sub_neg_eq_add]; exact h21)
  · exact key 3 0 _ (hn _ (by norm_num) (by norm_num)) h30
  · exact key 3 1 _ (hn _ (by norm_num) (by norm_num)) (by rw [sub_neg_eq_add]; exact h31)
  · exact key 5 0 _ (hn _ (by norm_num) (by norm_num)) h50
  · exact key 5 1 _ (hn _ (by norm_num) (by norm_num)) (by rw [sub_neg_eq_add]; exact h51)

/-- **C110, the program as it is.** It ends without an error, all checks pass, and it reports the exact equilibrium of its truss. -/
theorem C110_shipped : ∃ o, main shipped shippedChecks = .ok o ∧ Reports shipped shippedU shippedR o ∧
    o.disp = [(0, 0), (2191 / 150000, -(251137 / 2400000)), (209 / 76800, -(1403 / 19200)), (0, 0), (52877 / 9600000, -(6573 / 400000))] ∧
    o.react = [(603 / 32, 125 / 4), (0, -100), (0, 0), (-(2203 / 32), 275 / 4), (50, 0)] := by
  obtain ⟨S, o, h1, h2, h3⟩ : ∃ S o, run shipped = .ok (S, o) ∧ Reports shipped shippedU shippedR o ∧
      ∀ n i, IsNode shipped n → Post.solution S .node n (axis i) = .ok (shippedU n i) := by
    have hs := shipped_statics
    have hl := shipped_legal
    rw [shipped_moved] at hs hl ⊢
    exact moved_runs hl hs
  refine ⟨o, ?_, h2, ?_, ?_⟩
  · unfold main
    rw [h1, Res.ok_bind]
    simp only
    rw [checks_pass h3] <;> first | rfl | (simp [shippedU, Fin.ofNat]; norm_num)
  · rw [h2.disp]
    simp [shipped, List.range_succ, shippedU, Fin.ofNat]
  · rw [h2.react]
    simp [shipped, List.range_succ, shippedR, Fin.ofNat]

/-- **C110 is violated: the checks do not compare.** They have no absolute value: with no loads and the supports moved by -1, all
displacements differ from the values in the checks by more than 0.8, and all checks pass. -/
theorem C110_checks_violated : ∃ S o, run (moved (-1) []) = .ok (S, o) ∧ main (moved (-1) []) shippedChecks = .ok o ∧
    ∀ c ∈ shippedChecks, ∃ x, Post.solution S .node c.node c.dof = .ok x ∧ 8 / 10 < |x - c.value| := by
  have hl : Legal (moved (-1) []) := moved_legal (.inr (by norm_num)) (by simp)
  have hs : Statics (moved (-1) []) (fun _ => ![-1, -1, 0]) (fun _ => 0) := by
    refine ⟨?_, ?_, ?_⟩
    · intro n i x hx
      have hn : IsNode (moved (-1) []) n := by
        unfold valuesAt at hx
        obtain ⟨f, hf, _⟩ := List.mem_map.mp hx
        have hf2 := of_decide_eq_true (List.mem_filter.mp hf).2
        have := (hl.fixs f (List.mem_filter.mp hf).1).1
        rw [hf2.1] at this
        exact this
      rw [values_moved n i hn] at hx
      fin_cases i <;> simp at hx
      · simp [hx.2]
      · simp [hx.2]
      · simp [hx]
    · intro n i hn hv
      show _ = (valuesAt [] n i).sum
      simp [valuesAt]
    · intro n i hn
      rw [joint_moved]
      simp
  obtain ⟨S, o, h1, h2, h3⟩ := moved_runs hl hs
  have h3' : ∀ n i, IsNode shipped n → Post.solution S .node n (axis i) = .ok ((fun _ => ![-1, -1, 0] : Field) n i) := h3
  refine ⟨S, o, h1, ?_, ?_⟩
  · unfold main
    rw [h1, Res.ok_bind]
    simp only
    rw [checks_pass h3'] <;> first | rfl | (simp; norm_num)
  · intro c hc
    have hn : ∀ n, 1 ≤ n → n ≤ 5 → IsNode shipped n := fun n h1 h2 => ⟨h1, h2⟩
    simp only [shippedChecks, List.mem_cons, List.not_mem_nil, or_false] at hc
    have hx : ∀ n, 1 ≤ n → n ≤ 5 → Post.solution S .node n .UX = .ok (-1) := fun n a b => h3' n 0 (hn n a b)
    have hy : ∀ n, 1 ≤ n → n ≤ 5 → Post.solution S .node n .UY = .ok (-1) := fun n a b => h3' n 1 (hn n a b)
    have big : ∀ x : ℝ, -1 / 9 < x → 8 / 10 < |-1 - x| := fun x hx => by
      rw [lt_abs]
      right
      linarith
    rcases hc with rfl | rfl | rfl | rfl | rfl | rfl
    · exact ⟨-1, hx 2 (by norm_num) (by norm_num), big _ (by norm_num)⟩
    · exact ⟨-1, hy 2 (by norm_num) (by norm_num), big _ (by norm_num)⟩
    · exact ⟨-1, hx 3 (by norm_num) (by norm_num), big _ (by norm_num)⟩
    · exact ⟨-1, hy 3 (by norm_num) (by norm_num), big _ (by norm_num)⟩
    · exact ⟨-1, hx 5 (by norm_num) (by norm_num), big _ (by norm_num)⟩
    · exact ⟨-1, hy 5 (by norm_num) (by norm_num), big _ (by norm_num)⟩

/-- **C110 is violated: there is no file with the deformed model**, which the comment says truss2D1.vtk is: the points of both files are
the nodes as given, and the displacement of a node is not zero. -/
theorem C110_deformed_violated : ∃ o f d, main shipped shippedChecks = .ok o ∧ o.files "truss2D1.vtk" = some f ∧ Vtk.readVtk f = some d ∧
    d.points = [⟨0, 0, 0⟩, ⟨192, 0, 0⟩, ⟨192, 144, 0⟩, ⟨384, 0, 0⟩, ⟨384, 144, 0⟩] ∧ o.disp[1]? = some ((2191 / 150000 : ℝ), (-(251137 / 2400000) : ℝ)) := by
  obtain ⟨o, h1, h2, h3, _⟩ := C110_shipped
  obtain ⟨f, f1, f2⟩ := h2.after
  refine ⟨o, f, _, h1, f1, f2, ?_, by rw [h3]; rfl⟩
  have : ((List.range 5).map fun k => (⟨coord (moved 0 [⟨2, .UY, -100⟩, ⟨5, .UX, 50⟩]) (k + 1) 0,
      coord (moved 0 [⟨2, .UY, -100⟩, ⟨5, .UX, 50⟩]) (k + 1) 1, coord (moved 0 [⟨2, .UY, -100⟩, ⟨5, .UX, 50⟩]) (k + 1) 2⟩ : Post.Pt ℝ)) =
      [⟨0, 0, 0⟩, ⟨192, 0, 0⟩, ⟨192, 144, 0⟩, ⟨384, 0, 0⟩, ⟨384, 144, 0⟩] := by
    simp [List.range_succ, coord_1, coord_2, coord_3, coord_4, coord_5]
  exact this

/-! ## Examples -/

/-- The truss of the code is no mechanism: `C110_solved_partial` applies to it. -/
example : ∃ E0, ∀ E ≥ E0, ∃ S o u r, run (withE shipped E) = .ok (S, o) ∧ Statics (withE shipped E) u r ∧ Reports (withE shipped E) u r o := by
  have hns := moved_not_stuck (a := 0) (l := [⟨2, .UY, -100⟩, ⟨5, .UX, 50⟩])
  rw [← shipped_moved] at hns
  push Not at hns
  refine C110_solved_partial shipped_legal (by norm_num [shipped]) (by norm_num [shipped]) (fun w hw => ?_) hns.1 hns.2.1 hns.2.2.1
  obtain ⟨h1, ⟨n, i, h2⟩, h3⟩ := hw
  rw [shipped_moved] at h1 h3
  have hfree : IsNode (moved 0 [⟨2, .UY, -100⟩, ⟨5, .UX, 50⟩]) n ∧ valuesAt (moved 0 [⟨2, .UY, -100⟩, ⟨5, .UX, 50⟩]).fixs n i = [] := by
    by_contra hno
    exact h2 (h1 n i (by rw [not_and_or] at hno; exact hno))
  have zero : ∀ n i, IsNode (moved 0 [⟨2, .UY, -100⟩, ⟨5, .UX, 50⟩]) n → i = 2 ∨ n = 1 ∨ n = 4 → w n i = 0 := by
    intro n i hn hi
    refine h1 n i (.inr ?_)
    rw [values_moved n i hn]
    rcases hi with rfl | hi
    · simp
    · rw [if_pos hi]
      split <;> simp
  have isn : ∀ n, 1 ≤ n → n ≤ 5 → IsNode (moved 0 [⟨2, .UY, -100⟩, ⟨5, .UX, 50⟩]) n := fun n h1 h2 => ⟨h1, h2⟩
  have z10 := zero 1 0 (isn 1 (by norm_num) (by norm_num)) (by simp)
  have z11 := zero 1 1 (isn 1 (by norm_num) (by norm_num)) (by simp)
  have z40 := zero 4 0 (isn 4 (by norm_num) (by norm_num)) (by simp)
  have z41 := zero 4 1 (isn 4 (by norm_num) (by norm_num)) (by simp)
  have z12 := zero 1 2 (isn 1 (by norm_num) (by norm_num)) (by simp)
  have z22 := zero 2 2 (isn 2 (by norm_num) (by norm_num)) (by simp)
  have z32 := zero 3 2 (isn 3 (by norm_num) (by norm_num)) (by simp)
  have z42 := zero 4 2 (isn 4 (by norm_num) (by norm_num)) (by simp)
  have z52 := zero 5 2 (isn 5 (by norm_num) (by norm_num)) (by simp)
  have b13 := h3 (1, 3) (by simp [moved, shipped])
  have b12 := h3 (1, 2) (by simp [moved, shipped])
  have b23 := h3 (2, 3) (by simp [moved, shipped])
  have b35 := h3 (3, 5) (by simp [moved, shipped])
  have b34 := h3 (3, 4) (by simp [moved, shipped])
  have b45 := h3 (4, 5) (by simp [moved, shipped])
  have b25 := h3 (2, 5) (by simp [moved, shipped])
  rw [Fin.sum_univ_three] at b13 b12 b23 b35 b34 b45 b25
  simp only [coord_1, coord_2, coord_3, coord_4, coord_5, z10, z11, z40, z41, z12, z22, z32, z42, z52] at b13 b12 b23 b35 b34 b45 b25
  norm_num at b13 b12 b23 b35 b34 b45 b25
  obtain ⟨hn, hv⟩ := hfree
  rw [values_moved n i hn] at hv
  rw [node_iff] at hn
  rcases hn with rfl | rfl | rfl | rfl | rfl <;> fin_cases i <;> simp at hv <;> apply h2 <;> simp <;> linarith

/-- One bar along x, held at one end only: a mechanism. -/
def oneBar : Input := ⟨[![0, 0, 0], ![1, 0, 0]], [(1, 2)], 2, 3, [⟨1, .UX, 0⟩, ⟨1, .UY, 0⟩, ⟨1, .UZ, 0⟩, ⟨2, .UZ, 0⟩], [⟨2, .UX, 7⟩]⟩

theorem oneBar_legal : Legal oneBar := by
  have hl : length2 oneBar (1, 2) = 144 := by
    unfold length2 coord oneBar
    rw [Fin.sum_univ_three]
    simp
    norm_num
  refine ⟨by simp [oneBar], ?_, ?_, ?_, ?_, ?_, ?_, by simp [oneBar]⟩
  · intro b hb
    obtain rfl : b = (1, 2) := by simpa [oneBar] using hb
    exact ⟨⟨le_rfl, by simp [oneBar]⟩, ⟨by norm_num, by simp [oneBar]⟩⟩
  · intro b hb
    obtain rfl : b = (1, 2) := by simpa [oneBar] using hb
    rw [hl]
    norm_num
  · intro n hn
    have : 1 ≤ n ∧ n ≤ 2 := hn
    refine ⟨(1, 2), by simp [oneBar], ?_⟩
    show n = 1 ∨ n = 2
    omega
  · intro f hf
    simp only [oneBar, List.mem_cons, List.not_mem_nil, or_false] at hf
    rcases hf with rfl | rfl | rfl | rfl <;> exact ⟨⟨by norm_num, by simp [oneBar]⟩, rfl, .inl rfl⟩
  · show [(1, DofType.UX), (1, .UY), (1, .UZ), (2, .UZ)].Nodup
    decide
  · intro f hf
    simp only [oneBar, List.mem_cons, List.not_mem_nil, or_false] at hf
    subst hf
    exact ⟨⟨by norm_num, by simp [oneBar]⟩, rfl⟩

/-- `C110_mechanism` applies to it. -/
example : run oneBar = .fatal := by
  refine C110_mechanism oneBar_legal (w := fun n i => if n = 2 ∧ i = 1 then 1 else 0) ⟨?_, ⟨2, 1, by simp⟩, ?_⟩
  · intro n i h
    show (if n = 2 ∧ i = 1 then (1 : ℝ) else 0) = 0
    rw [if_neg]
    rintro ⟨rfl, rfl⟩
    rcases h with h | h
    · exact h ⟨by norm_num, by simp [oneBar]⟩
    · exact h (by simp [valuesAt, oneBar, dir])
  · intro b hb
    obtain rfl : b = (1, 2) := by simpa [oneBar] using hb
    rw [Fin.sum_univ_three]
    simp [coord, oneBar]

end Nla3d.Truss
