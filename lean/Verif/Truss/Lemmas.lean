import Verif.Truss.Spec
import Verif.Struct.Units
import Verif.Storage.Rows

/-!
# The truss program as a model of the linear solver
-/

noncomputable section

namespace Nla3d.Truss

open Nla3d.Dof Nla3d.Storage Nla3d.Solver Nla3d.Struct Finset
open scoped Matrix

/-- A bar of the table. -/
def bar (t : Input) (b : Nat × Nat) : Bar := ⟨![b.1, b.2], t.E, t.A⟩

/-- The bars of the table. -/
def bars (t : Input) : List Bar := t.elementTable.map (bar t)

/-- The elements of the program. -/
def elems (t : Input) : List (LinEl ℝ) := (bars t).map (Bar.el (coord t))

/-- A field as values at DoFs. -/
def keyed (u : Field) : Key → ℝ
  | (.node, n, .UX) => u n 0
  | (.node, n, .UY) => u n 1
  | (.node, n, .UZ) => u n 2
  | _ => 0

theorem keyed_axis (u : Field) (n : Nat) (i : Fin 3) : keyed u (.node, n, axis i) = u n i := by
  fin_cases i <;> rfl

theorem nodal_keyed (u : Field) (n : Nat) : nodal (keyed u) n = u n := funext fun i => keyed_axis u n i

variable {t : Input}

theorem key_iff (b : Bc ℝ) (n : Nat) (i : Fin 3) : keyOf b = (.node, n, axis i) ↔ b.node = n ∧ dir b.dof = some i := by
  unfold keyOf
  rw [Prod.mk.injEq, Prod.mk.injEq]
  have : b.dof = axis i ↔ dir b.dof = some i := by
    cases b.dof <;> fin_cases i <;> simp [axis, dir]
  rw [this]
  simp

theorem valuesAt_eq (l : List (Bc ℝ)) (n : Nat) (i : Fin 3) :
    valuesAt l n i = (l.filter fun b => keyOf b = (.node, n, axis i)).map Bc.value := by
  unfold valuesAt
  congr 1
  refine List.filter_congr fun b _ => ?_
  rw [decide_eq_decide]
  exact (key_iff b n i).symm

theorem loadsOn_eq (l : List (Bc ℝ)) (n : Nat) (i : Fin 3) : loadsOn (.node, n, axis i) l = (valuesAt l n i).sum := by
  rw [valuesAt_eq]
  rfl

theorem lastFix_eq (l : List (Bc ℝ)) (n : Nat) (i : Fin 3) : lastFix (.node, n, axis i) l = (valuesAt l n i).getLast? := by
  rw [valuesAt_eq]
  rfl

theorem fixed_iff (l : List (Bc ℝ)) (n : Nat) (i : Fin 3) : (Side.node, n, axis i) ∈ fixKeys l ↔ valuesAt l n i ≠ [] := by
  rw [← lastFix_isSome, lastFix_eq]
  cases h : valuesAt l n i with
  | nil => simp
  | cons a as => simp

theorem valuesAt_once (h : Legal t) (n : Nat) (i : Fin 3) : (valuesAt t.fixs n i).length ≤ 1 := by
  unfold valuesAt
  rw [List.length_map]
  have hn := h.once
  generalize t.fixs = l at hn
  by_contra hlen
  have hsub : ((l.filter fun b => b.node = n ∧ dir b.dof = some i).map fun f => (f.node, f.dof)).Nodup :=
    hn.sublist (List.filter_sublist.map _)
  have hall : ∀ p ∈ (l.filter fun b => b.node = n ∧ dir b.dof = some i).map (fun f => (f.node, f.dof)), p = (n, axis i) := by
    intro p hp
    obtain ⟨f, hf, rfl⟩ := List.mem_map.mp hp
    have := (key_iff f n i).mpr (of_decide_eq_true (List.mem_filter.mp hf).2)
    unfold keyOf at this
    rw [Prod.mk.injEq] at this
    exact this.2
  revert hlen hsub hall
  generalize l.filter _ = l'
  match l' with
  | [] => simp
  | [a] => simp
  | a :: b :: l'' =>
    intro _ h1 h2
    have ha := h2 _ (by simp : (a.node, a.dof) ∈ _)
    have hb := h2 _ (by simp : (b.node, b.dof) ∈ _)
    simp only [List.map_cons, List.nodup_cons, List.mem_cons, not_or] at h1
    exact absurd (ha.trans hb.symm) h1.1.1

theorem lastFix_iff (h : Legal t) (n : Nat) (i : Fin 3) (x : ℝ) : lastFix (.node, n, axis i) t.fixs = some x ↔ x ∈ valuesAt t.fixs n i := by
  rw [lastFix_eq]
  have := valuesAt_once h n i
  match hv : valuesAt t.fixs n i with
  | [] => simp
  | [a] => simp [eq_comm]
  | a :: b :: l => rw [hv] at this; simp at this

/-! ## Geometry -/

theorem positions_length : (positions t).length = t.nodeTable.length := List.length_map _

theorem coord_positions {n : Nat} (h : IsNode t n) : (positions t)[n - 1]? = some (coord t n) := by
  have hn : n - 1 < t.nodeTable.length := by have := h.1; have := h.2; omega
  unfold positions
  rw [List.getElem?_map, List.getElem?_eq_getElem hn]
  show some _ = some _
  congr 1
  funext i
  unfold coord
  rw [List.getD_eq_getElem?_getD, List.getElem?_eq_getElem hn, Option.getD_some, mul_comm]

theorem nodePos_eq {n : Nat} (h : IsNode t n) : nodePos t n = .ok (coord t n) := by
  unfold nodePos
  rw [if_pos ⟨h.1, by rw [positions_length]; exact h.2⟩]
  unfold Res.read
  rw [coord_positions h]

theorem length2_eq (b : Nat × Nat) : length2 t b = Bars.length (coord t b.2 - coord t b.1) ^ 2 := by
  unfold Bars.length
  rw [Real.sq_sqrt (by rw [Bars.qlength_eq]; exact Bars.dot_self_nonneg _)]
  unfold length2 Bars.qlength
  rw [Fin.sum_univ_three]
  simp only [Pi.sub_apply]
  ring

theorem sqrt_length2 (b : Nat × Nat) : √(length2 t b) = Bars.length (coord t b.2 - coord t b.1) := by
  rw [length2_eq, Real.sqrt_sq (Bars.length_nonneg _)]

theorem coord_ne {b : Nat × Nat} (h : length2 t b ≠ 0) : coord t b.1 ≠ coord t b.2 := by
  intro hh
  apply h
  unfold length2
  rw [hh]
  simp

theorem strain_eq (u : Field) (b : Nat × Nat) : strain t u b =
    Bars.elongation (fun a => coord t ((bar t b).n a)) (fun a => u ((bar t b).n a)) / Bars.length (coord t b.2 - coord t b.1) := by
  unfold strain Bars.elongation Bars.dot
  rw [length2_eq, Fin.sum_univ_three, div_div]
  show _ = _ / (Bars.length (coord t b.2 - coord t b.1) * Bars.length (coord t b.2 - coord t b.1))
  rw [← pow_two]
  rfl

theorem truss_of (h : Legal t) : Struct.Truss (coord t) (bars t) (elems t) := by
  have hne : ∀ b ∈ bars t, coord t (b.n 0) ≠ coord t (b.n 1) := by
    intro b hb
    obtain ⟨c, hc, rfl⟩ := List.mem_map.mp hb
    exact coord_ne (h.long c hc)
  exact ⟨List.forall₂_map_right_iff.mpr (List.forall₂_same.mpr fun b hb => Bar.el_truss (hne b hb)), hne⟩

theorem pull_eq (u : Field) (b : Nat × Nat) (n : Nat) (i : Fin 3) : pull t u b n i =
    (bar t b).A * ((bar t b).E * (Bars.elongation (fun a => coord t ((bar t b).n a)) (fun a => u ((bar t b).n a)) /
      Bars.length (coord t b.2 - coord t b.1))) * (bar t b).sign n * (bar t b).dir (coord t) i := by
  unfold pull
  rw [strain_eq, sqrt_length2]
  unfold Bar.sign Bar.dir Bars.unit
  show _ = t.A * (t.E * _) * ((if b.2 = n then 1 else 0) - (if b.1 = n then 1 else 0)) * ((coord t b.2 - coord t b.1) i *
    (1 / Bars.length (coord t b.2 - coord t b.1)))
  rw [Pi.sub_apply]
  simp only [eq_comm (a := n)]
  ring

theorem force_pull (h : Legal t) (v : Key → ℝ) {b : Nat × Nat} (hb : b ∈ t.elementTable) (n : Nat) (i : Fin 3) :
    ((bar t b).el (coord t)).forceOn v (.node, n, axis i) = pull t (fun n => nodal v n) b n i := by
  have hne : coord t ((bar t b).n 0) ≠ coord t ((bar t b).n 1) := coord_ne (h.long b hb)
  rw [(Bar.el_truss hne).forceOn (fun i _ j _ => Bar.el_symm hne i j) hne v
    (Bars.C42_stress (pos := fun a => coord t ((bar t b).n a)) hne _ _) n i, pull_eq]
  rfl

theorem sum_pull (h : Legal t) (v : Key → ℝ) (n : Nat) (i : Fin 3) : ((elems t).map fun x => x.forceOn v (.node, n, axis i)).sum =
    (t.elementTable.map fun b => pull t (fun n => nodal v n) b n i).sum := by
  unfold elems bars
  rw [List.map_map, List.map_map]
  exact congrArg List.sum (List.map_congr_left fun b hb => force_pull h v hb n i)

theorem barEl_eq (h : Legal t) {b : Nat × Nat} (hb : b ∈ t.elementTable) : barEl t b = .ok ((bar t b).el (coord t)) := by
  unfold barEl
  rw [nodePos_eq (h.ends b hb).1, nodePos_eq (h.ends b hb).2]
  simp only [Res.ok_bind]
  have hpos : (![coord t b.1, coord t b.2] : Fin 2 → Fin 3 → ℝ) = fun a => coord t ((bar t b).n a) := by
    funext a; fin_cases a <;> rfl
  obtain ⟨Ke, h1, _⟩ := Bars.C42_stiffness (pos := fun a => coord t ((bar t b).n a)) (coord_ne (h.long b hb)) t.E t.A
  rw [hpos, h1]
  simp only
  unfold Bar.el
  have h1' : Bars.trussK (fun a => coord t ((bar t b).n a)) (bar t b).E (bar t b).A = some Ke := h1
  rw [h1']
  rfl

theorem elems_eq (h : Legal t) : Vtk.collect (barEl t) t.elementTable = .ok (elems t) := by
  rw [Vtk.collect_eq (barEl t) (fun b => (bar t b).el (coord t)) _ fun b hb => barEl_eq h hb]
  unfold elems bars
  rw [List.map_map]
  rfl

/-! ## The model -/

theorem mem_regs (h : Legal t) (k : Key) : k ∈ regKeys (calls t) ↔ ∃ n i, IsNode t n ∧ k = (.node, n, axis i) := by
  obtain ⟨s, n, d⟩ := k
  rw [mem_regKeys]
  have hd : d ∈ [DofType.UX, .UY, .UZ] ↔ ∃ i, d = axis i := by
    constructor
    · intro hd
      simp only [List.mem_cons, List.not_mem_nil, or_false] at hd
      rcases hd with rfl | rfl | rfl
      · exact ⟨0, rfl⟩
      · exact ⟨1, rfl⟩
      · exact ⟨2, rfl⟩
    · rintro ⟨i, rfl⟩
      fin_cases i <;> simp [axis]
  constructor
  · rintro ⟨ts, h1, h2⟩
    unfold calls at h1
    obtain ⟨b, hb, hc⟩ := List.mem_flatMap.mp h1
    simp only [List.mem_cons, List.not_mem_nil, or_false, Prod.mk.injEq] at hc
    have := h.ends b hb
    rcases hc with ⟨rfl, rfl, rfl⟩ | ⟨rfl, rfl, rfl⟩
    · obtain ⟨i, rfl⟩ := hd.mp h2
      exact ⟨_, i, this.1, rfl⟩
    · obtain ⟨i, rfl⟩ := hd.mp h2
      exact ⟨_, i, this.2, rfl⟩
  · rintro ⟨n', i, hn, he⟩
    rw [Prod.mk.injEq, Prod.mk.injEq] at he
    obtain ⟨rfl, rfl, rfl⟩ := he
    obtain ⟨b, hb, hc⟩ := h.used n hn
    refine ⟨[.UX, .UY, .UZ], List.mem_flatMap.mpr ⟨b, hb, ?_⟩, hd.mpr ⟨i, rfl⟩⟩
    rcases hc with rfl | rfl <;> simp

theorem regs_card (h : Legal t) : (regKeys (calls t)).toFinset.card ≤ 3 * t.nodeTable.length := by
  have hsub : (regKeys (calls t)).toFinset ⊆ ((Finset.range t.nodeTable.length) ×ˢ (Finset.univ : Finset (Fin 3))).image
      fun p => (Side.node, p.1 + 1, axis p.2) := by
    intro k hk
    obtain ⟨n, i, hn, rfl⟩ := (mem_regs h k).mp (List.mem_toFinset.mp hk)
    refine Finset.mem_image.mpr ⟨(n - 1, i), ?_, ?_⟩
    · rw [Finset.mem_product, Finset.mem_range]
      exact ⟨by have := hn.1; have := hn.2; omega, Finset.mem_univ _⟩
    · show (Side.node, n - 1 + 1, axis i) = _
      rw [Nat.sub_add_cancel hn.1]
  refine (Finset.card_le_card hsub).trans (Finset.card_image_le.trans ?_)
  rw [Finset.card_product, Finset.card_range, Finset.card_univ, Fintype.card_fin, mul_comm]

theorem storage_mpcs : (storage t).mpcs = [] := rfl

theorem storage_nNodes : (storage t).nNodes = t.nodeTable.length := rfl

theorem storage_elements : (storage t).elements = t.elementTable.map fun b => [b.1, b.2] := rfl

theorem legal_model (h : Legal t) : LegalModel (storage t) (calls t) [] (fixKeys t.fixs) := by
  refine ⟨⟨?_, ?_, ?_, ?_, ?_, rfl⟩, ?_, ?_, ?_⟩
  · intro c hc
    obtain ⟨b, hb, hc⟩ := List.mem_flatMap.mp hc
    have := h.ends b hb
    simp only [List.mem_cons, List.not_mem_nil, or_false] at hc
    rcases hc with rfl | rfl
    · exact this.1
    · exact this.2
  · intro c hc
    obtain ⟨b, hb, hc⟩ := List.mem_flatMap.mp hc
    simp only [List.mem_cons, List.not_mem_nil, or_false] at hc
    rcases hc with rfl | rfl <;> simp
  · have h1 : IsNode t 1 := ⟨le_rfl, List.length_pos_iff.mpr h.some⟩
    exact List.ne_nil_of_mem ((mem_regs h (.node, 1, axis 0)).mpr ⟨1, 0, h1, rfl⟩)
  · intro k hk
    obtain ⟨f, hf, rfl⟩ := List.mem_map.mp hk
    obtain ⟨hn, hd, _⟩ := h.fixs f hf
    obtain ⟨i, hi⟩ := Option.isSome_iff_exists.mp hd
    exact (mem_regs h _).mpr ⟨f.node, i, hn, (key_iff f f.node i).mpr ⟨rfl, hi⟩⟩
  · intro m hm; rw [storage_mpcs] at hm; simp at hm
  · intro ns hns n hn
    rw [storage_elements] at hns
    obtain ⟨b, hb, rfl⟩ := List.mem_map.mp hns
    have := h.ends b hb
    simp only [List.mem_cons, List.not_mem_nil, or_false] at hn
    rcases hn with rfl | rfl
    · exact this.1
    · exact this.2
  · intro m hm; rw [storage_mpcs] at hm; simp at hm
  · rw [storage_mpcs]
    have := regs_card h
    have := h.size
    show _ + 0 < 4294967295
    omega

theorem loads_reg (h : Legal t) : ∀ l ∈ t.loads, keyOf l ∈ regKeys (calls t) := by
  intro l hl
  obtain ⟨hn, hd⟩ := h.loads l hl
  obtain ⟨i, hi⟩ := Option.isSome_iff_exists.mp hd
  exact (mem_regs h _).mpr ⟨l.node, i, hn, (key_iff l l.node i).mpr ⟨rfl, hi⟩⟩

theorem placed (h : Legal t) : ∀ x ∈ elems t, Placed (storage t) (calls t) x := by
  intro x hx
  obtain ⟨b', hb', rfl⟩ := List.mem_map.mp hx
  obtain ⟨b, hb, rfl⟩ := List.mem_map.mp hb'
  refine ⟨⟨?_, ?_, ?_⟩, ?_, fun i _ j _ => Bar.el_symm (coord_ne (h.long b hb)) i j⟩
  · obtain ⟨k, hk⟩ := List.getElem?_of_mem hb
    refine ⟨k + 1, ?_⟩
    unfold elNodes
    rw [if_neg (Nat.succ_ne_zero k), storage_elements, Nat.add_sub_cancel, List.getElem?_map, hk]
    rfl
  · intro n hn d hd
    have hn' : n = b.1 ∨ n = b.2 := by
      have : n ∈ [b.1, b.2] := hn
      simpa using this
    have hd' : d ∈ [DofType.UX, .UY, .UZ] := hd
    refine (mem_regs h _).mpr ⟨n, ?_⟩
    have hnode : IsNode t n := by
      rcases hn' with rfl | rfl
      · exact (h.ends b hb).1
      · exact (h.ends b hb).2
    simp only [List.mem_cons, List.not_mem_nil, or_false] at hd'
    rcases hd' with rfl | rfl | rfl
    · exact ⟨0, hnode, rfl⟩
    · exact ⟨1, hnode, rfl⟩
    · exact ⟨2, hnode, rfl⟩
  · show [DofType.UX, .UY, .UZ].Nodup
    decide
  · show [b.1, b.2].Nodup
    have : b.1 ≠ b.2 := fun hh => coord_ne (h.long b hb) (by rw [hh])
    simpa using this

theorem fixs_ok (h : Legal t) : ∀ f ∈ t.fixs, f.value = 0 ∨ (1 / 10 ^ 20 : ℝ) < |f.value| := fun f hf => (h.fixs f hf).2.2

/-! ## Fields and values at DoFs -/

/-- The field of values at DoFs. -/
def fieldOf (v : Key → ℝ) : Field := fun n => nodal v n

theorem statics_of (h : Legal t) {u r : Key → ℝ} {l : List ℝ} (hm : Meets (storage t) (calls t) [] t.loads t.fixs u r)
    (hb : Balanced (calls t) (elems t) ((storage t).mpcs ++ []) l u r) : Statics t (fieldOf u) (fieldOf r) := by
  refine ⟨fun n i x hx => ?_, fun n i hn hf => ?_, fun n i hn => ?_⟩
  · have hk : (Side.node, n, axis i) ∈ regKeys (calls t) := by
      refine (legal_model h).setup.cons _ ((fixed_iff _ _ _).mpr (List.ne_nil_of_mem hx))
    exact hm.prescribed _ hk x ((lastFix_iff h n i x).mpr hx)
  · rw [← loadsOn_eq]
    exact hm.applied _ ((mem_regs h _).mpr ⟨n, i, hn, rfl⟩) (by rw [fixed_iff, not_not]; exact hf)
  · have := hb _ ((mem_regs h _).mpr ⟨n, i, hn, rfl⟩)
    rw [sum_pull h, storage_mpcs] at this
    simp only [conForce, List.nil_append, List.zip_nil_left, List.map_nil, List.sum_nil, add_zero] at this
    exact this

theorem meets_of (h : Legal t) {u r : Field} (hs : Statics t u r) :
    Meets (storage t) (calls t) [] t.loads t.fixs (keyed u) (keyed r) ∧
    Balanced (calls t) (elems t) ((storage t).mpcs ++ []) [] (keyed u) (keyed r) := by
  refine ⟨⟨?_, ?_, ?_⟩, ?_⟩
  · intro k hk x hx
    obtain ⟨n, i, hn, rfl⟩ := (mem_regs h k).mp hk
    rw [keyed_axis]
    exact hs.support n i x ((lastFix_iff h n i x).mp hx)
  · intro k hk hf
    obtain ⟨n, i, hn, rfl⟩ := (mem_regs h k).mp hk
    rw [fixed_iff, not_not] at hf
    rw [keyed_axis, loadsOn_eq]
    exact hs.load n i hn hf
  · intro m hm; rw [storage_mpcs] at hm; simp at hm
  · intro k hk
    obtain ⟨n, i, hn, rfl⟩ := (mem_regs h k).mp hk
    rw [sum_pull h, storage_mpcs, keyed_axis]
    simp only [conForce, List.nil_append, List.zip_nil_left, List.map_nil, List.sum_nil, add_zero, nodal_keyed]
    exact hs.joint n i hn

theorem free_iff (h : Legal t) (n : Nat) (i : Fin 3) :
    (Side.node, n, axis i) ∈ freeKeys (calls t) t.fixs ↔ IsNode t n ∧ valuesAt t.fixs n i = [] := by
  rw [mem_freeKeys, fixed_iff, not_not, mem_regs h]
  refine and_congr_left fun _ => ⟨?_, fun hn => ⟨n, i, hn, rfl⟩⟩
  rintro ⟨n', i', hn, he⟩
  rw [Prod.mk.injEq, Prod.mk.injEq] at he
  rw [he.2.1]
  exact hn

theorem free_key (h : Legal t) {k : Key} (hk : k ∈ freeKeys (calls t) t.fixs) : ∃ n i, k = (.node, n, axis i) := by
  obtain ⟨n, i, _, rfl⟩ := (mem_regs h k).mp (mem_freeKeys.mp hk).1
  exact ⟨n, i, rfl⟩

end Nla3d.Truss
