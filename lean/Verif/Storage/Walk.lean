import Verif.Storage.Assemble
import Mathlib.Algebra.BigOperators.Intervals
import Mathlib.Algebra.BigOperators.Ring.Finset
import Mathlib.Algebra.BigOperators.Fin
import Mathlib.Tactic.Abel

/-!
# The assembly loops of `Element`: packed order and scatter-add
-/

namespace Nla3d.Storage

open Nla3d.Dof Nla3d.Block Nla3d.Sparse

variable {K : Type}

/-- Upper triangle of an `n × n` matrix, row by row (0-based). -/
def packed (n : Nat) : List (Nat × Nat) := (List.range n).flatMap (fun a => (List.range' a (n - a)).map (fun b => (a, b)))

theorem mem_packed {n a b : Nat} : (a, b) ∈ packed n ↔ a ≤ b ∧ b < n := by
  unfold packed
  simp only [List.mem_flatMap, List.mem_range, List.mem_map, List.mem_range'_1, Prod.mk.injEq]
  constructor
  · rintro ⟨a', h1, b', h2, rfl, rfl⟩; omega
  · rintro ⟨h1, h2⟩; exact ⟨a, by omega, b, by omega, rfl, rfl⟩

theorem range_mul (nn dim : Nat) :
    List.range (nn * dim) = (List.range nn).flatMap (fun i => (List.range dim).map (fun d => i * dim + d)) := by
  induction nn with
  | zero => simp
  | succ nn ih =>
    rw [List.range_succ, List.flatMap_append, ← ih, Nat.succ_mul, List.range_add]
    simp

theorem range'_mul (i m dim : Nat) :
    List.range' (i * dim) (m * dim) = (List.range' i m).flatMap (fun j => (List.range dim).map (fun d => j * dim + d)) := by
  induction m generalizing i with
  | zero => simp
  | succ m ih =>
    rw [List.range'_succ, List.flatMap_cons, ← ih (i + 1), Nat.succ_mul, Nat.succ_mul, Nat.add_comm (m * dim) dim,
      ← List.range'_append_1 (s := i * dim) (m := dim) (n := m * dim)]
    congr 1
    rw [List.range'_eq_map_range]

theorem filter_range (d dim : Nat) (h : d ≤ dim) :
    (List.range dim).filter (fun x => ¬ x < d) = List.range' d (dim - d) := by
  have : List.range dim = List.range d ++ List.range' d (dim - d) := by
    have := List.range'_append_1 (s := 0) (m := d) (n := dim - d)
    rw [Nat.zero_add, show d + (dim - d) = dim by omega] at this
    rw [List.range_eq_range', List.range_eq_range', this]
  rw [this, List.filter_append]
  have h1 : (List.range d).filter (fun x => decide (¬ x < d)) = [] := by
    rw [List.filter_eq_nil_iff]; intro x hx; simpa using List.mem_range.mp hx
  have h2 : (List.range' d (dim - d)).filter (fun x => decide (¬ x < d)) = List.range' d (dim - d) := by
    rw [List.filter_eq_self]; intro x hx; simp [List.mem_range'_1] at hx; simp; omega
  rw [h1, h2, List.nil_append]

theorem row_eq {nn dim i di : Nat} (hi : i < nn) (hd : di < dim) :
    List.range' (i * dim + di) (nn * dim - (i * dim + di)) =
    (List.range' i (nn - i)).flatMap (fun j => ((List.range dim).filter (fun dj => ¬ (i = j ∧ dj < di))).map
      (fun d => j * dim + d)) := by
  obtain ⟨m, rfl⟩ : ∃ m, nn = i + 1 + m := ⟨nn - (i + 1), by omega⟩
  rw [show i + 1 + m - i = m + 1 by omega, List.range'_succ, List.flatMap_cons]
  have h1 : ((List.range dim).filter (fun dj => ¬ (i = i ∧ dj < di))) = List.range' di (dim - di) := by
    rw [← filter_range di dim (by omega)]
    congr 1
    funext x
    simp
  have h2 : (List.range' (i + 1) m).flatMap (fun j => ((List.range dim).filter (fun dj => ¬ (i = j ∧ dj < di))).map
      (fun d => j * dim + d)) = List.range' ((i + 1) * dim) (m * dim) := by
    rw [range'_mul]
    apply List.flatMap_congr
    intro j hj
    congr 1
    rw [List.filter_eq_self]
    intro x _
    simp only [List.mem_range'_1] at hj
    simp
    omega
  rw [h2, h1]
  have h3 : (List.range' di (dim - di)).map (fun d => i * dim + d) = List.range' (i * dim + di) (dim - di) := by
    rw [List.range'_eq_map_range, List.range'_eq_map_range, List.map_map]
    apply List.map_congr_left
    intro x _
    simp only [Function.comp_apply]
    omega
  rw [h3]
  have e1 : (i + 1) * dim = (i * dim + di) + (dim - di) := by rw [Nat.succ_mul]; omega
  have e2 : (i + 1 + m) * dim - (i * dim + di) = (dim - di) + m * dim := by
    rw [Nat.add_mul (i + 1) m, Nat.succ_mul]; omega
  rw [e1, e2, List.range'_append_1]

theorem walk_eq (nn dim : Nat) :
    walk nn dim = (packed (nn * dim)).map (fun p => (p.1 / dim, p.1 % dim, p.2 / dim, p.2 % dim)) := by
  unfold walk packed
  rw [range_mul, List.map_flatMap, List.flatMap_assoc]
  apply List.flatMap_congr
  intro i hi
  rw [List.mem_range] at hi
  rw [List.flatMap_map]
  apply List.flatMap_congr
  intro di hdi
  rw [List.mem_range] at hdi
  rw [row_eq hi hdi, List.map_map, List.map_flatMap]
  apply List.flatMap_congr
  intro j hj
  rw [List.map_map]
  apply List.map_congr_left
  intro dj hdj
  have hdj' : dj < dim := by simpa using (List.mem_filter.mp hdj).1
  have hpos : 0 < dim := by omega
  have a1 : ∀ x y, y < dim → (x * dim + y) / dim = x := by
    intro x y hy
    rw [Nat.add_comm, Nat.add_mul_div_right _ _ hpos, Nat.div_eq_of_lt hy, Nat.zero_add]
  have a2 : ∀ x y, y < dim → (x * dim + y) % dim = y := by
    intro x y hy
    rw [Nat.add_comm, Nat.add_mul_mod_self_right, Nat.mod_eq_of_lt hy]
  simp only [Function.comp_apply, a1 i di hdi, a1 j dj hdj', a2 i di hdi, a2 j dj hdj']

/-- Local (node, DoF) pair number `a` of an element with the given nodes and DoFs per node, as a key. -/
def localKey (nodes : List Nat) (dofs : List DofType) (a : Nat) : Key :=
  (.node, nodes.getD (a / dofs.length) 0, dofs.getD (a % dofs.length) .UNDEFINED)

/-- The additions of the assembly loops. -/
def elemContribs (w : Which) (eq : Nat → Nat) (Ke : Nat → Nat → K) (n : Nat) : List (Contrib K) :=
  (packed n).map (fun p => .mat w (eq p.1) (eq p.2) (Ke p.1 p.2))

theorem addValueEq_frame [Add K] {S S' : Storage K} {w : Which} {i j : Nat} {x : K}
    (h : S.addValueEq w i j x = .ok S') : Frame S S' := by
  unfold Storage.addValueEq at h
  cases hmat : S.mat with
  | none => rw [hmat] at h; simp at h
  | some F =>
    rw [hmat] at h
    simp only [Res.bind_eq_ok] at h
    obtain ⟨F', _, h⟩ := h
    rw [Res.ok.injEq] at h
    subst h
    rfl

theorem read_getD {α : Type _} {l : List α} {i : Nat} (h : i < l.length) (d : α) : Res.read l i = .ok (l.getD i d) := by
  rw [Res.read_of_lt h, List.getD_eq_getElem?_getD, List.getElem?_eq_getElem h]; rfl

theorem assemble_fold [Add K] {w : Which} {nodes : List Nat} {dofs : List DofType} {ke : List K} {num : Key → Nat}
    {S0 : Storage K} {Ke : Nat → Nat → K}
    (hnum : ∀ a, a < nodes.length * dofs.length →
      S0.eqNumber .node (localKey nodes dofs a).2.1 (localKey nodes dofs a).2.2 = .ok (num (localKey nodes dofs a))) :
    ∀ (L : List (Nat × Nat)) (S : Storage K) (k : Nat) (rest : List K), Frame S0 S →
    (∀ p ∈ L, p.1 < nodes.length * dofs.length ∧ p.2 < nodes.length * dofs.length) →
    ke.drop k = L.map (fun p => Ke p.1 p.2) ++ rest →
    Res.foldlM' (assembleStep w nodes dofs ke) (S, k)
      (L.map (fun p => (p.1 / dofs.length, p.1 % dofs.length, p.2 / dofs.length, p.2 % dofs.length))) =
    (Res.foldlM' Storage.contribute S (L.map (fun p =>
      .mat w (num (localKey nodes dofs p.1)) (num (localKey nodes dofs p.2)) (Ke p.1 p.2))) >>= fun S' =>
      .ok (S', k + L.length)) := by
  intro L
  induction L with
  | nil => intro S k rest _ _ _; rfl
  | cons p L ih =>
    intro S k rest hfr hL hke
    obtain ⟨a, b⟩ := p
    have hab := hL (a, b) (by simp)
    simp only at hab
    have hpos : 0 < dofs.length := by
      rcases Nat.eq_zero_or_pos dofs.length with h0 | h0
      · rw [h0, Nat.mul_zero] at hab; omega
      · exact h0
    have hdiv : ∀ x, x < nodes.length * dofs.length → x / dofs.length < nodes.length := fun x hx =>
      (Nat.div_lt_iff_lt_mul hpos).mpr hx
    have hmod : ∀ x, x % dofs.length < dofs.length := fun x => Nat.mod_lt x hpos
    have hk : ke[k]? = some (Ke a b) := by
      have := congrArg (fun l => l[0]?) hke
      simpa using this
    have hdrop : ke.drop (k + 1) = L.map (fun p => Ke p.1 p.2) ++ rest := by
      rw [← List.drop_drop, hke]; rfl
    have hstep : assembleStep w nodes dofs ke (S, k) (a / dofs.length, a % dofs.length, b / dofs.length, b % dofs.length) =
        (S.addValueEq w (num (localKey nodes dofs a)) (num (localKey nodes dofs b)) (Ke a b) >>= fun S' =>
          .ok (S', k + 1)) := by
      unfold assembleStep
      simp only
      rw [read_getD (hdiv a hab.1) 0, read_getD (hmod a) .UNDEFINED, read_getD (hdiv b hab.2) 0,
        read_getD (hmod b) .UNDEFINED, Res.read_eq_ok.mpr hk]
      simp only [Res.ok_bind]
      unfold Storage.addValueNode
      have na := hnum a hab.1
      have nb := hnum b hab.2
      unfold localKey at na nb ⊢
      simp only at na nb
      rw [hfr.eqNumber, hfr.eqNumber, na, nb]
      rfl
    rw [List.map_cons, Res.foldlM'_cons, List.map_cons, Res.foldlM'_cons, hstep]
    have hc : S.contribute (.mat w (num (localKey nodes dofs a)) (num (localKey nodes dofs b)) (Ke a b)) =
      S.addValueEq w (num (localKey nodes dofs a)) (num (localKey nodes dofs b)) (Ke a b) := rfl
    rw [hc]
    cases hS : S.addValueEq w (num (localKey nodes dofs a)) (num (localKey nodes dofs b)) (Ke a b) with
    | ok S1 =>
      simp only [Res.ok_bind]
      rw [ih S1 (k + 1) rest (hfr.trans (addValueEq_frame hS)) (fun p hp => hL p (by simp [hp])) hdrop]
      rw [List.length_cons, Nat.add_assoc, Nat.add_comm 1]
    | fatal => rfl
    | assert => rfl
    | ub => rfl

/-- The assembly loops perform the additions of `elemContribs` in order. -/
theorem assembleWith_eq [Add K] {w : Which} {nodes : List Nat} {dofs : List DofType} {num : Key → Nat}
    {S : Storage K} {Ke : Nat → Nat → K} {rest : List K}
    (hnum : ∀ a, a < nodes.length * dofs.length →
      S.eqNumber .node (localKey nodes dofs a).2.1 (localKey nodes dofs a).2.2 = .ok (num (localKey nodes dofs a))) :
    S.assembleWith w nodes dofs (nodes.length * dofs.length)
      ((packed (nodes.length * dofs.length)).map (fun p => Ke p.1 p.2) ++ rest) =
    Res.foldlM' Storage.contribute S (elemContribs w (fun a => num (localKey nodes dofs a)) Ke
      (nodes.length * dofs.length)) := by
  unfold Storage.assembleWith
  rw [if_neg (by simp), walk_eq, assemble_fold (rest := rest) hnum (packed (nodes.length * dofs.length)) S 0 (Frame.refl S)
    (by rintro ⟨a, b⟩ hp; have := mem_packed.mp hp; exact ⟨by omega, this.2⟩) (by rw [List.drop_zero])]
  unfold elemContribs
  cases Res.foldlM' Storage.contribute S ((packed (nodes.length * dofs.length)).map (fun p =>
      Contrib.mat w (num (localKey nodes dofs p.1)) (num (localKey nodes dofs p.2)) (Ke p.1 p.2))) <;> rfl

/-! ## The sum -/

theorem sum_range_list [AddCommMonoid K] (n : Nat) (f : Nat → K) :
    ((List.range n).map f).sum = ∑ a ∈ Finset.range n, f a := by
  rw [← List.sum_toFinset f List.nodup_range, List.toFinset_range]

theorem sum_range'_list [AddCommMonoid K] (a n : Nat) (h : a ≤ n) (f : Nat → K) :
    ((List.range' a (n - a)).map f).sum = ∑ b ∈ Finset.Ico a n, f b := by
  rw [← List.sum_toFinset f List.nodup_range', List.toFinset_range'_1, Nat.add_sub_cancel' h]

theorem sum_packed [AddCommMonoid K] (n : Nat) (g : Nat → Nat → K) :
    ((packed n).map (fun p => g p.1 p.2)).sum = ∑ a ∈ Finset.range n, ∑ b ∈ Finset.Ico a n, g a b := by
  unfold packed
  rw [List.map_flatMap, List.flatMap_def, List.sum_flatten, List.map_map, sum_range_list]
  apply Finset.sum_congr rfl
  intro a ha
  rw [Finset.mem_range] at ha
  simp only [Function.comp_apply, List.map_map]
  rw [← sum_range'_list a n (by omega)]
  rfl

/-- A full square is its upper triangle plus the mirrored strict upper triangle. -/
theorem sum_square [AddCommMonoid K] (n : Nat) (f : Nat → Nat → K) :
    ∑ a ∈ Finset.range n, ∑ b ∈ Finset.range n, f a b =
    ∑ a ∈ Finset.range n, ∑ b ∈ Finset.Ico a n, (if a = b then f a b else f a b + f b a) := by
  induction n with
  | zero => simp
  | succ n ih =>
    rw [Finset.sum_range_succ, Finset.sum_range_succ (n := n) (f := fun a => ∑ b ∈ Finset.Ico a (n + 1), _)]
    have h1 : ∑ a ∈ Finset.range n, ∑ b ∈ Finset.range (n + 1), f a b =
        ∑ a ∈ Finset.range n, ∑ b ∈ Finset.range n, f a b + ∑ a ∈ Finset.range n, f a n := by
      rw [← Finset.sum_add_distrib]
      exact Finset.sum_congr rfl (fun a _ => Finset.sum_range_succ _ _)
    have h2 : ∑ a ∈ Finset.range n, ∑ b ∈ Finset.Ico a (n + 1), (if a = b then f a b else f a b + f b a) =
        ∑ a ∈ Finset.range n, ∑ b ∈ Finset.Ico a n, (if a = b then f a b else f a b + f b a) +
        ∑ a ∈ Finset.range n, (f a n + f n a) := by
      rw [← Finset.sum_add_distrib]
      refine Finset.sum_congr rfl (fun a ha => ?_)
      rw [Finset.mem_range] at ha
      rw [Finset.sum_Ico_succ_top (by omega), if_neg (by omega : a ≠ n)]
    rw [h1, h2, ih, Finset.sum_add_distrib, Finset.sum_range_succ (n := n) (f := fun b => f n b)]
    simp only [Nat.Ico_succ_singleton, Finset.sum_singleton, if_true]
    abel

theorem matSum_elem [AddCommMonoid K] (q i j : Nat) (w : Which) (eq : Nat → Nat) (Ke : Nat → Nat → K) (n : Nat) :
    matSum q i j (elemContribs w eq Ke n) =
    ∑ a ∈ Finset.range n, ∑ b ∈ Finset.Ico a n, (if w.idx = q ∧ Same i j (eq a) (eq b) then Ke a b else 0) := by
  rw [← sum_packed n (fun a b => if w.idx = q ∧ Same i j (eq a) (eq b) then Ke a b else 0)]
  unfold elemContribs
  induction packed n with
  | nil => rfl
  | cons p l ih => rw [List.map_cons, List.map_cons, List.sum_cons, ← ih]; rfl

/-- With distinct equations the additions are the scatter-add of the whole symmetric matrix. -/
theorem matSum_scatter [AddCommMonoid K] {q i j : Nat} {w : Which} {eq : Nat → Nat} {Ke : Nat → Nat → K} {n : Nat}
    (hinj : ∀ a < n, ∀ b < n, eq a = eq b → a = b) (hsym : ∀ a < n, ∀ b < n, Ke a b = Ke b a) (hq : w.idx = q) :
    matSum q i j (elemContribs w eq Ke n) =
    ∑ a ∈ Finset.range n, ∑ b ∈ Finset.range n, (if eq a = i ∧ eq b = j then Ke a b else 0) := by
  rw [matSum_elem, sum_square]
  refine Finset.sum_congr rfl (fun a ha => Finset.sum_congr rfl (fun b hb => ?_))
  rw [Finset.mem_range] at ha
  rw [Finset.mem_Ico] at hb
  simp only [hq, true_and]
  have hS : Same i j (eq a) (eq b) ↔ (eq a = i ∧ eq b = j) ∨ (eq a = j ∧ eq b = i) := Iff.rfl
  by_cases hab : a = b
  · subst hab
    rw [if_pos rfl]
    by_cases h1 : eq a = i ∧ eq a = j
    · rw [if_pos h1, if_pos (hS.mpr (Or.inl h1))]
    · rw [if_neg h1, if_neg (fun h => h1 (by have := hS.mp h; tauto))]
  · rw [if_neg hab]
    have hne : eq a ≠ eq b := fun h => hab (hinj a ha b hb.2 h)
    by_cases h1 : eq a = i ∧ eq b = j
    · rw [if_pos (hS.mpr (Or.inl h1)), if_pos h1, if_neg (by rintro ⟨h2, h3⟩; exact hne (h1.1.trans h2.symm)), add_zero]
    · by_cases h2 : eq a = j ∧ eq b = i
      · rw [if_pos (hS.mpr (Or.inr h2)), if_neg h1, if_pos ⟨h2.2, h2.1⟩, zero_add, hsym a ha b hb.2]
      · rw [if_neg (fun h => (hS.mp h).elim h1 h2), if_neg h1, if_neg (by tauto), add_zero]

theorem matSum_other [AddCommMonoid K] {q i j : Nat} {w : Which} {eq : Nat → Nat} {Ke : Nat → Nat → K} {n : Nat}
    (hq : w.idx ≠ q) : matSum q i j (elemContribs w eq Ke n) = 0 := by
  rw [matSum_elem]
  exact Finset.sum_eq_zero (fun a _ => Finset.sum_eq_zero (fun b _ => if_neg (fun h => hq h.1)))

theorem loadSum_elem [AddMonoid K] (i : Nat) (w : Which) (eq : Nat → Nat) (Ke : Nat → Nat → K) (n : Nat) :
    loadSum i (elemContribs w eq Ke n) = 0 := by
  unfold elemContribs
  induction packed n with
  | nil => rfl
  | cons p l ih => rw [List.map_cons]; exact ih

/-! ## Element load vectors -/

/-- The additions of the load loop. -/
def loadContribs (eq : Nat → Nat) (fe : Nat → K) (n : Nat) : List (Contrib K) :=
  (List.range n).map (fun a => .load (eq a) (fe a))

theorem addValueF_frame [Add K] {S S' : Storage K} {i : Nat} {x : K} (h : S.addValueF i x = .ok S') : Frame S S' := by
  unfold Storage.addValueF at h
  split at h
  · rw [Res.bind_eq_ok] at h
    obtain ⟨v, _, h⟩ := h
    rw [Res.ok.injEq] at h
    subst h
    rfl
  · simp at h

theorem pairs_eq (nodes : List Nat) (dofs : List DofType) :
    nodes.flatMap (fun n => dofs.map (fun t => (n, t))) =
    (List.range (nodes.length * dofs.length)).map (fun a => ((localKey nodes dofs a).2.1, (localKey nodes dofs a).2.2)) := by
  rw [range_mul, List.map_flatMap]
  conv_lhs => rw [show nodes = (List.range nodes.length).map (fun i => nodes.getD i 0) by
    apply List.ext_getElem?
    intro i
    by_cases hi : i < nodes.length
    · simp [hi]
    · simp [hi]]
  rw [List.flatMap_map]
  apply List.flatMap_congr
  intro i _
  rw [List.map_map]
  conv_lhs => rw [show dofs = (List.range dofs.length).map (fun i => dofs.getD i .UNDEFINED) by
    apply List.ext_getElem?
    intro i
    by_cases hi : i < dofs.length
    · simp [hi]
    · simp [hi]]
  rw [List.map_map]
  apply List.map_congr_left
  intro d hd
  rw [List.mem_range] at hd
  have hpos : 0 < dofs.length := by omega
  simp only [Function.comp_apply, localKey]
  rw [Nat.add_comm, Nat.add_mul_div_right _ _ hpos, Nat.div_eq_of_lt hd, Nat.zero_add, Nat.add_mul_mod_self_right,
    Nat.mod_eq_of_lt hd]

theorem load_fold [Add K] {nodes : List Nat} {dofs : List DofType} {fe : List K} {num : Key → Nat}
    {S0 : Storage K} {Fe : Nat → K} {N : Nat}
    (hnum : ∀ a, a < N →
      S0.eqNumber .node (localKey nodes dofs a).2.1 (localKey nodes dofs a).2.2 = .ok (num (localKey nodes dofs a)))
    (hfe : ∀ a, a < N → fe[a]? = some (Fe a)) :
    ∀ (m k : Nat) (S : Storage K), Frame S0 S → k + m ≤ N →
    Res.foldlM' (fun (S : Storage K) (p : (Nat × DofType) × Nat) => do
      let x ← Res.read fe p.2
      S.addValueFNode p.1.1 p.1.2 x) S
      (((List.range' k m).map (fun a => ((localKey nodes dofs a).2.1, (localKey nodes dofs a).2.2))).zipIdx k) =
    Res.foldlM' Storage.contribute S ((List.range' k m).map (fun a => .load (num (localKey nodes dofs a)) (Fe a))) := by
  intro m
  induction m with
  | zero => intro k S _ _; rfl
  | succ m ih =>
    intro k S hfr hle
    rw [List.range'_succ, List.map_cons, List.map_cons, List.zipIdx_cons, Res.foldlM'_cons, Res.foldlM'_cons]
    simp only
    rw [Res.read_eq_ok.mpr (hfe k (by omega))]
    simp only [Res.ok_bind]
    unfold Storage.addValueFNode
    rw [hfr.eqNumber, hnum k (by omega)]
    simp only [Res.ok_bind]
    have hc : S.contribute (.load (num (localKey nodes dofs k)) (Fe k)) = S.addValueF (num (localKey nodes dofs k)) (Fe k) := rfl
    rw [hc]
    cases hS : S.addValueF (num (localKey nodes dofs k)) (Fe k) with
    | ok S1 =>
      simp only [Res.ok_bind]
      exact ih (k + 1) S1 (hfr.trans (addValueF_frame hS)) (by omega)
    | fatal => rfl
    | assert => rfl
    | ub => rfl

theorem assembleF_eq [Add K] {nodes : List Nat} {dofs : List DofType} {num : Key → Nat}
    {S : Storage K} {Fe : Nat → K} {rest : List K}
    (hnum : ∀ a, a < nodes.length * dofs.length →
      S.eqNumber .node (localKey nodes dofs a).2.1 (localKey nodes dofs a).2.2 = .ok (num (localKey nodes dofs a))) :
    S.assembleF nodes dofs ((List.range (nodes.length * dofs.length)).map Fe ++ rest) =
    Res.foldlM' Storage.contribute S (loadContribs (fun a => num (localKey nodes dofs a)) Fe
      (nodes.length * dofs.length)) := by
  unfold Storage.assembleF loadContribs
  rw [pairs_eq, List.range_eq_range']
  exact load_fold (S0 := S) (N := nodes.length * dofs.length) hnum (by
    intro a ha
    rw [List.getElem?_append_left (by simpa using ha)]
    simp [ha]) _ 0 S (Frame.refl S) (by omega)

theorem loadSum_load [AddCommMonoid K] (i : Nat) (eq : Nat → Nat) (fe : Nat → K) (n : Nat) :
    loadSum i (loadContribs eq fe n) = ∑ a ∈ Finset.range n, (if eq a = i then fe a else 0) := by
  rw [← sum_range_list n (fun a => if eq a = i then fe a else 0)]
  unfold loadContribs
  induction List.range n with
  | nil => rfl
  | cons p l ih => rw [List.map_cons, List.map_cons, List.sum_cons, ← ih]; rfl

theorem matSum_load [AddMonoid K] (q i j : Nat) (eq : Nat → Nat) (fe : Nat → K) (n : Nat) :
    matSum q i j (loadContribs eq fe n) = 0 := by
  unfold loadContribs
  induction List.range n with
  | nil => rfl
  | cons p l ih => rw [List.map_cons]; exact ih

end Nla3d.Storage
