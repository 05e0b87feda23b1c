import Verif.Cdb.Num
import Mathlib.Data.List.Nodup
import Mathlib.Order.Lattice
import Mathlib.Data.List.Forall2

/-!
# Property C54: renumbering of nodes; queries of `MeshData`
-/

namespace Nla3d.Cdb

variable {K : Type}

theorem renumber_spec (l : List Nat) : ∀ next m out, next + l.length < 4294967296 → l.Nodup →
    ∃ m', renumberLoop l next m out = (m', out ++ List.range' next l.length, next + l.length) ∧
      (∀ k x, l[k]? = some x → old2new m' x = next + k) ∧ ∀ x, x ∉ l → old2new m' x = old2new m x := by
  induction l with
  | nil => intro next m out _ _; exact ⟨m, by simp [renumberLoop], by simp, by simp⟩
  | cons a l ih =>
    intro next m out h hn
    rw [List.length_cons] at h
    rw [List.nodup_cons] at hn
    obtain ⟨m', h1, h2, h3⟩ := ih (next + 1) ((a, next) :: m) (out ++ [next]) (by omega) hn.2
    refine ⟨m', ?_, ?_, ?_⟩
    · unfold renumberLoop
      rw [Nat.mod_eq_of_lt (by omega), h1, List.length_cons, List.range'_succ]
      simp only [List.append_assoc, List.singleton_append, Prod.mk.injEq, true_and]
      omega
    · intro k x hx
      cases k with
      | zero =>
        simp at hx
        subst hx
        rw [h3 a hn.1]
        simp [old2new]
      | succ k =>
        rw [h2 k x (by simpa using hx)]
        omega
    · intro x hx
      rw [List.mem_cons, not_or] at hx
      rw [h3 x hx.2, old2new, if_neg (Ne.symm hx.1)]

/-- Specification: before and after, the numbers denote the same node (its place in the list of nodes), or none. -/
def Same (nums nums' : List Nat) (x x' : Nat) : Prop := ∀ k : Nat, nums[k]? = some x ↔ nums'[k]? = some x'

/-- The same for the signed node numbers of boundary conditions and equations. -/
def SameI (nums nums' : List Nat) (z z' : Int) : Prop :=
  ∀ k : Nat, (∃ x : Nat, nums[k]? = some x ∧ (x : Int) = z) ↔ ∃ x : Nat, nums'[k]? = some x ∧ (x : Int) = z'

/-- Specification of a renumbered mesh. -/
structure Renumbered (md md' : MeshData K) : Prop where
  numbers : md'.nodesNumbers = List.range' 1 md.nodesNumbers.length
  pos : md'.nodesPos = md.nodesPos
  cells : List.Forall₂ (List.Forall₂ (Same md.nodesNumbers md'.nodesNumbers)) md.cellNodes md'.cellNodes
  loads : List.Forall₂ (fun b b' => SameI md.nodesNumbers md'.nodesNumbers b.node b'.node ∧ b.dof = b'.dof ∧ b.value = b'.value)
    md.loadBcs md'.loadBcs
  fixs : List.Forall₂ (fun b b' => SameI md.nodesNumbers md'.nodesNumbers b.node b'.node ∧ b.dof = b'.dof ∧ b.value = b'.value)
    md.fixBcs md'.fixBcs
  eqs : List.Forall₂ (fun q q' => q.b = q'.b ∧ List.Forall₂ (fun t t' => SameI md.nodesNumbers md'.nodesNumbers t.node t'.node ∧
    t.dof = t'.dof ∧ t.coef = t'.coef) q.eq q'.eq) md.mpcs md'.mpcs
  comps : List.Forall₂ (fun c c' => c.name = c'.name ∧ c.type = c'.type ∧
    if c.type = .NODES then List.Forall₂ (Same md.nodesNumbers md'.nodesNumbers) c.list c'.list else c.list = c'.list) md.feComps md'.feComps
  rest : md'.cellNumbers = md.cellNumbers ∧ md'.cellInt = md.cellInt

/-- What the types and the size of the mesh guarantee. -/
structure Fits (md : MeshData K) : Prop where
  nonempty : md.nodesNumbers ≠ []
  distinct : md.nodesNumbers.Nodup
  numbers : ∀ x ∈ md.nodesNumbers, x < 2147483648
  count : md.nodesNumbers.length < 2147483647
  loads : ∀ b ∈ md.loadBcs, -2147483648 ≤ b.node ∧ b.node < 2147483648
  fixs : ∀ b ∈ md.fixBcs, -2147483648 ≤ b.node ∧ b.node < 2147483648
  eqs : ∀ q ∈ md.mpcs, ∀ t ∈ q.eq, -2147483648 ≤ t.node ∧ t.node < 2147483648

theorem maxElement_eq {l : List Nat} (h : l ≠ []) : ∃ x, maxElement l = .ok x ∧ x ∈ l ∧ ∀ y ∈ l, y ≤ x := by
  obtain ⟨a, l, rfl⟩ := List.exists_cons_of_ne_nil h
  refine ⟨l.foldl max a, rfl, ?_, ?_⟩
  · clear h
    induction l generalizing a with
    | nil => simp
    | cons b l ih =>
      rw [List.foldl_cons]
      rcases List.mem_cons.mp (ih (max a b)) with h | h
      · rcases le_total a b with h' | h'
        · rw [max_eq_right h'] at h ⊢; rw [h]; simp
        · rw [max_eq_left h'] at h ⊢; rw [h]; simp
      · exact List.mem_cons_of_mem _ (List.mem_cons_of_mem _ h)
  · clear h
    have mono : ∀ (l : List Nat) (a : Nat), a ≤ l.foldl max a ∧ ∀ y ∈ l, y ≤ l.foldl max a := by
      intro l
      induction l with
      | nil => intro a; simp
      | cons b l ih =>
        intro a
        rw [List.foldl_cons]
        obtain ⟨h1, h2⟩ := ih (max a b)
        refine ⟨le_trans (le_max_left _ _) h1, ?_⟩
        intro y hy
        rcases List.mem_cons.mp hy with rfl | hy
        · exact le_trans (le_max_right _ _) h1
        · exact h2 y hy
    intro y hy
    rcases List.mem_cons.mp hy with rfl | hy
    · exact (mono l y).1
    · exact (mono l a).2 y hy

theorem same_of {l : List Nat} {m : List (Nat × Nat)} (hn : l.Nodup) (h1 : ∀ k x, l[k]? = some x → old2new m x = 1 + k)
    (h2 : ∀ x, x ∉ l → old2new m x = 0) (x : Nat) : Same l (List.range' 1 l.length) x (old2new m x) := by
  intro k
  have hr : (List.range' 1 l.length)[k]? = if k < l.length then some (1 + k) else none := by
    split
    · rename_i hk; rw [List.getElem?_range' hk]; simp
    · rename_i hk; rw [List.getElem?_eq_none]; simpa using hk
  rw [hr]
  constructor
  · intro hk
    have := (List.getElem?_eq_some_iff.mp hk).1
    rw [if_pos this, h1 k x hk]
  · intro hk
    split at hk
    · rename_i hlt
      have hx : x ∈ l := by
        by_contra hc
        rw [h2 x hc] at hk
        simp at hk
      obtain ⟨j, hj⟩ := List.getElem?_of_mem hx
      rw [h1 j x hj] at hk
      have : j = k := by simpa using hk.symm
      rw [← this]; exact hj
    · cases hk

theorem sameI_of {l : List Nat} {m : List (Nat × Nat)} (hn : l.Nodup) (hl : ∀ x ∈ l, x < 2147483648) (hc : l.length < 2147483647)
    (h1 : ∀ k x, l[k]? = some x → old2new m x = 1 + k) (h2 : ∀ x, x ∉ l → old2new m x = 0) (z : Int)
    (hz : -2147483648 ≤ z ∧ z < 2147483648) : SameI l (List.range' 1 l.length) z (mapNode m z) := by
  intro k
  have key := same_of hn h1 h2 (toU32 z) k
  have small : old2new m (toU32 z) < 2147483648 := by
    by_cases hx : toU32 z ∈ l
    · obtain ⟨j, hj⟩ := List.getElem?_of_mem hx
      have := (List.getElem?_eq_some_iff.mp hj).1
      rw [h1 j _ hj]; omega
    · rw [h2 _ hx]; omega
  have hm : mapNode m z = (old2new m (toU32 z) : Int) := by
    unfold mapNode
    simp only
    rw [if_pos small]
  have e1 : (∃ x : Nat, l[k]? = some x ∧ (x : Int) = z) ↔ l[k]? = some (toU32 z) := by
    constructor
    · rintro ⟨x, hx, rfl⟩
      have := hl x (List.mem_of_getElem? hx)
      rw [toU32_nat (by omega)]; exact hx
    · intro hx
      have h3 := hl _ (List.mem_of_getElem? hx)
      refine ⟨toU32 z, hx, ?_⟩
      unfold toU32 at h3 ⊢
      omega
  have e2 : (∃ x : Nat, (List.range' 1 l.length)[k]? = some x ∧ (x : Int) = mapNode m z) ↔
      (List.range' 1 l.length)[k]? = some (old2new m (toU32 z)) := by
    rw [hm]
    constructor
    · rintro ⟨x, hx, hxe⟩
      have : x = old2new m (toU32 z) := by exact_mod_cast hxe
      rw [← this]; exact hx
    · intro hx; exact ⟨_, hx, rfl⟩
  rw [e1, e2]
  exact key

theorem forall₂_map {α β : Type} {R : α → β → Prop} {f : α → β} {l : List α} (h : ∀ a ∈ l, R a (f a)) : List.Forall₂ R l (l.map f) := by
  induction l with
  | nil => exact .nil
  | cons a l ih => exact .cons (h a (by simp)) (ih fun b hb => h b (by simp [hb]))

theorem forall₂_self {α : Type} {R : α → α → Prop} (l : List α) (h : ∀ a, R a a) : List.Forall₂ R l l := by
  induction l with
  | nil => exact .nil
  | cons a l ih => exact .cons (h a) ih

/-- C54. If the largest number is not the number of nodes, or the nodes are numbered 1..n in file order, the mesh gets renumbered.
Missing for the full claim: other numberings in which the largest number happens to be the number of nodes. -/
theorem C54_compress_partial (md : MeshData K) (h : Fits md)
    (hmax : md.nodesNumbers = List.range' 1 md.nodesNumbers.length ∨
      ¬∃ x ∈ md.nodesNumbers, (∀ y ∈ md.nodesNumbers, y ≤ x) ∧ x = md.nodesNumbers.length) :
    ∃ md', compressNumbers md = .ok md' ∧ Renumbered md md' := by
  obtain ⟨x, hx1, hx2, hx3⟩ := maxElement_eq h.nonempty
  unfold compressNumbers
  rw [hx1, out_bind]
  by_cases he : md.nodesNumbers.length = x
  · rw [if_pos he]
    rcases hmax with hmax | hmax
    · refine ⟨md, rfl, hmax, rfl, forall₂_self _ fun _ => forall₂_self _ fun _ _ => Iff.rfl, forall₂_self _ fun _ => ⟨fun _ => Iff.rfl, rfl, rfl⟩,
        forall₂_self _ fun _ => ⟨fun _ => Iff.rfl, rfl, rfl⟩, forall₂_self _ fun _ => ⟨rfl, forall₂_self _ fun _ => ⟨fun _ => Iff.rfl, rfl, rfl⟩⟩,
        forall₂_self _ fun c => ⟨rfl, rfl, ?_⟩, rfl, rfl⟩
      split
      · exact forall₂_self _ fun _ _ => Iff.rfl
      · rfl
    · exact absurd ⟨x, hx2, hx3, he.symm⟩ hmax
  · rw [if_neg he]
    obtain ⟨m, hm1, hm2, hm3⟩ := renumber_spec md.nodesNumbers 1 [] [] (by have := h.count; omega) h.distinct
    have hm3' : ∀ x, x ∉ md.nodesNumbers → old2new m x = 0 := fun x hx => by rw [hm3 x hx]; rfl
    simp only [hm1]
    rw [if_pos (by have := h.count; omega)]
    have S := same_of h.distinct hm2 hm3'
    have SI := sameI_of h.distinct h.numbers h.count hm2 hm3'
    refine ⟨_, rfl, rfl, rfl, ?_, ?_, ?_, ?_, ?_, rfl, rfl⟩
    · exact forall₂_map fun e _ => forall₂_map fun x _ => S x
    · exact forall₂_map fun b hb => ⟨SI _ (h.loads b hb), rfl, rfl⟩
    · exact forall₂_map fun b hb => ⟨SI _ (h.fixs b hb), rfl, rfl⟩
    · exact forall₂_map fun q hq => ⟨rfl, forall₂_map fun t ht => ⟨SI _ (h.eqs q hq t ht), rfl, rfl⟩⟩
    · refine forall₂_map fun c _ => ?_
      by_cases hc : c.type = .NODES
      · simp only [hc, if_true]; exact ⟨trivial, trivial, forall₂_map fun x _ => S x⟩
      · simp only [hc, if_false]; exact ⟨trivial, trivial, trivial⟩

/-- C54. In the other cases nothing is renumbered, so the claim holds iff the hypothesis of `C54_compress_partial` does. -/
theorem C54_compress_iff (md : MeshData K) (h : Fits md) :
    (∃ md', compressNumbers md = .ok md' ∧ Renumbered md md') ↔ (md.nodesNumbers = List.range' 1 md.nodesNumbers.length ∨
      ¬∃ x ∈ md.nodesNumbers, (∀ y ∈ md.nodesNumbers, y ≤ x) ∧ x = md.nodesNumbers.length) := by
  refine ⟨?_, C54_compress_partial md h⟩
  rintro ⟨md', h1, h2⟩
  by_cases hc : ∃ x ∈ md.nodesNumbers, (∀ y ∈ md.nodesNumbers, y ≤ x) ∧ x = md.nodesNumbers.length
  · left
    obtain ⟨x, hx1, hx2, hx3⟩ := maxElement_eq h.nonempty
    obtain ⟨y, hy1, hy2, hy3⟩ := hc
    have hxy : x = y := le_antisymm (hy2 x hx2) (hx3 y hy1)
    unfold compressNumbers at h1
    rw [hx1, out_bind, if_pos (by rw [hxy, hy3])] at h1
    injection h1 with h1
    subst h1
    exact h2.numbers
  · exact .inr hc

/-- C54 is violated: two nodes numbered 2 and 1 keep their numbers, so the first node of the file has number 2. -/
theorem C54_compress_violated : ∃ md : MeshData Nat, Fits md ∧ compressNumbers md = .ok md ∧ md.nodesNumbers = [2, 1] ∧ ¬Renumbered md md := by
  refine ⟨⟨[1], [[1, 2]], ⟨[1], [1], [1], [1], [1], [1]⟩, [2, 1], [(0, 0, 0), (5, 0, 0)], [], [], [], []⟩,
    ⟨by decide, by decide, by decide, by decide, by decide, by decide, by decide⟩, by decide, rfl, ?_⟩
  intro h
  exact absurd h.numbers (by decide)

/-- The hypotheses are met by a mesh with gaps in its numbering. -/
example : ∃ md : MeshData Nat, Fits md ∧ (¬∃ x ∈ md.nodesNumbers, (∀ y ∈ md.nodesNumbers, y ≤ x) ∧ x = md.nodesNumbers.length) ∧
    md.cellNodes = [[10, 7, 3]] ∧ (compressNumbers md).map (fun m => (m.nodesNumbers, m.cellNodes)) = .ok ([1, 2, 3], [[2, 1, 3]]) :=
  ⟨⟨[1], [[10, 7, 3]], ⟨[1], [1], [1], [1], [1], [1]⟩, [7, 10, 3], [(0, 0, 0), (5, 0, 0), (1, 1, 0)], [⟨7, .UX, 3⟩], [], [],
    [⟨"A".toList, .NODES, [3, 7]⟩]⟩, ⟨by decide, by decide, by decide, by decide, by decide, by decide, by decide⟩, by decide, rfl, by decide⟩

/-! ## Queries -/

theorem insertAll_length (l : List Nat) : ∀ set, (insertAll set l).length ≤ set.length + l.length ∧
    ((insertAll set l).length = set.length + l.length ↔ l.Nodup ∧ ∀ x ∈ l, x ∉ set) := by
  induction l with
  | nil => intro set; simp [insertAll]
  | cons a l ih =>
    intro set
    unfold insertAll
    obtain ⟨h1, h2⟩ := ih (if set.contains a then set else set ++ [a])
    by_cases ha : a ∈ set
    · rw [if_pos (by simpa using ha)] at h1 h2 ⊢
      refine ⟨by rw [List.length_cons]; omega, ?_⟩
      constructor
      · intro h; rw [List.length_cons] at h; omega
      · rintro ⟨_, h⟩; exact absurd ha (h a (by simp))
    · rw [if_neg (by simpa using ha)] at h1 h2 ⊢
      rw [List.length_append, List.length_singleton] at h1 h2
      rw [List.length_cons]
      refine ⟨by omega, ?_⟩
      rw [show set.length + (l.length + 1) = set.length + 1 + l.length by omega, h2, List.nodup_cons]
      constructor
      · rintro ⟨g1, g2⟩
        refine ⟨⟨?_, g1⟩, ?_⟩
        · intro hc; exact g2 a hc (by simp)
        · intro x hx
          rcases List.mem_cons.mp hx with rfl | hx
          · exact ha
          · intro hc; exact g2 x hx (by simp [hc])
      · rintro ⟨⟨g1, g2⟩, g3⟩
        refine ⟨g2, ?_⟩
        intro x hx hc
        rcases List.mem_append.mp hc with hc | hc
        · exact g3 x (by simp [hx]) hc
        · rw [List.mem_singleton.mp hc] at hx; exact g1 hx

theorem insertAll_nodup (l : List Nat) : (insertAll [] l).length ≠ l.length ↔ ¬l.Nodup := by
  have := (insertAll_length l []).2
  simp only [List.length_nil, Nat.zero_add, List.not_mem_nil, not_false_eq_true, implies_true, and_true] at this
  rw [ne_eq, this]

/-- Loops of the form `for i: if (p(i)) res.push_back(i)`. -/
theorem filterLoop (p : Nat → Bool) (f : Nat → Nat → List Nat → Out (List Nat)) (N : Nat)
    (h0 : ∀ i res, f i 0 res = .ok res) (h1 : ∀ i n res, i < N → f i (n + 1) res = f (i + 1) n (if p i then res ++ [i] else res)) :
    ∀ n i res, i + n ≤ N → f i n res = .ok (res ++ (List.range' i n).filter p) := by
  intro n
  induction n with
  | zero => intro i res _; simp [h0]
  | succ n ih =>
    intro i res h
    rw [h1 i n res (by omega), ih _ _ (by omega), List.range'_succ, List.filter_cons]
    by_cases hp : p i = true <;> simp [hp]

/-- C70. The degenerated cells are those that contain a node twice, in order. -/
theorem C70_degenerated (md : MeshData K) (h : md.cellNodes.length = md.cellNumbers.length) :
    ∃ out, getDegeneratedCells md = .ok out ∧ out.Pairwise (· < ·) ∧
      ∀ i, i ∈ out ↔ ∃ e, md.cellNodes[i]? = some e ∧ ¬e.Nodup := by
  have key := filterLoop (fun i => decide ((insertAll [] (md.cellNodes.getD i [])).length ≠ (md.cellNodes.getD i []).length))
    (degeneratedLoop md) md.cellNodes.length (fun i res => rfl) (by
      intro i n res hi
      rw [degeneratedLoop, read_some (List.getElem?_eq_getElem hi), out_bind, List.getD_eq_getElem?_getD, List.getElem?_eq_getElem hi]
      simp only [Option.getD_some, decide_eq_true_eq]) md.cellNumbers.length 0 [] (by omega)
  refine ⟨_, key, ?_, ?_⟩
  · rw [List.nil_append]
    exact List.Pairwise.filter _ (List.pairwise_lt_range' (s := 0) (n := md.cellNumbers.length))
  · intro i
    rw [List.nil_append, List.mem_filter, List.mem_range'_1, decide_eq_true_eq, insertAll_nodup]
    constructor
    · rintro ⟨⟨_, h1⟩, h2⟩
      have hi : i < md.cellNodes.length := by omega
      rw [List.getD_eq_getElem?_getD, List.getElem?_eq_getElem hi] at h2
      exact ⟨_, List.getElem?_eq_getElem hi, h2⟩
    · rintro ⟨e, h1, h2⟩
      have hi := (List.getElem?_eq_some_iff.mp h1).1
      rw [List.getD_eq_getElem?_getD, h1]
      exact ⟨by omega, h2⟩

/-- The names of the attributes of cells. -/
def attributes : List String := ["MAT", "REAL", "SECT", "CS", "SHAPE", "TYPE"]

/-- C70. The cells with a given attribute are found, in order. -/
theorem C70_attribute (md : MeshData K) (name : String) (val : Nat) (h : (md.cellInt.get name).length = md.cellNumbers.length) :
    ∃ out, getCellsByAttribute md name val = .ok out ∧ out.Pairwise (· < ·) ∧ ∀ i, i ∈ out ↔ (md.cellInt.get name)[i]? = some val := by
  have key := filterLoop (fun i => decide ((md.cellInt.get name)[i]? = some val))
    (byAttributeLoop (md.cellInt.get name) val) (md.cellInt.get name).length (fun i res => rfl) (by
      intro i n res hi
      rw [byAttributeLoop, read_some (List.getElem?_eq_getElem hi), out_bind, List.getElem?_eq_getElem hi]
      simp only [Option.some.injEq, decide_eq_true_eq]) md.cellNumbers.length 0 [] (by omega)
  refine ⟨_, key, ?_, ?_⟩
  · rw [List.nil_append]
    exact List.Pairwise.filter _ (List.pairwise_lt_range' (s := 0) (n := md.cellNumbers.length))
  · intro i
    rw [List.nil_append, List.mem_filter, List.mem_range'_1, decide_eq_true_eq]
    constructor
    · exact fun h => h.2
    · intro h1
      have hi := (List.getElem?_eq_some_iff.mp h1).1
      exact ⟨by omega, h1⟩

/-- C70 is violated for a name that is not an attribute: the query reads past the end of an empty vector. -/
theorem C70_attribute_violated (md : MeshData K) (name : String) (val : Nat) (h : name ∉ attributes) (hn : md.cellNumbers ≠ []) :
    getCellsByAttribute md name val = .error .ub := by
  have he : md.cellInt.get name = [] := by
    simp only [attributes, List.mem_cons, List.not_mem_nil, or_false, not_or] at h
    unfold CellData.get
    simp [h]
  obtain ⟨a, l, hl⟩ := List.exists_cons_of_ne_nil hn
  unfold getCellsByAttribute
  rw [he, hl]
  rfl

example : ∃ md : MeshData Nat, md.cellNodes.length = md.cellNumbers.length ∧ (md.cellInt.get "MAT").length = md.cellNumbers.length ∧
    getDegeneratedCells md = .ok [1] ∧ getCellsByAttribute md "MAT" 2 = .ok [0, 2] :=
  ⟨⟨[1, 2, 3], [[1, 2], [2, 2], [1]], ⟨[2, 1, 2], [], [], [], [], []⟩, [], [], [], [], [], []⟩, rfl, rfl, by decide, by decide⟩

end Nla3d.Cdb
