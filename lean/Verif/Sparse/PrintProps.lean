import Verif.Sparse.Print
import Verif.Sparse.Props
import Verif.Storage.ReportProps

/-!
# C125: the printed forms of sparse matrices can be read back
-/

namespace Nla3d.Sparse

open Nla3d.Report (digits digits_inj not_mem_digits cut_unique lines_unique foldlM'_append)

variable {K : Type}

/-! ## Specification -/

/-- A table of `n` rows and `m` columns: each number is followed by a tabulator, each row stands between `l` and `r` on a line. -/
def Table (num : K → List Char) (l r : List Char) (n m : Nat) (f : Nat → Nat → K) : List Char :=
  (List.range n).flatMap fun i => l ++ ((List.range m).flatMap fun j => num (f (i + 1) (j + 1)) ++ ['\t']) ++ r ++ ['\n']

/-- A named list on a line. -/
def Listing {α : Type} (name : String) (num : α → List Char) (l : List α) : List Char :=
  name.toList ++ " = {".toList ++ (l.flatMap fun x => num x ++ ['\t']) ++ "}\n".toList

/-- Numbers are written without tabulators and line feeds. -/
def Plain (num : K → List Char) : Prop := ∀ x, '\t' ∉ num x ∧ '\n' ∉ num x

/-! ## Tools -/

theorem range_flatMap {α β : Type} (h : α → List β) : ∀ (x : List α),
    ((List.range x.length).flatMap fun i => (x[i]?).elim [] h) = x.flatMap h
  | [] => rfl
  | a :: x => by
    rw [List.length_cons, List.range_succ_eq_map, List.flatMap_cons, List.flatMap_map, List.flatMap_cons, ← range_flatMap h x]
    rfl

theorem printArray_eq {α : Type} (num : α → List Char) {l x : List α} {p n : Nat} (hn : x.length = n)
    (h : ∀ (i : Nat) (v : α), x[i]? = some v → l[p + i]? = some v) (out : List Char) :
    printArray num l p n out = .ok (out ++ x.flatMap fun v => num v ++ ['\t']) := by
  subst hn
  rw [← range_flatMap]
  apply foldlM'_append
  intro i hi out
  rw [List.mem_range] at hi
  rw [Res.read_eq_ok.2 (h i x[i] (List.getElem?_eq_getElem hi)), Res.ok_bind, List.getElem?_eq_getElem hi]
  rfl

theorem printCells_eq (num : K → List Char) {val : Nat → Nat → Res K} {i m : Nat} {f : Nat → K}
    (h : ∀ j, j < m → val i (j + 1) = .ok (f (j + 1))) (out : List Char) :
    printCells num val i m out = .ok (out ++ (List.range m).flatMap fun j => num (f (j + 1)) ++ ['\t']) := by
  apply foldlM'_append
  intro j hj out
  rw [h j (List.mem_range.1 hj), Res.ok_bind]

/-- Cells that end with their only tabulator can be told apart. -/
theorem cells_unique : ∀ {xs ys : List (List Char)}, (∀ x ∈ xs, '\t' ∉ x) → (∀ y ∈ ys, '\t' ∉ y) →
    (xs.flatMap (· ++ ['\t'])) = (ys.flatMap (· ++ ['\t'])) → xs = ys
  | [], [], _, _, _ => rfl
  | [], y :: ys, _, _, h => by simp at h
  | x :: xs, [], _, _, h => by simp at h
  | x :: xs, y :: ys, h1, h2, h => by
    simp only [List.flatMap_cons, List.append_assoc, List.singleton_append] at h
    obtain ⟨e1, e2⟩ := cut_unique (h1 x (by simp)) (h2 y (by simp)) h
    rw [e1, cells_unique (fun z hz => h1 z (by simp [hz])) (fun z hz => h2 z (by simp [hz])) e2]

/-- Two tables are equal only if all numbers in them are written alike. -/
theorem table_unique {num : K → List Char} (hp : Plain num) {l r : List Char} (hl : '\n' ∉ l) (hr : '\n' ∉ r) {n m n' m' : Nat}
    {f f' : Nat → Nat → K} (h : Table num l r n m f = Table num l r n' m' f') :
    n = n' ∧ (0 < n → m = m') ∧ ∀ i j, 0 < i ∧ i ≤ n → 0 < j ∧ j ≤ m → num (f i j) = num (f' i j) := by
  have hline : ∀ (m : Nat) (g : Nat → K), '\n' ∉ l ++ ((List.range m).flatMap fun j => num (g (j + 1)) ++ ['\t']) ++ r := by
    intro m g hm
    simp only [List.mem_append, List.mem_flatMap, List.mem_singleton] at hm
    rcases hm with (hm | ⟨j, -, hm | hm⟩) | hm
    · exact hl hm
    · exact (hp _).2 hm
    · exact absurd hm (by decide)
    · exact hr hm
  have hT : ∀ (n m : Nat) (f : Nat → Nat → K), Table num l r n m f = (((List.range n).map fun i =>
      l ++ ((List.range m).flatMap fun j => num (f (i + 1) (j + 1)) ++ ['\t']) ++ r).map (· ++ ['\n'])).flatten := by
    intro n m f
    rw [Table, List.flatMap_def, List.map_map]
    rfl
  rw [hT, hT] at h
  have hu := lines_unique (by
      intro x hx
      obtain ⟨i, -, rfl⟩ := List.mem_map.1 hx
      exact hline m (f (i + 1))) (by
      intro x hx
      obtain ⟨i, -, rfl⟩ := List.mem_map.1 hx
      exact hline m' (f' (i + 1))) h
  have hn : n = n' := by simpa using congrArg List.length hu
  subst hn
  have hrow : ∀ i, i < n → ((List.range m).map fun j => num (f (i + 1) (j + 1))) = (List.range m').map fun j => num (f' (i + 1) (j + 1)) := by
    intro i hi
    have h1 := List.map_inj_left.1 hu i (List.mem_range.2 hi)
    rw [List.append_assoc, List.append_assoc, List.append_cancel_left_eq, List.append_cancel_right_eq] at h1
    apply cells_unique
    · intro x hx
      obtain ⟨j, -, rfl⟩ := List.mem_map.1 hx
      exact (hp _).1
    · intro x hx
      obtain ⟨j, -, rfl⟩ := List.mem_map.1 hx
      exact (hp _).1
    · rw [List.flatMap_map, List.flatMap_map]
      exact h1
  have hm : 0 < n → m = m' := fun h0 => by simpa using congrArg List.length (hrow 0 h0)
  refine ⟨rfl, hm, fun i j hi hj => ?_⟩
  have h0 : 0 < n := by omega
  obtain rfl := hm h0
  have h2 := List.map_inj_left.1 (hrow (i - 1) (by omega)) (j - 1) (List.mem_range.2 (by omega))
  rwa [Nat.sub_add_cancel hi.1, Nat.sub_add_cancel hj.1] at h2

theorem listing_unique {α : Type} {name : String} {num num' : α → List Char} {l l' : List α} (hl : ∀ x ∈ l, '\t' ∉ num x)
    (hl' : ∀ x ∈ l', '\t' ∉ num' x)
    (h : name.toList ++ " = {".toList ++ (l.flatMap fun x => num x ++ ['\t']) ++ ['}'] =
      name.toList ++ " = {".toList ++ (l'.flatMap fun x => num' x ++ ['\t']) ++ ['}']) : l.map num = l'.map num' := by
  rw [List.append_cancel_right_eq, List.append_cancel_left_eq] at h
  apply cells_unique
  · intro x hx
    obtain ⟨j, hj, rfl⟩ := List.mem_map.1 hx
    exact hl j hj
  · intro x hx
    obtain ⟨j, hj, rfl⟩ := List.mem_map.1 hx
    exact hl' j hj
  · rw [List.flatMap_map, List.flatMap_map]
    exact h

/-! ## Tables -/

theorem print_vals [Zero K] (num : K → List Char) {a : SpMat K} {rows : List (List Nat)} {f : Nat → Nat → K} (h : Vals a rows f)
    (g : Nat → Nat → K) (hg : ∀ i j, 0 < i ∧ i ≤ a.si.nRows → 0 < j ∧ j ≤ a.si.nColumns → a.value i j = .ok (g i j)) (out : List Char) :
    a.print num out = .ok (out ++ Table num ['['] [']'] a.si.nRows a.si.nColumns g) := by
  obtain ⟨v, hv, -⟩ := h.vals
  unfold SpMat.print
  rw [hv]
  simp only [h.csr.comp, not_true_eq_false, if_false]
  apply foldlM'_append
  intro i hi out
  rw [List.mem_range] at hi
  rw [printCells_eq num (f := g (i + 1)) (fun j hj => hg _ _ (by omega) (by omega)), Res.ok_bind]
  simp

/-- C125, `SparseMatrix::print`: after every life of the matrix the table shows at row `i` and column `j` what was added there since
the last `zero`. -/
theorem C125_print [AddMonoid K] {n m k : Nat} {es : List (Nat × Nat)} {ops : List (Op K)} (h : Legal n m k es ops) {a : SpMat K}
    (hb : build n m k es ops = .ok a) (num : K → List Char) (out : List Char) :
    a.print num out = .ok (out ++ Table num ['['] [']'] n m (total ops)) := by
  obtain ⟨_, _, rows, hv, _, hn, hm, _⟩ := build_ok h hb
  rw [print_vals num hv (total ops) (fun i j hi hj => (C02_value_is_sum h hb (by omega) (by omega)).1), hn, hm]

/-- C125, `SparseSymMatrix::print`: both triangles are shown. -/
theorem C125_print_sym [AddMonoid K] {n k : Nat} {es : List (Nat × Nat)} {ops : List (Op K)} (h : Legal n n k es ops) {a : SpMat K}
    (hb : buildSym n k es ops = .ok a) (num : K → List Char) (out : List Char) :
    a.printSym num out = .ok (out ++ Table num [] [] n n (totalSym ops)) := by
  have hval := fun i j hi hj => (C04_value_symmetric h hb (i := i) (j := j) hi hj).1
  rw [buildSym_eq] at hb
  obtain ⟨_, _, rows, hv, _, hn, hm, _⟩ := build_ok (legalSym h) hb
  obtain ⟨v, hvv, -⟩ := hv.vals
  unfold SpMat.printSym
  rw [hvv]
  simp only [hv.csr.comp, not_true_eq_false, if_false]
  rw [hn, hm]
  apply foldlM'_append
  intro i hi out
  rw [List.mem_range] at hi
  rw [printCells_eq num (f := totalSym ops (i + 1)) (fun j hj => hval _ _ (by omega) (by omega)), Res.ok_bind]
  simp

/-- C125, reading tables: if numbers are written without tabulators and line feeds, matrices with the same table have the same number
of rows and, if there is one, of columns, and all their numbers are written alike. -/
theorem C125_read_back [AddMonoid K] {n m k n' m' k' : Nat} {es es' : List (Nat × Nat)} {ops ops' : List (Op K)}
    {num : K → List Char} (hp : Plain num) {a a' : SpMat K} (out : List Char) :
    (Legal n m k es ops → build n m k es ops = .ok a → Legal n' m' k' es' ops' → build n' m' k' es' ops' = .ok a' →
      a.print num out = a'.print num out →
      n = n' ∧ (0 < n → m = m') ∧
        ∀ i j, 0 < i ∧ i ≤ n → 0 < j ∧ j ≤ m → num (total ops i j) = num (total ops' i j)) ∧
    (Legal n n k es ops → buildSym n k es ops = .ok a → Legal n' n' k' es' ops' → buildSym n' k' es' ops' = .ok a' →
      a.printSym num out = a'.printSym num out →
      n = n' ∧ ∀ i j, 0 < i ∧ i ≤ n → 0 < j ∧ j ≤ n → num (totalSym ops i j) = num (totalSym ops' i j)) := by
  constructor
  · intro h hb h' hb' he
    rw [C125_print h hb, C125_print h' hb'] at he
    exact table_unique hp (by decide) (by decide) (List.append_cancel_left (Res.ok.inj he))
  · intro h hb h' hb' he
    rw [C125_print_sym h hb, C125_print_sym h' hb'] at he
    obtain ⟨h1, -, h2⟩ := table_unique hp (by decide) (by decide) (List.append_cancel_left (Res.ok.inj he))
    exact ⟨h1, h2⟩

/-! ## Internal data -/

theorem print_internal {a : SpMat K} {rows : List (List Nat)} {f : Nat → Nat → K} (h : Vals a rows f) (num : K → List Char)
    (out : List Char) :
    ∃ vals, a.values = some vals ∧ a.printInternal num out =
      .ok (out ++ Listing "values" num vals ++ Listing "columns" digits a.si.columns ++ Listing "iofeir" digits a.si.iofeir) := by
  obtain ⟨v, hv, hlen, -⟩ := h.vals
  have hil : a.si.iofeir.length = a.si.nRows + 1 := by rw [h.csr.iof, starts_length, h.csr.len]
  refine ⟨v, hv, ?_⟩
  unfold SpMat.printInternal
  rw [hv]
  simp only [h.csr.comp, not_true_eq_false, if_false]
  rw [printArray_eq num (x := v) (by rw [hlen, h.csr.num]) (fun i x hx => by rw [Nat.zero_add]; exact hx), Res.ok_bind]
  have hcols : ∀ out : List Char, Res.foldlM' (fun out i => do
        let p ← Res.read a.si.iofeir i
        let q ← Res.read a.si.iofeir (i + 1)
        printArray digits a.si.columns (p - 1) ((q - 1) - (p - 1)) out) out (List.range a.si.nRows) =
      .ok (out ++ a.si.columns.flatMap fun c => digits c ++ ['\t']) := by
    intro out
    have hx : (a.si.columns.flatMap fun c => digits c ++ ['\t']) = (List.range a.si.nRows).flatMap fun i =>
        (rows[i]?).elim [] fun r => r.flatMap fun c => digits c ++ ['\t'] := by
      rw [← h.csr.len, range_flatMap, h.csr.cols, List.flatten_eq_flatMap, List.flatMap_assoc]
      rfl
    rw [hx]
    apply foldlM'_append
    intro i hi out
    rw [List.mem_range] at hi
    have hir : i < rows.length := by rw [h.csr.len]; exact hi
    have ho := offset_succ hir
    rw [h.csr.read_iof (by omega), Res.ok_bind, h.csr.read_iof (by omega), Res.ok_bind, List.getElem?_eq_getElem hir]
    rw [printArray_eq digits (x := rows[i]) (by omega) (fun j x hx => ?_)]
    · rfl
    · obtain ⟨hj, hx⟩ := List.getElem?_eq_some_iff.1 hx
      rw [← hx, Nat.add_sub_cancel, h.csr.cols]
      exact flatten_get hir hj
  rw [hcols, Res.ok_bind]
  rw [printArray_eq digits (x := a.si.iofeir) (by rw [hil]) (fun i x hx => by rw [Nat.zero_add]; exact hx), Res.ok_bind]
  simp [Listing]

/-- C125, `printInternalData`: it ends for every compressed matrix, shows the three arrays completely, and from its text the arrays
`columns` and `iofeir` and the texts of the values can be told. -/
theorem C125_internal [AddMonoid K] {n m k n' m' k' : Nat} {es es' : List (Nat × Nat)} {ops ops' : List (Op K)} {num : K → List Char}
    (h : Legal n m k es ops) {a : SpMat K} (hb : build n m k es ops = .ok a) (out : List Char) :
    (∃ vals, a.values = some vals ∧ a.printInternal num out =
      .ok (out ++ Listing "values" num vals ++ Listing "columns" digits a.si.columns ++ Listing "iofeir" digits a.si.iofeir)) ∧
    (Plain num → Legal n' m' k' es' ops' → ∀ a' : SpMat K, build n' m' k' es' ops' = .ok a' →
      a.printInternal num out = a'.printInternal num out →
      a.si.columns = a'.si.columns ∧ a.si.iofeir = a'.si.iofeir ∧ a.values.map (List.map num) = a'.values.map (List.map num)) := by
  obtain ⟨_, _, rows, hv, _⟩ := build_ok h hb
  refine ⟨print_internal hv num out, fun hp h' a' hb' he => ?_⟩
  obtain ⟨_, _, rows', hv', _⟩ := build_ok h' hb'
  obtain ⟨v, hvv, h1⟩ := print_internal hv num out
  obtain ⟨v', hvv', h2⟩ := print_internal hv' num out
  rw [h1, h2] at he
  have he := Res.ok.inj he
  rw [List.append_assoc, List.append_assoc, List.append_assoc, List.append_assoc] at he
  have he := List.append_cancel_left he
  have hL : ∀ {α : Type} (name : String) (num : α → List Char) (l : List α), Listing name num l =
      (name.toList ++ " = {".toList ++ (l.flatMap fun x => num x ++ ['\t']) ++ ['}']) ++ ['\n'] := by
    intro α name num l
    simp [Listing]
  have hno : ∀ {α : Type} (name : String) (num : α → List Char) (l : List α), '\n' ∉ name.toList → (∀ x, '\n' ∉ num x) →
      '\n' ∉ name.toList ++ " = {".toList ++ (l.flatMap fun x => num x ++ ['\t']) ++ ['}'] := by
    intro α name num l hname hnum hm
    simp only [List.mem_append, List.mem_flatMap, List.mem_singleton] at hm
    rcases hm with ((hm | hm) | ⟨x, -, hm | hm⟩) | hm
    · exact hname hm
    · exact absurd hm (by decide)
    · exact hnum x hm
    · exact absurd hm (by decide)
    · exact absurd hm (by decide)
  have hd : ∀ x : Nat, '\n' ∉ digits x := fun x => not_mem_digits (by decide) x
  have ht : ∀ x : Nat, '\t' ∉ digits x := fun x => not_mem_digits (by decide) x
  rw [hL, hL, hL, hL, hL, hL] at he
  simp only [List.append_assoc _ ['\n'], List.singleton_append] at he
  obtain ⟨e1, he⟩ := cut_unique (hno _ _ _ (by decide) fun x => (hp x).2) (hno _ _ _ (by decide) fun x => (hp x).2) he
  obtain ⟨e2, he⟩ := cut_unique (hno _ _ _ (by decide) hd) (hno _ _ _ (by decide) hd) he
  obtain ⟨e3, -⟩ := cut_unique (hno _ _ _ (by decide) hd) (hno _ _ _ (by decide) hd) he
  have f1 := listing_unique (fun x _ => (hp x).1) (fun x _ => (hp x).1) e1
  have f2 := listing_unique (fun x _ => ht x) (fun x _ => ht x) e2
  have f3 := listing_unique (fun x _ => ht x) (fun x _ => ht x) e3
  have hinj : Function.Injective digits := fun i j hij => digits_inj hij
  refine ⟨(List.map_injective_iff.2 hinj) f2, (List.map_injective_iff.2 hinj) f3, ?_⟩
  rw [hvv, hvv', Option.map_some, Option.map_some, f1]

/-! ## The format of the stream -/

/-- C125, the format: `writeCoordinateTextFormat` writes with 15 digits in scientific notation and gives the precision back, but the
notation only if it was scientific before. -/
theorem C125_stream_partial (old : Fmt) :
    (coordFmt old).1 = ⟨15, false, true⟩ ∧ (coordFmt old).2.precision = old.precision ∧
      ((coordFmt old).2 = old ↔ old.scientific = true) := by
  obtain ⟨p, f, s⟩ := old
  cases f <;> cases s <;> simp [coordFmt, Fmt.toScientific, Fmt.addFlags]

/-- C125 is false for the format: a stream with the default notation writes scientific afterwards, a stream with fixed notation
hexadecimal (both bits). -/
theorem C125_stream_violated (p : Nat) :
    (coordFmt ⟨p, false, false⟩).2 = ⟨p, false, true⟩ ∧ (coordFmt ⟨p, true, false⟩).2 = ⟨p, true, true⟩ := ⟨rfl, rfl⟩

/-! ## Examples -/

/-- Natural numbers are written plainly. -/
example : Plain digits := fun x => ⟨not_mem_digits (by decide) x, not_mem_digits (by decide) x⟩

/-- A matrix that is printed. -/
example : ∃ a : SpMat ℚ, build 3 3 3 [(1, 2), (2, 3), (1, 2), (3, 1)]
      [.add 1 2 5, .zero, .add 1 2 2, .add 1 2 7, .add 3 1 (1/3)] = .ok a ∧
    ∀ num : ℚ → List Char, a.print num [] = .ok (Table num ['['] [']'] 3 3
      (total [.add 1 2 5, .zero, .add 1 2 2, .add 1 2 7, .add 3 1 (1/3)])) := by
  obtain ⟨a, ha⟩ := exBuild
  exact ⟨a, ha, fun num => by rw [C125_print exLegal ha, List.nil_append]⟩

example : Table digits ['['] [']'] 2 2 (fun i j => 10 * i + j) = "[11\t12\t]\n[21\t22\t]\n".toList := by decide +kernel

example : Listing "columns" digits [1, 3, 12] = "columns = {1\t3\t12\t}\n".toList := by decide +kernel

end Nla3d.Sparse
