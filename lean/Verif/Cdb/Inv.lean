import Verif.Cdb.Compress
import Verif.Cdb.File

/-!
# Property C72: whatever a cdb file contains, the mesh read from it is consistent
-/

namespace Nla3d.Cdb

open Nla3d.Text

variable {K : Type}

/-- Specification: the parallel lists have equal lengths, numbers fit 32 bits, and component names are unique. -/
structure Consistent (md : MeshData K) : Prop where
  nodes : md.nodesPos.length = md.nodesNumbers.length
  cells : md.cellNodes.length = md.cellNumbers.length
  attrs : ∀ a ∈ attributes, (md.cellInt.get a).length = md.cellNumbers.length
  nodeRange : ∀ n ∈ md.nodesNumbers, n < 4294967296
  cellRange : ∀ n ∈ md.cellNumbers, n < 4294967296
  cellNodeRange : ∀ e ∈ md.cellNodes, ∀ n ∈ e, n < 4294967296
  names : (md.feComps.map Comp.name).Nodup

/-- The same with one equation per list. -/
structure Cons (md : MeshData K) : Prop where
  nodes : md.nodesPos.length = md.nodesNumbers.length
  cells : md.cellNodes.length = md.cellNumbers.length
  mat : md.cellInt.mat.length = md.cellNumbers.length
  real : md.cellInt.real.length = md.cellNumbers.length
  sect : md.cellInt.sect.length = md.cellNumbers.length
  cs : md.cellInt.cs.length = md.cellNumbers.length
  shape : md.cellInt.shape.length = md.cellNumbers.length
  type : md.cellInt.type.length = md.cellNumbers.length
  nodeRange : ∀ n ∈ md.nodesNumbers, n < 4294967296
  cellRange : ∀ n ∈ md.cellNumbers, n < 4294967296
  cellNodeRange : ∀ e ∈ md.cellNodes, ∀ n ∈ e, n < 4294967296
  names : (md.feComps.map Comp.name).Nodup

theorem Cons.consistent {md : MeshData K} (h : Cons md) : Consistent md := by
  refine ⟨h.nodes, h.cells, ?_, h.nodeRange, h.cellRange, h.cellNodeRange, h.names⟩
  intro a ha
  simp only [attributes, List.mem_cons, List.not_mem_nil, or_false] at ha
  rcases ha with rfl | rfl | rfl | rfl | rfl | rfl
  · exact h.mat
  · exact h.real
  · exact h.sect
  · exact h.cs
  · exact h.shape
  · exact h.type

theorem toU32_lt (z : Int) : toU32 z < 4294967296 := by unfold toU32; omega

theorem bind_ok {α β : Type} {x : Out α} {f : α → Out β} {b : β} (h : (x >>= f) = .ok b) : ∃ a, x = .ok a ∧ f a = .ok b := by
  cases x with
  | error e => simp at h
  | ok a => exact ⟨a, rfl, h⟩

theorem ite_ok {α : Type} {p : Prop} [Decidable p] {a b : Out α} {r : α} (h : (if p then a else b) = .ok r) : a = .ok r ∨ b = .ok r := by
  by_cases hp : p
  · rw [if_pos hp] at h; exact .inl h
  · rw [if_neg hp] at h; exact .inr h

theorem nblockLoop_cons [Zero K] (stod : List Char → Out K) (widths : List Nat) (intNum fuel : Nat) : ∀ (md md' : MeshData K) (is is' : Stream),
    Cons md → nblockLoop stod widths intNum fuel md is = .ok (md', is') → Cons md' := by
  induction fuel with
  | zero => intro md md' is is' _ h; simp [nblockLoop] at h
  | succ fuel ih =>
    intro md md' is is' hc h
    unfold nblockLoop at h
    simp only at h
    split at h
    · injection h with h; injection h with h1 h2; exact h1 ▸ hc
    · obtain ⟨ch, _, h⟩ := bind_ok h
      split at h
      · injection h with h; injection h with h1 h2; exact h1 ▸ hc
      · obtain ⟨v, _, h⟩ := bind_ok h
        obtain ⟨f, _, h⟩ := bind_ok h
        obtain ⟨z, _, h⟩ := bind_ok h
        obtain ⟨x, _, h⟩ := bind_ok h
        obtain ⟨y, _, h⟩ := bind_ok h
        obtain ⟨w, _, h⟩ := bind_ok h
        refine ih _ _ _ _ ?_ h
        refine { hc with nodes := ?_, nodeRange := ?_ }
        · simp [hc.nodes]
        · intro n hn
          rcases List.mem_append.mp hn with hn | hn
          · exact hc.nodeRange n hn
          · rw [List.mem_singleton.mp hn]; exact toU32_lt z

theorem readNodes_range (v : List (List Char)) (st n : Nat) : ∀ (i : Nat) (out r : List Nat), (∀ x ∈ out, x < 4294967296) →
    readNodes v st i n out = .ok r → ∀ x ∈ r, x < 4294967296 := by
  induction n with
  | zero => intro i out r ho h; simp [readNodes] at h; exact h ▸ ho
  | succ n ih =>
    intro i out r ho h
    unfold readNodes at h
    obtain ⟨f, _, h⟩ := bind_ok h
    obtain ⟨z, _, h⟩ := bind_ok h
    refine ih _ _ _ ?_ h
    intro x hx
    rcases List.mem_append.mp hx with hx | hx
    · exact ho x hx
    · rw [List.mem_singleton.mp hx]; exact toU32_lt z

theorem eline_range {isSolid : Bool} {v : List (List Char)} {e : ELine} (h : elineFields isSolid v = .ok e) : e.number < 4294967296 := by
  unfold elineFields at h
  split at h
  all_goals
    repeat (obtain ⟨_, _, h⟩ := bind_ok h)
    injection h with h
    rw [← h]
    exact toU32_lt _

theorem eblockLoop_cons (isSolid : Bool) (widths : List Nat) (fuel : Nat) : ∀ (md md' : MeshData K) (is is' : Stream),
    Cons md → eblockLoop isSolid widths fuel md is = .ok (md', is') → Cons md' := by
  induction fuel with
  | zero => intro md md' is is' _ h; simp [eblockLoop] at h
  | succ fuel ih =>
    intro md md' is is' hc h
    unfold eblockLoop at h
    simp only at h
    split at h
    · injection h with h; injection h with h1 h2; exact h1 ▸ hc
    · obtain ⟨ch, _, h⟩ := bind_ok h
      split at h
      · injection h with h; injection h with h1 h2; exact h1 ▸ hc
      · obtain ⟨v, _, h⟩ := bind_ok h
        obtain ⟨e, he, h⟩ := bind_ok h
        split at h
        · simp at h
        · obtain ⟨nodes, hn, h⟩ := bind_ok h
          refine ih _ _ _ _ ?_ h
          unfold pushCell
          constructor
          · exact hc.nodes
          · simp [hc.cells]
          · simp [hc.mat]
          · simp [hc.real]
          · simp [hc.sect]
          · simp [hc.cs]
          · simp [hc.shape]
          · simp [hc.type]
          · exact hc.nodeRange
          · intro n hn
            rcases List.mem_append.mp hn with hn | hn
            · exact hc.cellRange n hn
            · rw [List.mem_singleton.mp hn]; exact eline_range he
          · intro l hl
            rcases List.mem_append.mp hl with hl | hl
            · exact hc.cellNodeRange l hl
            · rw [List.mem_singleton.mp hl]; exact readNodes_range v _ _ 0 [] nodes (by simp) hn
          · exact hc.names

theorem insertComp_names (c : Comp) (l : List Comp) (h : (l.map Comp.name).Nodup) : ((insertComp c l).map Comp.name).Nodup := by
  unfold insertComp
  split
  · exact h
  · rename_i hn
    rw [List.map_append, List.nodup_append]
    refine ⟨h, by simp, ?_⟩
    intro a ha b hb e
    simp only [List.map_cons, List.map_nil, List.mem_singleton] at hb
    obtain ⟨d, hd, rfl⟩ := List.mem_map.mp ha
    exact hn (List.any_eq_true.mpr ⟨d, hd, by simp [e, hb]⟩)

theorem command_cons [Zero K] (stod : List Char → Out K) (fuel : Nat) (toks : List (List Char)) (md md' : MeshData K) (is is' : Stream)
    (hc : Cons md) (h : command stod fuel toks md is = .ok (md', is')) : Cons md' := by
  have same : ∀ {r : Out (MeshData K × Stream)}, r = .ok (md, is) → r = .ok (md', is') → Cons md' := by
    intro r h1 h2
    rw [h1] at h2
    injection h2 with h2; injection h2 with h3 h4; exact h3 ▸ hc
  unfold command at h
  obtain ⟨t, _, h⟩ := bind_ok h
  rcases ite_ok h with h | h
  · exact same rfl h
  rcases ite_ok h with h | h
  · exact same rfl h
  rcases ite_ok h with h | h
  · exact same rfl h
  obtain ⟨b, _, h⟩ := bind_ok h
  rcases ite_ok h with h | h
  · unfold nblock at h
    simp only at h
    split at h
    · simp at h
    · obtain ⟨_, _, h⟩ := bind_ok h
      obtain ⟨_, _, h⟩ := bind_ok h
      obtain ⟨_, _, h⟩ := bind_ok h
      obtain ⟨_, _, h⟩ := bind_ok h
      exact nblockLoop_cons stod _ _ _ _ _ _ _ hc h
  obtain ⟨b, _, h⟩ := bind_ok h
  rcases ite_ok h with h | h
  · unfold eblock at h
    obtain ⟨_, _, h⟩ := bind_ok h
    obtain ⟨_, _, h⟩ := bind_ok h
    simp only at h
    split at h
    · simp at h
    · obtain ⟨_, _, h⟩ := bind_ok h
      obtain ⟨_, _, h⟩ := bind_ok h
      exact eblockLoop_cons _ _ _ _ _ _ _ hc h
  obtain ⟨b, _, h⟩ := bind_ok h
  rcases ite_ok h with h | h
  · obtain ⟨m, hm, h⟩ := bind_ok h
    injection h with h; injection h with h1 h2
    rw [← h1]
    unfold dcmd at hm
    obtain ⟨r, _, hm⟩ := bind_ok hm
    cases r with
    | none => injection hm with hm; rw [← hm]; exact hc
    | some r =>
      simp only at hm
      obtain ⟨_, _, hm⟩ := bind_ok hm
      obtain ⟨_, _, hm⟩ := bind_ok hm
      injection hm with hm
      rw [← hm]
      exact { hc with }
  obtain ⟨b, _, h⟩ := bind_ok h
  rcases ite_ok h with h | h
  · unfold ce at h
    obtain ⟨_, _, h⟩ := bind_ok h
    obtain ⟨_, _, h⟩ := bind_ok h
    obtain ⟨_, _, h⟩ := bind_ok h
    injection h with h; injection h with h1 h2
    rw [← h1]
    exact { hc with }
  obtain ⟨b, _, h⟩ := bind_ok h
  rcases ite_ok h with h | h
  · unfold cmblock at h
    obtain ⟨_, _, h⟩ := bind_ok h
    rcases ite_ok h with h | h
    · exact same rfl h
    obtain ⟨_, _, h⟩ := bind_ok h
    obtain ⟨_, _, h⟩ := bind_ok h
    simp only at h
    split at h
    · simp at h
    obtain ⟨_, _, h⟩ := bind_ok h
    obtain ⟨_, _, h⟩ := bind_ok h
    split at h
    · simp at h
    obtain ⟨_, _, h⟩ := bind_ok h
    obtain ⟨_, _, h⟩ := bind_ok h
    split at h
    · simp at h
    obtain ⟨_, _, h⟩ := bind_ok h
    injection h with h; injection h with h1 h2
    rw [← h1]
    exact { hc with names := insertComp_names _ _ hc.names }
  obtain ⟨b, _, h⟩ := bind_ok h
  rcases ite_ok h with h | h
  · obtain ⟨_, _, h⟩ := bind_ok h
    exact same rfl h
  obtain ⟨b, _, h⟩ := bind_ok h
  rcases ite_ok h with h | h
  · obtain ⟨_, _, h⟩ := bind_ok h
    exact same rfl h
  obtain ⟨b, _, h⟩ := bind_ok h
  rcases ite_ok h with h | h
  · obtain ⟨_, _, h⟩ := bind_ok h
    exact same rfl h
  obtain ⟨b, _, h⟩ := bind_ok h
  rcases ite_ok h with h | h
  · obtain ⟨m, hm, h⟩ := bind_ok h
    injection h with h; injection h with h1 h2
    rw [← h1]
    unfold fcmd at hm
    obtain ⟨r, _, hm⟩ := bind_ok hm
    cases r with
    | none => injection hm with hm; rw [← hm]; exact hc
    | some r =>
      simp only at hm
      obtain ⟨_, _, hm⟩ := bind_ok hm
      obtain ⟨_, _, hm⟩ := bind_ok hm
      injection hm with hm
      rw [← hm]
      exact { hc with }
  obtain ⟨b, _, h⟩ := bind_ok h
  rcases ite_ok h with h | h
  · obtain ⟨_, _, h⟩ := bind_ok h
    exact same rfl h
  exact same rfl h

/-- C72. Whatever the file contains, if reading succeeds the mesh is consistent. -/
theorem C72_consistent [Zero K] (stod : List Char → Out K) (fuel : Nat) (file : List Char) (md : MeshData K)
    (h : readCdb stod fuel file = .ok md) : Consistent md := by
  have key : ∀ fuel (md md' : MeshData K) is, Cons md → cdbLoop stod fuel md is = .ok md' → Cons md' := by
    intro fuel
    induction fuel with
    | zero => intro md md' is _ h; simp [cdbLoop] at h
    | succ fuel ih =>
      intro md md' is hc h
      unfold cdbLoop at h
      simp only at h
      split at h
      · injection h with h; exact h ▸ hc
      · obtain ⟨r, hr, h⟩ := bind_ok h
        exact ih _ _ _ (command_cons stod fuel _ _ _ _ _ hc hr) h
  refine (key fuel MeshData.empty md _ ?_ h).consistent
  constructor <;> simp [MeshData.empty]

/-- C72. Hence the mesh can be asked for degenerated cells and for all six attributes. -/
theorem C72_queries [Zero K] (stod : List Char → Out K) (fuel : Nat) (file : List Char) (md : MeshData K)
    (h : readCdb stod fuel file = .ok md) : (∃ out, getDegeneratedCells md = .ok out) ∧
      ∀ a ∈ attributes, ∀ val, ∃ out, getCellsByAttribute md a val = .ok out := by
  have hc := C72_consistent stod fuel file md h
  obtain ⟨out, h1, _⟩ := C70_degenerated md hc.cells
  refine ⟨⟨out, h1⟩, fun a ha val => ?_⟩
  obtain ⟨out, h2, _⟩ := C70_attribute md a val (hc.attrs a ha)
  exact ⟨out, h2⟩

/-- The hypothesis: a file that is read successfully. -/
example : ∃ fuel, ∃ md : MeshData Int, readCdb (fun s => if s = " 1.5".toList then .ok 3 else .ok 0) fuel
    "! test\nNBLOCK,3\r\n(1i3,3e4.1)\n  7 1.5\nN,R5.3,LOC,-1,\nd,7,UX,0.\nCMBLOCK,A,NODE,1\n(2i2)\n 7".toList = .ok md ∧
    md.nodesNumbers = [7] := by
  obtain ⟨f0, h⟩ := file_example
  exact ⟨f0, _, h f0 le_rfl, rfl⟩

end Nla3d.Cdb
