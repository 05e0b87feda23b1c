import Verif.Truss.Lemmas
import Verif.Solver.NonlinearProps

/-!
# C110: what the truss program reports
-/

noncomputable section

namespace Nla3d.Truss

open Nla3d.Dof Nla3d.Storage Nla3d.Solver Nla3d.Struct Finset
open Nla3d.Post (rowOf)

variable {t : Input}

/-! ## The files -/

section
variable {S1 : Storage ℝ} {num : Key → Nat} {A : Side → Spec} (hb : Base (storage t) S1 (calls t) [] t.fixs num A)

include hb in
theorem row_range {s : Side} {n : Nat} {d : DofType} {e : Nat} {c : Bool} (hA : A s n d = some (e, c)) :
    (s, n, d) ∈ regKeys (calls t) ∧ num (s, n, d) = e ∧ 0 < e ∧ e ≤ S1.nDofs := by
  have hk : (s, n, d) ∈ regKeys (calls t) := (hb.prep.ready.isSome (s, n, d)).mp (by
    show (A s n d).isSome = true
    rw [hA]; rfl)
  have h1 := hb.range hk
  have h2 : num (s, n, d) = e := by
    rw [hb.agree _ hk]
    unfold Storage.num at'
    rw [hA]; rfl
  rw [h2] at h1
  exact ⟨hk, h2, h1⟩

include hb in
/-- The storage with vectors of the right length. -/
theorem solved_of {S : Storage ℝ} (h1 : S.elemT = S1.elemT) (h2 : S.nodeT = S1.nodeT) (h3 : S.nNodes = S1.nNodes)
    (h4 : S.elements = S1.elements) (h5 : S.vecU.length = S1.nDofs + S1.nMpc) (h6 : S.vecR.length = S1.nDofs + S1.nMpc) :
    Post.Solved S A :=
  ⟨hb.prep.ready.sim.congr h1 h2 h3 h4, fun s n d e c hA => by have := row_range hb hA; omega,
    fun s n d e c hA => by have := row_range hb hA; omega⟩

include hb in
theorem row_value (v : List ℝ) {n : Nat} {d : DofType} (hk : (Side.node, n, d) ∈ regKeys (calls t)) :
    rowOf (A .node) v n d = comp v (num (.node, n, d)) := by
  obtain ⟨⟨e, c⟩, hA⟩ := Option.isSome_iff_exists.mp (hb.some hk)
  have hA' : A .node n d = some (e, c) := hA
  unfold rowOf
  rw [hA', (row_range hb hA').2.1]
  rfl

include hb in
theorem row_reg (s : Side) (n : Nat) (d : DofType) : (A s n d).isSome ↔ (s, n, d) ∈ regKeys (calls t) := hb.prep.ready.isSome (s, n, d)

theorem view_legal (h : Legal t) {S : Storage ℝ} (hS : Post.Solved S A) (hN : S.nNodes = t.nodeTable.length)
    (hE : S.elements = t.elementTable.map fun b => [b.1, b.2]) : Vtk.Legal (view t S) A := by
  refine ⟨hS, by simp [view, positions_length, hN], ?_, ?_, ?_, ?_⟩
  · show S.elements = (t.elementTable.map _).map _
    rw [hE, List.map_map]
    rfl
  · intro e he
    obtain ⟨b, _, rfl⟩ := List.mem_map.mp he
    rfl
  · intro e he
    obtain ⟨b, _, rfl⟩ := List.mem_map.mp he
    rfl
  · intro e he n hn
    obtain ⟨b, hb, rfl⟩ := List.mem_map.mp he
    have hn' : n ∈ [b.1, b.2] := hn
    have := h.ends b hb
    show 0 < n ∧ n ≤ S.nNodes
    rw [hN]
    simp only [List.mem_cons, List.not_mem_nil, or_false] at hn'
    rcases hn' with rfl | rfl
    · exact this.1
    · exact this.2

/-- The processor shows displacements and reactions, nothing else. -/
def showing : Vtk.Proc := { newProc with useDisp := true }

include hb in
theorem setUp_eq (h : Legal t) {S : Storage ℝ} (hS : Post.Solved S A) (hN : S.nNodes = t.nodeTable.length)
    (hE : S.elements = t.elementTable.map fun b => [b.1, b.2]) : Vtk.setUp (view t S) newProc = showing := by
  have hreg : ∀ s n d, (A s n d).isSome ↔ ∃ n' i, IsNode t n' ∧ (s, n, d) = (.node, n', axis i) := fun s n d =>
    (row_reg hb s n d).trans (mem_regs h _)
  obtain ⟨_, h2, h3, h4, _, _⟩ := Vtk.C60_setup (P := newProc) (view_legal h hS hN hE) (by
    intro s n
    by_contra hne
    obtain ⟨n', i, _, hi⟩ := (hreg s n .UNDEFINED).mp (Option.isSome_iff_ne_none.mpr hne)
    fin_cases i <;> simp [axis] at hi) (by simp [newProc]) (by simp [newProc]) (by simp [newProc])
  have e1 : (Vtk.setUp (view t S) newProc).useDisp = true :=
    h2.mpr ⟨1, .UX, .inl rfl, (hreg _ _ _).mpr ⟨1, 0, ⟨le_rfl, List.length_pos_iff.mpr h.some⟩, rfl⟩⟩
  have e2 : (Vtk.setUp (view t S) newProc).nodal = [] := by
    refine List.eq_nil_iff_forall_not_mem.mpr fun d hd => ?_
    obtain ⟨⟨d1, d2, d3⟩, n, hn⟩ := (h3 d).mp hd
    obtain ⟨n', i, _, hi⟩ := (hreg _ _ _).mp hn
    rw [Prod.mk.injEq, Prod.mk.injEq] at hi
    obtain ⟨_, _, rfl⟩ := hi
    fin_cases i
    · exact d1 rfl
    · exact d2 rfl
    · exact d3 rfl
  have e3 : (Vtk.setUp (view t S) newProc).elemental = [] := by
    refine List.eq_nil_iff_forall_not_mem.mpr fun d hd => ?_
    obtain ⟨n, hn⟩ := (h4 d).mp hd
    obtain ⟨n', i, _, hi⟩ := (hreg _ _ _).mp hn
    simp at hi
  have hform : ∃ a b c, Vtk.setUp (view t S) newProc = { newProc with useDisp := a, nodal := b, elemental := c } := ⟨_, _, _, rfl⟩
  obtain ⟨a, b, c, hform⟩ := hform
  rw [hform] at e1 e2 e3 ⊢
  have e1' : a = true := e1
  have e2' : b = [] := e2
  have e3' : c = [] := e3
  subst e1' e2' e3'
  rfl

include hb in
theorem file_shows (h : Legal t) {S : Storage ℝ} (hS : Post.Solved S A) (hN : S.nNodes = t.nodeTable.length)
    (hE : S.elements = t.elementTable.map fun b => [b.1, b.2]) {u r : Field} (hu : ∀ n i, IsNode t n → comp S.vecU (num (.node, n, axis i)) = u n i)
    (hr : ∀ n i, IsNode t n → comp S.vecR (num (.node, n, axis i)) = r n i) :
    ∃ f, Vtk.file (view t S) showing = .ok f ∧ Shows t u r f := by
  obtain ⟨f, h1, h2⟩ := Vtk.C60_roundtrip (view_legal h hS hN hE) (P := showing)
    ⟨by simp [showing, newProc], by simp [showing, newProc], by simp [showing, newProc], by simp [showing, newProc], by simp [showing, newProc]⟩
  refine ⟨f, h1, ?_⟩
  unfold Shows
  rw [h2]
  have e1 : (view t S).pos = (List.range t.nodeTable.length).map fun k => ⟨coord t (k + 1) 0, coord t (k + 1) 1, coord t (k + 1) 2⟩ := by
    show (positions t).map _ = _
    apply List.ext_getElem (by simp [positions_length])
    intro k k1 k2
    have hk : k < t.nodeTable.length := by simpa using k2
    have hk' := coord_positions (t := t) (n := k + 1) ⟨by omega, by omega⟩
    rw [Nat.add_sub_cancel, List.getElem?_eq_getElem (by rw [positions_length]; exact hk), Option.some.injEq] at hk'
    rw [List.getElem_map, List.getElem_map, List.getElem_range, hk']
  have e2 : (view t S).elems.map (fun e => e.nodes.map (· - 1)) = t.elementTable.map fun b => [b.1 - 1, b.2 - 1] := by
    show (t.elementTable.map _).map _ = _
    rw [List.map_map]
    rfl
  have e3 : (view t S).elems.map (fun e => Vtk.cellType e.type) = t.elementTable.map fun _ => 3 := by
    show (t.elementTable.map _).map _ = _
    rw [List.map_map]
    rfl
  have e4 : ∀ (v : List ℝ) (w : Field), (∀ n i, IsNode t n → comp v (num (.node, n, axis i)) = w n i) →
      Vtk.field3 (A .node) v S.nNodes = (List.range t.nodeTable.length).map fun k => ⟨w (k + 1) 0, w (k + 1) 1, w (k + 1) 2⟩ := by
    intro v w hw
    unfold Vtk.field3 Vtk.from1
    rw [List.map_map, hN]
    refine List.map_congr_left fun k hk => ?_
    have hk' : IsNode t (k + 1) := ⟨by omega, by have := List.mem_range.mp hk; omega⟩
    have hreg : ∀ i, (Side.node, k + 1, axis i) ∈ regKeys (calls t) := fun i => (mem_regs h _).mpr ⟨k + 1, i, hk', rfl⟩
    show (⟨rowOf (A .node) v (k + 1) .UX, rowOf (A .node) v (k + 1) .UY, rowOf (A .node) v (k + 1) .UZ⟩ : Post.Pt ℝ) = _
    have r0 : rowOf (A .node) v (k + 1) .UX = _ := row_value hb v (hreg 0)
    have r1 : rowOf (A .node) v (k + 1) .UY = _ := row_value hb v (hreg 1)
    have r2 : rowOf (A .node) v (k + 1) .UZ = _ := row_value hb v (hreg 2)
    rw [r0, r1, r2]
    rw [← hw _ 0 hk', ← hw _ 1 hk', ← hw _ 2 hk']
    rfl
  rw [e1, e2, e3]
  congr 2
  show ([("disp", Vtk.Arr.vectors (Vtk.field3 (A .node) S.vecU S.nNodes)), ("reaction", .vectors (Vtk.field3 (A .node) S.vecR S.nNodes))] :
    List (String × Vtk.Arr ℝ)) ++ [] = _
  rw [e4 _ u hu, e4 _ r hr]
  rfl

end

/-! ## Why the program stops -/

theorem stuck_prepare (h : Legal t) (hf : (storage t).prepare (calls t) [] (fixKeys t.fixs) = .fatal) : AllFixed t ∨ Crowded t := by
  classical
  rcases C14_prepare_stops (legal_model h) hf with ha | ⟨f, hfr, P, Q, hP, hQ, hc⟩
  · exact .inl fun n i hn => (fixed_iff _ _ _).mp (ha _ ((mem_regs h _).mpr ⟨n, i, hn, rfl⟩))
  · have hQ0 : Q = ∅ := by
      refine Finset.eq_empty_iff_forall_notMem.mpr fun q hq => ?_
      obtain ⟨m, hm, _⟩ := hQ q hq
      rw [storage_mpcs] at hm
      simp at hm
    rw [hQ0, Finset.card_empty, Nat.add_zero] at hc
    obtain ⟨n, i, hn, rfl⟩ := (mem_regs h f).mp hfr
    refine .inr ⟨n, P.image fun g => g.2.1, ?_, ?_⟩
    · intro m hm
      obtain ⟨g, hg, rfl⟩ := Finset.mem_image.mp hm
      obtain ⟨hg1, e, ns, he, hto⟩ := hP g hg
      obtain ⟨m, j, _, rfl⟩ := (mem_regs h g).mp hg1
      rw [storage_elements] at he
      obtain ⟨b, hb, hns⟩ := List.mem_map.mp (List.mem_of_getElem? he)
      subst hns
      refine ⟨b, hb, ?_, ?_⟩
      · simpa using hto (.node, n, axis i) (by simp)
      · simpa using hto (.node, m, axis j) (by simp)
    · have hsub : P ⊆ ((P.image fun g => g.2.1) ×ˢ (Finset.univ : Finset (Fin 3))).image fun p => (Side.node, p.1, axis p.2) := by
        intro g hg
        obtain ⟨m, j, _, he⟩ := (mem_regs h g).mp (hP g hg).1
        refine Finset.mem_image.mpr ⟨(m, j), Finset.mem_product.mpr ⟨Finset.mem_image.mpr ⟨g, hg, by rw [he]⟩, Finset.mem_univ _⟩, he.symm⟩
      have h1 := (Finset.card_le_card hsub).trans Finset.card_image_le
      rw [Finset.card_product, Finset.card_univ, Fintype.card_fin] at h1
      omega

theorem resistance_pull (h : Legal t) (w : Key → ℝ) (n : Nat) (i : Fin 3) : resistance (elems t) w (.node, n, axis i) =
    (t.elementTable.map fun b => pull t (fieldOf w) b n i).sum := by
  unfold resistance
  rw [sum_pull h, sum_pull h]
  have hz : ∀ b, pull t (fun n => nodal (fun _ => (0 : ℝ)) n) b n i = 0 := by
    intro b
    unfold pull strain nodal
    simp
  simp only [hz]
  rw [List.map_const', List.sum_replicate, smul_zero, sub_zero]
  rfl

theorem stuck_large (h : Legal t) (hs : 1000 ≤ (freeKeys (calls t) t.fixs).card) : Large t := by
  classical
  refine ⟨(freeKeys (calls t) t.fixs).image fun k => (k.2.1, (dir k.2.2).getD 0), ?_, ?_⟩
  · intro p hp
    obtain ⟨k, hk, rfl⟩ := Finset.mem_image.mp hp
    obtain ⟨n, i, rfl⟩ := free_key h hk
    have := (free_iff h n i).mp hk
    have hd : (dir (axis i)).getD 0 = i := by fin_cases i <;> rfl
    show IsNode t n ∧ valuesAt t.fixs n ((dir (axis i)).getD 0) = []
    rw [hd]
    exact this
  · rw [Finset.card_image_of_injOn]
    · exact hs
    · intro k hk k' hk' he
      obtain ⟨n, i, rfl⟩ := free_key h (Finset.mem_coe.mp hk)
      obtain ⟨n', i', rfl⟩ := free_key h (Finset.mem_coe.mp hk')
      have hd : ∀ i : Fin 3, (dir (axis i)).getD 0 = i := by intro i; fin_cases i <;> rfl
      simp only [hd, Prod.mk.injEq] at he
      rw [he.1, he.2]

theorem stuck_solve (h : Legal t)
    (hs : 1000 ≤ (freeKeys (calls t) t.fixs).card + ((storage t).mpcs ++ []).length ∨
      ∃ w l, Soft (elems t) (calls t) t.fixs ((storage t).mpcs ++ []) w l) : Large t ∨ IsSoft t := by
  rcases hs with hs | ⟨w, l, hs⟩
  · rw [storage_mpcs] at hs
    exact .inl (stuck_large h hs)
  · have hl : l = [] := by
      have := hs.length
      rw [storage_mpcs] at this
      exact List.length_eq_zero_iff.mp this
    refine .inr ⟨fieldOf w, ?_, ?_, ?_⟩
    · intro n i hni
      refine hs.fixed _ fun hk => ?_
      have := (free_iff h n i).mp hk
      rcases hni with hni | hni
      · exact hni this.1
      · exact hni this.2
    · rcases hs.one with ⟨k, hk, h1⟩ | h1
      · obtain ⟨n, i, rfl⟩ := free_key h hk
        exact ⟨n, i, h1⟩
      · rw [hl] at h1; simp at h1
    · intro n i hn hv
      have := hs.forces _ ((free_iff h n i).mpr ⟨hn, hv⟩)
      rw [resistance_pull h, storage_mpcs] at this
      simpa [conForce] using this

/-! ## C110 -/

theorem stress_eq (h : Legal t) {S : Storage ℝ} {u : Field} (hu : ∀ n i, IsNode t n → Post.solution S .node n (axis i) = .ok (u n i))
    {b : Nat × Nat} (hb : b ∈ t.elementTable) : stressOf t S b = .ok (t.E * strain t u b) := by
  have hd : ∀ n, IsNode t n → dispOf S n = .ok (u n) := by
    intro n hn
    unfold dispOf
    have h0 : Post.solution S .node n .UX = _ := hu n 0 hn
    have h1 : Post.solution S .node n .UY = _ := hu n 1 hn
    have h2 : Post.solution S .node n .UZ = _ := hu n 2 hn
    rw [h0, h1, h2]
    simp only [Res.ok_bind]
    congr 1
    funext i
    fin_cases i <;> rfl
  have := h.ends b hb
  unfold stressOf
  rw [nodePos_eq this.1, nodePos_eq this.2, hd _ this.1, hd _ this.2]
  simp only [Res.ok_bind]
  have hpos : (![coord t b.1, coord t b.2] : Fin 2 → Fin 3 → ℝ) = fun a => coord t ((bar t b).n a) := by
    funext a; fin_cases a <;> rfl
  have hdis : (![u b.1, u b.2] : Fin 2 → Fin 3 → ℝ) = fun a => u ((bar t b).n a) := by
    funext a; fin_cases a <;> rfl
  rw [hpos, hdis, Bars.C42_stress (pos := fun a => coord t ((bar t b).n a)) (coord_ne (h.long b hb)), strain_eq]
  rfl

/-- The program after the equations are solved. -/
def report (t : Input) (f0 : List (List (Vtk.Tok ℝ))) (S : Storage ℝ) : Res (Storage ℝ × Output) := do
  let stress ← Vtk.collect (stressOf t S) t.elementTable
  let f1 ← Vtk.file (view t S) showing
  let disp ← Vtk.collect (logDisp S) (Vtk.from1 t.nodeTable.length)
  let react ← Vtk.collect (logReact S) (Vtk.from1 t.nodeTable.length)
  .ok (S, ⟨disp, react, stress, (Vtk.preFile "truss2D" f0 fun _ => none).put (Vtk.fileName "truss2D" 1) f1⟩)

theorem run_core (h : Legal t) {S1 : Storage ℝ} {num : Key → Nat} {A : Side → Spec}
    (hp : (storage t).prepare (calls t) [] (fixKeys t.fixs) = .ok S1) (hb : Base (storage t) S1 (calls t) [] t.fixs num A) :
    ∃ f0, Shows t (fun _ _ => 0) (fun _ _ => 0) f0 ∧
      run t = linearSolve Gauss.solveEquations (linear (elems t) fun _ _ => ()) t.loads t.fixs (calls t) [] (storage t) () >>=
        fun p => report t f0 p.1 := by
  have hS1 : Post.Solved S1 A := solved_of hb rfl rfl rfl rfl (by rw [hb.U, List.length_replicate]) (by rw [hb.R, List.length_replicate])
  have hN : S1.nNodes = t.nodeTable.length := hb.prep.ready.mesh.nNodes
  have hE : S1.elements = t.elementTable.map fun b => [b.1, b.2] := hb.prep.ready.mesh.elements
  obtain ⟨f0, h1, h2⟩ := file_shows hb h hS1 hN hE (u := fun _ _ => 0) (r := fun _ _ => 0)
    (fun n i _ => by rw [hb.U]; exact getD_replicate _ _) (fun n i _ => by rw [hb.R]; exact getD_replicate _ _)
  refine ⟨f0, h2, ?_⟩
  unfold run linearSolve
  rw [hp]
  simp only [Res.ok_bind]
  rw [setUp_eq hb h hS1 hN hE, h1, elems_eq h]
  rfl

theorem run_fatal (h : Legal t)
    (hf : linearSolve Gauss.solveEquations (linear (elems t) fun _ _ => ()) t.loads t.fixs (calls t) [] (storage t) () = .fatal) :
    run t = .fatal := by
  rcases prepare_or_fatal (legal_model h) with hp | ⟨S1, num, A, hp, hn, hb⟩
  · unfold run
    rw [hp]
    rfl
  · obtain ⟨f0, _, hr⟩ := run_core h hp hb
    rw [hr, hf]
    rfl

theorem run_ok (h : Legal t) {S : Storage ℝ}
    (hok : linearSolve Gauss.solveEquations (linear (elems t) fun _ _ => ()) t.loads t.fixs (calls t) [] (storage t) () = .ok (S, ())) :
    ∃ o u r, run t = .ok (S, o) ∧ Statics t u r ∧ Reports t u r o ∧ (∀ u' r', Statics t u' r' → ∀ n i, IsNode t n → u' n i = u n i ∧ r' n i = r n i) ∧
      ∀ n i, IsNode t n → Post.solution S .node n (axis i) = .ok (u n i) := by
  have hl := legal_model h
  obtain ⟨S1, num, A, hp, hn, hb, ha, hm, _, _⟩ := solved_model hl (loads_reg h) (placed h) (fixs_ok h) gauss_exact hok
  obtain ⟨hr1, _⟩ := reported hl hb ha hm
  obtain ⟨u, r, l, hr2, hmeets, hlen, hbal⟩ := C83_equilibrium hl (loads_reg h) (placed h) (fixs_ok h) gauss_exact hok
  obtain ⟨f0, hf0, hrun⟩ := run_core h hp hb
  have hreg : ∀ n i, IsNode t n → (Side.node, n, axis i) ∈ regKeys (calls t) := fun n i hn => (mem_regs h _).mpr ⟨n, i, hn, rfl⟩
  have hsol : ∀ n i, IsNode t n → Post.solution S .node n (axis i) = .ok (fieldOf u n i) := fun n i hn => hr2.solution n _ (hreg n i hn)
  have hrea : ∀ n i, IsNode t n → Post.reaction S n (axis i) = .ok (fieldOf r n i) := fun n i hn => hr2.reaction n _ (hreg n i hn)
  have hlenU : S.vecU.length = S1.nDofs + S1.nMpc ∧ S.vecR.length = S1.nDofs + S1.nMpc := ha.sizes.2.2.2
  have hS : Post.Solved S A := solved_of hb (by rw [ha.alike]) (by rw [ha.alike]) (by rw [ha.alike]) (by rw [ha.alike]) hlenU.1 hlenU.2
  have hN : S.nNodes = t.nodeTable.length := by
    have : S1.nNodes = t.nodeTable.length := hb.prep.ready.mesh.nNodes
    rw [ha.alike]; exact this
  have hE : S.elements = t.elementTable.map fun b => [b.1, b.2] := by
    have : S1.elements = t.elementTable.map fun b => [b.1, b.2] := hb.prep.ready.mesh.elements
    rw [ha.alike]; exact this
  obtain ⟨f1, hf1, hsh⟩ := file_shows hb h hS hN hE (u := fieldOf u) (r := fieldOf r) (fun n i hn => by
      have h1 := hr1.solution n _ (hreg n i hn)
      rw [hsol n i hn, Res.ok.injEq] at h1
      exact h1.symm) (fun n i hn => by
      have h1 := hr1.reaction n _ (hreg n i hn)
      rw [hrea n i hn, Res.ok.injEq] at h1
      exact h1.symm)
  have hstress := Vtk.collect_eq (stressOf t S) (fun b => t.E * strain t (fieldOf u) b) t.elementTable (fun b hb => stress_eq h hsol hb)
  have hdisp := Vtk.collect_eq (logDisp S) (fun n => (fieldOf u n 0, fieldOf u n 1)) (Vtk.from1 t.nodeTable.length) (by
    intro n hn
    have h0 : Post.solution S .node n .UX = _ := hsol n 0 (Vtk.mem_from1.mp hn)
    have h1 : Post.solution S .node n .UY = _ := hsol n 1 (Vtk.mem_from1.mp hn)
    unfold logDisp
    rw [h0, h1]
    rfl)
  have hreact := Vtk.collect_eq (logReact S) (fun n => (fieldOf r n 0, fieldOf r n 1)) (Vtk.from1 t.nodeTable.length) (by
    intro n hn
    have h0 : Post.reaction S n .UX = _ := hrea n 0 (Vtk.mem_from1.mp hn)
    have h1 : Post.reaction S n .UY = _ := hrea n 1 (Vtk.mem_from1.mp hn)
    unfold logReact
    rw [h0, h1]
    rfl)
  have hout : run t = .ok (S, ⟨(Vtk.from1 t.nodeTable.length).map fun n => (fieldOf u n 0, fieldOf u n 1),
      (Vtk.from1 t.nodeTable.length).map fun n => (fieldOf r n 0, fieldOf r n 1),
      t.elementTable.map fun b => t.E * strain t (fieldOf u) b,
      (Vtk.preFile "truss2D" f0 fun _ => none).put (Vtk.fileName "truss2D" 1) f1⟩) := by
    rw [hrun, hok, Res.ok_bind]
    unfold report
    rw [hstress, hf1, hdisp, hreact]
    rfl
  have e0 : Vtk.fileName "truss2D" 0 = "truss2D0.vtk" := by decide +kernel
  have e1 : Vtk.fileName "truss2D" 1 = "truss2D1.vtk" := by decide +kernel
  refine ⟨_, fieldOf u, fieldOf r, hout, statics_of h hmeets hbal, ?_, ?_, hsol⟩
  · refine ⟨?_, ?_, rfl, ⟨f0, ?_, hf0⟩, ⟨f1, ?_, hsh⟩, ?_⟩
    · show (Vtk.from1 t.nodeTable.length).map _ = _
      unfold Vtk.from1
      rw [List.map_map]
      rfl
    · show (Vtk.from1 t.nodeTable.length).map _ = _
      unfold Vtk.from1
      rw [List.map_map]
      rfl
    · show (if "truss2D0.vtk" = Vtk.fileName "truss2D" 1 then some f1 else if "truss2D0.vtk" = Vtk.fileName "truss2D" 0 then some f0 else none) = _
      rw [e0, e1, if_neg (by decide), if_pos rfl]
    · show (if "truss2D1.vtk" = Vtk.fileName "truss2D" 1 then some f1 else
        if "truss2D1.vtk" = Vtk.fileName "truss2D" 0 then some f0 else none) = _
      rw [e1, if_pos rfl]
    · intro name h0 h1
      show (if name = Vtk.fileName "truss2D" 1 then some f1 else if name = Vtk.fileName "truss2D" 0 then some f0 else none) = none
      rw [e0, e1, if_neg h1, if_neg h0]
  · intro u' r' hs n i hn
    obtain ⟨m1, m2⟩ := meets_of h hs
    obtain ⟨u2, r2, c1, _, c3⟩ := C85_unique hl (loads_reg h) (placed h) (fixs_ok h) hok (l' := []) rfl m1 m2
    have h1 := c1.solution n _ (hreg n i hn)
    have h2 := c1.reaction n _ (hreg n i hn)
    rw [hsol n i hn, Res.ok.injEq, (c3 _ (hreg n i hn)).1, keyed_axis] at h1
    rw [hrea n i hn, Res.ok.injEq, (c3 _ (hreg n i hn)).2, keyed_axis] at h2
    exact ⟨h1.symm, h2.symm⟩

theorem run_cases (h : Legal t) : (run t = .fatal ∧ (AllFixed t ∨ Crowded t ∨ Large t ∨ IsSoft t)) ∨
    ∃ S o u r, run t = .ok (S, o) ∧ Statics t u r ∧ Reports t u r o ∧
      (∀ u' r', Statics t u' r' → ∀ n i, IsNode t n → u' n i = u n i ∧ r' n i = r n i) ∧
      ∀ n i, IsNode t n → Post.solution S .node n (axis i) = .ok (u n i) := by
  have hl := legal_model h
  have hprob := linear_problem (E := Unit) (update := fun _ _ => ()) hl (loads_reg h) (placed h)
  rcases linear_solve hprob gauss_exact () with ⟨hf, hp⟩ | ⟨S1, num, hp, hn, ⟨hf, _⟩ | ⟨S', e', h1, _⟩⟩
  · exact .inl ⟨run_fatal h hf, (stuck_prepare h hp).imp_right .inl⟩
  · refine .inl ⟨run_fatal h hf, .inr (.inr (stuck_solve h ?_))⟩
    rcases C109_stops hl (loads_reg h) (placed h) hf with h2 | h2
    · rw [hp] at h2; simp at h2
    · exact h2
  · obtain ⟨o, u, r, a1, a2, a3, a4, a5⟩ := run_ok h h1
    exact .inr ⟨S', o, u, r, a1, a2, a3, a4, a5⟩

/-- **C110.** The truss program with any tables of a truss, under any supports and loads, either reports displacements, reactions and
stresses of the equilibrium of the truss — which is then the only one — and shows them in its files, or stops with a fatal error,
because all displacements are given, a joint has too many bars, there are too many unknowns, or the truss is almost a mechanism. -/
theorem C110_run (h : Legal t) : (run t = .fatal ∧ (AllFixed t ∨ Crowded t ∨ Large t ∨ IsSoft t)) ∨
    ∃ S o u r, run t = .ok (S, o) ∧ Statics t u r ∧ Reports t u r o ∧
      ∀ u' r', Statics t u' r' → ∀ n i, IsNode t n → u' n i = u n i ∧ r' n i = r n i := by
  rcases run_cases h with hf | ⟨S, o, u, r, a1, a2, a3, a4, _⟩
  · exact .inl hf
  · exact .inr ⟨S, o, u, r, a1, a2, a3, a4⟩

theorem Shows.congr {u r u' r' : Field} {f : List (List (Vtk.Tok ℝ))} (hs : Shows t u r f)
    (he : ∀ n i, IsNode t n → u' n i = u n i ∧ r' n i = r n i) : Shows t u' r' f := by
  unfold Shows at hs ⊢
  rw [hs]
  have key : ∀ v v' : Field, (∀ n i, IsNode t n → v' n i = v n i) → ((List.range t.nodeTable.length).map fun k =>
      (⟨v (k + 1) 0, v (k + 1) 1, v (k + 1) 2⟩ : Post.Pt ℝ)) = (List.range t.nodeTable.length).map fun k =>
      (⟨v' (k + 1) 0, v' (k + 1) 1, v' (k + 1) 2⟩ : Post.Pt ℝ) := by
    intro v v' hv
    refine List.map_congr_left fun k hk => ?_
    have hn : IsNode t (k + 1) := ⟨by omega, by have := List.mem_range.mp hk; omega⟩
    rw [hv _ 0 hn, hv _ 1 hn, hv _ 2 hn]
  rw [key u u' fun n i hn => (he n i hn).1, key r r' fun n i hn => (he n i hn).2]

theorem Reports.congr {u r u' r' : Field} {o : Output} (h : Legal t) (hs : Reports t u r o)
    (he : ∀ n i, IsNode t n → u' n i = u n i ∧ r' n i = r n i) : Reports t u' r' o := by
  have hn : ∀ k ∈ List.range t.nodeTable.length, IsNode t (k + 1) := fun k hk => ⟨by omega, by have := List.mem_range.mp hk; omega⟩
  obtain ⟨f, f1, f2⟩ := hs.after
  refine ⟨?_, ?_, ?_, hs.before, ⟨f, f1, f2.congr he⟩, hs.only⟩
  · rw [hs.disp]
    exact List.map_congr_left fun k hk => by rw [(he _ 0 (hn k hk)).1, (he _ 1 (hn k hk)).1]
  · rw [hs.react]
    exact List.map_congr_left fun k hk => by rw [(he _ 0 (hn k hk)).2, (he _ 1 (hn k hk)).2]
  · rw [hs.stress]
    refine List.map_congr_left fun b hb => ?_
    have hends := h.ends b hb
    unfold strain
    simp only [(he _ _ hends.1).1, (he _ _ hends.2).1]

theorem keyed_cases (w : Field) (k : Key) : (∃ n i, k = (.node, n, axis i)) ∨ keyed w k = 0 := by
  obtain ⟨s, n, d⟩ := k
  cases s <;> cases d <;> first
    | exact .inr rfl
    | exact .inl ⟨n, 0, rfl⟩
    | exact .inl ⟨n, 1, rfl⟩
    | exact .inl ⟨n, 2, rfl⟩

theorem keyed_free (h : Legal t) {w : Field} (hw : Admitted t w) : ∀ k, k ∉ freeKeys (calls t) t.fixs → keyed w k = 0 := by
  intro k hk
  rcases keyed_cases w k with ⟨n, i, rfl⟩ | h0
  · rw [keyed_axis]
    apply hw
    rw [free_iff h, not_and_or] at hk
    exact hk
  · exact h0

theorem inextensible_keyed (w : Field) : Inextensible (coord t) (bars t) (keyed w) ↔
    ∀ b ∈ t.elementTable, ∑ i, (w b.2 i - w b.1 i) * (coord t b.2 i - coord t b.1 i) = 0 := by
  unfold Inextensible bars
  rw [List.forall_mem_map]
  refine forall₂_congr fun b _ => ?_
  rw [Fin.sum_univ_three]
  rfl

/-- **C110, mechanisms.** If the supports admit a displacement that leaves the lengths of the bars as they are, the program stops with a
fatal error, whatever the loads. -/
theorem C110_mechanism (h : Legal t) {w : Field} (hw : Mechanism t w) : run t = .fatal := by
  obtain ⟨n, i, hm⟩ := hw.moves
  exact run_fatal h (C109_truss_mechanism (legal_model h) (loads_reg h) (placed h) (truss_of h) (fixs_ok h) (keyed_free h hw.admitted)
    ⟨n, axis i, by rw [keyed_axis]; exact hm⟩ ((inextensible_keyed w).mpr hw.lengths) (fun m hm => by rw [storage_mpcs] at hm; simp at hm))

/-- The tables with another modulus. -/
def withE (t : Input) (E : ℝ) : Input := { t with E := E }

theorem Legal.withE (h : Legal t) (E : ℝ) : Legal (withE t E) := ⟨h.some, h.ends, h.long, h.used, h.fixs, h.once, h.loads, h.size⟩

/-- **C110, trusses that are no mechanisms.** If the supports admit no displacement that leaves the lengths of the bars as they are, and
the truss is not too large, the program solves it for every modulus over some bound, whatever the loads. Missing for the full claim: the
bound (`C109_units_violated`: the code compares pivots with `1e-20` whatever the units). -/
theorem C110_solved_partial (h : Legal t) (hEA : 0 < t.E * t.A) (hE : 0 < t.E) (hn : ∀ w, ¬ Mechanism t w) (h1 : ¬ AllFixed t)
    (h2 : ¬ Crowded t) (h3 : ¬ Large t) : ∃ E0, ∀ E ≥ E0, ∃ S o u r, run (withE t E) = .ok (S, o) ∧ Statics (withE t E) u r ∧
      Reports (withE t E) u r o := by
  have hres : Resists (elems t) (calls t) t.fixs := by
    refine truss_resists (placed h) (truss_of h) (fun b hb => ?_) fun w hw hin k => ?_
    · obtain ⟨c, _, rfl⟩ := List.mem_map.mp hb
      exact hEA
    · by_contra hk
      have hkey : ∃ n i, k = (Side.node, n, axis i) := by
        by_contra hno
        exact hk (hw k fun hf => hno (free_key h hf))
      obtain ⟨n, i, rfl⟩ := hkey
      refine hn (fieldOf w) ⟨fun n i hni => hw _ fun hf => ?_, ⟨n, i, hk⟩, fun b hb => ?_⟩
      · have := (free_iff h n i).mp hf
        rcases hni with hni | hni
        · exact hni this.1
        · exact hni this.2
      · have := hin (bar t b) (List.mem_map.mpr ⟨b, hb, rfl⟩)
        rw [Fin.sum_univ_three]
        exact this
  obtain ⟨c, hc, hbound⟩ := resists_bound hres
  refine ⟨t.E * (1 / 10 ^ 20 / c), fun E hge => ?_⟩
  have h' := h.withE E
  have hscale : ∀ w, innerWork (elems (withE t E)) w = E / t.E * innerWork (elems t) w := by
    intro w
    rw [truss_work (placed h') (truss_of h'), truss_work (placed h) (truss_of h), ← List.sum_map_mul_left]
    unfold bars
    rw [List.map_map, List.map_map]
    refine congrArg List.sum (List.map_congr_left fun b _ => ?_)
    show E * t.A / _ * _ ^ 2 = E / t.E * (t.E * t.A / _ * _ ^ 2)
    rw [← mul_assoc, ← mul_div_assoc, ← mul_assoc, div_mul_cancel₀ _ hE.ne']
    rfl
  obtain ⟨S', e', hok⟩ := C109_stiff (E := Unit) (update := fun _ _ => ()) (e := ()) (legal_model h') (loads_reg h') (placed h') rfl
    (fun hf => (stuck_prepare h' hf).elim h1 h2)
    (by
      by_contra hcard
      exact h3 (stuck_large h (not_lt.mp hcard)))
    (fun w w1 w2 => by
      have hb := hbound w w1 w2
      have hw := hscale w
      unfold innerWork at hw
      rw [hw]
      have hq : 1 / 10 ^ 20 / c ≤ E / t.E := by rw [le_div_iff₀ hE, mul_comm]; exact hge
      have hs0 : 1 / 10 ^ 20 ≤ E / t.E * c := (div_le_iff₀ hc).mp hq
      calc 1 / 10 ^ 20 * ∑ k ∈ freeKeys (calls t) t.fixs, |w k| ≤ E / t.E * c * ∑ k ∈ freeKeys (calls t) t.fixs, |w k| :=
            mul_le_mul_of_nonneg_right hs0 (Finset.sum_nonneg fun k _ => abs_nonneg _)
        _ ≤ _ := by
          rw [mul_assoc]
          exact mul_le_mul_of_nonneg_left hb ((by positivity : (0 : ℝ) ≤ 1 / 10 ^ 20 / c).trans hq))
  obtain ⟨o, u, r, a1, a2, a3, _⟩ := run_ok h' hok
  exact ⟨S', o, u, r, a1, a2, a3⟩

end Nla3d.Truss
