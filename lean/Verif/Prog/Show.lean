import Verif.Prog.Asked
import Verif.Prog.Path
import Verif.Vtk.SetUp

/-!
# The files of a run
-/

namespace Nla3d.Prog

open Nla3d.Dof Nla3d.Storage Nla3d.Newton Nla3d.Labels Nla3d.Material Nla3d.Hyper Nla3d.TimeCtl
open Nla3d.Iso hiding Good
open Nla3d.Solver (Bc keyOf fixKeys EqSolver Reached NState C21_iteration base_of_prepare Base comp)
open Nla3d.Main (Job)
open Nla3d.Cmd (Options)
open Nla3d.Post (rowOf Pt)
open Nla3d.Vtk (Arr Data readVtk)

noncomputable section

variable {o : Options ℝ} {ref : List ℝ} {j : Job ℝ} {els : List El} {num : Key → Nat} {W : ℝ → ℝ → ℝ} {k : ℝ} {eqs : EqSolver ℝ}
  {S1 : Storage ℝ}

/-! ## The elements of a state -/

theorem updateAll_each {S : Storage ℝ} : ∀ {l acc l' : List El}, Res.foldlM' (fun l e => do
      let e ← update S e
      .ok (l ++ [e])) acc l = .ok l' → ∃ l2, l' = acc ++ l2 ∧ List.Forall₂ (fun e e' => update S e = .ok e') l l2 := by
  intro l
  induction l with
  | nil =>
    intro acc l' h
    rw [Res.foldlM'_nil, Res.ok.injEq] at h
    exact ⟨[], by rw [List.append_nil, h], .nil⟩
  | cons e l ih =>
    intro acc l' h
    rw [Res.foldlM'_cons] at h
    obtain ⟨acc', h1, h2⟩ := Res.bind_eq_ok.mp h
    obtain ⟨e', h3, h4⟩ := Res.bind_eq_ok.mp h1
    rw [Res.ok.injEq] at h4
    subst h4
    obtain ⟨l2, h5, h6⟩ := ih h2
    exact ⟨e' :: l2, by rw [h5]; simp, .cons h3 h6⟩

/-- The element at a place of a job, with the points of the values `x`. -/
def Holding (W : ℝ → ℝ → ℝ) (k : ℝ) (pos : List (ℝ × ℝ × ℝ)) (x : Vals) (e : List Nat × Nat) (el : El) : Prop :=
  ∃ h : Hex, el = .hex h ∧ IsLaw W h.E ∧ h.k = k ∧ h.pos = nodePos pos e.1 ∧ h.en = e.2 ∧
    Filled h (nodeDisp x e.1) (x (.elem, e.2, .HYDRO_PRESSURE))

theorem filled_all {S0 : Storage ℝ} {calls : List RegCall} {new : List (Mpc ℝ)} {cs : List Key} {pos : List (ℝ × ℝ × ℝ)}
    (hses : Session S0 calls new cs S1 num S1) {U : List ℝ} {u : Nat → ℝ} (hU : Holds (S1.nDofs + S1.nMpc) U u) {x : Vals}
    (hx : ∀ f ∈ regKeys calls, x f = u (num f)) : ∀ {en : Nat} {nss : List (List Nat)} {els : List El},
    AllMade .SOLID81 W k pos en nss els → (∀ el ∈ els, el.Ready S1 (regKeys calls)) → ∀ {l l' : List El}, List.Forall₂ El.Same els l →
    List.Forall₂ (fun e e' => update { S1 with vecU := U } e = .ok e') l l' → List.Forall₂ (Holding W k pos x) (nss.zipIdx en) l' := by
  intro en nss els ha
  induction ha with
  | nil =>
    intro _ l l' h1 h2
    cases h1
    cases h2
    exact .nil
  | @cons en ns nss el els hm _ ih =>
    intro hr l l' h1 h2
    cases h1 with
    | @cons _ b _ l hs h1 =>
      cases h2 with
      | @cons _ c _ l' hu h2 =>
        rw [List.zipIdx_cons]
        refine .cons ?_ (ih (fun el hel => hr el (by simp [hel])) h1 h2)
        obtain ⟨E, g, hE, hs', g1, rfl⟩ := hm.hex rfl
        have hr1 : Hex.Ready S1 (regKeys calls) ⟨E, k, 2, nodePos pos ns, g, List.replicate (nOfIntPoints hexa g) Point.initial, en,
          fun a => ns.getD a 0⟩ := hr _ List.mem_cons_self
        cases b with
        | plane b => exact absurd hs id
        | hex b =>
          obtain ⟨pts, p1, rfl⟩ := hs
          rw [hex_update hses hr1 p1 hU, Res.ok.injEq] at hu
          subst hu
          obtain ⟨g', g2, g3, g4⟩ := makeJacob_good hs'
          rw [g1, Res.ok.injEq] at g2
          subst g2
          refine ⟨_, rfl, hE, rfl, rfl, rfl, g3, g4, hs', ?_⟩
          have hd : Hex.disp num u ⟨E, k, 2, nodePos pos ns, g, List.replicate (nOfIntPoints hexa g) Point.initial, en,
              fun a => ns.getD a 0⟩ = nodeDisp x ns := by
            funext a c
            have hk := hr1.mesh.dofsReg (ns.getD a 0) (List.mem_ofFn.mpr ⟨a, rfl⟩) ((![.UX, .UY, .UZ] : Fin 3 → DofType) c) (by
              fin_cases c <;> simp [Mixed.solidDofs])
            have := hx _ hk
            unfold nodeDisp
            rw [show Rigid.transl c = (![.UX, .UY, .UZ] : Fin 3 → DofType) c from by fin_cases c <;> rfl, this]
            rfl
          rw [hx _ hr1.mesh.pressure]
          show (hexa.table g.scheme).map _ = _
          rw [g3, hd]

section
variable (h : Runnable o ref j) (ha : AllMade j.type W k j.pos 1 j.elems els) (he : Solver.Exact eqs)
  (hp : (storeOf j).prepare (regsOf j) (newOf j) (fixKeys j.fixs) = .ok S1)
  (hn : ∀ f ∈ regKeys (regsOf j), S1.eqNumber f.1 f.2.1 f.2.2 = .ok (num f))
  {s : NState (Group els) ℝ} (hs : Reached eqs (hyper els (updOf j els)) j.loads j.fixs S1 (Group.given els) s)

include h ha he hp hn hs

theorem reached_elems (ht : j.type = .SOLID81) :
    List.Forall₂ (Holding W k j.pos (valuesOf j num s)) (j.elems.zipIdx 1) s.e.1 := by
  have hm := job_model h ha
  have hses : Session (storeOf j) (regsOf j) (newOf j) (fixKeys j.fixs) S1 num S1 := ⟨hm.legal, hp, hn, [], by simp, rfl⟩
  obtain ⟨A, hb⟩ := base_of_prepare hm.legal hp hn
  have hready : ∀ e ∈ els, e.Ready S1 (regKeys (regsOf j)) := fun e hx => (hm.elems e hx).congr hb.prep.ready.mesh.elements
  obtain ⟨ps, hl⟩ := els_law hses els hready
  obtain ⟨l, l1, l2⟩ := reached_current hm he hp hn hl hs
  obtain ⟨hbk, _⟩ := C21_iteration (hyper_problem hm) he hp hn hs
  obtain ⟨l3, l4, l5⟩ := updateAll_each l2
  rw [List.nil_append] at l4
  subst l4
  rw [ht] at ha
  exact filled_all hses (holds_comp hbk.sizes.1) (fun f hf => if_pos hf) ha hready l1 l5

theorem reached_solution {f : Key} (hf : Has j f) : Post.solution s.S f.1 f.2.1 f.2.2 = .ok (valuesOf j num s f) := by
  have hm := job_model h ha
  have hses : Session (storeOf j) (regsOf j) (newOf j) (fixKeys j.fixs) S1 num S1 := ⟨hm.legal, hp, hn, [], by simp, rfl⟩
  obtain ⟨hbk, _⟩ := C21_iteration (hyper_problem hm) he hp hn hs
  rw [solution_alike hbk.alike, (solution_holds hses (holds_comp hbk.sizes.1) ((regKeys_has j f).mpr hf)).1]
  exact congrArg Res.ok (valsAt_has hf).symm

end

/-! ## The answers -/

theorem answers_all {S : Storage ℝ} {pos : List (ℝ × ℝ × ℝ)} {x : Vals} : ∀ {es : List (List Nat × Nat)} {l : List El},
    List.Forall₂ (Holding W k pos x) es l →
    (∀ e ∈ es, Post.solution S .elem e.2 .HYDRO_PRESSURE = .ok (x (.elem, e.2, .HYDRO_PRESSURE))) →
    ∃ cs : List CellData, Vtk.collect (answersOf S) l = .ok (cs.map answersFor) ∧
      List.Forall₂ (fun (e : List Nat × Nat) c => CellOf W k pos x e.2 e.1 c) es cs := by
  intro es l hh
  induction hh with
  | nil => intro _; exact ⟨[], rfl, .nil⟩
  | @cons e el es l h1 _ ih =>
    intro hp
    obtain ⟨cs, c1, c2⟩ := ih (fun e he => hp e (by simp [he]))
    obtain ⟨a, rfl, a1, a2, a3, a4, a5⟩ := h1
    obtain ⟨c, c3, c4, c5⟩ := hex_answers (S := S) a1 a2 a3 a5 (by rw [a4]; exact hp e (by simp))
    refine ⟨c :: cs, ?_, .cons ⟨c3, c5⟩ c2⟩
    unfold Vtk.collect
    rw [c4, Res.ok_bind, c1, Res.ok_bind]
    rfl

/-- The answers for given data of the cells. -/
def askFor (cs : List CellData) : Vtk.Ask ℝ :=
  ⟨fun i q => (cs.map answersFor)[i]?.bind (fun a => a.scalars[q]?.join),
    fun i q => (cs.map answersFor)[i]?.bind (fun a => (a.vectors[q]?.join).map (fun v => ⟨v 0, v 1, v 2⟩)),
    fun i q => (cs.map answersFor)[i]?.bind (fun a => a.tensors[q]?.join)⟩

/-- What the processor sees, for given data of the cells. -/
def seen (j : Job ℝ) (S : Storage ℝ) (cs : List CellData) : Vtk.View ℝ :=
  ⟨S, j.pos.map (fun p => ⟨p.1, p.2.1, p.2.2⟩), j.elems.map (fun ns => ⟨.SOLID81, .HEXAHEDRON, ns⟩), askFor cs⟩

theorem range_getD {α β : Type} (cs : List α) (f : α → Option β) (d : β) :
    (List.range cs.length).map (fun i => ((cs[i]?).bind f).getD d) = cs.map (fun c => (f c).getD d) := by
  apply List.ext_getElem (by simp)
  intro i h1 h2
  simp at h1
  simp [h1]

/-- The fields that the processor shows of a job. -/
structure Fields (j : Job ℝ) (P : Vtk.Proc) : Prop where
  legal : Vtk.LegalProc P
  disp : P.useDisp = true
  nodup : P.nodal.Nodup
  nodal : ∀ t, t ∈ P.nodal ↔ j.rigid.isSome ∧ t ∈ [.ROTX, .ROTY, .ROTZ]
  elemental : P.elemental = [.HYDRO_PRESSURE]
  scalar : P.scalarQ = [1, 3, 4, 5]
  vector : P.vectorQ = [1]
  tensor : P.tensorQ = [1, 2, 3, 4]

theorem cells_eq (cs : List CellData) {V : Vtk.View ℝ} (hV : V.elems.length = cs.length) (hA : V.ask = askFor cs) {A : Side → Spec}
    {P : Vtk.Proc} (hP : Fields j P) (hp : Vtk.field (A .elem) V.S.vecU V.elems.length .HYDRO_PRESSURE = cs.map CellData.pressure) :
    Vtk.specCell V A P = cellArrays cs := by
  have hs : ∀ q, (List.range V.elems.length).map (fun i => (V.ask.scalar i q).getD 0) =
      cs.map (fun c => ((answersFor c).scalars[q]?.join).getD 0) := by
    intro q
    rw [hV, hA, ← range_getD cs (fun c => (answersFor c).scalars[q]?.join) 0]
    refine List.map_congr_left fun i _ => ?_
    simp only [askFor, List.getElem?_map]
    cases cs[i]? <;> rfl
  have hv : ∀ q, (List.range V.elems.length).map (fun i => (V.ask.vector i q).getD ⟨0, 0, 0⟩) =
      cs.map (fun c => (((answersFor c).vectors[q]?.join).map (fun v => (⟨v 0, v 1, v 2⟩ : Pt ℝ))).getD ⟨0, 0, 0⟩) := by
    intro q
    rw [hV, hA, ← range_getD cs (fun c => ((answersFor c).vectors[q]?.join).map (fun v => (⟨v 0, v 1, v 2⟩ : Pt ℝ))) ⟨0, 0, 0⟩]
    refine List.map_congr_left fun i _ => ?_
    simp only [askFor, List.getElem?_map]
    cases cs[i]? <;> rfl
  have ht : ∀ q a, Vtk.component V q a = cs.map (fun c => (((answersFor c).tensors[q]?.join).map (fun d => d a)).getD 0) := by
    intro q a
    unfold Vtk.component
    rw [hV, hA, ← range_getD cs (fun c => ((answersFor c).tensors[q]?.join).map (fun d => d a)) 0]
    refine List.map_congr_left fun i _ => ?_
    simp only [askFor, List.getElem?_map]
    cases cs[i]? <;> rfl
  have hc : ∀ (q : Nat) (name : String) (f : CellData → Mat3), Vtk.tensorLabels.getD q "" = name →
      (∀ c, (answersFor c).tensors[q]?.join = some (pack6 (f c))) →
      (List.finRange 6).map (fun a => (Vtk.tensorLabels.getD q "" ++ "_" ++ Vtk.componentLabels.getD a.val "",
        (Arr.scalars (Vtk.component V q a) : Arr ℝ))) = comps name (cs.map f) := by
    intro q name f h1 h2
    rw [h1]
    simp only [ht, h2, Option.map_some, Option.getD_some]
    unfold comps
    simp only [List.map_map]
    rfl
  unfold Vtk.specCell cellArrays
  rw [hP.elemental, hP.scalar, hP.vector, hP.tensor]
  simp only [hs, hv, hp, List.map_cons, List.map_nil, List.flatMap_cons, List.flatMap_nil, List.append_nil]
  rw [hc 1 "COUCHY" CellData.couchy rfl (fun _ => rfl), hc 2 "PK2" CellData.pk2 rfl (fun _ => rfl),
    hc 3 "E" CellData.green rfl (fun _ => rfl), hc 4 "C" CellData.cauchyGreen rfl (fun _ => rfl)]
  simp only [List.append_assoc, List.cons_append, List.nil_append]
  rfl

/-! ## What is shown of a state -/

theorem forall₂_zip_map {α β γ : Type} {R : α × Nat → β → Prop} {f : Nat → γ} {g : β → γ} (hR : ∀ a b, R a b → g b = f a.2) :
    ∀ {l : List α} {en : Nat} {cs : List β}, List.Forall₂ R (l.zipIdx en) cs → cs.map g = (List.range l.length).map (fun i => f (en + i)) := by
  intro l
  induction l with
  | nil =>
    intro en cs h
    cases h
    rfl
  | cons a l ih =>
    intro en cs h
    rw [List.zipIdx_cons] at h
    cases h with
    | cons h1 h2 =>
      rw [List.map_cons, ih h2, hR _ _ h1, List.length_cons, List.range_succ_eq_map, List.map_cons, List.map_map]
      congr 1
      refine List.map_congr_left fun i _ => ?_
      show f (en + 1 + i) = f (en + (i + 1))
      congr 1
      omega

theorem reveal_one {ask : Vtk.Ask ℝ} {t : ElementType} : ∀ (es : List Vtk.Elem) (i : Nat) (P : Vtk.Proc), (∀ e ∈ es, e.type = t) →
    Vtk.reveal ask i [t] es P = P := by
  intro es
  induction es with
  | nil => intro i P _; rfl
  | cons e es ih =>
    intro i P h
    unfold Vtk.reveal
    rw [if_pos (by simp [h e])]
    exact ih _ _ fun e he => h e (by simp [he])

section
variable {A : Side → Spec} (hb : Base (storeOf j) S1 (regsOf j) (newOf j) j.fixs num A)

include hb in
theorem isSome_has (f : Key) : (A f.1 f.2.1 f.2.2).isSome ↔ Has j f := by
  rw [← regKeys_has j f]
  exact hb.prep.ready.isSome f

include hb in
/-- The row of a vector is the value of the DoF. -/
theorem rowOf_vals (v : List ℝ) (sd : Side) (n : Nat) (t : DofType) :
    rowOf (A sd) v n t = valsAt (regKeys (regsOf j)) num (comp v) (sd, n, t) := by
  unfold rowOf valsAt
  have hsome := hb.prep.ready.isSome (sd, n, t)
  have hat : at' A (sd, n, t) = A sd n t := rfl
  rw [hat] at hsome
  cases hA : A sd n t with
  | none =>
    rw [hA] at hsome
    rw [if_neg (fun hc => by simpa using hsome.mpr hc)]
  | some p =>
    obtain ⟨e, c⟩ := p
    rw [hA] at hsome
    have hreg := hsome.mp rfl
    rw [if_pos hreg, hb.agree _ hreg]
    unfold Storage.num
    rw [hat, hA]
    rfl

include hb in
theorem field3_vals (v : List ℝ) : Vtk.field3 (A .node) v j.pos.length = atNodes j (valsAt (regKeys (regsOf j)) num (comp v)) := by
  unfold Vtk.field3 atNodes Vtk.from1
  rw [List.map_map]
  refine List.map_congr_left fun n _ => ?_
  simp only [Function.comp, rowOf_vals hb]

variable (h : Runnable o ref j) (ht : j.type = .SOLID81)

theorem hexa_nodes (h : Runnable o ref j) (ht : j.type = .SOLID81) : ∀ ns ∈ j.elems, ns.length = 8 := by
  obtain ⟨nn, h1, h2⟩ := h.type
  rw [ht] at h1
  simp only [nodeCount, Option.some.injEq] at h1
  subst h1
  exact h2

include h ht in
theorem seen_legal {S : Storage ℝ} (hS : Post.Solved S A) (hN : S.nNodes = j.pos.length) (hE : S.elements = j.elems) (cs : List CellData) :
    Vtk.Legal (seen j S cs) A := by
  refine ⟨hS, by simp [seen, hN], ?_, ?_, ?_, ?_⟩
  · show S.elements = _
    rw [hE]
    show j.elems = (j.elems.map _).map _
    rw [List.map_map]
    exact (List.map_id _).symm
  · intro e he
    obtain ⟨ns, _, rfl⟩ := List.mem_map.mp he
    rfl
  · intro e he
    obtain ⟨ns, h1, rfl⟩ := List.mem_map.mp he
    show Vtk.nNodesOf .HEXAHEDRON = .ok ns.length
    rw [hexa_nodes h ht ns h1]
    rfl
  · intro e he n hn
    obtain ⟨ns, h1, rfl⟩ := List.mem_map.mp he
    show 0 < n ∧ n ≤ S.nNodes
    rw [hN]
    exact (h.nodes ns h1).2 n hn

include h ht hb in
theorem setUp_fields {S : Storage ℝ} (hS : Post.Solved S A) (hN : S.nNodes = j.pos.length) (hE : S.elements = j.elems) {cs : List CellData}
    (hc : cs.length = j.elems.length) : Fields j (Vtk.setUp (seen j S cs) Vtk.Proc.all) := by
  obtain ⟨h1, h2, h3, h4, h5, h6⟩ := Vtk.C60_setup (P := Vtk.Proc.all) (seen_legal h ht hS hN hE cs) (by
    intro sd n
    by_contra hne
    have := has_bounds h ((isSome_has hb (sd, n, .UNDEFINED)).mp (Option.isSome_iff_ne_none.mpr hne))
    simp at this) (by simp [Vtk.Proc.all]) (by simp [Vtk.Proc.all]) (by simp [Vtk.Proc.all])
  obtain ⟨ns, rest, hne⟩ := List.exists_cons_of_ne_nil h.nonempty
  obtain ⟨c, cs', rfl⟩ : ∃ c cs', cs = c :: cs' := List.exists_cons_of_ne_nil (by
    intro h0
    rw [h0, hne] at hc
    simp at hc)
  have hq : ∀ P : Vtk.Proc, P.scalarQ = [] → P.vectorQ = [] → P.tensorQ = [] →
      Vtk.reveal (askFor (c :: cs')) 0 [] (j.elems.map (fun ns => ⟨.SOLID81, .HEXAHEDRON, ns⟩)) P =
        { P with scalarQ := [1, 3, 4, 5], vectorQ := [1], tensorQ := [1, 2, 3, 4] } := by
    intro P p1 p2 p3
    rw [hne, List.map_cons]
    unfold Vtk.reveal
    rw [if_neg (by simp), reveal_one]
    · rw [p1, p2, p3]
      rfl
    · intro e he
      obtain ⟨_, _, rfl⟩ := List.mem_map.mp he
      rfl
  have hset : ∃ P : Vtk.Proc, Vtk.setUp (seen j S (c :: cs')) Vtk.Proc.all =
      { P with scalarQ := [1, 3, 4, 5], vectorQ := [1], tensorQ := [1, 2, 3, 4] } := by
    exact ⟨_, hq { Vtk.Proc.all with
      useDisp := S.nodeT.uniqueTypes.any Vtk.isDisp
      nodal := S.nodeT.uniqueTypes.filter (fun t => !Vtk.isDisp t)
      elemental := S.elemT.uniqueTypes } rfl rfl rfl⟩
  refine ⟨h1, ?_, h5, ?_, ?_, ?_, ?_, ?_⟩
  · rw [h2]
    have h8 := hexa_nodes h ht ns (by rw [hne]; simp)
    obtain ⟨n, ns', rfl⟩ := List.exists_cons_of_ne_nil (l := ns) (by intro h0; rw [h0] at h8; simp at h8)
    exact ⟨n, .UX, .inl rfl, (isSome_has hb (.node, n, .UX)).mpr (.node (ns := n :: ns') (by rw [hne]; simp) (by simp)
      (by rw [ht]; simp [displ]))⟩
  · intro t
    rw [h3]
    constructor
    · rintro ⟨⟨t1, t2, t3⟩, n, hn⟩
      have := (isSome_has hb (.node, n, t)).mp hn
      generalize hf : (Side.node, n, t) = f at this
      cases this with
      | node _ _ hd =>
        simp only [Prod.mk.injEq] at hf
        rw [ht, ← hf.2.2] at hd
        simp [displ, t1, t2, t3] at hd
      | pressure => simp at hf
      | master hr hd =>
        simp only [Prod.mk.injEq] at hf
        rw [← hf.2.2] at hd
        refine ⟨by rw [hr]; rfl, ?_⟩
        simpa [t1, t2, t3] using hd
    · rintro ⟨hr, hd⟩
      obtain ⟨r, hr⟩ := Option.isSome_iff_exists.mp hr
      refine ⟨?_, r.master, (isSome_has hb (.node, r.master, t)).mpr (.master hr ?_)⟩
      · simp only [List.mem_cons, List.not_mem_nil, or_false] at hd
        rcases hd with rfl | rfl | rfl <;> simp
      · simp only [List.mem_cons, List.not_mem_nil, or_false] at hd
        rcases hd with rfl | rfl | rfl <;> simp
  · refine List.perm_singleton.mp ((List.perm_ext_iff_of_nodup h6 (by simp)).mpr fun t => ?_)
    rw [h4, List.mem_singleton]
    constructor
    · rintro ⟨n, hn⟩
      have := has_bounds h ((isSome_has hb (.elem, n, t)).mp hn)
      simp only [reduceCtorEq, false_and, true_and, false_or] at this
      exact this.2.2
    · rintro rfl
      exact ⟨1, (isSome_has hb (.elem, 1, .HYDRO_PRESSURE)).mpr (first_pressure h)⟩
  · obtain ⟨P, hP⟩ := hset
    rw [hP]
  · obtain ⟨P, hP⟩ := hset
    rw [hP]
  · obtain ⟨P, hP⟩ := hset
    rw [hP]

end

theorem rot_label {t : DofType} (h : t ∈ [DofType.ROTX, .ROTY, .ROTZ]) : dofTypeLabels.getD (dofToNat t) "" = rotName t := by
  simp only [List.mem_cons, List.not_mem_nil, or_false] at h
  rcases h with rfl | rfl | rfl <;> rfl

theorem start_values (j : Job ℝ) {A : Side → Spec} (hb : Base (storeOf j) S1 (regsOf j) (newOf j) j.fixs num A) (e : Group els)
    (uc du : List ℝ) (tc : TimeControl ℝ) : valuesOf j num ⟨S1, e, uc, du, tc, []⟩ = 0 := by
  funext f
  unfold valuesOf valsAt
  split
  · show comp S1.vecU _ = 0
    rw [hb.U]
    exact Solver.getD_replicate _ _
  · rfl

theorem start_reactions (j : Job ℝ) {A : Side → Spec} (hb : Base (storeOf j) S1 (regsOf j) (newOf j) j.fixs num A) (e : Group els)
    (uc du : List ℝ) (tc : TimeControl ℝ) : reactionsOf j num ⟨S1, e, uc, du, tc, []⟩ = 0 := by
  funext f
  unfold reactionsOf valsAt
  split
  · show comp S1.vecR _ = 0
    rw [hb.R]
    exact Solver.getD_replicate _ _
  · rfl

section
variable (h : Runnable o ref j) (ha : AllMade j.type W k j.pos 1 j.elems els) (he : Solver.Exact eqs)
  (hp : (storeOf j).prepare (regsOf j) (newOf j) (fixKeys j.fixs) = .ok S1)
  (hn : ∀ f ∈ regKeys (regsOf j), S1.eqNumber f.1 f.2.1 f.2.2 = .ok (num f))
  {A : Side → Spec} (hb : Base (storeOf j) S1 (regsOf j) (newOf j) j.fixs num A) (ht : j.type = .SOLID81)
  {s : NState (Group els) ℝ} (hs : Reached eqs (hyper els (updOf j els)) j.loads j.fixs S1 (Group.given els) s)

include h ha he hp hn hs in
theorem state_elems : s.S.elements = j.elems := by
  have hm := job_model h ha
  obtain ⟨A, hb⟩ := base_of_prepare hm.legal hp hn
  obtain ⟨hbk, _⟩ := C21_iteration (hyper_problem hm) he hp hn hs
  rw [show s.S = _ from hbk.alike]
  exact hb.prep.ready.mesh.elements

include h ha he hp hn hs ht in
/-- What the processor sees in a state. -/
theorem state_view : ∃ cs : List CellData, viewOf j s.S s.e.1 = .ok (seen j s.S cs) ∧
    List.Forall₂ (fun (e : List Nat × Nat) c => CellOf W k j.pos (valuesOf j num s) e.2 e.1 c) (j.elems.zipIdx 1) cs := by
  obtain ⟨cs, c1, c2⟩ := answers_all (S := s.S) (reached_elems h ha he hp hn hs ht) (by
    intro e he'
    obtain ⟨i0, i1⟩ := List.mem_zipIdx_iff_le_and_getElem?_sub.mp he'
    have i2 := (List.getElem?_eq_some_iff.mp i1).1
    have i3 : 0 < e.2 := i0
    have i4 : e.2 ≤ j.elems.length := by omega
    exact reached_solution h ha he hp hn hs (f := (.elem, e.2, .HYDRO_PRESSURE)) (.pressure i3 i4))
  refine ⟨cs, ?_, c2⟩
  unfold viewOf
  rw [ht]
  show (do
    let ask ← asksOf s.S s.e.1
    Res.ok (⟨s.S, _, _, ask⟩ : Vtk.View ℝ)) = _
  unfold asksOf
  rw [c1, Res.ok_bind, Res.ok_bind]
  rfl

include h ha he hp hn hs ht hb in
/-- The file of a state. -/
theorem state_file {P : Vtk.Proc} (hP : Fields j P) : ∃ V lines d, viewOf j s.S s.e.1 = .ok V ∧ Vtk.file V P = .ok lines ∧
    readVtk lines = some d ∧ Shows W k j (valuesOf j num s) (reactionsOf j num s) d := by
  have hm := job_model h ha
  obtain ⟨cs, c1, c2⟩ := state_view h ha he hp hn ht hs
  obtain ⟨s1, s2⟩ := solved_reached hb hm.loads ((hyper_problem hm).elems S1 num hp hn) he hs
  have s3 : s.S.nNodes = j.pos.length := s2
  obtain ⟨lines, f1, f2⟩ := Vtk.C60_roundtrip (seen_legal h ht s1 s3 (state_elems h ha he hp hn hs) cs) hP.legal
  have hlen : cs.length = j.elems.length := by
    rw [← c2.length_eq, List.length_zipIdx]
  refine ⟨_, lines, _, c1, f1, f2, ⟨rfl, ?_, ?_, ⟨P.nodal, hP.nodup, hP.nodal, ?_⟩, ⟨cs, c2, ?_⟩⟩⟩
  · show (j.elems.map _).map _ = _
    rw [List.map_map]
    rfl
  · show (j.elems.map _).map _ = _
    rw [List.map_map]
    rfl
  · show Vtk.specPoint _ _ _ = _
    unfold Vtk.specPoint
    rw [if_pos hP.disp]
    simp only [seen, s3, field3_vals hb]
    congr 1
    refine List.map_congr_left fun t ht' => ?_
    rw [rot_label ((hP.nodal t).mp ht').2]
    congr 2
    unfold Vtk.field Vtk.from1
    rw [List.map_map]
    refine List.map_congr_left fun n _ => ?_
    simp only [Function.comp, rowOf_vals hb]
    rfl
  · refine cells_eq cs (by simp [seen, hlen]) rfl hP ?_
    rw [forall₂_zip_map (f := fun n => valuesOf j num s (.elem, n, .HYDRO_PRESSURE)) (g := CellData.pressure) (fun _ _ hc => hc.1) c2]
    unfold Vtk.field Vtk.from1
    simp only [seen, List.length_map, List.map_map]
    refine List.map_congr_left fun n _ => ?_
    simp only [Function.comp, rowOf_vals hb, Nat.add_comm 1 n]
    rfl

/-! ## The files of the load steps -/

/-- The files for the states in `all`, in this order, and the processor that wrote them. -/
def Upto (W : ℝ → ℝ → ℝ) (k : ℝ) (j : Job ℝ) (all : List (Vals × Vals)) (v : Option (Vtk.Proc × Files)) : Prop :=
  match j.vtk with
  | none => v = none
  | some base => ∃ P files, v = some (P, files) ∧ Fields j P ∧
    (∀ (i : Nat) (e : Vals × Vals), all[i]? = some e → ∃ lines d, files (Vtk.fileName (String.ofList base) i) = some lines ∧
      readVtk lines = some d ∧ Shows W k j e.1 e.2 d) ∧
    ∀ name, (∀ i < all.length, name ≠ Vtk.fileName (String.ofList base) i) → files name = none

/-- Processors that do not fail. -/
def GoodWatch (j : Job ℝ) (w : Watch) : Prop :=
  Good (storeOf j).nNodes w.react ∧
    match j.vtk with
    | none => w.vtk = none
    | some _ => ∃ P files, w.vtk = some (P, files) ∧ Fields j P

include h ha he hp hn hs hb in
/-- The file of a load step. -/
theorem vtk_step (hview : Viewable j) {v : Option (Vtk.Proc × Files)} (step : Nat) (hv : match j.vtk with
    | none => v = none
    | some _ => ∃ P files, v = some (P, files) ∧ Fields j P) : ∃ v', vtkStep j s.S s.e.1 step v = .ok v' ∧
      (match j.vtk with
      | none => v' = none
      | some _ => ∃ P files, v' = some (P, files) ∧ Fields j P) ∧
      ∀ all, all.length = step → Upto W k j all v → Upto W k j (all ++ [(valuesOf j num s, reactionsOf j num s)]) v' := by
  cases hj : j.vtk with
  | none =>
    rw [hj] at hv
    simp only at hv
    subst hv
    refine ⟨none, rfl, rfl, fun all _ _ => ?_⟩
    unfold Upto
    rw [hj]
  | some base =>
    rw [hj] at hv
    simp only at hv
    obtain ⟨P, files, rfl, hP⟩ := hv
    have ht : j.type = .SOLID81 := by
      rcases hview with h0 | h0
      · rw [hj] at h0; simp at h0
      · exact h0
    obtain ⟨V, lines, d, g1, g2, g3, g4⟩ := state_file h ha he hp hn hb ht hs hP
    refine ⟨some (P, files.put (Vtk.fileName (String.ofList base) step) lines), ?_, ⟨_, _, rfl, hP⟩, fun all hall hup => ?_⟩
    · unfold vtkStep
      simp only [hj]
      rw [g1, Res.ok_bind, g2, Res.ok_bind]
    · unfold Upto at hup ⊢
      rw [hj] at hup ⊢
      simp only at hup ⊢
      obtain ⟨P', files', h1, _, h3, h4⟩ := hup
      rw [Option.some.injEq, Prod.mk.injEq] at h1
      obtain ⟨rfl, rfl⟩ := h1
      refine ⟨P, _, rfl, hP, ?_, ?_⟩
      · intro i e hi
        by_cases hlt : i < all.length
        · rw [List.getElem?_append_left hlt] at hi
          obtain ⟨lines', d', q1, q2, q3⟩ := h3 i e hi
          refine ⟨lines', d', ?_, q2, q3⟩
          unfold Vtk.Disk.put
          rw [if_neg (fun hc => by have := Vtk.fileName_inj hc; omega)]
          exact q1
        · have hi' : i = step := by
            have := (List.getElem?_eq_some_iff.mp hi).1
            rw [List.length_append, List.length_singleton] at this
            omega
          rw [List.getElem?_append_right (by omega), hi', hall, Nat.sub_self, List.getElem?_cons_zero, Option.some.injEq] at hi
          subst hi
          refine ⟨lines, d, ?_, g3, g4⟩
          unfold Vtk.Disk.put
          rw [if_pos (by rw [hi'])]
      · intro name hname
        unfold Vtk.Disk.put
        rw [if_neg (hname step (by simp [hall]))]
        exact h4 name fun i hi => hname i (by simp; omega)

include h ha he hp hn hb in
theorem watch_good (hview : Viewable j) : ∀ s, Reached eqs (hyper els (updOf j els)) j.loads j.fixs S1 (Group.given els) s →
    ∀ step w, GoodWatch j w → ∃ w', watchStep j step s w = .ok w' ∧ GoodWatch j w' := by
  intro s hs step w hw
  have hm := job_model h ha
  obtain ⟨v, v1, v2, _⟩ := vtk_step h ha he hp hn hb hs hview step hw.2
  obtain ⟨r, r1, r2⟩ := good_process hb hm.loads ((hyper_problem hm).elems S1 num hp hn) he s hs step w.react hw.1
  refine ⟨⟨v, r⟩, ?_, r2, v2⟩
  unfold watchStep
  rw [v1, Res.ok_bind, r1, Res.ok_bind]

include h ha he hp hn hb in
/-- The processors after the load steps. -/
theorem watch_run (hview : Viewable j) : ∀ (L : List (NState (Group els) ℝ)) (step : Nat) (w w' : Watch) (all : List (Vals × Vals)),
    (∀ s ∈ L, Reached eqs (hyper els (updOf j els)) j.loads j.fixs S1 (Group.given els) s) → GoodWatch j w →
    all.length = step → Upto W k j all w.vtk → runObs (watchStep j) step L w = .ok w' →
    runOpt step (L.map (·.S)) w.react = .ok w'.react ∧
      Upto W k j (all ++ L.map (fun s => (valuesOf j num s, reactionsOf j num s))) w'.vtk := by
  intro L
  induction L with
  | nil =>
    intro step w w' all _ _ _ hup hrun
    simp only [runObs, Res.ok.injEq] at hrun
    subst hrun
    exact ⟨runOpt_nil _ _, by simpa using hup⟩
  | cons s L ih =>
    intro step w w' all hL hw hall hup hrun
    have hs := hL s (by simp)
    have hm := job_model h ha
    obtain ⟨v, v1, v2, v3⟩ := vtk_step h ha he hp hn hb hs hview step hw.2
    obtain ⟨r, r1, r2⟩ := good_process hb hm.loads ((hyper_problem hm).elems S1 num hp hn) he s hs step w.react hw.1
    have h1 : watchStep j step s w = .ok ⟨v, r⟩ := by
      unfold watchStep
      rw [v1, Res.ok_bind, r1, Res.ok_bind]
    unfold runObs at hrun
    rw [h1, Res.ok_bind] at hrun
    obtain ⟨q1, q2⟩ := ih (step + 1) ⟨v, r⟩ w' _ (fun s hs => hL s (by simp [hs])) ⟨r2, v2⟩ (by simp [hall]) (v3 all hall hup) hrun
    refine ⟨runOpt_cons r1 q1, ?_⟩
    rw [List.map_cons]
    simpa using q2

include h ha hp hn hb in
/-- The first file. -/
theorem vtk_pre (hview : Viewable j) : ∃ v, vtkPre j S1 els = .ok v ∧
      (match j.vtk with
      | none => v = none
      | some _ => ∃ P files, v = some (P, files) ∧ Fields j P) ∧ Upto W k j [(0, 0)] v := by
  cases hj : j.vtk with
  | none =>
    refine ⟨none, by unfold vtkPre; rw [hj], rfl, ?_⟩
    unfold Upto
    rw [hj]
  | some base =>
    have ht : j.type = .SOLID81 := by
      rcases hview with h0 | h0
      · rw [hj] at h0; simp at h0
      · exact h0
    have hm := job_model h ha
    have hs : Reached Gauss.solveEquations (hyper els (updOf j els)) j.loads j.fixs S1 (Group.given els)
      ⟨S1, Group.given els, List.replicate S1.nConstr 0, List.replicate (S1.nConstr + S1.nUnknown + S1.nMpc) 0, TimeControl.fresh, []⟩ :=
      .start _
    obtain ⟨cs, c1, c2⟩ := state_view h ha Solver.gauss_exact hp hn ht hs
    obtain ⟨s1, s2⟩ := solved_reached hb hm.loads ((hyper_problem hm).elems S1 num hp hn) Solver.gauss_exact hs
    have hP := setUp_fields hb h ht s1 s2 (state_elems h ha Solver.gauss_exact hp hn hs) (cs := cs) (by
      rw [← c2.length_eq, List.length_zipIdx])
    obtain ⟨V, lines, d, g1, g2, g3, g4⟩ := state_file h ha Solver.gauss_exact hp hn hb ht hs hP
    have c1' : viewOf j S1 els = .ok (seen j S1 cs) := c1
    have g1' : viewOf j S1 els = .ok V := g1
    rw [c1', Res.ok.injEq] at g1'
    subst g1'
    rw [start_values j hb, start_reactions j hb] at g4
    refine ⟨some (Vtk.setUp (seen j S1 cs) Vtk.Proc.all, Vtk.preFile (String.ofList base) lines (fun _ => none)), ?_, ⟨_, _, rfl, hP⟩, ?_⟩
    · unfold vtkPre
      simp only [hj]
      rw [c1', Res.ok_bind, g2, Res.ok_bind]
    · unfold Upto
      rw [hj]
      refine ⟨_, _, rfl, hP, ?_, ?_⟩
      · intro i e hi
        have : i = 0 := by
          have := (List.getElem?_eq_some_iff.mp hi).1
          simpa using this
        subst this
        rw [List.getElem?_cons_zero, Option.some.injEq] at hi
        subst hi
        refine ⟨lines, d, ?_, g3, g4⟩
        unfold Vtk.preFile Vtk.Disk.put
        rw [if_pos rfl]
      · intro name hname
        unfold Vtk.preFile Vtk.Disk.put
        rw [if_neg (hname 0 (by simp))]

omit hs in
theorem upto_written {ends : List (Vals × Vals)} {w : Watch} (hw : Upto W k j ((0, 0) :: ends) w.vtk) : Written W k j ends w.files := by
  unfold Upto at hw
  unfold Written Watch.files
  cases hj : j.vtk with
  | none =>
    rw [hj] at hw
    simp only at hw
    rw [hw]
    exact fun _ => rfl
  | some base =>
    rw [hj] at hw
    simp only at hw
    obtain ⟨P, files, h1, _, h3, h4⟩ := hw
    rw [h1]
    exact ⟨h3, fun name hname => h4 name fun i hi => hname i (by simp at hi; omega)⟩

end

end

end Nla3d.Prog
