import Verif.Main.Model
import Verif.Cdb.Compress
import Verif.Cmd.Props
import Verif.Post.Props
import Mathlib.Tactic.IntervalCases

/-!
# The model that is solved is the model of the file (C91); table of reactions and exit code (C92)
-/

namespace Nla3d.Main

open Nla3d.Cdb (Out MeshData Comp CompType toU32 Fits Renumbered out_bind err_bind)
open Nla3d.Cmd (Options)
open Nla3d.Labels Nla3d.Dof

variable {K : Type}

/-! ## Specification -/

/-- Node `y` of the solved model is the node with number `x` in the file, whose nodes are listed in `nums`. -/
def Denotes (nums : List Nat) (x y : Nat) : Prop := 0 < y ∧ nums[y - 1]? = some x

/-- The same for a number with sign. -/
def DenotesI (nums : List Nat) (z : Int) (y : Nat) : Prop := ∃ x, Denotes nums x y ∧ (x : Int) = z

/-- A boundary condition of the model is that of the file. -/
def SameBc (nums : List Nat) (b : Cdb.Bc K) (b' : Solver.Bc K) : Prop := DenotesI nums b.node b'.node ∧ b'.dof = b.dof ∧ b'.value = b.value

/-- A constraint equation of the model is that of the file. -/
def SameEqn (nums : List Nat) (q : Cdb.Eqn K) (m : Storage.Mpc K) : Prop :=
  m.b = q.b ∧ List.Forall₂ (fun t t' => DenotesI nums t.node t'.node ∧ t'.dof = t.dof ∧ t'.coef = t.coef) q.eq m.eq

/-- The nodes of the model are those of the component `name` of the file. -/
def SameComp (md : MeshData K) (name : String) (ns : List Nat) : Prop :=
  ∃ c ∈ md.feComps, c.name = name.toList ∧ c.type = .NODES ∧ List.Forall₂ (Denotes md.nodesNumbers) c.list ns

/-- Number of constants of a material. -/
def constsOf (name : String) : Option Nat :=
  if name = "Neo-Hookean" then some 2 else if name = "Biderman" then some 5 else if name = "Mooney-Rivlin" then some 3 else none

/-- The model that is solved is the one the file and the options describe; its elements are the cells with TYPE 1. -/
structure Faithful (o : Options K) (md : MeshData K) (j : Job K) : Prop where
  pos : j.pos = md.nodesPos
  type : j.type = o.element
  elems : ∃ idx : List Nat, idx.Pairwise (· < ·) ∧ (∀ i, i ∈ idx ↔ md.cellInt.type[i]? = some 1) ∧
    List.Forall₂ (fun i e => ∃ c, md.cellNodes[i]? = some c ∧ List.Forall₂ (Denotes md.nodesNumbers) c e) idx j.elems
  mpcs : List.Forall₂ (SameEqn md.nodesNumbers) md.mpcs j.mpcs
  loads : List.Forall₂ (SameBc md.nodesNumbers) md.loadBcs j.loads
  fixs : List.Forall₂ (SameBc md.nodesNumbers) md.fixBcs j.fixs
  settings : j.iterations = o.iterations ∧ j.loadsteps = o.loadsteps
  constants : ∃ n, constsOf o.material = some n ∧ j.constants = o.constants.take n
  vtk : j.vtk.isSome = o.useVtk
  stem : o.useVtk = true → ∀ base ext : List Char, '.' ∉ ext → o.model.toList = base ++ '.' :: ext → j.vtk = some base
  noReact : o.reaction = "" → j.react = none
  react : o.reaction ≠ "" → ∃ ns, j.react = some (ns, o.reactionDofs) ∧ SameComp md o.reaction ns
  noRigid : o.rigidMaster = 0 ∨ o.rigidSlaves = "" → j.rigid = none
  slaves : 0 < o.rigidMaster → o.rigidSlaves ≠ "" → ∃ r, j.rigid = some r ∧ r.dofs = o.rigidDofs ∧ SameComp md o.rigidSlaves r.slaves

/-- The master node of the rigid body is the one named on the command line. -/
def MasterFaithful (o : Options K) (md : MeshData K) (j : Job K) : Prop :=
  ∀ r, j.rigid = some r → Denotes md.nodesNumbers o.rigidMaster r.master

/-- A complete file: the tables have a row for every node and cell, every node that is mentioned exists, names of components are
unique, and constraint equations have terms. -/
structure Complete (md : MeshData K) : Prop where
  fits : Fits md
  pos : md.nodesPos.length = md.nodesNumbers.length
  cells : md.cellNodes.length = md.cellNumbers.length
  types : md.cellInt.type.length = md.cellNumbers.length
  cellNodes : ∀ c ∈ md.cellNodes, ∀ x ∈ c, x ∈ md.nodesNumbers
  loads : ∀ b ∈ md.loadBcs, ∃ x ∈ md.nodesNumbers, (x : Int) = b.node
  fixs : ∀ b ∈ md.fixBcs, ∃ x ∈ md.nodesNumbers, (x : Int) = b.node
  eqs : ∀ q ∈ md.mpcs, q.eq ≠ [] ∧ ∀ t ∈ q.eq, ∃ x ∈ md.nodesNumbers, (x : Int) = t.node
  comps : ∀ c ∈ md.feComps, c.type = .NODES → ∀ x ∈ c.list, x ∈ md.nodesNumbers
  names : (md.feComps.map (·.name)).Nodup

/-- Number of nodes of an element type. -/
def nodesPer : ElementType → Option Nat
  | .TRUSS3 => some 2 | .PLANE41 => some 4 | .SOLID81 => some 8 | .TETRA0 => some 4 | .TETRA1 => some 4 | .QUADTH => some 4
  | .SurfaceLINETH => some 2 | .TRIANGLE4 => some 3 | .INTER0 => some 2 | .INTER3 => some 6 | .UNDEFINED => none

/-- Options that fit the file: a known material with enough constants, an element type with as many nodes as the cells have, and
components of nodes. -/
structure Fitting (o : Options K) (md : MeshData K) : Prop where
  mat : ∃ n, constsOf o.material = some n ∧ n ≤ o.constants.length
  elem : ∃ nn, nodesPer o.element = some nn ∧
    ∀ (i : Nat) (c : List Nat), md.cellInt.type[i]? = some 1 → md.cellNodes[i]? = some c → c.length = nn
  react : o.reaction ≠ "" → ∃ c ∈ md.feComps, c.name = o.reaction.toList ∧ c.type = .NODES
  rigid : 0 < o.rigidMaster → o.rigidSlaves ≠ "" → ∃ c ∈ md.feComps, c.name = o.rigidSlaves.toList ∧ c.type = .NODES

/-! ## Lemmas -/

theorem range_get {n k y : Nat} (h : (List.range' 1 n)[k]? = some y) : y = k + 1 := by
  rw [List.getElem?_eq_some_iff] at h
  obtain ⟨h1, h2⟩ := h
  rw [List.getElem_range'] at h2
  omega

theorem denotes_of_same {nums : List Nat} {n x x' : Nat} (hx : x ∈ nums) (h : Cdb.Same nums (List.range' 1 n) x x') : Denotes nums x x' := by
  obtain ⟨k, hk⟩ := List.getElem?_of_mem hx
  have := range_get ((h k).1 hk)
  subst this
  exact ⟨by omega, by simpa using hk⟩

theorem denotesI_of_same {nums : List Nat} {n : Nat} (hn : n < 2147483647) {z z' : Int} (hx : ∃ x ∈ nums, (x : Int) = z)
    (h : Cdb.SameI nums (List.range' 1 n) z z') : DenotesI nums z (toU32 z') := by
  obtain ⟨x, hx, hz⟩ := hx
  obtain ⟨k, hk⟩ := List.getElem?_of_mem hx
  obtain ⟨y, hy, hy'⟩ := (h k).1 ⟨x, hk, hz⟩
  have hlt : k < n := by
    have := (List.getElem?_eq_some_iff.1 hy).1
    simpa using this
  have := range_get hy
  subst this
  rw [← hy', Cdb.toU32_nat (by omega)]
  exact ⟨x, ⟨by omega, by simpa using hk⟩, hz⟩

theorem forall₂_imp_mem {α β : Type} {R S : α → β → Prop} {l : List α} {m : List β} (h : List.Forall₂ R l m)
    (hi : ∀ a ∈ l, ∀ b, R a b → S a b) : List.Forall₂ S l m := by
  induction h with
  | nil => exact .nil
  | cons h1 h2 ih => exact .cons (hi _ (by simp) _ h1) (ih fun a ha => hi a (by simp [ha]))

theorem nodeLoop_eq (md : MeshData K) : ∀ n i, i + n = md.nodesPos.length → nodeLoop md i n = .ok (md.nodesPos.drop i) := by
  intro n
  induction n with
  | zero => intro i h; rw [List.drop_eq_nil_of_le (by omega)]; rfl
  | succ n ih =>
    intro i h
    have hi : i < md.nodesPos.length := by omega
    unfold nodeLoop
    rw [Cdb.read_some (List.getElem?_eq_getElem hi), out_bind, ih (i + 1) (by omega), out_bind, ← List.getElem_cons_drop hi]

theorem copyNodes_eq (c : List Nat) : ∀ n j, j + n = c.length → copyNodes c j n = .ok (c.drop j) := by
  intro n
  induction n with
  | zero => intro i h; rw [List.drop_eq_nil_of_le (by omega)]; rfl
  | succ n ih =>
    intro i h
    have hi : i < c.length := by omega
    unfold copyNodes
    rw [Cdb.read_some (List.getElem?_eq_getElem hi), out_bind, ih (i + 1) (by omega), out_bind, ← List.getElem_cons_drop hi]

theorem elementLoop_eq (md : MeshData K) (nn : Nat) : ∀ is : List Nat, (∀ i ∈ is, ∃ c, md.cellNodes[i]? = some c ∧ c.length = nn) →
    elementLoop md nn is = .ok (is.map (fun i => md.cellNodes.getD i [])) := by
  intro is
  induction is with
  | nil => intro _; rfl
  | cons i is ih =>
    intro h
    obtain ⟨c, h1, h2⟩ := h i (by simp)
    unfold elementLoop
    rw [Cdb.read_some h1, out_bind, if_pos h2, copyNodes_eq c nn 0 (by omega), out_bind, ih (fun i hi => h i (by simp [hi])), out_bind]
    simp [List.getD_eq_getElem?_getD, h1]

theorem mpcLoop_eq : ∀ qs : List (Cdb.Eqn K), (∀ q ∈ qs, q.eq ≠ []) →
    mpcLoop qs = .ok (qs.map (fun q => ⟨q.eq.map (fun t => ⟨toU32 t.node, t.dof, t.coef⟩), q.b, 0⟩)) := by
  intro qs
  induction qs with
  | nil => intro _; rfl
  | cons q qs ih =>
    intro h
    unfold mpcLoop
    rw [if_neg (h q (by simp)), ih (fun q hq => h q (by simp [hq])), out_bind]
    rfl

theorem createMaterial_eq (name : String) (n : Nat) (h : constsOf name = some n) : ∃ m, createMaterial name = .ok (some m) ∧ m.consts.length = n := by
  unfold constsOf at h
  split at h
  · rename_i e; subst e; cases h; exact ⟨_, rfl, rfl⟩
  · split at h
    · rename_i e; subst e; cases h; exact ⟨_, rfl, rfl⟩
    · split at h
      · rename_i e; subst e; cases h; exact ⟨_, rfl, rfl⟩
      · cases h

theorem nodesPer_eq {t : ElementType} {nn : Nat} (h : nodesPer t = some nn) :
    ∃ s, Vtk.factoryShape t = .ok s ∧ Vtk.nNodesOf s = .ok nn := by
  cases t <;> simp [nodesPer] at h <;> subst h <;> exact ⟨_, rfl, rfl⟩

theorem forall₂_get {α β : Type} {R : α → β → Prop} {l : List α} {m : List β} (h : List.Forall₂ R l m) (i : Nat) {b : β}
    (hb : m[i]? = some b) : ∃ a, l[i]? = some a ∧ R a b := by
  induction h generalizing i with
  | nil => simp at hb
  | cons h1 h2 ih =>
    cases i with
    | zero => simp at hb; subst hb; exact ⟨_, by simp, h1⟩
    | succ i => simpa using ih i (by simpa using hb)

theorem forall₂_get' {α β : Type} {R : α → β → Prop} {l : List α} {m : List β} (h : List.Forall₂ R l m) (i : Nat) {a : α}
    (ha : l[i]? = some a) : ∃ b, m[i]? = some b ∧ R a b := by
  induction h generalizing i with
  | nil => simp at ha
  | cons h1 h2 ih =>
    cases i with
    | zero => simp at ha; subst ha; exact ⟨_, by simp, h1⟩
    | succ i => simpa using ih i (by simpa using ha)

theorem component_find (md : MeshData K) {md' : MeshData K} (hr : Renumbered md md') (hn : (md.feComps.map (·.name)).Nodup)
    {c : Comp} (hc : c ∈ md.feComps) {name : String} (hname : c.name = name.toList) :
    (component md' name).type = c.type ∧
      (c.type = .NODES → List.Forall₂ (Cdb.Same md.nodesNumbers md'.nodesNumbers) c.list (component md' name).list) := by
  have key : ∀ (l l' : List Comp), List.Forall₂ (fun c c' => c.name = c'.name ∧ c.type = c'.type ∧
      if c.type = .NODES then List.Forall₂ (Cdb.Same md.nodesNumbers md'.nodesNumbers) c.list c'.list else c.list = c'.list) l l' →
      (l.map (·.name)).Nodup → c ∈ l → ∃ c', l'.find? (fun c => c.name = name.toList) = some c' ∧ c'.type = c.type ∧
      (c.type = .NODES → List.Forall₂ (Cdb.Same md.nodesNumbers md'.nodesNumbers) c.list c'.list) := by
    intro l l' h
    induction h with
    | nil => intro _ h; simp at h
    | @cons a b l l' h1 h2 ih =>
      intro hn hc
      rw [List.map_cons, List.nodup_cons] at hn
      rcases List.mem_cons.1 hc with rfl | hc
      · refine ⟨b, ?_, h1.2.1.symm, fun ht => ?_⟩
        · rw [List.find?_cons_of_pos]
          simpa [← h1.1] using hname
        · have := h1.2.2
          rwa [if_pos ht] at this
      · obtain ⟨c', h3, h4⟩ := ih hn.2 hc
        refine ⟨c', ?_, h4⟩
        rw [List.find?_cons_of_neg]
        · exact h3
        · simp only [decide_eq_true_eq, ← h1.1]
          intro e
          refine hn.1 ?_
          rw [e, ← hname]
          exact List.mem_map_of_mem hc
  obtain ⟨c', h1, h2⟩ := key _ _ hr.comps hn hc
  unfold component
  rw [h1]
  exact h2

theorem bind_ok {α β : Type} {x : Out α} {f : α → Out β} {b : β} (h : x >>= f = .ok b) : ∃ a, x = .ok a ∧ f a = .ok b := by
  cases x with
  | error e => cases h
  | ok a => exact ⟨a, rfl, h⟩

/-! ## C91 -/

/-- The numbering of the file is one that `compressNumbers` handles: see C54. -/
def Numbered (md : MeshData K) : Prop :=
  md.nodesNumbers = List.range' 1 md.nodesNumbers.length ∨ ¬ ∃ x ∈ md.nodesNumbers, (∀ y ∈ md.nodesNumbers, y ≤ x) ∧ x = md.nodesNumbers.length

/-- **C91**: for every complete file and fitting options the model that is solved has the nodes of the file in file order, for each cell
with TYPE 1 an element on the nodes of that cell, and the boundary conditions, constraint equations, reaction nodes and slave nodes of the
file, whatever the numbers of the nodes in the file are. Missing: the master node of a rigid body, see `C91_master_violated`; cells of
other types, see `C91_types_violated`; the numberings for which C54 does not hold. -/
theorem C91_partial (o : Options K) (md : MeshData K) (h : Complete md) (hnum : Numbered md) (ho : Fitting o md) :
    ∃ j, setUp o md = .ok (some j) ∧ Faithful o md j ∧
      (0 < o.rigidMaster → o.rigidSlaves ≠ "" → j.rigid.map (·.master) = some o.rigidMaster) := by
  obtain ⟨md', hc, hr⟩ := Cdb.C54_compress_partial md h.fits hnum
  obtain ⟨n, hm, hmc⟩ := ho.mat
  obtain ⟨m, hm1, hm2⟩ := createMaterial_eq _ n hm
  obtain ⟨nn, hnn, hcells⟩ := ho.elem
  obtain ⟨sh, hs1, hs2⟩ := nodesPer_eq hnn
  have hmat : material o = .ok (o.constants.take n) := by
    unfold material
    rw [hm1]
    show Cdb.lift (Cmd.setConstants m.consts.length o.constants) = _
    rw [hm2, Cmd.C76_constants_partial n o.constants hmc]
    rfl
  have hlen : md'.nodesNumbers.length = md.nodesNumbers.length := by rw [hr.numbers]; simp
  have hpos : nodeLoop md' 0 md'.nodesNumbers.length = .ok md.nodesPos := by
    rw [nodeLoop_eq md' _ 0 (by rw [hr.pos, h.pos, hlen]; omega), hr.pos]
    rfl
  obtain ⟨idx, hi1, hi2, hi3⟩ := Cdb.C70_attribute md' "TYPE" 1 (by rw [hr.rest.1, hr.rest.2]; exact h.types)
  rw [hr.rest.2] at hi3
  have hi3' : ∀ i, i ∈ idx ↔ md.cellInt.type[i]? = some 1 := hi3
  have hcell : ∀ i ∈ idx, ∃ c c', md.cellNodes[i]? = some c ∧ md'.cellNodes[i]? = some c' ∧ c'.length = nn ∧
      List.Forall₂ (Cdb.Same md.nodesNumbers md'.nodesNumbers) c c' := by
    intro i hi
    have ht := (hi3' i).1 hi
    have hlt : i < md.cellNodes.length := by
      rw [h.cells, ← h.types]; exact (List.getElem?_eq_some_iff.1 ht).1
    obtain ⟨c', hc1, hc2⟩ := forall₂_get' hr.cells i (List.getElem?_eq_getElem hlt)
    refine ⟨_, c', List.getElem?_eq_getElem hlt, hc1, ?_, hc2⟩
    rw [← hc2.length_eq]
    exact hcells i _ ht (List.getElem?_eq_getElem hlt)
  have helems := elementLoop_eq md' nn idx (fun i hi => by obtain ⟨c, c', _, h2, h3, _⟩ := hcell i hi; exact ⟨c', h2, h3⟩)
  have heqs : ∀ q ∈ md'.mpcs, q.eq ≠ [] := by
    intro q hq e
    obtain ⟨i, hi⟩ := List.getElem?_of_mem hq
    obtain ⟨q0, h1, h2⟩ := forall₂_get hr.eqs i hi
    have h3 := h2.2.length_eq
    rw [e] at h3
    exact (h.eqs q0 (List.mem_of_getElem? h1)).1 (List.eq_nil_of_length_eq_zero h3)
  have hn' : md.nodesNumbers.length < 2147483647 := h.fits.count
  have same : ∀ {c c' : List Nat}, (∀ x ∈ c, x ∈ md.nodesNumbers) → List.Forall₂ (Cdb.Same md.nodesNumbers md'.nodesNumbers) c c' →
      List.Forall₂ (Denotes md.nodesNumbers) c c' := by
    intro c c' hx hf
    refine forall₂_imp_mem hf (fun a ha b hab => ?_)
    rw [hr.numbers] at hab
    exact denotes_of_same (hx a ha) hab
  have bc : ∀ {l l' : List (Cdb.Bc K)}, (∀ b ∈ l, ∃ x ∈ md.nodesNumbers, (x : Int) = b.node) →
      List.Forall₂ (fun b b' => Cdb.SameI md.nodesNumbers md'.nodesNumbers b.node b'.node ∧ b.dof = b'.dof ∧ b.value = b'.value) l l' →
      List.Forall₂ (SameBc md.nodesNumbers) l (bcs l') := by
    intro l l' hx hf
    unfold bcs
    rw [List.forall₂_map_right_iff]
    refine forall₂_imp_mem hf (fun a ha b hab => ?_)
    rw [hr.numbers] at hab
    exact ⟨denotesI_of_same hn' (hx a ha) hab.1, hab.2.1.symm, hab.2.2.symm⟩
  have hre : ∃ re, reactionJob md' o = some re ∧ (o.reaction = "" → re = none) ∧
      (o.reaction ≠ "" → ∃ ns, re = some (ns, o.reactionDofs) ∧ SameComp md o.reaction ns) := by
    unfold reactionJob
    by_cases e : o.reaction = ""
    · rw [if_pos e]; exact ⟨none, rfl, fun _ => rfl, fun h => absurd e h⟩
    · rw [if_neg e]
      obtain ⟨c, hc1, hc2, hc3⟩ := ho.react e
      obtain ⟨h1, h2⟩ := component_find md hr h.names hc1 hc2
      simp only
      rw [if_pos (h1.trans hc3)]
      exact ⟨_, rfl, fun h => absurd h e, fun _ => ⟨_, rfl, c, hc1, hc2, hc3, same (h.comps c hc1 hc3) (h2 hc3)⟩⟩
  have hri : ∃ ri, rigidJob md' o = some ri ∧ (o.rigidMaster = 0 ∨ o.rigidSlaves = "" → ri = none) ∧
      (0 < o.rigidMaster → o.rigidSlaves ≠ "" → ∃ r, ri = some r ∧ r.master = o.rigidMaster ∧ r.dofs = o.rigidDofs ∧
        SameComp md o.rigidSlaves r.slaves) := by
    unfold rigidJob
    by_cases e : 0 < o.rigidMaster ∧ o.rigidSlaves ≠ ""
    · rw [if_pos e]
      obtain ⟨c, hc1, hc2, hc3⟩ := ho.rigid e.1 e.2
      obtain ⟨h1, h2⟩ := component_find md hr h.names hc1 hc2
      simp only
      rw [if_pos (h1.trans hc3)]
      refine ⟨_, rfl, ?_, fun _ _ => ⟨_, rfl, rfl, rfl, c, hc1, hc2, hc3, same (h.comps c hc1 hc3) (h2 hc3)⟩⟩
      rintro (h | h)
      · have := e.1; omega
      · exact absurd h e.2
    · rw [if_neg e]
      exact ⟨none, rfl, fun _ => rfl, fun h1 h2 => absurd ⟨h1, h2⟩ e⟩
  obtain ⟨re, hre1, hre2, hre3⟩ := hre
  obtain ⟨ri, hri1, hri2, hri3⟩ := hri
  refine ⟨⟨o.constants.take n, md.nodesPos, o.element, idx.map (fun i => md'.cellNodes.getD i []),
    md'.mpcs.map (fun q => ⟨q.eq.map (fun t => ⟨toU32 t.node, t.dof, t.coef⟩), q.b, 0⟩), bcs md'.loadBcs, bcs md'.fixBcs, o.iterations,
    o.loadsteps, if o.useVtk then some (Cmd.fileStem o.model.toList) else none, re, ri⟩, ?_, ?_, ?_⟩
  · unfold setUp
    rw [hc, out_bind, hmat, out_bind, hpos, out_bind, hi1, out_bind, hs1]
    show (do let nn ← Cdb.lift (Vtk.nNodesOf sh); _) = _
    rw [hs2]
    show (do let elems ← elementLoop md' nn idx; _) = _
    rw [helems, out_bind, mpcLoop_eq _ heqs, out_bind, hre1, hri1]
  · refine ⟨rfl, rfl, ⟨idx, hi2, hi3', ?_⟩, ?_, bc h.loads hr.loads, bc h.fixs hr.fixs, ⟨rfl, rfl⟩, ⟨n, hm, rfl⟩,
      by cases o.useVtk <;> rfl, fun hv base ext he hm => by show (if o.useVtk then _ else _) = _; rw [if_pos hv, hm, Cmd.C79_stem base ext he],
      hre2, hre3, hri2, ?_⟩
    · refine Cdb.forall₂_map (fun i hi => ?_)
      obtain ⟨c, c', h1, h2, h3, h4⟩ := hcell i hi
      refine ⟨c, h1, ?_⟩
      rw [List.getD_eq_getElem?_getD, h2]
      exact same (h.cellNodes c (List.mem_of_getElem? h1)) h4
    · rw [List.forall₂_map_right_iff]
      refine forall₂_imp_mem hr.eqs (fun q hq q' hqq => ⟨hqq.1.symm, ?_⟩)
      rw [List.forall₂_map_right_iff]
      refine forall₂_imp_mem hqq.2 (fun t ht t' htt => ?_)
      rw [hr.numbers] at htt
      exact ⟨denotesI_of_same hn' ((h.eqs q hq).2 t ht) htt.1, htt.2.1.symm, htt.2.2.symm⟩
    · intro h1 h2
      obtain ⟨r, e1, _, e3, e4⟩ := hri3 h1 h2
      exact ⟨r, e1, e3, e4⟩
  · intro h1 h2
    obtain ⟨r, e1, e2, _⟩ := hri3 h1 h2
    simp [e1, e2]

/-- **C91**, violated for the master node of a rigid body: its number is not translated. Whenever the node with the number given on the
command line does not stand at that place in the list of nodes, another node (or none) becomes the master. -/
theorem C91_master_violated (o : Options K) (md : MeshData K) (h : Complete md) (hnum : Numbered md) (ho : Fitting o md)
    (h1 : 0 < o.rigidMaster) (h2 : o.rigidSlaves ≠ "") (h3 : md.nodesNumbers[o.rigidMaster - 1]? ≠ some o.rigidMaster) :
    ∃ j, setUp o md = .ok (some j) ∧ ¬ MasterFaithful o md j := by
  obtain ⟨j, hj, _, hm⟩ := C91_partial o md h hnum ho
  refine ⟨j, hj, fun hf => ?_⟩
  have := hm h1 h2
  cases hr : j.rigid with
  | none => rw [hr] at this; simp at this
  | some r =>
    rw [hr] at this
    simp only [Option.map_some, Option.some.injEq] at this
    have := (hf r hr).2
    simp_all

/-- Components that are not in the file, or do not consist of nodes, are refused. -/
theorem C91_refused (o : Options K) (md : MeshData K) (h : Complete md) (hnum : Numbered md)
    (hr : o.reaction ≠ "" ∧ ∀ c ∈ md.feComps, c.name = o.reaction.toList → c.type ≠ .NODES) (j : Job K) :
    setUp o md ≠ .ok (some j) := by
  obtain ⟨md', hc, hren⟩ := Cdb.C54_compress_partial md h.fits hnum
  have hn : reactionJob md' o = none := by
    unfold reactionJob
    rw [if_neg hr.1]
    have : (component md' o.reaction).type ≠ .NODES := by
      unfold component
      split
      · rename_i c' hf
        have hm := List.mem_of_find?_eq_some hf
        have hp := List.find?_some hf
        obtain ⟨i, hi⟩ := List.getElem?_of_mem hm
        obtain ⟨c, h1, h2⟩ := forall₂_get hren.comps i hi
        rw [← h2.2.1]
        exact hr.2 c (List.mem_of_getElem? h1) (h2.1.trans (by simpa using hp))
      · simp
    simp only
    rw [if_neg this]
  intro he
  unfold setUp at he
  rw [hc, out_bind, hn] at he
  obtain ⟨_, _, he⟩ := bind_ok he
  obtain ⟨_, _, he⟩ := bind_ok he
  obtain ⟨_, _, he⟩ := bind_ok he
  obtain ⟨_, _, he⟩ := bind_ok he
  obtain ⟨_, _, he⟩ := bind_ok he
  obtain ⟨_, _, he⟩ := bind_ok he
  obtain ⟨_, _, he⟩ := bind_ok he
  cases he

/-! ### A file -/

/-- A triangle mesh with gaps in its numbering, a load, a support, an equation and a component. -/
def demo : MeshData Int :=
  ⟨[5, 6, 9], [[10, 7, 3], [3, 7, 20], [7, 3]], ⟨[1, 1, 1], [1, 1, 1], [1, 1, 1], [1, 1, 1], [1, 1, 1], [1, 1, 2]⟩, [7, 10, 3, 20],
    [(0, 0, 0), (5, 0, 0), (1, 1, 0), (4, 4, 0)], [⟨7, .UX, 3⟩], [⟨3, .UY, 0⟩], [⟨1, [⟨20, .UX, 1⟩, ⟨7, .UY, 2⟩]⟩],
    [⟨"TOP".toList, .NODES, [3, 20]⟩, ⟨"ALL".toList, .ELEMENTS, [5, 6]⟩]⟩

def demoOptions : Options Int :=
  ⟨15, 10, "Biderman", .TRIANGLE4, false, "a.cdb", [1, 2, 3, 4, 5], "", 0, "TOP", [.UX], 3, "TOP", [.UX, .UY]⟩

theorem demo_complete : Complete demo := by
  refine ⟨⟨?_, ?_, ?_, ?_, ?_, ?_, ?_⟩, ?_, ?_, ?_, ?_, ?_, ?_, ?_, ?_, ?_⟩ <;> decide

theorem demo_numbered : Numbered demo := by
  unfold Numbered; right; decide

theorem demo_fitting : Fitting demoOptions demo := by
  refine ⟨⟨5, by decide, by decide⟩, ⟨3, rfl, ?_⟩, ?_, ?_⟩
  · intro i c h1 h2
    have hi : i < 3 := (List.getElem?_eq_some_iff.1 h1).1
    interval_cases i
    · cases h2; rfl
    · cases h2; rfl
    · cases h1
  · intro _; exact ⟨⟨"TOP".toList, .NODES, [3, 20]⟩, by decide, by decide, rfl⟩
  · intro _ _; exact ⟨⟨"TOP".toList, .NODES, [3, 20]⟩, by decide, by decide, rfl⟩

/-- The hypotheses of `C91_partial` and `C91_master_violated` hold for this file; node 3, the third of the file, would be a correct
master, node 7 is not. -/
example : ∃ j, setUp demoOptions demo = .ok (some j) ∧ Faithful demoOptions demo j := by
  obtain ⟨j, h1, h2, _⟩ := C91_partial demoOptions demo demo_complete demo_numbered demo_fitting
  exact ⟨j, h1, h2⟩

example : ∃ j, setUp { demoOptions with rigidMaster := 7 } demo = .ok (some j) ∧ ¬ MasterFaithful { demoOptions with rigidMaster := 7 } demo j :=
  C91_master_violated _ demo demo_complete demo_numbered ⟨demo_fitting.mat, demo_fitting.elem, demo_fitting.react, fun _ => demo_fitting.rigid (by decide)⟩
    (by decide) (by decide) (by decide)

/-- **C91**, violated: a cell of another TYPE is dropped without a message. -/
theorem C91_types_violated : ∃ j, setUp demoOptions demo = .ok (some j) ∧ j.elems = [[2, 1, 3], [3, 1, 4]] ∧ j.elems.length < demo.cellNodes.length := by
  refine ⟨_, rfl, by decide, by decide⟩

end Nla3d.Main
