import Verif.Prog.Model
import Verif.Newton.Energy
import Verif.Main.Report
import Verif.Rigid.Solve
import Verif.Cdb.File
import Verif.Cmd.Props

/-!
# Specification for C101: what the program does with a model

Load steps, and in each of them Newton's method for stationary points of the potential energy of the model. Everything is said in
terms of the job: its nodes, elements, material constants, loads, fixes, constraint equations and rigid body. Unknowns are functions of
keys (node or element, number, type of DoF), equation numbers do not occur.
-/

namespace Nla3d.Prog

open Nla3d.Dof Nla3d.Storage Nla3d.Iso Nla3d.Newton Nla3d.Labels
open Nla3d.Hyper (plane3)
open Nla3d.Solver (Bc keyOf lastFix fixKeys loadsOn)
open Nla3d.Rigid (offset theta norm3 arm transl Plain)
open Nla3d.Cmd (Options)
open Nla3d.Main (Job Fails)

noncomputable section

/-- Values of the unknowns. -/
abbrev Vals : Type := Key → ℝ

/-! ## Potential energy -/

/-- The materials: name, constants, strain energy as a function of the invariants of the isochoric part, bulk modulus. -/
inductive MatLaw : String → List ℝ → (ℝ → ℝ → ℝ) → ℝ → Prop
  | neoHookean (G k : ℝ) : MatLaw "Neo-Hookean" [G, k] (fun I₁ _ => G / 2 * (I₁ - 3)) k
  | mooneyRivlin (c₁₀ c₀₁ k : ℝ) : MatLaw "Mooney-Rivlin" [c₁₀, c₀₁, k] (fun I₁ I₂ => c₁₀ * (I₁ - 3) + c₀₁ * (I₂ - 3)) k
  | biderman (c₁₀ c₂₀ c₃₀ c₀₁ k : ℝ) : MatLaw "Biderman" [c₁₀, c₂₀, c₃₀, c₀₁, k]
      (fun I₁ I₂ => c₁₀ * (I₁ - 3) + c₂₀ * (I₁ - 3) ^ 2 + c₃₀ * (I₁ - 3) ^ 3 + c₀₁ * (I₂ - 3)) k

/-- Energy per volume for a deformation gradient and a pressure: the strain energy of the isochoric part, the work of the pressure on
the change of volume, the energy of compression. -/
def density (W : ℝ → ℝ → ℝ) (k p : ℝ) (F : Matrix (Fin 3) (Fin 3) ℝ) : ℝ :=
  let C := F.transpose * F
  let J := √C.det
  W (C.trace * J ^ (-2 / 3 : ℝ)) ((C.trace ^ 2 - (C * C).trace) / 2 * J ^ (-4 / 3 : ℝ)) + p * (J - 1) - p ^ 2 / (2 * k)

/-- Positions of the nodes of an element. -/
def nodePos (pos : List (ℝ × ℝ × ℝ)) (ns : List Nat) {nn : Nat} (a : Fin nn) : Fin 3 → ℝ := posOf pos (ns.getD a 0)

/-- Displacements of the nodes of an element. -/
def nodeDisp (x : Vals) (ns : List Nat) {nn : Nat} (a : Fin nn) : Fin 3 → ℝ :=
  fun c => x (.node, ns.getD a 0, transl c)

/-- The first two components. -/
def flat {nn : Nat} (f : Fin nn → Fin 3 → ℝ) : Fin nn → Fin 2 → ℝ := fun a c => f a c.castSucc

/-- Energy of an element with 8 nodes, by the integration rule. -/
def hexEnergy (W : ℝ → ℝ → ℝ) (k : ℝ) (pos : List (ℝ × ℝ × ℝ)) (ns : List Nat) (x : Vals) (p : ℝ) : ℝ :=
  ((hexa.table (schemeIndex 2)).map (fun q => q.w * (jac hexa (nodePos pos ns) q.xi).det *
    density W k p (defGrad hexa (nodePos pos ns) (nodeDisp x ns) q.xi))).sum

/-- Energy of an element with 4 nodes in plane strain. -/
def quadEnergy (W : ℝ → ℝ → ℝ) (k : ℝ) (pos : List (ℝ × ℝ × ℝ)) (ns : List Nat) (x : Vals) (p : ℝ) : ℝ :=
  ((quad.table (schemeIndex 2)).map (fun q => q.w * (jac quad (flat (nodePos pos ns)) q.xi).det *
    density W k p (plane3 (defGrad quad (flat (nodePos pos ns)) (flat (nodeDisp x ns)) q.xi)))).sum

/-- Energy of an element of a given type. -/
def elementEnergy (t : ElementType) (W : ℝ → ℝ → ℝ) (k : ℝ) (pos : List (ℝ × ℝ × ℝ)) (ns : List Nat) (x : Vals) (p : ℝ) : ℝ :=
  match t with
  | .SOLID81 => hexEnergy W k pos ns x p
  | .PLANE41 => quadEnergy W k pos ns x p
  | _ => 0

/-- Energy of all elements; the pressure of an element is its own unknown. -/
def storedEnergy (W : ℝ → ℝ → ℝ) (k : ℝ) (j : Job ℝ) (x : Vals) : ℝ :=
  ((j.elems.zipIdx 1).map (fun e => elementEnergy j.type W k j.pos e.1 x (x (.elem, e.2, .HYDRO_PRESSURE)))).sum

/-- Derivative of the energy at `x` in direction `v`. -/
def slope (W : ℝ → ℝ → ℝ) (k : ℝ) (j : Job ℝ) (x v : Vals) : ℝ := deriv (fun s : ℝ => storedEnergy W k j (x + s • v)) 0

/-- The displaced element is not degenerate at its integration points. -/
def elementSound (t : ElementType) (pos : List (ℝ × ℝ × ℝ)) (ns : List Nat) (x : Vals) : Prop :=
  match t with
  | .SOLID81 => ∀ q ∈ hexa.table (schemeIndex 2), (jac hexa (nodePos pos ns + nodeDisp x ns) q.xi).det ≠ 0
  | .PLANE41 => ∀ q ∈ quad.table (schemeIndex 2), (jac quad (flat (nodePos pos ns) + flat (nodeDisp x ns)) q.xi).det ≠ 0
  | _ => False

/-- No displaced element is degenerate. -/
def Sound (j : Job ℝ) (x : Vals) : Prop := ∀ ns ∈ j.elems, elementSound j.type j.pos ns x

/-! ## Unknowns, fixes and constraints -/

/-- Displacement components of a node of an element. -/
def displ : ElementType → List DofType
  | .SOLID81 => [.UX, .UY, .UZ]
  | .PLANE41 => [.UX, .UY]
  | _ => []

/-- The unknowns of the model: displacements of the nodes of elements, a pressure for each element, and displacements and rotations of
the master node of the rigid body. -/
inductive Has (j : Job ℝ) : Key → Prop
  | node {ns : List Nat} {n : Nat} {d : DofType} : ns ∈ j.elems → n ∈ ns → d ∈ displ j.type → Has j (.node, n, d)
  | pressure {e : Nat} : 0 < e → e ≤ j.elems.length → Has j (.elem, e, .HYDRO_PRESSURE)
  | master {r : Main.RigidJob} {d : DofType} : j.rigid = some r → d ∈ [.UX, .UY, .UZ, .ROTX, .ROTY, .ROTZ] → Has j (.node, r.master, d)

/-- Left-hand side of a constraint equation. -/
def lhsOf (m : Mpc ℝ) (v : Vals) : ℝ := (m.eq.map (fun t => t.coef * v (.node, t.node, t.dof))).sum

/-- The slave node `n` is away from the place where the rigid motion of the master takes it, in direction `i`. -/
def away (j : Job ℝ) (r : Main.RigidJob) (n : Nat) (i : Fin 3) (x : Vals) : ℝ :=
  offset (posOf j.pos) r.master n (fun n d => x (.node, n, d)) i

/-- Rotation of the master node. -/
def turn (r : Main.RigidJob) (x : Vals) : Fin 3 → ℝ := theta (fun n d => x (.node, n, d)) r.master

/-- A direction at `x` in which the constraint equations and the conditions of the rigid body do not change. -/
structure Compatible (j : Job ℝ) (x v : Vals) : Prop where
  eqs : ∀ m ∈ j.mpcs, lhsOf m v = 0
  rigid : ∀ r, j.rigid = some r → ∀ n ∈ r.slaves, ∀ i, transl i ∈ r.dofs → HasDerivAt (fun s : ℝ => away j r n i (x + s • v)) 0 0

/-- Work of the forces `t * loads` on a direction, without the loads on fixed DoFs. -/
def loadWork (j : Job ℝ) (t : ℝ) (v : Vals) : ℝ :=
  t * ((j.loads.filter (fun l => keyOf l ∉ fixKeys j.fixs)).map (fun l => l.value * v (keyOf l))).sum

/-- Work of reactions on a direction. -/
def reactionWork (j : Job ℝ) (r v : Vals) : ℝ := ∑ k ∈ (fixKeys j.fixs).toFinset, r k * v k

/-- An unknown that is not fixed. -/
def Free (j : Job ℝ) (f : Key) : Prop := Has j f ∧ f ∉ fixKeys j.fixs

/-- Number of the direction of a translation. -/
def axis : DofType → Fin 3
  | .UX => 0
  | .UY => 1
  | _ => 2

/-- The conditions at `x` in linear form, as functions of the direction: the constraint equations, and the changes of the conditions of
the rigid body. -/
def conditions (j : Job ℝ) (x : Vals) : List (Vals → ℝ) :=
  j.mpcs.map lhsOf ++ j.rigid.elim [] (fun r => r.slaves.flatMap (fun n => r.dofs.map (fun d v =>
    deriv (fun s : ℝ => away j r n (axis d) (x + s • v)) 0)))

/-- The energy has a second derivative at `x`, and the equations of Newton's method determine the increments of the free unknowns and
the multipliers of the conditions. -/
def Regular (W : ℝ → ℝ → ℝ) (k : ℝ) (j : Job ℝ) (x : Vals) : Prop :=
  ∃ H : Vals →ₗ[ℝ] Vals →ₗ[ℝ] ℝ, (∀ w v, HasDerivAt (fun s : ℝ => slope W k j (x + s • w) v) (H w v) 0) ∧
    ∀ (w : Vals) (μ : Nat → ℝ), (∀ f, ¬ Free j f → w f = 0) →
      (∀ f, Free j f → H w (Pi.single f 1) + ((conditions j x).zipIdx.map (fun c => μ c.2 * c.1 (Pi.single f 1))).sum = 0) →
      (∀ c ∈ conditions j x, c w = 0) → w = 0 ∧ ∀ m < (conditions j x).length, μ m = 0

/-- The step from `x` to `y` at time `t` with reactions `r` satisfies the equations of Newton's method: fixed DoFs take their values, constraint
equations hold for the increments, the rigid body is linearised, and the linearised energy balance holds in all directions that
respect constraints and fixes. In directions that move fixed DoFs the reactions do the missing work, unless an increment of a fixed
DoF is so small that the code takes it for zero. What the code calls the reaction of a DoF that is not fixed is the load on it. -/
structure Linearised (W : ℝ → ℝ → ℝ) (k : ℝ) (j : Job ℝ) (t : ℝ) (x y r : Vals) : Prop where
  fixed : ∀ f a, lastFix f j.fixs = some a → y f = t * a
  loads : ∀ f, Has j f → f ∉ fixKeys j.fixs → r f = t * loadsOn f j.loads
  outside : ∀ f, ¬ Has j f → y f = 0 ∧ r f = 0
  eqs : ∀ m ∈ j.mpcs, lhsOf m (y - x) = m.b
  rigid : ∀ b, j.rigid = some b → Plain (turn b x) → ∀ n ∈ b.slaves, ∀ i, transl i ∈ b.dofs →
    HasDerivAt (fun s : ℝ => away j b n i (x + s • (y - x))) (-away j b n i x) 0
  close : ∀ b, j.rigid = some b → ∀ n ∈ b.slaves, ∀ i, transl i ∈ b.dofs →
    |away j b n i y| ≤ (1e-9 + 18 * norm3 (turn b (y - x))) * arm (posOf j.pos) b.master n
  balance : Sound j x → (∀ b, j.rigid = some b → Plain (turn b x)) → ∀ v, Compatible j x v →
    ((∀ f ∈ fixKeys j.fixs, v f = 0) ∨ ∀ f ∈ fixKeys j.fixs, y f - x f = 0 ∨ 1 / 10 ^ 20 < |y f - x f|) →
    HasDerivAt (fun s : ℝ => slope W k j (x + s • (y - x)) v) (loadWork j t v + reactionWork j r v - slope W k j x v) 0

/-- A step of Newton's method: it satisfies the equations, and they determine it. -/
structure NewtonStep (W : ℝ → ℝ → ℝ) (k : ℝ) (j : Job ℝ) (t : ℝ) (x y r : Vals) : Prop extends Linearised W k j t x y r where
  regular : Sound j x → (∀ b, j.rigid = some b → Plain (turn b x)) → Regular W k j x

/-- The acceptance test: the mean absolute increment of the unknowns that are not fixed is below `1e-6`. -/
def Small (j : Job ℝ) (x y : Vals) : Prop :=
  ∃ free : Finset Key, (∀ f, f ∈ free ↔ Has j f ∧ f ∉ fixKeys j.fixs) ∧ ∑ f ∈ free, |y f - x f| < 1 / 10 ^ 6 * free.card

/-- A load step: Newton's method from `x` at time `t`, until the increment is small. The list has values and reactions after each
iteration. -/
inductive NewtonRun (W : ℝ → ℝ → ℝ) (k : ℝ) (j : Job ℝ) (t : ℝ) : Vals → List (Vals × Vals) → Prop
  | last {x y r : Vals} : NewtonStep W k j t x y r → Small j x y → NewtonRun W k j t x [(y, r)]
  | more {x y r : Vals} {l : List (Vals × Vals)} : NewtonStep W k j t x y r → ¬ Small j x y → NewtonRun W k j t y l →
      NewtonRun W k j t x ((y, r) :: l)

/-- Load steps `i, i + 1, ..` of `n`, each one from the values the one before it ends with. The list has values and reactions at the
ends of the steps. -/
inductive LoadPath (W : ℝ → ℝ → ℝ) (k : ℝ) (j : Job ℝ) : Nat → Vals → List (Vals × Vals) → Prop
  | done {i : Nat} {x : Vals} : LoadPath W k j i x []
  | step {i : Nat} {x : Vals} {l : List (Vals × Vals)} {e : Vals × Vals} {es : List (Vals × Vals)} :
      NewtonRun W k j (((i : ℝ) + 1) / j.loadsteps) x l → l.length ≤ max 1 j.iterations → l.getLast? = some e →
      LoadPath W k j (i + 1) e.1 es → LoadPath W k j i x (e :: es)

/-! ## Why a run stops -/

/-- The unknowns each condition is about. -/
def conditionKeys (j : Job ℝ) : List (List Key) :=
  j.mpcs.map (fun m => m.eq.map (fun t => (.node, t.node, t.dof))) ++ j.rigid.elim [] (fun r => r.slaves.flatMap (fun n => r.dofs.map (fun d =>
    [(.node, n, d), (.node, r.master, d), (.node, r.master, .ROTX), (.node, r.master, .ROTY), (.node, r.master, .ROTZ)])))

/-- The equations of Newton's method at `x` are nearly singular: a direction of the free unknowns and multipliers of the conditions, one
of them 1, for which no left-hand side reaches `1e-20`. -/
def NearSingular (W : ℝ → ℝ → ℝ) (k : ℝ) (j : Job ℝ) (x : Vals) : Prop :=
  ∃ (w : Vals) (μ : Nat → ℝ), (∀ f, ¬ Free j f → w f = 0) ∧
    ((∃ f, Free j f ∧ w f = 1) ∨ ∃ m < (conditions j x).length, μ m = 1) ∧
    (∀ f, Free j f → ∃ a, HasDerivAt (fun s : ℝ => slope W k j (x + s • w) (Pi.single f 1)) a 0 ∧
      |a + ((conditions j x).zipIdx.map (fun c => μ c.2 * c.1 (Pi.single f 1))).sum| < 1 / 10 ^ 20) ∧
    ∀ c ∈ conditions j x, |c w| < 1 / 10 ^ 20

/-- Values for which the equation solver may give up: a degenerate element, a rotation of the rigid body near one where its equations
change form, nearly singular equations, or too many of them. -/
def Hopeless (W : ℝ → ℝ → ℝ) (k : ℝ) (j : Job ℝ) (x : Vals) : Prop :=
  ¬ Sound j x ∨ (∃ b, j.rigid = some b ∧ ¬ Plain (turn b x)) ∨ NearSingular W k j x ∨
    ∃ free : Finset Key, (∀ f, f ∈ free ↔ Free j f) ∧ 1000 ≤ free.card + (conditions j x).length

/-- The mean absolute increment of the free unknowns is over 1000. -/
def Large (j : Job ℝ) (x y : Vals) : Prop :=
  ∃ free : Finset Key, (∀ f, f ∈ free ↔ Free j f) ∧ 1000 * (free.card : ℝ) < ∑ f ∈ free, |y f - x f|

/-- Newton's method from `x`, after `c` iterations: it ends without a small increment. -/
inductive NewtonFails (W : ℝ → ℝ → ℝ) (k : ℝ) (j : Job ℝ) (t : ℝ) : Nat → Vals → Prop
  | hopeless {c : Nat} {x : Vals} : Hopeless W k j x → NewtonFails W k j t c x
  | diverged {c : Nat} {x y r : Vals} : NewtonStep W k j t x y r → Large j x y → NewtonFails W k j t c x
  | limit {c : Nat} {x y r : Vals} : NewtonStep W k j t x y r → ¬ Small j x y → j.iterations ≤ c + 1 → NewtonFails W k j t c x
  | more {c : Nat} {x y r : Vals} : NewtonStep W k j t x y r → ¬ Small j x y → NewtonFails W k j t (c + 1) y → NewtonFails W k j t c x

/-- Two unknowns of one element. -/
def Joined (j : Job ℝ) (f g : Key) : Prop :=
  ∃ e ns, j.elems[e]? = some ns ∧ ∀ h ∈ [f, g], h.1 = .node ∧ h.2.1 ∈ ns ∨ h.1 = .elem ∧ h.2.1 = e + 1

/-- An unknown with more than 100 others in the same elements and conditions. -/
def Crowded (j : Job ℝ) : Prop :=
  ∃ f, Has j f ∧ ∃ (P : Finset Key) (Q : Finset Nat), (∀ g ∈ P, Has j g ∧ Joined j f g) ∧
    (∀ q ∈ Q, ∃ ks, (conditionKeys j)[q]? = some ks ∧ f ∈ ks) ∧ 100 < P.card + Q.card

/-- Reasons to stop: rows of the matrix are too long, or Newton's method fails in a load step. -/
def MayStop (W : ℝ → ℝ → ℝ) (k : ℝ) (j : Job ℝ) : Prop :=
  Crowded j ∨ ∃ ends, LoadPath W k j 0 0 ends ∧ ends.length < j.loadsteps ∧
    NewtonFails W k j (((ends.length : ℝ) + 1) / j.loadsteps) 0 ((ends.getLast?.map Prod.fst).getD 0)

/-! ## Report -/

/-- Columns of the table: the DoFs asked for, or else the fixed DoFs of the first node. -/
def columns (j : Job ℝ) (ns : List Nat) (ds : List DofType) : List DofType :=
  if ds = [] then DofType.list.filter (fun d => decide ((Side.node, ns.headD 0, d) ∈ fixKeys j.fixs)) else ds

/-- Sum of the reactions of the nodes. -/
def force (ns : List Nat) (r : Vals) (d : DofType) : ℝ := (ns.map (fun n => r (.node, n, d))).sum

/-- What the program prints and returns, for given ends of the load steps. -/
def Reported (o : Options ℝ) (ref : List ℝ) (j : Job ℝ) (ends : List (Vals × Vals)) (table : Option (List (List ℝ))) (code : Nat) :
    Prop :=
  match j.react with
  | none => table = none ∧ code = 0
  | some (ns, ds) =>
    table = some ((columns j ns ds).map (fun _ => 0) :: ends.map (fun e => (columns j ns ds).map (force ns e.2))) ∧
    (code = 0 ∨ code = 1) ∧
    (code = 1 ↔ ∃ d, (columns j ns ds).head? = some d ∧ Fails o ref (0 :: ends.map (fun e => force ns e.2 d)))

/-! ## Jobs -/

/-- Number of nodes of an element. -/
def nodeCount : ElementType → Option Nat
  | .SOLID81 => some 8
  | .PLANE41 => some 4
  | _ => none

/-- A job the program is meant for. -/
structure Runnable (o : Options ℝ) (ref : List ℝ) (j : Job ℝ) : Prop where
  type : ∃ nn, nodeCount j.type = some nn ∧ ∀ ns ∈ j.elems, ns.length = nn
  nonempty : j.elems ≠ []
  nodes : ∀ ns ∈ j.elems, ns.Nodup ∧ ∀ n ∈ ns, 0 < n ∧ n ≤ j.pos.length
  sound : Sound j 0
  loads : ∀ l ∈ j.loads, Has j (keyOf l)
  fixs : ∀ f ∈ j.fixs, Has j (keyOf f)
  mpcs : ∀ m ∈ j.mpcs, m.eq ≠ [] ∧ ∀ t ∈ m.eq, Has j (.node, t.node, t.dof)
  master : ∀ r, j.rigid = some r → 0 < r.master ∧ r.master ≤ j.pos.length
  slaves : ∀ r, j.rigid = some r → r.dofs.length ≤ 3 ∧ (∀ d ∈ r.dofs, ∃ i, d = transl i) ∧
    ∀ n ∈ r.slaves, ∀ d ∈ r.dofs, Has j (.node, n, d)
  size : 6 * j.pos.length + j.elems.length + j.mpcs.length + (j.rigid.elim 0 (fun r => 3 * r.slaves.length)) < Sparse.invalid
  iterations : j.iterations < 65536
  loadsteps : 0 < j.loadsteps ∧ j.loadsteps < 65536 ∧ j.loadsteps = o.loadsteps
  react : ∀ ns ds, j.react = .some (ns, ds) → ns ≠ [] ∧ (∀ n ∈ ns, 0 < n ∧ n ≤ j.pos.length) ∧
    (ref ≠ [] → columns j ns ds ≠ []) ∧
    (ds = [] → ∀ d, (Side.node, ns.headD 0, d) ∈ fixKeys j.fixs → ∀ n ∈ ns, Has j (.node, n, d))

/-! ## Files -/

/-- A file with the given commands. -/
def FileOf (stod : List Char → Cdb.Out ℝ) (cmds : List (Cdb.Cmd ℝ)) (file : List Char) : Prop :=
  ∃ (liness : List (List (List Char))) (ls : List (List Char × Text.Ending)) (last : List Char),
    List.Forall₂ (Cdb.Written stod) liness cmds ∧ ((cmds.flatMap Cdb.Cmd.compList).map Cdb.Comp.name).Nodup ∧
    (∀ l ∈ ls, Text.Plain l.1) ∧ Text.Plain last ∧ Text.NoMerge ls ∧
    ls.map Prod.fst ++ (if last = [] then [] else [last]) = liness.flatten ∧ file = Text.text ls ++ last

/-- The reference curve: none, or the third column of a table, without repeated values. -/
def CurveGiven (num : String → Option ℝ) (curve : String → Cmd.In) (o : Options ℝ) (ref : List ℝ) : Prop :=
  o.refCurve = "" ∧ ref = [] ∨
  o.refCurve ≠ "" ∧ o.reaction ≠ "" ∧ ∃ (h1 h2 : String) (rows : List (String × String × String)) (trail : Bool),
    curve o.refCurve = Cmd.tableFile h1 h2 "force" rows trail ∧ rows ≠ [] ∧
    List.Forall₂ (fun (r : String × String × String) v => num r.2.2 = some v) rows ref ∧ List.IsChain (· ≠ ·) ((-1) :: ref)

end

end Nla3d.Prog
