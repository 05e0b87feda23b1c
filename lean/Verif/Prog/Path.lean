import Verif.Prog.Regular
import Verif.Prog.Loop

/-!
# The load steps of the solver are load steps of the job
-/

namespace Nla3d.Prog

open Nla3d.Dof Nla3d.Storage Nla3d.Iso Nla3d.Newton Nla3d.Labels Nla3d.Material Nla3d.Hyper
open Nla3d.Solver (Bc keyOf lastFix fixKeys EqSolver Reached iteration NState Books Accepted C21_iteration base_of_prepare Base
  unknowns meanAbs comp seg reached_inv Succeeds)
open Nla3d.Main (Job)
open Nla3d.Cmd (Options)

noncomputable section

variable {o : Options ℝ} {ref : List ℝ} {j : Job ℝ} {els : List El} {num : Key → Nat} {W : ℝ → ℝ → ℝ} {k : ℝ} {eqs : EqSolver ℝ}
  {S1 : Storage ℝ}

/-- The sum over a section of a vector. -/
theorem sum_seg (d : List ℝ) (a n : Nat) (h : a + n ≤ d.length) :
    ((seg d a n).map (fun x => |x|)).sum = ∑ i ∈ Finset.Icc (a + 1) (a + n), |comp d i| := by
  induction n with
  | zero => simp [seg]
  | succ n ih =>
    have h1 : seg d a (n + 1) = seg d a n ++ [comp d (a + n + 1)] := by
      unfold seg comp
      rw [List.take_add_one]
      congr 1
      rw [List.getElem?_drop, Nat.add_sub_cancel, List.getD_eq_getElem?_getD, List.getElem?_eq_getElem (by omega)]
      rfl
    rw [h1, List.map_append, List.sum_append, ih (by omega), ← Nat.add_assoc,
      Finset.sum_Icc_succ_top (by omega)]
    simp

/-- The unknowns that are not fixed. -/
def freeOf (j : Job ℝ) : Finset Key := (regKeys (regsOf j)).toFinset.filter (fun f => f ∉ fixKeys j.fixs)

theorem mem_freeOf (f : Key) : f ∈ freeOf j ↔ Has j f ∧ f ∉ fixKeys j.fixs := by
  unfold freeOf
  rw [Finset.mem_filter, List.mem_toFinset]
  exact and_congr_left fun _ => regKeys_has j f

theorem small_free (x y : Vals) : Small j x y ↔ ∑ f ∈ freeOf j, |y f - x f| < 1 / 10 ^ 6 * (freeOf j).card := by
  constructor
  · rintro ⟨free, h1, h2⟩
    have : free = freeOf j := by
      ext f
      rw [h1, mem_freeOf]
    rwa [this] at h2
  · intro h
    exact ⟨freeOf j, mem_freeOf, h⟩

theorem free_bij {S0 : Storage ℝ} {new : List (Mpc ℝ)} {A : Side → Spec} (hb : Base S0 S1 (regsOf j) new j.fixs num A) :
    Set.BijOn num (freeOf j) (Finset.Icc (S1.nConstr + 1) S1.nDofs) := by
  refine ⟨?_, ?_, ?_⟩
  · intro f hf
    obtain ⟨h1, h2⟩ := (mem_freeOf f).mp hf
    have := hb.freeRange ((regKeys_has j f).mpr h1) h2
    rw [Finset.mem_coe, Finset.mem_Icc]
    omega
  · intro f hf g hg hfg
    exact hb.inj f ((regKeys_has j f).mpr ((mem_freeOf f).mp hf).1) g ((regKeys_has j g).mpr ((mem_freeOf g).mp hg).1) hfg
  · intro i hi
    rw [Finset.mem_coe, Finset.mem_Icc] at hi
    obtain ⟨f, hf, he⟩ := hb.prep.ready.unk.surjOn (Set.mem_Ico.mpr ⟨by omega, by omega⟩ :
      i ∈ Set.Ico (S1.nConstr + 1) (S1.nDofs + 1))
    refine ⟨f, (mem_freeOf f).mpr ⟨(regKeys_has j f).mp hf.1, hf.2⟩, ?_⟩
    rw [hb.agree f hf.1, he]

theorem free_card {S0 : Storage ℝ} {new : List (Mpc ℝ)} {A : Side → Spec} (hb : Base S0 S1 (regsOf j) new j.fixs num A) :
    (freeOf j).card = S1.nUnknown := by
  have h1 := free_bij hb
  have h2 : (freeOf j).card = (Finset.Icc (S1.nConstr + 1) S1.nDofs).card :=
    Finset.card_nbij num (fun f hf => Finset.mem_coe.mp (h1.mapsTo (Finset.mem_coe.mpr hf))) h1.injOn h1.surjOn
  have h3 := hb.prep.ready.nUnknown
  rw [h2, Nat.card_Icc]
  omega

theorem free_pos (h : Runnable o ref j) : 0 < (freeOf j).card := by
  refine Finset.card_pos.mpr ⟨(.elem, 1, .HYDRO_PRESSURE), (mem_freeOf _).mpr ⟨first_pressure h, ?_⟩⟩
  intro hf
  obtain ⟨b, _, hb⟩ := List.mem_map.mp hf
  simp [keyOf] at hb

/-- The mean increment of the unknowns. -/
theorem mean_eq {S0 : Storage ℝ} {new : List (Mpc ℝ)} {A : Side → Spec} (hb : Base S0 S1 (regsOf j) new j.fixs num A)
    {s s' : NState (Group els) ℝ} (hlen : s'.deltaU.length = S1.nDofs + S1.nMpc)
    (hd : ∀ f, Has j f → valuesOf j num s' f - valuesOf j num s f = comp s'.deltaU (num f)) :
    meanAbs (unknowns S1 s'.deltaU) = (∑ f ∈ freeOf j, |valuesOf j num s' f - valuesOf j num s f|) / (freeOf j).card := by
  have hu := hb.prep.ready.nUnknown
  unfold meanAbs unknowns
  rw [sum_seg _ _ _ (by omega), free_card hb, hu]
  congr 1
  · have h1 := free_bij hb
    refine (Finset.sum_nbij num (fun f hf => Finset.mem_coe.mp (h1.mapsTo (Finset.mem_coe.mpr hf))) h1.injOn h1.surjOn
      (fun f hf => ?_)).symm
    rw [hd f ((mem_freeOf f).mp hf).1]
  · congr 1
    simp [seg, hlen]
    omega

section
variable (h : Runnable o ref j) (ha : AllMade j.type W k j.pos 1 j.elems els) (he : Solver.Exact eqs)
  (hp : (storeOf j).prepare (regsOf j) (newOf j) (fixKeys j.fixs) = .ok S1)
  (hn : ∀ f ∈ regKeys (regsOf j), S1.eqNumber f.1 f.2.1 f.2.2 = .ok (num f))

include h ha he hp hn

/-- What an iteration does to time and values. -/
theorem iteration_facts {s s' : NState (Group els) ℝ}
    (hs : Reached eqs (hyper els (updOf j els)) j.loads j.fixs S1 (Group.given els) s)
    (hit : iteration eqs (hyper els (updOf j els)) j.loads j.fixs s = .ok s') :
    s'.tc.normalized = s.tc.normalized ∧ s'.deltaU.length = S1.nDofs + S1.nMpc ∧
      ∀ f, Has j f → valuesOf j num s' f - valuesOf j num s f = comp s'.deltaU (num f) := by
  have hm := job_model h ha
  have hprob := hyper_problem hm
  obtain ⟨A, hb⟩ := base_of_prepare hm.legal hp hn
  obtain ⟨hbk, hor⟩ := C21_iteration hprob he hp hn hs
  rcases hor with ⟨hf, _⟩ | ⟨s'', g1, hbk', hsv⟩
  · rw [hit] at hf; simp at hf
  rw [hit, Res.ok.injEq] at g1
  subst g1
  refine ⟨by rw [hsv.tc]; rfl, hbk'.sizes.2.2, fun f hf => ?_⟩
  have hr := hb.range ((regKeys_has j f).mpr hf)
  have e1 : valuesOf j num s f = comp s.S.vecU (num f) := valsAt_has hf
  have e2 : valuesOf j num s' f = comp s'.S.vecU (num f) := valsAt_has hf
  rw [e1, e2, hbk'.sums _ hr.1 hr.2, hbk.sums _ hr.1 hr.2, hsv.trace, Solver.total_append]
  ring

theorem accepted_iff {s s' : NState (Group els) ℝ}
    (hs : Reached eqs (hyper els (updOf j els)) j.loads j.fixs S1 (Group.given els) s)
    (hit : iteration eqs (hyper els (updOf j els)) j.loads j.fixs s = .ok s') :
    Accepted (1 / 1000) S1 s'.deltaU ↔ Small j (valuesOf j num s) (valuesOf j num s') := by
  obtain ⟨A, hb⟩ := base_of_prepare (job_legal h) hp hn
  obtain ⟨_, h2, h3⟩ := iteration_facts h ha he hp hn hs hit
  have hpos : (0 : ℝ) < (freeOf j).card := by exact_mod_cast free_pos h
  rw [small_free]
  unfold Accepted
  rw [mean_eq hb h2 h3, div_lt_iff₀ (by norm_num), div_lt_iff₀ hpos]
  norm_num

theorem newton_run (hdet : ∀ n a, Succeeds eqs n a → (Matrix.of fun (i j : Fin n) => a i j).det ≠ 0) {s : NState (Group els) ℝ} {l : List (NState (Group els) ℝ)}
    (hs : Reached eqs (hyper els (updOf j els)) j.loads j.fixs S1 (Group.given els) s)
    (hl : Iters eqs (hyper els (updOf j els)) j.loads j.fixs (settingsOf j) S1 s l) :
    NewtonRun W k j s.tc.normalized (valuesOf j num s) (l.map (fun s => (valuesOf j num s, reactionsOf j num s))) := by
  induction hl with
  | last h1 h2 => exact .last (newton_step h ha he hp hn hs h1 (regular_of h ha he hp hn hs h1 hdet)) ((accepted_iff h ha he hp hn hs h1).mp h2)
  | more h1 h2 _ ih =>
    have h3 := ih (.iter hs h1)
    rw [(iteration_facts h ha he hp hn hs h1).1] at h3
    exact .more (newton_step h ha he hp hn hs h1 (regular_of h ha he hp hn hs h1 hdet)) (fun h4 => h2 ((accepted_iff h ha he hp hn hs h1).mpr h4)) h3

theorem load_path (hdet : ∀ n a, Succeeds eqs n a → (Matrix.of fun (i j : Fin n) => a i j).det ≠ 0) {i : Nat} {s : NState (Group els) ℝ} {L : List (NState (Group els) ℝ)}
    (hs : Reached eqs (hyper els (updOf j els)) j.loads j.fixs S1 (Group.given els) s)
    (hL : ∀ s ∈ L, Reached eqs (hyper els (updOf j els)) j.loads j.fixs S1 (Group.given els) s)
    (hl : Steps eqs (hyper els (updOf j els)) j.loads j.fixs (settingsOf j) S1 j.loadsteps i s L) :
    LoadPath W k j i (valuesOf j num s) (L.map (fun s => (valuesOf j num s, reactionsOf j num s))) := by
  induction hl with
  | done => exact .done
  | @step i s s' tc l L ht hit hlen hlast _ ih =>
    have hr := newton_run h ha he hp hn hdet (.time tc hs) hit
    rw [show ({ s with tc := tc } : NState (Group els) ℝ).tc.normalized = ((i : ℝ) + 1) / j.loadsteps from ht] at hr
    refine .step hr (by rw [List.length_map]; exact hlen) (by rw [List.getLast?_map, hlast]; rfl) ?_
    exact ih (hL s' (by simp)) (fun x hx => hL x (by simp [hx]))

end

end

end Nla3d.Prog
