import Verif.Calls.Model
import Verif.Solver.NonlinearProps
import Verif.Solver.TransientProps

/-!
# C113: post-processors are numbered and called as their interface says
-/

set_option linter.unusedSectionVars false

namespace Nla3d.Calls

open Nla3d.Dof Nla3d.Storage Nla3d.Solver Nla3d.TimeCtl

/-! ## Specification -/

/-- The calls one post-processor gets during a solution of `n` steps: `pre`, `process` for the steps `1..n` in order, and
`post` with the number `last`. -/
def Service (n last : Nat) : List Moment := .pre :: (List.range' 1 n).map .process ++ [.post last]

/-- The calls the post-processor with index `i` gets, in order. -/
def callsOf (i : Nat) (cs : List (Nat × Moment)) : List Moment := (cs.filter (fun c => c.1 = i)).map Prod.snd

/-- All calls: `np` post-processors, each moment for all of them in the order in which they were added, before the next
moment. -/
def InOrder (np : Nat) (ms : List Moment) (cs : List (Nat × Moment)) : Prop :=
  cs.map Prod.snd = ms.flatMap (fun m => List.replicate np m) ∧
    cs.map Prod.fst = ms.flatMap (fun _ => List.range np)

/-! ## Numbers -/

/-- What `addAll` leaves in the list: the old ones and the new ones, numbered by their position. -/
theorem addAll_spec (new : List Proc) : ∀ ps : List Proc,
    (addAll ps new).2 = (List.range' (ps.length + 1) new.length).map u16 ∧
    (addAll ps new).1.length = ps.length + new.length ∧
    (∀ i < ps.length, (addAll ps new).1[i]? = ps[i]?) ∧
    ∀ j, (addAll ps new).1[ps.length + j]? = (new[j]?).map (fun p => { p with number := some (u16 (ps.length + j + 1)) }) := by
  induction new with
  | nil => intro ps; simp [addAll]
  | cons p new ih =>
    intro ps
    obtain ⟨h1, h2, h3, h4⟩ := ih (add ps p).1
    have hl : (add ps p).1.length = ps.length + 1 := by simp [add]
    rw [hl] at h1 h2 h3 h4
    refine ⟨?_, ?_, ?_, ?_⟩
    · show u16 (ps.length + 1) :: (addAll (add ps p).1 new).2 = _
      rw [h1, List.length_cons, List.range'_succ, List.map_cons]
    · show (addAll (add ps p).1 new).1.length = _
      rw [h2, List.length_cons]; omega
    · intro i hi
      show (addAll (add ps p).1 new).1[i]? = _
      rw [h3 i (by omega)]
      simp [add, List.getElem?_append_left hi]
    · intro j
      show (addAll (add ps p).1 new).1[ps.length + j]? = _
      cases j with
      | zero =>
        rw [h3 _ (by omega)]
        simp [add]
      | succ j =>
        have := h4 j
        rw [show ps.length + 1 + j = ps.length + (j + 1) by omega] at this
        rw [this, List.getElem?_cons_succ]

/-- **C113, the numbers.** Post-processors added to a solver without any (fewer than 65536) get the numbers `1, 2, ...` in the
order of adding, which are the ones returned; `getPostProcessor(i)` gives the one with number `i + 1`, unchanged but for its
number, and any other index stops the program. -/
theorem C113_numbers (new : List Proc) (h : new.length < 65536) :
    (addAll [] new).2 = List.range' 1 new.length ∧
    (∀ i (hi : i < new.length), get (addAll [] new).1 i = .ok { new[i] with number := some (i + 1) }) ∧
    ∀ i, new.length ≤ i → get (addAll [] new).1 i = .fatal := by
  obtain ⟨h1, h2, _, h4⟩ := addAll_spec new []
  refine ⟨?_, ?_, ?_⟩
  · rw [h1]
    conv_rhs => rw [← List.map_id (List.range' 1 new.length)]
    apply List.map_congr_left
    intro k hk
    rw [List.mem_range'] at hk
    obtain ⟨i, hi, rfl⟩ := hk
    simp only [u16, id, List.length_nil]
    omega
  · intro i hi
    have := h4 i
    simp only [List.length_nil, Nat.zero_add] at this
    unfold get
    rw [this, List.getElem?_eq_getElem hi]
    have : u16 (i + 1) = i + 1 := by unfold u16; omega
    simp [this]
  · intro i hi
    unfold get
    rw [List.getElem?_eq_none (by rw [h2]; simpa using hi)]

/-- **C113, the numbers are not always different.** The `65536`th post-processor has the number 0 and the one after it the
number of the first. -/
theorem C113_numbers_violated (new : List Proc) (h : 65536 < new.length) :
    ∃ p q r, get (addAll [] new).1 65535 = .ok p ∧ get (addAll [] new).1 65536 = .ok q ∧ get (addAll [] new).1 0 = .ok r ∧
      p.number = some 0 ∧ q.number = r.number := by
  obtain ⟨_, _, _, h4⟩ := addAll_spec new []
  have key : ∀ i (hi : i < new.length), get (addAll [] new).1 i = .ok { new[i] with number := some (u16 (i + 1)) } := by
    intro i hi
    have := h4 i
    simp only [List.length_nil, Nat.zero_add] at this
    unfold get
    rw [this, List.getElem?_eq_getElem hi]
    simp
  refine ⟨_, _, _, key 65535 (by omega), key 65536 h, key 0 (by omega), rfl, rfl⟩

/-! ## Calls -/

theorem callAll_mine (ps : List Proc) (m : Moment) {i : Nat} (hi : i < ps.length) : callsOf i (callAll ps m) = [m] := by
  unfold callsOf callAll
  rw [List.filter_map, List.map_map]
  have : ∀ n, i < n → (List.range n).filter ((fun c : Nat × Moment => decide (c.1 = i)) ∘ fun j => (j, m)) = [i] := by
    intro n hn
    induction n with
    | zero => omega
    | succ n ih =>
      rw [List.range_succ, List.filter_append]
      by_cases h : i < n
      · rw [ih h]
        have : n ≠ i := by omega
        simp [this]
      · have : i = n := by omega
        subst this
        have : (List.range i).filter ((fun c : Nat × Moment => decide (c.1 = i)) ∘ fun j => (j, m)) = [] := by
          rw [List.filter_eq_nil_iff]
          intro a ha
          rw [List.mem_range] at ha
          simp only [Function.comp_apply, decide_eq_true_eq]
          omega
        rw [this]
        simp
  rw [this _ hi]
  rfl

theorem callsOf_append (i : Nat) (a b : List (Nat × Moment)) : callsOf i (a ++ b) = callsOf i a ++ callsOf i b := by
  simp [callsOf]

/-- The calls of a whole run, moment by moment. -/
theorem calls_spec (ps : List Proc) : ∀ ms : List Moment,
    (∀ i < ps.length, callsOf i (ms.flatMap (callAll ps)) = ms) ∧ InOrder ps.length ms (ms.flatMap (callAll ps)) := by
  intro ms
  induction ms with
  | nil => simp [callsOf, InOrder]
  | cons m ms ih =>
    obtain ⟨h1, h2, h3⟩ := ih
    refine ⟨?_, ?_, ?_⟩
    · intro i hi
      rw [List.flatMap_cons, callsOf_append, callAll_mine ps m hi, h1 i hi]
      rfl
    · rw [List.flatMap_cons, List.map_append, h2, List.flatMap_cons]
      congr 1
      unfold callAll
      rw [List.map_map]
      exact List.ext_getElem (by simp) (by simp)
    · rw [List.flatMap_cons, List.map_append, h3, List.flatMap_cons]
      congr 1
      unfold callAll
      rw [List.map_map]
      exact List.ext_getElem (by simp) (by simp)

theorem service_eq (ps : List Proc) (n last : Nat) :
    callAll ps .pre ++ (List.range' 1 n).flatMap (fun k => callAll ps (.process k)) ++ callAll ps (.post last) =
      (Service n last).flatMap (callAll ps) := by
  unfold Service
  simp [List.flatMap_append, List.flatMap_map]

section
variable {K E : Type} [Field K] [LinearOrder K]

/-- **C113, the linear solver.** In every linear solution that comes to its end each post-processor gets `pre`, `process(1)`
and `post(1)`, and each of these is called for all post-processors in the order of adding before the next one. -/
theorem C113_linear (ps : List Proc) {eqs : EqSolver K} {el : Elems E K} {loads fixs : List (Bc K)} {calls : List RegCall}
    {new : List (Mpc K)} {S0 : Storage K} {e : E} {cs : List (Nat × Moment)}
    (h : linearCalls ps eqs el loads fixs calls new S0 e = .ok cs) :
    (∃ r, linearSolve eqs el loads fixs calls new S0 e = .ok r) ∧
    (∀ i < ps.length, callsOf i cs = Service 1 1) ∧ InOrder ps.length (Service 1 1) cs := by
  unfold linearCalls at h
  cases hr : linearSolve eqs el loads fixs calls new S0 e with
  | ok r =>
    rw [hr, Res.ok_bind, Res.ok.injEq] at h
    have := service_eq ps 1 1
    simp only [List.range'_one, List.flatMap_cons, List.flatMap_nil, List.append_nil] at this
    rw [this] at h
    subst h
    exact ⟨⟨r, rfl⟩, calls_spec ps _⟩
  | _ => rw [hr] at h; cases h
end

section
variable {K E : Type} [Field K] [LinearOrder K] [IsStrictOrderedRing K]
variable {S0 : Storage K} {calls : List RegCall} {new : List (Mpc K)} {loads fixs : List (Bc K)} {el : Elems E K}
variable {eqs : EqSolver K}

/-- **C113, the nonlinear solver.** In every nonlinear solution of `n` load steps (fewer than 65535) that comes to its end each
post-processor gets `pre`, `process` for the load steps `1..n`, and `post`, in the order of adding. Missing: `post` gets
`n + 1` instead of `n` (`C113_last_violated`), and post-processors that are not active are called too
(`C113_active_violated`). -/
theorem C113_nonlinear_partial (ps : List Proc) (h : Problem S0 calls new loads fixs el) (he : Exact eqs) {st : Settings K}
    (hit : st.nIter < 65536) (hn : 0 < st.nSteps) (hn' : st.nSteps < 65535) {tend : K} (hend : 0 < tend) {e : E}
    {inner fuel : Nat} (hin : max 1 st.nIter ≤ inner) (hfuel : st.nSteps < fuel) {cs : List (Nat × Moment)}
    (hc : nonlinearCalls ps eqs el loads fixs st (TimeControl.fresh.setEndTime tend) calls new S0 e inner fuel =
      some (.ok cs)) :
    (∀ i < ps.length, callsOf i cs = Service st.nSteps (st.nSteps + 1)) ∧
    InOrder ps.length (Service st.nSteps (st.nSteps + 1)) cs := by
  unfold nonlinearCalls at hc
  cases hr : nonlinearSolve eqs el loads fixs st (TimeControl.fresh.setEndTime tend) calls new S0 e inner fuel with
  | none => rw [hr] at hc; cases hc
  | some r =>
    rw [hr] at hc
    cases r with
    | ok r =>
      obtain ⟨s, seen⟩ := r
      obtain ⟨h1, h2⟩ := nonlinear_ends h he hit hn hend e hin hfuel hr
      simp only [Option.map_some, Res.ok_bind, Option.some.injEq, Res.ok.injEq] at hc
      have hm : (List.range' 1 st.nSteps).map u16 = List.range' 1 st.nSteps := by
        conv_rhs => rw [← List.map_id (List.range' 1 st.nSteps)]
        apply List.map_congr_left
        intro k hk
        rw [List.mem_range'] at hk
        obtain ⟨i, hi, rfl⟩ := hk
        simp only [u16, id]
        omega
      have hl : u16 (st.nSteps + 1) = st.nSteps + 1 := by unfold u16; omega
      rw [h1, h2, hm, hl, service_eq] at hc
      subst hc
      exact calls_spec ps _
    | _ => cases hc

/-- **C113, the transient solver.** The same for every transient solution of `n` time steps. -/
theorem C113_transient_partial (ps : List Proc) (h : Problem { S0 with transient := true } calls new loads fixs el)
    (he : Exact eqs) {st : TSettings K} (ha : st.alpha ≠ 0) (hn : 0 < st.n) (hn' : st.n < 65535) (ht : st.time0 < st.time1)
    {e : E} {fuel : Nat} (hf : st.n < fuel) {cs : List (Nat × Moment)}
    (hc : transientCalls ps eqs el loads fixs st calls new S0 e fuel = some (.ok cs)) :
    (∀ i < ps.length, callsOf i cs = Service st.n (st.n + 1)) ∧ InOrder ps.length (Service st.n (st.n + 1)) cs := by
  unfold transientCalls at hc
  rcases C26_steps h he ha hn (by omega) ht e hf with ⟨hr, _⟩ | ⟨seen, hr, h1, _⟩
  · rw [hr] at hc; cases hc
  · rw [hr] at hc
    simp only [Option.map_some, Res.ok_bind, Option.some.injEq, Res.ok.injEq] at hc
    have hl : u16 (st.n + 1) = st.n + 1 := by unfold u16; omega
    have hs : seen.flatMap (fun p => callAll ps (.process p.1)) =
        (List.range' 1 st.n).flatMap (fun k => callAll ps (.process k)) := by
      rw [← h1, List.flatMap_map]
    rw [hs, hl, service_eq] at hc
    subst hc
    exact calls_spec ps _
end

/-! ## What is violated -/

/-- **C113 is violated: the last number.** The bar of three load steps: its post-processor is told that step 4 was the last
one. -/
theorem C113_last_violated : ∃ cs, nonlinearCalls [Proc.new []] Gauss.solveEquations spring [⟨2, .UX, 5⟩] [⟨1, .UX, 0⟩]
    barSettings (TimeControl.fresh.setEndTime 7) barCalls [] bar () 2 4 = some (.ok cs) ∧
    callsOf 0 cs = [.pre, .process 1, .process 2, .process 3, .post 4] ∧ callsOf 0 cs ≠ Service 3 3 := by
  obtain ⟨s, hs⟩ := bar_three
  have hc : ∃ cs, nonlinearCalls [Proc.new []] Gauss.solveEquations spring [⟨2, .UX, 5⟩] [⟨1, .UX, 0⟩]
      barSettings (TimeControl.fresh.setEndTime 7) barCalls [] bar () 2 4 = some (.ok cs) := by
    unfold nonlinearCalls
    rw [hs]
    exact ⟨_, rfl⟩
  obtain ⟨cs, hc⟩ := hc
  have := (C113_nonlinear_partial _ (bar_problem (t := false) [⟨2, .UX, 5⟩] (by decide) 0) gauss_exact (by decide) (by decide)
    (by decide) (by norm_num) (by decide) (by decide) hc).1 0 (by simp)
  refine ⟨cs, hc, this, ?_⟩
  rw [this]
  decide

/-- **C113 is violated: the active flag.** A post-processor that was switched off is called as any other one. In fact all the
calls of all solvers are the same whatever the flags are; here the linear solver. -/
theorem C113_active_violated : ∃ p cs, (Proc.new []).setActive false = .ok p ∧ p.getActive = false ∧
    linearCalls [p] Gauss.solveEquations spring [⟨2, .UX, 5⟩] [⟨1, .UX, 3⟩] barCalls [] bar () = .ok cs ∧
    callsOf 0 cs = [.pre, .process 1, .post 1] := by
  obtain ⟨_, _, S', _, _, h⟩ := bar_solved [⟨2, .UX, 5⟩] (by decide) 3
  have hc : linearCalls [Proc.new []] Gauss.solveEquations spring [⟨2, .UX, 5⟩] [⟨1, .UX, 3⟩] barCalls [] bar () =
      .ok [(0, .pre), (0, .process 1), (0, .post 1)] := by
    unfold linearCalls
    rw [h]
    rfl
  exact ⟨_, _, rfl, rfl, hc, rfl⟩

/-- What the status text is, for names short enough. -/
theorem C113_status (n : Nat) (name : List Char) (a f : Bool) (h : name.length + (toString n).toList.length ≤ 140) :
    (Proc.mk (some n) name a f).getStatus = .ok ("PostProcessor No ".toList ++ (toString n).toList ++ ": ".toList ++ name ++
      "\n\tActive - ".toList ++ word a ++ ", Failed - ".toList ++ word a) := by
  unfold Proc.getStatus
  show Res.ok _ = _
  rw [List.take_of_length_le]
  cases a <;> simp [word] at h ⊢ <;> omega

/-- Longer texts are cut: 199 characters of them are kept. -/
theorem C113_status_long (n : Nat) (name : List Char) (a f : Bool) :
    ∃ t, (Proc.mk (some n) name a f).getStatus = .ok t ∧
      t <+: "PostProcessor No ".toList ++ (toString n).toList ++ ": ".toList ++ name ++ "\n\tActive - ".toList ++ word a ++
        ", Failed - ".toList ++ word a ∧
      t.length = min 199 ("PostProcessor No ".toList ++ (toString n).toList ++ ": ".toList ++ name ++ "\n\tActive - ".toList ++ word a ++
        ", Failed - ".toList ++ word a).length :=
  ⟨_, rfl, List.take_prefix _ _, List.length_take⟩

/-- **C113 is violated: before adding.** A post-processor that was not yet added has no number: asking for it, or for the status, is
undefined. -/
theorem C113_fresh_violated (name : List Char) : (Proc.new name).num = .ub ∧ (Proc.new name).getStatus = .ub := ⟨rfl, rfl⟩

/-- **C113 is violated: the status.** The status text of an active post-processor that has not failed says that it has. -/
theorem C113_status_violated : ∃ p, (Proc.new []).setActive true = .ok p ∧ p.failed = false ∧
    ((add [] p).1.head?.map Proc.getStatus) =
      some (.ok "PostProcessor No 1: \n\tActive - true, Failed - true".toList) := by
  refine ⟨_, rfl, rfl, ?_⟩
  show some (Proc.mk (some 1) [] true false).getStatus = _
  rw [C113_status 1 [] true false (by decide)]
  decide

/-- **C113 is violated: the end.** A solver with a post-processor ends in undefined behaviour: `deletePostProcessors`, also
called by the destructor, deletes objects of derived classes through a base class without a virtual destructor. -/
theorem C113_delete_violated (p : Proc) : deleteAll (add [] p).1 = .ub := rfl

/-- Switching a post-processor on and off works as long as it has not failed (which no code sets). -/
theorem C113_set_active (p : Proc) (a : Bool) (h : p.failed = false) :
    ∃ q, p.setActive a = .ok q ∧ q.getActive = a ∧ q.number = p.number ∧ q.name = p.name ∧ q.failed = false := by
  unfold Proc.setActive
  rw [h]
  exact ⟨_, rfl, rfl, rfl, rfl, rfl⟩

/-- Two post-processors and a transient solution of two time steps. -/
example : ∃ cs, transientCalls [Proc.new [], Proc.new []] Gauss.solveEquations spring [⟨2, .UX, 5⟩] [⟨1, .UX, 3⟩]
    ⟨2, 1 / 4, 1 / 2, 0, 1, 0⟩ barCalls [] (barOf true) () 3 = some (.ok cs) ∧
    callsOf 1 cs = [.pre, .process 1, .process 2, .post 3] := by
  obtain ⟨S1, num, start, seen, _, _, h3, _⟩ := bar_moves [⟨2, .UX, 5⟩] (by decide) 3 (st := ⟨2, 1 / 4, 1 / 2, 0, 1, 0⟩)
    (by norm_num) (by norm_num) (by norm_num) (fuel := 3) (by norm_num)
  have hc : ∃ cs, transientCalls [Proc.new [], Proc.new []] Gauss.solveEquations spring [⟨2, .UX, 5⟩] [⟨1, .UX, 3⟩]
      ⟨2, 1 / 4, 1 / 2, 0, 1, 0⟩ barCalls [] (barOf true) () 3 = some (.ok cs) := by
    unfold transientCalls
    rw [h3]
    exact ⟨_, rfl⟩
  obtain ⟨cs, hc⟩ := hc
  exact ⟨cs, hc, (C113_transient_partial (S0 := barOf true) _ (bar_problem (t := true) [⟨2, .UX, 5⟩] (by decide) 3) gauss_exact
    (by norm_num) (by norm_num) (by norm_num) (by norm_num) (by norm_num) hc).1 1 (by simp)⟩

end Nla3d.Calls
