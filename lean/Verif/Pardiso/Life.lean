import Verif.Pardiso.Model

/-!
# C108: histories of calls of `PARDISO_equationSolver`
-/

namespace Nla3d.Pardiso

open Nla3d.Sparse

variable {K : Type} [DecidableEq K]

/-! ## Specification -/

/-- A compressed matrix with the structure `p` and the values `a`. -/
structure Has (p : Pattern) (B : SpMat K) (a : List K) : Prop where
  n : B.si.nRows = p.n
  ia : B.si.iofeir = p.ia
  ja : B.si.columns = p.ja
  comp : B.si.compressed = true
  vals : B.values = some a
  len : a.length = p.ja.length

/-- A history in which all matrices have the structure `p` and `substitute` gets the values of the latest factorisation (`last`
before the history). -/
inductive Proper (p : Pattern) : Option (List K) → List (Call K) → Prop where
  | nil (last) : Proper p last []
  | symmetric {last calls} : Proper p last calls → Proper p last (.symmetric true :: calls)
  | positive {last calls} (b : Bool) : Proper p last calls → Proper p last (.positive b :: calls)
  | factorize {last calls B a} : Has p B a → Proper p (some a) calls → Proper p last (.factorize B :: calls)
  | substitute {calls B a rhs} : Has p B a → rhs.length = p.n → Proper p (some a) calls →
      Proper p (some a) (.substitute B rhs :: calls)
  | solve {last calls B a rhs} : Has p B a → rhs.length = p.n → Proper p (some a) calls →
      Proper p last (.solve B rhs :: calls)

/-- The matrix type: that of the latest `setPositive` before the first matrix (`b` before the history). -/
def typeOf : Bool → List (Call K) → Int
  | _, .positive c :: calls => typeOf c calls
  | b, .symmetric _ :: calls => typeOf b calls
  | b, _ => if b then 2 else -2

/-- The systems to be solved, in order: values of the matrix, right-hand side. -/
def systems : List (Call K) → List (List K × List K)
  | [] => []
  | .substitute B rhs :: calls => (B.values.getD [], rhs) :: systems calls
  | .solve B rhs :: calls => (B.values.getD [], rhs) :: systems calls
  | _ :: calls => systems calls

/-- The library reports an error for some matrix of type `m` and structure `p`. -/
def Fails (L : Lib K) (m : Int) (p : Pattern) : Prop :=
  L.symbolic m p = false ∨ (∃ a, L.numeric m p a = false) ∨ ∃ a rhs, L.backsub m p a rhs = none

/-- The vectors are what the library delivers for the systems. -/
def Delivered (L : Lib K) (m : Int) (p : Pattern) (Xs : List (List K)) (ss : List (List K × List K)) : Prop :=
  List.Forall₂ (fun X s => L.backsub m p s.1 s.2 = some X) Xs ss

/-! ## Proofs -/

/-- The state of an object after a factorisation. -/
structure Loaded (m : Int) (p : Pattern) (a : List K) (o : Obj K) : Prop where
  nEq : o.nEq = p.n
  first : o.firstRun = false
  mtype : o.mtype = m
  handle : o.handle = .factored m p a

theorem Has.arrays {p : Pattern} {B : SpMat K} {a : List K} (h : Has p B a) : arrays p.n B = .ok (p, a) := by
  unfold Pardiso.arrays
  rw [h.vals]
  simp only [h.comp, if_true, h.ia, h.ja]

theorem factorize_first {L : Lib K} {p : Pattern} (hp : p.Legal) {o : Obj K} (h1 : o.firstRun = true)
    (h2 : o.isSymmetric = true) {B : SpMat K} {a : List K} (hB : Has p B a) :
    (o.factorize L B = .fatal ∧ Fails L (if o.isPositive then 2 else -2) p) ∨
    ∃ o', o.factorize L B = .ok o' ∧ Loaded (if o.isPositive then 2 else -2) p a o' := by
  have e1 : o.factorize L B = if L.symbolic (if o.isPositive then 2 else -2) p = true then
      (if L.numeric (if o.isPositive then 2 else -2) p a = true then
        .ok { o with handle := .factored (if o.isPositive then 2 else -2) p a, nEq := p.n, firstRun := false,
                     mtype := if o.isPositive then 2 else -2 } else .fatal) else .fatal := by
    unfold Obj.factorize Obj.initialize Lib.phase11 Lib.phase22
    simp only [h1, h2, if_true, Bool.not_true, Bool.false_eq_true, if_false, hB.n, hB.arrays, Res.ok_bind, hp, hB.len, and_self]
    by_cases hs : L.symbolic (if o.isPositive then 2 else -2) p = true
    · rw [if_pos hs, if_pos hs]
      simp only [Res.ok_bind, ne_eq, not_true, if_false, hB.arrays, and_self, if_true, hB.len]
    · rw [if_neg hs, if_neg hs]
      rfl
  rw [e1]
  by_cases hs : L.symbolic (if o.isPositive then 2 else -2) p = true
  · rw [if_pos hs]
    by_cases hn : L.numeric (if o.isPositive then 2 else -2) p a = true
    · rw [if_pos hn]
      exact Or.inr ⟨_, rfl, rfl, rfl, rfl, rfl⟩
    · rw [if_neg hn]
      exact Or.inl ⟨rfl, Or.inr (Or.inl ⟨a, by simpa using hn⟩)⟩
  · rw [if_neg hs]
    exact Or.inl ⟨rfl, Or.inl (by simpa using hs)⟩

theorem factorize_again {L : Lib K} {p : Pattern} {m : Int} {b : List K} {o : Obj K} (h : Loaded m p b o) {B : SpMat K}
    {a : List K} (hB : Has p B a) :
    (o.factorize L B = .fatal ∧ Fails L m p) ∨ ∃ o', o.factorize L B = .ok o' ∧ Loaded m p a o' := by
  have e1 : o.factorize L B = if L.numeric m p a = true then .ok { o with handle := .factored m p a, firstRun := false }
      else .fatal := by
    unfold Obj.factorize Lib.phase22
    simp only [h.first, h.nEq, h.handle, h.mtype, Bool.false_eq_true, if_false, Res.ok_bind, hB.n, ne_eq, not_true, hB.arrays,
      and_self, hB.len, if_true]
  rw [e1]
  by_cases hn : L.numeric m p a = true
  · rw [if_pos hn]
    exact Or.inr ⟨_, rfl, h.nEq, rfl, h.mtype, rfl⟩
  · rw [if_neg hn]
    exact Or.inl ⟨rfl, Or.inr (Or.inl ⟨a, by simpa using hn⟩)⟩

theorem substitute_ok {L : Lib K} {p : Pattern} {m : Int} {a : List K} {o : Obj K} (h : Loaded m p a o) {B : SpMat K}
    (hB : Has p B a) {rhs : List K} (hr : rhs.length = p.n) :
    (o.substitute L B rhs = .fatal ∧ Fails L m p) ∨ ∃ X, o.substitute L B rhs = .ok X ∧ L.backsub m p a rhs = some X := by
  have e1 : o.substitute L B rhs = match L.backsub m p a rhs with | some X => .ok X | none => .fatal := by
    unfold Obj.substitute Lib.phase33
    simp only [h.nEq, h.handle, h.mtype, hB.arrays, Res.ok_bind, and_self, hr, if_true]
    cases L.backsub m p a rhs <;> rfl
  rw [e1]
  cases hX : L.backsub m p a rhs with
  | some X => exact Or.inr ⟨X, rfl, rfl⟩
  | none => exact Or.inl ⟨rfl, Or.inr (Or.inr ⟨a, rhs, hX⟩)⟩

theorem step_factorize (L : Lib K) (o : Obj K) (acc : List (List K)) (B : SpMat K) :
    step L (o, acc) (.factorize B) = (o.factorize L B >>= fun o => .ok (o, acc)) := rfl

theorem step_substitute (L : Lib K) (o : Obj K) (acc : List (List K)) (B : SpMat K) (rhs : List K) :
    step L (o, acc) (.substitute B rhs) = (o.substitute L B rhs >>= fun X => .ok (o, X :: acc)) := rfl

theorem step_solve (L : Lib K) (o : Obj K) (acc : List (List K)) (B : SpMat K) (rhs : List K) :
    step L (o, acc) (.solve B rhs) = (o.factorize L B >>= fun o => o.substitute L B rhs >>= fun X => .ok (o, X :: acc)) := by
  unfold step Obj.solve
  simp only
  generalize o.factorize L B = f
  cases f with
  | ok o' =>
    simp only [Res.ok_bind]
    cases o'.substitute L B rhs <;> rfl
  | fatal => rfl
  | assert => rfl
  | ub => rfl

/-- What is known of the object between two calls. -/
def State (m : Int) (p : Pattern) (last : Option (List K)) (rest : List (Call K)) (o : Obj K) : Prop :=
  match last with
  | none => o.firstRun = true ∧ o.isSymmetric = true ∧ typeOf o.isPositive rest = m
  | some a => Loaded m p a o

theorem Loaded.flags {m : Int} {p : Pattern} {a : List K} {o : Obj K} (h : Loaded m p a o) (b c : Bool) :
    Loaded m p a { o with isSymmetric := b, isPositive := c } := ⟨h.nEq, h.first, h.mtype, h.handle⟩

theorem factorize_state {L : Lib K} {p : Pattern} (hp : p.Legal) {m : Int} {last : Option (List K)} {rest : List (Call K)} {o : Obj K}
    (h : State m p last rest o) (ht : typeOf o.isPositive rest = if o.isPositive then 2 else -2) {B : SpMat K}
    {a : List K} (hB : Has p B a) :
    (o.factorize L B = .fatal ∧ Fails L m p) ∨ ∃ o', o.factorize L B = .ok o' ∧ Loaded m p a o' := by
  cases last with
  | none =>
    obtain ⟨h1, h2, h3⟩ := h
    rw [ht] at h3
    have := factorize_first (L := L) hp h1 h2 hB
    rw [h3] at this
    exact this
  | some b => exact factorize_again h hB

theorem run {L : Lib K} {p : Pattern} (hp : p.Legal) {m : Int} {last : Option (List K)} {calls : List (Call K)}
    (hc : Proper p last calls) : ∀ {o : Obj K} (acc : List (List K)), State m p last calls o →
    (Res.foldlM' (step L) (o, acc) calls = .fatal ∧ Fails L m p) ∨
    ∃ o' Xs last', Res.foldlM' (step L) (o, acc) calls = .ok (o', Xs.reverse ++ acc) ∧
      Delivered L m p Xs (systems calls) ∧ State m p last' [] o' ∧ (last' = none → last = none ∧ o'.handle = o.handle) := by
  induction hc with
  | nil last => intro o acc h; exact Or.inr ⟨o, [], last, rfl, List.Forall₂.nil, h, fun e => ⟨e, rfl⟩⟩
  | @symmetric last calls _ ih =>
    intro o acc h
    have h' : State m p last calls (o.setSymmetric true) := by
      cases last with
      | none => exact ⟨h.1, rfl, h.2.2⟩
      | some a => exact Loaded.flags h true o.isPositive
    exact ih acc h'
  | @positive last calls b _ ih =>
    intro o acc h
    have h' : State m p last calls (o.setPositive b) := by
      cases last with
      | none => exact ⟨h.1, h.2.1, h.2.2⟩
      | some a => exact Loaded.flags h o.isSymmetric b
    exact ih acc h'
  | @factorize last calls B a hB _ ih =>
    intro o acc h
    rw [Res.foldlM'_cons, step_factorize]
    rcases factorize_state (L := L) hp h rfl hB with ⟨e, hf⟩ | ⟨o', e, ho⟩
    · exact Or.inl ⟨by simp only [e]; rfl, hf⟩
    · simp only [e, Res.ok_bind]
      rcases ih (o := o') acc ho with hh | ⟨o2, Xs, l2, g1, g2, g3, g4⟩
      · exact Or.inl hh
      · exact Or.inr ⟨o2, Xs, l2, g1, g2, g3, fun e => absurd (g4 e).1 (by simp)⟩
  | @substitute calls B a rhs hB hr _ ih =>
    intro o acc h
    rw [Res.foldlM'_cons, step_substitute]
    rcases substitute_ok (L := L) h hB hr with ⟨e, hf⟩ | ⟨X, e, hX⟩
    · exact Or.inl ⟨by simp only [e]; rfl, hf⟩
    · simp only [e, Res.ok_bind]
      rcases ih (o := o) (X :: acc) h with hh | ⟨o2, Xs, l2, g1, g2, g3, g4⟩
      · exact Or.inl hh
      · refine Or.inr ⟨o2, X :: Xs, l2, by rw [g1]; simp, ?_, g3, fun e => absurd (g4 e).1 (by simp)⟩
        exact List.Forall₂.cons (by rw [hB.vals]; exact hX) g2
  | @solve last calls B a rhs hB hr _ ih =>
    intro o acc h
    rw [Res.foldlM'_cons, step_solve]
    rcases factorize_state (L := L) hp h rfl hB with ⟨e, hf⟩ | ⟨o', e, ho⟩
    · exact Or.inl ⟨by simp only [e]; rfl, hf⟩
    · simp only [e, Res.ok_bind]
      rcases substitute_ok (L := L) ho hB hr with ⟨e, hf⟩ | ⟨X, e, hX⟩
      · exact Or.inl ⟨by simp only [e]; rfl, hf⟩
      · simp only [e, Res.ok_bind]
        rcases ih (o := o') (X :: acc) ho with hh | ⟨o2, Xs, l2, g1, g2, g3, g4⟩
        · exact Or.inl hh
        · refine Or.inr ⟨o2, X :: Xs, l2, by rw [g1]; simp, ?_, g3, fun e => absurd (g4 e).1 (by simp)⟩
          exact List.Forall₂.cons (by rw [hB.vals]; exact hX) g2

/-- **C108, protocol.** For every behaviour of the library, every legal structure and every proper history of calls on a value-initialised
object, followed by its destructor: no call is outside the contract of the library. The process stops only if the library reports an
error for a matrix of this type and structure; otherwise every call delivers what the library computes for its own matrix and right-hand
side, whatever was solved before. The type is fixed by the latest `setPositive` before the first matrix. -/
theorem C108_history (L : Lib K) {p : Pattern} (hp : p.Legal) {calls : List (Call K)} (hc : Proper p none calls) :
    (life L Obj.valued calls = .fatal ∧ Fails L (typeOf true calls) p) ∨
    ∃ Xs, life L Obj.valued calls = .ok Xs ∧ Delivered L (typeOf true calls) p Xs.reverse (systems calls) := by
  rcases run (L := L) hp hc (o := Obj.valued) (m := typeOf true calls) [] ⟨rfl, rfl, rfl⟩ with ⟨e, hf⟩ | ⟨o, Xs, last, e, h1, h2, h3⟩
  · exact Or.inl ⟨by unfold life; rw [e]; rfl, hf⟩
  · refine Or.inr ⟨Xs.reverse, ?_, by rw [List.reverse_reverse]; exact h1⟩
    unfold life
    rw [e]
    simp only [Res.ok_bind, List.append_nil]
    cases last with
    | none =>
      unfold Obj.destroy
      rw [(h3 rfl).2]
      rfl
    | some a =>
      unfold Obj.destroy
      rw [h2.handle]
      rfl

/-- A history without errors: the library reports none, so the process does not stop. -/
theorem C108_completes (L : Lib K) {p : Pattern} (hp : p.Legal) {calls : List (Call K)} (hc : Proper p none calls)
    (hL : ¬ Fails L (typeOf true calls) p) :
    ∃ Xs, life L Obj.valued calls = .ok Xs ∧ Xs.length = (systems calls).length := by
  rcases C108_history L hp hc with ⟨_, hf⟩ | ⟨Xs, e, h⟩
  · exact absurd hf hL
  · exact ⟨Xs, e, by have := h.length_eq; simpa using this⟩

/-! ## Where the class goes wrong -/

/-- **An object that is declared without initialiser and never used.** `pt` is indeterminate (EquationSolver.h:60) and the destructor
hands it to the library. -/
theorem C108_unused_violated (L : Lib K) : life L (Obj.declared (K := K)) [] = .ub := rfl

/-- If the first use of the same object is a matrix, there is no difference: the first factorisation clears `pt`. -/
theorem C108_declared (L : Lib K) (B : SpMat K) (calls : List (Call K)) :
    life L Obj.declared (.factorize B :: calls) = life L Obj.valued (.factorize B :: calls) ∧
    ∀ rhs, life L Obj.declared (.solve B rhs :: calls) = life L Obj.valued (.solve B rhs :: calls) := by
  have h : (Obj.declared (K := K)).factorize L B = Obj.valued.factorize L B := rfl
  unfold life
  simp only [Res.foldlM'_cons, step_factorize, step_solve, h, implies_true, and_self]

/-- **The structure is analysed once.** After a matrix of structure `p`, a matrix of the same size and any other structure is handed to
the library with the analysis of `p`: outside the contract, whatever the second structure. -/
theorem C108_structure_violated (L : Lib K) {p q : Pattern} (hp : p.Legal) {A B : SpMat K} {a b rhs rhs' : List K} (hA : Has p A a)
    (hB : Has q B b) (hn : q.n = p.n) (hpq : q ≠ p) (hr : rhs.length = p.n) (hL : ¬ Fails L 2 p) :
    life L Obj.valued [.solve A rhs, .solve B rhs'] = .ub := by
  have hc : Proper p none [.solve A rhs] := Proper.solve hA hr (Proper.nil _)
  rcases run (L := L) hp hc (o := Obj.valued) (m := 2) [] ⟨rfl, rfl, rfl⟩ with ⟨_, hf⟩ | ⟨o, Xs, last, e, h1, h2, h3⟩
  · exact absurd hf hL
  unfold life
  rw [Res.foldlM'_cons] at e ⊢
  cases hs : step L (Obj.valued, []) (.solve A rhs) with
  | ok s =>
    rw [hs] at e
    simp only [Res.ok_bind, Res.foldlM'_nil, Res.ok.injEq] at e
    subst e
    cases last with
    | none =>
      exfalso
      have h4 := h2.1
      rw [step_solve] at hs
      rcases factorize_first (L := L) (o := Obj.valued) hp rfl rfl hA with ⟨e, _⟩ | ⟨o', e, ho⟩
      · rw [e] at hs; cases hs
      · rw [e] at hs
        simp only [Res.ok_bind] at hs
        rcases substitute_ok (L := L) ho hA hr with ⟨e, _⟩ | ⟨X, e, hX⟩
        · rw [e] at hs; cases hs
        · rw [e] at hs
          simp only [Res.ok_bind, Res.ok.injEq, Prod.mk.injEq] at hs
          rw [← hs.1, ho.first] at h4
          cases h4
    | some c =>
      have h4 : Loaded 2 p c o := h2
      have hBn : o.nEq = B.si.nRows := by rw [h4.nEq, hB.n, hn]
      have harr : arrays o.nEq B = .ok (q, b) := by rw [h4.nEq, ← hn]; exact hB.arrays
      have hu : o.factorize L B = .ub := by
        unfold Obj.factorize Lib.phase22
        simp only [h4.first, Bool.false_eq_true, if_false, Res.ok_bind, ne_eq, hBn, not_true, h4.handle]
        rw [hBn] at harr
        simp only [harr, Res.ok_bind, if_neg (fun hh : _ ∧ p = q ∧ _ => hpq hh.2.1.symm)]
        rfl
      simp only [Res.ok_bind, Res.foldlM'_cons, step_solve, hu]
      rfl
  | fatal => rw [hs] at e; cases e
  | assert => rw [hs] at e; cases e
  | ub => rw [hs] at e; cases e

/-- A matrix of another size stops the process. -/
theorem C108_size_fatal (L : Lib K) {p : Pattern} {m : Int} {a : List K} {o : Obj K} (h : Loaded m p a o) {B : SpMat K}
    (hn : B.si.nRows ≠ p.n) : o.factorize L B = .fatal := by
  unfold Obj.factorize
  simp only [h.first, Bool.false_eq_true, if_false, Res.ok_bind]
  rw [if_pos (by rw [h.nEq]; exact fun e => hn e.symm)]

/-- **Back substitution before any factorisation** uses a handle that was never filled. -/
theorem C108_substitute_first_violated (L : Lib K) {p : Pattern} {B : SpMat K} {a rhs : List K} (hB : Has p B a) :
    life L Obj.valued [.substitute B rhs] = .ub := by
  unfold life
  rw [Res.foldlM'_cons, step_substitute]
  unfold Obj.substitute
  have : arrays (Obj.valued (K := K)).nEq B = .ok (⟨0, B.si.iofeir, B.si.columns⟩, a) := by
    unfold arrays
    rw [hB.vals]
    simp only [hB.comp, if_true]
    rfl
  simp only [this, Res.ok_bind]
  rfl

end Nla3d.Pardiso
