import Verif.DMat.Model
import Mathlib.Tactic.Ring
import Mathlib.Tactic.NormNum

/-!
# C117: a `dMat` is a matrix of its own
-/

namespace Nla3d.DMat

variable {K : Type} [Zero K]

/-! ## Specification -/

/-- A matrix. -/
structure Val (K : Type) where
  m : Nat
  n : Nat
  f : Nat → Nat → K

/-- The matrices of a program; `none` are those that no longer exist. -/
abbrev Vals (K : Type) := List (Option (Val K))

/-- A matrix that exists. -/
def Vals.at (s : Vals K) (d : Nat) : Res (Val K) :=
  match s[d]? with
  | some (some v) => .ok v
  | _ => .ub

/-- What a statement means. `ub` are mistakes of the program: matrices that do not exist, 2^31 elements or more, too few arguments. -/
def Vals.step (s : Vals K) : Cmd K → Res (Vals K)
  | .new m n => if m ≠ 0 ∧ n ≠ 0 then (if m * n < 2 ^ 31 then .ok (s ++ [some ⟨m, n, fun _ _ => 0⟩]) else .ub)
      else .ok (s ++ [some ⟨0, 0, fun _ _ => 0⟩])
  | .copy k => do
    let v ← s.at k
    .ok (s ++ [some v])
  | .assign d k => do
    let v ← s.at k
    let _ ← s.at d
    .ok (s.set d (some v))
  | .resize d m n => do
    let _ ← s.at d
    if m * n < 2 ^ 31 then .ok (s.set d (some ⟨m, n, fun _ _ => 0⟩)) else .ub
  | .set d i j x => do
    let v ← s.at d
    if i < v.m ∧ j < v.n then .ok (s.set d (some { v with f := fun i' j' => if i' = i ∧ j' = j then x else v.f i' j' })) else .assert
  | .fill d args => do
    let v ← s.at d
    if 0 < v.m * v.n ∧ v.m * v.n ≤ args.length then
      .ok (s.set d (some { v with f := fun i j => args.getD (i * v.n + j) 0 })) else .ub
  | .destroy d => do
    let _ ← s.at d
    .ok (s.set d none)

/-- A program. -/
def Vals.run (s : Vals K) (cs : List (Cmd K)) : Res (Vals K) := Res.foldlM' Vals.step s cs

/-- A matrix is not assigned to itself, and only matrices of less than 65536 elements are filled. -/
def Plain (s : Vals K) : Cmd K → Prop
  | .assign d k => d ≠ k
  | .fill d _ => ∀ v, s.at d = .ok v → v.m * v.n < 65536
  | _ => True

/-- This holds for every statement of a program. -/
def PlainRun (s : Vals K) : List (Cmd K) → Prop
  | [] => True
  | c :: cs => Plain s c ∧ ∀ s', s.step c = .ok s' → PlainRun s' cs

/-- The elements are stored row by row. -/
def Stored (l : List K) (v : Val K) : Prop := l.length = v.m * v.n ∧ ∀ i j, i < v.m → j < v.n → l[i * v.n + j]? = some (v.f i j)

/-- An object holds a matrix. -/
structure Holds (heap : List (Option (List K))) (o : Obj) (v : Val K) : Prop where
  dimM : o.dimM = v.m
  dimN : o.dimN = v.n
  M : o.M = v.m
  N : o.N = v.n
  ptr : o.ptr = o.data
  small : v.m * v.n < 2 ^ 31
  data : (o.data = none ∧ v.m = 0 ∧ v.n = 0) ∨ ∃ b l, o.data = some b ∧ heap[b]? = some (some l) ∧ Stored l v

/-- The objects hold the matrices, each in a block of its own, and there are no other blocks. -/
structure Rep (s : Vals K) (mem : Mem K) : Prop where
  length : s.length = mem.objs.length
  gone : ∀ d : Nat, s[d]? = some none → mem.objs[d]? = some none
  live : ∀ (d : Nat) v, s[d]? = some (some v) → ∃ o, mem.objs[d]? = some (some o) ∧ Holds mem.heap o v
  own : ∀ (d d' : Nat) o o' b, mem.objs[d]? = some (some o) → mem.objs[d']? = some (some o') → o.data = some b → o'.data = some b → d = d'
  noLeak : ∀ (b : Nat) l, mem.heap[b]? = some (some l) → ∃ (d : Nat) (o : Obj), mem.objs[d]? = some (some o) ∧ o.data = some b

/-! ## Steps -/

theorem at_ok {s : Vals K} {d : Nat} {v : Val K} : s.at d = .ok v ↔ s[d]? = some (some v) := by
  unfold Vals.at
  split
  · rename_i h; rw [h]; simp
  · rename_i h; simp; intro he; exact absurd he (h v)

theorem at_cases (s : Vals K) (d : Nat) : (∃ v, s[d]? = some (some v) ∧ s.at d = .ok v) ∨ (s.at d = .ub ∧ ∀ v, s[d]? ≠ some (some v)) := by
  unfold Vals.at
  split
  · rename_i v h; exact Or.inl ⟨v, h, rfl⟩
  · rename_i h; exact Or.inr ⟨rfl, h⟩

theorem Rep.obj_ok {s : Vals K} {mem : Mem K} (h : Rep s mem) {d : Nat} {v : Val K} (hd : s[d]? = some (some v)) :
    ∃ o, mem.obj d = .ok o ∧ mem.objs[d]? = some (some o) ∧ Holds mem.heap o v := by
  obtain ⟨o, ho, hh⟩ := h.live d v hd
  refine ⟨o, ?_, ho, hh⟩
  unfold Mem.obj
  rw [ho]

theorem Rep.obj_ub {s : Vals K} {mem : Mem K} (h : Rep s mem) {d : Nat} (hd : ∀ v, s[d]? ≠ some (some v)) : mem.obj d = .ub := by
  unfold Mem.obj
  split
  · rename_i o ho
    exfalso
    have hlt : d < mem.objs.length := by
      rw [List.getElem?_eq_some_iff] at ho; exact ho.1
    rw [← h.length] at hlt
    cases hs : s[d] with
    | none =>
      have := h.gone d (by rw [List.getElem?_eq_getElem hlt, hs])
      rw [this] at ho; simp at ho
    | some v => exact hd v (by rw [List.getElem?_eq_getElem hlt, hs])
  · rfl

theorem lt_of_some {α : Type} {l : List α} {d : Nat} {x : α} (h : l[d]? = some x) : d < l.length :=
  (List.getElem?_eq_some_iff.mp h).1

/-- Writing to the block of an object. -/
theorem Rep.write {s : Vals K} {mem : Mem K} (h : Rep s mem) {d : Nat} {v v' : Val K} {o o' : Obj} {b : Nat} {l : List K}
    (hd : s[d]? = some (some v)) (ho : mem.objs[d]? = some (some o)) (hb : o.data = some b) (hh : Holds mem.heap o v)
    (ho' : o' = { o with row := o'.row }) (hm : v'.m = v.m) (hn : v'.n = v.n) (hl : Stored l v') :
    Rep (s.set d (some v')) ⟨mem.heap.set b (some l), mem.objs.set d (some o')⟩ := by
  have hbl : b < mem.heap.length := by
    rcases hh.data with ⟨h0, _⟩ | ⟨b', l', h1, h2, _⟩
    · rw [h0] at hb; simp at hb
    · rw [h1] at hb; simp at hb; subst hb; exact lt_of_some h2
  have hdl := lt_of_some ho
  have hdata : o'.data = some b := by rw [ho', hb]
  refine ⟨by simp [h.length], ?_, ?_, ?_, ?_⟩
  · intro e he
    rw [List.getElem?_set] at he ⊢
    by_cases hde : d = e
    · rw [if_pos hde] at he
      split at he <;> simp at he
    · rw [if_neg hde] at he ⊢
      exact h.gone e he
  · intro e w he
    show ∃ o, (mem.objs.set d (some o'))[e]? = _ ∧ _
    rw [List.getElem?_set] at he ⊢
    by_cases hde : d = e
    · rw [if_pos hde] at he ⊢
      rw [if_pos (by rw [h.length]; exact hdl)] at he
      rw [if_pos hdl]
      simp only [Option.some.injEq] at he
      subst he
      refine ⟨o', rfl, ?_⟩
      have e1 : o'.dimM = o.dimM := by rw [ho']
      have e2 : o'.dimN = o.dimN := by rw [ho']
      have e3 : o'.M = o.M := by rw [ho']
      have e4 : o'.N = o.N := by rw [ho']
      have e5 : o'.ptr = o.ptr := by rw [ho']
      refine ⟨by rw [e1, hh.dimM, hm], by rw [e2, hh.dimN, hn], by rw [e3, hh.M, hm], by rw [e4, hh.N, hn], ?_, ?_, Or.inr ⟨b, l, hdata, ?_, hl⟩⟩
      · rw [e5, hh.ptr, hb, hdata]
      · rw [hm, hn]; exact hh.small
      · rw [List.getElem?_set_self hbl]
    · rw [if_neg hde] at he ⊢
      obtain ⟨oe, h1, h2⟩ := h.live e w he
      refine ⟨oe, h1, h2.dimM, h2.dimN, h2.M, h2.N, h2.ptr, h2.small, ?_⟩
      rcases h2.data with h3 | ⟨b', l', h3, h4, h5⟩
      · exact Or.inl h3
      · right
        refine ⟨b', l', h3, ?_, h5⟩
        have : b ≠ b' := by
          rintro rfl
          exact hde (h.own d e o oe b ho h1 hb h3)
        rw [List.getElem?_set_ne this]
        exact h4
  · intro e e' x x' c h1 h2 h3 h4
    have key : ∀ (e : Nat) x, (mem.objs.set d (some o'))[e]? = some (some x) → x.data = some c →
        ∃ y, mem.objs[e]? = some (some y) ∧ y.data = some c := by
      intro e x hx hc
      rw [List.getElem?_set] at hx
      by_cases hde : d = e
      · rw [if_pos hde, if_pos hdl] at hx
        simp only [Option.some.injEq] at hx
        subst hx
        subst hde
        exact ⟨o, ho, by rw [hb, ← hdata, hc]⟩
      · rw [if_neg hde] at hx
        exact ⟨x, hx, hc⟩
    obtain ⟨y, k1, k2⟩ := key e x h1 h3
    obtain ⟨y', k3, k4⟩ := key e' x' h2 h4
    exact h.own e e' y y' c k1 k3 k2 k4
  · intro c lc hc
    show ∃ (e : Nat) (x : Obj), (mem.objs.set d (some o'))[e]? = _ ∧ _
    by_cases hbc : b = c
    · subst hbc
      exact ⟨d, o', by rw [List.getElem?_set_self hdl], hdata⟩
    · replace hc : mem.heap[c]? = some (some lc) := by rw [← List.getElem?_set_ne hbc]; exact hc
      obtain ⟨e, x, h1, h2⟩ := h.noLeak c lc hc
      refine ⟨e, x, ?_, h2⟩
      rw [List.getElem?_set_ne]
      · exact h1
      · rintro rfl
        rw [ho] at h1
        simp only [Option.some.injEq] at h1
        subst h1
        rw [hb] at h2
        simp at h2
        exact hbc h2

theorem block_ok {heap : List (Option (List K))} {b : Nat} {l : List K} (h : heap[b]? = some (some l)) : block heap b = .ok l := by
  unfold block
  rw [h]

/-- Freeing the block of an object, with the object gone. -/
theorem Rep.free {s : Vals K} {mem : Mem K} (h : Rep s mem) {d : Nat} {v : Val K} {o : Obj}
    (hd : s[d]? = some (some v)) (ho : mem.objs[d]? = some (some o)) (hh : Holds mem.heap o v) :
    ∃ heap, release mem.heap o.data = .ok heap ∧ Rep (s.set d none) ⟨heap, mem.objs.set d none⟩ := by
  have hdl := lt_of_some ho
  have general : ∀ heap : List (Option (List K)), (∀ c lc, heap[c]? = some (some lc) → o.data ≠ some c ∧ mem.heap[c]? = some (some lc)) →
      (∀ c lc, o.data ≠ some c → mem.heap[c]? = some (some lc) → heap[c]? = some (some lc)) →
      Rep (s.set d none) ⟨heap, mem.objs.set d none⟩ := by
    intro heap hin hout
    have key : ∀ (e : Nat) x, (mem.objs.set d none)[e]? = some (some x) → d ≠ e ∧ mem.objs[e]? = some (some x) := by
      intro e x hx
      rw [List.getElem?_set] at hx
      by_cases hde : d = e
      · rw [if_pos hde, if_pos hdl] at hx
        simp at hx
      · rw [if_neg hde] at hx
        exact ⟨hde, hx⟩
    refine ⟨by simp [h.length], ?_, ?_, ?_, ?_⟩
    · intro e he
      show (mem.objs.set d none)[e]? = _
      rw [List.getElem?_set] at he ⊢
      by_cases hde : d = e
      · rw [if_pos hde, if_pos hdl]
      · rw [if_neg hde] at he ⊢
        exact h.gone e he
    · intro e w he
      show ∃ o, (mem.objs.set d none)[e]? = _ ∧ _
      rw [List.getElem?_set] at he ⊢
      by_cases hde : d = e
      · rw [if_pos hde] at he
        split at he <;> simp at he
      · rw [if_neg hde] at he ⊢
        obtain ⟨oe, h1, h2⟩ := h.live e w he
        refine ⟨oe, h1, h2.dimM, h2.dimN, h2.M, h2.N, h2.ptr, h2.small, ?_⟩
        rcases h2.data with h3 | ⟨b', l', h3, h4, h5⟩
        · exact Or.inl h3
        · exact Or.inr ⟨b', l', h3, hout b' l' (fun hc => hde (h.own d e o oe b' ho h1 hc h3)) h4, h5⟩
    · intro e e' x x' c h1 h2 h3 h4
      exact h.own e e' x x' c (key e x h1).2 (key e' x' h2).2 h3 h4
    · intro c lc hc
      obtain ⟨h1, h2⟩ := hin c lc hc
      obtain ⟨e, x, h3, h4⟩ := h.noLeak c lc h2
      refine ⟨e, x, ?_, h4⟩
      show (mem.objs.set d none)[e]? = _
      rw [List.getElem?_set_ne]
      · exact h3
      · rintro rfl
        rw [ho] at h3
        simp only [Option.some.injEq] at h3
        subst h3
        exact h1 h4
  rcases hh.data with ⟨h0, _⟩ | ⟨b, l, h1, h2, _⟩
  · rw [h0]
    exact ⟨_, rfl, general _ (fun c lc hc => ⟨by rw [h0]; simp, hc⟩) (fun c lc _ hc => hc)⟩
  · rw [h1]
    refine ⟨mem.heap.set b none, by simp only [release, block_ok h2, Res.ok_bind], general _ ?_ ?_⟩
    · intro c lc hc
      by_cases hbc : b = c
      · subst hbc
        rw [List.getElem?_set_self (lt_of_some h2)] at hc
        simp at hc
      · rw [List.getElem?_set_ne hbc] at hc
        exact ⟨by rw [h1]; simpa using hbc, hc⟩
    · intro c lc hne hc
      rw [List.getElem?_set_ne]
      · exact hc
      · rintro rfl
        exact hne h1

/-- A new zero matrix at the place of an object that is gone. -/
theorem Rep.alloc {s : Vals K} {mem : Mem K} (h : Rep s mem) {d : Nat} (hd : s[d]? = some none) {m n row : Nat} (hs : m * n < 2 ^ 31) :
    Rep (s.set d (some ⟨m, n, fun _ _ => 0⟩)) ⟨mem.heap ++ [some (List.replicate (m * n) 0)],
      mem.objs.set d (some ⟨m, n, some mem.heap.length, some mem.heap.length, m, n, row⟩)⟩ := by
  have hdl : d < mem.objs.length := by rw [← h.length]; exact lt_of_some hd
  have hdg := h.gone d hd
  have old : ∀ (c : Nat) lc, mem.heap[c]? = some (some lc) → (mem.heap ++ [some (List.replicate (m * n) (0 : K))])[c]? = some (some lc) := by
    intro c lc hc
    rw [List.getElem?_append_left (lt_of_some hc)]
    exact hc
  have key : ∀ (e : Nat) x, (mem.objs.set d (some ⟨m, n, some mem.heap.length, some mem.heap.length, m, n, row⟩))[e]? = some (some x) →
      (d = e ∧ x.data = some mem.heap.length) ∨ (d ≠ e ∧ mem.objs[e]? = some (some x)) := by
    intro e x hx
    rw [List.getElem?_set] at hx
    by_cases hde : d = e
    · rw [if_pos hde, if_pos hdl] at hx
      simp only [Option.some.injEq] at hx
      subst hx
      exact Or.inl ⟨hde, rfl⟩
    · rw [if_neg hde] at hx
      exact Or.inr ⟨hde, hx⟩
  have small : ∀ (e : Nat) x c, mem.objs[e]? = some (some x) → x.data = some c → c < mem.heap.length := by
    intro e x c hx hc
    have hel : e < s.length := by rw [h.length]; exact lt_of_some hx
    cases hs : s[e] with
    | none =>
      have := h.gone e (by rw [List.getElem?_eq_getElem hel, hs])
      rw [this] at hx; simp at hx
    | some w =>
      obtain ⟨y, h1, h2⟩ := h.live e w (by rw [List.getElem?_eq_getElem hel, hs])
      rw [hx] at h1
      simp only [Option.some.injEq] at h1
      subst h1
      rcases h2.data with ⟨h3, _⟩ | ⟨b', l', h3, h4, _⟩
      · rw [h3] at hc; simp at hc
      · rw [h3] at hc; simp at hc; subst hc; exact lt_of_some h4
  refine ⟨by simp [h.length], ?_, ?_, ?_, ?_⟩
  · intro e he
    rw [List.getElem?_set] at he ⊢
    by_cases hde : d = e
    · rw [if_pos hde] at he
      split at he <;> simp at he
    · rw [if_neg hde] at he ⊢
      exact h.gone e he
  · intro e w he
    show ∃ o, (mem.objs.set d _)[e]? = _ ∧ _
    rw [List.getElem?_set] at he ⊢
    by_cases hde : d = e
    · rw [if_pos hde] at he ⊢
      rw [if_pos (by rw [h.length]; exact hdl)] at he
      rw [if_pos hdl]
      simp only [Option.some.injEq] at he
      subst he
      refine ⟨_, rfl, rfl, rfl, rfl, rfl, rfl, hs, Or.inr ⟨_, List.replicate (m * n) 0, rfl, ?_, List.length_replicate, ?_⟩⟩
      · rw [List.getElem?_append_right (le_refl _)]; simp
      · intro i j hi hj
        have : i * n + j < m * n := by
          calc i * n + j < i * n + n := by simpa using hj
            _ = (i + 1) * n := by ring
            _ ≤ m * n := Nat.mul_le_mul_right _ hi
        rw [List.getElem?_replicate, if_pos this]
    · rw [if_neg hde] at he ⊢
      obtain ⟨oe, h1, h2⟩ := h.live e w he
      refine ⟨oe, h1, h2.dimM, h2.dimN, h2.M, h2.N, h2.ptr, h2.small, ?_⟩
      rcases h2.data with h3 | ⟨b', l', h3, h4, h5⟩
      · exact Or.inl h3
      · exact Or.inr ⟨b', l', h3, old _ _ h4, h5⟩
  · intro e e' x x' c h1 h2 h3 h4
    rcases key e x h1 with ⟨k1, k2⟩ | ⟨k1, k2⟩ <;> rcases key e' x' h2 with ⟨k3, k4⟩ | ⟨k3, k4⟩
    · omega
    · exfalso
      have := small e' x' c k4 h4
      rw [k2] at h3; simp at h3; omega
    · exfalso
      have := small e x c k2 h3
      rw [k4] at h4; simp at h4; omega
    · exact h.own e e' x x' c k2 k4 h3 h4
  · intro c lc hc
    show ∃ (e : Nat) (x : Obj), (mem.objs.set d _)[e]? = _ ∧ _
    by_cases hcl : c < mem.heap.length
    · replace hc : mem.heap[c]? = some (some lc) := by rw [← List.getElem?_append_left hcl]; exact hc
      obtain ⟨e, x, h1, h2⟩ := h.noLeak c lc hc
      refine ⟨e, x, ?_, h2⟩
      rw [List.getElem?_set_ne]
      · exact h1
      · rintro rfl
        rw [hdg] at h1
        simp at h1
    · have hce : c = mem.heap.length := by
        have := lt_of_some hc
        simp at this
        omega
      subst hce
      exact ⟨d, _, by rw [List.getElem?_set_self hdl], rfl⟩

theorem Rep.grow {s : Vals K} {mem : Mem K} (h : Rep s mem) : Rep (s ++ [none]) ⟨mem.heap, mem.objs ++ [none]⟩ := by
  have key : ∀ (e : Nat) x, (mem.objs ++ [none])[e]? = some (some x) → mem.objs[e]? = some (some x) := by
    intro e x hx
    by_cases he : e < mem.objs.length
    · rw [List.getElem?_append_left he] at hx; exact hx
    · rw [List.getElem?_append_right (by omega)] at hx
      have : e - mem.objs.length = 0 := by
        have := lt_of_some hx
        simp at this
        omega
      rw [this] at hx; simp at hx
  refine ⟨by simp [h.length], ?_, ?_, ?_, ?_⟩
  · intro d hd
    show (mem.objs ++ [none])[d]? = _
    by_cases hl : d < s.length
    · rw [List.getElem?_append_left hl] at hd
      rw [List.getElem?_append_left (by rw [← h.length]; exact hl)]
      exact h.gone d hd
    · have : d = mem.objs.length := by
        have := lt_of_some hd
        have := h.length
        simp at *
        omega
      subst this
      simp
  · intro d v hd
    show ∃ o, (mem.objs ++ [none])[d]? = _ ∧ _
    have hl : d < s.length := by
      by_contra hl
      have : d = s.length := by
        have := lt_of_some hd
        simp at this
        omega
      subst this
      simp at hd
    rw [List.getElem?_append_left hl] at hd
    rw [List.getElem?_append_left (by rw [← h.length]; exact hl)]
    exact h.live d v hd
  · intro d d' o o' b h1 h2
    exact h.own d d' o o' b (key d o h1) (key d' o' h2)
  · intro b l hb
    obtain ⟨d, o, h1, h2⟩ := h.noLeak b l hb
    refine ⟨d, o, ?_, h2⟩
    show (mem.objs ++ [none])[d]? = _
    rw [List.getElem?_append_left (lt_of_some h1)]
    exact h1

/-- An empty matrix at the place of an object that is gone. -/
theorem Rep.null {s : Vals K} {mem : Mem K} (h : Rep s mem) {d : Nat} (hd : s[d]? = some none) :
    Rep (s.set d (some ⟨0, 0, fun _ _ => 0⟩)) ⟨mem.heap, mem.objs.set d (some Obj.null)⟩ := by
  have hdl : d < mem.objs.length := by rw [← h.length]; exact lt_of_some hd
  have hdg := h.gone d hd
  have key : ∀ (e : Nat) x c, (mem.objs.set d (some Obj.null))[e]? = some (some x) → x.data = some c → mem.objs[e]? = some (some x) := by
    intro e x c hx hc
    rw [List.getElem?_set] at hx
    by_cases hde : d = e
    · rw [if_pos hde, if_pos hdl] at hx
      simp only [Option.some.injEq] at hx
      subst hx
      simp [Obj.null] at hc
    · rw [if_neg hde] at hx
      exact hx
  refine ⟨by simp [h.length], ?_, ?_, ?_, ?_⟩
  · intro e he
    rw [List.getElem?_set] at he ⊢
    by_cases hde : d = e
    · rw [if_pos hde] at he
      split at he <;> simp at he
    · rw [if_neg hde] at he ⊢
      exact h.gone e he
  · intro e w he
    show ∃ o, (mem.objs.set d _)[e]? = _ ∧ _
    rw [List.getElem?_set] at he ⊢
    by_cases hde : d = e
    · rw [if_pos hde] at he ⊢
      rw [if_pos (by rw [h.length]; exact hdl)] at he
      rw [if_pos hdl]
      simp only [Option.some.injEq] at he
      subst he
      exact ⟨_, rfl, rfl, rfl, rfl, rfl, rfl, by simp, Or.inl ⟨rfl, rfl, rfl⟩⟩
    · rw [if_neg hde] at he ⊢
      exact h.live e w he
  · intro e e' x x' c h1 h2 h3 h4
    exact h.own e e' x x' c (key e x c h1 h3) (key e' x' c h2 h4) h3 h4
  · intro c lc hc
    obtain ⟨e, x, h1, h2⟩ := h.noLeak c lc hc
    refine ⟨e, x, ?_, h2⟩
    show (mem.objs.set d _)[e]? = _
    rw [List.getElem?_set_ne]
    · exact h1
    · rintro rfl
      rw [hdg] at h1
      simp at h1

theorem set_last {α : Type} (l : List α) (x y : α) : (l ++ [x]).set l.length y = l ++ [y] := by
  rw [List.set_append_right _ _ (le_refl _)]
  simp

/-- A statement of the code does what it means: both end well in states that correspond, or both fail alike. -/
def Same (a : Res (Vals K)) (b : Res (Mem K)) : Prop :=
  (∃ s mem, a = .ok s ∧ b = .ok mem ∧ Rep s mem) ∨ (a = .assert ∧ b = .assert) ∨ (a = .ub ∧ b = .ub)

theorem same_new {s : Vals K} {mem : Mem K} (h : Rep s mem) (m n : Nat) : Same (s.step (.new m n)) (mem.step (.new m n)) := by
  simp only [Vals.step, Mem.step, Mem.new]
  by_cases h0 : m ≠ 0 ∧ n ≠ 0
  · rw [if_pos h0, if_pos h0]
    simp only [resize, release, Obj.null, Res.ok_bind]
    by_cases hs : m * n < 2 ^ 31
    · rw [if_pos hs, if_pos hs]
      have := h.grow.alloc (d := s.length) (row := 0) (by simp) hs
      rw [set_last] at this
      simp only [h.length, set_last] at this
      exact Or.inl ⟨_, _, rfl, rfl, this⟩
    · rw [if_neg hs, if_neg hs]
      exact Or.inr (Or.inr ⟨rfl, rfl⟩)
  · rw [if_neg h0, if_neg h0]
    have := h.grow.null (d := s.length) (by simp)
    rw [set_last] at this
    simp only [h.length, set_last] at this
    exact Or.inl ⟨_, _, rfl, rfl, this⟩

theorem resize_rep {s : Vals K} {mem : Mem K} (h : Rep s mem) {d : Nat} {v : Val K} (hd : s[d]? = some (some v)) {m n : Nat}
    (hs : m * n < 2 ^ 31) : ∃ mem', mem.resize d m n = .ok mem' ∧ Rep (s.set d (some ⟨m, n, fun _ _ => 0⟩)) mem' := by
  obtain ⟨o, h1, h2, h3⟩ := h.obj_ok hd
  obtain ⟨heap, h4, h5⟩ := h.free hd h2 h3
  have hdl := lt_of_some hd
  have h6 := h5.alloc (d := d) (row := o.row) (by rw [List.getElem?_set_self hdl]) hs
  simp only [List.set_set] at h6
  refine ⟨_, ?_, h6⟩
  simp only [Mem.resize, resize, h1, h4, Res.ok_bind, if_pos hs]

theorem same_resize {s : Vals K} {mem : Mem K} (h : Rep s mem) (d m n : Nat) : Same (s.step (.resize d m n)) (mem.step (.resize d m n)) := by
  simp only [Vals.step, Mem.step]
  rcases at_cases s d with ⟨v, hd, ha⟩ | ⟨ha, hd⟩
  · rw [ha]
    simp only [Res.ok_bind]
    by_cases hs : m * n < 2 ^ 31
    · rw [if_pos hs]
      obtain ⟨mem', h1, h2⟩ := resize_rep h hd hs
      exact Or.inl ⟨_, _, rfl, h1, h2⟩
    · rw [if_neg hs]
      obtain ⟨o, h1, h2, h3⟩ := h.obj_ok hd
      obtain ⟨heap, h4, _⟩ := h.free hd h2 h3
      refine Or.inr (Or.inr ⟨rfl, ?_⟩)
      simp only [Mem.resize, resize, h1, h4, Res.ok_bind, if_neg hs, Res.ub_bind]
  · rw [ha]
    refine Or.inr (Or.inr ⟨rfl, ?_⟩)
    simp only [Mem.resize, h.obj_ub hd, Res.ub_bind]

theorem same_destroy {s : Vals K} {mem : Mem K} (h : Rep s mem) (d : Nat) : Same (s.step (.destroy d)) (mem.step (.destroy d)) := by
  simp only [Vals.step, Mem.step]
  rcases at_cases s d with ⟨v, hd, ha⟩ | ⟨ha, hd⟩
  · rw [ha]
    obtain ⟨o, h1, h2, h3⟩ := h.obj_ok hd
    obtain ⟨heap, h4, h5⟩ := h.free hd h2 h3
    refine Or.inl ⟨_, _, rfl, ?_, h5⟩
    simp only [Mem.destroy, h1, h4, Res.ok_bind]
  · rw [ha]
    refine Or.inr (Or.inr ⟨rfl, ?_⟩)
    simp only [Mem.destroy, h.obj_ub hd, Res.ub_bind]

theorem index_lt {i j m n : Nat} (hi : i < m) (hj : j < n) : i * n + j < m * n := by
  calc i * n + j < i * n + n := by omega
    _ = (i + 1) * n := by ring
    _ ≤ m * n := Nat.mul_le_mul_right _ hi

theorem index_inj {i j i' j' n : Nat} (hj : j < n) (hj' : j' < n) (h : i * n + j = i' * n + j') : i = i' ∧ j = j' := by
  have h1 : (i * n + j) / n = i := by
    rw [Nat.mul_comm, Nat.mul_add_div (by omega), Nat.div_eq_of_lt hj, Nat.add_zero]
  have h2 : (i' * n + j') / n = i' := by
    rw [Nat.mul_comm, Nat.mul_add_div (by omega), Nat.div_eq_of_lt hj', Nat.add_zero]
  have : i = i' := by rw [← h1, ← h2, h]
  subst this
  exact ⟨rfl, by omega⟩

theorem Stored.set {l : List K} {v : Val K} (h : Stored l v) {i j : Nat} (hi : i < v.m) (hj : j < v.n) (x : K) :
    Stored (l.set (i * v.n + j) x) { v with f := fun i' j' => if i' = i ∧ j' = j then x else v.f i' j' } := by
  refine ⟨by simpa using h.1, ?_⟩
  intro i' j' hi' hj'
  show (l.set (i * v.n + j) x)[i' * v.n + j']? = some (if i' = i ∧ j' = j then x else v.f i' j')
  by_cases he : i' = i ∧ j' = j
  · rw [if_pos he, he.1, he.2, List.getElem?_set_self (by rw [h.1]; exact index_lt hi hj)]
  · rw [if_neg he, List.getElem?_set_ne]
    · exact h.2 i' j' hi' hj'
    · intro hc
      have := index_inj hj hj' hc
      exact he ⟨this.1.symm, this.2.symm⟩

/-- Finding an element: the asserts hold exactly inside the matrix. -/
theorem Holds.entry {heap : List (Option (List K))} {o : Obj} {v : Val K} (h : Holds heap o v) (i j : Nat) :
    (i < v.m ∧ j < v.n ∧ ∃ b l, o.data = some b ∧ heap[b]? = some (some l) ∧ Stored l v ∧ (o.at i).entry j = .ok (b, i * v.n + j)) ∨
    (¬ (i < v.m ∧ j < v.n) ∧ (o.at i).entry j = .assert) := by
  rcases h.data with ⟨h0, hm, hn⟩ | ⟨b, l, h1, h2, h3⟩
  · right
    refine ⟨by omega, ?_⟩
    unfold Obj.entry Obj.at
    rw [show ({ o with row := i } : Obj).ptr = none by show o.ptr = none; rw [h.ptr, h0]]
  · have hp : o.ptr = some b := by rw [h.ptr, h1]
    by_cases hj : j < v.n
    · by_cases hi : i < v.m
      · left
        refine ⟨hi, hj, b, l, h1, h2, h3, ?_⟩
        simp [Obj.entry, Obj.at, hp, h.N, h.M, hi, hj]
      · right
        refine ⟨by omega, ?_⟩
        simp [Obj.entry, Obj.at, hp, h.N, h.M, hi, hj]
    · right
      refine ⟨by omega, ?_⟩
      simp [Obj.entry, Obj.at, hp, h.N, hj]

theorem same_set {s : Vals K} {mem : Mem K} (h : Rep s mem) (d i j : Nat) (x : K) :
    Same (s.step (.set d i j x)) (mem.step (.set d i j x)) := by
  simp only [Vals.step, Mem.step]
  rcases at_cases s d with ⟨v, hd, ha⟩ | ⟨ha, hd⟩
  · rw [ha]
    simp only [Res.ok_bind]
    obtain ⟨o, h1, h2, h3⟩ := h.obj_ok hd
    rcases h3.entry i j with ⟨hi, hj, b, l, k1, k2, k3, k4⟩ | ⟨hn, k4⟩
    · rw [if_pos ⟨hi, hj⟩]
      have hlt : i * v.n + j < l.length := by rw [k3.1]; exact index_lt hi hj
      refine Or.inl ⟨_, _, rfl, ?_, h.write hd h2 k1 h3 (o' := o.at i) rfl rfl rfl (k3.set hi hj x)⟩
      simp only [Mem.set, h1, k4, block_ok k2, Res.ok_bind, Res.write, if_pos hlt]
    · rw [if_neg hn]
      refine Or.inr (Or.inl ⟨rfl, ?_⟩)
      simp only [Mem.set, h1, k4, Res.ok_bind, Res.assert_bind]
  · rw [ha]
    refine Or.inr (Or.inr ⟨rfl, ?_⟩)
    simp only [Mem.set, h.obj_ub hd, Res.ub_bind]

theorem set_same {α : Type} {l : List α} {d : Nat} {x : α} (h : l[d]? = some x) : l.set d x = l := by
  obtain ⟨h1, h2⟩ := List.getElem?_eq_some_iff.mp h
  rw [← h2, List.set_getElem_self]

theorem same_fill {s : Vals K} {mem : Mem K} (h : Rep s mem) {d : Nat} {args : List K} (hp : Plain s (.fill d args)) :
    Same (s.step (.fill d args)) (mem.step (.fill d args)) := by
  simp only [Vals.step, Mem.step]
  rcases at_cases s d with ⟨v, hd, ha⟩ | ⟨ha, hd⟩
  · have hsmall := hp v ha
    rw [ha]
    simp only [Res.ok_bind]
    obtain ⟨o, h1, h2, h3⟩ := h.obj_ok hd
    rcases h3.data with ⟨h0, hm, hn⟩ | ⟨b, l, k1, k2, k3⟩
    · rw [if_neg (by rw [hm]; simp)]
      refine Or.inr (Or.inr ⟨rfl, ?_⟩)
      simp only [Mem.fill, h1, Res.ok_bind, h0]
    · by_cases hc : 0 < v.m * v.n ∧ v.m * v.n ≤ args.length
      · rw [if_pos hc]
        have hst : Stored (args.take (v.m * v.n) ++ l.drop (v.m * v.n)) { v with f := fun i j => args.getD (i * v.n + j) 0 } := by
          rw [List.drop_of_length_le (by rw [k3.1]), List.append_nil]
          refine ⟨by rw [List.length_take]; exact Nat.min_eq_left hc.2, ?_⟩
          intro i j hi hj
          have hlt := index_lt (show i < v.m from hi) (show j < v.n from hj)
          show (args.take (v.m * v.n))[i * v.n + j]? = some (args.getD (i * v.n + j) 0)
          rw [List.getElem?_take, if_pos hlt, List.getD, List.getElem?_eq_getElem (by omega)]
          rfl
        have hw := h.write hd h2 k1 h3 (o' := o) rfl (v' := { v with f := fun i j => args.getD (i * v.n + j) 0 }) rfl rfl hst
        rw [set_same h2] at hw
        refine Or.inl ⟨_, _, rfl, ?_, hw⟩
        simp only [Mem.fill, h1, Res.ok_bind, k1, block_ok k2, h3.dimM, h3.dimN]
        rw [if_neg]
        rw [k3.1]
        omega
      · rw [if_neg hc]
        refine Or.inr (Or.inr ⟨rfl, ?_⟩)
        simp only [Mem.fill, h1, Res.ok_bind, k1, block_ok k2, h3.dimM, h3.dimN]
        rw [if_pos]
        rw [k3.1]
        omega
  · rw [ha]
    refine Or.inr (Or.inr ⟨rfl, ?_⟩)
    simp only [Mem.fill, h.obj_ub hd, Res.ub_bind]

/-- Assignment between different objects. -/
theorem assign_rep {s : Vals K} {mem : Mem K} (h : Rep s mem) {d k : Nat} {v w : Val K} (hd : s[d]? = some (some v))
    (hk : s[k]? = some (some w)) (hne : d ≠ k) : ∃ mem', mem.assign d k = .ok mem' ∧ Rep (s.set d (some w)) mem' := by
  obtain ⟨o, h1, _, h3⟩ := h.obj_ok hk
  obtain ⟨mem1, h4, h5⟩ := resize_rep h hd h3.small
  have hd1 : (s.set d (some ⟨w.m, w.n, fun _ _ => 0⟩))[d]? = some (some ⟨w.m, w.n, fun _ _ => 0⟩) := List.getElem?_set_self (lt_of_some hd)
  have hk1 : (s.set d (some ⟨w.m, w.n, fun _ _ => 0⟩))[k]? = some (some w) := by rw [List.getElem?_set_ne hne]; exact hk
  obtain ⟨od, a1, a2, a3⟩ := h5.obj_ok hd1
  obtain ⟨os, b1, b2, b3⟩ := h5.obj_ok hk1
  have hbase : mem.assign d k = (memcpy mem1.heap od.data os.data (w.m * w.n)).bind fun heap => .ok { mem1 with heap := heap } := by
    simp only [Mem.assign, h1, Res.ok_bind, h3.dimM, h3.dimN, h4, a1, b1]
    rw [a3.dimM, a3.dimN]
    rfl
  rw [hbase]
  by_cases h0 : w.m * w.n = 0
  · refine ⟨mem1, by simp only [memcpy, if_pos h0, Res.bind], ?_⟩
    have hz : ∀ i j, ¬ (i < w.m ∧ j < w.n) := by
      rintro i j ⟨hi, hj⟩
      rcases Nat.mul_eq_zero.mp h0 with h | h <;> omega
    -- the matrices have no elements
    refine ⟨by simpa using h5.length, ?_, ?_, h5.own, h5.noLeak⟩
    · intro e he
      by_cases hde : d = e
      · subst hde; rw [List.getElem?_set_self (lt_of_some hd)] at he; simp at he
      · apply h5.gone; rw [List.getElem?_set_ne hde] at he ⊢; exact he
    · intro e x he
      by_cases hde : d = e
      · subst hde
        rw [List.getElem?_set_self (lt_of_some hd)] at he
        simp only [Option.some.injEq] at he
        subst he
        refine ⟨od, a2, a3.dimM, a3.dimN, a3.M, a3.N, a3.ptr, h3.small, ?_⟩
        rcases a3.data with c | ⟨b, l, c1, c2, c3⟩
        · exact Or.inl c
        · exact Or.inr ⟨b, l, c1, c2, c3.1, fun i j hi hj => absurd ⟨hi, hj⟩ (hz i j)⟩
      · apply h5.live; rw [List.getElem?_set_ne hde] at he ⊢; exact he
  · rcases a3.data with ⟨_, c2, _⟩ | ⟨b, l, c1, c2, c3⟩
    · exact absurd (by simp only at c2; rw [c2]; simp) h0
    rcases b3.data with ⟨_, e2, _⟩ | ⟨b', l', e1, e2, e3⟩
    · exact absurd (by rw [e2]; simp) h0
    have hbb : b ≠ b' := by
      rintro rfl
      exact hne (h5.own d k od os b a2 b2 c1 e1)
    have hl : l.length = w.m * w.n := c3.1
    have hst : Stored (l'.take (w.m * w.n) ++ l.drop (w.m * w.n)) w := by
      rw [List.drop_of_length_le (by rw [hl]), List.append_nil, List.take_of_length_le (by rw [e3.1])]
      exact e3
    have hw := h5.write hd1 a2 c1 a3 (o' := od) rfl (v' := w) rfl rfl hst
    rw [set_same a2, List.set_set] at hw
    refine ⟨_, ?_, hw⟩
    simp only [memcpy, if_neg h0, c1, e1, block_ok c2, block_ok e2, Res.ok_bind]
    rw [if_neg (by rw [hl, e3.1]; simp [hbb])]
    rfl

theorem same_assign {s : Vals K} {mem : Mem K} (h : Rep s mem) {d k : Nat} (hp : Plain s (.assign d k)) :
    Same (s.step (.assign d k)) (mem.step (.assign d k)) := by
  simp only [Vals.step, Mem.step]
  rcases at_cases s k with ⟨w, hk, hak⟩ | ⟨hak, hk⟩
  · rw [hak]
    simp only [Res.ok_bind]
    rcases at_cases s d with ⟨v, hd, ha⟩ | ⟨ha, hd⟩
    · rw [ha]
      obtain ⟨mem', h1, h2⟩ := assign_rep h hd hk hp
      exact Or.inl ⟨_, _, rfl, h1, h2⟩
    · rw [ha]
      refine Or.inr (Or.inr ⟨rfl, ?_⟩)
      obtain ⟨o, h1, _, _⟩ := h.obj_ok hk
      simp only [Mem.assign, h1, Res.ok_bind, Mem.resize, h.obj_ub hd, Res.ub_bind]
  · rw [hak]
    refine Or.inr (Or.inr ⟨rfl, ?_⟩)
    simp only [Mem.assign, h.obj_ub hk, Res.ub_bind]

theorem same_copy {s : Vals K} {mem : Mem K} (h : Rep s mem) (k : Nat) : Same (s.step (.copy k)) (mem.step (.copy k)) := by
  have hg := h.grow.null (d := s.length) (by simp)
  rw [set_last] at hg
  simp only [h.length, set_last] at hg
  simp only [Vals.step, Mem.step, Mem.copy]
  rcases at_cases s k with ⟨w, hk, hak⟩ | ⟨hak, hk⟩
  · rw [hak]
    have hlt := lt_of_some hk
    have hd : (s ++ [some (⟨0, 0, fun _ _ => 0⟩ : Val K)])[mem.objs.length]? = some (some ⟨0, 0, fun _ _ => 0⟩) := by
      rw [← h.length]; simp
    have hk' : (s ++ [some (⟨0, 0, fun _ _ => 0⟩ : Val K)])[k]? = some (some w) := by
      rw [List.getElem?_append_left hlt]; exact hk
    obtain ⟨mem', h1, h2⟩ := assign_rep hg hd hk' (by rw [← h.length]; omega)
    rw [← h.length, set_last] at h2
    obtain ⟨o, h3, _, _⟩ := h.obj_ok hk
    refine Or.inl ⟨_, _, rfl, ?_, h2⟩
    rw [h3, Res.ok_bind]
    rw [← h.length] at h1 ⊢
    exact h1
  · rw [hak]
    refine Or.inr (Or.inr ⟨rfl, ?_⟩)
    rw [h.obj_ub hk, Res.ub_bind]

theorem same_step {s : Vals K} {mem : Mem K} (h : Rep s mem) (c : Cmd K) (hp : Plain s c) : Same (s.step c) (mem.step c) := by
  cases c with
  | new m n => exact same_new h m n
  | copy k => exact same_copy h k
  | assign d k => exact same_assign h hp
  | resize d m n => exact same_resize h d m n
  | set d i j x => exact same_set h d i j x
  | fill d args => exact same_fill h hp
  | destroy d => exact same_destroy h d

/-! ## C117 -/

/-- The beginning of a program. -/
theorem rep_empty : Rep ([] : Vals K) ⟨[], []⟩ := ⟨rfl, by simp, by simp, by simp, by simp⟩

/-- C117, programs: every sequence of constructions, copies, assignments, resizes, writes, fills and destructions does to the objects what
it means for the matrices: each object holds its own matrix in its own block, nothing leaks, is freed twice or used after it was freed, and
the program fails exactly where its meaning does (an index outside of a matrix is an assert). Partial: no matrix is assigned to itself and
none of 65536 or more elements is filled. -/
theorem C117_run_partial (cs : List (Cmd K)) {s : Vals K} {mem : Mem K} (h : Rep s mem) (hp : PlainRun s cs) :
    Same (s.run cs) (mem.run cs) := by
  induction cs generalizing s mem with
  | nil => exact Or.inl ⟨s, mem, rfl, rfl, h⟩
  | cons c cs ih =>
    obtain ⟨hc, hcs⟩ := hp
    simp only [Vals.run, Mem.run, Res.foldlM'] at ih ⊢
    rcases same_step h c hc with ⟨s', mem', h1, h2, h3⟩ | ⟨h1, h2⟩ | ⟨h1, h2⟩
    · rw [h1, h2, Res.ok_bind, Res.ok_bind]
      exact ih h3 (hcs s' h1)
    · rw [h1, h2]
      exact Or.inr (Or.inl ⟨rfl, rfl⟩)
    · rw [h1, h2]
      exact Or.inr (Or.inr ⟨rfl, rfl⟩)

/-- C117, reading: `m[i][j]` is the element of the matrix, and an assert exactly outside of it; nothing else changes. -/
theorem C117_get {s : Vals K} {mem : Mem K} (h : Rep s mem) {d : Nat} {v : Val K} (hd : s[d]? = some (some v)) (i j : Nat) :
    (i < v.m ∧ j < v.n ∧ ∃ mem', mem.get d i j = .ok (mem', v.f i j) ∧ Rep s mem') ∨
    (¬ (i < v.m ∧ j < v.n) ∧ mem.get d i j = .assert) := by
  obtain ⟨o, h1, h2, h3⟩ := h.obj_ok hd
  rcases h3.entry i j with ⟨hi, hj, b, l, k1, k2, k3, k4⟩ | ⟨hn, k4⟩
  · have hw := h.write hd h2 k1 h3 (o' := o.at i) rfl rfl rfl k3
    rw [set_same hd, set_same k2] at hw
    refine Or.inl ⟨hi, hj, _, ?_, hw⟩
    simp only [Mem.get, h1, k4, block_ok k2, Res.ok_bind, Res.read, k3.2 i j hi hj]
  · refine Or.inr ⟨hn, ?_⟩
    simp only [Mem.get, h1, k4, Res.ok_bind, Res.assert_bind]

/-- C117: when all matrices are gone, all memory is free. -/
theorem C117_noLeak {s : Vals K} {mem : Mem K} (h : Rep s mem) (hs : ∀ x ∈ s, x = none) : ∀ x ∈ mem.heap, x = none := by
  intro x hx
  cases x with
  | none => rfl
  | some l =>
    obtain ⟨b, hb⟩ := List.getElem?_of_mem hx
    obtain ⟨d, o, h1, _⟩ := h.noLeak b l hb
    have hlt : d < s.length := by rw [h.length]; exact lt_of_some h1
    have := h.gone d (by rw [List.getElem?_eq_getElem hlt, hs _ (List.getElem_mem hlt)])
    rw [this] at h1
    simp at h1

/-- A loop that comes to an assert. -/
theorem foldlM'_assert {σ : Type} (f : σ → Nat → Res σ) (l : List Nat) (hf : ∀ k ∈ l, ∀ s, (∃ s', f s k = .ok s') ∨ f s k = .assert)
    (p : Nat) (hp : p ∈ l) (hpf : ∀ s, f s p = .assert) (s : σ) : Res.foldlM' f s l = .assert := by
  induction l generalizing s with
  | nil => simp at hp
  | cons x xs ih =>
    rw [Res.foldlM'_cons]
    rcases hf x (List.mem_cons_self ..) s with ⟨s', h⟩ | h
    · rw [h, Res.ok_bind]
      rcases List.mem_cons.mp hp with rfl | hp
      · rw [hpf s] at h; simp at h
      · exact ih (fun k hk => hf k (List.mem_cons_of_mem _ hk)) hp s'
    · rw [h]; rfl

/-- A loop that collects values. -/
theorem foldlM'_collect {α : Type} (f : List α → Nat → Res (List α)) (g : Nat → α) (m : Nat)
    (hf : ∀ k < m, ∀ r, f r k = .ok (r ++ [g k])) : Res.foldlM' f [] (List.range m) = .ok ((List.range m).map g) := by
  obtain ⟨r, h1, h2⟩ := Res.foldlM'_range f (fun k r => r = (List.range k).map g) m [] rfl (by
    intro k r hk hr
    exact ⟨_, hf k hk r, by rw [hr, List.range_succ, List.map_append]; rfl⟩)
  rw [h1, h2]

theorem C117_toMat {s : Vals K} {mem : Mem K} (h : Rep s mem) {d : Nat} {v : Val K} (hd : s[d]? = some (some v)) {M N : Nat} :
    (M = v.m ∧ N = v.n → mem.toMat d M N = .ok ((List.range M).map fun i => (List.range N).map fun j => v.f i j)) ∧
    (¬ (M = v.m ∧ N = v.n) → 0 < M → 0 < N → mem.toMat d M N = .assert) := by
  obtain ⟨o, h1, _, h3⟩ := h.obj_ok hd
  constructor
  · rintro ⟨rfl, rfl⟩
    simp only [Mem.toMat, h1, h3.dimM, h3.dimN, Res.ok_bind]
    rw [show decide (v.m ≤ v.m ∧ v.n ≤ v.n) = true by simp]
    show Res.foldlM' _ _ _ = _
    apply foldlM'_collect
    intro i hi r
    rw [foldlM'_collect _ (fun j => v.f i j)]
    · rfl
    · intro j hj r'
      rcases C117_get h hd i j with ⟨_, _, mem', k, _⟩ | ⟨k, _⟩
      · rw [k]; rfl
      · exact absurd ⟨hi, hj⟩ k
  · intro hne hM hN
    simp only [Mem.toMat, h1, h3.dimM, h3.dimN, Res.ok_bind]
    by_cases hle : v.m ≤ M ∧ v.n ≤ N
    · rw [show decide (v.m ≤ M ∧ v.n ≤ N) = true by simp [hle]]
      show Res.foldlM' _ _ _ = _
      have inner : ∀ i (r : List K) j, (∃ r', ((mem.get d i j).bind fun x => Res.ok (r ++ [x.2])) = .ok r') ∨
          ((mem.get d i j).bind fun x => Res.ok (r ++ [x.2])) = .assert := by
        intro i r j
        rcases C117_get h hd i j with ⟨_, _, mem', k, _⟩ | ⟨_, k⟩
        · rw [k]; exact Or.inl ⟨_, rfl⟩
        · rw [k]; exact Or.inr rfl
      have loop : ∀ i (l : List Nat) (r : List K),
          (∃ r', Res.foldlM' (fun r j => (mem.get d i j).bind fun x => Res.ok (r ++ [x.2])) r l = .ok r') ∨
          Res.foldlM' (fun r j => (mem.get d i j).bind fun x => Res.ok (r ++ [x.2])) r l = .assert := by
        intro i l
        induction l with
        | nil => intro r; exact Or.inl ⟨r, rfl⟩
        | cons x xs ih =>
          intro r
          rw [Res.foldlM'_cons]
          rcases inner i r x with ⟨r', k⟩ | k
          · rw [k]; exact ih r'
          · rw [k]; exact Or.inr rfl
      have bad : ∀ i, (v.n < N ∨ v.m ≤ i) → ∀ r : List K,
          Res.foldlM' (fun r j => (mem.get d i j).bind fun x => Res.ok (r ++ [x.2])) r (List.range N) = .assert := by
        intro i hi r
        apply foldlM'_assert _ _ (fun j _ r => inner i r j) (if v.n < N then v.n else 0)
        · split <;> simp <;> assumption
        · intro r
          rcases C117_get h hd i (if v.n < N then v.n else 0) with ⟨k1, k2, _⟩ | ⟨_, k⟩
          · exfalso
            split at k2 <;> omega
          · rw [k]; rfl
      apply foldlM'_assert _ _ _ (if v.m < M then v.m else 0)
      · split <;> simp <;> assumption
      · intro rows
        have := bad (if v.m < M then v.m else 0) (by split <;> omega) []
        show (Res.foldlM' _ _ _ >>= _) = _
        exact (congrArg (fun t => Res.bind t _) this)
      · intro i _ rows
        rcases loop i (List.range N) [] with ⟨r', k⟩ | k
        · exact Or.inl ⟨_, (congrArg (fun t => Res.bind t fun r => Res.ok (rows ++ [r])) k)⟩
        · exact Or.inr (congrArg (fun t => Res.bind t fun r => Res.ok (rows ++ [r])) k)
    · rw [show decide (v.m ≤ M ∧ v.n ≤ N) = false by simp; omega]
      rfl

/-- C117: a column of the matrix. -/
theorem C117_toVec {s : Vals K} {mem : Mem K} (h : Rep s mem) {d : Nat} {v : Val K} (hd : s[d]? = some (some v)) {M col : Nat} :
    (M = v.m ∧ col < v.n → mem.toVec d M col = .ok ((List.range M).map fun i => v.f i col)) ∧
    (¬ (M = v.m ∧ col < v.n) → mem.toVec d M col = .assert) := by
  obtain ⟨o, h1, _, h3⟩ := h.obj_ok hd
  constructor
  · rintro ⟨rfl, hc⟩
    simp only [Mem.toVec, h1, h3.dimM, h3.dimN, Res.ok_bind]
    rw [show decide (v.m ≤ v.m ∧ col < v.n) = true by simp [hc]]
    show Res.foldlM' _ _ _ = _
    apply foldlM'_collect
    intro i hi r
    rcases C117_get h hd i col with ⟨_, _, mem', k, _⟩ | ⟨k, _⟩
    · rw [k]; rfl
    · exact absurd ⟨hi, hc⟩ k
  · intro hne
    simp only [Mem.toVec, h1, h3.dimM, h3.dimN, Res.ok_bind]
    by_cases hle : v.m ≤ M ∧ col < v.n
    · rw [show decide (v.m ≤ M ∧ col < v.n) = true by simp [hle]]
      show Res.foldlM' _ _ _ = _
      apply foldlM'_assert _ _ _ v.m
      · simp; omega
      · intro r
        rcases C117_get h hd v.m col with ⟨k1, _⟩ | ⟨_, k⟩
        · omega
        · rw [k]; rfl
      · intro i _ r
        rcases C117_get h hd i col with ⟨_, _, mem', k, _⟩ | ⟨_, k⟩
        · rw [k]; exact Or.inl ⟨_, rfl⟩
        · rw [k]; exact Or.inr rfl
    · rw [show decide (v.m ≤ M ∧ col < v.n) = false by simp; omega]
      rfl

theorem set_rep {s : Vals K} {mem : Mem K} (h : Rep s mem) {d : Nat} {v : Val K} (hd : s[d]? = some (some v)) {i j : Nat} (hi : i < v.m)
    (hj : j < v.n) (x : K) :
    ∃ mem', mem.set d i j x = .ok mem' ∧ Rep (s.set d (some { v with f := fun i' j' => if i' = i ∧ j' = j then x else v.f i' j' })) mem' := by
  have hs : s.step (.set d i j x) = .ok (s.set d (some { v with f := fun i' j' => if i' = i ∧ j' = j then x else v.f i' j' })) := by
    simp only [Vals.step, at_ok.mpr hd, Res.ok_bind, if_pos (⟨hi, hj⟩ : i < v.m ∧ j < v.n)]
  rcases same_set h d i j x with ⟨s', mem', h1, h2, h3⟩ | ⟨h1, _⟩ | ⟨h1, _⟩
  · rw [hs] at h1
    rw [← Res.ok.inj h1] at h3
    exact ⟨mem', h2, h3⟩
  · rw [hs] at h1; simp at h1
  · rw [hs] at h1; simp at h1

/-- C117: `cpVec` replaces the first elements of a column, and stops with an assert when the vector does not fit. -/
theorem C117_cpVec {s : Vals K} {mem : Mem K} (h : Rep s mem) {d : Nat} {v : Val K} (hd : s[d]? = some (some v)) {M col : Nat} (vec : Nat → K) :
    (M ≤ v.m ∧ col < v.n → ∃ mem', mem.cpVec d M col vec = .ok mem' ∧
      Rep (s.set d (some { v with f := fun i j => if i < M ∧ j = col then vec i else v.f i j })) mem') ∧
    (¬ (M ≤ v.m ∧ col < v.n) → mem.cpVec d M col vec = .assert) := by
  obtain ⟨o, h1, _, h3⟩ := h.obj_ok hd
  constructor
  · rintro ⟨hM, hc⟩
    simp only [Mem.cpVec, h1, h3.dimM, h3.dimN, Res.ok_bind]
    rw [show decide (M ≤ v.m ∧ col < v.n) = true by simp [hM, hc]]
    show ∃ mem', Res.foldlM' _ _ _ = _ ∧ _
    apply Res.foldlM'_range _ (fun k mem' => Rep (s.set d (some { v with f := fun i j => if i < k ∧ j = col then vec i else v.f i j })) mem')
    · have : (fun i j => if i < 0 ∧ j = col then vec i else v.f i j) = v.f := by funext i j; simp
      simp only [this]
      rw [set_same hd]
      exact h
    · intro k mem' hk hr
      obtain ⟨mem2, k1, k2⟩ := set_rep hr (List.getElem?_set_self (lt_of_some hd)) (i := k) (j := col) (show k < v.m by omega) hc (vec k)
      refine ⟨mem2, k1, ?_⟩
      rw [List.set_set] at k2
      convert k2 using 4
      funext i j
      by_cases hi : i = k <;> by_cases hj : j = col
      · subst hi; subst hj; simp
      · subst hi; simp [hj]
      · subst hj; simp [hi]; congr 1; simp; omega
      · simp [hj]
  · intro hne
    simp only [Mem.cpVec, h1, h3.dimM, h3.dimN, Res.ok_bind]
    rw [show decide (M ≤ v.m ∧ col < v.n) = false by simp; omega]
    rfl

/-- C117: `cpMat` replaces the upper left corner of the matrix, and stops with an assert when the other matrix does not fit. -/
theorem C117_cpMat {s : Vals K} {mem : Mem K} (h : Rep s mem) {d : Nat} {v : Val K} (hd : s[d]? = some (some v)) {M N : Nat}
    (mat : Nat → Nat → K) :
    (M ≤ v.m ∧ N ≤ v.n → ∃ mem', mem.cpMat d M N mat = .ok mem' ∧
      Rep (s.set d (some { v with f := fun i j => if i < M ∧ j < N then mat i j else v.f i j })) mem') ∧
    (¬ (M ≤ v.m ∧ N ≤ v.n) → mem.cpMat d M N mat = .assert) := by
  obtain ⟨o, h1, _, h3⟩ := h.obj_ok hd
  constructor
  · rintro ⟨hM, hN⟩
    simp only [Mem.cpMat, h1, h3.dimM, h3.dimN, Res.ok_bind]
    rw [show decide (M ≤ v.m ∧ N ≤ v.n) = true by simp [hM, hN]]
    show ∃ mem', Res.foldlM' _ _ _ = _ ∧ _
    apply Res.foldlM'_range _ (fun k mem' => Rep (s.set d (some { v with f := fun i j => if i < k ∧ j < N then mat i j else v.f i j })) mem')
    · have : (fun i j => if i < 0 ∧ j < N then mat i j else v.f i j) = v.f := by funext i j; simp
      simp only [this]
      rw [set_same hd]
      exact h
    · intro k mem' hk hr
      have key := Res.foldlM'_range (fun mem j => mem.set d k j (mat k j))
        (fun l mem' => Rep (s.set d (some { v with f := fun i j => if (i < k ∧ j < N) ∨ (i = k ∧ j < l) then mat i j else v.f i j })) mem') N mem'
        (by
          have : (fun i j => if (i < k ∧ j < N) ∨ (i = k ∧ j < 0) then mat i j else v.f i j) =
              (fun i j => if i < k ∧ j < N then mat i j else v.f i j) := by funext i j; simp
          simp only [this]
          exact hr)
        (by
          intro l mem1 hl hr1
          obtain ⟨mem2, k1, k2⟩ := set_rep hr1 (List.getElem?_set_self (lt_of_some hd)) (i := k) (j := l) (show k < v.m by omega)
            (show l < v.n by omega) (mat k l)
          refine ⟨mem2, k1, ?_⟩
          rw [List.set_set] at k2
          convert k2 using 4
          funext i j
          by_cases hi : i = k
          · subst hi
            by_cases hj : j = l
            · subst hj; simp
            · simp [hj]
              congr 1
              simp
              omega
          · simp [hi])
      obtain ⟨mem2, k1, k2⟩ := key
      refine ⟨mem2, k1, ?_⟩
      have e : (fun i j => if i < k + 1 ∧ j < N then mat i j else v.f i j) =
          (fun i j => if (i < k ∧ j < N) ∨ (i = k ∧ j < N) then mat i j else v.f i j) := by
        funext i j
        by_cases hj : j < N
        · simp only [hj, and_true]; congr 1; simp; omega
        · simp [hj]
      simp only [e]
      exact k2
  · intro hne
    simp only [Mem.cpMat, h1, h3.dimM, h3.dimN, Res.ok_bind]
    rw [show decide (M ≤ v.m ∧ N ≤ v.n) = false by simp; omega]
    rfl

/-- The elements as text, row by row. -/
def Val.text (txt : K → String) (v : Val K) : String :=
  (List.range v.m).foldl (fun t i => (List.range v.n).foldl (fun t j => t ++ txt (v.f i j) ++ " ") (t ++ "[") ++ "]" ++ "\n") ""

theorem foldlM'_pure {σ : Type} (f : σ → Nat → Res σ) (g : σ → Nat → σ) (l : List Nat) (hf : ∀ k ∈ l, ∀ s, f s k = .ok (g s k)) (s : σ) :
    Res.foldlM' f s l = .ok (l.foldl g s) := by
  induction l generalizing s with
  | nil => rfl
  | cons x xs ih =>
    rw [Res.foldlM'_cons, hf x (List.mem_cons_self ..) s, Res.ok_bind]
    exact ih (fun k hk => hf k (List.mem_cons_of_mem _ hk)) _

/-- C117 fails for printing: `operator<<` writes the elements to `std::cout`, and nothing to the stream. -/
theorem C117_print_violated {s : Vals K} {mem : Mem K} (h : Rep s mem) {d : Nat} {v : Val K} (hd : s[d]? = some (some v)) (txt : K → String) :
    mem.print txt d = .ok ("", v.text txt) := by
  obtain ⟨o, h1, _, h3⟩ := h.obj_ok hd
  simp only [Mem.print, h1, Res.ok_bind, h3.dimM, h3.dimN]
  rw [foldlM'_pure _ (fun t i => (List.range v.n).foldl (fun t j => t ++ txt (v.f i j) ++ " ") (t ++ "[") ++ "]" ++ "\n")]
  · rfl
  · intro i hi t
    rw [foldlM'_pure _ (fun t j => t ++ txt (v.f i j) ++ " ")]
    · rfl
    · intro j hj t
      rcases C117_get h hd i j with ⟨_, _, mem', k, _⟩ | ⟨k, _⟩
      · rw [k]; rfl
      · exact absurd ⟨List.mem_range.mp hi, List.mem_range.mp hj⟩ k

/-- C117 fails for a matrix that is assigned to itself: `resize` has freed its elements before they are copied. -/
theorem C117_self_violated {s : Vals K} {mem : Mem K} (h : Rep s mem) {d : Nat} {v : Val K} (hd : s[d]? = some (some v))
    (h0 : 0 < v.m * v.n) : s.step (.assign d d) = .ok s ∧ mem.step (.assign d d) = .ub ∧
    ∃ mem', mem.resize d v.m v.n = .ok mem' ∧ Rep (s.set d (some ⟨v.m, v.n, fun _ _ => 0⟩)) mem' := by
  obtain ⟨o, h1, _, h3⟩ := h.obj_ok hd
  obtain ⟨mem1, h4, h5⟩ := resize_rep h hd h3.small
  refine ⟨?_, ?_, mem1, h4, h5⟩
  · simp only [Vals.step, at_ok.mpr hd, Res.ok_bind, set_same hd]
  · have hd1 : (s.set d (some ⟨v.m, v.n, fun _ _ => 0⟩))[d]? = some (some ⟨v.m, v.n, fun _ _ => 0⟩) := List.getElem?_set_self (lt_of_some hd)
    obtain ⟨od, a1, a2, a3⟩ := h5.obj_ok hd1
    simp only [Mem.step, Mem.assign, h1, Res.ok_bind, h3.dimM, h3.dimN, h4, a1, a3.dimM, a3.dimN]
    rcases a3.data with ⟨_, c2, _⟩ | ⟨b, l, c1, c2, c3⟩
    · simp only at c2
      rw [c2] at h0
      simp at h0
    · simp only [memcpy, if_neg (Nat.ne_of_gt h0), c1, block_ok c2, Res.ok_bind]
      rfl

/-- C117 fails for `fill` from 65536 elements on (a matrix of 256 rows and 256 columns): the counter never reaches the end. -/
theorem C117_fill_violated {s : Vals K} {mem : Mem K} (h : Rep s mem) {d : Nat} {v : Val K} (hd : s[d]? = some (some v))
    (h0 : 65536 ≤ v.m * v.n) (args : List K) (ha : args.length = v.m * v.n) :
    s.step (.fill d args) = .ok (s.set d (some { v with f := fun i j => args.getD (i * v.n + j) 0 })) ∧ mem.step (.fill d args) = .ub := by
  obtain ⟨o, h1, _, h3⟩ := h.obj_ok hd
  constructor
  · simp only [Vals.step, at_ok.mpr hd, Res.ok_bind]
    rw [if_pos (by omega)]
  · rcases h3.data with ⟨_, c2, _⟩ | ⟨b, l, c1, c2, c3⟩
    · rw [c2] at h0; simp at h0
    · simp only [Mem.step, Mem.fill, h1, Res.ok_bind, c1, block_ok c2, h3.dimM, h3.dimN]
      rw [if_pos (by omega)]

/-- C117 fails for two elements of a matrix in one expression: in one order of the calls the first element is that of the other row. -/
theorem C117_two_violated {s : Vals K} {mem : Mem K} (h : Rep s mem) {d : Nat} {v : Val K} (hd : s[d]? = some (some v)) {i j k l : Nat}
    (hi : i < v.m) (hj : j < v.n) (hk : k < v.m) (hl : l < v.n) :
    mem.two false d i j k l = .ok (v.f i j, v.f k l) ∧ mem.two true d i j k l = .ok (v.f k j, v.f k l) := by
  obtain ⟨o, h1, _, h3⟩ := h.obj_ok hd
  have key : ∀ i j, i < v.m → j < v.n → ∃ (b : Nat) (q : List K × Nat), (o.at i).entry j = .ok (b, q.2) ∧ block mem.heap b = .ok q.1 ∧ Res.read q.1 q.2 = .ok (v.f i j) := by
    intro i j hi hj
    rcases h3.entry i j with ⟨_, _, b, l, _, k2, k3, k4⟩ | ⟨hn, _⟩
    · refine ⟨b, (l, i * v.n + j), k4, block_ok k2, ?_⟩
      simp only [Res.read, k3.2 i j hi hj]
    · exact absurd ⟨hi, hj⟩ hn
  have hat : ∀ i k, (o.at i).at k = o.at k := fun _ _ => rfl
  obtain ⟨b1, q1, a1, a2, a3⟩ := key i j hi hj
  obtain ⟨b2, q2, c1, c2, c3⟩ := key k l hk hl
  obtain ⟨b3, q3, e1, e2, e3⟩ := key k j hk hj
  constructor
  · simp only [Mem.two, h1, Res.ok_bind, Bool.false_eq_true, if_false, hat, a1, a2, a3, c1, c2, c3]
  · simp only [Mem.two, h1, Res.ok_bind, if_true, hat, e1, e2, e3, c1, c2, c3]

/-- C117 fails for a `Mat` that is larger than the matrix: the assert at the start allows it ("copies to a corner"), the reading of the
elements outside of the matrix does not. -/
theorem C117_corner_violated {s : Vals K} {mem : Mem K} (h : Rep s mem) {d : Nat} {v : Val K} (hd : s[d]? = some (some v)) (hm : 0 < v.m)
    (hn : 0 < v.n) : mem.toMat d (v.m + 1) v.n = .assert ∧ mem.toMat d v.m (v.n + 1) = .assert ∧ mem.toVec d (v.m + 1) 0 = .assert :=
  ⟨(C117_toMat h hd).2 (by omega) (by omega) hn, (C117_toMat h hd).2 (by omega) hm (by omega), (C117_toVec h hd).2 (by omega)⟩

/-! ## Examples -/

/-- A program of two matrices: a copy does not change with its original. -/
def sample : List (Cmd Int) := [.new 2 2, .fill 0 [1, 2, 3, 4], .copy 0, .set 0 1 0 7, .new 0 3, .assign 2 1, .destroy 1, .resize 0 1 1]

/-- The program is plain. -/
theorem sample_plain : PlainRun [] sample := by
  refine ⟨trivial, fun s1 h1 => ?_⟩
  obtain rfl := Res.ok.inj h1
  refine ⟨?_, fun s2 h2 => ?_⟩
  · intro v hv
    obtain rfl := Res.ok.inj hv
    decide
  obtain rfl := Res.ok.inj h2
  refine ⟨trivial, fun s3 h3 => ?_⟩
  obtain rfl := Res.ok.inj h3
  refine ⟨trivial, fun s4 h4 => ?_⟩
  obtain rfl := Res.ok.inj h4
  refine ⟨trivial, fun s5 h5 => ?_⟩
  obtain rfl := Res.ok.inj h5
  refine ⟨show (2 : Nat) ≠ 1 by decide, fun s6 h6 => ?_⟩
  obtain rfl := Res.ok.inj h6
  refine ⟨trivial, fun s7 h7 => ?_⟩
  obtain rfl := Res.ok.inj h7
  exact ⟨trivial, fun s8 _ => trivial⟩

example : Same (Vals.run [] sample) (Mem.run ⟨[], []⟩ sample) := C117_run_partial sample rep_empty sample_plain

/-- The program ends well, and the last matrix has the elements of the first before it was changed. -/
example : (Mem.run ⟨[], []⟩ sample).bind (fun m => (m.get 2 1 0).bind fun r => .ok r.2) = .ok (3 : Int) := by decide
example : (Mem.run ⟨[], []⟩ sample).bind (fun m => m.toMat 2 2 2) = .ok [[1, 2], [3, (4 : Int)]] := by decide
example : (Mem.run ⟨[], []⟩ sample).bind (fun m => .ok (m.heap, m.objs.length)) = .ok ([none, none, some [1, 2, 3, (4 : Int)], some [0]], 3) := by decide
example : (Mem.run ⟨[], []⟩ [.new 2 2, .fill 0 [1, 2, 3, (4 : Int)], .assign 0 0]).bind (fun _ => .ok ()) = .ub := by decide
example : (Mem.run ⟨[], []⟩ [.new 2 2, .fill 0 [1, 2, 3, (4 : Int)]]).bind (fun m => m.two true 0 0 0 1 1) = .ok (3, 4) := by decide
example : (Mem.run ⟨[], []⟩ [.new 2 2, .fill 0 [1, 2, 3, (4 : Int)]]).bind (fun m => (m.cpVec 0 2 1 fun i => 8 + i).bind fun m => m.toMat 0 2 2) =
    .ok [[1, 8], [3, 9]] := by decide

end Nla3d.DMat
