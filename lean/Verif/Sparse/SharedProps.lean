import Verif.Sparse.Shared
import Verif.Sparse.History

/-!
# C124: matrices that share a pattern are matrices of their own
-/

namespace Nla3d.Sparse.Shared

variable {K : Type}

/-! ## Specification -/

/-- No pointer dangles, no block is owned twice, none is lost, and a matrix with values has as many of them as its pattern says. -/
structure Good (mem : Mem K) : Prop where
  info : ∀ s ∈ mem.infos, (∃ rows, Rep s rows) ∨ ∃ rows, Csr s rows
  si : ∀ (d : Nat) (o : Obj) (k : Nat), mem.objs[d]? = some (some o) → o.si = some k → k < mem.infos.length
  vals : ∀ (d : Nat) (o : Obj) (b : Nat), mem.objs[d]? = some (some o) → o.values = some b →
    ∃ (k : Nat) (s : SpInfo) (l : List K), o.si = some k ∧ mem.infos[k]? = some s ∧ s.compressed = true ∧
      mem.heap[b]? = some (some l) ∧ l.length = s.numberOfValues
  own : ∀ (d e : Nat) (o p : Obj) (b : Nat), mem.objs[d]? = some (some o) → mem.objs[e]? = some (some p) →
    o.values = some b → p.values = some b → d = e
  lost : ∀ (b : Nat) (l : List K), mem.heap[b]? = some (some l) →
    ∃ (d : Nat) (o : Obj), mem.objs[d]? = some (some o) ∧ o.values = some b

/-- The object exists. -/
def Live (mem : Mem K) (d : Nat) : Prop := ∃ o, mem.objs[d]? = some (some o)

/-- What a program may say: it names objects that exist, it gives a pattern only to a matrix without values, it copies no matrix, and
its matrices have fewer than `2^32-1` columns. -/
def Legal (mem : Mem K) : Cmd K → Prop
  | .empty => True
  | .new sym n m _ => (if sym then n else m) < invalid
  | .share _ s => Live mem s
  | .set d s => (∃ k, mem.objs[d]? = some (some ⟨k, none⟩)) ∧ Live mem s
  | .reinit d _ m _ => Live mem d ∧ m < invalid
  | .addEntry _ d _ _ => Live mem d
  | .compress d => Live mem d
  | .zero d => Live mem d
  | .addValue _ d _ _ _ => Live mem d
  | .destroy d => Live mem d
  | .copy _ => False

/-- The object a statement is about. -/
def subject (mem : Mem K) : Cmd K → Nat
  | .set d _ | .reinit d _ _ _ | .addEntry _ d _ _ | .compress d | .zero d | .addValue _ d _ _ _ | .destroy d => d
  | .empty | .new _ _ _ _ | .share _ _ | .copy _ => mem.objs.length

/-- Every statement of the program is legal where it is reached. -/
def LegalRun [Zero K] [Add K] : Mem K → List (Cmd K) → Prop
  | _, [] => True
  | mem, c :: cs => Legal mem c ∧ ∀ mem', mem.step c = .ok mem' → LegalRun mem' cs

/-- The other objects are what they were; those with values are the same matrices. -/
def Kept (mem : Mem K) (d : Nat) (mem' : Mem K) : Prop :=
  ∀ e, e ≠ d → mem'.objs[e]? = mem.objs[e]? ∧
    ∀ (o : Obj) (b : Nat), mem.objs[e]? = some (some o) → o.values = some b → mem'.view e = mem.view e

/-- Ends, or stops at a test of the program, and then `P`. -/
def Safe {α : Type} (r : Res α) (P : α → Prop) : Prop := (∃ a, r = .ok a ∧ P a) ∨ r = .assert ∨ r = .fatal

/-! ## Tools -/

theorem Safe.bind {α β : Type} {r : Res α} {P : α → Prop} {f : α → Res β} {Q : β → Prop} (h : Safe r P)
    (hf : ∀ a, P a → Safe (f a) Q) : Safe (r >>= f) Q := by
  rcases h with ⟨a, rfl, ha⟩ | rfl | rfl
  · exact hf a ha
  · exact Or.inr (Or.inl rfl)
  · exact Or.inr (Or.inr rfl)

theorem Safe.ok {α : Type} {a : α} {P : α → Prop} (h : P a) : Safe (.ok a) P := Or.inl ⟨a, rfl, h⟩

theorem Safe.assert {α : Type} {P : α → Prop} : Safe (.assert : Res α) P := Or.inr (Or.inl rfl)

theorem Safe.mono {α : Type} {r : Res α} {P Q : α → Prop} (h : Safe r P) (hq : ∀ a, P a → Q a) : Safe r Q := by
  rcases h with ⟨a, rfl, ha⟩ | h
  · exact Or.inl ⟨a, rfl, hq a ha⟩
  · exact Or.inr h

theorem init_safe {n m k : Nat} (hm : m < invalid) : Safe (SpInfo.init n m k) (fun s => ∃ rows, Rep s rows) := by
  rcases Nat.eq_zero_or_pos k with rfl | hk
  · exact Or.inr (Or.inl (by simp [SpInfo.init]))
  · obtain ⟨s, h, hr, -⟩ := Rep.init (n := n) hk hm
    exact Or.inl ⟨s, h, _, hr⟩

theorem addEntry_safe {s : SpInfo} (h : (∃ rows, Rep s rows) ∨ ∃ rows, Csr s rows) (i j : Nat) :
    Safe (s.addEntry i j) (fun s' => s.compressed = false ∧ ∃ rows, Rep s' rows) := by
  by_cases hi : 0 < i ∧ i ≤ s.nRows
  swap
  · exact Or.inr (Or.inl (by unfold SpInfo.addEntry; rw [if_pos hi]))
  by_cases hj : 0 < j ∧ j ≤ s.nColumns
  swap
  · exact Or.inr (Or.inl (by unfold SpInfo.addEntry; rw [if_neg (by simpa using hi), if_pos hj]))
  rcases h with ⟨rows, h⟩ | ⟨rows, h⟩
  · obtain ⟨r, -, hc⟩ := h.addEntry hi hj
    rcases hc with ⟨-, hc⟩ | ⟨-, -, s', hc, -, -, -, hr⟩ | ⟨-, -, hc⟩
    · exact Or.inl ⟨s, hc, h.unc, rows, h⟩
    · exact Or.inl ⟨s', hc, h.unc, _, hr⟩
    · exact Or.inr (Or.inr hc)
  · refine Or.inr (Or.inl ?_)
    unfold SpInfo.addEntry
    rw [if_neg (by simpa using hi), if_neg (by simpa using hj), if_pos h.comp]

theorem addDiag_safe : ∀ (n i : Nat) (s : SpInfo), (∃ rows, Rep s rows) → Safe (addDiag s i n) (fun s' => ∃ rows, Rep s' rows)
  | 0, _, _, h => Safe.ok h
  | n + 1, i, s, h => by
    unfold addDiag
    exact (addEntry_safe (Or.inl h) i i).bind fun s' h' => addDiag_safe n (i + 1) s' h'.2

theorem addValue_safe [Add K] {s : SpInfo} {l : List K} {rows : List (List Nat)} (h : Csr s rows)
    (hl : l.length = s.numberOfValues) (i j : Nat) (x : K) :
    Safe (SpMat.addValue ⟨s, some l⟩ i j x)
      (fun m => m.si = s ∧ ∃ l', m.values = some l' ∧ l'.length = s.numberOfValues) := by
  by_cases hi : 0 < i ∧ i ≤ s.nRows
  swap
  · refine Or.inr (Or.inl ?_)
    simp only [SpMat.addValue, SpMat.ref, SpInfo.getIndex, if_pos hi, Res.assert_bind]
  by_cases hj : 0 < j ∧ j ≤ s.nColumns
  swap
  · refine Or.inr (Or.inl ?_)
    simp only [SpMat.addValue, SpMat.ref, SpInfo.getIndex, if_neg (not_not.2 hi), if_pos hj, Res.assert_bind]
  obtain ⟨hlt, hc⟩ := h.getIndex hi hj
  rcases hc with ⟨k, hk, -, hg⟩ | ⟨-, hg⟩
  · have hb : offset rows (i - 1) + k < l.length := by
      rw [hl, h.num]
      exact offset_lt_total hlt hk
    refine Or.inl ⟨⟨s, some (l.set (offset rows (i - 1) + k) (l[offset rows (i - 1) + k] + x))⟩, ?_, rfl, _, rfl,
      by rw [List.length_set, hl]⟩
    simp only [SpMat.addValue, SpMat.ref, hg, Res.ok_bind, if_pos hb, Res.read_of_lt hb]
  · refine Or.inr (Or.inr ?_)
    simp only [SpMat.addValue, SpMat.ref, hg, Res.ok_bind, Res.fatal_bind]

theorem zero_eq [Zero K] {s : SpInfo} {l : List K} (hl : l.length = s.numberOfValues) :
    SpMat.zero ⟨s, some l⟩ = .ok ⟨s, some (List.replicate s.numberOfValues 0)⟩ := by
  simp only [SpMat.zero, hl, Nat.le_refl, if_true]
  rw [List.drop_of_length_le (by omega), List.append_nil]

theorem obj_eq {mem : Mem K} {d : Nat} {o : Obj} (h : mem.objs[d]? = some (some o)) : mem.obj d = .ok o := by
  simp only [Mem.obj, h]

theorem block_eq {heap : List (Option (List K))} {b : Nat} {l : List K} (h : heap[b]? = some (some l)) : block heap b = .ok l := by
  simp only [block, h]

/-- The block of the object. -/
def owned (mem : Mem K) (d : Nat) : Option Nat :=
  match mem.objs[d]? with
  | some (some o) => o.values
  | _ => none

theorem owned_eq {mem : Mem K} {d : Nat} {o : Obj} (h : mem.objs[d]? = some (some o)) : owned mem d = o.values := by
  simp only [owned, h]

theorem owned_new (mem : Mem K) : owned mem mem.objs.length = none := by
  simp [owned]

theorem owned_some {mem : Mem K} {d b : Nat} (h : owned mem d = some b) :
    ∃ o, mem.objs[d]? = some (some o) ∧ o.values = some b := by
  unfold owned at h
  split at h
  · exact ⟨_, ‹_›, h⟩
  · exact absurd h (by simp)

theorem view_eq {mem : Mem K} {d k b : Nat} {o : Obj} {s : SpInfo} {l : List K} (h : mem.objs[d]? = some (some o))
    (hk : o.si = some k) (hs : mem.infos[k]? = some s) (hb : o.values = some b) (hl : mem.heap[b]? = some (some l)) :
    mem.view d = .ok ⟨s, some l⟩ := by
  simp only [Mem.view, obj_eq h, Res.ok_bind, hk, hb, Res.read_eq_ok.2 hs, block_eq hl]

theorem view_none {mem : Mem K} {d k : Nat} {o : Obj} {s : SpInfo} (h : mem.objs[d]? = some (some o))
    (hk : o.si = some k) (hs : mem.infos[k]? = some s) (hb : o.values = none) : mem.view d = .ok ⟨s, none⟩ := by
  simp only [Mem.view, obj_eq h, Res.ok_bind, hk, hb, Res.read_eq_ok.2 hs]

/-- One object changes. -/
theorem put {mem mem' : Mem K} {d : Nat} {no : Option Obj} (h : Good mem)
    (hinfo : ∀ s ∈ mem'.infos, (∃ rows, Rep s rows) ∨ ∃ rows, Csr s rows)
    (hlen : mem.infos.length ≤ mem'.infos.length)
    (hkeep : ∀ (k : Nat) (s : SpInfo), mem.infos[k]? = some s → s.compressed = true → mem'.infos[k]? = some s)
    (hobj : ∀ e, e ≠ d → mem'.objs[e]? = mem.objs[e]?)
    (hd : mem'.objs[d]? = some no)
    (hheap : ∀ (b : Nat) (l : List K), some b ≠ owned mem d → mem.heap[b]? = some (some l) → mem'.heap[b]? = some (some l))
    (hsi : ∀ (o : Obj) (k : Nat), no = some o → o.si = some k → k < mem'.infos.length)
    (hval : ∀ (o : Obj) (b : Nat), no = some o → o.values = some b → (some b = owned mem d ∨ mem.heap.length ≤ b) ∧
      ∃ (k : Nat) (s : SpInfo) (l : List K), o.si = some k ∧ mem'.infos[k]? = some s ∧ s.compressed = true ∧
        mem'.heap[b]? = some (some l) ∧ l.length = s.numberOfValues)
    (hlost : ∀ (b : Nat) (l : List K), mem'.heap[b]? = some (some l) →
      (∃ o : Obj, no = some o ∧ o.values = some b) ∨ (some b ≠ owned mem d ∧ ∃ l', mem.heap[b]? = some (some l'))) :
    Good mem' ∧ Kept mem d mem' := by
  have hother : ∀ (e : Nat) (o : Obj) (b : Nat), e ≠ d → mem.objs[e]? = some (some o) → o.values = some b →
      some b ≠ owned mem d := by
    intro e o b he ho hb hown
    obtain ⟨p, hp, hpb⟩ := owned_some hown.symm
    exact he (h.own e d o p b ho hp hb hpb)
  have hkv : ∀ (e : Nat) (o : Obj) (b : Nat), e ≠ d → mem.objs[e]? = some (some o) → o.values = some b →
      ∃ (k : Nat) (s : SpInfo) (l : List K), o.si = some k ∧ mem'.infos[k]? = some s ∧ s.compressed = true ∧
        mem'.heap[b]? = some (some l) ∧ l.length = s.numberOfValues ∧ mem.infos[k]? = some s ∧ mem.heap[b]? = some (some l) := by
    intro e o b he ho hb
    obtain ⟨k, s, l, h1, h2, h3, h4, h5⟩ := h.vals e o b ho hb
    exact ⟨k, s, l, h1, hkeep k s h2 h3, h3, hheap b l (hother e o b he ho hb) h4, h5, h2, h4⟩
  have hnew : ∀ (o : Obj) (e : Nat) (p : Obj) (b : Nat), no = some o → o.values = some b → e ≠ d →
      mem.objs[e]? = some (some p) → p.values = some b → False := by
    intro o e p b ho hb he hp hpb
    rcases (hval o b ho hb).1 with h1 | h1
    · exact hother e p b he hp hpb h1
    · obtain ⟨k, s, l, -, -, -, -, -, -, h4⟩ := hkv e p b he hp hpb
      have := (List.getElem?_eq_some_iff.1 h4).1
      omega
  refine ⟨⟨hinfo, ?_, ?_, ?_, ?_⟩, ?_⟩
  · intro e o k ho hk
    by_cases he : e = d
    · subst he
      rw [hd] at ho
      exact hsi o k (Option.some.inj ho) hk
    · rw [hobj e he] at ho
      exact lt_of_lt_of_le (h.si e o k ho hk) hlen
  · intro e o b ho hb
    by_cases he : e = d
    · subst he
      rw [hd] at ho
      exact (hval o b (Option.some.inj ho) hb).2
    · rw [hobj e he] at ho
      obtain ⟨k, s, l, h1, h2, h3, h4, h5, -⟩ := hkv e o b he ho hb
      exact ⟨k, s, l, h1, h2, h3, h4, h5⟩
  · intro e f o p b ho hp hb hpb
    by_cases he : e = d
    · by_cases hf : f = d
      · rw [he, hf]
      · subst he
        rw [hd] at ho
        rw [hobj f hf] at hp
        exact (hnew o f p b (Option.some.inj ho) hb hf hp hpb).elim
    · by_cases hf : f = d
      · subst hf
        rw [hd] at hp
        rw [hobj e he] at ho
        exact (hnew p e o b (Option.some.inj hp) hpb he ho hb).elim
      · rw [hobj e he] at ho
        rw [hobj f hf] at hp
        exact h.own e f o p b ho hp hb hpb
  · intro b l hl
    rcases hlost b l hl with ⟨o, ho, hb⟩ | ⟨hne, l', hl'⟩
    · exact ⟨d, o, by rw [hd, ho], hb⟩
    · obtain ⟨e, o, ho, hb⟩ := h.lost b l' hl'
      have he : e ≠ d := by
        rintro rfl
        rw [owned_eq ho] at hne
        exact hne hb.symm
      exact ⟨e, o, by rw [hobj e he, ho], hb⟩
  · intro e he
    refine ⟨hobj e he, fun o b ho hb => ?_⟩
    obtain ⟨k, s, l, h1, h2, -, h4, -, h6, h7⟩ := hkv e o b he ho hb
    rw [view_eq (by rw [hobj e he, ho]) h1 h2 hb h4, view_eq ho h1 h6 hb h7]

theorem release_eq {mem : Mem K} (h : Good mem) {d : Nat} {o : Obj} (ho : mem.objs[d]? = some (some o)) :
    ∃ heap, release mem.heap o.values = .ok heap ∧ heap.length = mem.heap.length ∧
      (∀ (b : Nat) (l : List K), some b ≠ owned mem d → mem.heap[b]? = some (some l) → heap[b]? = some (some l)) ∧
      ∀ (b : Nat) (l : List K), heap[b]? = some (some l) → some b ≠ owned mem d ∧ ∃ l', mem.heap[b]? = some (some l') := by
  rw [owned_eq ho]
  cases hb : o.values with
  | none => exact ⟨mem.heap, rfl, rfl, fun _ _ _ h => h, fun b l h => ⟨by simp, l, h⟩⟩
  | some b =>
    obtain ⟨k, s, l, -, -, -, hl, -⟩ := h.vals d o b ho hb
    refine ⟨mem.heap.set b none, ?_, List.length_set, ?_, ?_⟩
    · simp only [release, block_eq hl, Res.ok_bind]
    · intro c m hc hm
      rw [List.getElem?_set_ne (fun e => hc (by rw [e])), hm]
    · intro c m hm
      by_cases hc : b = c
      · subst hc
        rw [List.getElem?_set] at hm
        split at hm <;> simp_all
      · rw [List.getElem?_set_ne hc] at hm
        exact ⟨fun e => hc (Option.some.inj e).symm, m, hm⟩

/-- An object without values gets a pattern that is compressed, or is made so. -/
theorem compress_new [Zero K] {mem : Mem K} (h : Good mem) {k : Nat} (hk : k < mem.infos.length) {d : Nat}
    (hd : owned mem d = none) {objs : List (Option Obj)} (hobj : ∀ e, e ≠ d → objs[e]? = mem.objs[e]?)
    (hnew : objs[d]? = some (some ⟨some k, some mem.heap.length⟩)) :
    ∃ infos heap s, compressObj mem.infos mem.heap ⟨some k, none⟩ = .ok (infos, heap, ⟨some k, some mem.heap.length⟩) ∧
      infos[k]? = some s ∧
      SpMat.compress (K := K) ⟨mem.infos[k], none⟩ = .ok ⟨s, some (List.replicate s.numberOfValues 0)⟩ ∧
      heap[mem.heap.length]? = some (some (List.replicate s.numberOfValues 0)) ∧
      Good ⟨infos, heap, objs⟩ ∧ Kept mem d ⟨infos, heap, objs⟩ := by
  have hex : ∃ s, (if mem.infos[k].compressed then Res.ok mem.infos[k] else mem.infos[k].compress) = .ok s ∧
      (∃ rows, Csr s rows) ∧ (mem.infos[k].compressed = true → s = mem.infos[k]) := by
    rcases h.info _ (List.getElem_mem hk) with ⟨rows, hr⟩ | ⟨rows, hr⟩
    · obtain ⟨s', h1, h2, -⟩ := hr.compress
      exact ⟨s', by rw [hr.unc]; exact h1, ⟨_, h2⟩, fun e => by rw [hr.unc] at e; cases e⟩
    · exact ⟨mem.infos[k], by rw [if_pos hr.comp], ⟨rows, hr⟩, fun _ => rfl⟩
  obtain ⟨s, hs, ⟨rows, hcsr⟩, hsame⟩ := hex
  refine ⟨mem.infos.set k s, mem.heap ++ [some (List.replicate s.numberOfValues 0)], s, ?_,
    by rw [List.getElem?_set_self hk], ?_, by simp, ?_⟩
  · simp only [compressObj, Res.read_of_lt hk, Res.ok_bind, Option.isSome_none, Bool.and_false, Bool.false_eq_true, if_false,
      release]
    by_cases hc : mem.infos[k].compressed = true
    · rw [if_pos hc] at hs ⊢
      rw [Res.ok.inj hs]
    · rw [if_neg hc] at hs ⊢
      rw [hs]
      rfl
  · simp only [SpMat.compress, Option.isSome_none, Bool.and_false, Bool.false_eq_true, if_false, Res.ok_bind]
    by_cases hc : mem.infos[k].compressed = true
    · rw [if_pos hc] at hs ⊢
      rw [Res.ok.inj hs]
    · rw [if_neg hc] at hs ⊢
      rw [hs]
      rfl
  apply put h (no := some ⟨some k, some mem.heap.length⟩)
  · intro t ht
    rcases List.mem_or_eq_of_mem_set ht with ht | rfl
    · exact h.info t ht
    · exact Or.inr ⟨rows, hcsr⟩
  · rw [List.length_set]
  · intro j t hj hc
    by_cases hjk : k = j
    · subst hjk
      rw [List.getElem?_eq_getElem hk] at hj
      have := Option.some.inj hj
      subst this
      rw [List.getElem?_set_self hk, hsame hc]
    · rw [List.getElem?_set_ne hjk, hj]
  · exact hobj
  · exact hnew
  · intro b l _ hl
    rw [List.getElem?_append_left (List.getElem?_eq_some_iff.1 hl).1, hl]
  · intro o j ho hj
    cases ho
    cases hj
    rw [List.length_set]
    exact hk
  · intro o b ho hb
    cases ho
    cases hb
    exact ⟨Or.inr le_rfl, k, s, _, rfl, by rw [List.getElem?_set_self hk], hcsr.comp, by simp; rfl, by simp⟩
  · intro b l hl
    by_cases hb : b < mem.heap.length
    · rw [List.getElem?_append_left hb] at hl
      exact Or.inr ⟨by rw [hd]; simp, l, hl⟩
    · have h2 := (List.getElem?_eq_some_iff.1 hl).1
      rw [List.length_append, List.length_singleton] at h2
      exact Or.inl ⟨_, rfl, by simp; omega⟩


theorem objs_append {mem : Mem K} {o : Option Obj} :
    (∀ e, e ≠ mem.objs.length → (mem.objs ++ [o])[e]? = mem.objs[e]?) ∧ (mem.objs ++ [o])[mem.objs.length]? = some o := by
  refine ⟨fun e he => ?_, by simp⟩
  rcases Nat.lt_or_gt_of_ne he with h | h
  · rw [List.getElem?_append_left h]
  · rw [List.getElem?_eq_none (by simp; omega), List.getElem?_eq_none (by omega)]

theorem objs_set {mem : Mem K} {d : Nat} {p : Option Obj} (hd : mem.objs[d]? = some p) (o : Option Obj) :
    (∀ e, e ≠ d → (mem.objs.set d o)[e]? = mem.objs[e]?) ∧ (mem.objs.set d o)[d]? = some o :=
  ⟨fun _ he => List.getElem?_set_ne (Ne.symm he), List.getElem?_set_self (List.getElem?_eq_some_iff.1 hd).1⟩

/-- Infos grow by a fresh pattern. -/
theorem infos_append {mem : Mem K} (h : Good mem) {s : SpInfo} (hs : ∃ rows, Rep s rows) :
    (∀ t ∈ mem.infos ++ [s], (∃ rows, Rep t rows) ∨ ∃ rows, Csr t rows) ∧ mem.infos.length ≤ (mem.infos ++ [s]).length ∧
      ∀ (k : Nat) (t : SpInfo), mem.infos[k]? = some t → t.compressed = true → (mem.infos ++ [s])[k]? = some t := by
  refine ⟨fun t ht => ?_, by simp, fun k t ht _ => ?_⟩
  · rcases List.mem_append.1 ht with ht | ht
    · exact h.info t ht
    · rw [List.mem_singleton] at ht
      subst ht
      exact Or.inl hs
  · rw [List.getElem?_append_left (List.getElem?_eq_some_iff.1 ht).1, ht]

theorem setInfo_safe [Zero K] {mem : Mem K} (h : Good mem) {d : Nat} (hd : owned mem d = none) (q si : Option Nat)
    (hsi : ∀ k, si = some k → k < mem.infos.length) {objs : Obj → List (Option Obj)}
    (hobj : ∀ o e, e ≠ d → (objs o)[e]? = mem.objs[e]?) (hnew : ∀ o, (objs o)[d]? = some (some o)) :
    Safe (setInfo mem.infos mem.heap ⟨q, none⟩ si) (fun r => r.2.2.si = si ∧ (∃ k s, si = some k ∧ r.1[k]? = some s) ∧
      Good ⟨r.1, r.2.1, objs r.2.2⟩ ∧ Kept mem d ⟨r.1, r.2.1, objs r.2.2⟩) := by
  cases si with
  | none => exact Safe.assert
  | some k =>
    have hk := hsi k rfl
    simp only [setInfo, Res.read_of_lt hk, Res.ok_bind]
    split
    · obtain ⟨infos, heap, s, h1, h2, -, -, h3, h4⟩ := compress_new h hk hd (hobj _) (hnew _)
      rw [h1]
      exact Safe.ok ⟨rfl, ⟨k, s, rfl, h2⟩, h3, h4⟩
    · refine Safe.ok ⟨rfl, ⟨k, _, rfl, List.getElem?_eq_getElem hk⟩, ?_⟩
      refine put h h.info le_rfl (fun _ _ h _ => h) (hobj _) (hnew _) (fun _ _ _ h => h) ?_ ?_ ?_
      · intro o j ho hj
        cases ho
        cases hj
        exact hk
      · intro o b ho hb
        cases ho
        cases hb
      · intro b l hl
        exact Or.inr ⟨by rw [hd]; simp, l, hl⟩

theorem onValues_safe {mem : Mem K} (h : Good mem) {d : Nat} {o : Obj} (ho : mem.objs[d]? = some (some o))
    {f : SpMat K → Res (SpMat K)}
    (hf : ∀ (s : SpInfo) (rows : List (List Nat)) (l : List K), Csr s rows → l.length = s.numberOfValues →
      Safe (f ⟨s, some l⟩) (fun m => m.si = s ∧ ∃ l', m.values = some l' ∧ l'.length = s.numberOfValues)) :
    Safe (mem.onValues d f) (fun mem' => Good mem' ∧ Kept mem d mem') := by
  simp only [Mem.onValues, obj_eq ho, Res.ok_bind]
  cases hk : o.si with
  | none => exact Safe.assert
  | some k =>
    have hlt := h.si d o k ho hk
    simp only [Res.read_of_lt hlt, Res.ok_bind]
    cases hb : o.values with
    | none => exact Safe.assert
    | some b =>
      obtain ⟨k', s, l, h1, h2, h3, h4, h5⟩ := h.vals d o b ho hb
      rw [hk] at h1
      cases h1
      rw [List.getElem?_eq_getElem hlt] at h2
      have h2 := Option.some.inj h2
      have hcsr : ∃ rows, Csr s rows := by
        rcases h.info _ (List.getElem_mem hlt) with ⟨rows, hr⟩ | hr
        · rw [h2] at hr
          rw [hr.unc] at h3
          cases h3
        · rwa [h2] at hr
      obtain ⟨rows, hcsr⟩ := hcsr
      simp only [block_eq h4, Res.ok_bind, h2]
      refine (hf s rows l hcsr h5).bind fun m hm => ?_
      obtain ⟨-, l', hl', hlen⟩ := hm
      simp only [hl']
      have hblt := (List.getElem?_eq_some_iff.1 h4).1
      apply Safe.ok
      refine put h (no := some o) h.info le_rfl (fun _ _ h _ => h) (fun _ _ => rfl) ho ?_ ?_ ?_ ?_
      · intro c m hc hm
        rw [owned_eq ho, hb] at hc
        show (mem.heap.set b (some l'))[c]? = _
        rw [List.getElem?_set_ne (fun e => hc (by rw [e])), hm]
      · intro p j hp hj
        cases hp
        exact h.si d o j ho hj
      · intro p c hp hc
        cases hp
        rw [hb] at hc
        cases hc
        exact ⟨Or.inl (by rw [owned_eq ho, hb]), k, s, l', hk, by rw [List.getElem?_eq_getElem hlt, h2], h3,
          List.getElem?_set_self hblt, hlen⟩
      · intro c m hm
        by_cases hc : b = c
        · exact Or.inl ⟨o, rfl, by rw [hb, hc]⟩
        · refine Or.inr ⟨?_, m, ?_⟩
          · rw [owned_eq ho, hb]
            exact fun e => hc (Option.some.inj e).symm
          · rw [← List.getElem?_set_ne hc]
            exact hm

/-- One statement. -/
theorem step_safe [Zero K] [Add K] {mem : Mem K} (h : Good mem) (c : Cmd K) (hc : Legal mem c) :
    Safe (mem.step c) (fun mem' => Good mem' ∧ Kept mem (subject mem c) mem') := by
  cases c with
  | empty =>
    apply Safe.ok
    refine put h h.info le_rfl (fun _ _ h _ => h) objs_append.1 objs_append.2 (fun _ _ _ h => h) ?_ ?_ ?_
    · intro o k ho hk
      cases ho
      cases hk
    · intro o b ho hb
      cases ho
      cases hb
    · intro b l hl
      refine Or.inr ⟨?_, l, hl⟩
      show some b ≠ owned mem mem.objs.length
      rw [owned_new]
      simp
  | new sym n m mx =>
    have key : ∀ s, (∃ rows, Rep s rows) → Safe (Res.ok (⟨mem.infos ++ [s], mem.heap,
        mem.objs ++ [some ⟨some mem.infos.length, none⟩]⟩ : Mem K))
        (fun mem' => Good mem' ∧ Kept mem mem.objs.length mem') := by
      intro s hs
      obtain ⟨g1, g2, g3⟩ := infos_append h hs
      apply Safe.ok
      refine put h g1 g2 g3 objs_append.1 objs_append.2 (fun _ _ _ h => h) ?_ ?_ ?_
      · intro o k ho hk
        cases ho
        cases hk
        simp
      · intro o b ho hb
        cases ho
        cases hb
      · intro b l hl
        exact Or.inr ⟨by rw [owned_new]; simp, l, hl⟩
    simp only [Mem.step, subject]
    refine (init_safe hc).bind fun s hs => ?_
    cases sym with
    | false => exact key s hs
    | true => exact (addDiag_safe _ _ _ hs).bind fun t ht => key t ht
  | share sym s =>
    obtain ⟨o, ho⟩ := hc
    simp only [Mem.step, subject, obj_eq ho, Res.ok_bind]
    refine (setInfo_safe h (owned_new mem) none o.si (fun k hk => h.si s o k ho hk)
      (objs := fun o => mem.objs ++ [some o]) (fun _ => objs_append.1) (fun _ => objs_append.2)).bind ?_
    rintro ⟨infos, heap, p⟩ ⟨h1, ⟨k, t, h2, h3⟩, h4⟩
    simp only at h1 h3 h4 ⊢
    rw [h1, h2]
    simp only [Res.read_eq_ok.2 h3, Res.ok_bind]
    split
    · exact Safe.assert
    · exact Safe.ok h4
  | set d s =>
    obtain ⟨⟨q, hd⟩, p, hp⟩ := hc
    simp only [Mem.step, subject, obj_eq hd, obj_eq hp, Res.ok_bind]
    refine (setInfo_safe h (owned_eq hd) q p.si (fun k hk => h.si s p k hp hk)
      (objs := fun o => mem.objs.set d (some o)) (fun _ => (objs_set hd _).1) (fun _ => (objs_set hd _).2)).bind ?_
    rintro ⟨infos, heap, o⟩ ⟨-, -, h4⟩
    exact Safe.ok h4
  | reinit d n m mx =>
    obtain ⟨⟨o, ho⟩, hm⟩ := hc
    simp only [Mem.step, subject, obj_eq ho, Res.ok_bind]
    refine (init_safe hm).bind fun s hs => ?_
    obtain ⟨heap, h1, h2, h3, h4⟩ := release_eq h ho
    rw [h1, Res.ok_bind]
    obtain ⟨g1, g2, g3⟩ := infos_append h hs
    apply Safe.ok
    refine put h g1 g2 g3 (objs_set ho _).1 (objs_set ho _).2 h3 ?_ ?_ ?_
    · intro o k ho hk
      cases ho
      cases hk
      simp
    · intro o b ho hb
      cases ho
      cases hb
    · exact fun b l hl => Or.inr (h4 b l hl)
  | addEntry sym d i j =>
    obtain ⟨o, ho⟩ := hc
    simp only [Mem.step, subject, obj_eq ho, Res.ok_bind]
    cases hk : o.si with
    | none => exact Safe.assert
    | some k =>
      have hlt := h.si d o k ho hk
      simp only [Res.read_of_lt hlt, Res.ok_bind]
      have hadd : Safe (addEntryInfo sym mem.infos[k] i j)
          (fun s' => mem.infos[k].compressed = false ∧ ∃ rows, Rep s' rows) := by
        unfold addEntryInfo
        split <;> exact addEntry_safe (h.info _ (List.getElem_mem hlt)) _ _
      refine hadd.bind ?_
      rintro s' ⟨hunc, hr⟩
      apply Safe.ok
      have hk' : ∀ (j : Nat) (s : SpInfo), mem.infos[j]? = some s → s.compressed = true → (mem.infos.set k s')[j]? = some s := by
        intro j s hj hs
        by_cases hjk : k = j
        · subst hjk
          rw [List.getElem?_eq_getElem hlt] at hj
          rw [← Option.some.inj hj, hunc] at hs
          cases hs
        · rw [List.getElem?_set_ne hjk, hj]
      refine put h (no := some o) ?_ (by rw [List.length_set]) hk' (fun _ _ => rfl) ho (fun _ _ _ h => h) ?_ ?_ ?_
      · intro t ht
        rcases List.mem_or_eq_of_mem_set ht with ht | rfl
        · exact h.info t ht
        · exact Or.inl hr
      · intro p j hp hj
        cases hp
        show j < (mem.infos.set k s').length
        rw [List.length_set]
        exact h.si d o j ho hj
      · intro p b hp hb
        cases hp
        obtain ⟨k, s, l, h1, h2, h3, h4⟩ := h.vals d o b ho hb
        exact ⟨Or.inl (by rw [owned_eq ho, hb]), k, s, l, h1, hk' k s h2 h3, h3, h4⟩
      · intro b l hl
        by_cases hb : o.values = some b
        · exact Or.inl ⟨o, rfl, hb⟩
        · exact Or.inr ⟨by rw [owned_eq ho]; exact fun e => hb e.symm, l, hl⟩
  | compress d =>
    obtain ⟨o, ho⟩ := hc
    simp only [Mem.step, subject, obj_eq ho, Res.ok_bind]
    obtain ⟨si, values⟩ := o
    cases si with
    | none => exact Safe.assert
    | some k =>
      have hlt := h.si d _ k ho rfl
      cases values with
      | none =>
        obtain ⟨infos, heap, s, h1, h2, -, -, h3, h4⟩ := compress_new h hlt (owned_eq ho)
          (objs_set ho (some ⟨some k, some mem.heap.length⟩)).1 (objs_set ho _).2
        rw [h1]
        exact Safe.ok ⟨h3, h4⟩
      | some b =>
        obtain ⟨k', s, l, h1, h2, h3, h4, h5⟩ := h.vals d _ b ho rfl
        cases h1
        have hs : mem.objs.set d (some ⟨some k, some b⟩) = mem.objs := by
          apply List.ext_getElem?
          intro e
          by_cases he : e = d
          · subst he
            rw [(objs_set ho _).2, ho]
          · rw [(objs_set ho _).1 e he]
        simp only [compressObj, Res.read_eq_ok.2 h2, Res.ok_bind, h3, Option.isSome_some, Bool.and_true, if_true, hs]
        exact Safe.ok ⟨h, fun e _ => ⟨rfl, fun _ _ _ _ => rfl⟩⟩
  | zero d =>
    obtain ⟨o, ho⟩ := hc
    exact onValues_safe h ho fun s rows l hcsr hl => Or.inl ⟨_, zero_eq hl, rfl, _, rfl, by simp⟩
  | addValue sym d i j x =>
    obtain ⟨o, ho⟩ := hc
    refine onValues_safe h ho fun s rows l hcsr hl => ?_
    unfold addValueMat SpMat.addValueSym
    split
    · split <;> exact addValue_safe hcsr hl _ _ x
    · exact addValue_safe hcsr hl _ _ x
  | destroy d =>
    obtain ⟨o, ho⟩ := hc
    simp only [Mem.step, subject, obj_eq ho, Res.ok_bind]
    obtain ⟨heap, h1, h2, h3, h4⟩ := release_eq h ho
    rw [h1, Res.ok_bind]
    apply Safe.ok
    refine put h h.info le_rfl (fun _ _ h _ => h) (objs_set ho _).1 (objs_set ho _).2 h3 ?_ ?_ ?_
    · intro o k ho hk
      cases ho
    · intro o b ho hb
      cases ho
    · exact fun b l hl => Or.inr (h4 b l hl)
  | copy s => exact hc.elim


/-! ## Theorems -/

theorem run_safe [Zero K] [Add K] : ∀ (cs : List (Cmd K)) (mem : Mem K), Good mem → LegalRun mem cs → Safe (mem.run cs) Good
  | [], _, h, _ => Safe.ok h
  | c :: cs, mem, h, hl => by
    simp only [Mem.run, Res.foldlM'_cons]
    rcases step_safe h c hl.1 with ⟨mem', h1, h2, -⟩ | h1 | h1
    · rw [h1]
      exact run_safe cs mem' h2 (hl.2 mem' h1)
    · rw [h1]
      exact Safe.assert
    · rw [h1]
      exact Or.inr (Or.inr rfl)

theorem good_start : Good (⟨[], [], []⟩ : Mem K) := by
  constructor <;> simp

/-- C124, a program that copies no matrix and gives patterns only to matrices without values: it follows no dangling pointer, frees
nothing twice and touches nothing outside of an array, whatever matrices share which patterns in whatever order; and when its
matrices are gone all values are freed.

Full statement: for every program. Missing: the two cases of `C124_set_violated` and `C124_copy_violated`, where it is false. -/
theorem C124_safe_partial [Zero K] [Add K] (cs : List (Cmd K)) (hl : LegalRun ⟨[], [], []⟩ cs) :
    Mem.run ⟨[], [], []⟩ cs ≠ .ub ∧
    ∀ mem, Mem.run ⟨[], [], []⟩ cs = .ok mem →
      (∀ d m, mem.view d = .ok m → ∀ l, m.values = some l → m.si.compressed = true ∧ l.length = m.si.numberOfValues) ∧
      ((∀ d, ¬ Live mem d) → ∀ (b : Nat) (l : List K), mem.heap[b]? ≠ some (some l)) := by
  have key := run_safe cs _ good_start hl
  refine ⟨fun hu => ?_, fun mem hm => ?_⟩
  · rw [hu] at key
    rcases key with ⟨_, h, -⟩ | h | h <;> cases h
  · rw [hm] at key
    have hg : Good mem := by
      rcases key with ⟨a, h, hg⟩ | h | h
      · rw [Res.ok.inj h]
        exact hg
      · cases h
      · cases h
    refine ⟨fun d m hv l hl => ?_, fun hd b l hb => ?_⟩
    · cases ho : mem.objs[d]? with
      | none => simp [Mem.view, Mem.obj, ho] at hv
      | some p =>
        cases p with
        | none => simp [Mem.view, Mem.obj, ho] at hv
        | some o =>
          cases hb : o.values with
          | none =>
            cases hk : o.si with
            | none => simp [Mem.view, obj_eq ho, hk] at hv
            | some k =>
              rw [view_none ho hk (List.getElem?_eq_getElem (hg.si d o k ho hk)) hb] at hv
              rw [← Res.ok.inj hv] at hl
              cases hl
          | some b =>
            obtain ⟨k, s, l', h1, h2, h3, h4, h5⟩ := hg.vals d o b ho hb
            rw [view_eq ho h1 h2 hb h4] at hv
            rw [← Res.ok.inj hv] at hl ⊢
            rw [← Option.some.inj hl]
            exact ⟨h3, h5⟩
    · obtain ⟨d, o, ho, -⟩ := hg.lost b l hb
      exact hd d ⟨o, ho⟩

/-- C124, other matrices: a statement about one matrix leaves the pattern and the numbers of every other matrix that has values, also
of those that share its pattern, as they were. -/
theorem C124_own [Zero K] [Add K] {mem mem' : Mem K} (h : Good mem) {c : Cmd K} (hc : Legal mem c) (hs : mem.step c = .ok mem')
    {e : Nat} (he : e ≠ subject mem c) {m : SpMat K} (hv : mem.view e = .ok m) (hm : m.values ≠ none) :
    Good mem' ∧ mem'.view e = .ok m := by
  have key := step_safe h c hc
  rw [hs] at key
  rcases key with ⟨a, h1, h2, h3⟩ | h1 | h1
  · rw [Res.ok.inj h1]
    refine ⟨h2, ?_⟩
    have hx : ∃ o b, mem.objs[e]? = some (some o) ∧ o.values = some b := by
      cases ho : mem.objs[e]? with
      | none => simp [Mem.view, Mem.obj, ho] at hv
      | some p =>
        cases p with
        | none => simp [Mem.view, Mem.obj, ho] at hv
        | some o =>
          cases hb : o.values with
          | some b => exact ⟨o, b, rfl, hb⟩
          | none =>
            cases hk : o.si with
            | none => simp [Mem.view, obj_eq ho, hk] at hv
            | some k =>
              rw [view_none ho hk (List.getElem?_eq_getElem (h.si e o k ho hk)) hb] at hv
              exact absurd (by rw [← Res.ok.inj hv]) hm
    obtain ⟨o, b, ho, hb⟩ := hx
    rw [(h3 e he).2 o b ho hb, hv]
  · cases h1
  · cases h1

/-- What an object is, seen through its pointers. -/
theorem view_cases {mem : Mem K} (h : Good mem) {d : Nat} {m : SpMat K} (hv : mem.view d = .ok m) :
    ∃ (o : Obj) (k : Nat), mem.objs[d]? = some (some o) ∧ o.si = some k ∧ mem.infos[k]? = some m.si ∧
      ((o.values = none ∧ m.values = none) ∨
        ∃ b l, o.values = some b ∧ m.values = some l ∧ mem.heap[b]? = some (some l) ∧ m.si.compressed = true ∧
          l.length = m.si.numberOfValues) := by
  cases ho : mem.objs[d]? with
  | none => simp [Mem.view, Mem.obj, ho] at hv
  | some p =>
    cases p with
    | none => simp [Mem.view, Mem.obj, ho] at hv
    | some o =>
      cases hb : o.values with
      | none =>
        cases hk : o.si with
        | none => simp [Mem.view, obj_eq ho, hk] at hv
        | some k =>
          have hlt := h.si d o k ho hk
          rw [view_none ho hk (List.getElem?_eq_getElem hlt) hb] at hv
          rw [← Res.ok.inj hv]
          exact ⟨o, k, rfl, hk, List.getElem?_eq_getElem hlt, Or.inl ⟨hb, rfl⟩⟩
      | some b =>
        obtain ⟨k, s, l', h1, h2, h3, h4, h5⟩ := h.vals d o b ho hb
        rw [view_eq ho h1 h2 hb h4] at hv
        rw [← Res.ok.inj hv]
        exact ⟨o, k, rfl, h1, h2, Or.inr ⟨b, l', hb, rfl, h4, h3, h5⟩⟩

theorem onValues_view {mem : Mem K} (h : Good mem) {d : Nat} {m : SpMat K} (hv : mem.view d = .ok m)
    {f : SpMat K → Res (SpMat K)} (hn : ∀ s, f ⟨s, none⟩ = .assert)
    (hf : ∀ s l m', f ⟨s, some l⟩ = .ok m' → m'.si = s ∧ m'.values ≠ none) :
    (mem.onValues d f >>= fun mem' => mem'.view d) = f m := by
  obtain ⟨o, k, ho, hk, hs, hc⟩ := view_cases h hv
  obtain ⟨s, vals⟩ := m
  simp only at hs hc
  rcases hc with ⟨hb, rfl⟩ | ⟨b, l, hb, rfl, hl, -, -⟩
  · simp only [Mem.onValues, obj_eq ho, Res.ok_bind, hk, hb, Res.read_eq_ok.2 hs, hn, Res.assert_bind]
  · simp only [Mem.onValues, obj_eq ho, Res.ok_bind, hk, hb, Res.read_eq_ok.2 hs, block_eq hl]
    cases hr : f ⟨s, some l⟩ with
    | ok m' =>
      obtain ⟨h1, h2⟩ := hf s l m' hr
      obtain ⟨s', vals'⟩ := m'
      cases vals' with
      | none => exact absurd rfl h2
      | some l' =>
        simp only at h1
        subst h1
        simp only [Res.ok_bind]
        exact view_eq (mem := { mem with heap := mem.heap.set b (some l') }) ho hk hs hb
          (List.getElem?_set_self (List.getElem?_eq_some_iff.1 hl).1)
    | fatal => rfl
    | assert => rfl
    | ub => rfl

theorem addValue_shape [Add K] (s : SpInfo) (l : List K) (i j : Nat) (x : K) (m' : SpMat K)
    (h : SpMat.addValue ⟨s, some l⟩ i j x = .ok m') : m'.si = s ∧ m'.values ≠ none := by
  simp only [SpMat.addValue] at h
  obtain ⟨k, -, h⟩ := Res.bind_eq_ok.1 h
  obtain ⟨old, -, h⟩ := Res.bind_eq_ok.1 h
  rw [← Res.ok.inj h]
  exact ⟨rfl, by simp⟩

/-- C124, the matrix itself: through its pointers the methods do to a matrix what they do to a matrix that shares nothing
(the model of C01-C07). -/
theorem C124_refines [Zero K] [Add K] {mem : Mem K} (h : Good mem) {d : Nat} {m : SpMat K} (hv : mem.view d = .ok m) :
    (∀ sym i j, (mem.step (.addEntry sym d i j) >>= fun mem' => mem'.view d) = if sym then m.addEntrySym i j else m.addEntry i j) ∧
    (mem.step (.compress d) >>= fun mem' => mem'.view d) = m.compress ∧
    (mem.step (.zero d) >>= fun mem' => mem'.view d) = m.zero ∧
    ∀ sym i j x, (mem.step (.addValue sym d i j x) >>= fun mem' => mem'.view d) =
      if sym then m.addValueSym i j x else m.addValue i j x := by
  refine ⟨?_, ?_, ?_, ?_⟩
  · intro sym i j
    obtain ⟨o, k, ho, hk, hs, hc⟩ := view_cases h hv
    obtain ⟨s, vals⟩ := m
    simp only at hs hc
    have hr : (if sym then SpMat.addEntrySym ⟨s, vals⟩ i j else SpMat.addEntry ⟨s, vals⟩ i j) =
        (addEntryInfo sym s i j >>= fun s' => Res.ok ⟨s', vals⟩) := by
      unfold addEntryInfo SpMat.addEntrySym SpMat.addEntry
      cases sym <;> simp <;> split <;> rfl
    rw [hr]
    simp only [Mem.step, obj_eq ho, Res.ok_bind, hk, Res.read_eq_ok.2 hs]
    cases ha : addEntryInfo sym s i j with
    | ok s' =>
      simp only [Res.ok_bind]
      have hs' : (mem.infos.set k s')[k]? = some s' := List.getElem?_set_self (List.getElem?_eq_some_iff.1 hs).1
      rcases hc with ⟨hb, rfl⟩ | ⟨b, l, hb, rfl, hl, hcomp, -⟩
      · exact view_none (mem := { mem with infos := mem.infos.set k s' }) ho hk hs' hb
      · exact view_eq (mem := { mem with infos := mem.infos.set k s' }) ho hk hs' hb hl
    | fatal => rfl
    | assert => rfl
    | ub => rfl
  · obtain ⟨o, k, ho, hk, hs, hc⟩ := view_cases h hv
    obtain ⟨s, vals⟩ := m
    simp only at hs hc
    obtain ⟨si, values⟩ := o
    simp only at hk hc
    subst hk
    have hlt := (List.getElem?_eq_some_iff.1 hs).1
    rcases hc with ⟨rfl, rfl⟩ | ⟨b, l, rfl, rfl, hl, hcomp, -⟩
    · obtain ⟨infos, heap, t, h1, h2, h3, h4, -⟩ := compress_new h hlt (owned_eq ho)
        (objs_set ho (some ⟨some k, some mem.heap.length⟩)).1 (objs_set ho _).2
      rw [(List.getElem?_eq_some_iff.1 hs).2] at h3
      simp only [Mem.step, obj_eq ho, Res.ok_bind, h1, h3]
      exact view_eq (mem := ⟨infos, heap, _⟩) (objs_set ho _).2 rfl h2 rfl h4
    · simp only [Mem.step, obj_eq ho, Res.ok_bind, compressObj, Res.read_eq_ok.2 hs, hcomp, Option.isSome_some, Bool.and_true,
        if_true, SpMat.compress]
      exact view_eq (mem := ⟨mem.infos, mem.heap, _⟩) (objs_set ho _).2 rfl hs rfl hl
  · exact onValues_view h hv (fun _ => rfl) fun s l m' hm => by
      simp only [SpMat.zero] at hm
      split at hm
      · rw [← Res.ok.inj hm]
        exact ⟨rfl, by simp⟩
      · cases hm
  · intro sym i j x
    have hr : (if sym then m.addValueSym i j x else m.addValue i j x) = addValueMat sym i j x m := rfl
    rw [hr]
    refine onValues_view h hv (fun s => ?_) (fun s l m' hm => ?_)
    · unfold addValueMat SpMat.addValueSym SpMat.addValue
      cases sym <;> simp
    · unfold addValueMat SpMat.addValueSym at hm
      split at hm
      · split at hm <;> exact addValue_shape _ _ _ _ _ _ hm
      · exact addValue_shape _ _ _ _ _ _ hm

/-- C124, sharing: a matrix made from the pattern of another has that pattern and, if the pattern is compressed, zero for every
entry; the other matrix is not changed. -/
theorem C124_share [Zero K] [Add K] {mem : Mem K} (h : Good mem) {s : Nat} {m : SpMat K} (hv : mem.view s = .ok m) :
    ∃ mem', mem.step (.share false s) = .ok mem' ∧ Good mem' ∧ mem'.view s = .ok m ∧
      mem'.view mem.objs.length =
        .ok ⟨m.si, if m.si.compressed then some (List.replicate m.si.numberOfValues 0) else none⟩ := by
  obtain ⟨o, k, ho, hk, hs, hc⟩ := view_cases h hv
  have hlt := (List.getElem?_eq_some_iff.1 hs).1
  have hget := (List.getElem?_eq_some_iff.1 hs).2
  have hsl := (List.getElem?_eq_some_iff.1 ho).1
  have hg := step_safe h (.share false s) ⟨o, ho⟩
  have hall : ∃ mem', mem.step (.share false s) = .ok mem' ∧ mem'.infos[k]? = some m.si ∧
      mem'.objs = mem.objs ++ [some ⟨some k, if m.si.compressed then some mem.heap.length else none⟩] ∧
      (∃ t, mem'.heap = mem.heap ++ t) ∧
      (m.si.compressed = true → mem'.heap[mem.heap.length]? = some (some (List.replicate m.si.numberOfValues 0))) := by
    by_cases hcomp : m.si.compressed = true
    · refine ⟨⟨mem.infos.set k m.si, mem.heap ++ [some (List.replicate m.si.numberOfValues 0)],
        mem.objs ++ [some ⟨some k, some mem.heap.length⟩]⟩, ?_, List.getElem?_set_self hlt, by rw [if_pos hcomp], ⟨_, rfl⟩,
        fun _ => by simp⟩
      simp only [Mem.step, obj_eq ho, Res.ok_bind, hk, setInfo, Res.read_eq_ok.2 hs, hcomp, if_true, compressObj,
        Option.isSome_none, Bool.and_false, Bool.false_eq_true, if_false, release, Res.read_eq_ok.2 (List.getElem?_set_self hlt),
        Bool.false_and]
    · refine ⟨⟨mem.infos, mem.heap, mem.objs ++ [some ⟨some k, none⟩]⟩, ?_, hs, by rw [if_neg hcomp], ⟨[], by simp⟩,
        fun e => absurd e hcomp⟩
      simp only [Mem.step, obj_eq ho, Res.ok_bind, hk, setInfo, Res.read_eq_ok.2 hs, hcomp, if_false, Bool.false_and,
        Bool.false_eq_true]
  obtain ⟨mem', h1, h2, h3, ⟨t, h4⟩, h5⟩ := hall
  refine ⟨mem', h1, ?_, ?_, ?_⟩
  · rw [h1] at hg
    rcases hg with ⟨a, ha, hg, -⟩ | ha | ha
    · rw [Res.ok.inj ha]
      exact hg
    · cases ha
    · cases ha
  · have ho' : mem'.objs[s]? = some (some o) := by rw [h3, List.getElem?_append_left hsl, ho]
    obtain ⟨ms, mv⟩ := m
    simp only at h2 hc
    rcases hc with ⟨hb, rfl⟩ | ⟨b, l, hb, rfl, hl, -, -⟩
    · exact view_none ho' hk h2 hb
    · exact view_eq ho' hk h2 hb (by rw [h4, List.getElem?_append_left (List.getElem?_eq_some_iff.1 hl).1, hl])
  · have ho' : mem'.objs[mem.objs.length]? = some (some ⟨some k, if m.si.compressed then some mem.heap.length else none⟩) := by
      rw [h3]
      simp
    by_cases hcomp : m.si.compressed = true
    · rw [if_pos hcomp] at ho' ⊢
      exact view_eq ho' rfl h2 rfl (h5 hcomp)
    · rw [if_neg hcomp] at ho' ⊢
      exact view_none ho' rfl h2 rfl

/-! ## Violations -/

/-- Two matrices of their own, one with one entry, the other with two; the pattern of the second is given to the first. -/
def setProgram : List (Cmd Int) :=
  [.new false 2 2 2, .addEntry false 0 1 1, .compress 0, .new false 2 2 2, .addEntry false 1 1 1, .addEntry false 1 2 2, .compress 1,
   .set 0 1]

/-- C124 is false for `setSparsityInfo` on a matrix that has values: they are kept, though the new pattern has more entries, and
`zero` then writes behind the array. -/
theorem C124_set_violated : (∃ mem, Mem.run ⟨[], [], []⟩ setProgram = .ok mem ∧
      mem.view 0 = .ok ⟨⟨2, 2, 2, 2, [1, 2], [1, 2, 3], true⟩, some [0]⟩) ∧
    Mem.run ⟨[], [], []⟩ (setProgram ++ [.zero 0]) = .ub ∧
    Mem.run ⟨[], [], []⟩ (setProgram ++ [.addValue false 0 2 2 5]) = .ub := by
  refine ⟨⟨⟨[⟨2, 2, 2, 1, [1], [1, 2, 2], true⟩, ⟨2, 2, 2, 2, [1, 2], [1, 2, 3], true⟩], [some [0], some [0, 0]],
    [some ⟨some 1, some 0⟩, some ⟨some 1, some 1⟩]⟩, ?_, rfl⟩, ?_, ?_⟩
  · decide +kernel
  · decide +kernel
  · decide +kernel

/-- C124 is false for a copied matrix: both objects own the same array, and the second destructor frees it again. -/
theorem C124_copy_violated :
    Mem.run (K := Int) ⟨[], [], []⟩ [.new false 1 1 1, .addEntry false 0 1 1, .compress 0, .copy 0, .destroy 1, .destroy 0] = .ub := by
  decide +kernel

/-! ## The hypotheses are met -/

theorem LegalRun.cons [Zero K] [Add K] {mem mem' : Mem K} {c : Cmd K} {cs : List (Cmd K)} (h : Legal mem c)
    (hs : mem.step c = .ok mem') (hr : LegalRun mem' cs) : LegalRun mem (c :: cs) :=
  ⟨h, fun m hm => by rw [hs] at hm; rwa [← Res.ok.inj hm]⟩

/-- Three matrices with one pattern: shared before it has entries, compressed through the second, and shared again afterwards; the
first gets a pattern of its own and is destroyed. -/
def shareProgram : List (Cmd Int) :=
  [.new false 2 2 2, .share false 0, .addEntry false 0 1 2, .compress 1, .compress 0, .empty, .set 2 1, .share true 0, .reinit 0 3 3 2,
   .destroy 0, .zero 1, .addValue false 1 1 2 7]

example : LegalRun ⟨[], [], []⟩ shareProgram := by
  refine .cons (by show 2 < invalid; decide) rfl <| .cons ⟨_, rfl⟩ rfl <| .cons ⟨_, rfl⟩ rfl <| .cons ⟨_, rfl⟩ rfl <|
    .cons ⟨_, rfl⟩ rfl <| .cons trivial rfl <| .cons ⟨⟨_, rfl⟩, ⟨_, rfl⟩⟩ rfl <| .cons ⟨_, rfl⟩ rfl <|
    .cons ⟨⟨_, rfl⟩, by decide⟩ rfl <| .cons ⟨_, rfl⟩ rfl <| .cons ⟨_, rfl⟩ rfl <| ⟨⟨_, rfl⟩, fun _ _ => trivial⟩

/-- At its end the second matrix has the number, the other two that share the pattern have zero. -/
example : (Mem.run ⟨[], [], []⟩ shareProgram >>= fun mem => mem.view 1) =
      .ok ⟨⟨2, 2, 2, 1, [2], [1, 2, 2], true⟩, some [7]⟩ ∧
    (Mem.run ⟨[], [], []⟩ shareProgram >>= fun mem => mem.view 2) = .ok ⟨⟨2, 2, 2, 1, [2], [1, 2, 2], true⟩, some [0]⟩ ∧
    (Mem.run ⟨[], [], []⟩ shareProgram >>= fun mem => mem.view 3) = .ok ⟨⟨2, 2, 2, 1, [2], [1, 2, 2], true⟩, some [0]⟩ := by
  decide +kernel

/-- A program that destroys what it made. -/
example : ∃ mem : Mem Int, Mem.run ⟨[], [], []⟩ [.new false 2 2 2, .compress 0, .share false 0, .destroy 0, .destroy 1] = .ok mem ∧
    mem.heap.length = 2 ∧ ∀ d, ¬ Live mem d := by
  refine ⟨⟨[⟨2, 2, 2, 0, [], [1, 1, 1], true⟩], [none, none], [none, none]⟩, by decide +kernel, rfl, ?_⟩
  rintro d ⟨o, ho⟩
  rcases d with - | - | d <;> simp at ho

/-- A good state with two matrices that share a pattern, one of them with values. -/
example : ∃ mem : Mem Int, Good mem ∧ mem.view 0 = .ok ⟨⟨2, 2, 2, 1, [2], [1, 2, 2], true⟩, some [0]⟩ ∧
    mem.view 1 = .ok ⟨⟨2, 2, 2, 1, [2], [1, 2, 2], true⟩, none⟩ ∧ Legal mem (.addValue false 0 1 2 7) ∧ Legal mem (.compress 1) := by
  have hl : LegalRun (K := Int) ⟨[], [], []⟩ [.new false 2 2 2, .share false 0, .addEntry false 0 1 2, .compress 0] :=
    .cons (by show 2 < invalid; decide) rfl <| .cons ⟨_, rfl⟩ rfl <| .cons ⟨_, rfl⟩ rfl <| ⟨⟨_, rfl⟩, fun _ _ => trivial⟩
  have hrun : Mem.run (K := Int) ⟨[], [], []⟩ [.new false 2 2 2, .share false 0, .addEntry false 0 1 2, .compress 0] =
      .ok ⟨[⟨2, 2, 2, 1, [2], [1, 2, 2], true⟩], [some [0]], [some ⟨some 0, some 0⟩, some ⟨some 0, none⟩]⟩ := by
    decide +kernel
  have hg := run_safe _ _ good_start hl
  rw [hrun] at hg
  rcases hg with ⟨a, ha, hg⟩ | ha | ha
  · rw [← Res.ok.inj ha] at hg
    exact ⟨_, hg, rfl, rfl, ⟨_, rfl⟩, ⟨_, rfl⟩⟩
  · cases ha
  · cases ha

end Nla3d.Sparse.Shared
