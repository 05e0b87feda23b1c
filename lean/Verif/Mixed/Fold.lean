import Verif.Mixed.Model
import Verif.Storage.Walk

/-!
# The assembly loops as lists of additions
-/

namespace Nla3d.Mixed

open Storage Dof

variable {K : Type}

/-- Local DoF number `a` of an element: the displacements node by node, then the pressure. -/
def mixedKey (nodes : List Nat) (dofs : List DofType) (en a : Nat) : Key :=
  if a < nodes.length * dofs.length then localKey nodes dofs a else (.elem, en, .HYDRO_PRESSURE)

/-- Additions of the entries of a matrix at the given local positions. -/
def adds (eq : Nat → Nat) (Ke : Nat → Nat → K) (L : List (Nat × Nat)) : List (Contrib K) :=
  L.map (fun p => .mat .K (eq p.1) (eq p.2) (Ke p.1 p.2))

theorem contribute_frame [Add K] : ∀ (cs : List (Contrib K)) {S S' : Storage K},
    Res.foldlM' Storage.contribute S cs = .ok S' → Frame S S' := by
  intro cs
  induction cs with
  | nil => intro S S' h; rw [Res.foldlM'_nil, Res.ok.injEq] at h; subst h; exact Frame.refl S
  | cons c cs ih =>
    intro S S' h
    rw [Res.foldlM'_cons] at h
    obtain ⟨S1, h1, h2⟩ := Res.bind_eq_ok.mp h
    have f1 : Frame S S1 := by
      cases c with
      | mat w i j x => exact addValueEq_frame h1
      | load i x => exact addValueF_frame h1
    exact f1.trans (ih h2)

/-- A loop whose body is an addition. -/
theorem fold_contrib [Add K] {α : Type} {S0 : Storage K} (f : Storage K → α → Res (Storage K)) (c : α → Contrib K) :
    ∀ (l : List α) (S : Storage K), Frame S0 S → (∀ S, Frame S0 S → ∀ x ∈ l, f S x = S.contribute (c x)) →
    Res.foldlM' f S l = Res.foldlM' Storage.contribute S (l.map c) := by
  intro l
  induction l with
  | nil => intro S _ _; rfl
  | cons x l ih =>
    intro S hS hf
    rw [List.map_cons, Res.foldlM'_cons, Res.foldlM'_cons, hf S hS x (by simp)]
    cases h : S.contribute (c x) with
    | ok S1 =>
      simp only [Res.ok_bind]
      refine ih S1 (hS.trans ?_) (fun S hS y hy => hf S hS y (by simp [hy]))
      exact contribute_frame [c x] (by rw [Res.foldlM'_cons, h]; rfl)
    | fatal => rfl
    | assert => rfl
    | ub => rfl

theorem zipIdx_range {β : Type} (g : Nat → β) (n : Nat) :
    ((List.range n).map g).zipIdx = (List.range n).map (fun a => (g a, a)) := by
  apply List.ext_getElem?
  intro i
  by_cases hi : i < n
  · simp [hi]
  · simp [hi]

/-- What the assembly loops need to know about the numbering. -/
structure Numbered (S : Storage K) (num : Key → Nat) (nodes : List Nat) (dofs : List DofType) (en : Nat) : Prop where
  node : ∀ a, a < nodes.length * dofs.length →
    S.eqNumber .node (localKey nodes dofs a).2.1 (localKey nodes dofs a).2.2 = .ok (num (localKey nodes dofs a))
  elem : S.eqNumber .elem en .HYDRO_PRESSURE = .ok (num (.elem, en, .HYDRO_PRESSURE))

theorem Numbered.frame {S S' : Storage K} {num : Key → Nat} {nodes : List Nat} {dofs : List DofType} {en : Nat}
    (h : Numbered S num nodes dofs en) (hf : Frame S S') : Numbered S' num nodes dofs en :=
  ⟨fun a ha => by rw [hf.eqNumber]; exact h.node a ha, by rw [hf.eqNumber]; exact h.elem⟩

theorem nodeDofs_eq (nodes : List Nat) (dofs : List DofType) : (nodeDofs nodes dofs).zipIdx =
    (List.range (nodes.length * dofs.length)).map
      (fun a => (((localKey nodes dofs a).2.1, (localKey nodes dofs a).2.2), a)) := by
  unfold nodeDofs
  rw [pairs_eq, zipIdx_range]

theorem bind_append [Add K] (S : Storage K) (cs ds : List (Contrib K)) :
    (Res.foldlM' Storage.contribute S cs >>= fun S => Res.foldlM' Storage.contribute S ds) =
    Res.foldlM' Storage.contribute S (cs ++ ds) := by
  rw [Res.foldlM'_append]

theorem bind_congr {S : Storage K} [Add K] {cs : List (Contrib K)} {f g : Storage K → Res (Storage K)}
    (h : ∀ S', Frame S S' → f S' = g S') :
    (Res.foldlM' Storage.contribute S cs >>= f) = (Res.foldlM' Storage.contribute S cs >>= g) := by
  cases hS : Res.foldlM' Storage.contribute S cs with
  | ok S' => exact h S' (contribute_frame cs hS)
  | fatal => rfl
  | assert => rfl
  | ub => rfl

/-- Positions of the border. -/
def border (n : Nat) : List (Nat × Nat) := (List.range n).map (fun a => (a, n))

/-! ## SOLID81 -/

/-- `assemble3` adds the entries of the bordered matrix and vector. -/
theorem assemble3_eq [Add K] {S : Storage K} {num : Key → Nat} {nodes : List Nat} {en : Nat}
    (h : Numbered S num nodes solidDofs en) {Ke : Nat → Nat → K} {Fe : Nat → K} {n : Nat}
    (hn : n = nodes.length * solidDofs.length) :
    assemble3 S en nodes n ((packed n).map (fun p => Ke p.1 p.2)) ((List.range n).map (fun a => Ke a n)) (Ke n n)
      ((List.range n).map Fe) (Fe n) =
    Res.foldlM' Storage.contribute S
      (adds (fun a => num (mixedKey nodes solidDofs en a)) Ke (packed n ++ border n ++ [(n, n)]) ++
       (List.range (n + 1)).map (fun a => .load (num (mixedKey nodes solidDofs en a)) (Fe a))) := by
  have hlt : ∀ a, a < n → mixedKey nodes solidDofs en a = localKey nodes solidDofs a := fun a ha => by
    unfold mixedKey; rw [if_pos (by omega)]
  have hge : mixedKey nodes solidDofs en n = (.elem, en, .HYDRO_PRESSURE) := by
    unfold mixedKey; rw [if_neg (by omega)]
  unfold assemble3
  have e1 := assembleWith_eq (w := .K) (num := num) (Ke := Ke) (rest := []) h.node
  rw [← hn, List.append_nil] at e1
  rw [e1]
  have s1 : elemContribs .K (fun a => num (localKey nodes solidDofs a)) Ke n =
      adds (fun a => num (mixedKey nodes solidDofs en a)) Ke (packed n) := by
    unfold elemContribs adds
    apply List.map_congr_left
    rintro ⟨a, b⟩ hp
    have := mem_packed.mp hp
    simp only
    rw [hlt a (by omega), hlt b (by omega)]
  rw [s1]
  have step : ∀ S', Frame S S' → (do
      let elEq ← S'.eqNumber .elem en .HYDRO_PRESSURE
      let S ← Res.foldlM' (borderStep elEq ((List.range n).map (fun a => Ke a n))) S' (nodeDofs nodes solidDofs).zipIdx
      let S ← S.addValueEq .K elEq elEq (Ke n n)
      let S ← S.assembleF nodes solidDofs ((List.range n).map Fe)
      S.addValueF elEq (Fe n)) =
      Res.foldlM' Storage.contribute S' (adds (fun a => num (mixedKey nodes solidDofs en a)) Ke (border n ++ [(n, n)]) ++
       (List.range (n + 1)).map (fun a => .load (num (mixedKey nodes solidDofs en a)) (Fe a))) := by
    intro S' hf
    have h' := h.frame hf
    rw [h'.elem]
    simp only [Res.ok_bind]
    have b1 : Res.foldlM' (borderStep (num (.elem, en, .HYDRO_PRESSURE)) ((List.range n).map (fun a => Ke a n))) S'
        (nodeDofs nodes solidDofs).zipIdx =
        Res.foldlM' Storage.contribute S' (adds (fun a => num (mixedKey nodes solidDofs en a)) Ke (border n)) := by
      rw [nodeDofs_eq, fold_contrib (S0 := S') _ (fun p => .mat .K (num (.node, p.1.1, p.1.2)) (num (.elem, en, .HYDRO_PRESSURE))
        (Ke p.2 n)) _ _ (Frame.refl S')]
      · unfold adds border
        rw [List.map_map, List.map_map, ← hn]
        congr 1
        apply List.map_congr_left
        intro a ha
        rw [List.mem_range] at ha
        simp only [Function.comp_apply, hge, hlt a ha]
        rfl
      · intro S2 hS2 p hp
        obtain ⟨a, ha, rfl⟩ := List.mem_map.mp hp
        rw [List.mem_range] at ha
        unfold borderStep
        simp only
        rw [(h'.frame hS2).node a ha]
        simp only [Res.ok_bind]
        rw [Res.read_eq_ok.mpr (by simp [hn ▸ ha] : ((List.range n).map (fun a => Ke a n))[a]? = some (Ke a n))]
        rfl
    rw [b1]
    have step2 : ∀ S2, Frame S' S2 → (do
        let S ← S2.addValueEq .K (num (.elem, en, .HYDRO_PRESSURE)) (num (.elem, en, .HYDRO_PRESSURE)) (Ke n n)
        let S ← S.assembleF nodes solidDofs ((List.range n).map Fe)
        S.addValueF (num (.elem, en, .HYDRO_PRESSURE)) (Fe n)) =
        Res.foldlM' Storage.contribute S2 (adds (fun a => num (mixedKey nodes solidDofs en a)) Ke [(n, n)] ++
          (List.range (n + 1)).map (fun a => .load (num (mixedKey nodes solidDofs en a)) (Fe a))) := by
      intro S2 hf2
      have h2 := h'.frame hf2
      show _ = Res.foldlM' Storage.contribute S2 (Contrib.mat .K (num (mixedKey nodes solidDofs en n))
        (num (mixedKey nodes solidDofs en n)) (Ke n n) ::
          (List.range (n + 1)).map (fun a => Contrib.load (num (mixedKey nodes solidDofs en a)) (Fe a)))
      rw [Res.foldlM'_cons, hge]
      show _ = (S2.addValueEq .K (num (.elem, en, .HYDRO_PRESSURE)) (num (.elem, en, .HYDRO_PRESSURE)) (Ke n n) >>= _)
      cases hS3 : S2.addValueEq .K (num (.elem, en, .HYDRO_PRESSURE)) (num (.elem, en, .HYDRO_PRESSURE)) (Ke n n) with
      | ok S3 =>
        simp only [Res.ok_bind]
        have h3 := h2.frame (addValueEq_frame hS3)
        have e2 := assembleF_eq (num := num) (Fe := Fe) (rest := []) h3.node
        rw [← hn, List.append_nil] at e2
        rw [e2, List.range_succ, List.map_append, ← bind_append]
        have s2 : loadContribs (fun a => num (localKey nodes solidDofs a)) Fe n =
            (List.range n).map (fun a => Contrib.load (num (mixedKey nodes solidDofs en a)) (Fe a)) := by
          unfold loadContribs
          apply List.map_congr_left
          intro a ha
          rw [List.mem_range] at ha
          rw [hlt a ha]
        rw [s2]
        apply bind_congr
        intro S4 _
        show _ = Res.foldlM' Storage.contribute S4 [Contrib.load (num (mixedKey nodes solidDofs en n)) (Fe n)]
        rw [Res.foldlM'_cons, hge]
        show S4.addValueF _ _ = (S4.addValueF _ _ >>= fun S => .ok S)
        cases S4.addValueF (num (.elem, en, .HYDRO_PRESSURE)) (Fe n) <;> rfl
      | fatal => rfl
      | assert => rfl
      | ub => rfl
    have hadd : adds (fun a => num (mixedKey nodes solidDofs en a)) Ke (border n ++ [(n, n)]) =
        adds (fun a => num (mixedKey nodes solidDofs en a)) Ke (border n) ++
        adds (fun a => num (mixedKey nodes solidDofs en a)) Ke [(n, n)] := by unfold adds; rw [List.map_append]
    rw [hadd, List.append_assoc, ← bind_append]
    exact bind_congr step2
  have hadd : adds (fun a => num (mixedKey nodes solidDofs en a)) Ke (packed n ++ border n ++ [(n, n)]) =
      adds (fun a => num (mixedKey nodes solidDofs en a)) Ke (packed n) ++
      adds (fun a => num (mixedKey nodes solidDofs en a)) Ke (border n ++ [(n, n)]) := by
    unfold adds; rw [List.append_assoc, List.map_append]
  rw [hadd, List.append_assoc, ← bind_append]
  exact bind_congr step

/-! ## PLANE41 -/

/-- Local positions of the additions of the first loop. -/
def planePairs : List (Nat × Nat) := (planeWalk 4 2).map (fun q => (q.1 * 2 + q.2.2.1, q.2.1 * 2 + q.2.2.2))

/-- A matrix with indices beyond its size. -/
def ext {n : Nat} [Zero K] (Ke : Fin n → Fin n → K) (a b : Nat) : K :=
  if h : a < n ∧ b < n then Ke ⟨a, h.1⟩ ⟨b, h.2⟩ else 0

/-- A vector with indices beyond its size. -/
def extV {n : Nat} [Zero K] (Qe : Fin n → K) (a : Nat) : K := if h : a < n then Qe ⟨a, h⟩ else 0

theorem entry_ok {n : Nat} [Zero K] (Ke : Fin n → Fin n → K) {a b : Nat} (ha : a < n) (hb : b < n) :
    entry Ke a b = .ok (ext Ke a b) := by
  unfold entry ext
  rw [dif_pos ⟨ha, hb⟩, dif_pos ⟨ha, hb⟩]

theorem comp_ok {n : Nat} [Zero K] (Qe : Fin n → K) {a : Nat} (ha : a < n) : comp Qe a = .ok (extV Qe a) := by
  unfold comp extV
  rw [dif_pos ha, dif_pos ha]

theorem planeWalk_range : ∀ q ∈ planeWalk 4 2, q.1 < 4 ∧ q.2.1 < 4 ∧ q.2.2.1 < 2 ∧ q.2.2.2 < 2 := by decide

/-- `assembleK` of PLANE41 adds the entries of the matrix and vector. -/
theorem assemble41_eq [Add K] [Zero K] {S : Storage K} {num : Key → Nat} {nodes : List Nat} {en : Nat}
    (h : Numbered S num nodes planeDofs en) (hl : nodes.length = 4) (Ke : Fin 9 → Fin 9 → K) (Qe : Fin 9 → K) :
    assemble41 S en nodes Ke Qe =
    Res.foldlM' Storage.contribute S
      (adds (fun a => num (mixedKey nodes planeDofs en a)) (ext Ke) (planePairs ++ border 8 ++ [(8, 8)]) ++
       (List.range 9).map (fun a => .load (num (mixedKey nodes planeDofs en a)) (extV Qe a))) := by
  have h8 : nodes.length * planeDofs.length = 8 := by rw [hl]; rfl
  have hlt : ∀ a, a < 8 → mixedKey nodes planeDofs en a = localKey nodes planeDofs a := fun a ha => by
    unfold mixedKey; rw [if_pos (by omega)]
  have hge : mixedKey nodes planeDofs en 8 = (.elem, en, .HYDRO_PRESSURE) := by
    unfold mixedKey; rw [if_neg (by omega)]
  unfold assemble41
  rw [if_neg (by omega), hl]
  have e1 : Res.foldlM' (Mixed.planeStep nodes Ke) S (planeWalk 4 2) = Res.foldlM' Storage.contribute S
      (adds (fun a => num (mixedKey nodes planeDofs en a)) (ext Ke) planePairs) := by
    rw [fold_contrib (S0 := S) _ (fun q => .mat .K (num (mixedKey nodes planeDofs en (q.1 * 2 + q.2.2.1)))
      (num (mixedKey nodes planeDofs en (q.2.1 * 2 + q.2.2.2))) (ext Ke (q.1 * 2 + q.2.2.1) (q.2.1 * 2 + q.2.2.2))) _ _
      (Frame.refl S)]
    · unfold adds planePairs
      rw [List.map_map]
      rfl
    · rintro S2 hS2 ⟨i, j, di, dj⟩ hq
      obtain ⟨q1, q2, q3, q4⟩ := planeWalk_range _ hq
      simp only at q1 q2 q3 q4
      have h2 := h.frame hS2
      have a1 := h2.node (i * 2 + di) (by omega)
      have a2 := h2.node (j * 2 + dj) (by omega)
      rw [← hlt (i * 2 + di) (by omega)] at a1
      rw [← hlt (j * 2 + dj) (by omega)] at a2
      have k1 : mixedKey nodes planeDofs en (i * 2 + di) = (.node, nodes.getD i 0, planeDofs.getD di .UNDEFINED) := by
        rw [hlt _ (by omega)]
        unfold localKey
        rw [show planeDofs.length = 2 from rfl, show (i * 2 + di) / 2 = i by omega, show (i * 2 + di) % 2 = di by omega]
      have k2 : mixedKey nodes planeDofs en (j * 2 + dj) = (.node, nodes.getD j 0, planeDofs.getD dj .UNDEFINED) := by
        rw [hlt _ (by omega)]
        unfold localKey
        rw [show planeDofs.length = 2 from rfl, show (j * 2 + dj) / 2 = j by omega, show (j * 2 + dj) % 2 = dj by omega]
      rw [k1] at a1
      rw [k2] at a2
      unfold Mixed.planeStep
      simp only
      rw [read_getD (by omega : i < nodes.length) 0, read_getD (by exact q3 : di < planeDofs.length) .UNDEFINED,
        read_getD (by omega : j < nodes.length) 0, read_getD (by exact q4 : dj < planeDofs.length) .UNDEFINED]
      simp only [Res.ok_bind]
      rw [entry_ok Ke (by omega) (by omega)]
      simp only [Res.ok_bind]
      unfold Storage.addValueNode
      rw [a1, a2, k1, k2]
      rfl
  rw [e1]
  have hadd : adds (fun a => num (mixedKey nodes planeDofs en a)) (ext Ke) (planePairs ++ border 8 ++ [(8, 8)]) =
      adds (fun a => num (mixedKey nodes planeDofs en a)) (ext Ke) planePairs ++
      (adds (fun a => num (mixedKey nodes planeDofs en a)) (ext Ke) (border 8) ++
      adds (fun a => num (mixedKey nodes planeDofs en a)) (ext Ke) [(8, 8)]) := by
    unfold adds; rw [List.append_assoc, List.map_append, List.map_append]
  rw [hadd, List.append_assoc, ← bind_append]
  apply bind_congr
  intro S1 f1
  have h1 := h.frame f1
  have e2 : Res.foldlM' (planeBorder en Ke) S1 (nodeDofs nodes planeDofs).zipIdx = Res.foldlM' Storage.contribute S1
      (adds (fun a => num (mixedKey nodes planeDofs en a)) (ext Ke) (border 8)) := by
    rw [nodeDofs_eq, fold_contrib (S0 := S1) _ (fun p => .mat .K (num (.node, p.1.1, p.1.2))
      (num (.elem, en, .HYDRO_PRESSURE)) (ext Ke p.2 8)) _ _ (Frame.refl S1)]
    · unfold adds border
      rw [List.map_map, List.map_map, h8]
      congr 1
      apply List.map_congr_left
      intro a ha
      rw [List.mem_range] at ha
      simp only [Function.comp_apply, hge, hlt a ha]
      rfl
    · intro S2 hS2 p hp
      obtain ⟨a, ha, rfl⟩ := List.mem_map.mp hp
      rw [List.mem_range] at ha
      unfold planeBorder
      simp only
      rw [(h1.frame hS2).node a ha, (h1.frame hS2).elem]
      simp only [Res.ok_bind]
      rw [entry_ok Ke (by omega) (by omega)]
      rfl
  rw [e2, List.append_assoc, ← bind_append]
  apply bind_congr
  intro S2 f2
  have h2 := h1.frame f2
  rw [h2.elem]
  simp only [Res.ok_bind]
  rw [entry_ok Ke (by omega) (by omega)]
  simp only [Res.ok_bind]
  show _ = Res.foldlM' Storage.contribute S2 (Contrib.mat .K (num (mixedKey nodes planeDofs en 8))
    (num (mixedKey nodes planeDofs en 8)) (ext Ke 8 8) ::
      (List.range 9).map (fun a => Contrib.load (num (mixedKey nodes planeDofs en a)) (extV Qe a)))
  rw [Res.foldlM'_cons, hge]
  show _ = (S2.addValueEq .K (num (.elem, en, .HYDRO_PRESSURE)) (num (.elem, en, .HYDRO_PRESSURE)) (ext Ke 8 8) >>= _)
  cases hS3 : S2.addValueEq .K (num (.elem, en, .HYDRO_PRESSURE)) (num (.elem, en, .HYDRO_PRESSURE)) (ext Ke 8 8) with
  | ok S3 =>
    simp only [Res.ok_bind]
    have h3 := h2.frame (addValueEq_frame hS3)
    have e3 : Res.foldlM' (fun (S : Storage K) (p : (Nat × DofType) × Nat) => do
        let x ← comp Qe p.2
        S.addValueFNode p.1.1 p.1.2 x) S3 (nodeDofs nodes planeDofs).zipIdx = Res.foldlM' Storage.contribute S3
        ((List.range 8).map (fun a => Contrib.load (num (mixedKey nodes planeDofs en a)) (extV Qe a))) := by
      rw [nodeDofs_eq, fold_contrib (S0 := S3) _ (fun p => .load (num (.node, p.1.1, p.1.2)) (extV Qe p.2)) _ _ (Frame.refl S3)]
      · rw [List.map_map, h8]
        congr 1
        apply List.map_congr_left
        intro a ha
        rw [List.mem_range] at ha
        simp only [Function.comp_apply, hlt a ha]
        rfl
      · intro S4 hS4 p hp
        obtain ⟨a, ha, rfl⟩ := List.mem_map.mp hp
        rw [List.mem_range] at ha
        simp only
        rw [comp_ok Qe (by omega)]
        simp only [Res.ok_bind]
        unfold Storage.addValueFNode
        rw [(h3.frame hS4).node a ha]
        rfl
    rw [e3, show List.range 9 = List.range 8 ++ [8] from rfl, List.map_append, ← bind_append]
    apply bind_congr
    intro S4 f4
    rw [(h3.frame f4).elem]
    simp only [Res.ok_bind]
    rw [comp_ok Qe (by omega)]
    simp only [Res.ok_bind]
    show _ = Res.foldlM' Storage.contribute S4 [Contrib.load (num (mixedKey nodes planeDofs en 8)) (extV Qe 8)]
    rw [Res.foldlM'_cons, hge]
    show S4.addValueF _ _ = (S4.addValueF _ _ >>= fun S => .ok S)
    cases S4.addValueF (num (.elem, en, .HYDRO_PRESSURE)) (extV Qe 8) <;> rfl
  | fatal => rfl
  | assert => rfl
  | ub => rfl

end Nla3d.Mixed
