import Verif.Vtk.Reader

/-!
# The reader on streams made of pieces
-/

namespace Nla3d.Vtk

open Nla3d.Post

variable {K : Type}

/-- Tokens of points. -/
def ptToks (ps : List (Pt K)) : List (Tok K) := (ps.map ptLine).flatten

theorem takePts_toks : ∀ (ps : List (Pt K)) (r : List (Tok K)), takePts ps.length (ptToks ps ++ r) = some (ps, r) := by
  intro ps r
  induction ps with
  | nil => rfl
  | cons p ps ih =>
    have : ptToks (p :: ps) ++ r = .x p.x :: .x p.y :: .x p.z :: (ptToks ps ++ r) := by
      simp [ptToks, ptLine]
    rw [this, List.length_cons]
    unfold takePts
    rw [ih]
    rfl

theorem takeNums_toks : ∀ (vs : List K) (r : List (Tok K)),
    takeNums vs.length ((vs.map (fun v => [Tok.x v])).flatten ++ r) = some (vs, r) := by
  intro vs r
  induction vs with
  | nil => rfl
  | cons v vs ih =>
    simp only [List.map_cons, List.flatten_cons, List.length_cons, List.cons_append, List.nil_append]
    unfold takeNums
    rw [ih]
    rfl

theorem takeInts_toks : ∀ (vs : List Nat) (r : List (Tok K)),
    takeInts vs.length (vs.map Tok.i ++ r) = some (vs, r) := by
  intro vs r
  induction vs with
  | nil => rfl
  | cons v vs ih =>
    simp only [List.map_cons, List.length_cons, List.cons_append]
    unfold takeInts
    rw [ih]
    rfl

/-- The integers of CELLS. -/
def cellInts (cs : List (List Nat)) : List Nat := cs.flatMap (fun c => c.length :: c)

theorem splitCells_ints : ∀ cs : List (List Nat), splitCells cs.length (cellInts cs) = some cs := by
  intro cs
  induction cs with
  | nil => rfl
  | cons c cs ih =>
    have : cellInts (c :: cs) = c.length :: (c ++ cellInts cs) := by simp [cellInts]
    rw [this, List.length_cons]
    unfold splitCells
    rw [if_neg (by simp), List.drop_left, List.take_left, ih]
    rfl

/-- Tokens of one array. -/
def arrToks : String × Arr K → List (Tok K)
  | (n, .scalars v) => (scalarLines n v).flatten
  | (n, .vectors v) => (vectorLines n v).flatten

/-- Number of values of an array. -/
def arrLen : Arr K → Nat
  | .scalars v => v.length
  | .vectors v => v.length

/-- Streams that start no array. -/
def Stops (r : List (Tok K)) : Prop := r = [] ∨ ∃ r', r = .w "CELL_DATA" :: r'

theorem readArrays_stop {r : List (Tok K)} (h : Stops r) (n fuel : Nat) : readArrays n (fuel + 1) r = some ([], r) := by
  rcases h with rfl | ⟨r', rfl⟩
  · rfl
  · simp [readArrays]

theorem readArrays_scalars (n fuel : Nat) (name : String) (v : List K) (r : List (Tok K)) (h : v.length = n) :
    readArrays n (fuel + 1) (arrToks (name, .scalars v) ++ r) =
      (readArrays n fuel r).map (fun q => ((name, .scalars v) :: q.1, q.2)) := by
  subst h
  have : arrToks (name, .scalars v) ++ r =
      .w "SCALARS" :: .w name :: .w "float" :: .i 1 :: .w "LOOKUP_TABLE" :: .w "default" ::
        ((v.map (fun v => [Tok.x v])).flatten ++ r) := by
    simp [arrToks, scalarLines]
  rw [this]
  simp only [readArrays]
  rw [takeNums_toks]
  rfl

theorem readArrays_vectors (n fuel : Nat) (name : String) (v : List (Pt K)) (r : List (Tok K)) (h : v.length = n) :
    readArrays n (fuel + 1) (arrToks (name, .vectors v) ++ r) =
      (readArrays n fuel r).map (fun q => ((name, .vectors v) :: q.1, q.2)) := by
  subst h
  have : arrToks (name, .vectors v) ++ r = .w "VECTORS" :: .w name :: .w "float" :: (ptToks v ++ r) := by
    simp [arrToks, vectorLines, ptToks]
  rw [this]
  simp only [readArrays]
  rw [takePts_toks]
  rfl

theorem readArrays_toks (n : Nat) : ∀ (as : List (String × Arr K)) (fuel : Nat) (r : List (Tok K)), Stops r →
    (∀ a ∈ as, arrLen a.2 = n) → as.length < fuel → readArrays n fuel (as.flatMap arrToks ++ r) = some (as, r) := by
  intro as
  induction as with
  | nil =>
    intro fuel r hr _ hf
    obtain ⟨f, rfl⟩ : ∃ f, fuel = f + 1 := ⟨fuel - 1, by simp at hf; omega⟩
    exact readArrays_stop hr n f
  | cons a as ih =>
    intro fuel r hr ha hf
    obtain ⟨f, rfl⟩ : ∃ f, fuel = f + 1 := ⟨fuel - 1, by simp at hf; omega⟩
    have hi := ih f r hr (fun b hb => ha b (by simp [hb])) (by simp at hf; omega)
    have hl := ha a (by simp)
    obtain ⟨name, arr⟩ := a
    rw [List.flatMap_cons, List.append_assoc]
    cases arr with
    | scalars v => rw [readArrays_scalars n f name v _ hl, hi]; rfl
    | vectors v => rw [readArrays_vectors n f name v _ hl, hi]; rfl

theorem arrToks_pos (a : String × Arr K) : 0 < (arrToks a).length := by
  obtain ⟨n, a⟩ := a
  cases a <;> simp [arrToks, scalarLines, vectorLines]

theorem length_arrToks (as : List (String × Arr K)) : as.length ≤ (as.flatMap arrToks).length := by
  induction as with
  | nil => simp
  | cons a as ih =>
    have := arrToks_pos a
    rw [List.flatMap_cons, List.length_append, List.length_cons]
    omega

theorem readSection_here (key : String) (n : Nat) (as : List (String × Arr K)) (r : List (Tok K)) (hr : Stops r)
    (ha : ∀ a ∈ as, arrLen a.2 = n) :
    readSection key n (.w key :: .i n :: (as.flatMap arrToks ++ r)) = some (as, r) := by
  unfold readSection
  simp only [if_true]
  refine readArrays_toks n as _ r hr ha ?_
  have := length_arrToks as
  rw [List.length_append]
  omega

/-- Section CELL_DATA, left out when there is nothing to write. -/
def cellToks (present : Bool) (m : Nat) (as : List (String × Arr K)) : List (Tok K) :=
  if present then .w "CELL_DATA" :: .i m :: as.flatMap arrToks else []

theorem cellToks_stops (b : Bool) (m : Nat) (as : List (String × Arr K)) : Stops (cellToks b m as) := by
  unfold cellToks
  split
  · exact Or.inr ⟨_, rfl⟩
  · exact Or.inl rfl

/-- The whole stream. -/
theorem readBody_toks (pts : List (Pt K)) (cells : List (List Nat)) (types : List Nat) (pd cd : List (String × Arr K))
    (b : Bool) (hb : b = false → cd = []) (ht : types.length = cells.length)
    (hp : ∀ a ∈ pd, arrLen a.2 = pts.length) (hc : ∀ a ∈ cd, arrLen a.2 = cells.length)
    (hv : ∀ c ∈ cells, ∀ v ∈ c, v < pts.length) (ha : ∀ p ∈ cells.zip types, agrees p.1 p.2 = true) :
    readBody (.w "POINTS" :: .i pts.length :: .w "float" :: (ptToks pts ++
      (.w "CELLS" :: .i cells.length :: .i (cellInts cells).length :: ((cellInts cells).map Tok.i ++
        (.w "CELL_TYPES" :: .i cells.length :: (types.map Tok.i ++
          (.w "POINT_DATA" :: .i pts.length :: (pd.flatMap arrToks ++ cellToks b cells.length cd)))))))) =
      some ⟨pts, cells, types, pd, cd⟩ := by
  unfold readBody
  simp only
  rw [takePts_toks]
  simp only [Option.bind_some]
  rw [takeInts_toks]
  simp only [Option.bind_some]
  rw [splitCells_ints]
  simp only [Option.bind_some, if_true]
  rw [← ht, takeInts_toks]
  simp only [Option.bind_some]
  rw [readSection_here _ _ _ _ (cellToks_stops _ _ _) hp]
  simp only [Option.bind_some]
  have hcd : readSection "CELL_DATA" types.length (cellToks b types.length cd) = some (cd, []) := by
    cases b with
    | false => rw [hb rfl]; rfl
    | true =>
      have := readSection_here "CELL_DATA" types.length cd [] (Or.inl rfl) (by rw [ht]; exact hc)
      rw [List.append_nil] at this
      exact this
  rw [hcd]
  simp only [Option.bind_some]
  rw [if_pos]
  rw [Bool.and_eq_true, Bool.and_eq_true]
  refine ⟨⟨rfl, ?_⟩, ?_⟩
  · rw [List.all_eq_true]
    intro c hc'
    rw [List.all_eq_true]
    intro v hv'
    simpa using hv c hc' v hv'
  · rw [List.all_eq_true]
    exact ha

end Nla3d.Vtk
