import Verif.Storage.Props

/-!
# Assembly of an Eigen matrix (src/lib/elements/element.cpp:38-61)
-/

namespace Nla3d.Storage

open Nla3d.Dof Nla3d.Block Nla3d.Sparse

variable {K : Type}

/-- One step of the loops of `assembleK(Eigen::Ref<Eigen::MatrixXd>)`. `Ke i j` are the coefficients of the `rows × rows` matrix;
the access through `selfadjointView<Upper>` reads the coefficient itself, within bounds. src/lib/elements/element.cpp:46-61 -/
def eigenStep [Add K] (nodes : List Nat) (dofs : List DofType) (rows : Nat) (Ke : Nat → Nat → K) (S : Storage K)
    (q : Nat × Nat × Nat × Nat) : Res (Storage K) := do
  let ni ← Res.read nodes q.1
  let ti ← Res.read dofs q.2.1
  let nj ← Res.read nodes q.2.2.1
  let tj ← Res.read dofs q.2.2.2
  if q.1 * dofs.length + q.2.1 < rows ∧ q.2.2.1 * dofs.length + q.2.2.2 < rows then
    S.addValueNode .K ni ti nj tj (Ke (q.1 * dofs.length + q.2.1) (q.2.2.1 * dofs.length + q.2.2.2))
  else .assert

/-- `Element::assembleK(Eigen::Ref<Eigen::MatrixXd> Ke, dofs)`. src/lib/elements/element.cpp:38-60 -/
def Storage.assembleKEigen [Add K] (S : Storage K) (nodes : List Nat) (dofs : List DofType) (rows : Nat) (Ke : Nat → Nat → K) :
    Res (Storage K) :=
  if nodes.length * dofs.length ≠ rows then .assert
  else Res.foldlM' (eigenStep nodes dofs rows Ke) S (walk nodes.length dofs.length)

theorem eigen_loop [Add K] (nodes : List Nat) (dofs : List DofType) (Ke : Nat → Nat → K) (ke : List K) :
    ∀ (l : List (Nat × Nat)) (off : Nat) (S : Storage K),
      (∀ p ∈ l, p.1 < nodes.length * dofs.length ∧ p.2 < nodes.length * dofs.length) →
      (∀ k (hk : k < l.length), ke[off + k]? = some (Ke l[k].1 l[k].2)) →
      Res.foldlM' (eigenStep nodes dofs (nodes.length * dofs.length) Ke) S
          (l.map (fun p => (p.1 / dofs.length, p.1 % dofs.length, p.2 / dofs.length, p.2 % dofs.length))) =
        (do
          let st ← Res.foldlM' (assembleStep .K nodes dofs ke) (S, off)
            (l.map (fun p => (p.1 / dofs.length, p.1 % dofs.length, p.2 / dofs.length, p.2 % dofs.length)))
          .ok st.1) := by
  intro l
  induction l with
  | nil => intro off S _ _; rfl
  | cons p l ih =>
    intro off S hl hk
    rw [List.map_cons, Res.foldlM'_cons, Res.foldlM'_cons]
    have e1 : ∀ a, a / dofs.length * dofs.length + a % dofs.length = a := fun a => Nat.div_add_mod' a _
    have h0 := hk 0 (by simp)
    simp only [List.getElem_cons_zero, Nat.add_zero] at h0
    have hp := hl p (by simp)
    have hread : Res.read ke off = .ok (Ke p.1 p.2) := Res.read_eq_ok.mpr h0
    unfold eigenStep assembleStep
    simp only [e1, if_pos hp, hread, Res.ok_bind]
    cases Res.read nodes (p.1 / dofs.length) <;> try rfl
    rename_i ni
    cases Res.read dofs (p.1 % dofs.length) <;> try rfl
    rename_i ti
    cases Res.read nodes (p.2 / dofs.length) <;> try rfl
    rename_i nj
    cases Res.read dofs (p.2 % dofs.length) <;> try rfl
    rename_i tj
    simp only [Res.ok_bind]
    cases S.addValueNode .K ni ti nj tj (Ke p.1 p.2) <;> try rfl
    rename_i S'
    simp only [Res.ok_bind]
    refine ih (off + 1) S' (fun p hp => hl p (List.mem_cons_of_mem _ hp)) ?_
    intro k hk'
    have := hk (k + 1) (by simpa using hk')
    rw [List.getElem_cons_succ] at this
    rw [show off + 1 + k = off + (k + 1) by omega]
    exact this

/-- **C15, Eigen matrices.** Assembling an Eigen matrix is assembling the packed upper triangle of it, so all that C15 says about
`assembleK` holds for the symmetric matrix with this upper triangle. The lower triangle is never read. -/
theorem C15_eigen [Add K] (S : Storage K) (nodes : List Nat) (dofs : List DofType) (Ke : Nat → Nat → K) {ke : List K}
    (hke : Packs ke (nodes.length * dofs.length) Ke) :
    S.assembleKEigen nodes dofs (nodes.length * dofs.length) Ke =
      S.assembleK nodes dofs (nodes.length * dofs.length) ke := by
  obtain ⟨rest, rfl⟩ := hke
  unfold Storage.assembleKEigen Storage.assembleK Storage.assembleWith
  rw [if_neg (not_not.mpr rfl), if_neg (not_not.mpr rfl), walk_eq]
  apply eigen_loop
  · intro p hp
    have := mem_packed.mp (show (p.1, p.2) ∈ _ from hp)
    omega
  · intro k hk
    rw [Nat.zero_add, List.getElem?_append_left (by simpa using hk), List.getElem?_map, List.getElem?_eq_getElem hk]
    rfl

/-- Two nodes, one DoF: the hypothesis is met by the packed upper triangle. -/
example : Packs [1, 2, 3] ([10, 11].length * [DofType.UX].length) (fun i j => if i = 0 ∧ j = 0 then 1 else if i = 0 then 2 else 3) :=
  ⟨[], by decide⟩

end Nla3d.Storage
