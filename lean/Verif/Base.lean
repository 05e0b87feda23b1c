/-!
# Outcomes of C++ calls

Every modelled C++ function that can stop the process or run into undefined
behaviour returns a `Res`.
-/

namespace Nla3d

/-- Outcome of a modelled C++ call.

* `ok a`   : the call returns with result `a`;
* `fatal`  : `LOG(FATAL)` / `CHECK` failure, the process ends (easylogging++);
* `assert` : a C `assert` fails. In a debug build the process ends; in a release
  build the behaviour is outside the contract the code states, so the model does
  not say anything about it;
* `ub`     : undefined behaviour (out-of-bounds access, null or dangling pointer). -/
inductive Res (α : Type _) where
  | ok (a : α)
  | fatal
  | assert
  | ub
  deriving Repr, DecidableEq

namespace Res

/-- Sequencing: the first outcome that is not `ok` is the outcome of the sequence. -/
def bind {α β : Type _} (x : Res α) (f : α → Res β) : Res β :=
  match x with
  | ok a => f a
  | fatal => fatal
  | assert => assert
  | ub => ub

instance : Monad Res where
  pure := Res.ok
  bind := Res.bind

@[simp] theorem pure_eq {α : Type _} (a : α) : (pure a : Res α) = ok a := rfl
@[simp] theorem ok_bind {α β : Type _} (a : α) (f : α → Res β) : (ok a >>= f) = f a := rfl
@[simp] theorem fatal_bind {α β : Type _} (f : α → Res β) : ((fatal : Res α) >>= f) = fatal := rfl
@[simp] theorem assert_bind {α β : Type _} (f : α → Res β) : ((assert : Res α) >>= f) = assert := rfl
@[simp] theorem ub_bind {α β : Type _} (f : α → Res β) : ((ub : Res α) >>= f) = ub := rfl

theorem bind_eq_ok {α β : Type _} {x : Res α} {f : α → Res β} {b : β} :
    (x >>= f) = ok b ↔ ∃ a, x = ok a ∧ f a = ok b := by
  cases x <;> simp

/-- `assert(b)` in the C++ text. -/
def guard (b : Bool) : Res Unit := if b then ok () else assert

/-- `CHECK(b)` / `LOG_IF(!b, FATAL)` in the C++ text. -/
def check (b : Bool) : Res Unit := if b then ok () else fatal

@[simp] theorem guard_true : guard true = ok () := rfl
@[simp] theorem guard_false : guard false = assert := rfl
@[simp] theorem check_true : check true = ok () := rfl
@[simp] theorem check_false : check false = fatal := rfl

theorem guard_eq_ok {b : Bool} {u : Unit} : guard b = ok u ↔ b = true := by
  cases b <;> simp [guard]

theorem check_eq_ok {b : Bool} {u : Unit} : check b = ok u ↔ b = true := by
  cases b <;> simp [check]

/-- Reading element `i` of an array of known extent: out of bounds is `ub`. -/
def read {α : Type _} (l : List α) (i : Nat) : Res α :=
  match l[i]? with
  | some a => ok a
  | none => ub

/-- Writing element `i` of an array of known extent: out of bounds is `ub`. -/
def write {α : Type _} (l : List α) (i : Nat) (a : α) : Res (List α) :=
  if i < l.length then ok (l.set i a) else ub

theorem read_eq_ok {α : Type _} {l : List α} {i : Nat} {a : α} :
    read l i = ok a ↔ l[i]? = some a := by
  unfold read; cases h : l[i]? <;> simp

theorem read_of_lt {α : Type _} {l : List α} {i : Nat} (h : i < l.length) :
    read l i = ok l[i] := by
  simp [read, List.getElem?_eq_getElem h]

theorem read_of_ge {α : Type _} {l : List α} {i : Nat} (h : l.length ≤ i) :
    read l i = ub := by
  simp [read, List.getElem?_eq_none h]

theorem write_eq_ok {α : Type _} {l l' : List α} {i : Nat} {a : α} :
    write l i a = ok l' ↔ i < l.length ∧ l.set i a = l' := by
  unfold write
  split
  · simp_all
  · simp; omega

/-- Did the call return normally? -/
def isOk {α : Type _} : Res α → Bool
  | ok _ => true
  | _ => false

/-- Run a list of state-changing calls one after the other. -/
def foldlM' {σ ι : Type _} (f : σ → ι → Res σ) (s : σ) : List ι → Res σ
  | [] => ok s
  | x :: xs => f s x >>= fun s' => foldlM' f s' xs

@[simp] theorem foldlM'_nil {σ ι : Type _} (f : σ → ι → Res σ) (s : σ) :
    foldlM' f s [] = ok s := rfl

@[simp] theorem foldlM'_cons {σ ι : Type _} (f : σ → ι → Res σ) (s : σ) (x : ι) (xs : List ι) :
    foldlM' f s (x :: xs) = (f s x >>= fun s' => foldlM' f s' xs) := rfl

theorem foldlM'_append {σ ι : Type _} (f : σ → ι → Res σ) (s : σ) (xs ys : List ι) :
    foldlM' f s (xs ++ ys) = (foldlM' f s xs >>= fun s' => foldlM' f s' ys) := by
  induction xs generalizing s with
  | nil => simp
  | cons x xs ih =>
    simp only [List.cons_append, foldlM'_cons]
    cases h : f s x <;> simp [ih]

end Res
end Nla3d
