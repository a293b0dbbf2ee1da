import Verif.Model.WeightContext
/-
Python statements as state transformers.  An exception is a value and keeps the state
reached so far (Python does not roll back).
-/
namespace Xboa

/-- A Python computation on state `S` returning `α` or raising. -/
def PyM (S : Type) (α : Type) := S → Except Err α × S

namespace PyM
variable {S : Type} {α β : Type}

/-- return a value -/
def pure (a : α) : PyM S α := fun s => (.ok a, s)
/-- sequencing; an exception skips the rest -/
def bind (m : PyM S α) (f : α → PyM S β) : PyM S β := fun s =>
  match m s with
  | (.ok a, s') => f a s'
  | (.error e, s') => (.error e, s')
/-- raise -/
def raise (e : Err) : PyM S α := fun s => (.error e, s)
/-- read the whole state -/
def read : PyM S S := fun s => (.ok s, s)
/-- lift a pure result -/
def lift (r : Except Err α) : PyM S α := fun s => (r, s)

instance : Monad (PyM S) where
  pure := PyM.pure
  bind := PyM.bind

@[simp] theorem pure_apply (a : α) (s : S) : (Pure.pure a : PyM S α) s = (.ok a, s) := rfl
@[simp] theorem bind_apply (m : PyM S α) (f : α → PyM S β) (s : S) :
    (m >>= f) s = match m s with
      | (.ok a, s') => f a s'
      | (.error e, s') => (.error e, s') := rfl
@[simp] theorem raise_apply (e : Err) (s : S) : (raise e : PyM S α) s = (.error e, s) := rfl
@[simp] theorem read_apply (s : S) : (read : PyM S S) s = (.ok s, s) := rfl
@[simp] theorem lift_apply (r : Except Err α) (s : S) : (lift r : PyM S α) s = (r, s) := rfl
end PyM
end Xboa
