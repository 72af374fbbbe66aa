import Verif.Base.Outcome

/-!
# Calls that change an object

Not a model of a particular file: the type of a member function that may change its object and may
throw. The object's value at the time of a throw is kept.
-/
namespace Verif

/-- A call on an object of value `σ`: its outcome and the object's value afterwards. -/
def M (σ α : Type) := σ → Out α × σ

namespace M
variable {σ α β : Type}

/-- Sequencing. -/
protected def bind (x : M σ α) (f : α → M σ β) : M σ β := fun s =>
  match x s with
  | (.ok a, s') => f a s'
  | (.throws e, s') => (.throws e, s')
  | (.abort, s') => (.abort, s')
  | (.ub, s') => (.ub, s')

instance : Monad (M σ) where
  pure a := fun s => (.ok a, s)
  bind := M.bind

/-- A computation that does not touch the object. -/
def lift (x : Out α) : M σ α := fun s => (x, s)
/-- Read the object. -/
def get : M σ σ := fun s => (.ok s, s)
/-- Change the object. -/
def modify (f : σ → σ) : M σ Unit := fun s => (.ok (), f s)
/-- Throw. -/
def throw (e : Exc) : M σ α := fun s => (.throws e, s)

theorem bind_apply (x : M σ α) (f : α → M σ β) (s : σ) :
    (x >>= f) s = match x s with
      | (.ok a, s') => f a s'
      | (.throws e, s') => (.throws e, s')
      | (.abort, s') => (.abort, s')
      | (.ub, s') => (.ub, s') := rfl
@[simp] theorem pure_apply (a : α) (s : σ) : (pure a : M σ α) s = (.ok a, s) := rfl
@[simp] theorem lift_apply (x : Out α) (s : σ) : (lift x : M σ α) s = (x, s) := rfl
@[simp] theorem get_apply (s : σ) : (get : M σ σ) s = (.ok s, s) := rfl
@[simp] theorem modify_apply (f : σ → σ) (s : σ) : modify f s = (.ok (), f s) := rfl
@[simp] theorem throw_apply (e : Exc) (s : σ) : (throw e : M σ α) s = (.throws e, s) := rfl
@[simp] theorem bind_get (f : σ → M σ β) (s : σ) : ((get : M σ σ) >>= f) s = f s s := rfl
@[simp] theorem bind_modify (g : σ → σ) (f : Unit → M σ β) (s : σ) :
    (modify g >>= f) s = f () (g s) := rfl
@[simp] theorem bind_throw (e : Exc) (f : α → M σ β) (s : σ) :
    ((throw e : M σ α) >>= f) s = (.throws e, s) := rfl
@[simp] theorem bind_lift_ok (a : α) (f : α → M σ β) (s : σ) :
    ((lift (.ok a) : M σ α) >>= f) s = f a s := rfl
@[simp] theorem bind_lift_throws (e : Exc) (f : α → M σ β) (s : σ) :
    ((lift (.throws e) : M σ α) >>= f) s = (.throws e, s) := rfl
@[simp] theorem bind_lift_abort (f : α → M σ β) (s : σ) :
    ((lift .abort : M σ α) >>= f) s = (.abort, s) := rfl
@[simp] theorem bind_lift_ub (f : α → M σ β) (s : σ) :
    ((lift .ub : M σ α) >>= f) s = (.ub, s) := rfl

end M
end Verif
