/-!
# Outcomes of a C++ call

Not a model of a particular file: the result type shared by all models.
-/
namespace Verif

/-- The C++ exceptions thrown by the modelled code. -/
inductive Exc
  | invalidArgument
  | outOfRange
  | runtimeError
  | lengthError
  | logicError
  | domainError
  | badAlloc
  deriving DecidableEq, Repr

/-- Outcome of a call: a value, a C++ exception, a failed `assert` (in an NDEBUG build execution
would continue into undefined behaviour), or undefined behaviour no assertion guards. -/
inductive Out (α : Type u)
  | ok (a : α)
  | throws (e : Exc)
  | abort
  | ub
  deriving DecidableEq, Repr

namespace Out

/-- Sequencing: the first outcome that is not a value ends the computation. -/
protected def bind {α : Type u} {β : Type v} (x : Out α) (f : α → Out β) : Out β :=
  match x with
  | ok a => f a
  | throws e => throws e
  | abort => abort
  | ub => ub

instance : Monad Out where
  pure := ok
  bind := Out.bind

@[simp] theorem bind_ok {α β : Type u} (a : α) (f : α → Out β) : (ok a >>= f) = f a := rfl
@[simp] theorem bind_throws {α β : Type u} (e : Exc) (f : α → Out β) :
    ((throws e : Out α) >>= f) = throws e := rfl
@[simp] theorem bind_abort {α β : Type u} (f : α → Out β) : ((abort : Out α) >>= f) = abort := rfl
@[simp] theorem bind_ub {α β : Type u} (f : α → Out β) : ((ub : Out α) >>= f) = ub := rfl
@[simp] theorem pure_eq {α : Type u} (a : α) : (pure a : Out α) = ok a := rfl

theorem bind_eq_ok {α β : Type u} {x : Out α} {f : α → Out β} {b : β} :
    (x >>= f) = ok b ↔ ∃ a, x = ok a ∧ f a = ok b := by
  cases x <;> simp

instance : LawfulMonad Out :=
  LawfulMonad.mk' Out
    (id_map := by intro α x; cases x <;> rfl)
    (pure_bind := by intros; rfl)
    (bind_assoc := by intro α β γ x f g; cases x <;> rfl)

/-- `assert(c)` -/
def assert (c : Prop) [Decidable c] : Out Unit := if c then ok () else abort

@[simp] theorem assert_true {c : Prop} [Decidable c] (h : c) : assert c = ok () := by
  simp [assert, h]
@[simp] theorem assert_false {c : Prop} [Decidable c] (h : ¬ c) : assert c = abort := by
  simp [assert, h]
theorem assert_eq_ok {c : Prop} [Decidable c] {u : Unit} : assert c = ok u ↔ c := by
  unfold assert; split <;> simp_all

end Out
end Verif
