import Verif.Base.Python
/-!
# Model of `src/arc_utilities/catches.py` and `src/arc_utilities/conditional_try.py`

Calls with a time limit. A call is a tree of what the interpreter does: it may be interrupted by the alarm between any
two steps, sets the alarm, installs the handler, and ends with a value or an exception. Time is left out: an alarm that is
set may ring at any step or never. Printing is left out.
-/
namespace Verif.Catches
open Verif

/-- What a call does.
* `done`: it returns or raises
* `tick next interrupted`: a point at which the alarm may ring; then the handler raises `TimeoutError`, which the call
  goes on with as `interrupted`
* `alarm`: `signal.alarm(seconds)`
* `install`: `signal.signal(SIGALRM, _handle_timeout)`. Used for catches.py:11-17, 15. -/
inductive Prog (α : Type) where
  | done (r : Except PyExc α)
  | tick (next interrupted : Prog α)
  | alarm (seconds : Nat) (next : Prog α)
  | install (next : Prog α)

/-- One call and then, with its result or exception, another. Python: `try: x = p() ... except ...`. Used for
catches.py:11-17, 9-20. -/
def Prog.andThen {α β : Type} : Prog α → (Except PyExc α → Prog β) → Prog β
  | .done r, k => k r
  | .tick n i, k => .tick (n.andThen k) (i.andThen k)
  | .alarm s n, k => .alarm s (n.andThen k)
  | .install n, k => .install (n.andThen k)

/-- The handler of the alarm: the one of this module (src/arc_utilities/catches.py:5-6), or another -/
inductive Handler where
  | raises
  | other
  deriving DecidableEq, Repr

/-- The state of the process: the handler, and whether an alarm is set. Used for catches.py:5-17. -/
structure Process where
  handler : Handler
  pending : Bool
  deriving DecidableEq, Repr

/-- The runs of a call from a state to a state, with the result. `signal.alarm(0)` turns the alarm off, any other number
replaces the one before (POSIX). An alarm with another handler than the one of this module is left out. Used for
catches.py:5-17. -/
inductive Runs {α : Type} : Process → Prog α → Process → Except PyExc α → Prop where
  | done (s r) : Runs s (.done r) s r
  | go {s n i s' r} : Runs s n s' r → Runs s (.tick n i) s' r
  | ring {n i s' r} : Runs ⟨.raises, false⟩ i s' r → Runs ⟨.raises, true⟩ (.tick n i) s' r
  | alarm {s k n s' r} : Runs ⟨s.handler, k != 0⟩ n s' r → Runs s (.alarm k n) s' r
  | install {s n s' r} : Runs ⟨.raises, s.pending⟩ n s' r → Runs s (.install n) s' r

/-- Inside the outer `try` of `catch_timeout` (src/arc_utilities/catches.py:11-17). The `finally` turns the alarm off. The
alarm may ring between setting it and the call (line 12-14) and after the call before it is off (line 15-17). An alarm set
before may ring once the handler is installed (line 11-12). -/
def guarded {α : Type} (seconds : Nat) (func : Prog α) : Prog α :=
  .install (.tick
    (.alarm seconds (.tick
      (func.andThen fun r => .tick (.alarm 0 (.done r)) (.done (.error .timeoutError)))
      (.done (.error .timeoutError))))
    (.done (.error .timeoutError)))

/-- What `catch_timeout` makes of it (src/arc_utilities/catches.py:15 and 18-20) -/
def afterwards {α : Type} : Except PyExc α → Prog (Option α × Bool)
  | .ok v => .done (.ok (some v, false))
  | .error .timeoutError => .done (.ok (none, true))
  | .error e => .done (.error e)

/-- `catch_timeout` (src/arc_utilities/catches.py:9-20) -/
def catchTimeout {α : Type} (seconds : Nat) (func : Prog α) : Prog (Option α × Bool) :=
  (guarded seconds func).andThen afterwards

/-! ### Generators -/

/-- What happens to one `catch_timeout(seconds, next, it)`: the alarm does not ring, rings while the generator runs, or
rings after the generator has given its item (and before the alarm is off). Used for catches.py:33, 23-42. -/
inductive Ring where
  | no
  | inside
  | after
  deriving DecidableEq, Repr

/-- What the caller sees: an item, or the call of `on_timeout`. Used for catches.py:23-42. -/
inductive Event (α : Type) where
  | item (x : α)
  | timeout
  deriving DecidableEq, Repr

/-- How far the loop is: still going, ended, or ended by an exception. Used for catches.py:23-42, 45-59. -/
inductive Status where
  | going
  | ended
  | raised (e : PyExc)
  deriving DecidableEq, Repr

/-- `next(it)` for a generator with the given items left that ends with an exception or not: an item and what is left;
or
the exception, after which nothing is left. `none` is `StopIteration`. Used for catches.py:33. -/
def next {α : Type} (g : Yielded α) : (Option PyExc ⊕ α) × Yielded α :=
  match g.items with
  | x :: r => (.inr x, ⟨r, g.ended⟩)
  | [] => (.inl g.ended, ⟨[], none⟩)

/-- `catch_timeout(seconds, next, it)` (src/arc_utilities/catches.py:33 and 55): the item with `timed_out` false; or
`none` for a timeout; or an exception. A generator through which `TimeoutError` goes is finished. Simplification: the
generator does not catch the `TimeoutError` itself. -/
def catchNext {α : Type} (g : Yielded α) (ring : Ring) : Except (Option PyExc) (Option α) × Yielded α :=
  match ring with
  | .inside => (.ok none, ⟨[], none⟩)
  | .after => (.ok none, (next g).2)
  | .no =>
    match next g with
    | (.inr x, g') => (.ok (some x), g')
    | (.inl (some .timeoutError), g') => (.ok none, g')
    | (.inl e, g') => (.error e, g')

/-- `retry_on_timeout` (src/arc_utilities/catches.py:23-42) for as many rounds as the list has entries: what was seen and
how far the loop is. `gen` is what `gen(*gen_args, **gen_kwargs)` yields, the same each time; `it` what is left. -/
def retry {α : Type} (gen : Yielded α) : Yielded α → List Ring → List (Event α) × Status
  | _, [] => ([], .going)
  | it, ring :: rings =>
    match catchNext it ring with
    | (.ok none, _) =>
      let r := retry gen gen rings
      (.timeout :: r.1, r.2)
    | (.ok (some x), it') =>
      let r := retry gen it' rings
      (.item x :: r.1, r.2)
    | (.error none, _) => ([], .ended)
    | (.error (some e), _) => ([], .raised e)

/-- `skip_on_timeout` (src/arc_utilities/catches.py:45-59), in the same way -/
def skip {α : Type} : Yielded α → List Ring → List α × Status
  | _, [] => ([], .going)
  | it, ring :: rings =>
    match catchNext it ring with
    | (.ok none, it') => skip it' rings
    | (.ok (some x), it') =>
      let r := skip it' rings
      (x :: r.1, r.2)
    | (.error none, _) => ([], .ended)
    | (.error (some e), _) => ([], .raised e)

/-- `conditional_try` (src/arc_utilities/conditional_try.py:4-14). `KeyboardInterrupt` is not an `Exception`. -/
def conditionalTry {α : Type} (shouldCatch : Bool) (function : Except PyExc α) (valueOnException : α) : Except PyExc α :=
  if shouldCatch then
    match function with
    | .ok v => .ok v
    | .error .keyboardInterrupt => .error .keyboardInterrupt
    | .error _ => .ok valueOnException
  else function

end Verif.Catches
