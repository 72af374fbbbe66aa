/-!
# Model of `src/arc_utilities/listener.py`

A `Listener` used by any number of threads. A state is what the object holds, where each thread is in its call, and the
history of what happened. Any thread may go on at any moment, so sleeping is left out. Copying a message is left out.
-/
namespace Verif.PyListener

variable {μ : Type}

/-- The callback the user gives (src/arc_utilities/listener.py:9): none, one that leaves the listener alone, or one that
calls `get` of the same listener -/
inductive Custom where
  | none | plain | callsGet
deriving DecidableEq

/-- Where a thread is in its call. Used for listener.py:25-29. -/
inductive Pc (μ : Type) where
  /-- `callback`, waiting for the lock (src/arc_utilities/listener.py:34) -/
  | cbLock (m : μ)
  /-- keeping the message (src/arc_utilities/listener.py:35) -/
  | cbWrite (m : μ)
  /-- reading the attribute `custom_callback` (src/arc_utilities/listener.py:36) -/
  | cbTest (m : μ)
  /-- inside the user's callback, waiting for the lock in `get` (src/arc_utilities/listener.py:50) -/
  | innerLock
  /-- leaving the `with` block of `callback`, by its end or by an exception -/
  | cbUnlock
  /-- `get`, in `wait_for` (src/arc_utilities/listener.py:48) -/
  | getWait (block : Bool)
  /-- `get`, waiting for the lock (src/arc_utilities/listener.py:50) -/
  | getLock (block : Bool)
  /-- `get`, reading the message (src/arc_utilities/listener.py:51) -/
  | getRead (block : Bool)
  /-- `get`, leaving the `with` block -/
  | getUnlock

/-- What happens, in the order of happening. Used for listener.py:25-29. -/
inductive Event (μ : Type) where
  /-- a message is kept -/
  | received (m : μ)
  /-- a message is handed to the user's callback -/
  | handed (m : μ)
  /-- `callback` raises `AttributeError`: the attribute `custom_callback` is not there yet -/
  | failed (m : μ)
  /-- there is no callback of the user -/
  | quiet (m : μ)
  /-- the constructor sets `custom_callback` (src/arc_utilities/listener.py:30) -/
  | assigned
  /-- a call of `get` returns this value -/
  | returns (block : Bool) (v : Option μ)
  /-- ROS is shut down -/
  | shutdown

/-- The object, the threads and the history. Used for listener.py:25-29. -/
structure State (μ : Type) where
  data : Option μ
  holder : Option Nat
  assigned : Bool
  down : Bool
  threads : Nat → Option (Pc μ)
  history : List (Event μ)

/-- Just after subscribing (src/arc_utilities/listener.py:25-29): messages may come from now on -/
def start : State μ := ⟨none, none, false, false, fun _ => none, []⟩

/-- A thread goes on at another place, or ends its call. Used for listener.py:32-49. -/
def State.goto (s : State μ) (t : Nat) (pc : Option (Pc μ)) : State μ :=
  { s with threads := fun u => if u = t then pc else s.threads u }

/-- Something happens. Used for listener.py:32-49. -/
def State.emit (s : State μ) (e : Event μ) : State μ := { s with history := s.history ++ [e] }

/-- What can happen next. Used for listener.py:9-49. -/
inductive Move (μ : Type) where
  | message (t : Nat) (m : μ)
  | get (t : Nat) (block : Bool)
  | step (t : Nat)
  | assign
  | shutdown

/-- A step of a thread; `none` if it has to wait. Used for listener.py:32-49. -/
def stepAt (c : Custom) (s : State μ) (t : Nat) : Pc μ → Option (State μ)
  | .cbLock m => if s.holder = none then some ({ s with holder := some t }.goto t (some (.cbWrite m))) else none
  | .cbWrite m => some (({ s with data := some m }.emit (.received m)).goto t (some (.cbTest m)))
  | .cbTest m =>
    if s.assigned then
      match c with
      | .none => some ((s.emit (.quiet m)).goto t (some .cbUnlock))
      | .plain => some ((s.emit (.handed m)).goto t (some .cbUnlock))
      | .callsGet => some ((s.emit (.handed m)).goto t (some .innerLock))
    else some ((s.emit (.failed m)).goto t (some .cbUnlock))
  | .innerLock => if s.holder = none then some ({ s with holder := some t }.goto t (some .cbUnlock)) else none
  | .cbUnlock => some ({ s with holder := none }.goto t none)
  | .getWait b => if !(b && s.data.isNone) || s.down then some (s.goto t (some (.getLock b))) else none
  | .getLock b => if s.holder = none then some ({ s with holder := some t }.goto t (some (.getRead b))) else none
  | .getRead b => some ((s.emit (.returns b s.data)).goto t (some .getUnlock))
  | .getUnlock => some ({ s with holder := none }.goto t none)

/-- What follows a move; `none` if it is not possible now. The constructor sets the attribute once. Used for
listener.py:9-49. -/
def move (c : Custom) (s : State μ) : Move μ → Option (State μ)
  | .message t m => match s.threads t with
    | none => some (s.goto t (some (.cbLock m)))
    | some _ => none
  | .get t b => match s.threads t with
    | none => some (s.goto t (some (.getWait b)))
    | some _ => none
  | .step t => match s.threads t with
    | some pc => stepAt c s t pc
    | none => none
  | .assign => if s.assigned then none else some ({ s with assigned := true }.emit .assigned)
  | .shutdown => some ({ s with down := true }.emit .shutdown)

/-- A schedule. Used for listener.py:9-49. -/
def run (c : Custom) (s : State μ) : List (Move μ) → Option (State μ)
  | [] => some s
  | m :: ms => match move c s m with
    | some s' => run c s' ms
    | none => none

end Verif.PyListener
