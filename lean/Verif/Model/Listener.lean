/-!
# Model: the topic listener shared by threads (`listener.hpp`)
-/
namespace Verif.Listener

variable {μ : Type}

/-- A call on a listener: the spinner's `callback` with a message, `get`, or `waitForNew`
(include/arc_utilities/listener.hpp:19,39,44). -/
inductive Call (μ : Type)
  | callback (m : μ)
  | get
  | waitForNew

/-- What a call ends with: `callback` has no result, `get` gives a message or null, and `waitForNew`
gives a message or throws. Used for listener.hpp:16-17, 19-22. -/
inductive Result (μ : Type)
  | done
  | value (v : Option μ)
  | message (m : μ)
  | interrupted

/-- Where a thread is in its call. A `lock_guard` is three steps: to take the mutex, the access to
`msg_`, and to give the mutex back. Used for listener.hpp:21,41,48. -/
inductive Pc (μ : Type)
  /-- callback: before line 20, at line 21, at line 22 -/
  | cbLock (m : μ) | cbWrite (m : μ) | cbUnlock
  /-- get: before line 40, at line 41, at line 42 with the pointer read -/
  | getLock | getRead | getUnlock (v : Option μ)
  /-- waitForNew: before line 47, at line 48, at line 49 -/
  | clearLock | clearWrite | clearUnlock
  /-- waitForNew: the loop condition of line 51 -/
  | check
  /-- waitForNew: the call of get in line 52, and the test of line 53 in its last step -/
  | pollLock | pollRead | pollUnlock (v : Option μ)

/-- What an observer sees: calls beginning and ending, the moments the stored message changes, and
the node shutting down. A call that ends carries the position of its beginning in the history. Used for
listener.hpp:16-17. -/
inductive Event (μ : Type)
  | began (t : Nat) (c : Call μ)
  | delivered (t : Nat) (m : μ)
  | cleared (t : Nat)
  | ended (t : Nat) (c : Call μ) (since : Nat) (r : Result μ)
  | shutdown

/-- A thread inside a call: the call, when it began, and where it is. Used for listener.hpp:16-17, 19-22. -/
structure Active (μ : Type) where
  call : Call μ
  since : Nat
  pc : Pc μ

/-- The listener (`mtx_` by its holder, and `msg_`; include/arc_utilities/listener.hpp:16-17),
`ros::ok()`, the threads, and the history so far, which the code does not keep. -/
structure State (μ : Type) where
  holder : Option Nat
  msg : Option μ
  ok : Bool
  threads : Nat → Option (Active μ)
  history : List (Event μ)

/-- A listener after its constructor (include/arc_utilities/listener.hpp:26): no message. -/
def start : State μ := ⟨none, none, true, fun _ => none, []⟩

/-- What can happen next: a thread that is in no call begins one, a thread in a call takes a step, or
the node shuts down. Used for listener.hpp:16-44. -/
inductive Move (μ : Type)
  | call (t : Nat) (c : Call μ)
  | step (t : Nat)
  | shutdown

/-- The first step of a call. Used for listener.hpp:16-44. -/
def entry : Call μ → Pc μ
  | .callback m => .cbLock m
  | .get => .getLock
  | .waitForNew => .clearLock

/-- Thread `t` goes on at `pc`. Used for listener.hpp:19-22. -/
def State.goto (s : State μ) (t : Nat) (a : Active μ) (pc : Pc μ) : State μ :=
  { s with threads := fun u => if u = t then some { a with pc := pc } else s.threads u }

/-- Thread `t` takes the mutex and goes on at `pc`, or waits. Used for listener.hpp:19-22. -/
def State.lock (s : State μ) (t : Nat) (a : Active μ) (pc : Pc μ) : State μ :=
  if s.holder = none then { s with holder := some t }.goto t a pc else s

/-- The history goes on. Used for listener.hpp:19-22. -/
def State.emit (s : State μ) (e : Event μ) : State μ := { s with history := s.history ++ [e] }

/-- The call of thread `t` ends. Used for listener.hpp:19-22. -/
def State.finish (s : State μ) (t : Nat) (a : Active μ) (r : Result μ) : State μ :=
  { s.emit (.ended t a.call a.since r) with
      threads := fun u => if u = t then none else s.threads u }

/-- One step of a thread (include/arc_utilities/listener.hpp:19-22 for `callback`, 39-42 for `get`,
44-59 for `waitForNew`). Simplified: `r.sleep()` is no step, because any number of steps of other
threads may come between two steps of a thread. -/
def stepAt (s : State μ) (t : Nat) (a : Active μ) : State μ :=
  match a.pc with
  | .cbLock m => s.lock t a (.cbWrite m)
  | .cbWrite m => ({ s with msg := some m }.emit (.delivered t m)).goto t a .cbUnlock
  | .cbUnlock => { s with holder := none }.finish t a .done
  | .getLock => s.lock t a .getRead
  | .getRead => s.goto t a (.getUnlock s.msg)
  | .getUnlock v => { s with holder := none }.finish t a (.value v)
  | .clearLock => s.lock t a .clearWrite
  | .clearWrite => ({ s with msg := none }.emit (.cleared t)).goto t a .clearUnlock
  | .clearUnlock => { s with holder := none }.goto t a .check
  | .check => if s.ok then s.goto t a .pollLock else s.finish t a .interrupted
  | .pollLock => s.lock t a .pollRead
  | .pollRead => s.goto t a (.pollUnlock s.msg)
  | .pollUnlock v =>
    match v with
    | some m => { s with holder := none }.finish t a (.message m)
    | none => { s with holder := none }.goto t a .check

/-- One move. Used for listener.hpp:16-44. -/
def move (s : State μ) : Move μ → State μ
  | .call t c =>
    match s.threads t with
    | some _ => s
    | none =>
      { s.emit (.began t c) with
          threads := fun u => if u = t then some ⟨c, s.history.length, entry c⟩ else s.threads u }
  | .step t =>
    match s.threads t with
    | some a => stepAt s t a
    | none => s
  | .shutdown => { s.emit .shutdown with ok := false }

/-- A schedule. Used for listener.hpp:16-44. -/
def run (s : State μ) : List (Move μ) → State μ
  | [] => s
  | m :: ms => run (move s m) ms

/-- Whether the next step of a thread accesses `msg_`
(include/arc_utilities/listener.hpp:21,41,48). -/
def Pc.accesses : Pc μ → Bool
  | .cbWrite _ | .getRead | .clearWrite | .pollRead => true
  | _ => false

end Verif.Listener
