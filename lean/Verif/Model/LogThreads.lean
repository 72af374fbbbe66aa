/-!
# Model: threads that share one logger (`log.hpp`)
-/
namespace Verif.LogThreads

/-- A thread that calls `logMessage` for one message after another
(include/arc_utilities/log.hpp:98-101): the messages still to come, and, while the thread holds the
mutex, the characters it has still to write. -/
structure Thread where
  todo : List String
  writing : Option (List Char)

/-- The mutex, by the thread that holds it, the file, and the threads. Used for log.hpp:99-100. -/
structure State where
  holder : Option Nat
  file : List Char
  threads : Nat → Thread

/-- One step of thread `t` (include/arc_utilities/log.hpp:99-100): it takes the mutex, waits for it,
writes one character of `message << std::endl`, or gives the mutex back when the call returns.
Simplified: the characters reach the file one at a time, in order, which is the finest grain at which
the writes of two threads could mix. -/
def step (s : State) (t : Nat) : State :=
  let th := s.threads t
  match th.writing with
  | none =>
    match th.todo with
    | [] => s
    | m :: rest =>
      if s.holder = none then
        { s with
            holder := some t
            threads := fun u => if u = t then ⟨rest, some (m.toList ++ ['\n'])⟩ else s.threads u }
      else s
  | some [] =>
    { s with
        holder := none
        threads := fun u => if u = t then ⟨th.todo, none⟩ else s.threads u }
  | some (c :: cs) =>
    { s with
        file := s.file ++ [c]
        threads := fun u => if u = t then ⟨th.todo, some cs⟩ else s.threads u }

/-- A schedule: the thread that moves at every step. Used for log.hpp:83-94. -/
def run (s : State) : List Nat → State
  | [] => s
  | t :: ts => run (step s t) ts

/-- The threads before any has called `logMessage`. Used for log.hpp:83-94. -/
def start (file : List Char) (todo : Nat → List String) : State :=
  ⟨none, file, fun t => ⟨todo t, none⟩⟩

end Verif.LogThreads
