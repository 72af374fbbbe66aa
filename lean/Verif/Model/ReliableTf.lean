import Verif.Base.Python
/-!
# Model of `src/arc_utilities/reliable_tf.py`

`ReliableTF` with the threads it starts. A state of the program is what the object holds, the threads, and what the
calling thread has still to do in the call it is in. Any thread may go on at any moment. `K` is the type of pairs of
frame names, `V` that of transforms. Time is left out: a thread may sleep as long as it likes. Only one thread uses the
object, as intended.
-/
namespace Verif.ReliableTf
open Verif

variable {K V : Type} [DecidableEq K]

/-- A thread of `send_at_rate` (src/arc_utilities/reliable_tf.py:19-23): what it sends; whether its event is set; whether
it runs; and whether it is past the test of the event and will send next -/
structure Sender (K V : Type) where
  key : K
  value : V
  isStatic : Bool
  exit : Bool
  alive : Bool
  sending : Bool

/-- What is left to do of a call. Used for reliable_tf.py:92-110. -/
inductive Cmd (K V : Type) where
  /-- `stop_send` (src/arc_utilities/reliable_tf.py:112-117) -/
  | stop (k : K)
  /-- `thread.join()` (src/arc_utilities/reliable_tf.py:117) -/
  | join (i : Nat)
  /-- making the thread and keeping it (src/arc_utilities/reliable_tf.py:98-104), in one step -/
  | spawn (k : K) (v : V) (isStatic : Bool)
  /-- waiting for the transform (src/arc_utilities/reliable_tf.py:106-110) -/
  | await
  /-- `close` (src/arc_utilities/reliable_tf.py:55-57) -/
  | closeAll

/-- The calls of the user. Used for reliable_tf.py:92-110. -/
inductive Call (K V : Type) where
  | start (k : K) (v : V) (isStatic : Bool)
  | stop (k : K)
  | close

/-- What a call does: `start_send` (src/arc_utilities/reliable_tf.py:92-110), through one of its three callers (59-90);
`stop_send`; `close` -/
def Call.body : Call K V → List (Cmd K V)
  | .start k v st => [.stop k, .spawn k v st, .await]
  | .stop k => [.stop k]
  | .close => [.closeAll]

/-- The object, the threads, and the messages sent so far. `managed` is the dictionary `managed_tfs` with the number of
the thread; `statics` is `static_tfs` of the shared `TF2Wrapper`. `calls` is the history of calls. Used for
reliable_tf.py:47-50, 21-23. -/
structure State (K V : Type) where
  managed : List (K × Nat)
  threads : List (Sender K V)
  statics : List (K × V)
  sent : List (List (K × V))
  todo : List (Cmd K V)
  calls : List (Call K V)

/-- A new object (src/arc_utilities/reliable_tf.py:47-50) -/
def State.init : State K V := ⟨[], [], [], [], [], []⟩

/-- The thread kept for a key. Used for reliable_tf.py:96, 113. -/
def lookup (m : List (K × Nat)) (k : K) : Option Nat := (m.find? fun e => e.1 = k).map Prod.snd

/-- `managed_tfs.pop(k)`. Used for reliable_tf.py:114. -/
def remove (m : List (K × Nat)) (k : K) : List (K × Nat) := m.filter fun e => e.1 ≠ k

/-- `managed_tfs[k] = i`. Used for reliable_tf.py:103. -/
def put (m : List (K × Nat)) (k : K) (i : Nat) : List (K × Nat) := remove m k ++ [(k, i)]

/-- What the calling thread does next; `none` if it has to wait. Used for reliable_tf.py:48-58, 93-116. -/
def mainStep (s : State K V) : Option (State K V) :=
  match s.todo with
  | [] => none
  | .stop k :: rest =>
    match lookup s.managed k with
    | none => some { s with todo := rest }
    | some i => some { s with
        managed := remove s.managed k,
        threads := s.threads.modify i (fun t => { t with exit := true }),
        todo := .join i :: rest }
  | .join i :: rest =>
    match s.threads[i]? with
    | some t => if t.alive then none else some { s with todo := rest }
    | none => none
  | .spawn k v st :: rest => some { s with
      threads := s.threads ++ [⟨k, v, st, false, true, false⟩],
      managed := put s.managed k s.threads.length,
      todo := rest }
  | .await :: rest => some { s with todo := rest }
  | .closeAll :: rest => some { s with todo := (s.managed.map fun e => .stop e.1) ++ rest }

/-- One round of `send_at_rate` (src/arc_utilities/reliable_tf.py:21-23), in two steps: the test of the event, and the
sending. A static transform is appended to the list of the shared object and the whole list is sent
(src/arc_utilities/tf2wrapper.py:107-111 and 141-145). -/
def threadStep (s : State K V) (i : Nat) (t : Sender K V) : State K V :=
  if t.sending then
    if t.isStatic then
      { s with
        threads := s.threads.set i { t with sending := false },
        statics := s.statics ++ [(t.key, t.value)],
        sent := s.sent ++ [s.statics ++ [(t.key, t.value)]] }
    else
      { s with
        threads := s.threads.set i { t with sending := false },
        sent := s.sent ++ [[(t.key, t.value)]] }
  else if t.exit then { s with threads := s.threads.set i { t with alive := false } }
  else { s with threads := s.threads.set i { t with sending := true } }

/-- The steps of the program. Used for reliable_tf.py:20-24, 48-58, 93-116. -/
inductive Step : State K V → State K V → Prop where
  /-- the user calls when the call before is over -/
  | call (s : State K V) (c : Call K V) : s.todo = [] → Step s { s with todo := c.body, calls := s.calls ++ [c] }
  /-- the calling thread goes on -/
  | main (s s' : State K V) : mainStep s = some s' → Step s s'
  /-- the waiting raises, for example because ROS is shut down -/
  | raise (s : State K V) (rest : List (Cmd K V)) : s.todo = .await :: rest → Step s { s with todo := [] }
  /-- a sending thread goes on -/
  | thread (s : State K V) (i : Nat) (t : Sender K V) : s.threads[i]? = some t → t.alive = true → Step s (threadStep s i t)
  /-- a sending thread ends with an exception, for example because ROS is shut down -/
  | die (s : State K V) (i : Nat) (t : Sender K V) : s.threads[i]? = some t → t.alive = true →
      Step s { s with threads := s.threads.set i { t with alive := false } }

/-- The states that can be reached. Used for reliable_tf.py:20-24, 48-58, 93-116. -/
inductive Reach : State K V → Prop where
  | init : Reach State.init
  | step {s s' : State K V} : Reach s → Step s s' → Reach s'

end Verif.ReliableTf
