import Verif.Base.Outcome

/-!
# Specification: what a history of profiler calls has recorded

An event is a call, what it returned, and the number of clock readings taken up to its end.
-/
namespace Verif.Profiler
open Verif

/-- calls that change the profiler -/
inductive Op (K : Type)
  | reinitialize (numNames numEvents : Nat)
  | reset (name : String)
  | addData (name : String) (datum : K)
  | startTimer (name : String)
  | record (name : String)
  | recordDouble (name : String) (datum : K)
  | getData (name : String)

/-- what they return -/
inductive Reply (K : Type)
  | nothing
  | time (t : K)
  | values (v : List K)

/-- a call, its outcome, and the number of clock readings at its end -/
structure Event (K : Type) where
  op : Op K
  reply : Out (Reply K)
  ticks : Nat

variable {K : Type}

/-- what the event does to the list of data recorded under the name -/
def Event.record (name : String) (e : Event K) (v : List K) : List K :=
  match e.op, e.reply with
  | .addData n d, _ => if n = name then v ++ [d] else v
  | .record n, .ok (.time t) => if n = name then v ++ [t] else v
  | .reset n, _ => if n = name then [] else v
  | .reinitialize _ _, _ => []
  | _, _ => v

/-- the data recorded under the name since it was last reset or everything was -/
def recorded (name : String) (h : List (Event K)) : List K := h.foldl (fun v e => e.record name v) []

/-- what the event does to the list of times with values recorded under the name: a reset of the name alone does
not concern them -/
def Event.recordTimed (name : String) (e : Event K) (v : List (K × K)) : List (K × K) :=
  match e.op, e.reply with
  | .recordDouble n d, .ok (.time t) => if n = name then v ++ [(t, d)] else v
  | .reinitialize _ _, _ => []
  | _, _ => v

/-- the times with values recorded under the name since everything was last reset -/
def recordedTimed (name : String) (h : List (Event K)) : List (K × K) :=
  h.foldl (fun v e => e.recordTimed name v) []

/-- whether the event makes the name known -/
def Event.know (name : String) (e : Event K) (b : Bool) : Bool :=
  match e.op, e.reply with
  | .addData n _, _ => if n = name then true else b
  | .record n, .ok _ => if n = name then true else b
  | .getData n, _ => if n = name then true else b
  | .reinitialize _ _, _ => false
  | _, _ => b

/-- data was added, recorded or asked for under this name since everything was last reset -/
def known (name : String) (h : List (Event K)) : Bool := h.foldl (fun b e => e.know name b) false

/-- what the event does to the start of the timer, given whether the name is known: `startTimer` starts it, and
`reset` does if the name is known; the start is the last reading of the clock during that call -/
def Event.start (clock : Nat → K) (name : String) (e : Event K) (p : Bool × Option K) : Bool × Option K :=
  (e.know name p.1,
    match e.op with
    | .startTimer n => if n = name then some (clock (e.ticks - 1)) else p.2
    | .reset n => if n = name ∧ p.1 = true then some (clock (e.ticks - 1)) else p.2
    | _ => p.2)

/-- the last start of the timer, if there is one -/
def lastStart (clock : Nat → K) (name : String) (h : List (Event K)) : Option K :=
  (h.foldl (fun p e => e.start clock name p) (false, none)).2

end Verif.Profiler
