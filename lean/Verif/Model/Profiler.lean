import Verif.Base.Outcome
import Verif.Spec.Profiler
import Mathlib.Algebra.Field.Defs
import Mathlib.Order.Defs.LinearOrder

/-!
# Model of src/arc_utilities/timing.cpp and timing.hpp

The clock is an arbitrary sequence of readings, taken one after the other (`ticks` counts them); arithmetic on
times is exact. Of the printed and written text the model keeps the numbers and names, not the layout, and not
the date and time in the header of a file. Opening a file is taken to succeed (the code does not check it).
-/
namespace Verif.Profiler
open Verif

/-- `std::map<std::string, V>` as a list of entries with different keys. Used for timing.hpp:146-150. -/
abbrev Map (V : Type) := List (String × V)

/-- `map.find(key)`. Used for timing.cpp:55-61, 35-41. -/
def Map.get {V : Type} : Map V → String → Option V
  | [], _ => none
  | (k, v) :: m, key => if k = key then some v else Map.get m key

/-- `map[key] = value`. Used for timing.hpp:82-89 and timing.cpp:55-61. -/
def Map.set {V : Type} : Map V → String → V → Map V
  | [], key, value => [(key, value)]
  | (k, v) :: m, key, value => if k = key then (key, value) :: m else (k, v) :: Map.set m key value

/-- timing.hpp:146-150: the members of the profiler. A stopwatch (timing.hpp:78-93) is its start time. The
preallocated vectors differ from other empty vectors only in capacity, which is left out. -/
structure St (K : Type) where
  timed : Map (List (K × K)) := []
  data : Map (List K) := []
  timers : Map K := []
  prealloc : List (List K) := []
  ticks : Nat := 0

variable {K : Type}

/-- timing.cpp:25-33 `reset_and_preallocate`; the timers stay -/
def reinitialize (numNames : Nat) (s : St K) : St K :=
  { s with
    data := []
    timed := []
    prealloc := s.prealloc.take numNames ++ List.replicate (numNames - s.prealloc.length) [] }

/-- timing.hpp:82-89: the stopwatch read with `RESET`: it starts anew -/
def stopwatchReset (clock : Nat → K) (name : String) (s : St K) : St K :=
  { s with timers := s.timers.set name (clock s.ticks), ticks := s.ticks + 1 }

/-- timing.cpp:55-61 `startTimer`; a new stopwatch reads the clock too (timing.hpp:80) -/
def startTimer (clock : Nat → K) (name : String) (s : St K) : St K :=
  match s.timers.get name with
  | none => stopwatchReset clock name
      { s with timers := s.timers.set name (clock s.ticks), ticks := s.ticks + 1 }
  | some _ => stopwatchReset clock name s

/-- timing.cpp:35-41 `reset` -/
def reset (clock : Nat → K) (name : String) (s : St K) : St K :=
  match s.data.get name with
  | some _ => startTimer clock name { s with data := s.data.set name [] }
  | none => s

/-- `m->data[name]`: inserts an empty vector when the name is missing. Used for timing.cpp:43-53. -/
def entry (s : St K) (name : String) : List K := (s.data.get name).getD []

/-- timing.cpp:45-51: a new name takes over the last preallocated vector -/
def prepare (name : String) (s : St K) : St K :=
  match s.data.get name with
  | some _ => s
  | none =>
    match s.prealloc.getLast? with
    | some buffer => { s with data := s.data.set name buffer, prealloc := s.prealloc.dropLast }
    | none => { s with data := s.data.set name [] }

/-- timing.cpp:43-53 `addData` -/
def addData (name : String) (datum : K) (s : St K) : St K :=
  { prepare name s with data := (prepare name s).data.set name (entry (prepare name s) name ++ [datum]) }

variable [Field K]

/-- timing.cpp:68-77 `record` -/
def record (clock : Nat → K) (name : String) (s : St K) : Out K × St K :=
  match s.timers.get name with
  | none => (.throws .logicError, s)
  | some start =>
    let elapsed := clock s.ticks - start
    (.ok elapsed, addData name elapsed { s with ticks := s.ticks + 1 })

/-- timing.cpp:79-92 `recordDouble` -/
def recordDouble (clock : Nat → K) (name : String) (datum : K) (s : St K) : K × St K :=
  match s.timers.get name with
  | none => (0, { s with timed := s.timed.set name ((s.timed.get name).getD [] ++ [(0, datum)]) })
  | some start =>
    let elapsed := clock s.ticks - start
    (elapsed, { s with
      timed := s.timed.set name ((s.timed.get name).getD [] ++ [(elapsed, datum)]), ticks := s.ticks + 1 })

/-- timing.cpp:94-97 `getData`: inserts an empty vector when the name is missing -/
def getData (name : String) (s : St K) : List K × St K :=
  match s.data.get name with
  | some v => (v, s)
  | none => ([], { s with data := s.data.set name [] })

/-- what `printSingleSummary` prints. Used for timing.cpp:99-127. -/
inductive Summary (K : Type)
  | neverCalled
  | called (total : K) (times : Nat) (least greatest average : K)
  deriving DecidableEq

/-- timing.cpp:99-127 `printSingleSummary`; `std::min_element` of no data must not be dereferenced -/
def printSingleSummary [LinearOrder K] (name : String) (s : St K) : Out (Summary K) :=
  match s.data.get name with
  | none => .ok .neverCalled
  | some [] => .ub
  | some (x :: xs) =>
    let total := (x :: xs).foldl (· + ·) 0
    .ok (.called total (x :: xs).length
      (xs.foldl (fun m y => if y < m then y else m) x) (xs.foldl (fun m y => if m < y then y else m) x)
      (total / ((x :: xs).length : Nat)))

/-- a line of a group summary; the average of no data is not a number. Used for timing.cpp:154-173, 129-174. -/
inductive Row (K : Type)
  | separator
  | times (name : String) (total : K) (calls : Nat) (average : Option K)
  | values (name : String) (total : K) (calls : Nat) (average : Option K) (totalValue : K) (averageValue : Option K)
  deriving DecidableEq

/-- division of a total by a number of calls. Used for timing.cpp:154-173, 242-279. -/
def mean (total : K) (n : Nat) : Option K := if n = 0 then none else some (total / (n : Nat))

/-- timing.cpp:155, 243: the name begins with five tildes -/
def isSeparator (name : String) : Bool := ['~', '~', '~', '~', '~'].isPrefixOf name.toList

/-- timing.cpp:154-173: a line of `printGroupSummary` -/
def groupRow (s : St K) (name : String) : Row K :=
  if isSeparator name then .separator
  else
    match s.data.get name with
    | some v => .times name (v.foldl (· + ·) 0) v.length (mean (v.foldl (· + ·) 0) v.length)
    | none => .times name 0 0 (some 0)

/-- timing.cpp:129-174 `printGroupSummary`; `std::max_element` of no names must not be dereferenced -/
def printGroupSummary (names : List String) (s : St K) : Out (List (Row K)) :=
  if names = [] then .ub else .ok (names.map (groupRow s))

/-- timing.cpp:242-279: a line of `writeGroupSummary` -/
def writeRow (s : St K) (name : String) : Row K :=
  if isSeparator name then .separator
  else
    match s.data.get name, s.timed.get name with
    | some v, _ => .times name (v.foldl (· + ·) 0) v.length (mean (v.foldl (· + ·) 0) v.length)
    | none, some v =>
      .values name (v.foldl (fun a x => a + x.1) 0) v.length (mean (v.foldl (fun a x => a + x.1) 0) v.length)
        (v.foldl (fun a x => a + x.2) 0) (mean (v.foldl (fun a x => a + x.2) 0) v.length)
    | none, none => .times name 0 0 (some 0)

/-- timing.cpp:210-282 `writeGroupSummary` -/
def writeGroupSummary (names : List String) (s : St K) : Out (List (Row K)) :=
  if names = [] then .ub else .ok (names.map (writeRow s))

/-- timing.cpp:176-191 `getAllNames` -/
def getAllNames (s : St K) : List String :=
  (s.data.map (·.1) ++ s.timed.map (·.1)).mergeSort fun a b => decide (a ≤ b)

/-- timing.cpp:322-335: the lines for one name -/
def nameLines (limit : Nat) (s : St K) (name : String) : List (String × K × Option K) :=
  (match s.data.get name with
    | some v => if v.length < limit then v.map fun x => (name, x, none) else []
    | none => []) ++
  (match s.timed.get name with
    | some v => if v.length < limit then v.map fun x => (name, x.1, some x.2) else []
    | none => [])

/-- timing.cpp:284-340 `writeAll` -/
def writeAll (limit : Nat) (s : St K) : Out (List (String × K × Option K)) :=
  if getAllNames s = [] then .ub else .ok ((getAllNames s).flatMap (nameLines limit s))

/-- a call: its outcome and the state after it. Used for timing.cpp:25-97. -/
def step (clock : Nat → K) (op : Op K) (s : St K) : Out (Reply K) × St K :=
  match op with
  | .reinitialize n _ => (.ok .nothing, reinitialize n s)
  | .reset n => (.ok .nothing, reset clock n s)
  | .addData n d => (.ok .nothing, addData n d s)
  | .startTimer n => (.ok .nothing, startTimer clock n s)
  | .record n => ((record clock n s).1 >>= fun t => .ok (.time t), (record clock n s).2)
  | .recordDouble n d => (.ok (.time (recordDouble clock n d s).1), (recordDouble clock n d s).2)
  | .getData n => (.ok (.values (getData n s).1), (getData n s).2)

/-- the events of a history of calls and the state after it, beginning with a new profiler. Used for timing.cpp:25-97.
-/
def history (clock : Nat → K) (ops : List (Op K)) : List (Event K) × St K :=
  ops.foldl (fun r op =>
    (r.1 ++ [⟨op, (step clock op r.2).1, (step clock op r.2).2.ticks⟩], (step clock op r.2).2)) ([], {})

end Verif.Profiler
