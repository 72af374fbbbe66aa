import Verif.Base.Outcome

/-!
# Model of the container helpers: maps and strings of include/arc_utilities/arc_helpers.hpp, `arc_std::find`
(stl_wrappers.hpp), `enumerate` (enumerate.h) and `Maybe` (maybe.hpp)

A `std::map` is the list of its entries in key order under `Compare`.
-/
namespace Verif.Containers
open Verif

section
variable {κ ν : Type} (lt : κ → κ → Bool)

/-- `std::map::find`: the value of the entry whose key is equivalent. Used for arc_helpers.hpp:179-188. -/
def mapFind (k : κ) : List (κ × ν) → Option ν
  | [] => none
  | (k', v') :: m => if lt k' k then mapFind k m else if lt k k' then none else some v'

/-- `map[k] = v`: a new entry at its place in the order, or a new value for the entry that is there. Used for
arc_helpers.hpp:1323-1333, 1341-1346. -/
def mapAssign (k : κ) (v : ν) : List (κ × ν) → List (κ × ν)
  | [] => [(k, v)]
  | (k', v') :: m =>
    if lt k' k then (k', v') :: mapAssign k v m
    else if lt k k' then (k, v) :: (k', v') :: m
    else (k', v) :: m

/-- arc_helpers.hpp:179-188 `RetrieveOrDefault` for a `std::map` -/
def retrieveOrDefault (m : List (κ × ν)) (k : κ) (default : ν) : ν :=
  match mapFind lt k m with
  | some v => v
  | none => default

/-- arc_helpers.hpp:1294-1306 `GetKeys` -/
def getKeys : List (κ × ν) → List κ
  | [] => []
  | (k, _) :: m => k :: getKeys m

/-- arc_helpers.hpp:1308-1321 `GetKeysAndValues` -/
def getKeysAndValues : List (κ × ν) → List (κ × ν)
  | [] => []
  | (k, v) :: m => (k, v) :: getKeysAndValues m

/-- arc_helpers.hpp:1323-1333 `MakeFromKeysAndValues` of pairs: the loop -/
def makeLoop (m : List (κ × ν)) : List (κ × ν) → List (κ × ν)
  | [] => m
  | (k, v) :: kvs => makeLoop (mapAssign lt k v m) kvs

/-- arc_helpers.hpp:1323-1333 `MakeFromKeysAndValues` of pairs -/
def makeFromPairs (kvs : List (κ × ν)) : List (κ × ν) := makeLoop lt [] kvs

/-- arc_helpers.hpp:1341-1346: the loop over two vectors, which reads both at the same index -/
def makeLoop2 (m : List (κ × ν)) : List κ → List ν → Out (List (κ × ν))
  | [], _ => .ok m
  | _ :: _, [] => .ub
  | k :: ks, v :: vs => makeLoop2 (mapAssign lt k v m) ks vs

/-- arc_helpers.hpp:1335-1348 `MakeFromKeysAndValues` of two vectors -/
def makeFromKeysAndValues (keys : List κ) (values : List ν) : Out (List (κ × ν)) := do
  Out.assert (keys.length = values.length)
  makeLoop2 lt [] keys values

end

/-- arc_helpers.hpp:190-199 `RetrieveOrDefault` for a `std::unordered_map`, whose entries are in any order -/
def retrieveOrDefaultUnordered {κ ν : Type} [DecidableEq κ] (m : List (κ × ν)) (k : κ) (default : ν) : ν :=
  match m.find? (fun p => p.1 = k) with
  | some p => p.2
  | none => default

/-- `std::string::find`: the first position at which the substring begins. Used for arc_helpers.hpp:1283-1292. -/
def stringFind (sub : List Char) : List Char → Nat → Option Nat
  | [], i => if sub.isPrefixOf [] then some i else none
  | c :: s, i => if sub.isPrefixOf (c :: s) then some i else stringFind sub s (i + 1)

/-- arc_helpers.hpp:1283-1292 `CheckAllStringsForSubstring` -/
def checkAllStringsForSubstring (sub : List Char) : List (List Char) → Bool
  | [] => true
  | s :: ss => match stringFind sub s 0 with
    | none => false
    | some _ => checkAllStringsForSubstring sub ss

/-- `std::find`: the number of elements before the first equal one. Used for stl_wrappers.hpp:13-20. -/
def stdFind {α : Type} [DecidableEq α] (x : α) : List α → Option Nat
  | [] => none
  | y :: ys => if y = x then some 0 else (stdFind x ys).map (· + 1)

/-- stl_wrappers.hpp:13-20 `arc_std::find`; the distance is converted to a 32 bit `int` -/
def find {α : Type} [DecidableEq α] (v : List α) (x : α) : Int :=
  match stdFind x v with
  | none => -1
  | some i => (BitVec.ofNat 32 i).toInt

/-- enumerate.h:11-14: `i++` on an `int`, undefined beyond 2^31 - 1, and the conversion to `size_t` -/
def enumerateLoop {α : Type} (i : Nat) : List α → Out (List (Nat × α))
  | [] => .ok []
  | x :: xs => do
    if i < 2 ^ 31 - 1 then
      let r ← enumerateLoop (i + 1) xs
      .ok ((i, x) :: r)
    else .ub

/-- enumerate.h:7-22 `enumerate` -/
def enumerate {α : Type} (v : List α) : Out (List (Nat × α)) := enumerateLoop 0 v

/-- maybe.hpp:23-27: the members of `Maybe`; `none` for a value that was never given -/
structure Maybe (α : Type) where
  maybe : Bool
  value : Option α

namespace Maybe

/-- maybe.hpp:30 -/
def empty {α : Type} : Maybe α := ⟨false, none⟩

/-- maybe.hpp:32-34 -/
def of {α : Type} (v : α) : Maybe α := ⟨true, some v⟩

/-- maybe.hpp:36 `Valid` -/
def valid {α : Type} (m : Maybe α) : Bool := m.maybe

/-- maybe.hpp:38-50 `Get`, `GetImmutable` -/
def get {α : Type} (m : Maybe α) : Out α :=
  if m.maybe = false then .throws .invalidArgument
  else match m.value with
    | some v => .ok v
    | none => .ub

/-- maybe.hpp:52-72 `Set`, `operator=` -/
def set {α : Type} (_m : Maybe α) (v : α) : Maybe α := ⟨true, some v⟩

end Maybe

end Verif.Containers
