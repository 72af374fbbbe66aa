import Verif.Base.Python

/-!
# Model of src/arc_utilities/algorithms.py

A generator is modelled by the list of what it yields and by how it ends. Dictionaries are trees: two keys never share
one inner dictionary object.
-/
namespace Verif.Algorithms
open Verif

/-! ### Nested dictionaries -/

mutual
/-- A value of a dictionary: a mapping, or anything else. Used for algorithms.py:14-19, 15-18. -/
inductive Value (K V : Type) where
  | leaf (x : V)
  | dict (items : Items K V)
/-- The items of a dictionary in the order of insertion; the keys are distinct (`Items.Distinct`). Used for
algorithms.py:14-19, 6-19. -/
inductive Items (K V : Type) where
  | nil
  | cons (k : K) (v : Value K V) (rest : Items K V)
end

variable {K V : Type} [DecidableEq K]

/-- `d.get(k)`. Used for algorithms.py:15-18. -/
def Items.get (k : K) : Items K V → Option (Value K V)
  | .nil => none
  | .cons k' v rest => if k = k' then some v else rest.get k

/-- `d[k] = v`: replaces the value in place, or appends. Used for algorithms.py:15-18. -/
def Items.set (k : K) (v : Value K V) : Items K V → Items K V
  | .nil => .cons k v .nil
  | .cons k' v' rest => if k = k' then .cons k' v rest else .cons k' v' (rest.set k v)

mutual
/-- `nested_dict_update(base_dict, v)` for a mapping `v` (src/arc_utilities/algorithms.py:14-19). `base` is anything:
when it is no mapping, the first `base_dict.get` or `base_dict[k] = …` raises; without items it comes back. -/
def updateValue (base : Value K V) (v : Items K V) : Except PyExc (Value K V) :=
  match v with
  | .nil => .ok base
  | .cons k v rest => do
    let base ← updateItem base k v
    updateValue base rest
/-- One round of the loop (src/arc_utilities/algorithms.py:15-18) -/
def updateItem (base : Value K V) (k : K) (v : Value K V) : Except PyExc (Value K V) :=
  match v with
  | .dict m =>
    match base with
    | .leaf _ => .error .attributeError
    | .dict items => do
      let new ← updateValue ((items.get k).getD (.dict .nil)) m
      .ok (.dict (items.set k new))
  | .leaf x =>
    match base with
    | .leaf _ => .error .typeError
    | .dict items => .ok (.dict (items.set k (.leaf x)))
end

/-- `nested_dict_update` (src/arc_utilities/algorithms.py:6-19) -/
def nestedDictUpdate (base : Items K V) (update : Option (Items K V)) : Except PyExc (Value K V) :=
  match update with
  | none => .ok (.dict base)
  | some v => updateValue (.dict base) v

/-! ### Lists -/

/-- `set(x)`: an element is added if it is not there. Used for algorithms.py:22-24. -/
def toSet : List K → List K → List K
  | [], seen => seen
  | x :: rest, seen => toSet rest (if x ∈ seen then seen else x :: seen)

/-- `is_list_unique` (src/arc_utilities/algorithms.py:22-24) -/
def isListUnique (x : List K) : Bool := x.length == (toSet x []).length

/-- `repeat_last` (src/arc_utilities/algorithms.py:27-34): what the `i`-th `next` gives. The exception comes with the
first `next`. -/
def repeatLast {α : Type} (x : List α) (i : Nat) : Except PyExc α :=
  if x.length = 0 then .error .runtimeError
  else
    match x[i]? with
    | some y => .ok y
    | none =>
      match x.getLast? with
      | some y => .ok y
      | none => .error .runtimeError

/-- `next(zipped)`: one `next` of every argument in order; the first exception ends it. Used for algorithms.py:40-41. -/
def zipNext {α : Type} (args : List (List α)) (i : Nat) : Except PyExc (List α) :=
  args.mapM fun x => repeatLast x i

/-- The loop (src/arc_utilities/algorithms.py:40-41), `left` rounds from round `i` -/
def zipLoop {α : Type} (args : List (List α)) : Nat → Nat → Yielded (List α)
  | 0, _ => ⟨[], none⟩
  | left + 1, i =>
    match zipNext args i with
    | .error e => ⟨[], some e⟩
    | .ok row =>
      let rest := zipLoop args left (i + 1)
      ⟨row :: rest.items, rest.ended⟩

/-- `zip_repeat_shorter` (src/arc_utilities/algorithms.py:37-41). `max` of no argument, and of one argument that is a
number, raises. -/
def zipRepeatShorter {α : Type} (args : List (List α)) : Yielded (List α) :=
  match args.map List.length with
  | [] => ⟨[], some .typeError⟩
  | [_] => ⟨[], some .typeError⟩
  | n :: rest => zipLoop args (rest.foldl max n) 0

/-- The loop of `chunked_drop_last` (src/arc_utilities/algorithms.py:55-61) -/
def chunkLoop {α : Type} (size : Nat) (it : List α) : List (List α) :=
  let chunk := it.take size
  if h : chunk = [] then []
  else if chunk.length ≠ size then []
  else chunk :: chunkLoop size (it.drop size)
termination_by it.length
decreasing_by
  simp only [List.length_drop]
  have : it.take size ≠ [] := h
  have h1 : it ≠ [] := by rintro rfl; simp at this
  have h2 : size ≠ 0 := by rintro rfl; simp at this
  have := List.length_pos_iff.mpr h1
  omega

/-- `chunked_drop_last` (src/arc_utilities/algorithms.py:44-61): `islice` raises for a negative size -/
def chunkedDropLast {α : Type} (iterable : List α) (size : Int) : Yielded (List α) :=
  if size < 0 then ⟨[], some .valueError⟩
  else ⟨chunkLoop size.toNat iterable, none⟩

/-- The loop of `reversed_chunked` over `range(end, n - 1, -n)` for positive `n`
(src/arc_utilities/algorithms.py:75-77); `seq[start:end]` with indices inside -/
def reversedLoop {α : Type} (seq : List α) (n : Nat) (end' : Nat) (chunks : List (List α)) : List (List α) :=
  if _h : 0 < n ∧ n ≤ end' then
    let start := end' - n
    reversedLoop seq n (end' - n) (((seq.take end').drop start) :: chunks)
  else chunks
termination_by end'

/-- `reversed_chunked` (src/arc_utilities/algorithms.py:64-78). `range` raises for step zero; for negative `n` it
counts up from `len(seq)` to a negative number and is empty. -/
def reversedChunked {α : Type} (seq : List α) (n : Int) : Except PyExc (List (List α)) :=
  if n = 0 then .error .valueError
  else if n < 0 then .ok []
  else .ok (reversedLoop seq n.toNat seq.length [])

end Verif.Algorithms
