import Verif.Base.Outcome
import Verif.Base.PQueue

/-!
# Model of src/arc_utilities/first_order_deformation.cpp

The heuristic distance only orders the queue, so it is an arbitrary function `key` into a linear order
(`ConfigTypeDistance`, lines 11-13, is one such function); `pick` chooses among entries with equal distance.
Index arithmetic is exact, which it is for cells of a grid that exists.
-/
namespace Verif.Deformation
open Verif

/-- first_order_deformation.h:9 `ConfigType`: row and column -/
abbrev Cell := Int × Int

/-- the values `lo, lo + 1, ..., hi` of a `for` loop. Used for first_order_deformation.cpp:15-35. -/
def upTo (lo hi : Int) : List Int := (List.range (hi + 1 - lo).toNat).map fun i : Nat => lo + i

/-- first_order_deformation.cpp:15-35 `GetNeighbours` -/
def neighbours (rows cols : Int) (valid : Int → Int → Bool) (c : Cell) : List Cell :=
  let rowMin := max 0 (c.1 - 1)
  let rowMax := min (rows - 1) (c.1 + 1)
  let colMin := max 0 (c.2 - 1)
  let colMax := min (cols - 1) (c.2 + 1)
  (upTo colMin colMax).flatMap fun col =>
    ((upTo rowMin rowMax).filter fun row => !(row == c.1 && col == c.2) && valid row col).map fun row => (row, col)

/-- The variables of the search (lines 52-62). `explored` lists the cells whose flag is set; the map `parents`
is a function. Used for first_order_deformation.cpp:79-87, 62-89. -/
structure St where
  frontier : List Cell
  explored : List Cell
  parents : Cell → Option Cell

/-- Access to the array of flags, which checks the indices: lines 74, 75, 81. Used for
first_order_deformation.cpp:79-87. -/
def access (rows cols : Int) (c : Cell) : Out Unit :=
  Out.assert (0 ≤ c.1 ∧ c.1 < rows ∧ 0 ≤ c.2 ∧ c.2 < cols)

/-- first_order_deformation.cpp:79-87: the loop over the neighbours -/
def addNeighbours (rows cols : Int) (current : Cell) : List Cell → St → Out St
  | [], s => .ok s
  | n :: ns, s => access rows cols n >>= fun _ =>
    if n ∈ s.explored then addNeighbours rows cols current ns s
    else addNeighbours rows cols current ns
      { s with frontier := s.frontier ++ [n], parents := fun c => if c = n then some current else s.parents c }

/-- One iteration of the search: lines 64-88. The flag is `path_found`. Used for first_order_deformation.cpp:62-89. -/
def iterate {W : Type} [LinearOrder W] (rows cols : Int) (valid : Int → Int → Bool) (key : Cell → W) (pick : Nat)
    (s : St) : Out (Bool × St) :=
  match popMin key pick s.frontier with
  | none => .ub
  | some (current, rest) =>
    if current.1 = rows - 1 ∧ current.2 = cols - 1 then .ok (true, { s with frontier := rest })
    else do
      access rows cols current
      if current ∈ s.explored then .ok (false, { s with frontier := rest })
      else do
        let s' ← addNeighbours rows cols current (neighbours rows cols valid current)
          { s with frontier := rest, explored := current :: s.explored }
        .ok (false, s')

/-- first_order_deformation.cpp:62-89: the search; the result tells whether a path was found and the parents. -/
def search {W : Type} [LinearOrder W] (rows cols : Int) (valid : Int → Int → Bool) (key : Cell → W)
    (pick : Nat → Nat) : Nat → St → Option (Out (Bool × St))
  | 0, _ => none
  | fuel + 1, s =>
    if s.frontier = [] then some (.ok (false, s))
    else
      match iterate rows cols valid key (pick fuel) s with
      | .ok (true, s') => some (.ok (true, s'))
      | .ok (false, s') => search rows cols valid key pick fuel s'
      | .throws e => some (.throws e)
      | .abort => some .abort
      | .ub => some .ub

/-- first_order_deformation.cpp:94-100: the path from the goal back to the start, reversed. Looking up a cell
without parent inserts and returns the pair (0, 0). -/
def recover (parents : Cell → Option Cell) : Nat → Cell → Option (List Cell)
  | 0, _ => none
  | fuel + 1, c =>
    if c = (0, 0) then some [(0, 0)]
    else (recover parents fuel ((parents c).getD (0, 0))).map fun p => p ++ [c]

/-- first_order_deformation.cpp:37-104 `GetFirstOrderDeformation`; `none` stands for running out of `fuel`. -/
def deformation {W : Type} [LinearOrder W] (rows cols : Int) (valid : Int → Int → Bool) (key : Cell → W)
    (pick : Nat → Nat) (fuel : Nat) : Option (Out (List Cell)) :=
  if 0 < rows ∧ 0 < cols then
    match search rows cols valid key pick fuel ⟨[(0, 0)], [], fun _ => none⟩ with
    | none => none
    | some (.ok (true, s)) => (recover s.parents fuel (rows - 1, cols - 1)).map .ok
    | some (.ok (false, _)) => some (.ok [])
    | some (.throws e) => some (.throws e)
    | some .abort => some .abort
    | some .ub => some .ub
  else some .abort

end Verif.Deformation
