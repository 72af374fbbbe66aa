import Verif.Model.Graph

/-!
# Model of `GraphRandomWalk`

include/arc_utilities/dijkstras.hpp:278-314. The random draws are an arbitrary sequence `draw`: the
`k`-th draw from a distribution over `0 … n-1` is `draw k % n`, so every sequence of results is some
`draw`.
-/
namespace Verif.RandomWalk
open Verif Verif.Graph

variable {ν W : Type}

/-- dijkstras.hpp:295-307: one step, from the path to the longer (or trimmed) path. A distribution
over an empty range (`params(0, -1)`) is undefined behaviour. -/
def walkStep (g : Graph ν W) (d : Nat) (path : List Int) (current : Int) : Out (List Int) := do
  let node ← getNode g current
  match node.outEdges with
  | [] => .ub
  | e :: es =>
    match (e :: es)[d % (e :: es).length]? with
    | none => .throws .outOfRange
    | some edge => .ok (path.takeWhile (fun x => decide (x ≠ edge.toIndex)) ++ [edge.toIndex])

/-- dijkstras.hpp:294-311: the loop; `none` when the fuel is used up. -/
def walkLoop (g : Graph ν W) (goal : Int) (draw : Nat → Nat) :
    Nat → Nat → List Int → Option (Out (List Int))
  | fuel, k, path =>
    match path.getLast? with
    | none => some .ub
    | some current =>
      if current = goal then some (.ok path)
      else
        match fuel with
        | 0 => none
        | fuel + 1 =>
          match walkStep g (draw k) path current with
          | .ok path => walkLoop g goal draw fuel (k + 1) path
          | .throws e => some (.throws e)
          | .abort => some .abort
          | .ub => some .ub

/-- dijkstras.hpp:287-314 `PerformRandomWalk` -/
def performRandomWalk (fuel : Nat) (draw : Nat → Nat) (g : Graph ν W) (start goal : Int) :
    Option (Out (List Int)) :=
  walkLoop g goal draw fuel 0 [start]

end Verif.RandomWalk
