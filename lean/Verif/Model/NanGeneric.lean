import Verif.Model.NanAstar

/-!
# Model of GenericAstarSearch with costs that may not be a number

include/arc_utilities/arc_helpers.hpp:734-819, as in `Verif.Model.Astar`, but distances and heuristics may be NaN
(`none`); the queue is that of `Verif.Model.NanAstar`.
-/
namespace Verif.NanAstar
open Verif Verif.NotANumber

variable {W : Type} [Cost W]

/-- The callbacks of arc_helpers.hpp:734-740 -/
structure Generic (W : Type) where
  children : Int → List Int
  valid : Int → Int → Bool
  distance : Int → Int → Option W
  heuristic : Int → Int → Option W

/-- arc_helpers.hpp:783-814: the loop over the candidate children -/
def genericExpand (G : Generic W) (goal : Int) (limit : Bool) (top : Elem W) :
    List Int → State W → State W
  | [], s => s
  | childId :: rest, s =>
    if G.valid top.id childId then
      let childCost := add top.cost (G.distance top.id childId)
      let exploredIsBetter := notWorse ((s.explored.lookup childId).map (·.2)) childCost
      let queueIsBetter := limit && notWorse (s.members.lookup childId) childCost
      if !exploredIsBetter && !queueIsBetter then
        genericExpand G goal limit top rest
          { s with queue := s.queue ++
              [⟨childId, top.id, childCost, add childCost (G.heuristic childId goal)⟩] }
      else genericExpand G goal limit top rest s
    else genericExpand G goal limit top rest s

/-- arc_helpers.hpp:758-817: the main loop; `k` counts the rounds, `none` when the fuel is used up. -/
def genericLoop (G : Generic W) (goal : Int) (limit : Bool) (pick : Nat → Nat) :
    Nat → Nat → State W → Option (Explored W)
  | fuel, k, s =>
    match pop (pick k) s.queue with
    | none => some s.explored
    | some (top, rest) =>
      match fuel with
      | 0 => none
      | fuel + 1 =>
        let members := if limit then s.members.filter (fun m => m.1 ≠ top.id) else s.members
        let exploredIsBetter := notWorse ((s.explored.lookup top.id).map (·.2)) top.cost
        if !exploredIsBetter then
          let explored := (top.id, (top.backpointer, top.cost)) :: s.explored
          if top.id = goal then some explored
          else genericLoop G goal limit pick fuel (k + 1)
            (genericExpand G goal limit top (G.children top.id) ⟨rest, members, explored⟩)
        else genericLoop G goal limit pick fuel (k + 1) ⟨rest, members, s.explored⟩

/-- arc_helpers.hpp:734-819 `GenericAstarSearch` -/
def genericAstarSearch (fuel : Nat) (pick : Nat → Nat) (G : Generic W) (start goal : Int)
    (limit : Bool) : Option (Out (List Int × Option W)) :=
  if start = goal then some (.throws .invalidArgument)
  else
    match genericLoop G goal limit pick fuel 0
      ⟨[⟨start, -1, some 0, G.heuristic start goal⟩], if limit then [(start, some 0)] else [], []⟩ with
    | none => none
    | some explored => extractAstarResult fuel explored start goal

end Verif.NanAstar
