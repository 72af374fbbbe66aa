import Verif.Base.Outcome
import Verif.Model.Angles

/-!
# Model of SimpleAStarPlanner (include/arc_utilities/simple_astar_planner.hpp)

`double` is an ordered field; arithmetic is exact and not-a-number is left out. An `unordered_map` is a list
of entries, the newest entry of a key first; older entries of the same key are never read. The comparator of
the priority queue need not be an order, so the model lets `top` be any entry of the queue: `pick` says which
one, as a function of the round and the queue. The planning time is left out of the statistics.
-/
namespace Verif.SimpleAstar
open Verif

/-- simple_astar_planner.hpp:68-71: the callbacks -/
structure Problem (S K : Type) where
  neighbours : S → List S
  distance : S → S → K
  heuristic : S → K
  goal : S → Bool

variable {S K : Type} [DecidableEq S] [Field K] [LinearOrder K]

/-- simple_astar_planner.hpp:34-46 `AStarComparator::operator()`: the first comes after the second -/
def after (P : Problem S K) (c1 c2 : S × K) : Bool :=
  if Angles.isApprox c1.2 c2.2 (1 / 10 ^ 10) then decide (P.heuristic c1.1 > P.heuristic c2.1)
  else decide (c1.2 > c2.2)

/-- simple_astar_planner.hpp:51-63 `ExtractPathBasic`; nothing when the fuel is used up -/
def extractPath (back : List (S × S)) : Nat → S → List S → Option (List S)
  | 0, _, _ => none
  | fuel + 1, last, path =>
    match back.lookup last with
    | some previous => extractPath back fuel previous (path ++ [last])
    | none => some (path ++ [last]).reverse

/-- simple_astar_planner.hpp:107-110: the local variables -/
structure State (S K : Type) where
  frontier : List (S × K)
  explored : List S
  cost : List (S × K)
  back : List (S × S)

/-- simple_astar_planner.hpp:167-168: there is a cost, and it is at most the new one -/
def noBetter (found : Option K) (newCost : K) : Bool :=
  match found with
  | some c => decide (c ≤ newCost)
  | none => false

/-- simple_astar_planner.hpp:149-175: the loop over the neighbours -/
def expand (P : Problem S K) (current : S) (currentCost : K) : List S → State S K → Out (State S K)
  | [], s => .ok s
  | n :: ns, s =>
    if n ∈ s.explored then expand P current currentCost ns s
    else
      Out.assert ((s.cost.lookup n).isNone → (s.back.lookup n).isNone) >>= fun _ =>
      Out.assert ((s.back.lookup n).isNone → (s.cost.lookup n).isNone) >>= fun _ =>
      let newCost := currentCost + P.distance current n
      if noBetter (s.cost.lookup n) newCost then
        expand P current currentCost ns s
      else
        expand P current currentCost ns
          { s with
            frontier := s.frontier ++ [(n, newCost + P.heuristic n)]
            cost := (n, newCost) :: s.cost
            back := (n, current) :: s.back }

/-- simple_astar_planner.hpp:137-175: exploring a node -/
def explore (P : Problem S K) (current : S) (s : State S K) : Out (State S K) :=
  let s := { s with explored := current :: s.explored }
  match s.cost.lookup current with
  | none => .throws .outOfRange
  | some c => expand P current c (P.neighbours current) s

/-- simple_astar_planner.hpp:116-185: the main loop; `k` counts the rounds, nothing when the fuel is used up.
The result is the path and the statistic "nodes explored". -/
def loop (P : Problem S K) (pick : Nat → List (S × K) → Nat) :
    Nat → Nat → State S K → Option (Out (List S × Nat))
  | fuel, k, s =>
    match s.frontier[pick k s.frontier % s.frontier.length]? with
    | none => some (.ok ([], s.explored.length))
    | some current =>
      match fuel with
      | 0 => none
      | fuel + 1 =>
        let rest := s.frontier.eraseIdx (pick k s.frontier % s.frontier.length)
        if P.goal current.1 = true then
          (extractPath s.back (s.back.length + 1) current.1 []).map fun path => .ok (path, s.explored.length)
        else if current.1 ∈ s.explored then loop P pick fuel (k + 1) { s with frontier := rest }
        else
          match explore P current.1 { s with frontier := rest } with
          | .ok s' => loop P pick fuel (k + 1) s'
          | .throws e => some (.throws e)
          | .abort => some .abort
          | .ub => some .ub

/-- simple_astar_planner.hpp:65-186 `Plan`; `fuel` bounds the rounds of the main loop, and the rounds of the
loop that extracts the path are bounded by the number of backpointers plus one (theorem C75_plan shows that
this is enough) -/
def plan (fuel : Nat) (pick : Nat → List (S × K) → Nat) (P : Problem S K) (start : S) :
    Option (Out (List S × Nat)) :=
  loop P pick fuel 0 ⟨[(start, P.heuristic start)], [], [(start, 0)], []⟩

end Verif.SimpleAstar
