import Verif.Model.Graph
import Verif.Model.Console

/-!
# Model of the texts for graphs, grid indices, lists and collisions

include/arc_utilities/graph.hpp (82-85, 197-213, 353-363), voxel_grid.hpp (859-862), ostream_operators.hpp and
moveit_ostream_operators.hpp. How a number with decimals is written is an argument: `weightText` for
`std::to_string`, `distanceText` for the stream operator.
-/
namespace Verif.Describe
open Verif Verif.Console

/-- graph.hpp:82-85 `GraphEdge::print` -/
def printEdge {W : Type} (weightText : W → List Char) (e : Graph.Edge W) : List Char :=
  '(' :: (integerText e.fromIndex ++ '-' :: '>' :: (integerText e.toIndex ++ ')' :: ' ' :: ':' :: ' ' ::
    weightText e.weight))

/-- The first item, and the others after a separator each. Used for graph.hpp:197-213, 353-363. -/
def join {α : Type} (separator : List Char) (text : α → List Char) : List α → List Char
  | [] => []
  | a :: rest => text a ++ (rest.map fun b => separator ++ text b).flatten

/-- graph.hpp:197-213 `GraphNode::print` -/
def printNode {ν W : Type} (weightText distanceText : W → List Char) (n : Graph.Node ν W) : List Char :=
  "Node : ".toList ++ (distanceText n.distance ++ (" In Edges : ".toList ++
    (join ", ".toList (printEdge weightText) n.inEdges ++ (" Out Edges : ".toList ++
      join ", ".toList (printEdge weightText) n.outEdges))))

/-- graph.hpp:353-363 `Graph::print` -/
def printGraph {ν W : Type} (weightText distanceText : W → List Char) (g : Graph.Graph ν W) : List Char :=
  "Graph - Nodes : ".toList ++ join "\n".toList (printNode weightText distanceText) g

/-- voxel_grid.hpp:859-862 `operator<<` of a `GRID_INDEX` -/
def printIndex (x y z : Int) : List Char :=
  "GRID_INDEX: (".toList ++ (integerText x ++ ',' :: (integerText y ++ ',' :: (integerText z ++ [')'])))

/-- ostream_operators.hpp:8-17 `operator<<` of a vector of whole numbers -/
def printNumbers : List Int → List Char
  | [] => []
  | a :: rest => integerText a ++ (" ".toList ++ printNumbers rest)

/-- ostream_operators.hpp:8-17 `operator<<` of a vector of strings -/
def printStrings : List (List Char) → List Char
  | [] => []
  | a :: rest => a ++ ("\n".toList ++ printStrings rest)

/-- `collision_detection::CollisionResult`: whether there is a collision, and for pairs of bodies the contacts, each
with the names of its bodies; the pairs in the order of the map. Used for moveit_ostream_operators.hpp:6-28. -/
structure CollisionResult where
  collision : Bool
  contacts : List (List (List Char × List Char))
  deriving DecidableEq

/-- moveit_ostream_operators.hpp:6-28 `operator<<` of a collision result -/
def printCollision (cr : CollisionResult) : List Char :=
  if ¬ cr.collision then "no collision".toList
  else
    match cr.contacts with
    | [] => "collision found but no contacts reported".toList
    | contacts :: others =>
      match contacts with
      | [] => []
      | contact :: more =>
        let multiple := (contacts :: others).length > 1 ∨ (contact :: more).length > 1
        "collision between ".toList ++ (contact.1 ++ (" and ".toList ++ (contact.2 ++
          if multiple then " among others...\n".toList else [])))

end Verif.Describe
