import Verif.Model.Graph

/-!
# Model of reading a stored result of Dijkstra's algorithm, include/arc_utilities/dijkstras.hpp

The function that should write it, `SerializeDijstrasResult` (92-110), calls `SerializeVector` without
the buffer, so it does not compile when it is used. It is not modelled.
-/
namespace Verif.Dijkstra
open Verif Verif.Graph Verif.Serialization

/-- dijkstras.hpp:28 `DijkstrasResult`: the graph, the previous index of every node, the distances as
bit patterns of doubles -/
structure Stored (ν : Type) where
  graph : Graph ν (BitVec 64)
  previous : List Int
  distances : List (BitVec 64)
  deriving DecidableEq

/-- dijkstras.hpp:123-124: `DeserializeFixedSizePOD<int64_t>` -/
def deserializeIndex (e : Endian) : Des Int := fun buffer current => do
  let r ← deserializeFixedSizePOD (pod64 e) buffer current
  .ok (r.1.toInt, r.2)

/-- dijkstras.hpp:112-137 `DijstrasResult` -/
def deserializeResult (e : Endian) {ν : Type} (value : Des ν) : Des (Stored ν) :=
  fun buffer current => do
    let currentPosition := current
    let g ← deserializeGraph e value buffer currentPosition
    let currentPosition := currentPosition + g.2
    let previous ← deserializeVector e (deserializeIndex e) buffer currentPosition
    let currentPosition := currentPosition + previous.2
    let distances ← deserializeVector e (deserializeFixedSizePOD (pod64 e)) buffer currentPosition
    let currentPosition := currentPosition + distances.2
    .ok (⟨g.1, previous.1, distances.1⟩, currentPosition - current)

end Verif.Dijkstra
