import Verif.Base.State
import Verif.Model.Serialization

/-!
# Model of include/arc_utilities/graph.hpp

`int64_t` indices are integers; graphs hold fewer than 2^63 nodes, so the conversions between
`size_t` and `int64_t` in the code are exact. `W` is the type of weights and distances.
-/
namespace Verif.Graph
open Verif

/-- graph.hpp:15 `EDGE_VALIDITY`, by its 4-byte value: VALID 0, INVALID 1, UNKNOWN 2. -/
abbrev Validity := BitVec 32
/-- graph.hpp:15 -/
def VALID : Validity := 0#32
/-- graph.hpp:15 -/
def INVALID : Validity := 1#32
/-- graph.hpp:15 -/
def UNKNOWN : Validity := 2#32

/-- graph.hpp:20-25 `GraphEdge` -/
structure Edge (W : Type) where
  fromIndex : Int
  toIndex : Int
  weight : W
  validity : Validity
  deriving DecidableEq, Repr

/-- graph.hpp:36-37, the constructor from two indices and a weight -/
def Edge.make {W : Type} (fromIndex toIndex : Int) (weight : W) : Edge W :=
  ⟨fromIndex, toIndex, weight, UNKNOWN⟩

/-- graph.hpp:101 `isValid` -/
def Edge.isValid {W : Type} (e : Edge W) : Bool := e.validity == VALID
/-- graph.hpp:103 `isInvalid` -/
def Edge.isInvalid {W : Type} (e : Edge W) : Bool := e.validity == INVALID

/-- graph.hpp:116-122 `GraphNode` -/
structure Node (ν W : Type) where
  value : ν
  distance : W
  inEdges : List (Edge W)
  outEdges : List (Edge W)
  deriving DecidableEq, Repr

/-- graph.hpp:220 `addInEdge` -/
def Node.addInEdge {ν W : Type} (e : Edge W) (n : Node ν W) : Node ν W :=
  { n with inEdges := n.inEdges ++ [e] }
/-- graph.hpp:222 `addOutEdge` -/
def Node.addOutEdge {ν W : Type} (e : Edge W) (n : Node ν W) : Node ν W :=
  { n with outEdges := n.outEdges ++ [e] }
/-- graph.hpp:231 `setDistance` -/
def Node.setDistance {ν W : Type} (d : W) (n : Node ν W) : Node ν W := { n with distance := d }

/-- The loop of graph.hpp:233-249 from position `k` on: the position of the first out edge to the
given node. A reference to an edge is its position in the list. -/
def findEdgeTo {W : Type} (other : Int) : List (Edge W) → Nat → Out Nat
  | [], _ => .throws .invalidArgument
  | e :: es, k => if e.toIndex = other then .ok k else findEdgeTo other es (k + 1)

/-- graph.hpp:233-249 `getEdgeTo` -/
def Node.getEdgeTo {ν W : Type} (n : Node ν W) (other : Int) : Out Nat :=
  findEdgeTo other n.outEdges 0

/-- graph.hpp:267-270 `Graph`: its node vector -/
abbrev Graph (ν W : Type) := List (Node ν W)

/-- graph.hpp:367 `indexInRange` -/
def indexInRange {ν W : Type} (g : Graph ν W) (index : Int) : Bool :=
  decide (index ≥ 0) && decide (index < (g.length : Int))

/-- The position used by `nodes_.at((size_t)index)`: a negative index converts to a `size_t` of at
least 2^63, so it is out of range like one that is too large. Used for graph.hpp:464-466, 475-486. -/
def nodePos {ν W : Type} (g : Graph ν W) (index : Int) : Out Nat :=
  if 0 ≤ index ∧ index < (g.length : Int) then .ok index.toNat else .throws .outOfRange

/-- graph.hpp:464-466 `getNode` -/
def getNode {ν W : Type} (g : Graph ν W) (index : Int) : Out (Node ν W) := do
  let i ← nodePos g index
  match g[i]? with
  | some n => .ok n
  | none => .ub

/-- graph.hpp:371-377 `getEdge`: the edge referred to -/
def getEdge {ν W : Type} (g : Graph ν W) (i j : Int) : Out (Edge W) := do
  let n ← getNode g i
  let k ← n.getEdgeTo j
  match n.outEdges[k]? with
  | some e => .ok e
  | none => .ub

/-- graph.hpp:379 `getReverseEdge` -/
def getReverseEdge {ν W : Type} (g : Graph ν W) (e : Edge W) : Out (Edge W) :=
  getEdge g e.toIndex e.fromIndex

/-- graph.hpp:468-471 `addNode(const GraphNode&)` -/
def addNodeObject {ν W : Type} (n : Node ν W) : M (Graph ν W) Int := do
  M.modify (fun g => g ++ [n])
  let g ← M.get
  pure ((g.length : Int) - 1)

/-- graph.hpp:473 `addNode(const NodeValueType&)`, with graph.hpp:146 for the node; `inf` is
infinity. -/
def addNode {ν W : Type} (inf : W) (value : ν) : M (Graph ν W) Int :=
  addNodeObject ⟨value, inf, [], []⟩

/-- graph.hpp:475-486 `addEdgeBetweenNodes`. The result is the position of the returned edge in the
out edges of the source node. -/
def addEdgeBetweenNodes {ν W : Type} (fromIndex toIndex : Int) (w : W) : M (Graph ν W) Nat := do
  let g ← M.get
  let i ← M.lift (nodePos g fromIndex)
  let j ← M.lift (nodePos g toIndex)
  if fromIndex = toIndex then M.throw .invalidArgument
  else do
    let newEdge := Edge.make fromIndex toIndex w
    M.modify (fun g => g.modify i (Node.addOutEdge newEdge))
    M.modify (fun g => g.modify j (Node.addInEdge newEdge))
    let g ← M.get
    match g[i]? with
    | some n => M.lift (n.getEdgeTo toIndex)
    | none => M.lift .ub

/-- graph.hpp:488-494 `addEdgesBetweenNodes`: the positions of the two returned edges -/
def addEdgesBetweenNodes {ν W : Type} (first second : Int) (w : W) : M (Graph ν W) (Nat × Nat) := do
  let e1 ← addEdgeBetweenNodes first second w
  let e2 ← addEdgeBetweenNodes second first w
  pure (e1, e2)

/-! ## CheckGraphLinkage -/

/-- graph.hpp:391-422: the loop over the in edges of node `idx` -/
def checkInEdges {ν W : Type} (nodes : Graph ν W) (idx : Nat) : List (Edge W) → Out Bool
  | [] => .ok true
  | currentEdge :: rest =>
    let fromIndex := currentEdge.fromIndex
    if fromIndex < 0 ∨ fromIndex ≥ (nodes.length : Int) then .ok false
    else
      let toIndex := currentEdge.toIndex
      if toIndex ≠ (idx : Int) then .ok false
      else if fromIndex = toIndex then .ok false
      else
        match nodes[fromIndex.toNat]? with
        | none => .ub
        | some fromNode =>
          let valid := fromNode.outEdges.foldl
            (fun flag e => if e.toIndex = (idx : Int) then true else flag) false
          if valid = false then .ok false else checkInEdges nodes idx rest

/-- graph.hpp:425-455: the loop over the out edges of node `idx` -/
def checkOutEdges {ν W : Type} (nodes : Graph ν W) (idx : Nat) : List (Edge W) → Out Bool
  | [] => .ok true
  | currentEdge :: rest =>
    let fromIndex := currentEdge.fromIndex
    if fromIndex ≠ (idx : Int) then .ok false
    else
      let toIndex := currentEdge.toIndex
      if toIndex < 0 ∨ toIndex ≥ (nodes.length : Int) then .ok false
      else if fromIndex = toIndex then .ok false
      else
        match nodes[toIndex.toNat]? with
        | none => .ub
        | some toNode =>
          let valid := toNode.inEdges.foldl
            (fun flag e => if e.fromIndex = (idx : Int) then true else flag) false
          if valid = false then .ok false else checkOutEdges nodes idx rest

/-- graph.hpp:387-457: the loop over the nodes from position `idx` on -/
def checkNodes {ν W : Type} (nodes : Graph ν W) : List (Node ν W) → Nat → Out Bool
  | [], _ => .ok true
  | n :: rest, idx => do
    let b ← checkInEdges nodes idx n.inEdges
    if b = false then .ok false
    else do
      let b ← checkOutEdges nodes idx n.outEdges
      if b = false then .ok false else checkNodes nodes rest (idx + 1)

/-- graph.hpp:385-458 `CheckGraphLinkage` (and 369, 381-383) -/
def checkGraphLinkage {ν W : Type} (nodes : Graph ν W) : Out Bool := checkNodes nodes nodes 0

/-- graph.hpp:315-321, the constructor from a node vector -/
def ofNodes {ν W : Type} (nodes : List (Node ν W)) : Out (Graph ν W) := do
  let b ← checkGraphLinkage nodes
  if b then .ok nodes else .throws .invalidArgument

/-! ## Connected components -/

/-- graph.hpp:286-293: the loop over the out edges of a node. State: the component labels, the
number marked, the queue. -/
def markEdges {W : Type} (componentId : Nat) :
    List (Edge W) → List Nat × Nat × List Int → Out (List Nat × Nat × List Int)
  | [], s => .ok s
  | e :: es, (components, numMarked, queue) =>
    let neighbour := e.toIndex
    if neighbour < 0 then .ub
    else
      match components[neighbour.toNat]? with
      | none => .ub
      | some c =>
        if c = 0 then
          markEdges componentId es
            (components.set neighbour.toNat componentId, numMarked + 1, queue ++ [neighbour])
        else markEdges componentId es (components, numMarked, queue)

/-- graph.hpp:281-294: the work loop; `none` when the fuel is used up. -/
def markLoop {ν W : Type} (g : Graph ν W) (componentId : Nat) :
    Nat → List Nat × Nat × List Int → Option (Out (List Nat × Nat))
  | _, (components, numMarked, []) => some (.ok (components, numMarked))
  | 0, (_, _, _ :: _) => none
  | fuel + 1, (components, numMarked, next :: queue) =>
    if next < 0 then some .ub
    else
      match g[next.toNat]? with
      | none => some .ub
      | some n =>
        match markEdges componentId n.outEdges (components, numMarked, queue) with
        | .ok s => markLoop g componentId fuel s
        | .throws e => some (.throws e)
        | .abort => some .abort
        | .ub => some .ub

/-- graph.hpp:272-297 `markConnectedComponentUndirected` -/
def markConnectedComponent {ν W : Type} (fuel : Nat) (g : Graph ν W) (start : Int)
    (components : List Nat) (componentId : Nat) : Option (Out (List Nat × Nat)) :=
  markLoop g componentId fuel (components, 1, [start])

/-- graph.hpp:504-512: the loop over the nodes, `idx` the next node, `remaining` how many are left.
`uint32_t` component numbers do not wrap: there are fewer than 2^32 nodes. -/
def componentsLoop {ν W : Type} (fuel : Nat) (g : Graph ν W) :
    (remaining idx total : Nat) → List Nat → Nat → Option (Out (List Nat × Nat))
  | 0, _, _, components, count => some (.ok (components, count))
  | remaining + 1, idx, total, components, count =>
    if total < g.length then
      match components[idx]? with
      | none => some .ub
      | some c =>
        if c = 0 then
          match markConnectedComponent fuel g (idx : Int) components (count + 1) with
          | none => none
          | some (.ok (components', numMarked)) =>
            componentsLoop fuel g remaining (idx + 1) (total + numMarked) components' (count + 1)
          | some (.throws e) => some (.throws e)
          | some .abort => some .abort
          | some .ub => some .ub
        else componentsLoop fuel g remaining (idx + 1) total components count
    else some (.ok (components, count))

/-- graph.hpp:500-514 `getConnectedComponentsUndirected`. Every iteration of a work loop takes one
entry off the queue and each node is queued at most once after the start, so `nodes + 1` rounds are
enough (proved: `C15_terminates`). -/
def getConnectedComponentsUndirected {ν W : Type} (g : Graph ν W) :
    Option (Out (List Nat × Nat)) :=
  componentsLoop (g.length + 1) g g.length 0 0 (List.replicate g.length 0) 0

/-! ## Serialization -/
open Verif.Serialization

/-- `int64_t` and `double` on the given host, as 8 bytes (serialization.hpp:118-130). -/
def pod64 (e : Endian) : Pod (BitVec 64) := podBits e 8 (by decide)
/-- `EDGE_VALIDITY` on the given host, as 4 bytes (serialization.hpp:118-130). -/
def pod32 (e : Endian) : Pod (BitVec 32) := podBits e 4 (by decide)

/-- graph.hpp:28, 41-51 `GraphEdge::Serialize`; the weight is the bit pattern of the double. -/
def serializeEdge (e : Endian) : Ser (Edge (BitVec 64)) := fun edge buffer => do
  let startBufferSize := buffer.length
  let r1 ← serializeFixedSizePOD (pod64 e) (BitVec.ofInt 64 edge.fromIndex) buffer
  let r2 ← serializeFixedSizePOD (pod64 e) (BitVec.ofInt 64 edge.toIndex) r1.2
  let r3 ← serializeFixedSizePOD (pod64 e) edge.weight r2.2
  let r4 ← serializeFixedSizePOD (pod32 e) edge.validity r3.2
  .ok (r4.2.length - startBufferSize, r4.2)

/-- graph.hpp:30-34, 53-75 `GraphEdge::Deserialize` -/
def deserializeEdge (e : Endian) : Des (Edge (BitVec 64)) := fun buffer current => do
  let currentPosition := current
  let fromIndex ← deserializeFixedSizePOD (pod64 e) buffer currentPosition
  let currentPosition := currentPosition + fromIndex.2
  let toIndex ← deserializeFixedSizePOD (pod64 e) buffer currentPosition
  let currentPosition := currentPosition + toIndex.2
  let weight ← deserializeFixedSizePOD (pod64 e) buffer currentPosition
  let currentPosition := currentPosition + weight.2
  let validity ← deserializeFixedSizePOD (pod32 e) buffer currentPosition
  let currentPosition := currentPosition + validity.2
  .ok (⟨BitVec.toInt fromIndex.1, BitVec.toInt toIndex.1, weight.1, validity.1⟩,
    currentPosition - current)

/-- graph.hpp:127-131, 150-166 `GraphNode::Serialize` -/
def serializeNode (e : Endian) {ν : Type} (value : Ser ν) : Ser (Node ν (BitVec 64)) :=
  fun n buffer => do
    let startBufferSize := buffer.length
    let r1 ← value n.value buffer
    let r2 ← serializeFixedSizePOD (pod64 e) n.distance r1.2
    let r3 ← serializeVector e (serializeEdge e) n.inEdges r2.2
    let r4 ← serializeVector e (serializeEdge e) n.outEdges r3.2
    .ok (r4.2.length - startBufferSize, r4.2)

/-- graph.hpp:133-140, 168-195 `GraphNode::Deserialize` -/
def deserializeNode (e : Endian) {ν : Type} (value : Des ν) : Des (Node ν (BitVec 64)) :=
  fun buffer current => do
    let currentPosition := current
    let v ← value buffer currentPosition
    let currentPosition := currentPosition + v.2
    let d ← deserializeFixedSizePOD (pod64 e) buffer currentPosition
    let currentPosition := currentPosition + d.2
    let i ← deserializeVector e (deserializeEdge e) buffer currentPosition
    let currentPosition := currentPosition + i.2
    let o ← deserializeVector e (deserializeEdge e) buffer currentPosition
    let currentPosition := currentPosition + o.2
    .ok (⟨v.1, d.1, i.1, o.1⟩, currentPosition - current)

/-- graph.hpp:300-304, 327-338 `Graph::Serialize` -/
def serializeGraph (e : Endian) {ν : Type} (value : Ser ν) : Ser (Graph ν (BitVec 64)) :=
  fun g buffer => do
    let startBufferSize := buffer.length
    let r ← serializeVector e (serializeNode e value) g buffer
    .ok (r.2.length - startBufferSize, r.2)

/-- graph.hpp:306-313, 340-351 `Graph::Deserialize` -/
def deserializeGraph (e : Endian) {ν : Type} (value : Des ν) : Des (Graph ν (BitVec 64)) :=
  fun buffer current => do
    let r ← deserializeVector e (deserializeNode e value) buffer current
    .ok (r.1, r.2)

end Verif.Graph
