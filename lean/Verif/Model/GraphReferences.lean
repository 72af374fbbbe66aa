import Verif.Model.Graph

/-!
# Model of references into a graph

include/arc_utilities/graph.hpp. `getNode`, `getEdge`, `addEdgeBetweenNodes`, `getInEdges` and `getOutEdges` return
references into the vectors of a graph. A vector that is full moves to a new storage when an element is added to it,
and references to elements in the old storage are then no longer valid; using one is undefined. Each storage has a
number that is never used again. How much a full vector grows is left open, and so is whether the nodes are moved or
copied to a new storage: they are moved if moving the value of a node cannot throw, and otherwise copied, together with
the storages of their edges.
-/
namespace Verif.Graph.References
open Verif Verif.Graph

/-- What is left to the library and to the type of the values: the capacity of a vector of `n` elements that was full
and grew, and whether nodes are moved to a new storage or copied. Used for graph.hpp:468-471, 365. -/
structure Policy where
  grow : Nat → Nat
  moves : Bool

/-- The storage of a `std::vector`: its number, its capacity and its elements. Used for graph.hpp:116-122, 267-270. -/
structure Store (α : Type) where
  id : Nat
  cap : Nat
  elems : List α
  deriving DecidableEq, Repr

/-- graph.hpp:121-122 `in_edges_` or `out_edges_` -/
inductive Side where
  | into
  | out
  deriving DecidableEq, Repr

/-- graph.hpp:116-122 `GraphNode`, with the storages of its edges -/
structure HNode (ν W : Type) where
  value : ν
  distance : W
  ins : Store (Edge W)
  outs : Store (Edge W)
  deriving DecidableEq, Repr

/-- graph.hpp:267-270 `Graph`, with the storage of its nodes, and the number of the next storage -/
structure Heap (ν W : Type) where
  nodes : Store (HNode ν W)
  fresh : Nat
  deriving DecidableEq, Repr

/-- A reference to a node: the storage and the position in it. Used for graph.hpp:462-466, 220, 222. -/
structure NodeRef where
  store : Nat
  pos : Nat
  deriving DecidableEq, Repr

/-- A reference to an edge: which of the two vectors of a node, the storage and the position in it. Used for
graph.hpp:93-99, 105, 251-257. -/
structure EdgeRef where
  side : Side
  store : Nat
  pos : Nat
  deriving DecidableEq, Repr

variable {ν W α : Type}

/-- graph.hpp:121-122: the vector of a node on the given side -/
def HNode.edges (n : HNode ν W) : Side → Store (Edge W)
  | .into => n.ins
  | .out => n.outs

/-- graph.hpp:121-122: the node with another vector on the given side -/
def HNode.setEdges (n : HNode ν W) (s : Store (Edge W)) : Side → HNode ν W
  | .into => { n with ins := s }
  | .out => { n with outs := s }

/-- The graph without its storages. Used for graph.hpp:116-122. -/
def plainNode (n : HNode ν W) : Node ν W := ⟨n.value, n.distance, n.ins.elems, n.outs.elems⟩
/-- The graph without its storages. Used for graph.hpp:267-270. -/
def plain (h : Heap ν W) : Graph ν W := h.nodes.elems.map plainNode

/-- graph.hpp:323, 325, the constructor with an expected number of nodes, or without one; the capacity is at least the
number asked for -/
def empty (cap : Nat) : Heap ν W := ⟨⟨0, cap, []⟩, 1⟩

/-- `std::vector::push_back`, with the number of the next storage. Used for graph.hpp:220, 222. -/
def Store.push (p : Policy) (fresh : Nat) (s : Store α) (x : α) : Store α × Nat :=
  if s.elems.length < s.cap then ({ s with elems := s.elems ++ [x] }, fresh)
  else (⟨fresh, p.grow s.elems.length, s.elems ++ [x]⟩, fresh + 1)

/-- A copy of a node: its vectors have storages of their own. Used for graph.hpp:468-471, 365. -/
def copyNode (fresh : Nat) (n : HNode ν W) : HNode ν W :=
  { n with ins := ⟨fresh, n.ins.elems.length, n.ins.elems⟩, outs := ⟨fresh + 1, n.outs.elems.length, n.outs.elems⟩ }

/-- Copies of nodes, one after the other. Used for graph.hpp:468-471, 365. -/
def copyNodes : Nat → List (HNode ν W) → List (HNode ν W)
  | _, [] => []
  | fresh, n :: ns => copyNode fresh n :: copyNodes (fresh + 2) ns

/-- The nodes in a new storage of the given capacity. Used for graph.hpp:468-471, 365. -/
def relocate (p : Policy) (cap : Nat) (h : Heap ν W) : Heap ν W :=
  if p.moves then ⟨⟨h.fresh, cap, h.nodes.elems⟩, h.fresh + 1⟩
  else ⟨⟨h.fresh, cap, copyNodes (h.fresh + 1) h.nodes.elems⟩, h.fresh + 1 + 2 * h.nodes.elems.length⟩

/-- graph.hpp:468-471 `addNode(const GraphNode&)`, and 473 for a node without edges; the node is copied -/
def addNode (p : Policy) (n : Node ν W) : M (Heap ν W) Int := do
  M.modify (fun h => if h.nodes.elems.length < h.nodes.cap then h else relocate p (p.grow h.nodes.elems.length) h)
  M.modify (fun h => ⟨{ h.nodes with elems := h.nodes.elems ++
    [⟨n.value, n.distance, ⟨h.fresh, n.inEdges.length, n.inEdges⟩, ⟨h.fresh + 1, n.outEdges.length, n.outEdges⟩⟩] },
    h.fresh + 2⟩)
  let h ← M.get
  pure ((h.nodes.elems.length : Int) - 1)

/-- graph.hpp:365 `shrinkToFit`: whether the storage is changed is left to the library -/
def shrinkToFit (p : Policy) (changes : Bool) : M (Heap ν W) Unit :=
  M.modify (fun h => if changes then relocate p h.nodes.elems.length h else h)

/-- graph.hpp:462-466 `getNode` -/
def getNode (h : Heap ν W) (index : Int) : Out NodeRef :=
  if 0 ≤ index ∧ index < (h.nodes.elems.length : Int) then .ok ⟨h.nodes.id, index.toNat⟩ else .throws .outOfRange

/-- Using a reference to a node. Used for graph.hpp:251-257, 371-373. -/
def readNode (h : Heap ν W) (r : NodeRef) : Out (HNode ν W) :=
  if r.store = h.nodes.id then
    match h.nodes.elems[r.pos]? with
    | some n => .ok n
    | none => .ub
  else .ub

/-- Which node has the storage of a reference to an edge. Used for graph.hpp:93-99, 105. -/
def owner (h : Heap ν W) (r : EdgeRef) : Option Nat :=
  h.nodes.elems.findIdx? (fun n => (n.edges r.side).id == r.store)

/-- Reading through a reference to an edge. Used for graph.hpp:93-99, 105, 488-494. -/
def readEdge (h : Heap ν W) (r : EdgeRef) : Out (Edge W) :=
  match owner h r with
  | none => .ub
  | some i =>
    match h.nodes.elems[i]? with
    | none => .ub
    | some n =>
      match (n.edges r.side).elems[r.pos]? with
      | none => .ub
      | some e => .ok e

/-- graph.hpp:93-99, 105: a setter called through a reference to an edge -/
def writeEdge (r : EdgeRef) (f : Edge W → Edge W) : M (Heap ν W) Unit := do
  let h ← M.get
  let _ ← M.lift (readEdge h r)
  M.modify (fun h =>
    match owner h r with
    | none => h
    | some i => { h with nodes := { h.nodes with elems := h.nodes.elems.modify i (fun n =>
        n.setEdges { n.edges r.side with elems := (n.edges r.side).elems.modify r.pos f } r.side) } })

/-- graph.hpp:251-257: a reference to an element of `getInEdges()` or `getOutEdges()` of a node -/
def edgeAt (h : Heap ν W) (side : Side) (index : Int) (k : Nat) : Out EdgeRef := do
  let r ← getNode h index
  let n ← readNode h r
  if k < (n.edges side).elems.length then .ok ⟨side, (n.edges side).id, k⟩ else .ub

/-- graph.hpp:233-240 `getEdgeTo` -/
def HNode.getEdgeTo (n : HNode ν W) (other : Int) : Out EdgeRef := do
  let k ← findEdgeTo other n.outs.elems 0
  .ok ⟨.out, n.outs.id, k⟩

/-- graph.hpp:371-373 `getEdge` -/
def getEdge (h : Heap ν W) (i j : Int) : Out EdgeRef := do
  let r ← getNode h i
  let n ← readNode h r
  n.getEdgeTo j

/-- graph.hpp:220, 222 `addInEdge` or `addOutEdge`, called through a reference to a node -/
def addEdgeTo (p : Policy) (r : NodeRef) (side : Side) (e : Edge W) : M (Heap ν W) Unit := do
  let h ← M.get
  let _ ← M.lift (readNode h r)
  M.modify (fun h =>
    match h.nodes.elems[r.pos]? with
    | none => h
    | some n =>
      let s := (n.edges side).push p h.fresh e
      { nodes := { h.nodes with elems := h.nodes.elems.set r.pos (n.setEdges s.1 side) }, fresh := s.2 })

/-- graph.hpp:475-486 `addEdgeBetweenNodes`: the references to the two nodes are used after edges were added -/
def addEdgeBetweenNodes (p : Policy) (fromIndex toIndex : Int) (w : W) : M (Heap ν W) EdgeRef := do
  let h ← M.get
  let fromNode ← M.lift (getNode h fromIndex)
  let toNode ← M.lift (getNode h toIndex)
  if fromIndex = toIndex then M.throw .invalidArgument
  else do
    let newEdge := Edge.make fromIndex toIndex w
    addEdgeTo p fromNode .out newEdge
    addEdgeTo p toNode .into newEdge
    let h ← M.get
    let n ← M.lift (readNode h fromNode)
    M.lift (n.getEdgeTo toIndex)

/-- graph.hpp:488-494 `addEdgesBetweenNodes`: the two edges are copied through the references at the end -/
def addEdgesBetweenNodes (p : Policy) (first second : Int) (w : W) : M (Heap ν W) (Edge W × Edge W) := do
  let e1 ← addEdgeBetweenNodes p first second w
  let e2 ← addEdgeBetweenNodes p second first w
  let h ← M.get
  let a ← M.lift (readEdge h e1)
  let b ← M.lift (readEdge h e2)
  pure (a, b)

/-- What a caller may do to a graph while references are kept. Used for graph.hpp:462-494. -/
inductive Op (ν W : Type) where
  | addNode (n : Node ν W)
  | addEdge (i j : Int) (w : W)
  | addEdges (i j : Int) (w : W)
  | setEdge (r : EdgeRef) (f : Edge W → Edge W)

/-- One operation. Used for graph.hpp:462-494. -/
def step (p : Policy) : Op ν W → M (Heap ν W) Unit
  | .addNode n => do let _ ← addNode p n; pure ()
  | .addEdge i j w => do let _ ← addEdgeBetweenNodes p i j w; pure ()
  | .addEdges i j w => do let _ ← addEdgesBetweenNodes p i j w; pure ()
  | .setEdge r f => writeEdge r f

/-- A sequence of operations whose exceptions are caught. Used for graph.hpp:462-494. -/
def run (p : Policy) : List (Op ν W) → Heap ν W → Out (Heap ν W)
  | [], h => .ok h
  | op :: ops, h =>
    match step p op h with
    | (.ok _, h') => run p ops h'
    | (.throws _, h') => run p ops h'
    | (.abort, _) => .abort
    | (.ub, _) => .ub

end Verif.Graph.References
