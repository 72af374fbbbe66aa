import Verif.Spec.GraphReferences
import Verif.Lemmas.GraphReferences
import Verif.Lemmas.Graph

/-!
# Property C171 (graph.hpp): how long references into a graph are valid
-/
namespace Verif.Graph.References
open Verif Verif.Graph

variable {ν W : Type}

/-! ## Graphs without their storages -/

theorem plain_length (h : Heap ν W) : (plain h).length = h.nodes.elems.length := by simp [plain]

theorem plain_get (h : Heap ν W) (i : Nat) : (plain h)[i]? = (h.nodes.elems[i]?).map plainNode := by simp [plain]

theorem edgesOf_plain (h : Heap ν W) (side : Side) (i : Nat) :
    edgesOf (plain h) side i = (look h side i).map Store.elems := by
  unfold edgesOf look
  rw [plain_get, Option.map_map, Option.map_map]
  cases side <;> rfl

theorem capacityOf_look (h : Heap ν W) (side : Side) (i : Nat) :
    capacityOf h side i = (look h side i).map Store.cap := by
  unfold capacityOf look
  rw [Option.map_map]
  cases side <;> rfl

theorem push_elems (p : Policy) (f : Nat) (s : Store (Edge W)) (e : Edge W) :
    (s.push p f e).1.elems = s.elems ++ [e] := by
  rw [push_id]; split <;> rfl

theorem plain_pushAt (p : Policy) (side : Side) (i : Nat) (e : Edge W) (h : Heap ν W) :
    plain (pushAt p side i e h) = (plain h).modify i (fun n => match side with
      | .into => n.addInEdge e
      | .out => n.addOutEdge e) := by
  apply List.ext_getElem?
  intro j
  rw [List.getElem?_modify, plain_get, plain_get]
  unfold pushAt
  cases hn : h.nodes.elems[i]? with
  | none =>
    simp only
    by_cases c : i = j
    · subst c; rw [hn]; rfl
    · cases h.nodes.elems[j]? <;> simp [c]
  | some n =>
    simp only
    rw [List.getElem?_set]
    by_cases c : i = j
    · subst c
      have hlt : i < h.nodes.elems.length := by rw [List.getElem?_eq_some_iff] at hn; exact hn.1
      rw [if_pos rfl, if_pos hlt, hn]
      cases side <;> simp [HNode.setEdges, push_elems, Node.addInEdge, Node.addOutEdge, plainNode, HNode.edges]
    · rw [if_neg c]
      cases h.nodes.elems[j]? <;> simp [c]

theorem plain_writeAt {r : EdgeRef} {f : Edge W → Edge W} {h : Heap ν W} {i : Nat} (ho : owner h r = some i) :
    plain (writeAt r f h) = changedAt (plain h) r.side i r.pos f := by
  apply List.ext_getElem?
  intro j
  unfold changedAt writeAt
  rw [ho, List.getElem?_modify, plain_get, plain_get]
  simp only
  rw [List.getElem?_modify]
  by_cases c : i = j
  · subst c
    cases h.nodes.elems[i]? with
    | none => rfl
    | some n => cases r.side <;> simp [HNode.setEdges, plainNode, HNode.edges]
  · cases h.nodes.elems[j]? <;> simp [c]

theorem plainNode_copyNode (f : Nat) (n : HNode ν W) : plainNode (copyNode f n) = plainNode n := rfl

theorem plain_relocate (p : Policy) (cap : Nat) (h : Heap ν W) : plain (relocate p cap h) = plain h := by
  unfold relocate
  split
  · rfl
  · apply List.ext_getElem?
    intro j
    rw [plain_get, plain_get]
    simp only [copyNodes_get, Option.map_map]
    rfl

theorem plain_node (p : Policy) (n : Node ν W) (h : Heap ν W) : plain (append n (room p h)) = plain h ++ [n] := by
  have : plain (room p h) = plain h := by
    unfold room; split
    · rfl
    · exact plain_relocate _ _ _
  rw [← this]
  simp [plain, append, newNode, plainNode]

/-! ## References that the graph gives out -/

theorem Reached.good {p : Policy} (hp : ∀ n, n < p.grow n) {h : Heap ν W} (hr : Reached p h) : Good h := by
  obtain ⟨c, ops, e⟩ := hr
  exact Kept.run (p := p) (P := Good) (fun _ _ g c => g.change hp c) ops _ _ (good_empty c) e

theorem getNode_ok {h : Heap ν W} {i : Int} {r : NodeRef} (e : getNode h i = .ok r) :
    0 ≤ i ∧ i.toNat < h.nodes.elems.length ∧ r = ⟨h.nodes.id, i.toNat⟩ := by
  unfold getNode at e
  split at e
  · rename_i c
    injection e with e
    exact ⟨c.1, by omega, e.symm⟩
  · cases e

theorem readNode_at {h : Heap ν W} {k : Nat} (hk : k < h.nodes.elems.length) :
    readNode h ⟨h.nodes.id, k⟩ = .ok h.nodes.elems[k] := by
  unfold readNode
  rw [if_pos rfl, List.getElem?_eq_getElem hk]

theorem look_at {h : Heap ν W} {side : Side} {k : Nat} (hk : k < h.nodes.elems.length) :
    look h side k = some (h.nodes.elems[k].edges side) := by
  unfold look; rw [List.getElem?_eq_getElem hk]; rfl

theorem edgeAt_ok {h : Heap ν W} {side : Side} {i : Int} {k : Nat} {r : EdgeRef} (e : edgeAt h side i k = .ok r) :
    ∃ s, look h side i.toNat = some s ∧ k < s.elems.length ∧ r = ⟨side, s.id, k⟩ := by
  unfold edgeAt at e
  obtain ⟨r1, e1, e⟩ := Out.bind_eq_ok.1 e
  obtain ⟨n, e2, e⟩ := Out.bind_eq_ok.1 e
  obtain ⟨_, hl, rfl⟩ := getNode_ok e1
  rw [readNode_at hl] at e2
  injection e2 with e2
  subst e2
  split at e
  · rename_i c
    injection e with e
    exact ⟨_, look_at hl, c, e.symm⟩
  · cases e

/-- **C171.** A reference to an edge keeps referring to that edge, whatever is added to the graph, exactly until the
vector it is in has more elements than it had room for when the reference was made, or nodes have to be copied to a
larger storage. While it is valid, it reads the edge as it is now in the graph, and what is set through it is set in
the graph and nowhere else. Afterwards its use is undefined. -/
theorem C171_edge (p : Policy) (hp : ∀ n, n < p.grow n) (h h' : Heap ν W) (hr : Reached p h) (side : Side) (i : Int)
    (k : Nat) (r : EdgeRef) (e : edgeAt h side i k = .ok r) (ops : List (Op ν W)) (er : run p ops h = .ok h') :
    ∃ cap es, capacityOf h side i.toNat = some cap ∧ edgesOf (plain h') side i.toNat = some es ∧
      ∃ hk : k < es.length,
      (es.length ≤ cap ∧ (p.moves = true ∨ (plain h').length ≤ h.nodes.cap) →
        readEdge h' r = .ok es[k] ∧
        ∀ f, ∃ h'', writeEdge r f h' = (.ok (), h'') ∧ plain h'' = changedAt (plain h') side i.toNat k f) ∧
      (¬ (es.length ≤ cap ∧ (p.moves = true ∨ (plain h').length ≤ h.nodes.cap)) →
        readEdge h' r = .ub ∧ ∀ f, (writeEdge r f h').1 = .ub) := by
  have g := hr.good hp
  obtain ⟨s, hs, hk, rfl⟩ := edgeAt_ok e
  obtain ⟨u1, u2⟩ := g.used side i.toNat s hs
  have gf := g.fits
  have t0 : Track p side i.toNat k s.id s.cap h.nodes.id h.nodes.cap h :=
    ⟨g, u1, g.node, ⟨s, hs, hk, fun _ => ⟨rfl, rfl⟩, fun c => absurd ⟨u2, .inr gf⟩ c⟩,
      fun _ => ⟨rfl, rfl⟩, fun c => absurd c (by omega)⟩
  have t := Kept.run (p := p) (P := Track p side i.toNat k s.id s.cap h.nodes.id h.nodes.cap)
    (fun _ _ t c => t.change hp c) ops _ _ t0 er
  obtain ⟨s', hs', hk', yes, no⟩ := t.here
  refine ⟨s.cap, s'.elems, by rw [capacityOf_look, hs]; rfl, by rw [edgesOf_plain, hs']; rfl, hk', ?_, ?_⟩
  · rw [plain_length]
    intro c
    have hid := (yes c).1
    have hread : readEdge h' ⟨side, s.id, k⟩ = .ok s'.elems[k] := by
      rw [readEdge_of_look t.good (r := ⟨side, s.id, k⟩) hs' hid]
      simp only [List.getElem?_eq_getElem hk']
    refine ⟨hread, fun f => ⟨writeAt ⟨side, s.id, k⟩ f h', ?_, ?_⟩⟩
    · unfold writeEdge
      simp only [M.bind_get, hread]
      rfl
    · rw [plain_writeAt (owner_of_look t.good (r := ⟨side, s.id, k⟩) hs' hid)]
  · rw [plain_length]
    intro c
    have hread := readEdge_none (r := ⟨side, s.id, k⟩) (no c)
    refine ⟨hread, fun f => ?_⟩
    unfold writeEdge
    simp only [M.bind_get, hread]
    rfl

/-- What holds of the storage of the nodes from some moment on. -/
def NodeTrack (nid ncap : Nat) (h : Heap ν W) : Prop :=
  Good h ∧ nid < h.fresh ∧ (h.nodes.elems.length ≤ ncap → h.nodes.id = nid ∧ h.nodes.cap = ncap) ∧
    (ncap < h.nodes.elems.length → h.nodes.id ≠ nid)

theorem NodeTrack.change {p : Policy} (hp : ∀ n, n < p.grow n) {nid ncap : Nat} {h h' : Heap ν W}
    (t : NodeTrack nid ncap h) (c : Change p h h') : NodeTrack nid ncap h' := by
  obtain ⟨g, u, a, b⟩ := t
  refine ⟨g.change hp c, ?_⟩
  cases c with
  | edge side i e =>
    obtain ⟨i1, i2, i3, i4⟩ := pushAt_id p side i e h
    rw [i1, i2, i3]; exact ⟨by omega, a, b⟩
  | write r f =>
    obtain ⟨i1, i2, i3, i4⟩ := writeAt_id r f h
    rw [i1, i2, i3, i4]; exact ⟨u, a, b⟩
  | node n =>
    obtain ⟨gr, hl, he, hf⟩ := g.room hp
    have hlen : (append n (room p h)).nodes.elems.length = h.nodes.elems.length + 1 := by
      show ((room p h).nodes.elems ++ _).length = _
      simp only [List.length_append, List.length_cons, List.length_nil]; omega
    have hid : (append n (room p h)).nodes.id = (room p h).nodes.id := rfl
    have hcap : (append n (room p h)).nodes.cap = (room p h).nodes.cap := rfl
    have hfr : (append n (room p h)).fresh = (room p h).fresh + 2 := rfl
    have fits := g.fits
    refine ⟨by omega, ?_⟩
    rw [hlen, hid, hcap]
    unfold room
    by_cases c : h.nodes.elems.length < h.nodes.cap
    · rw [if_pos c]
      refine ⟨fun x => a (by omega), fun x => ?_⟩
      by_cases cn : h.nodes.elems.length ≤ ncap
      · have := (a cn).2; omega
      · exact b (by omega)
    · rw [if_neg c]
      obtain ⟨r1, r2, _⟩ := relocate_id p (p.grow h.nodes.elems.length) h
      rw [r1]
      refine ⟨fun x => ?_, fun _ => by omega⟩
      have := (a (by omega)).2
      omega

theorem NodeTrack.run {p : Policy} (hp : ∀ n, n < p.grow n) {nid ncap : Nat} {h h' : Heap ν W}
    (t : NodeTrack nid ncap h) {ops : List (Op ν W)} (e : run p ops h = .ok h') : NodeTrack nid ncap h' :=
  Kept.run (p := p) (P := NodeTrack nid ncap) (fun _ _ t c => t.change hp c) ops _ _ t e

theorem length_change {p : Policy} {n : Nat} {h h' : Heap ν W} (hn : n ≤ h.nodes.elems.length) (c : Change p h h') :
    n ≤ h'.nodes.elems.length := by
  cases c with
  | edge side i e => rw [(pushAt_id p side i e h).2.2.1]; exact hn
  | write r f => rw [(writeAt_id r f h).2.2.1]; exact hn
  | node m =>
    have := congrArg List.length (plain_node p m h)
    rw [plain_length] at this
    simp only [List.length_append, plain_length, List.length_cons, List.length_nil] at this
    omega

theorem length_run {p : Policy} {h h' : Heap ν W} {ops : List (Op ν W)} (e : run p ops h = .ok h') :
    h.nodes.elems.length ≤ h'.nodes.elems.length :=
  Kept.run (p := p) (P := fun x => h.nodes.elems.length ≤ x.nodes.elems.length) (fun _ _ hn c => length_change hn c)
    ops _ _ (Nat.le_refl _) e

/-- **C171.** A reference to a node keeps referring to that node exactly until the graph has more nodes than there was
room for when the reference was made; then its use is undefined. Adding edges never changes this. -/
theorem C171_node (p : Policy) (hp : ∀ n, n < p.grow n) (h h' : Heap ν W) (hr : Reached p h) (i : Int) (r : NodeRef)
    (e : getNode h i = .ok r) (ops : List (Op ν W)) (er : run p ops h = .ok h') :
    ((plain h').length ≤ h.nodes.cap →
      ∃ n, readNode h' r = .ok n ∧ (plain h')[i.toNat]? = some (plainNode n)) ∧
    (h.nodes.cap < (plain h').length → readNode h' r = .ub) := by
  have g := hr.good hp
  have gf := g.fits
  obtain ⟨_, hl, rfl⟩ := getNode_ok e
  have t0 : NodeTrack h.nodes.id h.nodes.cap h := ⟨g, g.node, fun _ => ⟨rfl, rfl⟩, fun c => absurd c (by omega)⟩
  obtain ⟨_, _, a, b⟩ := t0.run hp er
  have hlen := length_run er
  rw [plain_length, plain_get]
  refine ⟨fun c => ?_, fun c => ?_⟩
  · rw [← (a c).1, readNode_at (by omega), List.getElem?_eq_getElem (by omega)]
    exact ⟨_, rfl, rfl⟩
  · exact if_neg (fun x => b c x.symm)

/-- **C171.** In a graph made for an expected number of nodes, references to nodes stay valid while there are no more
nodes than that, and references to edges are not affected by adding nodes. -/
theorem C171_reserved (p : Policy) (hp : ∀ n, n < p.grow n) (c : Nat) (ops ops' : List (Op ν W)) (h h' : Heap ν W)
    (e : run p ops (empty c) = .ok h) (er : run p ops' h = .ok h') (hc : (plain h').length ≤ c) :
    (∀ i r, getNode h i = .ok r → ∃ n, readNode h' r = .ok n ∧ (plain h')[i.toNat]? = some (plainNode n)) ∧
    ∀ side i k r, edgeAt h side i k = .ok r →
      ∃ cap es, capacityOf h side i.toNat = some cap ∧ edgesOf (plain h') side i.toNat = some es ∧
        (es.length ≤ cap → ∃ hk : k < es.length, readEdge h' r = .ok es[k]) := by
  have t0 : NodeTrack 0 c (empty c : Heap ν W) :=
    ⟨good_empty c, Nat.one_pos, fun _ => ⟨rfl, rfl⟩, fun x => absurd x (by simp [empty])⟩
  obtain ⟨_, _, a, _⟩ := t0.run hp e
  have hlen := length_run er
  rw [plain_length] at hc
  have hcap := (a (by omega)).2
  refine ⟨fun i r hi => (C171_node p hp h h' ⟨c, ops, e⟩ i r hi ops' er).1 (by rw [plain_length]; omega), ?_⟩
  intro side i k r hi
  obtain ⟨cap, es, h1, h2, hk, yes, _⟩ := C171_edge p hp h h' ⟨c, ops, e⟩ side i k r hi ops' er
  exact ⟨cap, es, h1, h2, fun x => ⟨hk, (yes ⟨x, .inr (by rw [plain_length]; omega)⟩).1⟩⟩

/-! ## What the graph itself does with references -/

theorem nodePos_plain (h : Heap ν W) (i : Int) : nodePos (plain h) i = mapped NodeRef.pos (getNode h i) := by
  unfold nodePos getNode
  rw [plain_length]
  split <;> rfl

theorem addEdgeTo_ok (p : Policy) (h : Heap ν W) (k : Nat) (hk : k < h.nodes.elems.length) (side : Side)
    (e : Edge W) : addEdgeTo p ⟨h.nodes.id, k⟩ side e h = (.ok (), pushAt p side k e h) := by
  unfold addEdgeTo
  simp only [M.bind_get, readNode_at hk]
  rfl

theorem addEdge_ok (p : Policy) (h : Heap ν W) (i j : Int) (w : W) (hi : 0 ≤ i ∧ i < (h.nodes.elems.length : Int))
    (hj : 0 ≤ j ∧ j < (h.nodes.elems.length : Int)) (hij : i ≠ j) :
    ∃ n, (pushAt p .into j.toNat (Edge.make i j w) (pushAt p .out i.toNat (Edge.make i j w) h)).nodes.elems[i.toNat]? =
        some n ∧
      addEdgeBetweenNodes p i j w h = (n.getEdgeTo j,
        pushAt p .into j.toNat (Edge.make i j w) (pushAt p .out i.toNat (Edge.make i j w) h)) := by
  obtain ⟨a1, _, a3, _⟩ := pushAt_id p .out i.toNat (Edge.make i j w) h
  obtain ⟨b1, _, b3, _⟩ := pushAt_id p .into j.toNat (Edge.make i j w) (pushAt p .out i.toNat (Edge.make i j w) h)
  have g1 : getNode h i = .ok ⟨h.nodes.id, i.toNat⟩ := if_pos hi
  have g2 : getNode h j = .ok ⟨h.nodes.id, j.toNat⟩ := if_pos hj
  have s1 := addEdgeTo_ok p h i.toNat (by omega) .out (Edge.make i j w)
  have s2 := addEdgeTo_ok p (pushAt p .out i.toNat (Edge.make i j w) h) j.toNat (by omega) .into (Edge.make i j w)
  rw [a1] at s2
  have s3 := readNode_at (h := pushAt p .into j.toNat (Edge.make i j w) (pushAt p .out i.toNat (Edge.make i j w) h))
    (k := i.toNat) (by omega)
  rw [b1, a1] at s3
  refine ⟨_, List.getElem?_eq_getElem (by omega), ?_⟩
  unfold References.addEdgeBetweenNodes
  simp only [M.bind_get, g1, g2, M.bind_lift_ok, if_neg hij]
  rw [M.bind_apply, s1]
  dsimp only
  rw [M.bind_apply, s2]
  dsimp only
  simp only [M.bind_get, s3, M.bind_lift_ok]
  rfl

theorem getEdgeTo_pos (n : HNode ν W) (j : Int) :
    mapped EdgeRef.pos (n.getEdgeTo j) = findEdgeTo j n.outs.elems 0 := by
  unfold HNode.getEdgeTo
  cases findEdgeTo j n.outs.elems 0 <;> rfl

/-- **C171.** `addEdgeBetweenNodes` uses only valid references, to whatever storages the edges move: with the storages
left out it does what the model without storages does. The returned reference is to the position it gives. -/
theorem C171_add (p : Policy) (h : Heap ν W) (i j : Int) (w : W) :
    Graph.addEdgeBetweenNodes i j w (plain h) =
      (mapped EdgeRef.pos (addEdgeBetweenNodes p i j w h).1, plain (addEdgeBetweenNodes p i j w h).2) ∧
    ∀ r h', addEdgeBetweenNodes p i j w h = (.ok r, h') →
      ∃ n, h'.nodes.elems[i.toNat]? = some n ∧ r.side = .out ∧ r.store = n.outs.id := by
  by_cases hi : 0 ≤ i ∧ i < (h.nodes.elems.length : Int)
  · by_cases hj : 0 ≤ j ∧ j < (h.nodes.elems.length : Int)
    · have g1 : nodePos (plain h) i = .ok i.toNat := by rw [nodePos_plain]; unfold getNode; rw [if_pos hi]; rfl
      have g2 : nodePos (plain h) j = .ok j.toNat := by rw [nodePos_plain]; unfold getNode; rw [if_pos hj]; rfl
      by_cases hij : i = j
      · have k1 : getNode h i = .ok ⟨h.nodes.id, i.toNat⟩ := if_pos hi
        have k2 : getNode h j = .ok ⟨h.nodes.id, j.toNat⟩ := if_pos hj
        have e1 : addEdgeBetweenNodes p i j w h = (.throws .invalidArgument, h) := by
          unfold References.addEdgeBetweenNodes
          simp only [M.bind_get, k1, k2, M.bind_lift_ok, if_pos hij]
          rfl
        refine ⟨?_, fun r h' e => by rw [e1] at e; cases e⟩
        rw [e1]
        unfold Graph.addEdgeBetweenNodes
        simp only [M.bind_get, g1, g2, M.bind_lift_ok, if_pos hij]
        rfl
      · obtain ⟨n, hn, e1⟩ := addEdge_ok p h i j w hi hj hij
        refine ⟨?_, ?_⟩
        · rw [e1]
          unfold Graph.addEdgeBetweenNodes
          simp only [M.bind_get, g1, g2, M.bind_lift_ok, if_neg hij, M.bind_modify]
          have hp : plain (pushAt p .into j.toNat (Edge.make i j w) (pushAt p .out i.toNat (Edge.make i j w) h)) =
              ((plain h).modify i.toNat (Node.addOutEdge (Edge.make i j w))).modify j.toNat
                (Node.addInEdge (Edge.make i j w)) := by
            rw [plain_pushAt, plain_pushAt]
          rw [← hp, plain_get, hn, getEdgeTo_pos]
          rfl
        · intro r h' e
          rw [e1] at e
          injection e with ea eb
          subst eb
          refine ⟨n, hn, ?_⟩
          unfold HNode.getEdgeTo at ea
          obtain ⟨k, _, ek⟩ := Out.bind_eq_ok.1 ea
          injection ek with ek
          subst ek
          exact ⟨rfl, rfl⟩
    · have k1 : getNode h i = .ok ⟨h.nodes.id, i.toNat⟩ := if_pos hi
      have k2 : getNode h j = .throws .outOfRange := if_neg hj
      have e1 : addEdgeBetweenNodes p i j w h = (.throws .outOfRange, h) := by
        unfold References.addEdgeBetweenNodes
        simp only [M.bind_get, k1, k2, M.bind_lift_ok, M.bind_lift_throws]
      refine ⟨?_, fun r h' e => by rw [e1] at e; cases e⟩
      rw [e1]
      unfold Graph.addEdgeBetweenNodes
      simp only [M.bind_get, nodePos_plain, k1, k2]
      rfl
  · have k1 : getNode h i = .throws .outOfRange := if_neg hi
    have e1 : addEdgeBetweenNodes p i j w h = (.throws .outOfRange, h) := by
      unfold References.addEdgeBetweenNodes
      simp only [M.bind_get, k1, M.bind_lift_throws]
    refine ⟨?_, fun r h' e => by rw [e1] at e; cases e⟩
    rw [e1]
    unfold Graph.addEdgeBetweenNodes
    simp only [M.bind_get, nodePos_plain, k1]
    rfl

/-- `addEdgeBetweenNodes` in terms of the vectors: where the returned reference leads. -/
theorem addEdge_found (p : Policy) (h : Heap ν W) (i j : Int) (w : W) (hi : 0 ≤ i ∧ i < (h.nodes.elems.length : Int))
    (hj : 0 ≤ j ∧ j < (h.nodes.elems.length : Int)) (hij : i ≠ j) :
    ∃ s k e, look (pushAt p .into j.toNat (Edge.make i j w) (pushAt p .out i.toNat (Edge.make i j w) h)) .out i.toNat =
        some s ∧ s.elems[k]? = some e ∧ e.toIndex = j ∧
      addEdgeBetweenNodes p i j w h = (.ok ⟨.out, s.id, k⟩,
        pushAt p .into j.toNat (Edge.make i j w) (pushAt p .out i.toNat (Edge.make i j w) h)) := by
  obtain ⟨n, hn, e1⟩ := addEdge_ok p h i j w hi hj hij
  have hl : look (pushAt p .into j.toNat (Edge.make i j w) (pushAt p .out i.toNat (Edge.make i j w) h)) .out i.toNat =
      some n.outs := by unfold look; rw [hn]; rfl
  have hl' := hl
  rw [look_pushAt, if_neg (by simp), look_pushAt, if_pos ⟨rfl, rfl⟩, look_at (by omega)] at hl'
  simp only [Option.map_some, Option.some.injEq] at hl'
  have hmem : ∃ e ∈ n.outs.elems, e.toIndex = j := by
    rw [← hl', push_elems]
    exact ⟨Edge.make i j w, by simp, rfl⟩
  obtain ⟨k, e, f1, f2, f3, _⟩ := findEdgeTo_spec j n.outs.elems 0 hmem
  rw [Nat.zero_add] at f1
  refine ⟨n.outs, k, e, hl, f2, f3, ?_⟩
  rw [e1]
  unfold HNode.getEdgeTo
  rw [f1]
  rfl

/-- **C171.** `addEdgesBetweenNodes` keeps the reference to the first edge while it adds the second one. The reference
is still valid then: the two edges are returned as they are in the graph afterwards. -/
theorem C171_add_both (p : Policy) (hp : ∀ n, n < p.grow n) (h : Heap ν W) (hr : Reached p h) (i j : Int) (w : W)
    (hi : 0 ≤ i ∧ i < ((plain h).length : Int)) (hj : 0 ≤ j ∧ j < ((plain h).length : Int)) (hij : i ≠ j) :
    ∃ h' k1 k2 e1 e2, addEdgesBetweenNodes p i j w h = (.ok (e1, e2), h') ∧
      Graph.addEdgesBetweenNodes i j w (plain h) = (.ok (k1, k2), plain h') ∧
      (∃ es, edgesOf (plain h') .out i.toNat = some es ∧ es[k1]? = some e1) ∧ e1.toIndex = j ∧
      (∃ es, edgesOf (plain h') .out j.toNat = some es ∧ es[k2]? = some e2) ∧ e2.toIndex = i := by
  rw [plain_length] at hi hj
  have g := hr.good hp
  obtain ⟨s1, k1, e1, l1, f1, t1, a1⟩ := addEdge_found p h i j w hi hj hij
  have A := (C171_add p h i j w).1
  rw [a1] at A
  have g1 : Good (pushAt p .into j.toNat (Edge.make i j w) (pushAt p .out i.toNat (Edge.make i j w) h)) :=
    (g.pushAt hp _ _ _).pushAt hp _ _ _
  have len1 : (pushAt p .into j.toNat (Edge.make i j w) (pushAt p .out i.toNat (Edge.make i j w) h)).nodes.elems.length =
      h.nodes.elems.length := by rw [(pushAt_id p _ _ _ _).2.2.1, (pushAt_id p _ _ _ _).2.2.1]
  generalize pushAt p .into j.toNat (Edge.make i j w) (pushAt p .out i.toNat (Edge.make i j w) h) = h1
    at l1 a1 A g1 len1
  obtain ⟨s2, k2, e2, l2, f2, t2, a2⟩ := addEdge_found p h1 j i w (by omega) (by omega) (fun x => hij x.symm)
  have B := (C171_add p h1 j i w).1
  rw [a2] at B
  have g2 : Good (pushAt p .into i.toNat (Edge.make j i w) (pushAt p .out j.toNat (Edge.make j i w) h1)) :=
    (g1.pushAt hp _ _ _).pushAt hp _ _ _
  have l3 : look (pushAt p .into i.toNat (Edge.make j i w) (pushAt p .out j.toNat (Edge.make j i w) h1)) .out i.toNat =
      some s1 := by
    rw [look_pushAt, if_neg (by simp), look_pushAt, if_neg (by rintro ⟨_, c⟩; omega), l1]
  generalize pushAt p .into i.toNat (Edge.make j i w) (pushAt p .out j.toNat (Edge.make j i w) h1) = h2
    at l2 a2 B g2 l3
  have r1 : readEdge h2 ⟨.out, s1.id, k1⟩ = .ok e1 := by
    rw [readEdge_of_look g2 (r := ⟨.out, s1.id, k1⟩) l3 rfl]; simp only [f1]
  have r2 : readEdge h2 ⟨.out, s2.id, k2⟩ = .ok e2 := by
    rw [readEdge_of_look g2 (r := ⟨.out, s2.id, k2⟩) l2 rfl]; simp only [f2]
  refine ⟨h2, k1, k2, e1, e2, ?_, ?_, ⟨s1.elems, by rw [edgesOf_plain, l3]; rfl, f1⟩, t1,
    ⟨s2.elems, by rw [edgesOf_plain, l2]; rfl, f2⟩, t2⟩
  · unfold References.addEdgesBetweenNodes
    rw [M.bind_apply, a1]
    dsimp only
    rw [M.bind_apply, a2]
    dsimp only
    simp only [M.bind_get, r1, r2, M.bind_lift_ok]
    rfl
  · unfold Graph.addEdgesBetweenNodes
    rw [M.bind_apply, A]
    simp only [mapped]
    rw [M.bind_apply, B]
    simp only [mapped]
    rfl

/-- **C171.** In all other cases the exception is the one of the model without storages, and nothing changes. -/
theorem C171_add_both_refused (p : Policy) (h : Heap ν W) (i j : Int) (w : W)
    (hn : ¬ ((0 ≤ i ∧ i < ((plain h).length : Int)) ∧ (0 ≤ j ∧ j < ((plain h).length : Int)) ∧ i ≠ j)) :
    ∃ x, addEdgesBetweenNodes p i j w h = (.throws x, h) ∧
      Graph.addEdgesBetweenNodes i j w (plain h) = (.throws x, plain h) ∧
      (x = .invalidArgument ↔ i = j ∧ 0 ≤ i ∧ i < ((plain h).length : Int)) ∧
      (x = .outOfRange ∨ x = .invalidArgument) := by
  rw [plain_length] at hn
  have key : ∃ x, addEdgeBetweenNodes p i j w h = (.throws x, h) ∧
      (x = .invalidArgument ↔ i = j ∧ 0 ≤ i ∧ i < (h.nodes.elems.length : Int)) ∧
      (x = .outOfRange ∨ x = .invalidArgument) := by
    unfold References.addEdgeBetweenNodes
    by_cases hi : 0 ≤ i ∧ i < (h.nodes.elems.length : Int)
    · have k1 : getNode h i = .ok ⟨h.nodes.id, i.toNat⟩ := if_pos hi
      by_cases hj : 0 ≤ j ∧ j < (h.nodes.elems.length : Int)
      · have k2 : getNode h j = .ok ⟨h.nodes.id, j.toNat⟩ := if_pos hj
        have hij : i = j := Classical.byContradiction fun c => hn ⟨hi, hj, c⟩
        simp only [M.bind_get, k1, k2, M.bind_lift_ok, if_pos hij]
        exact ⟨.invalidArgument, rfl, ⟨fun _ => ⟨hij, hi⟩, fun _ => rfl⟩, .inr rfl⟩
      · have k2 : getNode h j = .throws .outOfRange := if_neg hj
        simp only [M.bind_get, k1, k2, M.bind_lift_ok, M.bind_lift_throws]
        exact ⟨.outOfRange, rfl, ⟨fun x => Exc.noConfusion x, fun x => absurd (x.1 ▸ hi) hj⟩, .inl rfl⟩
    · have k1 : getNode h i = .throws .outOfRange := if_neg hi
      simp only [M.bind_get, k1, M.bind_lift_throws]
      exact ⟨.outOfRange, rfl, ⟨fun x => Exc.noConfusion x, fun x => absurd x.2 hi⟩, .inl rfl⟩
  obtain ⟨x, e, hx, ho⟩ := key
  have A := (C171_add p h i j w).1
  rw [e] at A
  refine ⟨x, ?_, ?_, by rw [plain_length]; exact hx, ho⟩
  · unfold References.addEdgesBetweenNodes
    rw [M.bind_apply, e]
  · unfold Graph.addEdgesBetweenNodes
    rw [M.bind_apply, A]
    rfl

/-- **C171.** Adding a node gives its index and leaves the other nodes as they are, also when they are copied. -/
theorem C171_add_node (p : Policy) (n : Node ν W) (h : Heap ν W) :
    ∃ h', addNode p n h = (.ok ((plain h).length : Int), h') ∧ plain h' = plain h ++ [n] := by
  refine ⟨append n (room p h), ?_, plain_node p n h⟩
  rw [addNode_eq, ← plain_length, plain_node]
  simp

/-- **C171.** `getEdge` gives a reference to the first outgoing edge to the other node, or throws. -/
theorem C171_get (h : Heap ν W) (i j : Int) :
    getEdge h i j = (do
      let n ← Graph.getNode (plain h) i
      let k ← n.getEdgeTo j
      edgeAt h .out i k) := by
  unfold References.getEdge Graph.getNode edgeAt
  rw [nodePos_plain]
  by_cases hi : 0 ≤ i ∧ i < (h.nodes.elems.length : Int)
  · have k1 : getNode h i = .ok ⟨h.nodes.id, i.toNat⟩ := if_pos hi
    have hl : i.toNat < h.nodes.elems.length := by omega
    simp only [k1, Out.bind_ok, mapped, readNode_at hl, plain_get, List.getElem?_eq_getElem hl, Option.map_some]
    unfold HNode.getEdgeTo Node.getEdgeTo
    show _ = (findEdgeTo j h.nodes.elems[i.toNat].outs.elems 0 >>= fun k => _)
    by_cases hm : ∃ e ∈ h.nodes.elems[i.toNat].outs.elems, e.toIndex = j
    · obtain ⟨k, e, f1, f2, _⟩ := findEdgeTo_spec j _ 0 hm
      rw [Nat.zero_add] at f1
      rw [f1]
      rw [List.getElem?_eq_some_iff] at f2
      obtain ⟨f2, _⟩ := f2
      simp only [Out.bind_ok, HNode.edges]
      exact (if_pos f2).symm
    · cases hf : findEdgeTo j h.nodes.elems[i.toNat].outs.elems 0 with
      | ok k =>
        exfalso
        have : ∀ (es : List (Edge W)) (k0 : Nat), (∀ e ∈ es, e.toIndex ≠ j) →
            findEdgeTo j es k0 = .throws .invalidArgument := by
          intro es
          induction es with
          | nil => intro _ _; rfl
          | cons e es ih =>
            intro k0 hne
            unfold findEdgeTo
            rw [if_neg (hne e List.mem_cons_self)]
            exact ih _ fun e he => hne e (List.mem_cons_of_mem _ he)
        rw [this _ _ fun e he c => hm ⟨e, he, c⟩] at hf
        cases hf
      | _ => rfl
  · have k1 : getNode h i = .throws .outOfRange := if_neg hi
    simp only [k1]
    rfl

/-- **C171.** `shrinkToFit` changes no node and no edge. If the library moves the nodes to another storage, references
to nodes are no longer valid, and references to edges are if and only if the nodes were not copied. -/
theorem C171_shrink (p : Policy) (hp : ∀ n, n < p.grow n) (changes : Bool) (h : Heap ν W) (hr : Reached p h) :
    ∃ h', shrinkToFit p changes h = (.ok (), h') ∧ plain h' = plain h ∧
      (∀ i r, getNode h i = .ok r → if changes then readNode h' r = .ub else readNode h' r = readNode h r) ∧
      ∀ side i k r, edgeAt h side i k = .ok r →
        if changes = true ∧ p.moves = false then readEdge h' r = .ub else readEdge h' r = readEdge h r := by
  have g := hr.good hp
  refine ⟨_, rfl, ?_, ?_, ?_⟩
  · split
    · exact plain_relocate _ _ _
    · rfl
  · intro i r hi
    obtain ⟨_, hl, rfl⟩ := getNode_ok hi
    cases changes with
    | false => rfl
    | true =>
      obtain ⟨r1, _⟩ := relocate_id p h.nodes.elems.length h
      have := g.node
      exact if_neg (show ¬ h.nodes.id = (relocate p h.nodes.elems.length h).nodes.id by omega)
  · intro side i k r hi
    obtain ⟨s, hs, hk, rfl⟩ := edgeAt_ok hi
    cases changes with
    | false => rfl
    | true =>
      have u := (g.used side i.toNat s hs).1
      have g' : Good (relocate p h.nodes.elems.length h) := g.relocate _ (Nat.le_refl _)
      simp only [true_and, if_true]
      by_cases m : p.moves = true
      · rw [if_neg (by simp [m])]
        have hl : look (relocate p h.nodes.elems.length h) side i.toNat = some s := by
          rw [look_relocate, if_pos m, hs]
        rw [readEdge_of_look g' (r := ⟨side, s.id, k⟩) hl rfl, readEdge_of_look g (r := ⟨side, s.id, k⟩) hs rfl]
      · have m' : p.moves = false := by simpa using m
        rw [if_pos m']
        apply readEdge_none
        intro j t ht
        rw [look_relocate, if_neg m] at ht
        cases hv : look h side j with
        | none => simp only [hv] at ht; cases ht
        | some v =>
          simp only [hv, Option.map_some, Option.some.injEq] at ht
          subst ht
          have := copyId_bound (h.fresh + 1) j side
          show copyId _ _ _ ≠ s.id
          omega

/-! ## Examples -/

/-- Vectors that double when they are full, with nodes that are moved. -/
def doubling : Policy := ⟨fun n => 2 * n + 1, true⟩
/-- The same with nodes that are copied. -/
def doublingCopies : Policy := ⟨fun n => 2 * n + 1, false⟩

/-- A node without edges. -/
def point (v : Nat) : Node Nat Nat := ⟨v, 0, [], []⟩

/-- Three nodes and an edge. -/
def threeNodes : List (Op Nat Nat) := [.addNode (point 0), .addNode (point 1), .addNode (point 2), .addEdge 0 1 5]

/-- A second edge from the same node: the reference to the first one is no longer valid. -/
example : ∃ h h' r, run doubling threeNodes (empty 8) = .ok h ∧ edgeAt h .out 0 0 = .ok r ∧
    readEdge h r = .ok (Edge.make 0 1 5) ∧ run doubling [.addEdge 0 2 6] h = .ok h' ∧ readEdge h' r = .ub :=
  ⟨_, _, _, rfl, rfl, rfl, rfl, rfl⟩

/-- An edge to the same node, and one between other nodes: the reference is still valid. -/
example : ∃ h h' r, run doubling threeNodes (empty 8) = .ok h ∧ edgeAt h .out 0 0 = .ok r ∧
    run doubling [.addEdge 1 0 6, .addEdges 1 2 7, .setEdge r (fun e => { e with weight := 9 })] h = .ok h' ∧
    readEdge h' r = .ok (Edge.make 0 1 9) :=
  ⟨_, _, _, rfl, rfl, rfl, rfl⟩

/-- A node for which there is no room: the reference to an edge is valid afterwards if nodes are moved. -/
example : ∃ h h' r, run doubling threeNodes (empty 3) = .ok h ∧ edgeAt h .out 0 0 = .ok r ∧
    run doubling [.addNode (point 3)] h = .ok h' ∧ readEdge h' r = .ok (Edge.make 0 1 5) :=
  ⟨_, _, _, rfl, rfl, rfl, rfl⟩

/-- The same with nodes that are copied: it is not. -/
example : ∃ h h' r, run doublingCopies threeNodes (empty 3) = .ok h ∧ edgeAt h .out 0 0 = .ok r ∧
    run doublingCopies [.addNode (point 3)] h = .ok h' ∧ readEdge h' r = .ub :=
  ⟨_, _, _, rfl, rfl, rfl, rfl⟩

/-- A kept reference to a node, with and without room. -/
example : (∃ h h' r n, run doubling threeNodes (empty 4) = .ok h ∧ getNode h 1 = .ok r ∧
      run doubling [.addNode (point 3)] h = .ok h' ∧ readNode h' r = .ok n ∧ n.value = 1) ∧
    ∃ h h' r, run doubling threeNodes (empty 3) = .ok h ∧ getNode h 1 = .ok r ∧
      run doubling [.addNode (point 3)] h = .ok h' ∧ readNode h' r = .ub :=
  ⟨⟨_, _, _, _, rfl, rfl, rfl, rfl, rfl⟩, ⟨_, _, _, rfl, rfl, rfl, rfl⟩⟩

/-- The hypotheses of the theorems are met. -/
example : Reached doubling (empty 3 : Heap Nat Nat) ∧ ∀ n, n < doubling.grow n :=
  ⟨⟨3, [], rfl⟩, fun n => by simp only [doubling]; omega⟩

end Verif.Graph.References
