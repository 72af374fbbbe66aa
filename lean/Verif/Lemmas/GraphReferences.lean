import Verif.Model.GraphReferences

/-!
# Lemmas on references into a graph
-/
namespace Verif.Graph.References
open Verif Verif.Graph

variable {ν W : Type}

/-- The vector of node `j` on the given side. -/
def look (h : Heap ν W) (side : Side) (j : Nat) : Option (Store (Edge W)) :=
  (h.nodes.elems[j]?).map (fun n => n.edges side)

/-- An edge added to one vector of one node. -/
def pushAt (p : Policy) (side : Side) (i : Nat) (e : Edge W) (h : Heap ν W) : Heap ν W :=
  match h.nodes.elems[i]? with
  | none => h
  | some n =>
    let s := (n.edges side).push p h.fresh e
    { nodes := { h.nodes with elems := h.nodes.elems.set i (n.setEdges s.1 side) }, fresh := s.2 }

/-- The node that `addNode` adds. -/
def newNode (fresh : Nat) (n : Node ν W) : HNode ν W :=
  ⟨n.value, n.distance, ⟨fresh, n.inEdges.length, n.inEdges⟩, ⟨fresh + 1, n.outEdges.length, n.outEdges⟩⟩

/-- The room that `addNode` makes. -/
def room (p : Policy) (h : Heap ν W) : Heap ν W :=
  if h.nodes.elems.length < h.nodes.cap then h else relocate p (p.grow h.nodes.elems.length) h

/-- A node added in a storage with room. -/
def append (n : Node ν W) (h : Heap ν W) : Heap ν W :=
  ⟨{ h.nodes with elems := h.nodes.elems ++ [newNode h.fresh n] }, h.fresh + 2⟩

/-- An edge changed. -/
def writeAt (r : EdgeRef) (f : Edge W → Edge W) (h : Heap ν W) : Heap ν W :=
  match owner h r with
  | none => h
  | some i => { h with nodes := { h.nodes with elems := h.nodes.elems.modify i (fun n =>
      n.setEdges { n.edges r.side with elems := (n.edges r.side).elems.modify r.pos f } r.side) } }

theorem addNode_eq (p : Policy) (n : Node ν W) (h : Heap ν W) :
    addNode p n h = (.ok (((append n (room p h)).nodes.elems.length : Int) - 1), append n (room p h)) := rfl

theorem edges_setEdges (n : HNode ν W) (s : Store (Edge W)) (a b : Side) :
    (n.setEdges s a).edges b = if b = a then s else n.edges b := by
  cases a <;> cases b <;> rfl

/-! ## What the operations do to the vectors -/

theorem look_pushAt (p : Policy) (side side' : Side) (i j : Nat) (e : Edge W) (h : Heap ν W) :
    look (pushAt p side i e h) side' j =
      if side' = side ∧ j = i then (look h side' j).map (fun s => (s.push p h.fresh e).1) else look h side' j := by
  unfold pushAt
  cases hn : h.nodes.elems[i]? with
  | none =>
    simp only
    split
    · rename_i c
      rw [c.2]
      unfold look
      rw [hn]; rfl
    · rfl
  | some n =>
    simp only [look]
    rw [List.getElem?_set]
    by_cases c : i = j
    · subst c
      have hlt : i < h.nodes.elems.length := by
        rw [List.getElem?_eq_some_iff] at hn; exact hn.1
      rw [if_pos rfl, if_pos hlt, hn]
      simp only [Option.map_some, edges_setEdges, and_true]
      split
      · rename_i c; rw [c]
      · rfl
    · rw [if_neg c, if_neg (fun x => c x.2.symm)]

theorem pushAt_id (p : Policy) (side : Side) (i : Nat) (e : Edge W) (h : Heap ν W) :
    (pushAt p side i e h).nodes.id = h.nodes.id ∧ (pushAt p side i e h).nodes.cap = h.nodes.cap ∧
    (pushAt p side i e h).nodes.elems.length = h.nodes.elems.length ∧ h.fresh ≤ (pushAt p side i e h).fresh := by
  unfold pushAt
  cases h.nodes.elems[i]? with
  | none => simp
  | some n =>
    simp only [List.length_set, true_and]
    unfold Store.push
    split <;> simp

/-- A full vector takes the next number. -/
theorem pushAt_fresh (p : Policy) (side : Side) (i : Nat) (e : Edge W) (h : Heap ν W) (s : Store (Edge W))
    (hs : look h side i = some s) (hf : ¬ s.elems.length < s.cap) : (pushAt p side i e h).fresh = h.fresh + 1 := by
  unfold look at hs
  unfold pushAt
  cases hn : h.nodes.elems[i]? with
  | none => rw [hn] at hs; cases hs
  | some n =>
    rw [hn] at hs
    simp only [Option.map_some, Option.some.injEq] at hs
    simp only [hs, Store.push, if_neg hf]

theorem look_writeAt (r : EdgeRef) (f : Edge W → Edge W) (side : Side) (j : Nat) (h : Heap ν W) :
    look (writeAt r f h) side j =
      if owner h r = some j ∧ side = r.side then
        (look h side j).map (fun s => { s with elems := s.elems.modify r.pos f }) else look h side j := by
  unfold writeAt
  cases ho : owner h r with
  | none => simp
  | some i =>
    simp only [look, Option.some.injEq]
    by_cases c : i = j
    · subst c
      rw [List.getElem?_modify]
      cases h.nodes.elems[i]? with
      | none => simp
      | some n =>
        by_cases cs : side = r.side
        · subst cs; simp [edges_setEdges]
        · simp [edges_setEdges, cs]
    · rw [List.getElem?_modify]
      cases h.nodes.elems[j]? <;> simp [c]

theorem writeAt_id (r : EdgeRef) (f : Edge W → Edge W) (h : Heap ν W) :
    (writeAt r f h).nodes.id = h.nodes.id ∧ (writeAt r f h).nodes.cap = h.nodes.cap ∧
    (writeAt r f h).nodes.elems.length = h.nodes.elems.length ∧ (writeAt r f h).fresh = h.fresh := by
  unfold writeAt
  cases owner h r <;> simp

theorem copyNodes_length (f : Nat) (ns : List (HNode ν W)) : (copyNodes f ns).length = ns.length := by
  induction ns generalizing f with
  | nil => rfl
  | cons n ns ih => simp [copyNodes, ih]

theorem copyNodes_get (f : Nat) (ns : List (HNode ν W)) (j : Nat) :
    (copyNodes f ns)[j]? = (ns[j]?).map (copyNode (f + 2 * j)) := by
  induction ns generalizing f j with
  | nil => simp [copyNodes]
  | cons n ns ih =>
    cases j with
    | zero => simp [copyNodes]
    | succ j =>
      simp only [copyNodes, List.getElem?_cons_succ, ih]
      rw [show f + 2 + 2 * j = f + 2 * (j + 1) by omega]

/-- The number of the copy of a vector, from the number of the first. -/
def copyId (f j : Nat) : Side → Nat
  | .into => f + 2 * j
  | .out => f + 2 * j + 1

theorem copyNode_edges (f : Nat) (n : HNode ν W) (side : Side) :
    (copyNode f n).edges side = ⟨copyId f 0 side, (n.edges side).elems.length, (n.edges side).elems⟩ := by
  cases side <;> rfl

theorem look_relocate (p : Policy) (cap : Nat) (h : Heap ν W) (side : Side) (j : Nat) :
    look (relocate p cap h) side j =
      if p.moves then look h side j
      else (look h side j).map (fun s => ⟨copyId (h.fresh + 1) j side, s.elems.length, s.elems⟩) := by
  unfold relocate look
  split
  · rfl
  · simp only [copyNodes_get, Option.map_map]
    congr 1
    funext n
    simp only [Function.comp, copyNode_edges]
    cases side <;> rfl

theorem relocate_id (p : Policy) (cap : Nat) (h : Heap ν W) :
    (relocate p cap h).nodes.id = h.fresh ∧ (relocate p cap h).nodes.cap = cap ∧
    (relocate p cap h).nodes.elems.length = h.nodes.elems.length ∧ h.fresh < (relocate p cap h).fresh ∧
    (p.moves = false → (relocate p cap h).fresh = h.fresh + 1 + 2 * h.nodes.elems.length) := by
  unfold relocate
  split
  · rename_i c; simp [c]
  · simp only [copyNodes_length, true_and]
    exact ⟨by omega, fun _ => trivial⟩

theorem newNode_edges (f : Nat) (n : Node ν W) (side : Side) :
    ∃ es, (newNode f n).edges side = ⟨copyId f 0 side, es.length, es⟩ := by
  cases side
  · exact ⟨_, rfl⟩
  · exact ⟨_, rfl⟩

theorem look_append (n : Node ν W) (h : Heap ν W) (side : Side) (j : Nat) :
    look (append n h) side j =
      if j = h.nodes.elems.length then some ((newNode h.fresh n).edges side) else look h side j := by
  unfold append look
  split
  · rename_i c; subst c; simp
  · rename_i c
    by_cases hj : j < h.nodes.elems.length
    · simp only [List.getElem?_append_left hj]
    · rw [List.getElem?_append_right (by omega), List.getElem?_eq_none (show h.nodes.elems.length ≤ j by omega),
        List.getElem?_eq_none (by simp; omega)]

theorem look_lt {h : Heap ν W} {side : Side} {j : Nat} {s : Store (Edge W)} (hs : look h side j = some s) :
    j < h.nodes.elems.length := by
  unfold look at hs
  cases hn : h.nodes.elems[j]? with
  | none => rw [hn] at hs; cases hs
  | some n => rw [List.getElem?_eq_some_iff] at hn; exact hn.1

/-! ## Storages have numbers of their own -/

/-- The storages in use have different numbers, all of them used, and their elements fit. -/
structure Good (h : Heap ν W) : Prop where
  node : h.nodes.id < h.fresh
  fits : h.nodes.elems.length ≤ h.nodes.cap
  used : ∀ side j s, look h side j = some s → s.id < h.fresh ∧ s.elems.length ≤ s.cap
  apart : ∀ side j j' s s', look h side j = some s → look h side j' = some s' → s.id = s'.id → j = j'

theorem good_empty (c : Nat) : Good (empty c : Heap ν W) := by
  refine ⟨Nat.one_pos, Nat.zero_le _, ?_, ?_⟩
  · intro side j s h; simp [look, empty] at h
  · intro side j j' s s' h; simp [look, empty] at h

/-- One change of the storages. -/
inductive Change (p : Policy) : Heap ν W → Heap ν W → Prop where
  | edge (side : Side) (i : Nat) (e : Edge W) (h : Heap ν W) : Change p h (pushAt p side i e h)
  | node (n : Node ν W) (h : Heap ν W) : Change p h (append n (room p h))
  | write (r : EdgeRef) (f : Edge W → Edge W) (h : Heap ν W) : Change p h (writeAt r f h)

theorem push_id (p : Policy) (f : Nat) (s : Store (Edge W)) (e : Edge W) :
    (s.push p f e).1 = if s.elems.length < s.cap then { s with elems := s.elems ++ [e] }
      else ⟨f, p.grow s.elems.length, s.elems ++ [e]⟩ := by
  unfold Store.push
  split <;> rfl

theorem Good.pushAt {p : Policy} (hp : ∀ n, n < p.grow n) {h : Heap ν W} (g : Good h) (side : Side) (i : Nat)
    (e : Edge W) : Good (pushAt p side i e h) := by
  obtain ⟨i1, i2, i3, i4⟩ := pushAt_id p side i e h
  have new : ∀ side' j s, look (References.pushAt p side i e h) side' j = some s →
      ∃ t, look h side' j = some t ∧
        (s = t ∨ (side' = side ∧ j = i ∧ t.elems.length < t.cap ∧ s = { t with elems := t.elems ++ [e] }) ∨
        (side' = side ∧ j = i ∧ ¬ t.elems.length < t.cap ∧
          s = ⟨h.fresh, p.grow t.elems.length, t.elems ++ [e]⟩ ∧
          (References.pushAt p side i e h).fresh = h.fresh + 1)) := by
    intro side' j s hs
    rw [look_pushAt] at hs
    split at hs
    · rename_i c
      cases ht : look h side' j with
      | none => rw [ht] at hs; cases hs
      | some t =>
        rw [ht] at hs
        simp only [Option.map_some, Option.some.injEq] at hs
        refine ⟨t, rfl, ?_⟩
        rw [push_id] at hs
        split at hs
        · rename_i ct; exact .inr (.inl ⟨c.1, c.2, ct, hs.symm⟩)
        · rename_i ct
          refine .inr (.inr ⟨c.1, c.2, ct, hs.symm, ?_⟩)
          rw [c.1, c.2] at ht
          exact pushAt_fresh p side i e h t ht ct
    · exact ⟨s, hs, .inl rfl⟩
  refine ⟨by have := g.node; omega, by have := g.fits; omega, ?_, ?_⟩
  · intro side' j s hs
    obtain ⟨t, ht, c⟩ := new side' j s hs
    obtain ⟨u1, u2⟩ := g.used side' j t ht
    rcases c with rfl | ⟨_, _, ct, rfl⟩ | ⟨_, _, ct, rfl, hf⟩
    · exact ⟨by omega, u2⟩
    · refine ⟨?_, ?_⟩
      · show t.id < _; omega
      · simp only [List.length_append, List.length_cons, List.length_nil]; omega
    · refine ⟨?_, ?_⟩
      · show h.fresh < _; omega
      · have := hp t.elems.length
        simp only [List.length_append, List.length_cons, List.length_nil]; omega
  · intro side' j j' s s' hs hs' he
    obtain ⟨t, ht, c⟩ := new side' j s hs
    obtain ⟨t', ht', c'⟩ := new side' j' s' hs'
    have u := (g.used side' j t ht).1
    have u' := (g.used side' j' t' ht').1
    have same : t.id = t'.id → j = j' := g.apart side' j j' t t' ht ht'
    rcases c with rfl | ⟨_, _, ct, rfl⟩ | ⟨_, hj, ct, rfl, hf⟩ <;>
      rcases c' with rfl | ⟨_, _, ct', rfl⟩ | ⟨_, hj', ct', rfl, hf'⟩ <;>
      (try simp only at he) <;> first | exact same he | omega

theorem Good.writeAt {h : Heap ν W} (g : Good h) (r : EdgeRef) (f : Edge W → Edge W) : Good (writeAt r f h) := by
  obtain ⟨i1, i2, i3, i4⟩ := writeAt_id r f h
  have new : ∀ side' j s, look (References.writeAt r f h) side' j = some s →
      ∃ t, look h side' j = some t ∧ s.id = t.id ∧ s.cap = t.cap ∧ s.elems.length = t.elems.length := by
    intro side' j s hs
    rw [look_writeAt] at hs
    split at hs
    · cases ht : look h side' j with
      | none => rw [ht] at hs; cases hs
      | some t =>
        rw [ht] at hs
        simp only [Option.map_some, Option.some.injEq] at hs
        subst hs
        exact ⟨t, rfl, rfl, rfl, by simp⟩
    · exact ⟨s, hs, rfl, rfl, rfl⟩
  refine ⟨by rw [i1, i4]; exact g.node, by rw [i2, i3]; exact g.fits, ?_, ?_⟩
  · intro side' j s hs
    obtain ⟨t, ht, a, b, c⟩ := new side' j s hs
    have := g.used side' j t ht
    rw [a, b, c, i4]; exact this
  · intro side' j j' s s' hs hs' he
    obtain ⟨t, ht, a, _, _⟩ := new side' j s hs
    obtain ⟨t', ht', a', _, _⟩ := new side' j' s' hs'
    exact g.apart side' j j' t t' ht ht' (by rw [← a, ← a', he])

theorem copyId_inj (f j j' : Nat) (side : Side) (h : copyId f j side = copyId f j' side) : j = j' := by
  cases side <;> simp only [copyId] at h <;> omega

theorem copyId_bound (f j : Nat) (side : Side) : f + 2 * j ≤ copyId f j side ∧ copyId f j side ≤ f + 2 * j + 1 := by
  cases side <;> simp only [copyId] <;> omega

theorem Good.relocate {p : Policy} {h : Heap ν W} (g : Good h) (cap : Nat) (hc : h.nodes.elems.length ≤ cap) :
    Good (relocate p cap h) := by
  obtain ⟨i1, i2, i3, i4, i5⟩ := relocate_id p cap h
  refine ⟨by omega, by omega, ?_, ?_⟩
  · intro side j s hs
    rw [look_relocate] at hs
    split at hs
    · have := g.used side j s hs; exact ⟨by omega, this.2⟩
    · rename_i cm
      cases ht : look h side j with
      | none => rw [ht] at hs; cases hs
      | some t =>
        rw [ht] at hs
        simp only [Option.map_some, Option.some.injEq] at hs
        subst hs
        have hj := look_lt ht
        have := copyId_bound (h.fresh + 1) j side
        have hm : p.moves = false := by simpa using cm
        have := i5 hm
        exact ⟨by show copyId _ _ _ < _; omega, Nat.le_refl _⟩
  · intro side j j' s s' hs hs' he
    rw [look_relocate] at hs hs'
    split at hs
    · rename_i cm; rw [if_pos cm] at hs'
      exact g.apart side j j' s s' hs hs' he
    · rename_i cm; rw [if_neg cm] at hs'
      cases ht : look h side j with
      | none => rw [ht] at hs; cases hs
      | some t =>
        cases ht' : look h side j' with
        | none => rw [ht'] at hs'; cases hs'
        | some t' =>
          rw [ht] at hs; rw [ht'] at hs'
          simp only [Option.map_some, Option.some.injEq] at hs hs'
          subst hs; subst hs'
          exact copyId_inj _ _ _ _ he

theorem Good.room {p : Policy} (hp : ∀ n, n < p.grow n) {h : Heap ν W} (g : Good h) :
    Good (room p h) ∧ (room p h).nodes.elems.length < (room p h).nodes.cap ∧
      (room p h).nodes.elems.length = h.nodes.elems.length ∧ h.fresh ≤ (room p h).fresh := by
  unfold References.room
  split
  · rename_i c; exact ⟨g, c, rfl, Nat.le_refl _⟩
  · have := hp h.nodes.elems.length
    obtain ⟨i1, i2, i3, i4, i5⟩ := relocate_id p (p.grow h.nodes.elems.length) h
    exact ⟨g.relocate _ (by omega), by omega, i3, by omega⟩

theorem Good.append {h : Heap ν W} (g : Good h) (n : Node ν W) (hl : h.nodes.elems.length < h.nodes.cap) :
    Good (append n h) := by
  have hid : (References.append n h).nodes.id = h.nodes.id := rfl
  have hf : (References.append n h).fresh = h.fresh + 2 := rfl
  have new : ∀ side j s, look (References.append n h) side j = some s →
      (look h side j = some s ∧ j < h.nodes.elems.length) ∨
      (j = h.nodes.elems.length ∧ ∃ es : List (Edge W), s = ⟨copyId h.fresh 0 side, es.length, es⟩) := by
    intro side j s hs
    rw [look_append] at hs
    split at hs
    · rename_i c
      obtain ⟨es, he⟩ := newNode_edges (ν := ν) h.fresh n side
      rw [he] at hs
      simp only [Option.some.injEq] at hs
      exact .inr ⟨c, es, hs.symm⟩
    · exact .inl ⟨hs, look_lt hs⟩
  refine ⟨by rw [hid, hf]; have := g.node; omega, ?_, ?_, ?_⟩
  · show (h.nodes.elems ++ _).length ≤ h.nodes.cap
    simp only [List.length_append, List.length_cons, List.length_nil]; omega
  · intro side j s hs
    rcases new side j s hs with ⟨hs, _⟩ | ⟨_, es, rfl⟩
    · have := g.used side j s hs; exact ⟨by omega, this.2⟩
    · have := copyId_bound h.fresh 0 side
      exact ⟨by show copyId _ _ _ < _; omega, Nat.le_refl _⟩
  · intro side j j' s s' hs hs' he
    have b := copyId_bound h.fresh 0 side
    rcases new side j s hs with ⟨hs, _⟩ | ⟨c, es, rfl⟩ <;>
      rcases new side j' s' hs' with ⟨hs', _⟩ | ⟨c', es', rfl⟩
    · exact g.apart side j j' s s' hs hs' he
    · have := (g.used side j s hs).1
      simp only at he; omega
    · have := (g.used side j' s' hs').1
      simp only at he; omega
    · omega

theorem Good.change {p : Policy} (hp : ∀ n, n < p.grow n) {h h' : Heap ν W} (g : Good h) (c : Change p h h') :
    Good h' := by
  cases c with
  | edge side i e => exact g.pushAt hp side i e
  | node n => obtain ⟨a, b, _, _⟩ := g.room hp; exact a.append n b
  | write r f => exact g.writeAt r f

/-! ## Where a reference leads -/

theorem owner_of_look {h : Heap ν W} (g : Good h) {r : EdgeRef} {i : Nat} {s : Store (Edge W)}
    (hs : look h r.side i = some s) (hr : s.id = r.store) : owner h r = some i := by
  unfold owner
  rw [List.findIdx?_eq_some_iff_getElem]
  refine ⟨look_lt hs, ?_, ?_⟩
  · unfold look at hs
    rw [List.getElem?_eq_getElem (look_lt (side := r.side) (s := s) hs)] at hs
    simp only [Option.map_some, Option.some.injEq] at hs
    simp [hs, hr]
  · intro j hj
    have hl := look_lt hs
    simp only [beq_iff_eq]
    intro he
    have : look h r.side j = some (h.nodes.elems[j].edges r.side) := by
      unfold look; rw [List.getElem?_eq_getElem (by omega)]; rfl
    have := g.apart r.side j i _ s this hs (by rw [he, hr])
    omega

theorem owner_none {h : Heap ν W} {r : EdgeRef}
    (hn : ∀ j s, look h r.side j = some s → s.id ≠ r.store) : owner h r = none := by
  unfold owner
  rw [List.findIdx?_eq_none_iff]
  intro n hmem
  obtain ⟨j, hj, rfl⟩ := List.mem_iff_getElem.1 hmem
  have : look h r.side j = some (h.nodes.elems[j].edges r.side) := by
    unfold look; rw [List.getElem?_eq_getElem hj]; rfl
  simpa using hn j _ this

theorem readEdge_of_look {h : Heap ν W} (g : Good h) {r : EdgeRef} {i : Nat} {s : Store (Edge W)}
    (hs : look h r.side i = some s) (hr : s.id = r.store) :
    readEdge h r = match s.elems[r.pos]? with
      | none => .ub
      | some e => .ok e := by
  unfold readEdge
  rw [owner_of_look g hs hr]
  unfold look at hs
  cases hn : h.nodes.elems[i]? with
  | none => rw [hn] at hs; cases hs
  | some n =>
    rw [hn] at hs
    simp only [Option.map_some, Option.some.injEq] at hs
    subst hs
    simp only [hn]
    rfl

theorem readEdge_none {h : Heap ν W} {r : EdgeRef}
    (hn : ∀ j s, look h r.side j = some s → s.id ≠ r.store) : readEdge h r = .ub := by
  unfold readEdge
  rw [owner_none hn]

/-! ## A reference that is kept -/

/-- What holds of the vector with number `id` and capacity `cap` of node `i`, and of the storage of the nodes with
number `nid` and capacity `ncap`, from some moment on. -/
structure Track (p : Policy) (side : Side) (i k id cap nid ncap : Nat) (h : Heap ν W) : Prop where
  good : Good h
  idUsed : id < h.fresh
  nidUsed : nid < h.fresh
  here : ∃ s, look h side i = some s ∧ k < s.elems.length ∧
    (s.elems.length ≤ cap ∧ (p.moves = true ∨ h.nodes.elems.length ≤ ncap) → s.id = id ∧ s.cap = cap) ∧
    (¬ (s.elems.length ≤ cap ∧ (p.moves = true ∨ h.nodes.elems.length ≤ ncap)) →
      ∀ j t, look h side j = some t → t.id ≠ id)
  nodes : (h.nodes.elems.length ≤ ncap → h.nodes.id = nid ∧ h.nodes.cap = ncap) ∧
    (ncap < h.nodes.elems.length → h.nodes.id ≠ nid)

theorem Track.pushAt {p : Policy} (hp : ∀ n, n < p.grow n) {side : Side} {i k id cap nid ncap : Nat} {h : Heap ν W}
    (t : Track p side i k id cap nid ncap h) (side' : Side) (i' : Nat) (e : Edge W) :
    Track p side i k id cap nid ncap (pushAt p side' i' e h) := by
  obtain ⟨i1, i2, i3, i4⟩ := pushAt_id p side' i' e h
  refine ⟨t.good.pushAt hp side' i' e, by have := t.idUsed; omega, by have := t.nidUsed; omega, ?_, ?_⟩
  · obtain ⟨s, hs, hk, yes, no⟩ := t.here
    have used := t.idUsed
    have fit := (t.good.used side i s hs).2
    by_cases c : side = side' ∧ i = i'
    · obtain ⟨rfl, rfl⟩ := c
      refine ⟨(s.push p h.fresh e).1, by rw [look_pushAt, if_pos ⟨rfl, rfl⟩, hs]; rfl, ?_, ?_, ?_⟩
      · rw [push_id]; split <;> simp only [List.length_append, List.length_cons, List.length_nil] <;> omega
      · rw [push_id, i3]
        split
        · simp only [List.length_append, List.length_cons, List.length_nil]
          intro c; exact yes ⟨by omega, c.2⟩
        · simp only [List.length_append, List.length_cons, List.length_nil]
          intro c
          have := yes ⟨by omega, c.2⟩
          omega
      · rw [i3]
        intro c j u hu
        rw [look_pushAt] at hu
        by_cases cj : j = i
        · subst cj
          rw [if_pos ⟨rfl, rfl⟩, hs] at hu
          simp only [Option.map_some, Option.some.injEq] at hu
          subst hu
          rw [push_id] at c ⊢
          split
          · rename_i cl
            rw [if_pos cl] at c
            simp only [List.length_append, List.length_cons, List.length_nil] at c
            by_cases cc : s.elems.length ≤ cap ∧ (p.moves = true ∨ h.nodes.elems.length ≤ ncap)
            · have := yes cc
              exact absurd ⟨by omega, cc.2⟩ c
            · exact no cc j s hs
          · show h.fresh ≠ id; omega
        · rw [if_neg (fun x => cj x.2)] at hu
          by_cases cc : s.elems.length ≤ cap ∧ (p.moves = true ∨ h.nodes.elems.length ≤ ncap)
          · intro hid
            exact cj (t.good.apart side j i u s hu hs (by rw [hid, (yes cc).1]))
          · exact no cc j u hu
    · refine ⟨s, by rw [look_pushAt, if_neg c, hs], hk, by rw [i3]; exact yes, ?_⟩
      rw [i3]
      intro cc j u hu
      rw [look_pushAt] at hu
      split at hu
      · cases hv : look h side j with
        | none => rw [hv] at hu; cases hu
        | some v =>
          rw [hv] at hu
          simp only [Option.map_some, Option.some.injEq] at hu
          subst hu
          rw [push_id]
          split
          · exact no cc j v hv
          · show h.fresh ≠ id; omega
      · exact no cc j u hu
  · rw [i1, i2, i3]; exact t.nodes

theorem Track.writeAt {p : Policy} {side : Side} {i k id cap nid ncap : Nat} {h : Heap ν W}
    (t : Track p side i k id cap nid ncap h) (r : EdgeRef) (f : Edge W → Edge W) :
    Track p side i k id cap nid ncap (writeAt r f h) := by
  obtain ⟨i1, i2, i3, i4⟩ := writeAt_id r f h
  refine ⟨t.good.writeAt r f, by rw [i4]; exact t.idUsed, by rw [i4]; exact t.nidUsed, ?_, ?_⟩
  · obtain ⟨s, hs, hk, yes, no⟩ := t.here
    have no' : ¬ (s.elems.length ≤ cap ∧ (p.moves = true ∨ h.nodes.elems.length ≤ ncap)) →
        ∀ j u, look (References.writeAt r f h) side j = some u → u.id ≠ id := by
      intro cc j u hu
      rw [look_writeAt] at hu
      split at hu
      · cases hv : look h side j with
        | none => rw [hv] at hu; cases hu
        | some v =>
          rw [hv] at hu
          simp only [Option.map_some, Option.some.injEq] at hu
          subst hu
          exact no cc j v hv
      · exact no cc j u hu
    by_cases c : owner h r = some i ∧ side = r.side
    · refine ⟨{ s with elems := s.elems.modify r.pos f }, by rw [look_writeAt, if_pos c, hs]; rfl, ?_, ?_, ?_⟩
      · simp only [List.length_modify]; exact hk
      · simp only [List.length_modify, i3]; exact yes
      · simp only [List.length_modify, i3]; exact no'
    · exact ⟨s, by rw [look_writeAt, if_neg c, hs], hk, by rw [i3]; exact yes, by rw [i3]; exact no'⟩
  · rw [i1, i2, i3]; exact t.nodes

theorem Track.node {p : Policy} (hp : ∀ n, n < p.grow n) {side : Side} {i k id cap nid ncap : Nat} {h : Heap ν W}
    (t : Track p side i k id cap nid ncap h) (n : Node ν W) :
    Track p side i k id cap nid ncap (append n (room p h)) := by
  obtain ⟨gr, hl, he, hf⟩ := t.good.room hp
  have hlen : (append n (room p h)).nodes.elems.length = h.nodes.elems.length + 1 := by
    show ((room p h).nodes.elems ++ _).length = _
    simp only [List.length_append, List.length_cons, List.length_nil]; omega
  have hfr : (append n (room p h)).fresh = (room p h).fresh + 2 := rfl
  have fits := t.good.fits
  have idu := t.idUsed
  have nidu := t.nidUsed
  refine ⟨gr.append n hl, by omega, by omega, ?_, ?_⟩
  · obtain ⟨s, hs, hk, yes, no⟩ := t.here
    have hi := look_lt hs
    -- the vector of node `i` afterwards
    have key : ∀ j, j < h.nodes.elems.length → look (append n (room p h)) side j =
        if h.nodes.elems.length < h.nodes.cap ∨ p.moves = true then look h side j
        else (look h side j).map (fun s => ⟨copyId (h.fresh + 1) j side, s.elems.length, s.elems⟩) := by
      intro j hj
      rw [look_append, if_neg (by omega)]
      unfold room
      split
      · rename_i c; rw [if_pos (.inl c)]
      · rename_i c
        rw [look_relocate]
        by_cases cm : p.moves = true
        · rw [if_pos cm, if_pos (.inr cm)]
        · rw [if_neg cm, if_neg (by rintro (x | x); exact c x; exact cm x)]
    have last : ∀ j u, ¬ j < h.nodes.elems.length → look (append n (room p h)) side j = some u → u.id ≠ id := by
      intro j u hj hu
      have := look_lt hu
      have hj' : j = (room p h).nodes.elems.length := by omega
      rw [look_append, if_pos hj'] at hu
      obtain ⟨es, hes⟩ := newNode_edges (ν := ν) (room p h).fresh n side
      rw [hes] at hu
      simp only [Option.some.injEq] at hu
      subst hu
      have := copyId_bound (room p h).fresh 0 side
      show copyId _ _ _ ≠ id
      omega
    by_cases cr : h.nodes.elems.length < h.nodes.cap ∨ p.moves = true
    · have ki := key i hi
      rw [if_pos cr, hs] at ki
      refine ⟨s, ki, hk, ?_, ?_⟩
      · rw [hlen]
        rintro ⟨a, b⟩
        exact yes ⟨a, by rcases b with b | b; exact .inl b; exact .inr (by omega)⟩
      · rw [hlen]
        intro c j u hu
        by_cases hj : j < h.nodes.elems.length
        · rw [key j hj, if_pos cr] at hu
          by_cases cc : s.elems.length ≤ cap ∧ (p.moves = true ∨ h.nodes.elems.length ≤ ncap)
          · exfalso
            apply c
            refine ⟨cc.1, ?_⟩
            rcases cr with cr | cr
            · rcases cc.2 with m | m
              · exact .inl m
              · have := (t.nodes.1 m).2
                exact .inr (by omega)
            · exact .inl cr
          · exact no cc j u hu
        · exact last j u hj hu
    · have ki := key i hi
      rw [if_neg cr, hs] at ki
      have hfull : ¬ h.nodes.elems.length < h.nodes.cap := fun x => cr (.inl x)
      have hm : ¬ p.moves = true := fun x => cr (.inr x)
      refine ⟨_, ki, hk, ?_, ?_⟩
      · rw [hlen]
        rintro ⟨a, b | b⟩
        · exact absurd b hm
        · have := (t.nodes.1 (by omega)).2
          omega
      · intro _ j u hu
        by_cases hj : j < h.nodes.elems.length
        · rw [key j hj, if_neg cr] at hu
          cases hv : look h side j with
          | none => rw [hv] at hu; cases hu
          | some v =>
            rw [hv] at hu
            simp only [Option.map_some, Option.some.injEq] at hu
            subst hu
            have := copyId_bound (h.fresh + 1) j side
            show copyId _ _ _ ≠ id
            omega
        · exact last j u hj hu
  · rw [hlen]
    have hid : (append n (room p h)).nodes.id = (room p h).nodes.id := rfl
    have hcap : (append n (room p h)).nodes.cap = (room p h).nodes.cap := rfl
    rw [hid, hcap]
    unfold room
    by_cases c : h.nodes.elems.length < h.nodes.cap
    · rw [if_pos c]
      refine ⟨fun a => t.nodes.1 (by omega), fun a => ?_⟩
      by_cases cn : h.nodes.elems.length ≤ ncap
      · have := (t.nodes.1 cn).2; omega
      · exact t.nodes.2 (by omega)
    · rw [if_neg c]
      obtain ⟨r1, r2, _⟩ := relocate_id p (p.grow h.nodes.elems.length) h
      rw [r1]
      refine ⟨fun a => ?_, fun _ => by omega⟩
      have := (t.nodes.1 (by omega)).2
      omega

theorem Track.change {p : Policy} (hp : ∀ n, n < p.grow n) {side : Side} {i k id cap nid ncap : Nat} {h h' : Heap ν W}
    (t : Track p side i k id cap nid ncap h) (c : Change p h h') : Track p side i k id cap nid ncap h' := by
  cases c with
  | edge side' i' e => exact t.pushAt hp side' i' e
  | node n => exact t.node hp n
  | write r f => exact t.writeAt r f

/-! ## The operations change the storages one step at a time -/

/-- Something that no change destroys holds after an operation. -/
def Kept (p : Policy) (P : Heap ν W → Prop) : Prop := ∀ h h', P h → Change p h h' → P h'

theorem addEdgeTo_state {p : Policy} (r : NodeRef) (side : Side) (e : Edge W) (h : Heap ν W) :
    (addEdgeTo p r side e h).2 = h ∨ (addEdgeTo p r side e h).2 = pushAt p side r.pos e h := by
  unfold addEdgeTo
  simp only [M.bind_get]
  cases readNode h r with
  | ok n => right; rfl
  | throws e => left; rfl
  | abort => left; rfl
  | ub => left; rfl

theorem Kept.bind {P : Heap ν W → Prop} {α β : Type} (x : M (Heap ν W) α) (f : α → M (Heap ν W) β)
    (hx : ∀ h, P h → P (x h).2) (hf : ∀ a h, P h → P (f a h).2) (h : Heap ν W) (hh : P h) : P ((x >>= f) h).2 := by
  rw [M.bind_apply]
  have := hx h hh
  split
  all_goals (rename_i he; rw [he] at this)
  · exact hf _ _ this
  all_goals exact this

theorem Kept.addEdgeTo {p : Policy} {P : Heap ν W → Prop} (k : Kept p P) (r : NodeRef) (side : Side) (e : Edge W)
    (h : Heap ν W) (hh : P h) : P (addEdgeTo p r side e h).2 := by
  rcases addEdgeTo_state (p := p) r side e h with c | c <;> rw [c]
  · exact hh
  · exact k _ _ hh (.edge side r.pos e h)

theorem Kept.addEdgeBetweenNodes {p : Policy} {P : Heap ν W → Prop} (k : Kept p P) (i j : Int) (w : W)
    (h : Heap ν W) (hh : P h) : P (addEdgeBetweenNodes p i j w h).2 := by
  unfold References.addEdgeBetweenNodes
  refine Kept.bind _ _ (fun h hh => hh) (fun _ => ?_) h hh
  refine Kept.bind _ _ (fun h hh => hh) (fun _ => ?_)
  refine Kept.bind _ _ (fun h hh => hh) (fun _ => ?_)
  intro h hh
  split
  · exact hh
  · refine Kept.bind _ _ (k.addEdgeTo _ _ _) (fun _ => ?_) h hh
    refine Kept.bind _ _ (k.addEdgeTo _ _ _) (fun _ => ?_)
    refine Kept.bind _ _ (fun h hh => hh) (fun _ => ?_)
    exact Kept.bind _ _ (fun h hh => hh) (fun _ h hh => hh)

theorem Kept.step {p : Policy} {P : Heap ν W → Prop} (k : Kept p P) (op : Op ν W) (h : Heap ν W) (hh : P h) :
    P (step p op h).2 := by
  cases op with
  | addNode n => exact k _ _ hh (.node n h)
  | addEdge i j w => exact Kept.bind _ _ (k.addEdgeBetweenNodes i j w) (fun _ h hh => hh) h hh
  | addEdges i j w =>
    refine Kept.bind _ _ ?_ (fun _ h hh => hh) h hh
    unfold addEdgesBetweenNodes
    refine Kept.bind _ _ (k.addEdgeBetweenNodes i j w) (fun _ => ?_)
    refine Kept.bind _ _ (k.addEdgeBetweenNodes j i w) (fun _ => ?_)
    refine Kept.bind _ _ (fun h hh => hh) (fun _ => ?_)
    refine Kept.bind _ _ (fun h hh => hh) (fun _ => ?_)
    exact Kept.bind _ _ (fun h hh => hh) (fun _ h hh => hh)
  | setEdge r f =>
    show P (writeEdge r f h).2
    unfold writeEdge
    simp only [M.bind_get]
    cases readEdge h r with
    | ok n => exact k _ _ hh (.write r f h)
    | throws e => exact hh
    | abort => exact hh
    | ub => exact hh

theorem Kept.run {p : Policy} {P : Heap ν W → Prop} (k : Kept p P) (ops : List (Op ν W)) (h h' : Heap ν W)
    (hh : P h) (e : run p ops h = .ok h') : P h' := by
  induction ops generalizing h with
  | nil => injection e with e; rw [← e]; exact hh
  | cons op ops ih =>
    have hs := k.step op h hh
    unfold References.run at e
    split at e
    · rename_i he; rw [he] at hs; exact ih _ hs e
    · rename_i he; rw [he] at hs; exact ih _ hs e
    · cases e
    · cases e

end Verif.Graph.References
