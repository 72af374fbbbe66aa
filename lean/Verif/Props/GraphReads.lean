import Verif.Lemmas.GraphReads

/-!
# Property C167 (graph.hpp, dijkstras.hpp): edges changed through a reference, and which search sees it
-/
namespace Verif.Graph
open Verif

variable {ν μ W : Type}

/-- C167: a setter applied to the edge `getEdge(i, j)` returns changes that element of the out list of node
`i` and nothing else: neither another node nor the copy of the edge in the in list of node `j`. When `getEdge`
throws, nothing changes. -/
theorem C167_change (g : Graph ν W) (i j : Int) (f : Edge W → Edge W) :
    (∀ n k e, NodeAt g i n → FirstTo n j k e → ∃ g', changeEdge i j f g = (.ok (), g') ∧
      g'.length = g.length ∧ NodeAt g' i { n with outEdges := n.outEdges.set k (f e) } ∧
      ∀ v m, v ≠ i → NodeAt g v m → NodeAt g' v m) ∧
    (∀ x, getEdge g i j = .throws x → changeEdge i j f g = (.throws x, g)) ∧
    (∀ e : Edge W, changeReverseEdge e f g = changeEdge e.toIndex e.fromIndex f g) := by
  refine ⟨?_, ?_, fun e => rfl⟩
  · intro n k e hn h
    refine ⟨_, changeEdge_first hn h f, by simp, ?_, ?_⟩
    · refine ⟨hn.1, ?_⟩
      rw [List.getElem?_modify, hn.2]
      simp [modify_at h.at_]
    · intro v m hv hm
      refine ⟨hm.1, ?_⟩
      have : i.toNat ≠ v.toNat := by have := hn.1; have := hm.1; omega
      rw [List.getElem?_modify, hm.2]
      simp [this]
  · intro x hx
    by_cases hi : 0 ≤ i ∧ i < (g.length : Int)
    · obtain ⟨n, hn⟩ := nodeAt_of_range hi.1 hi.2
      by_cases hex : ∃ e ∈ n.outEdges, e.toIndex = j
      · obtain ⟨k, e, h⟩ := firstTo_exists hex
        rw [getEdge_first hn h] at hx
        cases hx
      · have hno : ∀ e ∈ n.outEdges, e.toIndex ≠ j := fun e he h => hex ⟨e, he, h⟩
        have hf := findEdgeTo_none j n.outEdges 0 hno
        unfold getEdge Node.getEdgeTo at hx
        rw [getNode_at hn, Out.bind_ok, hf] at hx
        injection hx with hx
        subst hx
        unfold changeEdge Node.getEdgeTo
        simp [getNode_at hn, hf]
    · unfold getEdge at hx
      rw [getNode_bad hi] at hx
      injection hx with hx
      subst hx
      unfold changeEdge
      simp [getNode_bad hi]

/-- C167: the new weight or validity is what `getEdge` then returns, with `isValid` and `isInvalid` saying
whether the validity is VALID or INVALID; a new edge is neither. -/
theorem C167_seen (g : Graph ν W) (i j : Int) (e : Edge W) (he : getEdge g i j = .ok e) (w : W) (v : Validity) :
    getEdge (changeEdge i j (Edge.setWeight w) g).2 i j = .ok { e with weight := w } ∧
    getEdge (changeEdge i j (Edge.setValidity v) g).2 i j = .ok { e with validity := v } ∧
    (({ e with validity := v } : Edge W).isValid = true ↔ v = 0#32) ∧
    (({ e with validity := v } : Edge W).isInvalid = true ↔ v = 1#32) ∧
    (Edge.make i j w).isValid = false ∧ (Edge.make i j w).isInvalid = false := by
  have key : ∀ f : Edge W → Edge W, (∀ x, (f x).toIndex = x.toIndex) →
      getEdge (changeEdge i j f g).2 i j = .ok (f e) := by
    intro f hf
    by_cases hi : 0 ≤ i ∧ i < (g.length : Int)
    · obtain ⟨n, hn⟩ := nodeAt_of_range hi.1 hi.2
      by_cases hex : ∃ e ∈ n.outEdges, e.toIndex = j
      · obtain ⟨k, e', h⟩ := firstTo_exists hex
        rw [getEdge_first hn h] at he
        injection he with he
        subst he
        obtain ⟨g', h1, _, h3, _⟩ := (C167_change g i j f).1 n k e' hn h
        rw [h1]
        refine getEdge_first h3 (k := k) ⟨?_, ?_, ?_⟩
        · have := (List.getElem?_eq_some_iff.1 h.at_).1
          simp [this]
        · rw [hf]; exact h.to_
        · intro k' e2 hk he2
          simp only [List.getElem?_set] at he2
          rw [if_neg (by omega)] at he2
          exact h.first k' e2 hk he2
      · have hno : ∀ e ∈ n.outEdges, e.toIndex ≠ j := fun e he h => hex ⟨e, he, h⟩
        unfold getEdge Node.getEdgeTo at he
        rw [getNode_at hn, Out.bind_ok, findEdgeTo_none j _ 0 hno] at he
        cases he
    · unfold getEdge at he
      rw [getNode_bad hi] at he
      cases he
  refine ⟨key _ fun _ => rfl, key _ fun _ => rfl, ?_, ?_, rfl, rfl⟩
  · simp [Edge.isValid, VALID]
  · simp [Edge.isInvalid, INVALID]

/-- C167: `CheckGraphLinkage` says the same before and after such a change. -/
theorem C167_linkage (g : Graph ν W) (i j : Int) (w : W) (v : Validity) (hl : Linked g) :
    Linked (changeEdge i j (Edge.setWeight w) g).2 ∧ Linked (changeEdge i j (Edge.setValidity v) g).2 := by
  have key : ∀ f : Edge W → Edge W, (∀ x, (f x).toIndex = x.toIndex ∧ (f x).fromIndex = x.fromIndex) →
      Linked (changeEdge i j f g).2 := by
    intro f hf
    by_cases hi : 0 ≤ i ∧ i < (g.length : Int)
    · obtain ⟨n, hn⟩ := nodeAt_of_range hi.1 hi.2
      by_cases hex : ∃ e ∈ n.outEdges, e.toIndex = j
      · obtain ⟨k, e', h⟩ := firstTo_exists hex
        obtain ⟨g', h1, h2, h3, h4⟩ := (C167_change g i j f).1 n k e' hn h
        rw [h1]
        have hset : ∀ x ∈ n.outEdges.set k (f e'), ∃ y ∈ n.outEdges, x.toIndex = y.toIndex ∧
            x.fromIndex = y.fromIndex := by
          intro x hx
          rcases List.mem_or_eq_of_mem_set hx with hx | rfl
          · exact ⟨x, hx, rfl, rfl⟩
          · exact ⟨e', List.mem_of_getElem? h.at_, hf e'⟩
        have hset' : ∀ y ∈ n.outEdges, ∃ x ∈ n.outEdges.set k (f e'), x.toIndex = y.toIndex := by
          intro y hy
          obtain ⟨a, ha⟩ := List.getElem?_of_mem hy
          by_cases hak : k = a
          · subst hak
            rw [h.at_] at ha
            injection ha with ha
            subst ha
            refine ⟨f e', List.mem_of_getElem? (i := k) ?_, (hf e').1⟩
            have := (List.getElem?_eq_some_iff.1 h.at_).1
            simp [this]
          · refine ⟨y, List.mem_of_getElem? (i := a) ?_, rfl⟩
            simp [hak, ha]
        have hat : ∀ u m', NodeAt g' u m' → ∃ m, NodeAt g u m ∧ m'.inEdges = m.inEdges ∧
            (∀ x ∈ m'.outEdges, ∃ y ∈ m.outEdges, x.toIndex = y.toIndex ∧ x.fromIndex = y.fromIndex) := by
          intro u m' hm'
          by_cases hu : u = i
          · subst hu
            rw [hm'.unique h3]
            exact ⟨n, hn, rfl, hset⟩
          · have hr := hm'.range
            rw [h2] at hr
            obtain ⟨m, hm⟩ := nodeAt_of_range hr.1 hr.2
            rw [hm'.unique (h4 u m hu hm)]
            exact ⟨m, hm, rfl, fun x hx => ⟨x, hx, rfl, rfl⟩⟩
        have hto : ∀ u m, NodeAt g u m → ∃ m', NodeAt g' u m' ∧ m'.inEdges = m.inEdges ∧
            (∀ y ∈ m.outEdges, ∃ x ∈ m'.outEdges, x.toIndex = y.toIndex) := by
          intro u m hm
          by_cases hu : u = i
          · subst hu
            rw [hm.unique hn]
            exact ⟨_, h3, rfl, hset'⟩
          · exact ⟨m, h4 u m hu hm, rfl, fun x hx => ⟨x, hx, rfl⟩⟩
        intro u m' hm'
        obtain ⟨m, hm, hin, hout⟩ := hat u m' hm'
        obtain ⟨l1, l2⟩ := hl u m hm
        refine ⟨?_, ?_⟩
        · rw [hin]
          intro x hx
          obtain ⟨a, b, p, hp, y, hy, hyu⟩ := l1 x hx
          obtain ⟨p', hp', _, hpo⟩ := hto _ p hp
          obtain ⟨z, hz, hzy⟩ := hpo y hy
          exact ⟨a, b, p', hp', z, hz, by rw [hzy]; exact hyu⟩
        · intro x hx
          obtain ⟨y, hy, e1, e2⟩ := hout x hx
          obtain ⟨a, b, p, hp, z, hz, hzu⟩ := l2 y hy
          obtain ⟨p', hp', hpi, _⟩ := hto _ p hp
          rw [e1, e2]
          exact ⟨a, b, p', hp', z, by rw [hpi]; exact hz, hzu⟩
      · have hno : ∀ e ∈ n.outEdges, e.toIndex ≠ j := fun e he h => hex ⟨e, he, h⟩
        unfold changeEdge Node.getEdgeTo
        simp [getNode_at hn, findEdgeTo_none j _ 0 hno]
        exact hl
    · unfold changeEdge
      simp [getNode_bad hi]
      exact hl
  exact ⟨key _ fun _ => ⟨rfl, rfl⟩, key _ fun _ => ⟨rfl, rfl⟩⟩

/-- C167: `PerformDijkstrasAlgorithm` depends on the sources and weights of the in edges only: two graphs
that agree in them give the same predecessors and distances, or the same exception, whatever their values, out
edges and validities. -/
theorem C167_dijkstra_reads [Cost W] (pick : Nat → Nat) (g : Graph ν W) (h : Graph μ W) (start : Int)
    (hs : SameIn g h) :
    (∃ g' h' r, Dijkstra.performDijkstras pick g start = some (.ok (g', r)) ∧
      Dijkstra.performDijkstras pick h start = some (.ok (h', r))) ∨
    (∃ x, Dijkstra.performDijkstras pick g start = some (.throws x) ∧
      Dijkstra.performDijkstras pick h start = some (.throws x)) ∨
    (Dijkstra.performDijkstras pick g start = none ∧ Dijkstra.performDijkstras pick h start = none) ∨
    (Dijkstra.performDijkstras pick g start = some .abort ∧
      Dijkstra.performDijkstras pick h start = some .abort) ∨
    (Dijkstra.performDijkstras pick g start = some .ub ∧
      Dijkstra.performDijkstras pick h start = some .ub) := by
  unfold Dijkstra.performDijkstras
  rw [hs.1, Dijkstra.rounds_alike hs]
  by_cases hb : start < 0 ∨ start ≥ (h.length : Int)
  · rw [if_pos hb, if_pos hb]
    exact Or.inr (Or.inl ⟨_, rfl, rfl⟩)
  · rw [if_neg hb, if_neg hb]
    have := Dijkstra.mainLoop_alike pick (Dijkstra.rounds h) _ _ (Dijkstra.init_alike hs start.toNat)
    generalize Dijkstra.mainLoop pick (Dijkstra.rounds h) (Dijkstra.initState g start.toNat) = a at this ⊢
    generalize Dijkstra.mainLoop pick (Dijkstra.rounds h) (Dijkstra.initState h start.toNat) = b at this ⊢
    rcases a with _ | a <;> rcases b with _ | b
    · exact Or.inr (Or.inr (Or.inl ⟨rfl, rfl⟩))
    · exact this.elim
    · exact this.elim
    · cases a <;> cases b <;> simp only [Dijkstra.AlikeRuns, Dijkstra.AlikeOut] at this
      · exact Or.inl ⟨_, _, _, rfl, by rw [this.previous, this.distances]⟩
      · subst this; exact Or.inr (Or.inl ⟨_, rfl, rfl⟩)
      · exact Or.inr (Or.inr (Or.inr (Or.inl ⟨rfl, rfl⟩)))
      · exact Or.inr (Or.inr (Or.inr (Or.inr ⟨rfl, rfl⟩)))

/-- C167: `PerformAstar` depends on the values and out edges only. -/
theorem C167_astar_reads [Cost W] (fuel : Nat) (pick : Nat → Nat) (g h : Graph ν W) (start goal : Int)
    (heuristic : ν → ν → W) (limit : Bool) (hs : SameOut g h) :
    Astar.performAstar fuel pick g start goal heuristic limit =
      Astar.performAstar fuel pick h start goal heuristic limit := by
  unfold Astar.performAstar Astar.performLazyAstar Astar.lazyArgumentsBad
  rw [hs.1, Astar.heuristic_same hs]
  simp only [Astar.loop_same hs]

theorem changeEdge_sameIn (g : Graph ν W) (i j : Int) (f : Edge W → Edge W) :
    SameIn g (changeEdge i j f g).2 := by
  by_cases hi : 0 ≤ i ∧ i < (g.length : Int)
  · obtain ⟨n, hn⟩ := nodeAt_of_range hi.1 hi.2
    by_cases hex : ∃ e ∈ n.outEdges, e.toIndex = j
    · obtain ⟨k, e', h⟩ := firstTo_exists hex
      rw [changeEdge_first hn h f]
      refine ⟨by simp, ?_⟩
      intro v a b ha hb
      rw [List.getElem?_modify, ha] at hb
      by_cases hv : i.toNat = v
      · simp [hv] at hb; subst hb; rfl
      · simp [hv] at hb; subst hb; rfl
    · have hno : ∀ e ∈ n.outEdges, e.toIndex ≠ j := fun e he h => hex ⟨e, he, h⟩
      unfold changeEdge Node.getEdgeTo
      simp [getNode_at hn, findEdgeTo_none j _ 0 hno]
      refine ⟨rfl, ?_⟩
      intro v a b ha hb
      rw [ha] at hb; injection hb with hb; rw [hb]
  · unfold changeEdge
    simp [getNode_bad hi]
    refine ⟨rfl, ?_⟩
    intro v a b ha hb
    rw [ha] at hb; injection hb with hb; rw [hb]

/-- C167: so an edge changed through `getEdge`, in weight or validity, changes no predecessor and no distance
Dijkstra's algorithm computes. -/
theorem C167_dijkstra_blind [Cost W] (pick : Nat → Nat) (g : Graph ν W) (start i j : Int)
    (f : Edge W → Edge W) (g' : Graph ν W) (r : List Int × List W)
    (h : Dijkstra.performDijkstras pick g start = some (.ok (g', r))) :
    ∃ h', Dijkstra.performDijkstras pick (changeEdge i j f g).2 start = some (.ok (h', r)) := by
  rcases C167_dijkstra_reads pick g (changeEdge i j f g).2 start (changeEdge_sameIn g i j f) with
    ⟨a, b, r', h1, h2⟩ | ⟨x, h1, _⟩ | ⟨h1, _⟩ | ⟨h1, _⟩ | ⟨h1, _⟩ <;> rw [h] at h1 <;> cases h1
  exact ⟨b, h2⟩

/-- Two nodes joined both ways. -/
def joined : Graph Unit Dist := history .inf [.addNode (), .addNode (), .addEdges 0 1 3]

example : Linked joined := (inv_history _ _).linked
example : getEdge joined 0 1 = .ok ⟨0, 1, 3, UNKNOWN⟩ := by decide
example : getEdge joined 0 2 = .throws .invalidArgument := by decide
example : (changeEdge 0 1 (Edge.setWeight 7) joined).2 =
    [⟨(), .inf, [⟨1, 0, 3, UNKNOWN⟩], [⟨0, 1, 7, UNKNOWN⟩]⟩,
     ⟨(), .inf, [⟨0, 1, 3, UNKNOWN⟩], [⟨1, 0, 3, UNKNOWN⟩]⟩] := by decide
/-- The other values and out edges do not matter to Dijkstra, the in edges and distances not to A*. -/
example : SameIn joined ([⟨5, 0, [⟨1, 8, 3, VALID⟩], []⟩, ⟨6, 0, [⟨0, 9, 3, INVALID⟩], []⟩] : Graph Nat Dist) := by
  refine ⟨rfl, ?_⟩
  intro v n m hn hm
  match v, hn, hm with
  | 0, hn, hm => cases hn; cases hm; decide
  | 1, hn, hm => cases hn; cases hm; decide
  | k + 2, hn, _ => cases hn
example : SameOut joined [⟨(), 0, [], [⟨0, 1, 3, UNKNOWN⟩]⟩, ⟨(), 0, [], [⟨1, 0, 3, UNKNOWN⟩]⟩] := by
  refine ⟨rfl, ?_⟩
  intro v n m hn hm
  match v, hn, hm with
  | 0, hn, hm => cases hn; cases hm; decide
  | 1, hn, hm => cases hn; cases hm; decide
  | k + 2, hn, _ => cases hn

/-- The distances Dijkstra's algorithm computes. -/
def distances (r : Option (Out (Graph Unit Dist × List Int × List Dist))) : List Dist :=
  match r with
  | some (.ok (_, _, d)) => d
  | _ => []

/-- C167: the two searches then disagree about a graph that passes `CheckGraphLinkage`. With the weight of
both directions raised to 7 through `getEdge`, A* finds a route of length 7 and Dijkstra the distance 3; with
both marked invalid, A* finds no route and Dijkstra still the distance 3. -/
theorem C167_searches_disagree :
    (let g := (changeEdge 1 0 (Edge.setWeight 7) (changeEdge 0 1 (Edge.setWeight 7) joined).2).2
     checkGraphLinkage g = .ok true ∧ ¬ Mirrored g ∧
     Astar.performAstar 20 (fun _ => 0) g 1 0 (fun _ _ => 0) true = some (.ok ([1, 0], 7)) ∧
     distances (Dijkstra.performDijkstras (fun _ => 0) g 0) = [0, 3]) ∧
    (let g := (changeEdge 1 0 (Edge.setValidity INVALID) (changeEdge 0 1 (Edge.setValidity INVALID) joined).2).2
     checkGraphLinkage g = .ok true ∧ ¬ Mirrored g ∧
     Astar.performAstar 20 (fun _ => 0) g 1 0 (fun _ _ => 0) true = some (.ok ([], .inf)) ∧
     distances (Dijkstra.performDijkstras (fun _ => 0) g 0) = [0, 3]) := by
  refine ⟨⟨by decide +kernel, ?_, by decide +kernel, by decide +kernel⟩,
    ⟨by decide +kernel, ?_, by decide +kernel, by decide +kernel⟩⟩
  · intro h
    have := h 0 1 _ _ ⟨by decide, rfl⟩ ⟨by decide, rfl⟩
    revert this
    decide +kernel
  · intro h
    have := h 0 1 _ _ ⟨by decide, rfl⟩ ⟨by decide, rfl⟩
    revert this
    decide +kernel

end Verif.Graph
