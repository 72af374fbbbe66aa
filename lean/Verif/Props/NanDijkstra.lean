import Verif.Model.NanDijkstra
import Verif.Props.Dijkstra
import Verif.Spec.NanDijkstra

/-!
# C185: shortest paths with weights that are not a number
-/
namespace Verif.NanDijkstra
open Verif Verif.Graph Verif.NotANumber

variable {ν W : Type} [Cost W]

/-! ## Replacing what is not a number by infinity -/

/-- an edge with a weight that is not a number replaced by infinity -/
def edgeNum (e : Edge (Option W)) : Edge W := ⟨e.fromIndex, e.toIndex, e.weight.getD Cost.inf, e.validity⟩

/-- a node with everything that is not a number replaced by infinity -/
def nodeNum (n : Node ν (Option W)) : Node ν W :=
  ⟨n.value, n.distance.getD Cost.inf, n.inEdges.map edgeNum, n.outEdges.map edgeNum⟩

/-- a graph with everything that is not a number replaced by infinity -/
def graphNum (g : Graph ν (Option W)) : Graph ν W := g.map nodeNum

/-- the variables with everything that is not a number replaced by infinity -/
def stateNum (s : State ν W) : Dijkstra.State ν W :=
  ⟨graphNum s.working, s.previous, s.distances.map (·.getD Cost.inf), s.queue, s.explored⟩

/-- All stored distances are numbers, and the working copy is the graph but for its distances. -/
structure Inv (g : Graph ν (Option W)) (s : State ν W) : Prop where
  nodes : ∀ n ∈ s.working, ∃ d, n.distance = some d
  dists : ∀ o ∈ s.distances, ∃ d, o = some d
  work : s.working.map (Node.setDistance none) = g.map (Node.setDistance none)

/-- Outcomes that correspond. -/
inductive Sim (g : Graph ν (Option W)) : Out (State ν W) → Out (Dijkstra.State ν W) → Prop
  | ok {s : State ν W} : Inv g s → Sim g (.ok s) (.ok (stateNum s))
  | throws {e} : Sim g (.throws e) (.throws e)
  | abort : Sim g .abort .abort
  | ub : Sim g .ub .ub

theorem getNode_num (g : Graph ν (Option W)) (i : Int) :
    getNode (graphNum g) i = nodeNum <$> getNode g i := by
  unfold getNode nodePos graphNum
  rw [List.length_map]
  by_cases h : 0 ≤ i ∧ i < (g.length : Int)
  · rw [if_pos h, Out.bind_ok, Out.bind_ok, List.getElem?_map]
    cases g[i.toNat]? with
    | none => rfl
    | some n => rfl
  · rw [if_neg h]
    rfl

omit [Cost W] in
theorem getNode_mem {g : Graph ν (Option W)} {i : Int} {n : Node ν (Option W)} (h : getNode g i = .ok n) :
    n ∈ g := by
  unfold getNode at h
  rw [Out.bind_eq_ok] at h
  obtain ⟨k, _, h⟩ := h
  split at h
  · next m hm =>
    injection h with h
    subst h
    exact List.mem_of_getElem? hm
  · cases h

theorem mem_modify {α : Type} {l : List α} {k : Nat} {f : α → α} {x : α} (h : x ∈ l.modify k f) :
    x ∈ l ∨ ∃ y ∈ l, x = f y := by
  obtain ⟨i, hi⟩ := List.mem_iff_getElem?.1 h
  rw [List.getElem?_modify] at hi
  cases hl : l[i]? with
  | none => rw [hl] at hi; simp at hi
  | some y =>
    rw [hl] at hi
    have hy := List.mem_of_getElem? hl
    simp only [Option.map_eq_map, Option.map_some, Option.some.injEq] at hi
    split at hi
    · exact .inr ⟨y, hy, hi.symm⟩
    · exact .inl (by rw [← hi]; exact hy)

theorem map_modify {α β : Type} (f : α → β) (a : α → α) (b : β → β) (h : ∀ x, f (a x) = b (f x)) (l : List α)
    (k : Nat) : (l.modify k a).map f = (l.map f).modify k b := by
  apply List.ext_getElem?
  intro i
  rw [List.getElem?_map, List.getElem?_modify, List.getElem?_modify, List.getElem?_map]
  cases l[i]? with
  | none => simp
  | some x =>
    simp only [Option.map_some, Option.map_eq_map, Option.some.injEq]
    split
    · exact h x
    · rfl

theorem mem_set {α : Type} {l : List α} {k : Nat} {v x : α} (h : x ∈ l.set k v) : x ∈ l ∨ x = v :=
  List.mem_or_eq_of_mem_set h

variable (hinf : ∀ a : W, a + Cost.inf = Cost.inf)
include hinf

theorem relaxEdges_sim (g : Graph ν (Option W)) (topIndex : Int) (topDistance : W) :
    ∀ (es : List (Edge (Option W))) (s : State ν W), Inv g s →
      Sim g (relaxEdges topIndex topDistance es s)
        (Dijkstra.relaxEdges topIndex topDistance (es.map edgeNum) (stateNum s))
  | [], s, h => .ok h
  | e :: es, s, h => by
    simp only [List.map_cons, relaxEdges, Dijkstra.relaxEdges]
    rw [show (stateNum s).working = graphNum s.working from rfl,
      show (edgeNum e).fromIndex = e.fromIndex from rfl, getNode_num]
    cases hn : getNode s.working e.fromIndex with
    | throws x => exact .throws
    | abort => exact .abort
    | ub => exact .ub
    | ok n =>
      obtain ⟨dn, hdn⟩ := h.nodes n (getNode_mem hn)
      show Sim g (match add (some topDistance) e.weight with
        | none => _
        | some newDistance => _) (if topDistance + (edgeNum e).weight < (nodeNum n).distance then _ else _)
      have hd' : (nodeNum n).distance = dn := by simp [nodeNum, hdn]
      rw [hd']
      cases hw : e.weight with
      | none =>
        have hw' : (edgeNum e).weight = Cost.inf := by simp [edgeNum, hw]
        rw [hw', hinf, if_neg (not_lt_of_ge (Cost.le_inf _))]
        exact relaxEdges_sim g topIndex topDistance es s h
      | some w =>
        have hw' : (edgeNum e).weight = w := by simp [edgeNum, hw]
        rw [hw']
        simp only [add]
        rw [hdn]
        simp only [lt, decide_eq_true_eq]
        split
        · have hinv : Inv g { s with
              working := s.working.modify e.fromIndex.toNat (Node.setDistance (some (topDistance + w)))
              queue := if e.fromIndex ∈ s.explored then s.queue
                else s.queue ++ [(e.fromIndex, topDistance + w)]
              previous := s.previous.set e.fromIndex.toNat topIndex
              distances := s.distances.set e.fromIndex.toNat (some (topDistance + w)) } := by
            refine ⟨?_, ?_, ?_⟩
            · intro m hm
              rcases mem_modify hm with hm | ⟨y, _, rfl⟩
              · exact h.nodes m hm
              · exact ⟨_, rfl⟩
            · intro o ho
              rcases mem_set ho with ho | rfl
              · exact h.dists o ho
              · exact ⟨_, rfl⟩
            · rw [← h.work]
              show (s.working.modify e.fromIndex.toNat (Node.setDistance (some (topDistance + w)))).map
                (Node.setDistance none) = _
              rw [map_modify (Node.setDistance none) (Node.setDistance (some (topDistance + w))) id
                (fun _ => rfl)]
              simp
          have := relaxEdges_sim g topIndex topDistance es _ hinv
          have heq : stateNum { s with
              working := s.working.modify e.fromIndex.toNat (Node.setDistance (some (topDistance + w)))
              queue := if e.fromIndex ∈ s.explored then s.queue
                else s.queue ++ [(e.fromIndex, topDistance + w)]
              previous := s.previous.set e.fromIndex.toNat topIndex
              distances := s.distances.set e.fromIndex.toNat (some (topDistance + w)) } =
            { stateNum s with
              working := (graphNum s.working).modify e.fromIndex.toNat (Node.setDistance (topDistance + w))
              queue := if e.fromIndex ∈ (stateNum s).explored then (stateNum s).queue
                else (stateNum s).queue ++ [(e.fromIndex, topDistance + w)]
              previous := (stateNum s).previous.set e.fromIndex.toNat topIndex
              distances := (stateNum s).distances.set e.fromIndex.toNat (topDistance + w) } := by
            unfold stateNum graphNum
            simp only [List.map_set, Option.getD_some]
            rw [map_modify nodeNum _ (Node.setDistance (topDistance + w)) (fun _ => rfl)]
          rw [heq] at this
          exact this
        · exact relaxEdges_sim g topIndex topDistance es s h

theorem explore_sim (g : Graph ν (Option W)) (topIndex : Int) (topDistance : W) (s : State ν W) (h : Inv g s) :
    Sim g (explore topIndex topDistance s) (Dijkstra.explore topIndex topDistance (stateNum s)) := by
  unfold explore Dijkstra.explore
  simp only
  rw [show (stateNum s).working = graphNum s.working from rfl, getNode_num]
  cases hn : getNode s.working topIndex with
  | throws x => exact .throws
  | abort => exact .abort
  | ub => exact .ub
  | ok n =>
    exact relaxEdges_sim hinf g topIndex topDistance n.inEdges { s with explored := topIndex :: s.explored }
      ⟨h.nodes, h.dists, h.work⟩

/-- Results that correspond, if there are any. -/
def SimOpt (g : Graph ν (Option W)) (a : Option (Out (State ν W))) (b : Option (Out (Dijkstra.State ν W))) : Prop :=
  (a = none ∧ b = none) ∨ ∃ x y, a = some x ∧ b = some y ∧ Sim g x y

theorem mainLoop_sim (g : Graph ν (Option W)) (pick : Nat → Nat) : ∀ (fuel : Nat) (s : State ν W), Inv g s →
    SimOpt g (mainLoop pick fuel s) (Dijkstra.mainLoop pick fuel (stateNum s)) := by
  intro fuel
  induction fuel with
  | zero =>
    intro s h
    unfold mainLoop Dijkstra.mainLoop
    rw [show (stateNum s).queue = s.queue from rfl]
    cases popMin (·.2) (pick 0) s.queue with
    | none => exact .inr ⟨_, _, rfl, rfl, .ok h⟩
    | some p => exact .inl ⟨rfl, rfl⟩
  | succ fuel ih =>
    intro s h
    unfold mainLoop Dijkstra.mainLoop
    rw [show (stateNum s).queue = s.queue from rfl, show (stateNum s).explored = s.explored from rfl]
    cases popMin (·.2) (pick (fuel + 1)) s.queue with
    | none => exact .inr ⟨_, _, rfl, rfl, .ok h⟩
    | some p =>
      obtain ⟨⟨topIndex, topDistance⟩, rest⟩ := p
      simp only
      split
      · exact ih { s with queue := rest } ⟨h.nodes, h.dists, h.work⟩
      · have := explore_sim hinf g topIndex topDistance { s with queue := rest } ⟨h.nodes, h.dists, h.work⟩
        rw [show stateNum { s with queue := rest } = ⟨(stateNum s).working, (stateNum s).previous,
          (stateNum s).distances, rest, s.explored⟩ from rfl] at this
        generalize explore topIndex topDistance { s with queue := rest } = a at this
        generalize Dijkstra.explore topIndex topDistance ⟨(stateNum s).working, (stateNum s).previous,
          (stateNum s).distances, rest, s.explored⟩ = b at this
        cases this with
        | ok h' => exact ih _ h'
        | throws => exact .inr ⟨_, _, rfl, rfl, .throws⟩
        | abort => exact .inr ⟨_, _, rfl, rfl, .abort⟩
        | ub => exact .inr ⟨_, _, rfl, rfl, .ub⟩

omit hinf in
theorem initState_num (g : Graph ν (Option W)) (start : Nat) :
    stateNum (initState g start) = Dijkstra.initState (graphNum g) start := by
  unfold stateNum initState Dijkstra.initState
  simp only [Dijkstra.State.mk.injEq]
  refine ⟨?_, by simp [graphNum], ?_, by simp [graphNum], trivial⟩
  · unfold graphNum
    rw [map_modify nodeNum _ (Node.setDistance 0) (fun _ => rfl), List.map_map, List.map_map]
    rfl
  · rw [List.map_set, List.map_replicate]
    simp [graphNum]

omit hinf in
theorem initState_inv (g : Graph ν (Option W)) (start : Nat) : Inv g (initState g start) := by
  refine ⟨?_, ?_, ?_⟩
  · intro n hn
    rcases mem_modify hn with hn | ⟨y, _, rfl⟩
    · obtain ⟨m, _, rfl⟩ := List.mem_map.1 hn
      exact ⟨_, rfl⟩
    · exact ⟨_, rfl⟩
  · intro o ho
    rcases mem_set ho with ho | rfl
    · exact ⟨_, (List.mem_replicate.1 ho).2⟩
    · exact ⟨_, rfl⟩
  · show ((g.map (Node.setDistance (some Cost.inf))).modify start (Node.setDistance (some 0))).map
      (Node.setDistance none) = _
    rw [map_modify (Node.setDistance none) (Node.setDistance (some 0)) id (fun _ => rfl), List.map_map]
    simp [Node.setDistance, Function.comp_def]

/-- A run that returns on the graph with infinite weights returns on the given graph. -/
theorem perform_num (pick : Nat → Nat) (g : Graph ν (Option W)) (start : Int) (g1 : Graph ν W)
    (prev : List Int) (dist : List W)
    (h : Dijkstra.performDijkstras pick (graphNum g) start = some (.ok (g1, prev, dist))) :
    ∃ g', performDijkstras pick g start = some (.ok (g', prev, dist.map some)) ∧ graphNum g' = g1 ∧
      g'.map (Node.setDistance none) = g.map (Node.setDistance none) ∧
      ∀ n ∈ g', ∃ d, n.distance = some d := by
  unfold Dijkstra.performDijkstras at h
  unfold performDijkstras
  rw [show (graphNum g).length = g.length from List.length_map ..] at h
  split at h
  · cases h
  · next hr =>
    rw [if_neg hr]
    have hrounds : Dijkstra.rounds (graphNum g) = rounds g := by
      unfold Dijkstra.rounds rounds graphNum
      rw [List.length_map, List.map_map]
      congr 2
      apply List.map_congr_left
      intro n _
      simp [nodeNum]
    rw [hrounds, ← initState_num] at h
    rcases mainLoop_sim hinf g pick (rounds g) (initState g start.toNat) (initState_inv g start.toNat) with
      ⟨_, hb⟩ | ⟨x, y, ha, hb, hxy⟩
    · rw [hb] at h; cases h
    · rw [hb] at h
      rw [ha]
      cases hxy with
      | ok hi =>
        rename_i s
        simp only [Option.some.injEq, Out.ok.injEq, Prod.mk.injEq] at h
        obtain ⟨e1, e2, e3⟩ := h
        refine ⟨s.working, ?_, e1, hi.work, hi.nodes⟩
        simp only [Option.some.injEq, Out.ok.injEq, Prod.mk.injEq, true_and]
        refine ⟨e2, ?_⟩
        rw [← e3]
        show s.distances = (s.distances.map (·.getD Cost.inf)).map some
        rw [List.map_map]
        refine (List.map_id s.distances).symm.trans ?_
        apply List.map_congr_left
        intro o ho
        obtain ⟨d, rfl⟩ := hi.dists o ho
        rfl
      | throws => cases h
      | abort => cases h
      | ub => cases h

omit hinf in
theorem nodeAt_num {g : Graph ν (Option W)} {i : Int} {n : Node ν W} (h : NodeAt (graphNum g) i n) :
    ∃ m, NodeAt g i m ∧ n = nodeNum m := by
  obtain ⟨h0, h⟩ := h
  unfold graphNum at h
  rw [List.getElem?_map] at h
  cases hm : g[i.toNat]? with
  | none => rw [hm] at h; cases h
  | some m =>
    rw [hm] at h
    injection h with h
    exact ⟨m, ⟨h0, hm⟩, h.symm⟩

omit hinf in
theorem linked_num {g : Graph ν (Option W)} (h : Linked g) : Linked (graphNum g) := by
  intro i n hn
  obtain ⟨m, hm, rfl⟩ := nodeAt_num hn
  obtain ⟨h1, h2⟩ := h i m hm
  have hat : ∀ (j : Int) (k : Node ν (Option W)), NodeAt g j k → NodeAt (graphNum g) j (nodeNum k) := by
    intro j k hk
    refine ⟨hk.1, ?_⟩
    unfold graphNum
    rw [List.getElem?_map, hk.2]
    rfl
  constructor
  · intro e he
    obtain ⟨e0, he0, rfl⟩ := List.mem_map.1 he
    obtain ⟨a, b, k, hk, e', he', c⟩ := h1 e0 he0
    exact ⟨a, b, nodeNum k, hat _ _ hk, edgeNum e', List.mem_map.2 ⟨e', he', rfl⟩, c⟩
  · intro e he
    obtain ⟨e0, he0, rfl⟩ := List.mem_map.1 he
    obtain ⟨a, b, k, hk, e', he', c⟩ := h2 e0 he0
    exact ⟨a, b, nodeNum k, hat _ _ hk, edgeNum e', List.mem_map.2 ⟨e', he', rfl⟩, c⟩

omit hinf in
theorem nonNegative_num {g : Graph ν (Option W)} (h0 : (0 : W) ≤ Cost.inf) (h : NonNegative g) :
    Dijkstra.NonNegative (graphNum g) := by
  intro n hn e he
  obtain ⟨m, hm, rfl⟩ := List.mem_map.1 hn
  obtain ⟨e0, he0, rfl⟩ := List.mem_map.1 he
  show 0 ≤ e0.weight.getD Cost.inf
  cases hw : e0.weight with
  | none => exact h0
  | some w => exact h m hm e0 he0 w hw

omit hinf in
theorem edge_num {g : Graph ν (Option W)} {v u : Nat} {w : W} (h : EdgeInto g v u w) :
    Dijkstra.EdgeInto (graphNum g) v u w := by
  obtain ⟨n, hn, e, he, h1, h2⟩ := h
  refine ⟨nodeNum n, ?_, edgeNum e, List.mem_map.2 ⟨e, he, rfl⟩, h1, ?_⟩
  · unfold graphNum; rw [List.getElem?_map, hn]; rfl
  · show e.weight.getD Cost.inf = w
    rw [h2]
    rfl

omit hinf in
theorem edge_of_num {g : Graph ν (Option W)} {v u : Nat} {w : W} (h : Dijkstra.EdgeInto (graphNum g) v u w) :
    EdgeInto g v u w ∨ w = Cost.inf := by
  obtain ⟨n, hn, e, he, h1, h2⟩ := h
  unfold graphNum at hn
  rw [List.getElem?_map] at hn
  cases hm : g[u]? with
  | none => rw [hm] at hn; cases hn
  | some m =>
    rw [hm] at hn
    injection hn with hn
    subst hn
    obtain ⟨e0, he0, rfl⟩ := List.mem_map.1 he
    have h2 : e0.weight.getD Cost.inf = w := h2
    cases hw : e0.weight with
    | none => rw [hw] at h2; exact .inr h2.symm
    | some w' =>
      rw [hw] at h2
      have h2 : w' = w := h2
      subst h2
      exact .inl ⟨m, hm, e0, he0, h1, hw⟩

omit hinf in
theorem route_num {g : Graph ν (Option W)} {start v : Nat} {c : W} (h : Route g start v c) :
    Dijkstra.Route (graphNum g) start v c := by
  induction h with
  | here => exact .here
  | step _ he ih => exact .step ih (edge_num he)

omit hinf in
theorem edge_nonNegative {g : Graph ν (Option W)} (h : Dijkstra.NonNegative (graphNum g)) {v u : Nat} {w : W}
    (he : Dijkstra.EdgeInto (graphNum g) v u w) : 0 ≤ w := by
  obtain ⟨n, hn, e, hmem, _, rfl⟩ := he
  exact h n (List.mem_of_getElem? hn) e hmem

theorem route_of_num {g : Graph ν (Option W)} (hn : Dijkstra.NonNegative (graphNum g)) {start v : Nat} {c : W}
    (h : Dijkstra.Route (graphNum g) start v c) : c = Cost.inf ∨ Route g start v c := by
  induction h with
  | here => exact .inr .here
  | step _ he ih =>
    rcases edge_of_num he with he' | rfl
    · rcases ih with rfl | ih
      · exact .inl (le_antisymm (Cost.le_inf _) (Cost.le_add _ (edge_nonNegative hn he)))
      · exact .inr (.step ih he')
    · exact .inl (hinf _)

theorem walk_of_num {g : Graph ν (Option W)} (hn : Dijkstra.NonNegative (graphNum g)) {prev : List Int}
    {start : Nat} {vs : List Nat} {c : W} (h : Dijkstra.Walk (graphNum g) prev start vs c) :
    c = Cost.inf ∨ Walk g prev start vs c := by
  induction h with
  | here => exact .inr .here
  | step hp he _ ih =>
    rcases edge_of_num he with he' | rfl
    · rcases ih with rfl | ih
      · exact .inl (le_antisymm (Cost.le_inf _) (Cost.le_add _ (edge_nonNegative hn he)))
      · exact .inr (.step hp he' ih)
    · exact .inl (hinf _)

/-- **C185.** The call returns; all distances are numbers. The distance of a node is at most the cost of every
route to the start along edges whose weights are numbers, and is infinity or the cost of such a route: edges
whose weight is not a number are not used. The returned graph is the given one with these distances. -/
theorem C185_shortest_distances (pick : Nat → Nat) (g : Graph ν (Option W)) (start : Nat)
    (hl : Linked g) (hn : NonNegative g) (hstart : start < g.length) :
    ∃ g' prev dist, performDijkstras pick g (start : Int) = some (.ok (g', prev, dist)) ∧
      dist.length = g.length ∧ g'.length = g.length ∧
      ∀ v n, g[v]? = some n → ∃ d, dist[v]? = some (some d) ∧
        (∀ c, Route g start v c → d ≤ c) ∧ (d = Cost.inf ∨ Route g start v d) ∧
        g'[v]? = some { n with distance := some d } := by
  have hnn := nonNegative_num (Cost.le_inf _) hn
  have hlen : (graphNum g).length = g.length := List.length_map ..
  obtain ⟨g1, prev, dist, h1, h2, h3, h4⟩ := Dijkstra.C16_shortest_distances pick (graphNum g) start
    (linked_num hl) hnn (by rw [hlen]; exact hstart)
  obtain ⟨g', k1, k2, k3, k4⟩ := perform_num hinf pick g start g1 prev dist h1
  have hlen' : g'.length = g.length := by
    have := congrArg List.length k3
    simpa using this
  refine ⟨g', prev, dist.map some, k1, by rw [List.length_map, h2, hlen], hlen', ?_⟩
  intro v n hv
  have hvl := (List.getElem?_eq_some_iff.1 hv).1
  obtain ⟨d, e1, e2, e3, e4⟩ := h4 v (nodeNum n) (by unfold graphNum; rw [List.getElem?_map, hv]; rfl)
  refine ⟨d, by rw [List.getElem?_map, e1]; rfl, fun c hc => e2 c (route_num hc), ?_, ?_⟩
  · rcases e3 with e3 | e3
    · exact .inl e3
    · exact route_of_num hinf hnn e3
  · have hv' : v < g'.length := by omega
    have hg := List.getElem?_eq_getElem hv'
    have hk : Node.setDistance none g'[v] = Node.setDistance none n := by
      have := congrArg (fun l => l[v]?) k3
      simp only [List.getElem?_map, hg, hv, Option.map_some, Option.some.injEq] at this
      exact this
    have hd : (nodeNum g'[v]).distance = d := by
      rw [← k2] at e4
      unfold graphNum at e4
      rw [List.getElem?_map, hg] at e4
      injection e4 with e4
      rw [e4]
    obtain ⟨d', hd'⟩ := k4 g'[v] (List.getElem_mem _)
    have hdd : d' = d := by
      rw [← hd]
      simp [nodeNum, hd']
    rw [hg]
    congr 1
    generalize g'[v] = m at hk hd'
    cases m
    cases n
    simp only [Node.setDistance, Node.mk.injEq, true_and] at hk hd' ⊢
    obtain ⟨a, b, c⟩ := hk
    exact ⟨a, by rw [hd', hdd], b, c⟩

/-- **C185.** From a node whose distance is below infinity, following the predecessor indices walks along edges
whose weights are numbers to the start without repeating a node, and the cost of that walk is the distance. -/
theorem C185_predecessors (pick : Nat → Nat) (g : Graph ν (Option W)) (start : Nat)
    (hl : Linked g) (hn : NonNegative g) (hstart : start < g.length) :
    ∃ g' prev dist, performDijkstras pick g (start : Int) = some (.ok (g', prev, dist)) ∧
      prev.length = g.length ∧ prev[start]? = some (start : Int) ∧ dist[start]? = some (some 0) ∧
      ∀ v d, dist[v]? = some (some d) →
        (d ≠ Cost.inf → ∃ vs, vs.head? = some v ∧ vs.Nodup ∧ vs.length ≤ g.length ∧
          vs.getLast? = some start ∧ Walk g prev start vs d) ∧
        (d = Cost.inf → v ≠ start → prev[v]? = some (-1)) := by
  have hnn := nonNegative_num (Cost.le_inf _) hn
  have hlen : (graphNum g).length = g.length := List.length_map ..
  obtain ⟨g1, prev, dist, h1, h2, h3, h4, h5⟩ := Dijkstra.C17_predecessors pick (graphNum g) start
    (linked_num hl) hnn (by rw [hlen]; exact hstart)
  obtain ⟨g', k1, _, _, _⟩ := perform_num hinf pick g start g1 prev dist h1
  refine ⟨g', prev, dist.map some, k1, by rw [h2, hlen], h3, by rw [List.getElem?_map, h4]; rfl, ?_⟩
  intro v d hd
  have hd' : dist[v]? = some d := by
    rw [List.getElem?_map] at hd
    cases hx : dist[v]? with
    | none => rw [hx] at hd; cases hd
    | some x =>
      rw [hx] at hd
      simp only [Option.map_some, Option.some.injEq] at hd
      rw [hd]
  obtain ⟨a, b⟩ := h5 v d hd'
  refine ⟨?_, b⟩
  intro hne
  obtain ⟨vs, c1, c2, c3, c4, c5⟩ := a hne
  rw [hlen] at c3
  rcases walk_of_num hinf hnn c5 with h | h
  · exact absurd h hne
  · exact ⟨vs, c1, c2, c3, c4, h⟩

omit hinf in
/-- **C185.** A start index outside the graph is rejected. -/
theorem C185_bad_start (pick : Nat → Nat) (g : Graph ν (Option W)) (start : Int)
    (h : start < 0 ∨ (g.length : Int) ≤ start) :
    performDijkstras pick g start = some (.throws .invalidArgument) := by
  unfold performDijkstras
  rw [if_pos h]

/-! ## Cases that meet the hypotheses -/

omit hinf
/-- Three nodes: 1 → 0 with a weight that is not a number, 2 → 0 with weight 5, 1 → 2 with weight 2. -/
def exGraph : Graph Unit (Option Dist) :=
  [⟨(), none, [⟨1, 0, none, 0⟩, ⟨2, 0, some (.fin 5), 0⟩], []⟩,
   ⟨(), none, [], [⟨1, 0, none, 0⟩, ⟨1, 2, some (.fin 2), 0⟩]⟩,
   ⟨(), none, [⟨1, 2, some (.fin 2), 0⟩], [⟨2, 0, some (.fin 5), 0⟩]⟩]

example : (performDijkstras (fun _ => 0) exGraph 0).map (fun r => match r with
    | .ok (_, prev, dist) => some (prev, dist)
    | _ => none) = some (some ([0, 2, 0], [some (.fin 0), some (.fin 7), some (.fin 5)])) := by decide +kernel

example : Linked exGraph := by
  intro i n hn
  obtain ⟨h0, hn⟩ := hn
  obtain ⟨k, rfl⟩ := Int.eq_ofNat_of_zero_le h0
  simp only [Int.toNat_natCast] at hn
  have hat : ∀ (j : Nat) (m : Node Unit (Option Dist)), exGraph[j]? = some m → NodeAt exGraph (j : Int) m :=
    fun j m h => (nodeAt_nat _ _ _).2 h
  match k with
  | 0 =>
    injection hn with hn
    subst hn
    refine ⟨?_, by simp⟩
    intro e he
    rcases List.mem_cons.1 he with rfl | he
    · exact ⟨rfl, by decide, _, hat 1 _ rfl, _, List.mem_cons_self, rfl⟩
    · rw [List.mem_singleton] at he
      subst he
      exact ⟨rfl, by decide, _, hat 2 _ rfl, _, List.mem_cons_self, rfl⟩
  | 1 =>
    injection hn with hn
    subst hn
    refine ⟨by simp, ?_⟩
    intro e he
    rcases List.mem_cons.1 he with rfl | he
    · exact ⟨rfl, by decide, _, hat 0 _ rfl, _, List.mem_cons_self, rfl⟩
    · rw [List.mem_singleton] at he
      subst he
      exact ⟨rfl, by decide, _, hat 2 _ rfl, _, List.mem_cons_self, rfl⟩
  | 2 =>
    injection hn with hn
    subst hn
    constructor
    · intro e he
      rw [List.mem_singleton] at he
      subst he
      exact ⟨rfl, by decide, _, hat 1 _ rfl, _, List.mem_cons_of_mem _ List.mem_cons_self, rfl⟩
    · intro e he
      rw [List.mem_singleton] at he
      subst he
      exact ⟨rfl, by decide, _, hat 0 _ rfl, _, List.mem_cons_of_mem _ List.mem_cons_self, rfl⟩
  | k + 3 => cases hn

example : ∀ a : Dist, a + Cost.inf = Cost.inf := by
  intro a
  cases a <;> rfl

end Verif.NanDijkstra
