import Verif.Props.NanAstar
import Verif.Props.Astar

/-!
# Properties of A* searches with a heuristic that may not be a number: C198
-/
namespace Verif.NanAstar
open Verif Verif.Graph Verif.NotANumber

variable {ν W : Type} [Cost W]

/-- The same callbacks with a heuristic that says nothing. -/
def blind (cb : Callbacks ν W) : Callbacks ν W := { cb with heuristic := fun _ _ => some Cost.inf }

/-- What the search uses of an entry of the queue, apart from its place. -/
def label (e : Elem W) : Int × Int × Option W := (e.id, e.backpointer, e.cost)

/-- The states of two searches that differ in the values in the queue only, the second of which has nothing but
infinities and NaN there. -/
structure Sim (s t : State W) : Prop where
  queue : s.queue.map label = t.queue.map label
  values : ∀ e ∈ t.queue, e.value = none ∨ e.value = some Cost.inf
  members : s.members = t.members
  explored : s.explored = t.explored

/-- The same kind of outcome. -/
inductive Same : Out (State W) → Out (State W) → Prop
  | ok {s t : State W} (h : Sim s t) : Same (.ok s) (.ok t)
  | throws (e : Exc) : Same (.throws e) (.throws e)
  | abort : Same .abort .abort
  | ub : Same .ub .ub

/-! ## Taking entries off the queues -/

theorem pop_some {c : Nat} {q : List (Elem W)} (hq : q ≠ []) :
    ∃ i x, q[i]? = some x ∧ pop c q = some (x, q.eraseIdx i) := by
  have hlen : 0 < q.length := List.length_pos_iff.2 hq
  unfold pop
  split
  · unfold popMin
    have hne := minPositions_ne_nil (key := fun e : Elem W => e.value.getD Cost.inf) hq
    have hlt := Nat.mod_lt c (List.length_pos_iff.2 hne)
    rw [List.getElem?_eq_getElem hlt]
    dsimp only
    obtain ⟨x, hx, _⟩ := mem_minPositions.1 (List.getElem_mem hlt)
    exact ⟨_, x, hx, by rw [hx]⟩
  · have hlt := Nat.mod_lt c hlen
    exact ⟨_, _, List.getElem?_eq_getElem hlt, by rw [List.getElem?_eq_getElem hlt]⟩

theorem minPositions_const {α : Type} {key : α → W} {q : List α} (h : ∀ x ∈ q, key x = Cost.inf) :
    minPositions key q = List.range q.length := by
  unfold minPositions
  rw [List.filter_eq_self]
  intro i hi
  have hi := List.mem_range.1 hi
  rw [List.getElem?_eq_getElem hi]
  simp only [List.all_eq_true, decide_eq_true_eq]
  intro y hy
  rw [h _ (List.getElem_mem hi), h y hy]

theorem pop_blind {q : List (Elem W)} (h : ∀ e ∈ q, e.value = none ∨ e.value = some Cost.inf) {i : Nat}
    {x : Elem W} (hx : q[i]? = some x) : pop i q = some (x, q.eraseIdx i) := by
  have hi := (List.getElem?_eq_some_iff.1 hx).1
  unfold pop
  split
  · unfold popMin
    rw [minPositions_const (by
      intro e he
      rcases h e he with h | h <;> rw [h] <;> rfl), List.length_range, Nat.mod_eq_of_lt hi,
      List.getElem?_range hi]
    dsimp only
    rw [hx]
  · rw [Nat.mod_eq_of_lt hi, hx]

/-! ## The two searches side by side -/

theorem heuristic_blind (g : Graph ν (Option W)) (cb : Callbacks ν W) (goal i : Int) :
    graphHeuristic g (blind cb) goal i = (graphHeuristic g cb goal i).bind (fun _ => .ok (some Cost.inf)) := by
  unfold graphHeuristic
  cases getNode g i with
  | ok n => cases getNode g goal <;> rfl
  | throws e => rfl
  | abort => rfl
  | ub => rfl

variable (hadd : ∀ a : W, a + Cost.inf = Cost.inf)
include hadd

theorem add_inf (c : Option W) : add c (some Cost.inf) = none ∨ add c (some Cost.inf) = some Cost.inf := by
  cases c with
  | none => exact .inl rfl
  | some c => exact .inr (congrArg some (hadd c))

theorem expand_blind (g : Graph ν (Option W)) (cb : Callbacks ν W) (goal : Int) (limit : Bool) {n n' : Elem W}
    (hid : n.id = n'.id) (hc : n.cost = n'.cost) (es : List (Edge (Option W))) (s t : State W) (h : Sim s t) :
    Same (lazyExpand g cb goal limit n es s) (lazyExpand g (blind cb) goal limit n' es t) := by
  induction es generalizing s t with
  | nil => exact .ok h
  | cons e es ih =>
    unfold lazyExpand
    have hv : (blind cb).valid g e = cb.valid g e := rfl
    have hd : (blind cb).distance g e = cb.distance g e := rfl
    rw [hv]
    cases cb.valid g e with
    | throws x => exact .throws x
    | abort => exact .abort
    | ub => exact .ub
    | ok b =>
      rw [Out.bind_ok, Out.bind_ok]
      cases b with
      | false => rw [if_pos rfl, if_pos rfl]; exact ih s t h
      | true =>
        rw [if_neg (by simp), if_neg (by simp), hd]
        cases cb.distance g e with
        | throws x => exact .throws x
        | abort => exact .abort
        | ub => exact .ub
        | ok d =>
          rw [Out.bind_ok, Out.bind_ok]
          dsimp only
          rw [h.members, h.explored, hc]
          split
          · exact ih s t h
          · split
            · exact ih s t h
            · rw [heuristic_blind]
              cases graphHeuristic g cb goal e.toIndex with
              | throws x => exact .throws x
              | abort => exact .abort
              | ub => exact .ub
              | ok x =>
                refine ih _ _ ⟨?_, ?_, rfl, rfl⟩
                · show (s.queue ++ _).map label = (t.queue ++ _).map label
                  rw [List.map_append, List.map_append, h.queue, List.map_singleton, List.map_singleton]
                  simp only [label, hid]
                · intro y hy
                  rcases List.mem_append.1 hy with hy | hy
                  · exact h.values y hy
                  · rw [List.mem_singleton] at hy
                    subst hy
                    exact add_inf hadd _

theorem explore_blind (g : Graph ν (Option W)) (cb : Callbacks ν W) (goal : Int) (limit : Bool) {n n' : Elem W}
    (hl : label n = label n') (s t : State W) (h : Sim s t) :
    Same (lazyExplore g cb goal limit n s) (lazyExplore g (blind cb) goal limit n' t) := by
  simp only [label, Prod.mk.injEq] at hl
  obtain ⟨h1, h2, h3⟩ := hl
  unfold lazyExplore
  dsimp only
  rw [h1, h2, h3, h.explored]
  cases getNode g n'.id with
  | throws x => exact .throws x
  | abort => exact .abort
  | ub => exact .ub
  | ok node =>
    rw [Out.bind_ok, Out.bind_ok]
    exact expand_blind hadd g cb goal limit h1 h3 node.outEdges _ _ ⟨h.queue, h.values, h.members, rfl⟩

omit hadd in
theorem loop_congr (g : Graph ν (Option W)) (cb : Callbacks ν W) (goal : Int) (limit : Bool) {p p' : Nat → Nat}
    (fuel k : Nat) (s : State W) (h : ∀ j, k ≤ j → p j = p' j) :
    lazyLoop g cb goal limit p fuel k s = lazyLoop g cb goal limit p' fuel k s := by
  induction fuel generalizing k s with
  | zero => unfold lazyLoop; rw [h k (Nat.le_refl k)]
  | succ fuel ih =>
    unfold lazyLoop
    rw [h k (Nat.le_refl k)]
    have ih' := fun s => ih (k + 1) s (fun j hj => h j (by omega))
    simp only [ih']

theorem loop_blind (g : Graph ν (Option W)) (cb : Callbacks ν W) (goal : Int) (limit : Bool) (pick : Nat → Nat)
    (fuel k : Nat) (s t : State W) (h : Sim s t) :
    ∃ pick', lazyLoop g cb goal limit pick fuel k s = lazyLoop g (blind cb) goal limit pick' fuel k t := by
  by_cases hq : s.queue = []
  · have ht : t.queue = [] := by
      have := h.queue
      rw [hq] at this
      exact List.map_eq_nil_iff.1 this.symm
    refine ⟨pick, ?_⟩
    unfold lazyLoop
    have e1 : ∀ c, pop c ([] : List (Elem W)) = none := by
      intro c; simp [pop, popMin, minPositions]
    rw [hq, ht, e1]
    dsimp only
    rw [h.explored]
  · obtain ⟨i, x, hx, hp⟩ := pop_some (c := pick k) hq
    have hy : (t.queue.map label)[i]? = some (label x) := by
      rw [← h.queue, List.getElem?_map, hx]; rfl
    rw [List.getElem?_map] at hy
    obtain ⟨y, hy, hxy⟩ := Option.map_eq_some_iff.1 hy
    have hp' := pop_blind h.values hy
    have hxy' := hxy
    simp only [label, Prod.mk.injEq] at hxy'
    obtain ⟨h1, h2, h3⟩ := hxy'
    have hrest : (s.queue.eraseIdx i).map label = (t.queue.eraseIdx i).map label := by
      rw [← eraseIdx_map, ← eraseIdx_map, h.queue]
    have hvals : ∀ e ∈ t.queue.eraseIdx i, e.value = none ∨ e.value = some Cost.inf :=
      fun e he => h.values e (List.mem_of_mem_eraseIdx he)
    cases fuel with
    | zero =>
      refine ⟨fun _ => i, ?_⟩
      unfold lazyLoop
      rw [hp, hp']
    | succ fuel =>
      -- the rest of the search, with its own way of breaking ties
      have next : ∀ s' t', Sim s' t' → ∃ pick', pick' k = i ∧
          lazyLoop g cb goal limit pick fuel (k + 1) s' = lazyLoop g (blind cb) goal limit pick' fuel (k + 1) t' := by
        intro s' t' h'
        obtain ⟨p, hp⟩ := loop_blind g cb goal limit pick fuel (k + 1) s' t' h'
        refine ⟨fun j => if j = k then i else p j, by simp, ?_⟩
        rw [hp]
        refine loop_congr g (blind cb) goal limit fuel (k + 1) t' ?_
        intro j hj
        rw [if_neg (by omega)]
      unfold lazyLoop
      rw [hp]
      dsimp only
      by_cases hg : x.id = goal
      · refine ⟨fun _ => i, ?_⟩
        rw [hp']
        dsimp only
        rw [if_pos hg, if_pos (h1.trans hg), h1, h2, h3, h.explored]
      · rw [if_neg hg]
        by_cases hw : notWorse ((s.explored.lookup x.id).map (·.2)) x.cost = true
        · obtain ⟨p, hk, hp2⟩ := next ⟨s.queue.eraseIdx i, if limit then s.members.filter (fun m => m.1 ≠ x.id)
              else s.members, s.explored⟩ ⟨t.queue.eraseIdx i, if limit then t.members.filter (fun m => m.1 ≠ y.id)
              else t.members, t.explored⟩ ⟨hrest, hvals, by rw [h.members, h1], h.explored⟩
          refine ⟨p, ?_⟩
          rw [hk, hp']
          dsimp only
          rw [if_neg (fun h => hg (h1.symm.trans h)), if_pos hw,
            if_pos (show notWorse ((t.explored.lookup y.id).map (·.2)) y.cost = true by
              rw [h1, h3, ← h.explored]; exact hw)]
          exact hp2
        · rw [if_neg hw]
          have hsame := explore_blind hadd g cb goal limit hxy.symm
            ⟨s.queue.eraseIdx i, if limit then s.members.filter (fun m => m.1 ≠ x.id) else s.members, s.explored⟩
            ⟨t.queue.eraseIdx i, if limit then t.members.filter (fun m => m.1 ≠ y.id) else t.members, t.explored⟩
            ⟨hrest, hvals, by rw [h.members, h1], h.explored⟩
          have goOn : ∀ p : Nat → Nat, p k = i →
              (match pop (p k) t.queue with
                | none => some (.ok t.explored)
                | some (n, rest) =>
                  if n.id = goal then some (.ok ((n.id, (n.backpointer, n.cost)) :: t.explored))
                  else
                    let members := if limit then t.members.filter (fun m => m.1 ≠ n.id) else t.members
                    if notWorse ((t.explored.lookup n.id).map (·.2)) n.cost then
                      lazyLoop g (blind cb) goal limit p fuel (k + 1) ⟨rest, members, t.explored⟩
                    else
                      match lazyExplore g (blind cb) goal limit n ⟨rest, members, t.explored⟩ with
                      | .ok s' => lazyLoop g (blind cb) goal limit p fuel (k + 1) s'
                      | .throws e => some (.throws e)
                      | .abort => some .abort
                      | .ub => some .ub) =
              (match lazyExplore g (blind cb) goal limit y ⟨t.queue.eraseIdx i,
                  if limit then t.members.filter (fun m => m.1 ≠ y.id) else t.members, t.explored⟩ with
                | .ok s' => lazyLoop g (blind cb) goal limit p fuel (k + 1) s'
                | .throws e => some (.throws e)
                | .abort => some .abort
                | .ub => some .ub) := by
            intro p hk
            rw [hk, hp']
            dsimp only
            rw [if_neg (fun h => hg (h1.symm.trans h)), 
              if_neg (show ¬ notWorse ((t.explored.lookup y.id).map (·.2)) y.cost = true by
                rw [h1, h3, ← h.explored]; exact hw)]
          revert hsame
          generalize hA : lazyExplore g cb goal limit x _ = A
          generalize hB : lazyExplore g (blind cb) goal limit y _ = B
          intro hsame
          cases hsame with
          | ok h' =>
            obtain ⟨p, hk, hp2⟩ := next _ _ h'
            refine ⟨p, ?_⟩
            have := goOn p hk
            rw [hB] at this
            exact hp2.trans this.symm
          | throws e =>
            refine ⟨fun _ => i, ?_⟩
            have := goOn (fun _ => i) rfl
            rw [hB] at this
            exact this.symm
          | abort =>
            refine ⟨fun _ => i, ?_⟩
            have := goOn (fun _ => i) rfl
            rw [hB] at this
            exact this.symm
          | ub =>
            refine ⟨fun _ => i, ?_⟩
            have := goOn (fun _ => i) rfl
            rw [hB] at this
            exact this.symm
termination_by fuel

/-- **C198, heuristics.** Whatever a heuristic returns, NaN included: the search does nothing that it could not
do, with another order among equal entries of the queue, under a heuristic that is infinite everywhere. -/
theorem C198_heuristic (fuel : Nat) (pick : Nat → Nat) (g : Graph ν (Option W)) (start goal : Int)
    (cb : Callbacks ν W) (limit : Bool) :
    ∃ pick', performLazyAstar fuel pick g start goal cb limit =
      performLazyAstar fuel pick' g start goal { cb with heuristic := fun _ _ => some Cost.inf } limit := by
  show ∃ pick', _ = performLazyAstar fuel pick' g start goal (blind cb) limit
  unfold performLazyAstar
  split
  · exact ⟨pick, rfl⟩
  · rw [heuristic_blind]
    cases graphHeuristic g cb goal start with
    | throws x => exact ⟨pick, rfl⟩
    | abort => exact ⟨pick, rfl⟩
    | ub => exact ⟨pick, rfl⟩
    | ok x =>
      obtain ⟨p, hp⟩ := loop_blind hadd g cb goal limit pick fuel 0
        ⟨[⟨start, -1, some 0, x⟩], if limit then [(start, some 0)] else [], []⟩
        ⟨[⟨start, -1, some 0, some Cost.inf⟩], if limit then [(start, some 0)] else [], []⟩
        ⟨rfl, by simp, rfl, rfl⟩
      refine ⟨p, ?_⟩
      have e1 : ((Out.ok x).bind fun _ => Out.ok (some (Cost.inf : W))) = Out.ok (some Cost.inf) := rfl
      rw [e1]
      dsimp only
      rw [hp]

/-! ## Searches whose distances are numbers -/

omit hadd in
theorem nodeAt_finite {g : Graph ν (Option W)} {i : Int} {n : Node ν W} :
    NodeAt (finiteGraph g) i n ↔ ∃ m, NodeAt g i m ∧ n = finiteNode m := by
  constructor
  · rintro ⟨h1, h2⟩
    rw [finiteGraph, List.getElem?_map] at h2
    obtain ⟨m, hm, rfl⟩ := Option.map_eq_some_iff.1 h2
    exact ⟨m, ⟨h1, hm⟩, rfl⟩
  · rintro ⟨m, ⟨h1, h2⟩, rfl⟩
    exact ⟨h1, by rw [finiteGraph, List.getElem?_map, h2]; rfl⟩

omit hadd in
theorem linked_finite {g : Graph ν (Option W)} (h : Linked g) : Linked (finiteGraph g) := by
  intro i n hn
  obtain ⟨m, hm, rfl⟩ := nodeAt_finite.1 hn
  obtain ⟨h1, h2⟩ := h i m hm
  constructor
  · intro e he
    obtain ⟨x, hx, rfl⟩ := List.mem_map.1 he
    obtain ⟨a, b, y, hy, z, hz, hzi⟩ := h1 x hx
    exact ⟨a, b, _, nodeAt_finite.2 ⟨y, hy, rfl⟩, _, List.mem_map_of_mem hz, hzi⟩
  · intro e he
    obtain ⟨x, hx, rfl⟩ := List.mem_map.1 he
    obtain ⟨a, b, y, hy, z, hz, hzi⟩ := h2 x hx
    exact ⟨a, b, _, nodeAt_finite.2 ⟨y, hy, rfl⟩, _, List.mem_map_of_mem hz, hzi⟩

omit hadd in
theorem weightStep_finite {g : Graph ν (Option W)} {u v : Int} {w : W} :
    Astar.WeightStep (finiteGraph g) u v w ↔ NumberStep g u v w := by
  constructor
  · rintro ⟨n, hn, e, he, h1, h2, h3, h4⟩
    obtain ⟨m, hm, rfl⟩ := nodeAt_finite.1 hn
    obtain ⟨x, hx, rfl⟩ := List.mem_map.1 he
    refine ⟨m, hm, x, hx, h1, h2, ?_⟩
    have h3' : x.weight.getD Cost.inf < Cost.inf := h3
    have h4' : x.weight.getD Cost.inf = w := h4
    cases hw : x.weight with
    | none => rw [hw] at h3'; exact absurd h3' (lt_irrefl _)
    | some d => rw [hw] at h3' h4'; exact ⟨congrArg some h4', by rw [← h4']; exact h3'⟩
  · rintro ⟨m, hm, x, hx, h1, h2, h3, h4⟩
    refine ⟨_, nodeAt_finite.2 ⟨m, hm, rfl⟩, _, List.mem_map_of_mem hx, h1, h2, ?_, ?_⟩
    · show x.weight.getD Cost.inf < Cost.inf
      rw [h3]; exact h4
    · show x.weight.getD Cost.inf = w
      rw [h3]; rfl

/-- **C198, stored weights.** `PerformAstar` on a consistent graph whose weights are not negative or not numbers
ends with any heuristic, NaN included. It reports no path exactly if no edges with number weights lead to the goal;
otherwise it reports a path along such edges that costs no more than the number reported. -/
theorem C198_weights (g : Graph ν (Option W)) (start goal : Int) (heuristic : ν → ν → Option W) (hl : Linked g)
    (hn : ∀ u v w, NumberStep g u v w → 0 ≤ w)
    (hs : 0 ≤ start ∧ start < (g.length : Int)) (hg : 0 ≤ goal ∧ goal < (g.length : Int)) (hne : start ≠ goal) :
    ∃ N, ∀ pick fuel limit, N ≤ fuel → ∃ path cost,
      performAstar fuel pick g start goal heuristic limit = some (.ok (path, some cost)) ∧
      Astar.Complete (NumberStep g) start goal path cost := by
  have hlen : (finiteGraph g).length = g.length := by simp [finiteGraph]
  have hstep : ∀ u v w, Astar.GraphStep (finiteGraph g) (Astar.weightCallbacks fun _ _ => Cost.inf) u v w ↔
      NumberStep g u v w := fun u v w => Astar.graphStep_weight.trans weightStep_finite
  obtain ⟨N, hN⟩ := Astar.C19_complete (finiteGraph g) start goal (Astar.weightCallbacks fun _ _ => Cost.inf)
    (linked_finite hl) (fun n _ e _ => ⟨⟨_, rfl⟩, fun _ => ⟨_, rfl⟩⟩)
    (fun u v w h => hn u v w ((hstep u v w).1 h)) (by rw [hlen]; exact hs) (by rw [hlen]; exact hg) hne
  refine ⟨N, ?_⟩
  intro pick fuel limit hf
  obtain ⟨p, hp⟩ := C198_heuristic hadd fuel pick g start goal (weightCallbacks heuristic) limit
  obtain ⟨path, cost, h1, h2⟩ := hN p fuel limit hf
  refine ⟨path, cost, ?_, Astar.complete_congr hstep h2⟩
  unfold performAstar
  rw [hp]
  have h3 := C195_stored_weights fuel p g start goal (fun _ _ => (Cost.inf : W)) limit
  unfold performAstar Astar.performAstar at h3
  rw [h1] at h3
  exact h3

omit hadd in
theorem valueStep_finite {g : Graph ν (Option W)} {valid : ν → ν → Bool} {dist : ν → ν → Option W}
    (hd : ∀ u v w, Astar.ValueStep g valid dist u v w → ∃ d, w = some d ∧ 0 ≤ d) {u v : Int} {w : W} :
    Astar.ValueStep (finiteGraph g) valid (fun x y => (dist x y).getD Cost.inf) u v w ↔
      ValueStep g valid dist u v w := by
  constructor
  · rintro ⟨n, m, hn, hm, ⟨e, he, h1⟩, h2, h3⟩
    obtain ⟨n', hn', rfl⟩ := nodeAt_finite.1 hn
    obtain ⟨m', hm', rfl⟩ := nodeAt_finite.1 hm
    obtain ⟨x, hx, rfl⟩ := List.mem_map.1 he
    obtain ⟨d, h4, _⟩ := hd u v _ ⟨n', m', hn', hm', ⟨x, hx, h1⟩, h2, rfl⟩
    have h3' : (dist n'.value m'.value).getD Cost.inf = w := h3
    rw [h4] at h3'
    have h3'' : d = w := h3'
    exact ⟨n', m', hn', hm', ⟨x, hx, h1⟩, h2, by rw [h4, h3'']⟩
  · rintro ⟨n, m, hn, hm, ⟨e, he, h1⟩, h2, h3⟩
    refine ⟨_, _, nodeAt_finite.2 ⟨n, hn, rfl⟩, nodeAt_finite.2 ⟨m, hm, rfl⟩, ⟨_, List.mem_map_of_mem he, h1⟩,
      h2, ?_⟩
    show (dist n.value m.value).getD Cost.inf = w
    rw [h3]; rfl

/-- **C198, measured distances.** `PerformLazyAstar` with a check and a distance on the states ends with any
heuristic, NaN included, if the distances along the accepted edges are numbers that are not negative. It reports no
path exactly if no accepted edges lead to the goal; otherwise it reports a path along such edges that costs no more
than the number reported. -/
theorem C198_values (g : Graph ν (Option W)) (start goal : Int) (valid : ν → ν → Bool)
    (dist heuristic : ν → ν → Option W) (hl : Linked g)
    (hd : ∀ u v w, Astar.ValueStep g valid dist u v w → ∃ d, w = some d ∧ 0 ≤ d)
    (hs : 0 ≤ start ∧ start < (g.length : Int)) (hg : 0 ≤ goal ∧ goal < (g.length : Int)) (hne : start ≠ goal) :
    ∃ N, ∀ pick fuel limit, N ≤ fuel → ∃ path cost,
      performLazyAstarValues fuel pick g start goal valid dist heuristic limit = some (.ok (path, some cost)) ∧
      Astar.Complete (ValueStep g valid dist) start goal path cost := by
  have hlen : (finiteGraph g).length = g.length := by simp [finiteGraph]
  let cb' : Astar.Callbacks ν W :=
    Astar.valueCallbacks valid (fun x y => (dist x y).getD Cost.inf) (fun _ _ => Cost.inf)
  have hl' := linked_finite hl
  have hstep : ∀ u v w, Astar.GraphStep (finiteGraph g) cb' u v w ↔ ValueStep g valid dist u v w :=
    fun u v w => (Astar.graphStep_value hl').trans (valueStep_finite hd)
  obtain ⟨N, hN⟩ := Astar.C19_complete (finiteGraph g) start goal cb' hl' (by
      intro n hmem e he
      obtain ⟨i, hi, rfl⟩ := List.mem_iff_getElem.1 hmem
      obtain ⟨m, _, h1, h2⟩ := Astar.valueCallbacks_edge (valid := valid)
        (dist := fun x y => (dist x y).getD Cost.inf) (heur := fun _ _ => Cost.inf) hl'
        ((nodeAt_nat _ i _).2 (List.getElem?_eq_getElem hi)) he
      exact ⟨⟨_, h1⟩, fun _ => ⟨_, h2⟩⟩)
    (fun u v w h => by
      obtain ⟨n, m, h1, h2, h3, h4, h5⟩ := (hstep u v w).1 h
      obtain ⟨d, h6, h7⟩ := hd u v (some w) ⟨n, m, h1, h2, h3, h4, h5⟩
      cases h6
      exact h7) (by rw [hlen]; exact hs) (by rw [hlen]; exact hg) hne
  refine ⟨N, ?_⟩
  intro pick fuel limit hf
  obtain ⟨p, hp⟩ := C198_heuristic hadd fuel pick g start goal (valueCallbacks valid dist heuristic) limit
  obtain ⟨path, cost, h1, h2⟩ := hN p fuel limit hf
  refine ⟨path, cost, ?_, Astar.complete_congr hstep h2⟩
  unfold performLazyAstarValues
  rw [hp, C195_numbers fuel p g start goal _ cb' limit ⟨?_, ?_, fun _ _ => rfl⟩, h1]
  · rfl
  · intro n hmem e he
    obtain ⟨i, hi, rfl⟩ := List.mem_iff_getElem.1 hmem
    obtain ⟨a1, _, m, hm, _⟩ := (hl i _ ((nodeAt_nat g i _).2 (List.getElem?_eq_getElem hi))).2 e he
    show (do
        let n ← getNode g e.fromIndex
        let m ← getNode g e.toIndex
        Out.ok (valid n.value m.value)) = (do
        let n ← getNode (finiteGraph g) e.fromIndex
        let m ← getNode (finiteGraph g) e.toIndex
        Out.ok (valid n.value m.value))
    rw [getNode_finite, getNode_finite]
    cases getNode g e.fromIndex with
    | ok x => cases getNode g e.toIndex <;> rfl
    | throws _ => rfl
    | abort => rfl
    | ub => rfl
  · intro n hmem e he hv
    obtain ⟨i, hi, rfl⟩ := List.mem_iff_getElem.1 hmem
    have hni := (nodeAt_nat g i _).2 (List.getElem?_eq_getElem hi)
    obtain ⟨a1, _, m, hm, _⟩ := (hl i _ hni).2 e he
    have hv' : (do
        let n ← getNode g e.fromIndex
        let m ← getNode g e.toIndex
        Out.ok (valid n.value m.value)) = Out.ok true := hv
    show (do
        let n ← getNode g e.fromIndex
        let m ← getNode g e.toIndex
        Out.ok (dist n.value m.value)) = (do
        let n ← getNode (finiteGraph g) e.fromIndex
        let m ← getNode (finiteGraph g) e.toIndex
        Out.ok ((dist n.value m.value).getD Cost.inf)).bind (fun d => .ok (some d))
    rw [a1, getNode_at hni, getNode_at hm] at hv'
    have hv2 : Out.ok (valid g[i].value m.value) = Out.ok true := hv'
    injection hv2 with hv2
    obtain ⟨d, hd1, _⟩ := hd (i : Int) e.toIndex _ ⟨_, m, hni, hm, ⟨e, he, rfl⟩, hv2, rfl⟩
    rw [getNode_finite, getNode_finite, a1, getNode_at hni, getNode_at hm]
    show Out.ok (dist g[i].value m.value) = Out.ok (some ((dist g[i].value m.value).getD Cost.inf))
    rw [hd1]
    rfl

/-! ## Cases that meet the hypotheses -/

/-- Three nodes in a row and a shortcut whose weight is not a number. -/
def shortcut : Graph Nat (Option Dist) :=
  [⟨0, none, [], [⟨0, 1, some (.fin 2), UNKNOWN⟩, ⟨0, 2, none, UNKNOWN⟩]⟩,
   ⟨1, none, [⟨0, 1, some (.fin 2), UNKNOWN⟩], [⟨1, 2, some (.fin 3), UNKNOWN⟩]⟩,
   ⟨2, none, [⟨0, 2, none, UNKNOWN⟩, ⟨1, 2, some (.fin 3), UNKNOWN⟩], []⟩]

example : checkGraphLinkage shortcut = .ok true := by decide +kernel

example (u v : Int) (w : Dist) (h : NumberStep shortcut u v w) : 0 ≤ w := by
  obtain ⟨n, hn, e, he, _, _, h1, _⟩ := h
  cases w <;> first | exact Nat.zero_le _ | trivial

/-- the path avoids the shortcut, although the heuristic is never a number -/
example : performAstar 10 (fun _ => 0) shortcut 0 2 (fun _ _ => none) true =
    some (.ok ([0, 1, 2], some (.fin 5))) := by decide +kernel

/-- where the distances are measured anew, the shortcut is used, depending on the order of the queue -/
example : performLazyAstarValues 10 (fun _ => 1) shortcut 0 2 (fun _ _ => true)
    (fun a b => some (.fin (b - a))) (fun _ _ => none) true = some (.ok ([0, 2], some (.fin 2))) := by
  decide +kernel

end Verif.NanAstar
