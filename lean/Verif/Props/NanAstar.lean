import Verif.Lemmas.GraphEdges
import Verif.Model.Astar
import Verif.Spec.NanAstar

/-!
# C195: A* searches with costs that are not a number
-/
namespace Verif.NanAstar
open Verif Verif.Graph Verif.NotANumber

variable {ν W : Type} [Cost W]

/-! ## Numbers as doubles -/

/-- an entry of the queue -/
def liftElem (e : Astar.Elem W) : Elem W := ⟨e.id, e.backpointer, some e.cost, some e.value⟩

/-- the explored map -/
def liftExplored (ex : Astar.Explored W) : Explored W := ex.map (fun x => (x.1, (x.2.1, some x.2.2)))

/-- the local variables -/
def liftState (s : Astar.State W) : State W :=
  ⟨s.queue.map liftElem, s.members.map (fun x => (x.1, some x.2)), liftExplored s.explored⟩

omit [Cost W] in
theorem lookup_lift {β γ : Type} (f : β → γ) (l : List (Int × β)) (k : Int) :
    (l.map (fun x => (x.1, f x.2))).lookup k = (l.lookup k).map f := by
  induction l with
  | nil => rfl
  | cons x l ih =>
    obtain ⟨a, b⟩ := x
    simp only [List.map_cons, List.lookup_cons]
    cases h : k == a <;> simp [ih]

omit [Cost W] in
theorem lookup_explored (ex : Astar.Explored W) (k : Int) :
    (liftExplored ex).lookup k = (ex.lookup k).map (fun x => (x.1, some x.2)) :=
  lookup_lift (fun x : Int × W => (x.1, some x.2)) ex k

theorem notWorse_lift (o : Option W) (c : W) :
    notWorse (o.map some) (some c) = Astar.notWorse o c := by
  cases o <;> rfl

omit [Cost W] in
theorem filter_lift (l : List (Int × W)) (id : Int) :
    (l.map (fun x => (x.1, some x.2))).filter (fun m => m.1 ≠ id) =
      (l.filter (fun m => m.1 ≠ id)).map (fun x => (x.1, some x.2)) := by
  rw [List.filter_map]
  rfl

theorem minPositions_map {α β : Type} (f : α → β) (key : β → W) (q : List α) :
    minPositions key (q.map f) = minPositions (fun a => key (f a)) q := by
  unfold minPositions
  rw [List.length_map]
  refine List.filter_congr ?_
  intro i _
  rw [List.getElem?_map]
  cases q[i]? with
  | none => rfl
  | some x => simp [List.all_map, Function.comp_def]

omit [Cost W] in
theorem eraseIdx_map {α β : Type} (f : α → β) (q : List α) (i : Nat) :
    (q.map f).eraseIdx i = (q.eraseIdx i).map f := by
  induction q generalizing i with
  | nil => rfl
  | cons a q ih =>
    cases i with
    | zero => rfl
    | succ i => simp [ih]

theorem popMin_map {α β : Type} (f : α → β) (key : β → W) (c : Nat) (q : List α) :
    popMin key c (q.map f) = (popMin (fun a => key (f a)) c q).map (fun x => (f x.1, x.2.map f)) := by
  unfold popMin
  rw [minPositions_map]
  split
  · rfl
  · next i h =>
    simp only [List.getElem?_map]
    cases q[i]? with
    | none => rfl
    | some x => simp [eraseIdx_map]

theorem pop_lift (c : Nat) (q : List (Astar.Elem W)) :
    pop c (q.map liftElem) =
      (popMin Astar.Elem.value c q).map (fun x => (liftElem x.1, x.2.map liftElem)) := by
  unfold pop
  rw [if_pos (by simp [liftElem]), popMin_map]
  rfl

/-- The two searches get the same answers from their callbacks. -/
structure Agree (g : Graph ν (Option W)) (cb : Callbacks ν W) (cb' : Astar.Callbacks ν W) : Prop where
  valid : ∀ n ∈ g, ∀ e ∈ n.outEdges, cb.valid g e = cb'.valid (finiteGraph g) (finiteEdge e)
  distance : ∀ n ∈ g, ∀ e ∈ n.outEdges, cb.valid g e = .ok true →
    cb.distance g e = (cb'.distance (finiteGraph g) (finiteEdge e)).bind (fun d => .ok (some d))
  heuristic : ∀ x y, cb.heuristic x y = some (cb'.heuristic x y)

theorem getNode_finite (g : Graph ν (Option W)) (i : Int) :
    getNode (finiteGraph g) i = (getNode g i).bind (fun n => .ok (finiteNode n)) := by
  by_cases h : 0 ≤ i ∧ i < (g.length : Int)
  · obtain ⟨n, hn⟩ := nodeAt_of_range h.1 h.2
    rw [getNode_at hn]
    refine getNode_at ⟨hn.1, ?_⟩
    show (g.map finiteNode)[i.toNat]? = _
    rw [List.getElem?_map, hn.2]
    rfl
  · rw [getNode_bad h, getNode_bad (by simpa [finiteGraph] using h)]
    rfl

theorem heuristic_lift {g : Graph ν (Option W)} {cb : Callbacks ν W} {cb' : Astar.Callbacks ν W}
    (ha : Agree g cb cb') (goal i : Int) :
    graphHeuristic g cb goal i =
      (Astar.graphHeuristic (finiteGraph g) cb' goal i).bind (fun h => .ok (some h)) := by
  unfold graphHeuristic Astar.graphHeuristic
  rw [getNode_finite, getNode_finite]
  cases getNode g i with
  | ok n =>
    cases getNode g goal with
    | ok m =>
      show Out.ok (cb.heuristic n.value m.value) = _
      rw [ha.heuristic]
      rfl
    | throws e => rfl
    | abort => rfl
    | ub => rfl
  | throws e => rfl
  | abort => rfl
  | ub => rfl

theorem expand_lift {g : Graph ν (Option W)} {cb : Callbacks ν W} {cb' : Astar.Callbacks ν W}
    (ha : Agree g cb cb') (goal : Int) (limit : Bool) (n : Astar.Elem W) {node : Node ν (Option W)}
    (hn : node ∈ g) (es : List (Edge (Option W))) (hes : ∀ e ∈ es, e ∈ node.outEdges)
    (s : Astar.State W) :
    lazyExpand g cb goal limit (liftElem n) es (liftState s) =
      (Astar.lazyExpand (finiteGraph g) cb' goal limit n (es.map finiteEdge) s).bind
        (fun s => .ok (liftState s)) := by
  induction es generalizing s with
  | nil => rfl
  | cons e es ih =>
    have ih' := fun s => ih (fun e he => hes e (List.mem_cons_of_mem _ he)) s
    have hmem := hes e List.mem_cons_self
    rw [List.map_cons]
    unfold lazyExpand Astar.lazyExpand
    have hval := ha.valid node hn e hmem
    have hdist := ha.distance node hn e hmem
    rw [← hval]
    cases hv : cb.valid g e with
    | throws x => rfl
    | abort => rfl
    | ub => rfl
    | ok b =>
      rw [Out.bind_ok, Out.bind_ok]
      cases b with
      | false => rw [if_pos rfl, if_pos rfl]; exact ih' s
      | true =>
        rw [if_neg (by simp), if_neg (by simp)]
        rw [hdist hv]
        cases hd : cb'.distance (finiteGraph g) (finiteEdge e) with
        | throws x => rfl
        | abort => rfl
        | ub => rfl
        | ok d =>
          show (do
              let d ← Out.ok (some d)
              _) = _
          rw [Out.bind_ok, Out.bind_ok]
          have h1 : notWorse (((liftState s).explored.lookup e.toIndex).map (·.2))
              (add (liftElem n).cost (some d)) =
              Astar.notWorse ((s.explored.lookup (finiteEdge e).toIndex).map (·.2)) (n.cost + d) := by
            show notWorse (((liftExplored s.explored).lookup e.toIndex).map (·.2)) (some (n.cost + d)) = _
            rw [lookup_explored, Option.map_map, ← notWorse_lift, Option.map_map]
            rfl
          have h2 : notWorse ((liftState s).members.lookup e.toIndex)
              (add (liftElem n).cost (some d)) =
              Astar.notWorse (s.members.lookup (finiteEdge e).toIndex) (n.cost + d) := by
            show notWorse ((s.members.map (fun x => (x.1, some x.2))).lookup e.toIndex)
              (some (n.cost + d)) = _
            rw [lookup_lift, notWorse_lift]
            rfl
          dsimp only
          rw [h1, h2]
          split
          · exact ih' s
          · split
            · exact ih' s
            · rw [heuristic_lift ha]
              show _ = ((Astar.graphHeuristic (finiteGraph g) cb' goal e.toIndex) >>= _).bind _
              cases Astar.graphHeuristic (finiteGraph g) cb' goal e.toIndex with
              | throws x => rfl
              | abort => rfl
              | ub => rfl
              | ok h =>
                rw [Out.bind_ok, ← ih']
                show lazyExpand g cb goal limit (liftElem n) es _ = _
                congr 1
                show State.mk _ _ _ = State.mk _ _ _
                congr 1
                rw [List.map_append]
                rfl

theorem explore_lift {g : Graph ν (Option W)} {cb : Callbacks ν W} {cb' : Astar.Callbacks ν W}
    (ha : Agree g cb cb') (goal : Int) (limit : Bool) (n : Astar.Elem W) (s : Astar.State W) :
    lazyExplore g cb goal limit (liftElem n) (liftState s) =
      (Astar.lazyExplore (finiteGraph g) cb' goal limit n s).bind (fun s => .ok (liftState s)) := by
  unfold lazyExplore Astar.lazyExplore
  rw [getNode_finite]
  show (getNode g n.id >>= _) = _
  by_cases h : 0 ≤ n.id ∧ n.id < (g.length : Int)
  · obtain ⟨node, hn⟩ := nodeAt_of_range h.1 h.2
    rw [getNode_at hn, Out.bind_ok]
    exact expand_lift ha goal limit n (List.mem_of_getElem? hn.2) node.outEdges (fun _ h => h)
      { s with explored := (n.id, (n.backpointer, n.cost)) :: s.explored }
  · rw [getNode_bad h]
    rfl

theorem loop_lift {g : Graph ν (Option W)} {cb : Callbacks ν W} {cb' : Astar.Callbacks ν W}
    (ha : Agree g cb cb') (goal : Int) (limit : Bool) (pick : Nat → Nat) (fuel k : Nat)
    (s : Astar.State W) :
    lazyLoop g cb goal limit pick fuel k (liftState s) =
      (Astar.lazyLoop (finiteGraph g) cb' goal limit pick fuel k s).map
        (fun o => o.bind (fun ex => .ok (liftExplored ex))) := by
  induction fuel generalizing k s with
  | zero =>
    unfold lazyLoop Astar.lazyLoop
    show (match pop (pick k) (s.queue.map liftElem) with | none => _ | some (n, rest) => _) = _
    rw [pop_lift]
    cases popMin Astar.Elem.value (pick k) s.queue <;> rfl
  | succ fuel ih =>
    unfold lazyLoop Astar.lazyLoop
    show (match pop (pick k) (s.queue.map liftElem) with | none => _ | some (n, rest) => _) = _
    rw [pop_lift]
    cases popMin Astar.Elem.value (pick k) s.queue with
    | none => rfl
    | some x =>
      obtain ⟨n, rest⟩ := x
      show (if n.id = goal then _ else _) = _
      dsimp only
      by_cases hg : n.id = goal
      · rw [if_pos hg, if_pos hg]; rfl
      · rw [if_neg hg, if_neg hg]
        have hm : (if limit then (liftState s).members.filter (fun m => m.1 ≠ (liftElem n).id)
            else (liftState s).members) =
            (if limit then s.members.filter (fun m => m.1 ≠ n.id) else s.members).map
              (fun x => (x.1, some x.2)) := by
          cases limit
          · rfl
          · exact filter_lift s.members n.id
        have hw : notWorse (((liftState s).explored.lookup (liftElem n).id).map (·.2)) (liftElem n).cost =
            Astar.notWorse ((s.explored.lookup n.id).map (·.2)) n.cost := by
          show notWorse (((liftExplored s.explored).lookup n.id).map (·.2)) (some n.cost) = _
          rw [lookup_explored, Option.map_map, ← notWorse_lift, Option.map_map]
          rfl
        rw [hw, hm]
        split
        · exact ih (k + 1) ⟨rest, _, s.explored⟩
        · have hx := explore_lift ha goal limit n
            ⟨rest, if limit then s.members.filter (fun m => m.1 ≠ n.id) else s.members, s.explored⟩
          have hx' : lazyExplore g cb goal limit (liftElem n) ⟨rest.map liftElem,
              (if limit then s.members.filter (fun m => m.1 ≠ n.id) else s.members).map
                (fun x => (x.1, some x.2)), (liftState s).explored⟩ = _ := hx
          rw [hx']
          cases Astar.lazyExplore (finiteGraph g) cb' goal limit n
            ⟨rest, if limit then s.members.filter (fun m => m.1 ≠ n.id) else s.members, s.explored⟩ with
          | ok s' => exact ih (k + 1) s'
          | throws x => rfl
          | abort => rfl
          | ub => rfl

omit [Cost W] in
theorem followBack_lift (ex : Astar.Explored W) (start : Int) (fuel : Nat) (b : Int) (path : List Int) :
    followBack (liftExplored ex) start fuel b path = Astar.followBack ex start fuel b path := by
  induction fuel generalizing b path with
  | zero => unfold followBack Astar.followBack; rfl
  | succ fuel ih =>
    unfold followBack Astar.followBack
    dsimp only
    rw [lookup_explored]
    cases ex.lookup b with
    | none => rfl
    | some x => simp only [Option.map_some, ih]

theorem extract_lift (fuel : Nat) (ex : Astar.Explored W) (start goal : Int) :
    extractAstarResult fuel (liftExplored ex) start goal =
      numberResult (Astar.extractAstarResult fuel ex start goal) := by
  unfold extractAstarResult Astar.extractAstarResult
  rw [lookup_explored]
  cases ex.lookup goal with
  | none => rfl
  | some x =>
    obtain ⟨b, c⟩ := x
    simp only [Option.map_some, followBack_lift]
    cases Astar.followBack ex start fuel b [goal] with
    | none => rfl
    | some o => cases o <;> rfl

/-- **C195, numbers.** A search whose callbacks answer with numbers on the edges of the graph does what is
claimed of it without NaN, whatever the weights stored in the graph are. -/
theorem C195_numbers (fuel : Nat) (pick : Nat → Nat) (g : Graph ν (Option W)) (start goal : Int)
    (cb : Callbacks ν W) (cb' : Astar.Callbacks ν W) (limit : Bool) (ha : Agree g cb cb') :
    performLazyAstar fuel pick g start goal cb limit =
      numberResult (Astar.performLazyAstar fuel pick (finiteGraph g) start goal cb' limit) := by
  unfold performLazyAstar Astar.performLazyAstar
  have hb : lazyArgumentsBad g start goal = Astar.lazyArgumentsBad (finiteGraph g) start goal := by
    unfold lazyArgumentsBad Astar.lazyArgumentsBad finiteGraph
    rw [List.length_map]
  rw [hb]
  split
  · rfl
  · rw [heuristic_lift ha]
    cases Astar.graphHeuristic (finiteGraph g) cb' goal start with
    | throws e => rfl
    | abort => rfl
    | ub => rfl
    | ok h =>
      have hs : (⟨[⟨start, -1, some 0, some h⟩], if limit then [(start, some 0)] else [], []⟩ : State W) =
          liftState ⟨[⟨start, -1, 0, h⟩], if limit then [(start, 0)] else [], []⟩ := by
        cases limit <;> rfl
      have e1 : ((Out.ok h).bind fun h => Out.ok (some h)) = Out.ok (some h) := rfl
      rw [e1]
      dsimp only
      rw [hs, loop_lift ha]
      cases Astar.lazyLoop (finiteGraph g) cb' goal limit pick fuel 0
        ⟨[⟨start, -1, 0, h⟩], if limit then [(start, 0)] else [], []⟩ with
      | none => rfl
      | some o =>
        cases o with
        | ok ex => exact extract_lift fuel ex start goal
        | throws e => rfl
        | abort => rfl
        | ub => rfl

/-- **C195, stored weights.** `PerformAstar`, with a heuristic that is always a number, takes a weight that
is not a number for infinity: it does not use the edge. -/
theorem C195_stored_weights (fuel : Nat) (pick : Nat → Nat) (g : Graph ν (Option W)) (start goal : Int)
    (heuristic : ν → ν → W) (limit : Bool) :
    performAstar fuel pick g start goal (fun x y => some (heuristic x y)) limit =
      numberResult (Astar.performAstar fuel pick (finiteGraph g) start goal heuristic limit) := by
  refine C195_numbers fuel pick g start goal _ _ limit ⟨?_, ?_, fun _ _ => rfl⟩
  · intro n _ e _
    show Out.ok (if e.validity = INVALID then false else lt e.weight (some Cost.inf)) =
      Out.ok (if e.validity = INVALID then false else decide (e.weight.getD Cost.inf < Cost.inf))
    cases e.weight with
    | none => simp [lt]
    | some w => rfl
  · intro n _ e _ hv
    have hv' : Out.ok (if e.validity = INVALID then false else lt e.weight (some Cost.inf)) =
      Out.ok true := hv
    show Out.ok e.weight = Out.ok (some (e.weight.getD Cost.inf))
    cases hw : e.weight with
    | none => rw [hw] at hv'; simp [lt] at hv'
    | some w => rfl

/-! ## Taking entries off the queue -/

theorem pop_spec {c : Nat} {q : List (Elem W)} {x : Elem W} {rest : List (Elem W)}
    (h : pop c q = some (x, rest)) : x ∈ q ∧ (∀ e ∈ q, e = x ∨ e ∈ rest) ∧ ∀ e ∈ rest, e ∈ q := by
  have key : ∀ i, q[i]? = some x → rest = q.eraseIdx i →
      x ∈ q ∧ (∀ e ∈ q, e = x ∨ e ∈ rest) ∧ ∀ e ∈ rest, e ∈ q := by
    rintro i hi rfl
    refine ⟨List.mem_of_getElem? hi, ?_, fun e he => List.mem_of_mem_eraseIdx he⟩
    intro e he
    obtain ⟨j, hj⟩ := List.getElem?_of_mem he
    by_cases hij : j = i
    · subst hij
      rw [hi] at hj
      exact .inl (Option.some.inj hj).symm
    · exact .inr (List.mem_eraseIdx_iff_getElem?.2 ⟨j, hij, hj⟩)
  unfold pop at h
  split at h
  · unfold popMin at h
    split at h
    · cases h
    · next i _ =>
      split at h
      · cases h
      · next y hy =>
        cases h
        exact key i hy rfl
  · split at h
    · cases h
    · next y hy =>
      cases h
      exact key _ hy rfl

theorem pop_none {c : Nat} {q : List (Elem W)} (h : pop c q = none) : q = [] := by
  unfold pop at h
  split at h
  · exact popMin_none.1 h
  · split at h
    · next hq =>
      cases q with
      | nil => rfl
      | cons a q =>
        exact absurd hq (by
          rw [List.getElem?_eq_getElem (Nat.mod_lt _ (by simp))]
          simp)
    · cases h

/-! ## Paths -/

/-- a node was reached from its backpointer, or is the first one -/
def From (g : Graph ν (Option W)) (cb : Callbacks ν W) (start : Int) (id b : Int) : Prop :=
  (id = start ∧ b = -1) ∨ ∃ w, Accepted g cb b id w

/-- the invariant of the search -/
structure Inv (g : Graph ν (Option W)) (cb : Callbacks ν W) (start : Int) (s : State W) : Prop where
  queue : ∀ e ∈ s.queue, From g cb start e.id e.backpointer
  explored : ∀ x ∈ s.explored, From g cb start x.1 x.2.1

theorem expand_inv {g : Graph ν (Option W)} {cb : Callbacks ν W} {start : Int} (goal : Int) (limit : Bool)
    {n : Elem W} {node : Node ν (Option W)} (hn : NodeAt g n.id node) (es : List (Edge (Option W)))
    (hes : ∀ e ∈ es, e ∈ node.outEdges) (s s' : State W) (hi : Inv g cb start s)
    (h : lazyExpand g cb goal limit n es s = .ok s') : Inv g cb start s' := by
  induction es generalizing s with
  | nil => cases h; exact hi
  | cons e es ih =>
    have ih' := ih (fun e he => hes e (List.mem_cons_of_mem _ he))
    unfold lazyExpand at h
    obtain ⟨b, hv, h⟩ := Out.bind_eq_ok.1 h
    cases b with
    | false => rw [if_pos rfl] at h; exact ih' s hi h
    | true =>
      rw [if_neg (by simp)] at h
      obtain ⟨d, hd, h⟩ := Out.bind_eq_ok.1 h
      dsimp only at h
      split at h
      · exact ih' s hi h
      · split at h
        · exact ih' s hi h
        · obtain ⟨x, hx, h⟩ := Out.bind_eq_ok.1 h
          refine ih' { s with queue := s.queue ++ [⟨e.toIndex, n.id, add n.cost d, add (add n.cost d) x⟩] }
            ⟨?_, hi.explored⟩ h
          intro y hy
          rcases List.mem_append.1 hy with hy | hy
          · exact hi.queue y hy
          · rw [List.mem_singleton] at hy
            subst hy
            exact .inr ⟨d, node, hn, e, hes e List.mem_cons_self, rfl, hv, hd⟩

theorem loop_inv {g : Graph ν (Option W)} {cb : Callbacks ν W} {start goal : Int} {limit : Bool}
    {pick : Nat → Nat} {fuel k : Nat} {s : State W} {ex : Explored W} (hi : Inv g cb start s)
    (h : lazyLoop g cb goal limit pick fuel k s = some (.ok ex)) :
    ∀ x ∈ ex, From g cb start x.1 x.2.1 := by
  induction fuel generalizing k s with
  | zero =>
    unfold lazyLoop at h
    split at h
    · cases h; exact hi.explored
    · cases h
  | succ fuel ih =>
    unfold lazyLoop at h
    split at h
    · cases h; exact hi.explored
    · next n rest hp =>
      obtain ⟨p1, _, p3⟩ := pop_spec hp
      have hn := hi.queue n p1
      have hrest : ∀ e ∈ rest, From g cb start e.id e.backpointer := fun e he => hi.queue e (p3 e he)
      have hex : ∀ x ∈ (n.id, (n.backpointer, n.cost)) :: s.explored, From g cb start x.1 x.2.1 := by
        intro x hx
        rcases List.mem_cons.1 hx with rfl | hx
        · exact hn
        · exact hi.explored x hx
      dsimp only at h
      split at h
      · cases h; exact hex
      · split at h
        · exact ih (s := ⟨rest, if limit then s.members.filter (fun m => m.1 ≠ n.id) else s.members,
            s.explored⟩) ⟨hrest, hi.explored⟩ h
        · split at h
          · next s' hs' =>
            unfold lazyExplore at hs'
            obtain ⟨node, hnode, hs'⟩ := Out.bind_eq_ok.1 hs'
            have hat : NodeAt g n.id node := by
              by_cases hr : 0 ≤ n.id ∧ n.id < (g.length : Int)
              · obtain ⟨m, hm⟩ := nodeAt_of_range hr.1 hr.2
                rw [getNode_at hm] at hnode
                cases hnode
                exact hm
              · rw [getNode_bad hr] at hnode
                cases hnode
            exact ih (expand_inv goal limit hat node.outEdges (fun _ h => h) _ s' ⟨hrest, hex⟩ hs') h
          · cases h
          · cases h
          · cases h

theorem lookup_mem {β : Type} {l : List (Int × β)} {k : Int} {v : β} (h : l.lookup k = some v) :
    (k, v) ∈ l := by
  induction l with
  | nil => cases h
  | cons x l ih =>
    obtain ⟨a, b⟩ := x
    rw [List.lookup_cons] at h
    cases hk : k == a with
    | true =>
      rw [hk] at h
      cases h
      rw [eq_of_beq hk]
      exact List.mem_cons_self
    | false =>
      rw [hk] at h
      exact List.mem_cons_of_mem _ (ih h)

omit [Cost W] in
theorem followBack_route {g : Graph ν (Option W)} {cb : Callbacks ν W} {ex : Explored W} {start goal : Int}
    (hex : ∀ x ∈ ex, From g cb start x.1 x.2.1) :
    ∀ (fuel : Nat) (b x : Int) (acc t p : List Int), x ≠ start → From g cb start x b →
      acc.reverse = x :: t → Route (fun u v => ∃ w, Accepted g cb u v w) (x :: t) →
      (x :: t).getLast? = some goal → followBack ex start fuel b acc = some (.ok p) →
      p.reverse.head? = some start ∧ p.reverse.getLast? = some goal ∧
        Route (fun u v => ∃ w, Accepted g cb u v w) p.reverse := by
  intro fuel
  induction fuel with
  | zero =>
    intro b x acc t p hx hb hacc hr hl hf
    unfold followBack at hf
    rcases hb with ⟨h, _⟩ | ⟨w, hw⟩
    · exact absurd h hx
    · obtain ⟨n, hn, _⟩ := hw
      rw [if_pos hn.1] at hf
      cases hf
  | succ fuel ih =>
    intro b x acc t p hx hb hacc hr hl hf
    unfold followBack at hf
    rcases hb with ⟨h, _⟩ | ⟨w, hw⟩
    · exact absurd h hx
    · have hn : 0 ≤ b := by obtain ⟨n, hn, _⟩ := hw; exact hn.1
      rw [if_pos hn] at hf
      dsimp only at hf
      have hacc' : (acc ++ [b]).reverse = b :: x :: t := by rw [List.reverse_append, hacc]; rfl
      have hr' : Route (fun u v => ∃ w, Accepted g cb u v w) (b :: x :: t) := ⟨⟨w, hw⟩, hr⟩
      have hl' : (b :: x :: t).getLast? = some goal := by rw [List.getLast?_cons_cons]; exact hl
      split at hf
      · next hbs =>
        cases hf
        rw [hacc']
        exact ⟨by rw [hbs]; rfl, hl', hr'⟩
      · next hbs =>
        split at hf
        · cases hf
        · next data hd =>
          exact ih data.1 b _ (x :: t) p hbs (hex _ (lookup_mem hd)) hacc' hr' hl' hf

/-- **C195, paths.** Whatever the callbacks return, NaN included, and whatever the queue does then: if the
call returns a path, it leads from the start to the goal along edges of the graph that the callbacks
accepted. -/
theorem C195_path (fuel : Nat) (pick : Nat → Nat) (g : Graph ν (Option W)) (start goal : Int)
    (cb : Callbacks ν W) (limit : Bool) (path : List Int) (cost : Option W)
    (hr : performLazyAstar fuel pick g start goal cb limit = some (.ok (path, cost))) :
    (path = [] ∧ cost = some Cost.inf) ∨
      (path.head? = some start ∧ path.getLast? = some goal ∧
        Route (fun u v => ∃ w, Accepted g cb u v w) path) := by
  unfold performLazyAstar at hr
  split at hr
  · cases hr
  · next hb =>
    have hne : goal ≠ start := by
      rintro rfl
      exact hb (by simp [lazyArgumentsBad])
    split at hr <;> try cases hr
    next h hh =>
    split at hr <;> try cases hr
    next ex hl =>
    have hex := loop_inv (start := start) (s := ⟨[⟨start, -1, some 0, h⟩],
      if limit then [(start, some 0)] else [], []⟩) ⟨by
        intro e he
        rw [List.mem_singleton] at he
        subst he
        exact .inl ⟨rfl, rfl⟩, by simp⟩ hl
    unfold extractAstarResult at hr
    split at hr
    · cases hr; exact .inl ⟨rfl, rfl⟩
    · next b c hg =>
      split at hr <;> try cases hr
      next p hp =>
      exact .inr (followBack_route hex fuel b goal [goal] [] p hne (hex _ (lookup_mem hg)) rfl trivial
        rfl hp)

/-! ## Searches that do not end -/

/-- The callbacks do not throw on the edges of the graph, and these lead to nodes of the graph. -/
def Answers (g : Graph ν (Option W)) (cb : Callbacks ν W) : Prop :=
  ∀ n ∈ g, ∀ e ∈ n.outEdges, (0 ≤ e.toIndex ∧ e.toIndex < (g.length : Int)) ∧
    (∃ b, cb.valid g e = .ok b) ∧ (cb.valid g e = .ok true → ∃ w, cb.distance g e = .ok w)

omit [Cost W] in
theorem heuristic_ok {g : Graph ν (Option W)} (cb : Callbacks ν W) {goal i : Int}
    (hg : 0 ≤ goal ∧ goal < (g.length : Int)) (hi : 0 ≤ i ∧ i < (g.length : Int)) :
    ∃ h, graphHeuristic g cb goal i = .ok h := by
  obtain ⟨n, hn⟩ := nodeAt_of_range hi.1 hi.2
  obtain ⟨m, hm⟩ := nodeAt_of_range hg.1 hg.2
  exact ⟨_, by unfold graphHeuristic; rw [getNode_at hn, Out.bind_ok, getNode_at hm, Out.bind_ok]⟩

theorem notWorse_none (o : Option (Option W)) : notWorse o none = false := by
  cases o with
  | none => rfl
  | some c => cases c <;> rfl

theorem add_none (c : Option W) : add c none = none := by cases c <;> rfl

/-- what is known of entries of the queue: nodes other than the goal -/
def Fine (g : Graph ν (Option W)) (goal : Int) (e : Elem W) : Prop :=
  e.id ≠ goal ∧ 0 ≤ e.id ∧ e.id < (g.length : Int)

theorem expand_total {g : Graph ν (Option W)} {cb : Callbacks ν W} (ha : Answers g cb) {goal : Int}
    (hg : 0 ≤ goal ∧ goal < (g.length : Int)) (hno : ∀ u w, ¬ Accepted g cb u goal w) (limit : Bool)
    {n : Elem W} {node : Node ν (Option W)} (hn : NodeAt g n.id node) (es : List (Edge (Option W)))
    (hes : ∀ e ∈ es, e ∈ node.outEdges) (s : State W) (hq : ∀ e ∈ s.queue, Fine g goal e) :
    ∃ s', lazyExpand g cb goal limit n es s = .ok s' ∧ (∀ e ∈ s'.queue, Fine g goal e) ∧
      (∀ e ∈ s.queue, e ∈ s'.queue) ∧
      ∀ e ∈ es, cb.valid g e = .ok true → ∀ d, cb.distance g e = .ok d → add n.cost d = none →
        ∃ x ∈ s'.queue, x.id = e.toIndex ∧ x.cost = none := by
  induction es generalizing s with
  | nil => exact ⟨s, rfl, hq, fun _ h => h, by simp⟩
  | cons e es ih =>
    have ih' := ih (fun e he => hes e (List.mem_cons_of_mem _ he))
    have hmem := hes e List.mem_cons_self
    obtain ⟨hrange, ⟨b, hv⟩, hdist⟩ := ha node (List.mem_of_getElem? hn.2) e hmem
    unfold lazyExpand
    rw [hv, Out.bind_ok]
    cases b with
    | false =>
      rw [if_pos rfl]
      obtain ⟨s', h1, h2, h3, h4⟩ := ih' s hq
      refine ⟨s', h1, h2, h3, ?_⟩
      intro e' he' hv'
      rcases List.mem_cons.1 he' with rfl | he'
      · rw [hv] at hv'; cases hv'
      · exact h4 e' he' hv'
    | true =>
      rw [if_neg (by simp)]
      obtain ⟨d, hd⟩ := hdist hv
      rw [hd, Out.bind_ok]
      dsimp only
      have hacc : Accepted g cb n.id e.toIndex d := ⟨node, hn, e, hmem, rfl, hv, hd⟩
      have skip : ∀ s : State W, (∀ e ∈ s.queue, Fine g goal e) → add n.cost d ≠ none →
          ∃ s', lazyExpand g cb goal limit n es s = .ok s' ∧ (∀ e ∈ s'.queue, Fine g goal e) ∧
          (∀ e ∈ s.queue, e ∈ s'.queue) ∧
          ∀ e' ∈ e :: es, cb.valid g e' = .ok true → ∀ d, cb.distance g e' = .ok d →
            add n.cost d = none → ∃ x ∈ s'.queue, x.id = e'.toIndex ∧ x.cost = none := by
        intro s hq hne
        obtain ⟨s', h1, h2, h3, h4⟩ := ih' s hq
        refine ⟨s', h1, h2, h3, ?_⟩
        intro e' he' hv' d' hd' hnone
        rcases List.mem_cons.1 he' with rfl | he'
        · rw [hd] at hd'
          cases hd'
          exact absurd hnone hne
        · exact h4 e' he' hv' d' hd' hnone
      split
      · next hw => exact skip s hq (fun h => by rw [h, notWorse_none] at hw; cases hw)
      · split
        · next hw => exact skip s hq (fun h => by rw [h, notWorse_none] at hw; simp at hw)
        · obtain ⟨h, hh⟩ := heuristic_ok cb hg hrange
          rw [hh, Out.bind_ok]
          obtain ⟨s', h1, h2, h3, h4⟩ := ih'
            { s with queue := s.queue ++ [⟨e.toIndex, n.id, add n.cost d, add (add n.cost d) h⟩] } (by
              intro x hx
              rcases List.mem_append.1 hx with hx | hx
              · exact hq x hx
              · rw [List.mem_singleton] at hx
                subst hx
                exact ⟨fun h => hno n.id d (h ▸ hacc), hrange⟩)
          refine ⟨s', h1, h2, fun x hx => h3 x (List.mem_append_left _ hx), ?_⟩
          intro e' he' hv' d' hd' hnone
          rcases List.mem_cons.1 he' with rfl | he'
          · rw [hd] at hd'
            cases hd'
            exact ⟨_, h3 _ (List.mem_append_right _ List.mem_cons_self), rfl, hnone⟩
          · exact h4 e' he' hv' d' hd' hnone

theorem explore_total {g : Graph ν (Option W)} {cb : Callbacks ν W} (ha : Answers g cb) {goal : Int}
    (hg : 0 ≤ goal ∧ goal < (g.length : Int)) (hno : ∀ u w, ¬ Accepted g cb u goal w) (limit : Bool)
    {n : Elem W} (hn : Fine g goal n) (s : State W) (hq : ∀ e ∈ s.queue, Fine g goal e) :
    ∃ s', lazyExplore g cb goal limit n s = .ok s' ∧ (∀ e ∈ s'.queue, Fine g goal e) ∧
      (∀ e ∈ s.queue, e ∈ s'.queue) ∧
      ∀ v d, Accepted g cb n.id v d → add n.cost d = none → ∃ x ∈ s'.queue, x.id = v ∧ x.cost = none := by
  obtain ⟨node, hnode⟩ := nodeAt_of_range hn.2.1 hn.2.2
  obtain ⟨s', h1, h2, h3, h4⟩ := expand_total ha hg hno limit hnode node.outEdges (fun _ h => h)
    { s with explored := (n.id, (n.backpointer, n.cost)) :: s.explored } hq
  refine ⟨s', ?_, h2, h3, ?_⟩
  · unfold lazyExplore
    rw [getNode_at hnode, Out.bind_ok]
    exact h1
  · rintro v d ⟨m, hm, e, he, rfl, hv, hd⟩ hnone
    have hmn : m = node := Option.some.inj (hm.2.symm.trans hnode.2)
    subst hmn
    exact h4 e he hv d hd hnone

theorem loop_endless {g : Graph ν (Option W)} {cb : Callbacks ν W} (ha : Answers g cb) {goal : Int}
    (hg : 0 ≤ goal ∧ goal < (g.length : Int)) (hno : ∀ u w, ¬ Accepted g cb u goal w) (limit : Bool)
    (S : Int → Prop) (hS : ∀ u, S u → ∃ v w, S v ∧ Accepted g cb u v w) (pick : Nat → Nat) (fuel k : Nat)
    (s : State W) (hq : ∀ e ∈ s.queue, Fine g goal e) (hw : ∃ e ∈ s.queue, S e.id ∧ e.cost = none) :
    lazyLoop g cb goal limit pick fuel k s = none := by
  induction fuel generalizing k s with
  | zero =>
    unfold lazyLoop
    split
    · next hp =>
      obtain ⟨e, he, _⟩ := hw
      rw [pop_none hp] at he
      cases he
    · rfl
  | succ fuel ih =>
    unfold lazyLoop
    split
    · next hp =>
      obtain ⟨e, he, _⟩ := hw
      rw [pop_none hp] at he
      cases he
    · next n rest hp =>
      obtain ⟨p1, p2, p3⟩ := pop_spec hp
      have hn := hq n p1
      have hrest : ∀ e ∈ rest, Fine g goal e := fun e he => hq e (p3 e he)
      dsimp only
      rw [if_neg hn.1]
      obtain ⟨e, he, hSe, hce⟩ := hw
      rcases p2 e he with rfl | hin
      · rw [hce, notWorse_none, if_neg (by simp)]
        obtain ⟨s', h1, h2, h3, h4⟩ := explore_total ha hg hno limit hn
          ⟨rest, if limit then s.members.filter (fun m => m.1 ≠ e.id) else s.members, s.explored⟩ hrest
        rw [h1]
        obtain ⟨v, w, hv, hacc⟩ := hS e.id hSe
        obtain ⟨x, hx, hxid, hxc⟩ := h4 v w hacc (by rw [hce]; rfl)
        exact ih (k + 1) s' h2 ⟨x, hx, by rw [hxid]; exact hv, hxc⟩
      · split
        · exact ih (k + 1) _ hrest ⟨e, hin, hSe, hce⟩
        · obtain ⟨s', h1, h2, h3, _⟩ := explore_total ha hg hno limit hn
            ⟨rest, if limit then s.members.filter (fun m => m.1 ≠ n.id) else s.members, s.explored⟩ hrest
          rw [h1]
          exact ih (k + 1) s' h2 ⟨e, h3 e hin, hSe, hce⟩

/-- **C195, endless searches.** If the distance of an accepted edge from the start is NaN, if one can walk
on from its end for ever along accepted edges, and if no accepted edge leads to the goal, then
`PerformLazyAstar` never returns, although the graph is finite: no number of rounds is enough, whatever the
heuristic, the queue and the flag for duplicates. -/
theorem C195_endless (fuel : Nat) (pick : Nat → Nat) (g : Graph ν (Option W)) (start goal : Int)
    (cb : Callbacks ν W) (limit : Bool) (ha : Answers g cb)
    (hs : 0 ≤ start ∧ start < (g.length : Int)) (hg : 0 ≤ goal ∧ goal < (g.length : Int))
    (hne : start ≠ goal) (hno : ∀ u w, ¬ Accepted g cb u goal w) (S : Int → Prop) (first : Int)
    (hfirst : Accepted g cb start first none) (hS1 : S first)
    (hS : ∀ u, S u → ∃ v w, S v ∧ Accepted g cb u v w) :
    performLazyAstar fuel pick g start goal cb limit = none := by
  unfold performLazyAstar
  rw [if_neg (by simp only [lazyArgumentsBad, Bool.or_eq_true, decide_eq_true_eq]; omega)]
  obtain ⟨h, hh⟩ := heuristic_ok cb hg hs
  rw [hh]
  have hfine : Fine g goal (⟨start, -1, some 0, h⟩ : Elem W) := ⟨hne, hs⟩
  suffices hl : lazyLoop g cb goal limit pick fuel 0
      ⟨[⟨start, -1, some 0, h⟩], if limit then [(start, some 0)] else [], []⟩ = none by
    simp only [hl]
  generalize (if limit then [(start, some (0 : W))] else []) = members
  unfold lazyLoop
  split
  · next hp => cases pop_none hp
  · next n rest hp =>
    obtain ⟨p1, _, p3⟩ := pop_spec hp
    rw [List.mem_singleton] at p1
    subst p1
    cases fuel with
    | zero => rfl
    | succ fuel =>
      dsimp only
      rw [if_neg hne, if_neg (by simp [notWorse])]
      obtain ⟨s', h1, h2, _, h4⟩ := explore_total ha hg hno limit hfine
        ⟨rest, if limit then members.filter (fun m => m.1 ≠ start) else members, []⟩ (by
          intro e he
          have := p3 e he
          rw [List.mem_singleton] at this
          rw [this]
          exact hfine)
      rw [h1]
      obtain ⟨x, hx, hxid, hxc⟩ := h4 first none hfirst (add_none _)
      exact loop_endless ha hg hno limit S hS pick fuel 1 s' h2 ⟨x, hx, by rw [hxid]; exact hS1, hxc⟩

/-- **C195, arguments.** Bad indices throw. -/
theorem C195_arguments (fuel : Nat) (pick : Nat → Nat) (g : Graph ν (Option W)) (start goal : Int)
    (cb : Callbacks ν W) (limit : Bool)
    (hbad : start < 0 ∨ start ≥ (g.length : Int) ∨ goal < 0 ∨ goal ≥ (g.length : Int) ∨ start = goal) :
    performLazyAstar fuel pick g start goal cb limit = some (.throws .invalidArgument) := by
  unfold performLazyAstar
  rw [if_pos (by simp only [lazyArgumentsBad, Bool.or_eq_true, decide_eq_true_eq]; omega)]

/-! ## Concrete cases -/

/-- Two nodes with edges to each other, the first of them with a weight that is not a number, and a third
node that no edge leads to. -/
def backAndForth : Graph String (Option Dist) :=
  [⟨"a", none, [⟨1, 0, some (.fin 1), UNKNOWN⟩], [⟨0, 1, none, UNKNOWN⟩]⟩,
   ⟨"b", none, [⟨0, 1, none, UNKNOWN⟩], [⟨1, 0, some (.fin 1), UNKNOWN⟩]⟩,
   ⟨"c", none, [], []⟩]

/-- callbacks that accept every edge and take its weight -/
def everyEdge : Callbacks String Dist := ⟨fun _ _ => .ok true, fun _ e => .ok e.weight, fun _ _ => some 0⟩

/-- **C195, endless, a case.** The search from the first to the third node of this graph never ends. -/
theorem C195_back_and_forth (fuel : Nat) (pick : Nat → Nat) (limit : Bool) :
    performLazyAstar fuel pick backAndForth 0 2 everyEdge limit = none := by
  refine C195_endless fuel pick backAndForth 0 2 everyEdge limit ?_ (by decide) (by decide) (by decide) ?_
    (fun u => u = 0 ∨ u = 1) 1 ?_ (Or.inr rfl) ?_
  · intro n hn e he
    refine ⟨?_, ⟨true, rfl⟩, fun _ => ⟨e.weight, rfl⟩⟩
    simp only [backAndForth, List.mem_cons, List.not_mem_nil, or_false] at hn
    rcases hn with rfl | rfl | rfl
    · simp only [List.mem_singleton] at he; subst he; decide
    · simp only [List.mem_singleton] at he; subst he; decide
    · cases he
  · rintro u w ⟨n, hn, e, he, h1, _⟩
    have hn' := List.mem_of_getElem? hn.2
    simp only [backAndForth, List.mem_cons, List.not_mem_nil, or_false] at hn'
    rcases hn' with rfl | rfl | rfl
    · simp only [List.mem_singleton] at he; subst he; exact absurd h1 (by decide)
    · simp only [List.mem_singleton] at he; subst he; exact absurd h1 (by decide)
    · cases he
  · exact ⟨_, ⟨by decide, rfl⟩, _, List.mem_cons_self, rfl, rfl, rfl⟩
  · rintro u (rfl | rfl)
    · exact ⟨1, none, .inr rfl, _, ⟨by decide, rfl⟩, _, List.mem_cons_self, rfl, rfl, rfl⟩
    · exact ⟨0, some (.fin 1), .inl rfl, _, ⟨by decide, rfl⟩, _, List.mem_cons_self, rfl, rfl, rfl⟩

/-- With the stored weights the same search ends. -/
example : performAstar 9 (fun _ => 0) backAndForth 0 2 (fun _ _ => some 0) true =
    some (.ok ([], some Dist.inf)) := by decide +kernel

/-- A path with a cost that is not a number, and a detour that is not taken because the queue lets any entry
be first. -/
example : performLazyAstar 9 (fun k => k) ([⟨"a", none, [], [⟨0, 1, none, UNKNOWN⟩, ⟨0, 2, some (.fin 1), UNKNOWN⟩]⟩,
    ⟨"b", none, [], [⟨1, 2, some (.fin 1), UNKNOWN⟩]⟩, ⟨"c", none, [], []⟩] : Graph String (Option Dist))
    0 2 everyEdge false = some (.ok ([0, 2], some (.fin 1))) ∧
  performLazyAstar 9 (fun k => k / 2) ([⟨"a", none, [], [⟨0, 1, none, UNKNOWN⟩, ⟨0, 2, some (.fin 1), UNKNOWN⟩]⟩,
    ⟨"b", none, [], [⟨1, 2, some (.fin 1), UNKNOWN⟩]⟩, ⟨"c", none, [], []⟩] : Graph String (Option Dist))
    0 2 everyEdge false = some (.ok ([0, 1, 2], none)) := by decide +kernel

/-- Callbacks that agree on a graph with a weight that is not a number. -/
example : Agree backAndForth ⟨fun _ _ => .ok true, fun _ _ => .ok (some (.fin 2)), fun _ _ => some 0⟩
    ⟨fun _ _ => .ok true, fun _ _ => .ok (.fin 2), fun _ _ => 0⟩ :=
  ⟨fun _ _ _ _ => rfl, fun _ _ _ _ _ => rfl, fun _ _ => rfl⟩

end Verif.NanAstar
