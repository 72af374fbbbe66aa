import Verif.Lemmas.GraphEdges
import Verif.Model.Dijkstra
import Verif.Model.Astar
namespace Verif.Graph
open Verif

variable {ν μ W : Type}

/-! ## Changing an edge through a reference -/

theorem changeEdge_first {g : Graph ν W} {i j : Int} {n : Node ν W} {k : Nat} {e : Edge W}
    (hn : NodeAt g i n) (h : FirstTo n j k e) (f : Edge W → Edge W) :
    changeEdge i j f g =
      (.ok (), g.modify i.toNat (fun n => { n with outEdges := n.outEdges.modify k f })) := by
  unfold changeEdge
  simp [getNode_at hn, getEdgeTo_first h]

theorem modify_at {es : List (Edge W)} {k : Nat} {e : Edge W} (h : es[k]? = some e)
    (f : Edge W → Edge W) : es.modify k f = es.set k (f e) := by
  apply List.ext_getElem?
  intro v
  rw [List.getElem?_modify, List.getElem?_set]
  by_cases hv : k = v
  · subst hv
    obtain ⟨h1, h2⟩ := List.getElem?_eq_some_iff.1 h
    simp [h1, h2]
  · simp [hv]

/-! ## Dijkstra reads the in edges -/

/-- Same distances and same in edges. -/
def Alike (g : Graph ν W) (h : Graph μ W) : Prop :=
  g.length = h.length ∧ ∀ (v : Nat) (n : Node ν W) (m : Node μ W), g[v]? = some n → h[v]? = some m →
    n.distance = m.distance ∧
    n.inEdges.map (fun e => (e.fromIndex, e.weight)) = m.inEdges.map (fun e => (e.fromIndex, e.weight))

theorem Alike.node {g : Graph ν W} {h : Graph μ W} (ha : Alike g h) (i : Int) :
    (∃ n m, getNode g i = .ok n ∧ getNode h i = .ok m ∧ n.distance = m.distance ∧
      n.inEdges.map (fun e => (e.fromIndex, e.weight)) =
        m.inEdges.map (fun e => (e.fromIndex, e.weight))) ∨
    (getNode g i = .throws .outOfRange ∧ getNode h i = .throws .outOfRange) := by
  by_cases hi : 0 ≤ i ∧ i < (g.length : Int)
  · left
    obtain ⟨n, hn⟩ := nodeAt_of_range hi.1 hi.2
    obtain ⟨m, hm⟩ := nodeAt_of_range (g := h) hi.1 (by rw [← ha.1]; exact hi.2)
    exact ⟨n, m, getNode_at hn, getNode_at hm, ha.2 _ _ _ hn.2 hm.2⟩
  · right
    exact ⟨getNode_bad hi, getNode_bad (by rwa [← ha.1])⟩

theorem Alike.setDistance {g : Graph ν W} {h : Graph μ W} (ha : Alike g h) (i : Nat) (d : W) :
    Alike (g.modify i (Node.setDistance d)) (h.modify i (Node.setDistance d)) := by
  refine ⟨by simp [ha.1], ?_⟩
  intro v n m hn hm
  rw [List.getElem?_modify] at hn hm
  cases hg : g[v]? with
  | none => rw [hg] at hn; simp at hn
  | some n0 =>
    cases hh : h[v]? with
    | none => rw [hh] at hm; simp at hm
    | some m0 =>
      rw [hg] at hn
      rw [hh] at hm
      have := ha.2 v n0 m0 hg hh
      by_cases hv : i = v
      · simp [hv] at hn hm
        subst hn; subst hm
        exact ⟨rfl, this.2⟩
      · simp [hv] at hn hm
        subst hn; subst hm
        exact this

end Verif.Graph

namespace Verif.Dijkstra
open Verif Verif.Graph

variable {ν μ W : Type} [Cost W]

/-- The two states differ only in what Dijkstra does not read. -/
structure AlikeStates (s : State ν W) (t : State μ W) : Prop where
  working : Alike s.working t.working
  previous : s.previous = t.previous
  distances : s.distances = t.distances
  queue : s.queue = t.queue
  explored : s.explored = t.explored

/-- The outcomes are of the same kind. -/
def AlikeOut {α β : Type} (R : α → β → Prop) : Out α → Out β → Prop
  | .ok s, .ok t => R s t
  | .throws e, .throws f => e = f
  | .abort, .abort => True
  | .ub, .ub => True
  | _, _ => False

theorem relax_alike (i : Int) (d : W) (es fs : List (Edge W)) (s : State ν W) (t : State μ W)
    (he : es.map (fun e => (e.fromIndex, e.weight)) = fs.map (fun e => (e.fromIndex, e.weight)))
    (h : AlikeStates s t) : AlikeOut AlikeStates (relaxEdges i d es s) (relaxEdges i d fs t) := by
  induction es generalizing fs s t with
  | nil =>
    cases fs with
    | nil => exact h
    | cons f fs => cases he
  | cons e es ih =>
    cases fs with
    | nil => cases he
    | cons f fs =>
      simp only [List.map_cons, List.cons.injEq, Prod.mk.injEq] at he
      obtain ⟨⟨e1, e2⟩, e3⟩ := he
      unfold relaxEdges
      dsimp only
      rw [e1, e2]
      rcases h.working.node f.fromIndex with ⟨n, m, h1, h2, h3, _⟩ | ⟨h1, h2⟩
      · rw [h1, h2, Out.bind_ok, Out.bind_ok, h3]
        by_cases hc : d + f.weight < m.distance
        · rw [if_pos hc, if_pos hc]
          refine ih fs _ _ e3 ⟨h.working.setDistance _ _, ?_, ?_, ?_, h.explored⟩
          · simp [h.previous]
          · simp [h.distances]
          · simp [h.queue, h.explored]
        · rw [if_neg hc, if_neg hc]
          exact ih fs _ _ e3 h
      · rw [h1, h2]
        exact rfl

theorem explore_alike (i : Int) (d : W) (s : State ν W) (t : State μ W) (h : AlikeStates s t) :
    AlikeOut AlikeStates (explore i d s) (explore i d t) := by
  unfold explore
  dsimp only
  rcases h.working.node i with ⟨n, m, h1, h2, _, h4⟩ | ⟨h1, h2⟩
  · rw [h1, h2, Out.bind_ok, Out.bind_ok]
    exact relax_alike i d _ _ _ _ h4 ⟨h.working, h.previous, h.distances, h.queue, by simp [h.explored]⟩
  · rw [h1, h2]
    exact rfl

/-- Both loops end, alike, or neither does. -/
def AlikeRuns {α β : Type} (R : α → β → Prop) : Option (Out α) → Option (Out β) → Prop
  | some x, some y => AlikeOut R x y
  | none, none => True
  | _, _ => False

theorem mainLoop_alike (pick : Nat → Nat) (fuel : Nat) (s : State ν W) (t : State μ W)
    (h : AlikeStates s t) : AlikeRuns AlikeStates (mainLoop pick fuel s) (mainLoop pick fuel t) := by
  induction fuel generalizing s t with
  | zero =>
    unfold mainLoop
    rw [h.queue]
    cases popMin (·.2) (pick 0) t.queue with
    | none => exact h
    | some x => exact trivial
  | succ fuel ih =>
    unfold mainLoop
    rw [h.queue]
    cases popMin (·.2) (pick (fuel + 1)) t.queue with
    | none => exact h
    | some x =>
      obtain ⟨⟨i, d⟩, rest⟩ := x
      dsimp only
      rw [h.explored]
      by_cases hx : i ∈ t.explored
      · rw [if_pos hx, if_pos hx]
        exact ih _ _ ⟨h.working, h.previous, h.distances, rfl, rfl⟩
      · rw [if_neg hx, if_neg hx]
        have he := explore_alike i d { s with queue := rest, explored := t.explored }
          { t with queue := rest } ⟨h.working, h.previous, h.distances, rfl, rfl⟩
        generalize explore i d { s with queue := rest, explored := t.explored } = a at he ⊢
        generalize explore i d { t with queue := rest } = b at he ⊢
        cases a <;> cases b <;> simp only [AlikeOut] at he
        · exact ih _ _ he
        · subst he; exact rfl
        · exact trivial
        · exact trivial

theorem init_alike {g : Graph ν W} {h : Graph μ W} (hs : SameIn g h) (start : Nat) :
    AlikeStates (initState g start) (initState h start) := by
  refine ⟨?_, by simp [initState, hs.1], by simp [initState, hs.1], by simp [initState, hs.1], rfl⟩
  refine Alike.setDistance ⟨by simp [hs.1], ?_⟩ _ _
  intro v n m hn hm
  rw [List.getElem?_map] at hn hm
  cases hg : g[v]? with
  | none => rw [hg] at hn; simp at hn
  | some n0 =>
    cases hh : h[v]? with
    | none => rw [hh] at hm; simp at hm
    | some m0 =>
      rw [hg] at hn
      rw [hh] at hm
      simp at hn hm
      subst hn; subst hm
      exact ⟨rfl, hs.2 v n0 m0 hg hh⟩

omit [Cost W] in
theorem rounds_alike {g : Graph ν W} {h : Graph μ W} (hs : SameIn g h) : rounds g = rounds h := by
  have : g.map (fun n => n.inEdges.length) = h.map (fun n => n.inEdges.length) := by
    apply List.ext_getElem?
    intro v
    rw [List.getElem?_map, List.getElem?_map]
    cases hg : g[v]? with
    | none =>
      have : h[v]? = none := by
        rw [List.getElem?_eq_none_iff] at hg ⊢
        rw [← hs.1]; exact hg
      rw [this]; rfl
    | some n =>
      have hv : v < h.length := by rw [← hs.1]; exact (List.getElem?_eq_some_iff.1 hg).1
      have hh := List.getElem?_eq_getElem hv
      rw [hh]
      have := congrArg List.length (hs.2 v n _ hg hh)
      simp only [List.length_map] at this
      simp [this]
  unfold rounds
  rw [hs.1, this]

end Verif.Dijkstra

namespace Verif.Astar
open Verif Verif.Graph

variable {ν W : Type} [Cost W]

omit [Cost W] in
theorem sameOut_node {g h : Graph ν W} (hs : SameOut g h) (i : Int) :
    (∃ n m, getNode g i = .ok n ∧ getNode h i = .ok m ∧ n.value = m.value ∧ n.outEdges = m.outEdges) ∨
    (getNode g i = .throws .outOfRange ∧ getNode h i = .throws .outOfRange) := by
  by_cases hi : 0 ≤ i ∧ i < (g.length : Int)
  · left
    obtain ⟨n, hn⟩ := nodeAt_of_range hi.1 hi.2
    obtain ⟨m, hm⟩ := nodeAt_of_range (g := h) hi.1 (by rw [← hs.1]; exact hi.2)
    exact ⟨n, m, getNode_at hn, getNode_at hm, hs.2 _ _ _ hn.2 hm.2⟩
  · right
    exact ⟨getNode_bad hi, getNode_bad (by rwa [← hs.1])⟩

omit [Cost W] in
theorem heuristic_same {g h : Graph ν W} (hs : SameOut g h) (cb : Callbacks ν W) (goal i : Int) :
    graphHeuristic g cb goal i = graphHeuristic h cb goal i := by
  unfold graphHeuristic
  rcases sameOut_node hs i with ⟨n, m, h1, h2, h3, _⟩ | ⟨h1, h2⟩ <;> rw [h1, h2]
  · rcases sameOut_node hs goal with ⟨n', m', h1', h2', h3', _⟩ | ⟨h1', h2'⟩ <;> rw [h1', h2']
    · simp [h3, h3']
    · rfl
  · rfl

theorem expand_same {g h : Graph ν W} (hs : SameOut g h) (heur : ν → ν → W) (goal : Int) (limit : Bool)
    (n : Elem W) (es : List (Edge W)) (s : State W) :
    lazyExpand g (weightCallbacks heur) goal limit n es s =
      lazyExpand h (weightCallbacks heur) goal limit n es s := by
  induction es generalizing s with
  | nil => rfl
  | cons e es ih =>
    unfold lazyExpand
    dsimp only
    rw [heuristic_same hs]
    have h1 : (weightCallbacks heur).valid g e = (weightCallbacks heur).valid h e := rfl
    have h2 : (weightCallbacks heur).distance g e = (weightCallbacks heur).distance h e := rfl
    rw [h1, h2]
    simp only [ih]

theorem explore_same {g h : Graph ν W} (hs : SameOut g h) (heur : ν → ν → W) (goal : Int) (limit : Bool)
    (n : Elem W) (s : State W) :
    lazyExplore g (weightCallbacks heur) goal limit n s =
      lazyExplore h (weightCallbacks heur) goal limit n s := by
  unfold lazyExplore
  dsimp only
  rcases sameOut_node hs n.id with ⟨a, b, h1, h2, _, h4⟩ | ⟨h1, h2⟩ <;> rw [h1, h2]
  · rw [Out.bind_ok, Out.bind_ok, h4]
    exact expand_same hs _ _ _ _ _ _
  · rfl

theorem loop_same {g h : Graph ν W} (hs : SameOut g h) (heur : ν → ν → W) (goal : Int) (limit : Bool)
    (pick : Nat → Nat) (fuel k : Nat) (s : State W) :
    lazyLoop g (weightCallbacks heur) goal limit pick fuel k s =
      lazyLoop h (weightCallbacks heur) goal limit pick fuel k s := by
  induction fuel generalizing k s with
  | zero => unfold lazyLoop; rfl
  | succ fuel ih =>
    unfold lazyLoop
    simp only [ih, explore_same hs]

end Verif.Astar
