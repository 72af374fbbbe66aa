import Verif.Props.NanPrmQuery
import Verif.Props.NanAstarHeuristic

/-!
# Properties of single-start queries on roadmaps with distances that may not be a number: C199
-/
namespace Verif.NanPrm
open Verif Verif.Graph Verif.NotANumber
open Verif.Prm (Direction Threads Setup queryDistance KeepsStates StatesAt extract_ok' extractSolutionPath)

variable {ν W : Type} [Cost W]

theorem path_nodes {step : Int → Int → W → Prop} {N : Int}
    (hstep : ∀ u v w, step u v w → (0 ≤ u ∧ u < N) ∧ (0 ≤ v ∧ v < N))
    {u t : Int} {c C : W} {p : List Int} (hu : 0 ≤ u ∧ u < N)
    (h : Astar.Path step u c p t C) : ∀ v ∈ p, 0 ≤ v ∧ v < N := by
  induction h with
  | here => simpa using hu
  | cons hs hp ih =>
    intro x hx
    rcases List.mem_cons.1 hx with rfl | hx
    · exact hu
    · exact ih (hstep _ _ _ hs).2 x hx

theorem complete_states {step : Int → Int → W → Prop} {g : Graph ν (Option W)}
    (hstep : ∀ u v w, step u v w → (0 ≤ u ∧ u < (g.length : Int)) ∧ (0 ≤ v ∧ v < (g.length : Int)))
    {i j : Int} (hi : 0 ≤ i ∧ i < (g.length : Int)) {vs : List Int} {cost : W}
    (h : Astar.Complete step i j vs cost) :
    ∃ path, extractSolutionPath g vs = .ok path ∧ StatesAt g (vs.map Int.toNat) path := by
  apply extract_ok'
  rcases h with ⟨h1, _⟩ | ⟨C, h1, _⟩
  · rw [h1]; simp
  · exact path_nodes hstep hi h1

/-- How the two states of a query are added: nodes that stand for them, or the exception of a serial
nearest-neighbour query. -/
theorem add_two (hinf : (0 : W) < Cost.inf) (S : Setup ν (Option W)) (hs : S.symmetric = true)
    (start goal : ν × Threads) (hts : start.2.Ok) (htg : goal.2.Ok) (g : Graph ν (Option W))
    (hl : Linked g) (hm : Mirrored g) (hn : NanDijkstra.NonNegative g) :
    ∃ g', Linked g' ∧ Mirrored g' ∧ KeepsStates g g' ∧
      (((∀ lazy fuel pick limit,
          querySingle S lazy fuel pick limit start goal g = (some (.throws .outOfRange), g')) ∧
        ∃ d ∈ [start, goal], ∃ n, d.2 n = none) ∨
       ∃ i j, StandsFor S .newStateToRoadmap g' start.1 i ∧ StandsFor S .roadmapToNewState g' goal.1 j ∧
        NanDijkstra.NonNegative g' ∧
        ∀ lazy fuel pick limit, querySingle S lazy fuel pick limit start goal g =
          (astarAnswer g'
            (if lazy then NanAstar.performLazyAstarValues fuel pick g' i j S.edgeValid S.distance S.distance limit
              else NanAstar.performAstar fuel pick g' i j S.distance limit), g')) := by
  rcases add_ready hinf S start.2 hts .newStateToRoadmap start.1 (Or.inl hs) g (Prm.inv_of_linked hl hm) hn with
    ⟨i, g1, a1, a2, a2', a3, a4⟩ | ⟨g1, a1, a2, a3, n, hser⟩
  · rcases add_ready hinf S goal.2 htg .roadmapToNewState goal.1 (Or.inr rfl) g1 a2 a2' with
      ⟨j, g2, b1, b2, b2', b3, b4⟩ | ⟨g2, b1, b2, b3, n, hser⟩
    · refine ⟨g2, b2.linked, b2.mir, a4.trans b4, .inr ⟨i, j, a3.keep b4, b3, b2', ?_⟩⟩
      intro lazy fuel pick limit
      simp only [querySingle, M.bind_apply, a1, b1, M.pure_apply]
    · refine ⟨g2, b2.linked, b2.mir, a4.trans b3, .inl ⟨?_, goal, by simp, n, hser⟩⟩
      intro lazy fuel pick limit
      simp only [querySingle, M.bind_apply, a1, b1]
  · refine ⟨g1, a2.linked, a2.mir, a3, .inl ⟨?_, start, by simp, n, hser⟩⟩
    intro lazy fuel pick limit
    simp only [querySingle, M.bind_apply, a1]

/-- **C199, one start.** A query with one start on a consistent roadmap whose weights are not negative or not numbers,
with any distances: either it throws, which only a serial nearest-neighbour query can cause, or start and goal get
nodes that stand for them. If these are the same node, `invalid_argument` is thrown; otherwise the query ends, with no
path and infinity exactly if no edges with number weights lead to the goal, and else with the states along such edges,
at no more than the cost reported, which is a number. In all cases the roadmap keeps its states and stays
consistent. -/
theorem C199_single (hinf : (0 : W) < Cost.inf) (hadd : ∀ a : W, a + Cost.inf = Cost.inf)
    (S : Setup ν (Option W)) (hs : S.symmetric = true)
    (start goal : ν × Threads) (hts : start.2.Ok) (htg : goal.2.Ok) (g : Graph ν (Option W))
    (hl : Linked g) (hm : Mirrored g) (hn : NanDijkstra.NonNegative g) :
    ∃ g', Linked g' ∧ Mirrored g' ∧ KeepsStates g g' ∧
      (((∀ fuel pick limit,
          querySingle S false fuel pick limit start goal g = (some (.throws .outOfRange), g')) ∧
        ∃ d ∈ [start, goal], ∃ n, d.2 n = none) ∨
       ∃ i j, StandsFor S .newStateToRoadmap g' start.1 i ∧ StandsFor S .roadmapToNewState g' goal.1 j ∧
        (i = j → ∀ fuel pick limit,
          querySingle S false fuel pick limit start goal g = (some (.throws .invalidArgument), g')) ∧
        (i ≠ j → ∃ N, ∀ pick fuel limit, N ≤ fuel → ∃ vs path cost,
          querySingle S false fuel pick limit start goal g = (some (.ok (path, some cost)), g') ∧
          Astar.Complete (NanAstar.NumberStep g') i j vs cost ∧ StatesAt g' (vs.map Int.toNat) path)) := by
  obtain ⟨g', h1, h2, h3, h4⟩ := add_two hinf S hs start goal hts htg g hl hm hn
  refine ⟨g', h1, h2, h3, ?_⟩
  rcases h4 with ⟨h4, h5⟩ | ⟨i, j, h4, h5, h6, h7⟩
  · exact .inl ⟨fun fuel pick limit => h4 false fuel pick limit, h5⟩
  · have hi : 0 ≤ i ∧ i < (g'.length : Int) := h4.choose_spec.1.range
    have hj : 0 ≤ j ∧ j < (g'.length : Int) := h5.choose_spec.1.range
    refine .inr ⟨i, j, h4, h5, ?_, ?_⟩
    · intro hij fuel pick limit
      rw [h7, if_neg (by decide)]
      unfold NanAstar.performAstar
      rw [NanAstar.C195_arguments fuel pick g' i j _ limit (by simp [hij])]
      rfl
    · intro hij
      have hrange : ∀ u v w, NanAstar.NumberStep g' u v w →
          (0 ≤ u ∧ u < (g'.length : Int)) ∧ (0 ≤ v ∧ v < (g'.length : Int)) := by
        rintro u v w ⟨n, hn, e, he, rfl, _⟩
        obtain ⟨_, _, m, hm, _⟩ := (h1 u n hn).2 e he
        exact ⟨hn.range, hm.range⟩
      obtain ⟨N, hN⟩ := NanAstar.C198_weights hadd g' i j S.distance h1 (by
        rintro u v w ⟨n, hn, e, he, rfl, _, hw, _⟩
        obtain ⟨_, _, m, hm, _⟩ := (h1 u n hn).2 e he
        have hmir : e ∈ n.outEdges.filter (fun x => decide (x.toIndex = e.toIndex)) := by
          rw [List.mem_filter]; exact ⟨he, by simp⟩
        rw [h2 u e.toIndex n m hn hm] at hmir
        exact h6 m (List.mem_of_getElem? hm.2) e (List.mem_filter.1 hmir).1 w hw) hi hj hij
      refine ⟨N, ?_⟩
      intro pick fuel limit hf
      obtain ⟨vs, cost, e1, e2⟩ := hN pick fuel limit hf
      obtain ⟨path, e3, e4⟩ := complete_states hrange hi e2
      refine ⟨vs, path, cost, ?_, e2, e4⟩
      rw [h7, if_neg (by decide), e1]
      simp [astarAnswer, e3]

/-- **C199, lazy query.** The same for the lazy query, along the edges that the check accepts now, if their
distances now are numbers that are not negative; the stored weights and all other distances may be anything. -/
theorem C199_lazy (hinf : (0 : W) < Cost.inf) (hadd : ∀ a : W, a + Cost.inf = Cost.inf)
    (S : Setup ν (Option W)) (hs : S.symmetric = true)
    (hd : ∀ x y, S.edgeValid x y = true → ∃ d, S.distance x y = some d ∧ 0 ≤ d)
    (start goal : ν × Threads) (hts : start.2.Ok) (htg : goal.2.Ok) (g : Graph ν (Option W))
    (hl : Linked g) (hm : Mirrored g) (hn : NanDijkstra.NonNegative g) :
    ∃ g', Linked g' ∧ Mirrored g' ∧ KeepsStates g g' ∧
      (((∀ fuel pick limit,
          querySingle S true fuel pick limit start goal g = (some (.throws .outOfRange), g')) ∧
        ∃ d ∈ [start, goal], ∃ n, d.2 n = none) ∨
       ∃ i j, StandsFor S .newStateToRoadmap g' start.1 i ∧ StandsFor S .roadmapToNewState g' goal.1 j ∧
        (i = j → ∀ fuel pick limit,
          querySingle S true fuel pick limit start goal g = (some (.throws .invalidArgument), g')) ∧
        (i ≠ j → ∃ N, ∀ pick fuel limit, N ≤ fuel → ∃ vs path cost,
          querySingle S true fuel pick limit start goal g = (some (.ok (path, some cost)), g') ∧
          Astar.Complete (NanAstar.ValueStep g' S.edgeValid S.distance) i j vs cost ∧
          StatesAt g' (vs.map Int.toNat) path)) := by
  obtain ⟨g', h1, h2, h3, h4⟩ := add_two hinf S hs start goal hts htg g hl hm hn
  refine ⟨g', h1, h2, h3, ?_⟩
  rcases h4 with ⟨h4, h5⟩ | ⟨i, j, h4, h5, h6, h7⟩
  · exact .inl ⟨fun fuel pick limit => h4 true fuel pick limit, h5⟩
  · have hi : 0 ≤ i ∧ i < (g'.length : Int) := h4.choose_spec.1.range
    have hj : 0 ≤ j ∧ j < (g'.length : Int) := h5.choose_spec.1.range
    refine .inr ⟨i, j, h4, h5, ?_, ?_⟩
    · intro hij fuel pick limit
      rw [h7, if_pos rfl]
      unfold NanAstar.performLazyAstarValues
      rw [NanAstar.C195_arguments fuel pick g' i j _ limit (by simp [hij])]
      rfl
    · intro hij
      have hrange : ∀ u v w, NanAstar.ValueStep g' S.edgeValid S.distance u v w →
          (0 ≤ u ∧ u < (g'.length : Int)) ∧ (0 ≤ v ∧ v < (g'.length : Int)) := by
        rintro u v w ⟨n, m, hn, hm, _⟩
        exact ⟨hn.range, hm.range⟩
      obtain ⟨N, hN⟩ := NanAstar.C198_values hadd g' i j S.edgeValid S.distance S.distance h1 (by
        rintro u v w ⟨n, m, _, _, _, hv, rfl⟩
        exact hd _ _ hv) hi hj hij
      refine ⟨N, ?_⟩
      intro pick fuel limit hf
      obtain ⟨vs, cost, e1, e2⟩ := hN pick fuel limit hf
      obtain ⟨path, e3, e4⟩ := complete_states hrange hi e2
      refine ⟨vs, path, cost, ?_, e2, e4⟩
      rw [h7, if_pos rfl, e1]
      simp [astarAnswer, e3]

/-! ## A lazy query that never ends -/

/-- The states 1, 7 and 4; 1 and 7 are joined by an edge with an old weight, although their distance is no longer a
number. -/
def exStale : Graph Nat (Option Dist) :=
  [⟨1, some .inf, [⟨1, 0, some (.fin 6), UNKNOWN⟩], [⟨0, 1, some (.fin 6), UNKNOWN⟩]⟩,
   ⟨7, some .inf, [⟨0, 1, some (.fin 6), UNKNOWN⟩], [⟨1, 0, some (.fin 6), UNKNOWN⟩]⟩,
   ⟨4, some .inf, [], []⟩]

/-- **C199, lazy query without an end.** A lazy query whose edge check accepts edges with distances that are not
numbers need not end: on this consistent roadmap with three nodes and number weights, no lazy query from 1 to 4
does. -/
theorem C199_lazy_endless (fuel : Nat) (pick : Nat → Nat) (limit : Bool) :
    querySingle (exSetup 1) true fuel pick limit (1, serial) (4, serial) exStale = (none, exStale) ∧
    checkGraphLinkage exStale = .ok true := by
  refine ⟨?_, by decide +kernel⟩
  have h1 : addNodeToRoadmap (exSetup 1) serial .newStateToRoadmap 1 exStale = (.ok 0, exStale) := by
    decide +kernel
  have h2 : addNodeToRoadmap (exSetup 1) serial .roadmapToNewState 4 exStale = (.ok 2, exStale) := by
    decide +kernel
  simp only [querySingle, M.bind_apply, h1, h2, M.pure_apply, if_true]
  unfold NanAstar.performLazyAstarValues
  rw [NanAstar.C195_endless fuel pick exStale 0 2 _ limit ?_ (by decide) (by decide) (by decide) ?_
    (fun u => u = 0 ∨ u = 1) 1 ?_ (Or.inr rfl) ?_]
  · rfl
  · intro n hn e he
    simp only [exStale, List.mem_cons, List.not_mem_nil, or_false] at hn
    rcases hn with rfl | rfl | rfl
    · simp only [List.mem_singleton] at he; subst he; exact ⟨by decide, ⟨true, rfl⟩, fun _ => ⟨none, rfl⟩⟩
    · simp only [List.mem_singleton] at he; subst he; exact ⟨by decide, ⟨true, rfl⟩, fun _ => ⟨none, rfl⟩⟩
    · cases he
  · rintro u w ⟨n, hn, e, he, h1, _⟩
    have hn' := List.mem_of_getElem? hn.2
    simp only [exStale, List.mem_cons, List.not_mem_nil, or_false] at hn'
    rcases hn' with rfl | rfl | rfl
    · simp only [List.mem_singleton] at he; subst he; exact absurd h1 (by decide)
    · simp only [List.mem_singleton] at he; subst he; exact absurd h1 (by decide)
    · cases he
  · exact ⟨_, ⟨by decide, rfl⟩, _, List.mem_cons_self, rfl, rfl, rfl⟩
  · rintro u (rfl | rfl)
    · exact ⟨1, none, .inr rfl, _, ⟨by decide, rfl⟩, _, List.mem_cons_self, rfl, rfl, rfl⟩
    · exact ⟨0, none, .inl rfl, _, ⟨by decide, rfl⟩, _, List.mem_cons_self, rfl, rfl, rfl⟩

/-- the query that uses the stored weights finds that there is no path -/
example : querySingle (exSetup 1) false 10 (fun _ => 0) true (1, serial) (4, serial) exStale =
    (some (.ok ([], some .inf)), exStale) := by decide +kernel

/-! ## Cases that meet the hypotheses -/

/-- A setup in which the edge check accepts exactly the edges whose distance is a number. -/
def exChecked (K : Nat) : Setup Nat (Option Dist) :=
  ⟨exDistance, fun x y => (exDistance x y).isSome, K, true, false⟩

example (x y : Nat) (h : (exChecked 1).edgeValid x y = true) :
    ∃ d, (exChecked 1).distance x y = some d ∧ 0 ≤ d := by
  obtain ⟨d, hd⟩ := Option.isSome_iff_exists.1 h
  refine ⟨d, hd, ?_⟩
  cases d <;> first | exact Nat.zero_le _ | trivial

example : querySingle (exChecked 1) true 20 (fun _ => 0) true (1, serial) (8, serial) exThree =
    (some (.ok ([1, 8], some (.fin 7))), exThree) := by decide +kernel

example : (querySingle (exChecked 1) true 20 (fun _ => 0) true (1, serial) (4, serial) exStale).1 =
    some (.ok ([], some .inf)) := by decide +kernel

/-- the route avoids the edge whose weight is not a number -/
example : querySingle (exSetup 1) false 20 (fun _ => 0) true (1, serial) (8, serial) exThree =
    (some (.ok ([1, 4, 8], some (.fin 7))), exThree) := by decide +kernel

/-- no node of the roadmap has a number as distance from this start -/
example : (querySingle (exSetup 1) false 20 (fun _ => 0) true (7, serial) (8, serial) exThree).1 =
    some (.throws .outOfRange) := by decide +kernel

/-- the same node -/
example : (querySingle (exSetup 1) true 20 (fun _ => 0) true (4, serial) (4, serial) exThree).1 =
    some (.throws .invalidArgument) := by decide +kernel

end Verif.NanPrm
