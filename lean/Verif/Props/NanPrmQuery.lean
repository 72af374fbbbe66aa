import Verif.Props.NanPrm
import Verif.Props.PrmQuery
import Verif.Props.NanDijkstra

/-!
# Properties of queries on roadmaps with distances that may not be a number: C197
-/
namespace Verif.NanPrm
open Verif Verif.Graph Verif.NotANumber
open Verif.Prm (Direction Threads Setup queryDistance KeepsStates StatesAt keepsStates_refl extract_ok followPrevious
  extractSolutionPath)

variable {ν W : Type} [Cost W]

theorem StandsFor.keep {S : Setup ν (Option W)} {dir : Direction} {g g' : Graph ν (Option W)} {state : ν} {i : Int}
    (h : StandsFor S dir g state i) (hk : KeepsStates g g') : StandsFor S dir g' state i := by
  obtain ⟨n, hn, h1⟩ := h
  obtain ⟨n', h2, h3⟩ := hk i.toNat n hn.2
  exact ⟨n', ⟨hn.1, h2⟩, by rw [h3]; exact h1⟩

theorem Inserted.nonNegative {state : ν} {es : List (Int × W × W)} {g g' : Graph ν (Option W)}
    (h : Inserted state es g g') (hg : NanDijkstra.NonNegative g) (hes : ∀ e ∈ es, 0 ≤ e.2.1 ∧ 0 ≤ e.2.2) :
    NanDijkstra.NonNegative g' := by
  intro n' hn' e he w hw
  obtain ⟨i, hi⟩ := List.getElem?_of_mem hn'
  have hlt := (List.getElem?_eq_some_iff.1 hi).1
  rw [h.size] at hlt
  by_cases hig : i < g.length
  · have hold := h.oldNodes i _ (List.getElem?_eq_getElem hig)
    rw [hi] at hold
    injection hold with hold
    rw [hold] at he
    simp only [List.mem_append, List.mem_map, List.mem_filter] at he
    rcases he with he | ⟨x, ⟨hx, _⟩, rfl⟩
    · exact hg _ (List.getElem_mem hig) e he w hw
    · cases hw; exact (hes x hx).2
  · have hig : i = g.length := by omega
    subst hig
    rw [h.newNode] at hi
    injection hi with hi
    subst hi
    simp only [List.mem_map] at he
    obtain ⟨x, hx, rfl⟩ := he
    cases hw; exact (hes x hx).1

theorem nonNegative_bare {g : Graph ν (Option W)} (hg : NanDijkstra.NonNegative g) (state : ν) (d : Option W) :
    NanDijkstra.NonNegative (g ++ [⟨state, d, [], []⟩]) := by
  intro n hn e he
  rcases List.mem_append.1 hn with hn | hn
  · exact hg n hn e he
  · rw [List.mem_singleton] at hn
    subst hn
    cases he

/-- What adding one state does to a roadmap that can be searched. -/
theorem add_ready (hinf : (0 : W) < Cost.inf) (S : Setup ν (Option W)) (threads : Threads) (ht : threads.Ok)
    (dir : Direction) (state : ν) (hd : S.symmetric = true ∨ dir = .roadmapToNewState)
    (g : Graph ν (Option W)) (hi : Inv g) (hn : NanDijkstra.NonNegative g) :
    (∃ i g', addNodeToRoadmap S threads dir state g = (.ok i, g') ∧ Inv g' ∧ NanDijkstra.NonNegative g' ∧
      StandsFor S dir g' state i ∧ KeepsStates g g') ∨
    (∃ g', addNodeToRoadmap S threads dir state g = (.throws .outOfRange, g') ∧ Inv g' ∧ KeepsStates g g' ∧
      ∃ n, threads n = none) := by
  have hinv := addNodeToRoadmap_inv S threads dir state g hi
  rcases add_ends hinf S threads ht dir state g hd with
    ⟨i, n, hn', ha, h0, h1⟩ | ⟨es, g1, h1, h2, h3⟩ | ⟨hser, h1⟩
  · exact .inl ⟨i, g, h1, hi, hn, ⟨n, hn', .inr ⟨ha, h0⟩⟩, keepsStates_refl g⟩
  · rw [h1] at hinv
    exact .inl ⟨_, g1, h1, hinv, h2.nonNegative hn h3, ⟨_, (nodeAt_nat g1 _ _).2 h2.newNode, .inl rfl⟩,
      fun i n hn => ⟨_, h2.oldNodes i n hn, rfl⟩⟩
  · rw [h1] at hinv
    exact .inr ⟨_, h1, hinv, fun i n hn =>
      ⟨n, by rw [List.getElem?_append_left (List.getElem?_eq_some_iff.1 hn).1, hn], rfl⟩, _, hser⟩

theorem addStarts_ready (hinf : (0 : W) < Cost.inf) (S : Setup ν (Option W)) (hs : S.symmetric = true)
    (starts : List (ν × Threads)) (ht : ∀ d ∈ starts, d.2.Ok) (g : Graph ν (Option W)) (hi : Inv g)
    (hn : NanDijkstra.NonNegative g) :
    (∃ is g', addStarts S starts g = (.ok is, g') ∧ Inv g' ∧ NanDijkstra.NonNegative g' ∧ KeepsStates g g' ∧
      is.length = starts.length ∧
      ∀ (k : Nat) d i, starts[k]? = some d → is[k]? = some i → StandsFor S .newStateToRoadmap g' d.1 i) ∨
    (∃ g', addStarts S starts g = (.throws .outOfRange, g') ∧ Inv g' ∧ KeepsStates g g' ∧
      ∃ d ∈ starts, ∃ n, d.2 n = none) := by
  induction starts generalizing g with
  | nil => exact .inl ⟨[], g, rfl, hi, hn, keepsStates_refl g, rfl, by simp⟩
  | cons d starts ih =>
    obtain ⟨state, threads⟩ := d
    rcases add_ready hinf S threads (ht _ (List.mem_cons_self ..)) .newStateToRoadmap state (.inl hs) g hi hn with
      ⟨i, g1, a1, a2, a2', a3, a4⟩ | ⟨g1, a1, a2, a3, n, hser⟩
    · rcases ih (fun d hd => ht d (List.mem_cons_of_mem _ hd)) g1 a2 a2' with
        ⟨is, g2, b1, b2, b2', b3, b4, b5⟩ | ⟨g2, b1, b2, b3, d, hd, hser⟩
      · refine .inl ⟨i :: is, g2, ?_, b2, b2', a4.trans b3, by simp [b4], ?_⟩
        · simp only [addStarts, M.bind_apply, a1, b1, M.pure_apply]
        · intro k d j hk hj
          cases k with
          | zero =>
            simp only [List.getElem?_cons_zero, Option.some.injEq] at hk hj
            subst hk; subst hj
            exact a3.keep b3
          | succ k => exact b5 k d j (by simpa using hk) (by simpa using hj)
      · exact .inr ⟨g2, by simp only [addStarts, M.bind_apply, a1, b1], b2, a4.trans b3, d,
          List.mem_cons_of_mem _ hd, hser⟩
    · exact .inr ⟨g1, by simp only [addStarts, M.bind_apply, a1], a2, a3, _, List.mem_cons_self .., n, hser⟩

theorem bestStart_spec (dist : List (Option W)) (is : List Int) (b0 : Int) (w0 : W)
    (hr : ∀ i ∈ is, ∃ d, 0 ≤ i ∧ dist[i.toNat]? = some (some d)) :
    ∃ b w, bestStart dist is (b0, some w0) = .ok (b, some w) ∧
      ((b = b0 ∧ w = w0) ∨ (b ∈ is ∧ dist[b.toNat]? = some (some w) ∧ w < w0)) ∧ w ≤ w0 ∧
      ∀ i ∈ is, ∀ d, dist[i.toNat]? = some (some d) → w ≤ d := by
  induction is generalizing b0 w0 with
  | nil => exact ⟨b0, w0, rfl, .inl ⟨rfl, rfl⟩, le_refl _, by simp⟩
  | cons i is ih =>
    obtain ⟨d, hi, hd⟩ := hr i (List.mem_cons_self ..)
    have hneg : ¬ i < 0 := by omega
    have hr' : ∀ i ∈ is, ∃ d, 0 ≤ i ∧ dist[i.toNat]? = some (some d) :=
      fun j hj => hr j (List.mem_cons_of_mem _ hj)
    by_cases hlt : d < w0
    · obtain ⟨b, w, h1, h2, h3, h4⟩ := ih i d hr'
      refine ⟨b, w, ?_, .inr ?_, le_trans h3 (le_of_lt hlt), ?_⟩
      · simp only [bestStart, if_neg hneg, hd, NotANumber.lt, hlt, decide_true, if_true, h1]
      · rcases h2 with ⟨rfl, rfl⟩ | ⟨h5, h6, h7⟩
        · exact ⟨List.mem_cons_self .., hd, hlt⟩
        · exact ⟨List.mem_cons_of_mem _ h5, h6, lt_trans h7 hlt⟩
      · intro j hj d' hjd
        rcases List.mem_cons.1 hj with rfl | hj
        · rw [hd] at hjd; cases hjd; exact h3
        · exact h4 j hj d' hjd
    · obtain ⟨b, w, h1, h2, h3, h4⟩ := ih b0 w0 hr'
      refine ⟨b, w, ?_, ?_, h3, ?_⟩
      · simp only [bestStart, if_neg hneg, hd, NotANumber.lt, hlt, decide_false, Bool.false_eq_true, if_false, h1]
      · rcases h2 with h2 | ⟨h5, h6, h7⟩
        · exact .inl h2
        · exact .inr ⟨List.mem_cons_of_mem _ h5, h6, h7⟩
      · intro j hj d' hjd
        rcases List.mem_cons.1 hj with rfl | hj
        · rw [hd] at hjd; cases hjd; exact le_trans h3 (le_of_not_gt hlt)
        · exact h4 j hj d' hjd

theorem followPrevious_walk {g : Graph ν (Option W)} {prev : List Int} {goal : Nat} {vs : List Nat} {c : W}
    (h : NanDijkstra.Walk g prev goal vs c) (hn : vs.Nodup) (hl : vs.getLast? = some goal) :
    ∀ fuel, vs.length ≤ fuel → ∀ u, vs.head? = some u →
      followPrevious prev (goal : Int) fuel (u : Int) = some (.ok (vs.map (fun v : Nat => (v : Int)))) := by
  induction h with
  | here =>
    intro fuel hf u hu
    simp at hu
    subst hu
    obtain ⟨fuel, rfl⟩ : ∃ f, fuel = f + 1 := ⟨fuel - 1, by simp at hf; omega⟩
    simp [followPrevious]
  | @step w v rest x c hp he hw ih =>
    intro fuel hf u hu
    simp at hu
    subst hu
    obtain ⟨fuel, rfl⟩ : ∃ f, fuel = f + 1 := ⟨fuel - 1, by simp at hf; omega⟩
    have hne : ¬ (v : Int) = (goal : Int) := by
      intro h
      have h : v = goal := by omega
      subst h
      rw [List.getLast?_cons_cons] at hl
      have : v ∈ w :: rest := List.mem_of_getLast? hl
      exact (List.nodup_cons.1 hn).1 this
    have h1 := ih (List.nodup_cons.1 hn).2 (by rw [List.getLast?_cons_cons] at hl; exact hl) fuel
      (by simp at hf ⊢; omega) w rfl
    unfold followPrevious
    simp only [ge_iff_le, Int.natCast_nonneg, if_true, if_neg hne, Int.toNat_natCast, hp, h1]
    rfl

theorem walk_via {g : Graph ν (Option W)} (hl : Linked g) {prev : List Int} {goal : Nat}
    (hg : goal < g.length) {vs : List Nat} {c : W}
    (h : NanDijkstra.Walk g prev goal vs c) : RouteVia g goal vs c ∧ ∀ v ∈ vs, v < g.length := by
  induction h with
  | here => exact ⟨.here, by simpa using hg⟩
  | step hp he hw ih =>
    refine ⟨.step he ih.1, ?_⟩
    intro x hx
    rcases List.mem_cons.1 hx with rfl | hx
    · obtain ⟨n, hn, e, hmem, he1, _⟩ := he
      have := (Prm.linked_ins hl _ n ((nodeAt_nat g _ n).2 hn) e hmem).2.2
      omega
    · exact ih.2 x hx

theorem multiStartSearch_ok (hadd : ∀ a : W, a + Cost.inf = Cost.inf) (pick : Nat → Nat)
    (g : Graph ν (Option W)) (hl : Linked g)
    (hn : NanDijkstra.NonNegative g) (is : List Int) (goal : Nat) (hg : goal < g.length)
    (his : ∀ i ∈ is, 0 ≤ i ∧ i < (g.length : Int)) :
    ∃ path cost, multiStartSearch pick g is (goal : Int) = some (.ok (path, some cost)) ∧
      MultiAnswer g is goal path cost := by
  obtain ⟨g1, prev, dist, d1, dl, _, d2⟩ := NanDijkstra.C185_shortest_distances hadd pick g goal hl hn hg
  obtain ⟨g1', prev', dist', d3, pl, pg, dg, d4⟩ := NanDijkstra.C185_predecessors hadd pick g goal hl hn hg
  rw [d1] at d3
  cases d3
  have hdist : ∀ i ∈ is, ∃ d, 0 ≤ i ∧ dist[i.toNat]? = some (some d) ∧
      ∀ c, NanDijkstra.Route g goal i.toNat c → d ≤ c := by
    intro i hi
    have hlt : i.toNat < g.length := by have := his i hi; omega
    obtain ⟨d, e1, e2, _⟩ := d2 i.toNat _ (List.getElem?_eq_getElem hlt)
    exact ⟨d, (his i hi).1, e1, e2⟩
  obtain ⟨b, bw, b1, b2, b3, b4⟩ := bestStart_spec dist is (-1) Cost.inf (fun i hi => by
    obtain ⟨d, h1, h2, _⟩ := hdist i hi; exact ⟨d, h1, h2⟩)
  have hleast : ∀ i ∈ is, ∀ c, NanDijkstra.Route g goal i.toNat c → bw ≤ c := by
    intro i hi c hc
    obtain ⟨d, _, e1, e2⟩ := hdist i hi
    exact le_trans (b4 i hi d e1) (e2 c hc)
  by_cases hinf : bw = Cost.inf
  · refine ⟨[], Cost.inf, ?_, ⟨by rw [← hinf]; exact hleast, Or.inl ⟨rfl, rfl⟩⟩⟩
    simp only [multiStartSearch, d1, b1, multiStartAnswer, hinf, if_true]
  · have hfin : bw < Cost.inf := lt_of_le_of_ne (Cost.le_inf _) hinf
    have hinf' : ¬ (some bw = some Cost.inf) := fun h => hinf (Option.some.inj h)
    rcases b2 with ⟨_, rfl⟩ | ⟨hb, hbd, _⟩
    · exact absurd rfl hinf
    have hbr := his b hb
    obtain ⟨vs, w1, w2, w3, w4, w5⟩ := (d4 b.toNat bw hbd).1 hinf
    obtain ⟨via, hvs⟩ := walk_via hl hg w5
    have hbn : ((b.toNat : Nat) : Int) = b := Int.toNat_of_nonneg hbr.1
    have hbne : ¬ b < 0 := by omega
    by_cases hbg : b.toNat = goal
    · obtain ⟨path, p1, p2⟩ := extract_ok g [goal, goal] (by simpa using hg)
      refine ⟨path, bw, ?_, ⟨hleast, Or.inr ⟨hfin, goal, by rw [← hbg, hbn]; exact hb,
        Or.inl ⟨rfl, ?_, p2⟩⟩⟩⟩
      · have hfol : followPrevious prev (goal : Int) (prev.length + 1) (goal : Int) =
            some (.ok [(goal : Int)]) := by simp [followPrevious]
        simp only [multiStartSearch, d1, b1, multiStartAnswer, if_neg hinf', if_neg hbne, hbg, pg, hfol]
        rw [← hbn, hbg]
        simp only [List.map_cons, List.map_nil] at p1
        simp [p1]
      · rw [hbg, dg] at hbd
        injection hbd with hbd
        exact (Option.some.inj hbd).symm
    · cases w5 with
      | here => simp at w1; exact absurd w1.symm hbg
      | @step u v rest w c hp he hw =>
        simp at w1
        subst w1
        obtain ⟨path, p1, p2⟩ := extract_ok g _ hvs
        rw [List.getLast?_cons_cons] at w4
        have hfol := followPrevious_walk hw (List.nodup_cons.1 w2).2 w4 (prev.length + 1)
          (by rw [pl]; simp at w3 ⊢; omega) u rfl
        refine ⟨path, _, ?_, ⟨hleast, Or.inr ⟨hfin, b.toNat, by rw [hbn]; exact hb,
          Or.inr ⟨hbg, _, rfl, by rw [List.getLast?_cons_cons]; exact w4, w2, via, p2⟩⟩⟩⟩
        simp only [multiStartSearch, d1, b1, multiStartAnswer, if_neg hinf', if_neg hbne, hp, hfol]
        rw [List.map_cons, hbn] at p1
        rw [p1]
        rfl

/-- **C197, several starts.** A query on a consistent roadmap whose weights are not negative or not numbers, with
any distances: either it throws, which only a serial nearest-neighbour query can cause, or every start and the goal
get a node that stands for them and the answer, whose cost is a number, is a cheapest route from one of the starts
to the goal along edges whose weights are numbers. In both cases the roadmap keeps its states and stays
consistent. -/
theorem C197_multi_start (hinf : (0 : W) < Cost.inf) (hadd : ∀ a : W, a + Cost.inf = Cost.inf)
    (S : Setup ν (Option W)) (hs : S.symmetric = true)
    (pick : Nat → Nat) (starts : List (ν × Threads))
    (goal : ν × Threads) (ht : ∀ d ∈ starts, d.2.Ok) (htg : goal.2.Ok) (g : Graph ν (Option W))
    (hl : Linked g) (hm : Mirrored g) (hn : NanDijkstra.NonNegative g) :
    ∃ g', Linked g' ∧ Mirrored g' ∧ KeepsStates g g' ∧
      ((queryMultiStart S pick starts goal g = (some (.throws .outOfRange), g') ∧
        ∃ d ∈ goal :: starts, ∃ n, d.2 n = none) ∨
       ∃ (is : List Int) (j : Nat) (path : List ν) (cost : W),
        queryMultiStart S pick starts goal g = (some (.ok (path, some cost)), g') ∧
        is.length = starts.length ∧
        (∀ (k : Nat) d i, starts[k]? = some d → is[k]? = some i →
          StandsFor S .newStateToRoadmap g' d.1 i) ∧
        StandsFor S .roadmapToNewState g' goal.1 (j : Int) ∧ MultiAnswer g' is j path cost) := by
  rcases addStarts_ready hinf S hs starts ht g (Prm.inv_of_linked hl hm) hn with
    ⟨is, g1, a1, a2, a2', a3, a4, a5⟩ | ⟨g1, a1, a2, a3, d, hd, hser⟩
  · rcases add_ready hinf S goal.2 htg .roadmapToNewState goal.1 (Or.inr rfl) g1 a2 a2' with
      ⟨j, g2, b1, b2, b2', b3, b4⟩ | ⟨g2, b1, b2, b3, n, hser⟩
    · have hj : 0 ≤ j ∧ j < (g2.length : Int) := b3.choose_spec.1.range
      have hjn : ((j.toNat : Nat) : Int) = j := Int.toNat_of_nonneg hj.1
      have his : ∀ i ∈ is, 0 ≤ i ∧ i < (g2.length : Int) := by
        intro i hi
        obtain ⟨k, hk⟩ := List.getElem?_of_mem hi
        have hkl := (List.getElem?_eq_some_iff.1 hk).1
        rw [a4] at hkl
        obtain ⟨n, hn, _⟩ := (a5 k _ i (List.getElem?_eq_getElem hkl) hk).keep b4
        exact hn.range
      obtain ⟨path, cost, c1, c2⟩ := multiStartSearch_ok hadd pick g2 b2.linked b2' is j.toNat
        (by omega) his
      refine ⟨g2, b2.linked, b2.mir, a3.trans b4, .inr ⟨is, j.toNat, path, cost, ?_, a4,
        fun k d i hk hi => (a5 k d i hk hi).keep b4, by rw [hjn]; exact b3, c2⟩⟩
      rw [hjn] at c1
      simp only [queryMultiStart, M.bind_apply, a1, b1, M.pure_apply, c1]
    · refine ⟨g2, b2.linked, b2.mir, a3.trans b3, .inl ⟨?_, goal, List.mem_cons_self .., n, hser⟩⟩
      simp only [queryMultiStart, M.bind_apply, a1, b1]
  · refine ⟨g1, a2.linked, a2.mir, a3, .inl ⟨?_, d, List.mem_cons_of_mem _ hd, hser⟩⟩
    simp only [queryMultiStart, M.bind_apply, a1]

theorem bestSolution_spec (sols : List (List ν × W)) (bp : List ν) (bc : W) :
    ∃ p c, bestSolution (sols.map fun s => (s.1, some s.2)) (bp, some bc) = (p, some c) ∧
      ((p = bp ∧ c = bc) ∨ ((p, c) ∈ sols ∧ c < bc)) ∧ c ≤ bc ∧ ∀ s ∈ sols, c ≤ s.2 := by
  induction sols generalizing bp bc with
  | nil => exact ⟨bp, bc, rfl, .inl ⟨rfl, rfl⟩, le_refl _, by simp⟩
  | cons s sols ih =>
    rw [List.map_cons]
    unfold bestSolution
    by_cases hs : s.2 < bc
    · obtain ⟨p, c, h0, h1, h2, h3⟩ := ih s.1 s.2
      refine ⟨p, c, ?_, .inr ?_, le_trans h2 (le_of_lt hs), ?_⟩
      · simp only [NotANumber.lt, hs, decide_true, if_true, h0]
      · rcases h1 with ⟨rfl, rfl⟩ | ⟨h1, h4⟩
        · exact ⟨List.mem_cons_self .., hs⟩
        · exact ⟨List.mem_cons_of_mem _ h1, lt_trans h4 hs⟩
      · intro t ht
        rcases List.mem_cons.1 ht with rfl | ht
        · exact h2
        · exact h3 t ht
    · obtain ⟨p, c, h0, h1, h2, h3⟩ := ih bp bc
      refine ⟨p, c, ?_, ?_, h2, ?_⟩
      · simp only [NotANumber.lt, hs, decide_false, Bool.false_eq_true, if_false, h0]
      · rcases h1 with h1 | ⟨h1, h4⟩
        · exact .inl h1
        · exact .inr ⟨List.mem_cons_of_mem _ h1, h4⟩
      · intro t ht
        rcases List.mem_cons.1 ht with rfl | ht
        · exact le_trans h2 (le_of_not_gt hs)
        · exact h3 t ht

/-- **C197, several goals.** Each goal is queried on its own copy of the roadmap. If one of these queries throws, so
does the whole. Otherwise the answer is that of a goal with the least cost, or no path and infinity if no goal has a
finite cost. -/
theorem C197_multi_goal (hinf : (0 : W) < Cost.inf) (hadd : ∀ a : W, a + Cost.inf = Cost.inf)
    (S : Setup ν (Option W)) (hs : S.symmetric = true)
    (pick : Nat → Nat) (starts goals : List (ν × Threads))
    (ht : ∀ d ∈ starts, d.2.Ok) (htg : ∀ d ∈ goals, d.2.Ok) (g : Graph ν (Option W))
    (hl : Linked g) (hm : Mirrored g) (hn : NanDijkstra.NonNegative g) :
    (queryMultiMulti S pick starts goals g = some (.throws .outOfRange) ∧
      ∃ goal ∈ goals, (queryMultiStart S pick starts goal g).1 = some (.throws .outOfRange)) ∨
    ∃ path cost, queryMultiMulti S pick starts goals g = some (.ok (path, some cost)) ∧
      (∀ goal ∈ goals, ∃ p c, (queryMultiStart S pick starts goal g).1 = some (.ok (p, some c)) ∧
        cost ≤ c) ∧
      ((path = [] ∧ cost = Cost.inf) ∨
       (cost < Cost.inf ∧ ∃ goal ∈ goals,
        (queryMultiStart S pick starts goal g).1 = some (.ok (path, some cost)))) := by
  have key : (solutionsForGoals S pick starts g goals = some (.throws .outOfRange) ∧
        ∃ goal ∈ goals, (queryMultiStart S pick starts goal g).1 = some (.throws .outOfRange)) ∨
      ∃ sols : List (List ν × W),
        solutionsForGoals S pick starts g goals = some (.ok (sols.map fun s => (s.1, some s.2))) ∧
        (∀ s ∈ sols, ∃ goal ∈ goals, (queryMultiStart S pick starts goal g).1 = some (.ok (s.1, some s.2))) ∧
        (∀ goal ∈ goals, ∃ s ∈ sols,
          (queryMultiStart S pick starts goal g).1 = some (.ok (s.1, some s.2))) := by
    induction goals with
    | nil => exact .inr ⟨[], rfl, by simp, by simp⟩
    | cons goal goals ih =>
      obtain ⟨g', _, _, _, h⟩ := C197_multi_start hinf hadd S hs pick starts goal ht
        (htg goal (List.mem_cons_self ..)) g hl hm hn
      rcases h with ⟨e1, _⟩ | ⟨is, j, path, cost, e1, _⟩
      · have e2 : (queryMultiStart S pick starts goal g).1 = some (.throws .outOfRange) := by rw [e1]
        exact .inl ⟨by simp only [solutionsForGoals, e2], goal, List.mem_cons_self .., e2⟩
      · have e2 : (queryMultiStart S pick starts goal g).1 = some (.ok (path, some cost)) := by rw [e1]
        rcases ih (fun d hd => htg d (List.mem_cons_of_mem _ hd)) with ⟨h1, goal', h2, h3⟩ | ⟨sols, h1, h2, h3⟩
        · exact .inl ⟨by simp only [solutionsForGoals, e2, h1], goal', List.mem_cons_of_mem _ h2, h3⟩
        · refine .inr ⟨(path, cost) :: sols, by simp only [solutionsForGoals, e2, h1, List.map_cons], ?_, ?_⟩
          · intro s hs
            rcases List.mem_cons.1 hs with rfl | hs
            · exact ⟨goal, List.mem_cons_self .., e2⟩
            · obtain ⟨goal', h4, h5⟩ := h2 s hs
              exact ⟨goal', List.mem_cons_of_mem _ h4, h5⟩
          · intro goal' hg
            rcases List.mem_cons.1 hg with rfl | hg
            · exact ⟨_, List.mem_cons_self .., e2⟩
            · obtain ⟨s, h4, h5⟩ := h3 goal' hg
              exact ⟨s, List.mem_cons_of_mem _ h4, h5⟩
  rcases key with ⟨h1, h2⟩ | ⟨sols, h1, h2, h3⟩
  · exact .inl ⟨by simp only [queryMultiMulti, h1], h2⟩
  · obtain ⟨p, c, h0, h4, h5, h6⟩ := bestSolution_spec sols ([] : List ν) (Cost.inf : W)
    refine .inr ⟨p, c, by simp only [queryMultiMulti, h1, h0], ?_, ?_⟩
    · intro goal hg
      obtain ⟨s, h7, h8⟩ := h3 goal hg
      exact ⟨s.1, s.2, h8, h6 s h7⟩
    · rcases h4 with h4 | ⟨h4, h7⟩
      · exact .inl h4
      · obtain ⟨goal, h8, h9⟩ := h2 _ h4
        exact .inr ⟨h7, goal, h8, h9⟩

/-! ## Cases that meet the hypotheses -/

/-- The states 1, 4 and 8; the edge between 1 and 8 has a weight that is not a number. -/
def exThree : Graph Nat (Option Dist) :=
  [⟨1, some .inf, [⟨1, 0, some (.fin 3), UNKNOWN⟩, ⟨2, 0, none, UNKNOWN⟩],
      [⟨0, 1, some (.fin 3), UNKNOWN⟩, ⟨0, 2, none, UNKNOWN⟩]⟩,
   ⟨4, some .inf, [⟨0, 1, some (.fin 3), UNKNOWN⟩, ⟨2, 1, some (.fin 4), UNKNOWN⟩],
      [⟨1, 0, some (.fin 3), UNKNOWN⟩, ⟨1, 2, some (.fin 4), UNKNOWN⟩]⟩,
   ⟨8, some .inf, [⟨0, 2, none, UNKNOWN⟩, ⟨1, 2, some (.fin 4), UNKNOWN⟩],
      [⟨2, 0, none, UNKNOWN⟩, ⟨2, 1, some (.fin 4), UNKNOWN⟩]⟩]

example : NanDijkstra.NonNegative exThree := by
  intro n hn e he w hw
  simp only [exThree, List.mem_cons, List.not_mem_nil, or_false] at hn
  rcases hn with rfl | rfl | rfl <;> simp only [List.mem_cons, List.not_mem_nil, or_false] at he <;>
    rcases he with rfl | rfl <;> simp at hw <;> subst hw <;> decide

example : checkGraphLinkage exThree = .ok true := by decide +kernel

/-- the route avoids the edge whose weight is not a number -/
example : queryMultiStart (exSetup 1) (fun _ => 0) [(1, serial)] (8, serial) exThree =
    (some (.ok ([1, 4, 8], some (.fin 7))), exThree) := by decide +kernel

/-- no node of the roadmap has a number as distance from this start -/
example : (queryMultiStart (exSetup 1) (fun _ => 0) [(7, serial)] (8, serial) exThree).1 =
    some (.throws .outOfRange) := by decide +kernel

/-- in parallel the start stays alone and no path is found -/
example : (queryMultiStart (exSetup 1) (fun _ => 0) [(7, fun n => some [List.range n])] (8, serial) exThree).1 =
    some (.ok ([], some .inf)) := by decide +kernel

example : queryMultiMulti (exSetup 1) (fun _ => 0) [(1, serial)] [(8, serial), (4, serial)] exThree =
    some (.ok ([1, 4], some (.fin 3))) := by decide +kernel

end Verif.NanPrm
