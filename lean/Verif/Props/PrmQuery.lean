import Verif.Props.Prm

/-!
# Properties of the roadmap planner's queries: C62, C63
-/
namespace Verif.Prm
open Verif Verif.Graph Verif.Knn

variable {ν W : Type} [Cost W]

omit [Cost W] in
theorem keepsStates_refl (g : Graph ν W) : KeepsStates g g := fun _ n h => ⟨n, h, rfl⟩

omit [Cost W] in
theorem KeepsStates.trans {a b c : Graph ν W} (h : KeepsStates a b) (h' : KeepsStates b c) :
    KeepsStates a c := by
  intro i n hn
  obtain ⟨m, h1, h2⟩ := h i n hn
  obtain ⟨k, h3, h4⟩ := h' i m h1
  exact ⟨k, h3, h4.trans h2⟩

theorem StandsFor.keep {S : Setup ν W} {dir : Direction} {g g' : Graph ν W} {state : ν} {i : Int}
    (h : StandsFor S dir g state i) (hk : KeepsStates g g') : StandsFor S dir g' state i := by
  obtain ⟨n, hn, h1⟩ := h
  obtain ⟨n', h2, h3⟩ := hk i.toNat n hn.2
  exact ⟨n', ⟨hn.1, h2⟩, by rw [h3]; exact h1⟩

/-- The properties of a roadmap that the queries rely on and that adding nodes keeps. -/
structure Ready (S : Setup ν W) (g : Graph ν W) : Prop where
  inv : Inv g
  nonneg : Dijkstra.NonNegative g

theorem Ready.insert {S : Setup ν W} {dir : Direction} {g g' : Graph ν W} (h : Ready S g) {state : ν}
    {R : List (Int × W)} {es : List (Int × W × W)} (hi : Inv g') (hins : Inserted state es g g')
    (hes : JoinedNeighbors S dir g state R es) : Ready S g' := by
  refine ⟨hi, ?_⟩
  intro n' hn' e he
  obtain ⟨i, hi'⟩ := List.getElem?_of_mem hn'
  have hlt := (List.getElem?_eq_some_iff.1 hi').1
  rw [hins.size] at hlt
  by_cases hig : i < g.length
  · have hold := hins.oldNodes i _ (List.getElem?_eq_getElem hig)
    rw [hi'] at hold
    injection hold with hold
    rw [hold] at he
    simp only [List.mem_append, List.mem_map, List.mem_filter] at he
    rcases he with he | ⟨x, ⟨hx, _⟩, rfl⟩
    · exact h.nonneg _ (List.getElem_mem hig) e he
    · obtain ⟨_, m, _, _, _, h4, _⟩ := (hes.2 x.1 x.2.1 x.2.2).1 hx
      exact h4
  · have hig : i = g.length := by omega
    subst hig
    rw [hins.newNode] at hi'
    injection hi' with hi'
    subst hi'
    simp only [List.mem_map] at he
    obtain ⟨x, hx, rfl⟩ := he
    obtain ⟨_, m, _, _, h3, _⟩ := (hes.2 x.1 x.2.1 x.2.2).1 hx
    exact h3

theorem Inserted.keeps {state : ν} {es : List (Int × W × W)} {g g' : Graph ν W}
    (h : Inserted state es g g') : KeepsStates g g' :=
  fun i n hn => ⟨_, h.oldNodes i n hn, rfl⟩

theorem add_ready (S : Setup ν W) (threads : Threads) (ht : threads.Ok) (dir : Direction) (state : ν)
    (hd : S.symmetric = true ∨ dir = .roadmapToNewState)
    (hf : ∀ a b, S.distance a b < Cost.inf) (g : Graph ν W) (h : Ready S g) :
    ∃ i g', addNodeToRoadmap S threads dir state g = (.ok i, g') ∧ Ready S g' ∧
      StandsFor S dir g' state i ∧ KeepsStates g g' := by
  obtain ⟨R, hR, hcase⟩ := C54_add S threads ht dir state g hd (fun n _ => by
    unfold queryDistance; split <;> apply hf)
  rcases hcase with ⟨hdup, e, he, h0, hres⟩ | ⟨_, es, g', hres, hins, hes⟩
  · obtain ⟨n, hn, hq⟩ := neighbors_nodes hR e he
    exact ⟨e.1, g, hres, h, ⟨n, hn, Or.inr ⟨hdup, by rw [← hq, h0]⟩⟩, keepsStates_refl g⟩
  · have hi : Inv g' := by
      have := addNodeToRoadmap_inv S threads dir state g h.inv
      rw [hres] at this; exact this
    exact ⟨_, g', hres, h.insert hi hins hes,
      ⟨_, (nodeAt_nat g' _ _).2 hins.newNode, Or.inl rfl⟩, hins.keeps⟩

theorem addStarts_ready (S : Setup ν W) (hs : S.symmetric = true)
    (hf : ∀ a b, S.distance a b < Cost.inf) (starts : List (ν × Threads))
    (ht : ∀ d ∈ starts, d.2.Ok) (g : Graph ν W) (h : Ready S g) :
    ∃ is g', addStarts S starts g = (.ok is, g') ∧ Ready S g' ∧ KeepsStates g g' ∧
      is.length = starts.length ∧
      ∀ (k : Nat) d i, starts[k]? = some d → is[k]? = some i →
        StandsFor S .newStateToRoadmap g' d.1 i := by
  induction starts generalizing g with
  | nil => exact ⟨[], g, rfl, h, keepsStates_refl g, rfl, by simp⟩
  | cons d starts ih =>
    obtain ⟨state, threads⟩ := d
    obtain ⟨i, g1, a1, a2, a3, a4⟩ := add_ready S threads (ht _ (List.mem_cons_self ..))
      .newStateToRoadmap state (Or.inl hs) hf g h
    obtain ⟨is, g2, b1, b2, b3, b4, b5⟩ := ih (fun d hd => ht d (List.mem_cons_of_mem _ hd)) g1 a2
    refine ⟨i :: is, g2, ?_, b2, a4.trans b3, by simp [b4], ?_⟩
    · simp only [addStarts, M.bind_apply, a1, b1, M.pure_apply]
    · intro k d j hk hj
      cases k with
      | zero =>
        simp only [List.getElem?_cons_zero, Option.some.injEq] at hk hj
        subst hk; subst hj
        exact a3.keep b3
      | succ k => exact b5 k d j (by simpa using hk) (by simpa using hj)

theorem bestStart_spec (dist : List W) (is : List Int) (best : Int × W)
    (hr : ∀ i ∈ is, 0 ≤ i ∧ i < (dist.length : Int)) :
    ∃ b, bestStart dist is best = .ok b ∧
      (b = best ∨ (b.1 ∈ is ∧ dist[b.1.toNat]? = some b.2 ∧ b.2 < best.2)) ∧ b.2 ≤ best.2 ∧
      ∀ i ∈ is, ∀ d, dist[i.toNat]? = some d → b.2 ≤ d := by
  induction is generalizing best with
  | nil => exact ⟨best, rfl, Or.inl rfl, le_refl _, by simp⟩
  | cons i is ih =>
    have hi := hr i (List.mem_cons_self ..)
    have hlt : i.toNat < dist.length := by omega
    have hd : dist[i.toNat]? = some dist[i.toNat] := List.getElem?_eq_getElem hlt
    have hneg : ¬ i < 0 := by omega
    obtain ⟨b, h1, h2, h3, h4⟩ := ih (if dist[i.toNat] < best.2 then (i, dist[i.toNat]) else best)
      (fun j hj => hr j (List.mem_cons_of_mem _ hj))
    refine ⟨b, by simp only [bestStart, if_neg hneg, hd, h1], ?_⟩
    by_cases hlt' : dist[i.toNat] < best.2
    · simp only [if_pos hlt'] at h2 h3
      refine ⟨Or.inr ?_, le_trans h3 (le_of_lt hlt'), ?_⟩
      · rcases h2 with rfl | ⟨h5, h6, h7⟩
        · exact ⟨List.mem_cons_self .., hd, hlt'⟩
        · exact ⟨List.mem_cons_of_mem _ h5, h6, lt_trans h7 hlt'⟩
      · intro j hj d hjd
        rcases List.mem_cons.1 hj with rfl | hj
        · rw [hd] at hjd; injection hjd with hjd; rw [← hjd]; exact h3
        · exact h4 j hj d hjd
    · simp only [if_neg hlt'] at h2 h3
      refine ⟨?_, h3, ?_⟩
      · rcases h2 with rfl | ⟨h5, h6, h7⟩
        · exact Or.inl rfl
        · exact Or.inr ⟨List.mem_cons_of_mem _ h5, h6, h7⟩
      · intro j hj d hjd
        rcases List.mem_cons.1 hj with rfl | hj
        · rw [hd] at hjd; injection hjd with hjd; rw [← hjd]
          exact le_trans h3 (le_of_not_gt hlt')
        · exact h4 j hj d hjd

theorem followPrevious_walk {g : Graph ν W} {prev : List Int} {goal : Nat} {vs : List Nat} {c : W}
    (h : Dijkstra.Walk g prev goal vs c) (hn : vs.Nodup) (hl : vs.getLast? = some goal) :
    ∀ fuel, vs.length ≤ fuel → ∀ u, vs.head? = some u →
      followPrevious prev (goal : Int) fuel (u : Int) = some (.ok (vs.map (fun v : Nat => (v : Int)))) := by
  induction h with
  | here =>
    intro fuel hf u hu
    simp at hu
    subst hu
    obtain ⟨fuel, rfl⟩ : ∃ f, fuel = f + 1 := ⟨fuel - 1, by simp at hf; omega⟩
    simp [followPrevious]
  | @step w v rest x c hp he hw ih =>
    intro fuel hf u hu
    simp at hu
    subst hu
    obtain ⟨fuel, rfl⟩ : ∃ f, fuel = f + 1 := ⟨fuel - 1, by simp at hf; omega⟩
    have hne : ¬ (v : Int) = (goal : Int) := by
      intro h
      have h : v = goal := by omega
      subst h
      rw [List.getLast?_cons_cons] at hl
      have : v ∈ w :: rest := List.mem_of_getLast? hl
      exact (List.nodup_cons.1 hn).1 this
    have h1 := ih (List.nodup_cons.1 hn).2 (by rw [List.getLast?_cons_cons] at hl; exact hl) fuel
      (by simp at hf ⊢; omega) w rfl
    unfold followPrevious
    simp only [ge_iff_le, Int.natCast_nonneg, if_true, if_neg hne, Int.toNat_natCast, hp, h1]
    rfl

theorem walk_via {g : Graph ν W} (hl : Linked g) {prev : List Int} {goal : Nat}
    (hg : goal < g.length) {vs : List Nat} {c : W}
    (h : Dijkstra.Walk g prev goal vs c) : RouteVia g goal vs c ∧ ∀ v ∈ vs, v < g.length := by
  induction h with
  | here => exact ⟨.here, by simpa using hg⟩
  | step hp he hw ih =>
    refine ⟨.step he ih.1, ?_⟩
    intro x hx
    rcases List.mem_cons.1 hx with rfl | hx
    · obtain ⟨n, hn, e, hmem, he1, _⟩ := he
      have := (linked_ins hl _ n ((nodeAt_nat g _ n).2 hn) e hmem).2.2
      omega
    · exact ih.2 x hx

omit [Cost W] in
theorem extract_ok (g : Graph ν W) (vs : List Nat) (h : ∀ v ∈ vs, v < g.length) :
    ∃ path, extractSolutionPath g (vs.map (fun v : Nat => (v : Int))) = .ok path ∧
      StatesAt g vs path := by
  induction vs with
  | nil => exact ⟨[], rfl, rfl⟩
  | cons v vs ih =>
    obtain ⟨path, h1, h2⟩ := ih (fun v hv => h v (List.mem_cons_of_mem _ hv))
    have hv := h v (List.mem_cons_self ..)
    have hn : getNode g (v : Int) = .ok g[v] := by
      unfold getNode
      rw [nodePos_ok (by omega)]
      simp [List.getElem?_eq_getElem hv]
    refine ⟨g[v].value :: path, ?_, ?_⟩
    · simp only [List.map_cons, extractSolutionPath, hn, Out.bind_ok, h1]
    · unfold StatesAt at h2 ⊢
      simp only [List.map_cons, h2, List.getElem?_eq_getElem hv, Option.map_some]

theorem multiStartSearch_ok (pick : Nat → Nat) (g : Graph ν W) (hl : Linked g)
    (hn : Dijkstra.NonNegative g) (is : List Int) (goal : Nat) (hg : goal < g.length)
    (his : ∀ i ∈ is, 0 ≤ i ∧ i < (g.length : Int)) :
    ∃ path cost, multiStartSearch pick g is (goal : Int) = some (.ok (path, cost)) ∧
      MultiAnswer g is goal path cost := by
  obtain ⟨g1, prev, dist, d1, dl, _, d2⟩ := Dijkstra.C16_shortest_distances pick g goal hl hn hg
  obtain ⟨g1', prev', dist', d3, pl, pg, dg, d4⟩ := Dijkstra.C17_predecessors pick g goal hl hn hg
  rw [d1] at d3
  cases d3
  obtain ⟨b, b1, b2, b3, b4⟩ := bestStart_spec dist is (-1, Cost.inf) (fun i hi => by
    have := his i hi; omega)
  have hleast : ∀ i ∈ is, ∀ c, Dijkstra.Route g goal i.toNat c → b.2 ≤ c := by
    intro i hi c hc
    have hlt : i.toNat < g.length := by have := his i hi; omega
    obtain ⟨d, e1, e2, _⟩ := d2 i.toNat _ (List.getElem?_eq_getElem hlt)
    exact le_trans (b4 i hi d e1) (e2 c hc)
  by_cases hinf : b.2 = Cost.inf
  · refine ⟨[], Cost.inf, ?_, ⟨by rw [← hinf]; exact hleast, Or.inl ⟨rfl, rfl⟩⟩⟩
    simp only [multiStartSearch, d1, b1, multiStartAnswer, if_pos hinf]
  · have hfin : b.2 < Cost.inf := lt_of_le_of_ne (Cost.le_inf _) hinf
    rcases b2 with rfl | ⟨hb, hbd, _⟩
    · exact absurd rfl hinf
    have hbr := his b.1 hb
    obtain ⟨vs, w1, w2, w3, w4, w5⟩ := (d4 b.1.toNat b.2 hbd).1 hinf
    obtain ⟨via, hvs⟩ := walk_via hl hg w5
    have hbn : ((b.1.toNat : Nat) : Int) = b.1 := Int.toNat_of_nonneg hbr.1
    by_cases hbg : b.1.toNat = goal
    · obtain ⟨path, p1, p2⟩ := extract_ok g [goal, goal] (by simpa using hg)
      refine ⟨path, b.2, ?_, ⟨hleast, Or.inr ⟨hfin, goal, by rw [← hbg, hbn]; exact hb,
        Or.inl ⟨rfl, ?_, p2⟩⟩⟩⟩
      · have hfol : followPrevious prev (goal : Int) (prev.length + 1) (goal : Int) =
            some (.ok [(goal : Int)]) := by simp [followPrevious]
        have hbne : ¬ b.1 < 0 := by omega
        simp only [multiStartSearch, d1, b1, multiStartAnswer, if_neg hinf, if_neg hbne, hbg, pg, hfol]
        rw [← hbn, hbg]
        simp only [List.map_cons, List.map_nil] at p1
        simp [p1]
      · rw [hbg, dg] at hbd
        injection hbd with hbd
        exact hbd.symm
    · generalize hbc : b.2 = bc at w5 via
      cases w5 with
      | here => simp at w1; exact absurd w1.symm hbg
      | @step u v rest w c hp he hw =>
        simp at w1
        subst w1
        obtain ⟨path, p1, p2⟩ := extract_ok g _ hvs
        rw [List.getLast?_cons_cons] at w4
        have hfol := followPrevious_walk hw (List.nodup_cons.1 w2).2 w4 (prev.length + 1)
          (by rw [pl]; simp at w3 ⊢; omega) u rfl
        refine ⟨path, b.2, ?_, ⟨hleast, Or.inr ⟨hfin, b.1.toNat, by rw [hbn]; exact hb,
          Or.inr ⟨hbg, _, rfl, by rw [List.getLast?_cons_cons]; exact w4, w2, by rw [hbc]; exact via, p2⟩⟩⟩⟩
        have hbne : ¬ b.1 < 0 := by omega
        simp only [multiStartSearch, d1, b1, multiStartAnswer, if_neg hinf, if_neg hbne, hp, hfol]
        rw [List.map_cons, hbn] at p1
        rw [p1]
        rfl

/-- **C62.** A query with several starts, on a consistent roadmap with weights that are not negative:
every start and the goal get a node that stands for them, the roadmap keeps its states and stays
consistent, and the answer is a cheapest route from one of the starts to the goal. -/
theorem C62_multi_start (S : Setup ν W) (hs : S.symmetric = true)
    (hf : ∀ a b, S.distance a b < Cost.inf) (pick : Nat → Nat) (starts : List (ν × Threads))
    (goal : ν × Threads) (ht : ∀ d ∈ starts, d.2.Ok) (htg : goal.2.Ok) (g : Graph ν W)
    (hl : Linked g) (hm : Mirrored g) (hn : Dijkstra.NonNegative g) :
    ∃ (is : List Int) (j : Nat) (g' : Graph ν W) (path : List ν) (cost : W),
      queryMultiStart S pick starts goal g = (some (.ok (path, cost)), g') ∧
      is.length = starts.length ∧
      (∀ (k : Nat) d i, starts[k]? = some d → is[k]? = some i →
        StandsFor S .newStateToRoadmap g' d.1 i) ∧
      StandsFor S .roadmapToNewState g' goal.1 (j : Int) ∧ KeepsStates g g' ∧
      Linked g' ∧ Mirrored g' ∧ MultiAnswer g' is j path cost := by
  obtain ⟨is, g1, a1, a2, a3, a4, a5⟩ := addStarts_ready S hs hf starts ht g
    ⟨inv_of_linked hl hm, hn⟩
  obtain ⟨j, g2, b1, b2, b3, b4⟩ := add_ready S goal.2 htg .roadmapToNewState goal.1 (Or.inr rfl) hf
    g1 a2
  have hj : 0 ≤ j ∧ j < (g2.length : Int) := b3.choose_spec.1.range
  have hjn : ((j.toNat : Nat) : Int) = j := Int.toNat_of_nonneg hj.1
  have his : ∀ i ∈ is, 0 ≤ i ∧ i < (g2.length : Int) := by
    intro i hi
    obtain ⟨k, hk⟩ := List.getElem?_of_mem hi
    have hkl := (List.getElem?_eq_some_iff.1 hk).1
    rw [a4] at hkl
    obtain ⟨n, hn, _⟩ := (a5 k _ i (List.getElem?_eq_getElem hkl) hk).keep b4
    exact hn.range
  obtain ⟨path, cost, c1, c2⟩ := multiStartSearch_ok pick g2 b2.inv.linked b2.nonneg is j.toNat
    (by omega) his
  refine ⟨is, j.toNat, g2, path, cost, ?_, a4,
    fun k d i hk hi => (a5 k d i hk hi).keep b4, by rw [hjn]; exact b3, a3.trans b4, b2.inv.linked,
    b2.inv.mir, c2⟩
  rw [hjn] at c1
  simp only [queryMultiStart, M.bind_apply, a1, b1, M.pure_apply, c1]

theorem bestSolution_spec (sols : List (List ν × W)) (best : List ν × W) :
    (bestSolution sols best = best ∨ (bestSolution sols best ∈ sols ∧
      (bestSolution sols best).2 < best.2)) ∧ (bestSolution sols best).2 ≤ best.2 ∧
    ∀ s ∈ sols, (bestSolution sols best).2 ≤ s.2 := by
  induction sols generalizing best with
  | nil => exact ⟨Or.inl rfl, le_refl _, by simp⟩
  | cons s sols ih =>
    unfold bestSolution
    obtain ⟨h1, h2, h3⟩ := ih (if s.2 < best.2 then s else best)
    by_cases hs : s.2 < best.2
    · simp only [if_pos hs] at h1 h2 h3 ⊢
      refine ⟨Or.inr ?_, le_trans h2 (le_of_lt hs), ?_⟩
      · rcases h1 with h1 | ⟨h1, h4⟩
        · rw [h1]; exact ⟨List.mem_cons_self .., hs⟩
        · exact ⟨List.mem_cons_of_mem _ h1, lt_trans h4 hs⟩
      · intro t ht
        rcases List.mem_cons.1 ht with rfl | ht
        · exact h2
        · exact h3 t ht
    · simp only [if_neg hs] at h1 h2 h3 ⊢
      refine ⟨?_, h2, ?_⟩
      · rcases h1 with h1 | ⟨h1, h4⟩
        · exact Or.inl h1
        · exact Or.inr ⟨List.mem_cons_of_mem _ h1, h4⟩
      · intro t ht
        rcases List.mem_cons.1 ht with rfl | ht
        · exact le_trans h2 (le_of_not_gt hs)
        · exact h3 t ht

theorem solutionsForGoals_ok (S : Setup ν W) (hs : S.symmetric = true)
    (hf : ∀ a b, S.distance a b < Cost.inf) (pick : Nat → Nat) (starts goals : List (ν × Threads))
    (ht : ∀ d ∈ starts, d.2.Ok) (htg : ∀ d ∈ goals, d.2.Ok) (g : Graph ν W)
    (hl : Linked g) (hm : Mirrored g) (hn : Dijkstra.NonNegative g) :
    ∃ sols, solutionsForGoals S pick starts g goals = some (.ok sols) ∧
      (∀ s ∈ sols, ∃ goal ∈ goals, (queryMultiStart S pick starts goal g).1 = some (.ok s)) ∧
      (∀ goal ∈ goals, ∃ s ∈ sols, (queryMultiStart S pick starts goal g).1 = some (.ok s)) := by
  induction goals with
  | nil => exact ⟨[], rfl, by simp, by simp⟩
  | cons goal goals ih =>
    obtain ⟨sols, h1, h2, h3⟩ := ih (fun d hd => htg d (List.mem_cons_of_mem _ hd))
    obtain ⟨is, j, g', path, cost, e1, _⟩ := C62_multi_start S hs hf pick starts goal ht
      (htg goal (List.mem_cons_self ..)) g hl hm hn
    have e2 : (queryMultiStart S pick starts goal g).1 = some (.ok (path, cost)) := by rw [e1]
    refine ⟨(path, cost) :: sols, by simp only [solutionsForGoals, e2, h1], ?_, ?_⟩
    · intro s hs
      rcases List.mem_cons.1 hs with rfl | hs
      · exact ⟨goal, List.mem_cons_self .., e2⟩
      · obtain ⟨goal', h4, h5⟩ := h2 s hs
        exact ⟨goal', List.mem_cons_of_mem _ h4, h5⟩
    · intro goal' hg
      rcases List.mem_cons.1 hg with rfl | hg
      · exact ⟨_, List.mem_cons_self .., e2⟩
      · obtain ⟨s, h4, h5⟩ := h3 goal' hg
        exact ⟨s, List.mem_cons_of_mem _ h4, h5⟩

/-- **C62.** With several goals, each queried on its own copy of the roadmap, the answer is that of a
goal with the least cost, or no path and infinity if no goal has a finite cost. -/
theorem C62_multi_goal (S : Setup ν W) (hs : S.symmetric = true)
    (hf : ∀ a b, S.distance a b < Cost.inf) (pick : Nat → Nat) (starts goals : List (ν × Threads))
    (ht : ∀ d ∈ starts, d.2.Ok) (htg : ∀ d ∈ goals, d.2.Ok) (g : Graph ν W)
    (hl : Linked g) (hm : Mirrored g) (hn : Dijkstra.NonNegative g) :
    ∃ path cost, queryMultiMulti S pick starts goals g = some (.ok (path, cost)) ∧
      (∀ goal ∈ goals, ∃ p c, (queryMultiStart S pick starts goal g).1 = some (.ok (p, c)) ∧
        cost ≤ c) ∧
      ((path = [] ∧ cost = Cost.inf) ∨
       (cost < Cost.inf ∧ ∃ goal ∈ goals,
        (queryMultiStart S pick starts goal g).1 = some (.ok (path, cost)))) := by
  obtain ⟨sols, h1, h2, h3⟩ := solutionsForGoals_ok S hs hf pick starts goals ht htg g hl hm hn
  obtain ⟨h4, h5, h6⟩ := bestSolution_spec sols (([] : List ν), (Cost.inf : W))
  refine ⟨(bestSolution sols ([], Cost.inf)).1, (bestSolution sols ([], Cost.inf)).2,
    by simp only [queryMultiMulti, h1], ?_, ?_⟩
  · intro goal hg
    obtain ⟨s, h7, h8⟩ := h3 goal hg
    exact ⟨s.1, s.2, h8, h6 s h7⟩
  · rcases h4 with h4 | ⟨h4, h7⟩
    · left; rw [h4]; exact ⟨rfl, rfl⟩
    · right
      obtain ⟨goal, h8, h9⟩ := h2 _ h4
      exact ⟨h7, goal, h8, h9⟩

/-! ## One start, one goal -/

/-- Adding nodes keeps the weights equal to distances. -/
theorem weights_insert {S : Setup ν W} (hM : Metric S) {dir : Direction} {g g' : Graph ν W}
    (hi : Inv g) (h : WeightsAreDistances S g) {state : ν} {R : List (Int × W)}
    {es : List (Int × W × W)} (hins : Inserted state es g g')
    (hes : JoinedNeighbors S dir g state R es) : WeightsAreDistances S g' := by
  have hjoin : ∀ s a b, Joined S dir state s a b → a = S.distance s state ∧ b = S.distance state s := by
    rintro s a b ⟨_, _, _, h1, h2⟩
    cases hsym : S.symmetric with
    | true =>
      obtain ⟨h3, h4⟩ := h1 hsym
      have := hM.symm hsym s state
      rw [h4, h3]
      unfold queryDistance
      split <;> simp [this]
    | false => exact h2 hsym
  intro i n' m' hi' e he hm'
  have hlt := (List.getElem?_eq_some_iff.1 hi').1
  rw [hins.size] at hlt
  by_cases hig : i < g.length
  · have hold := hins.oldNodes i _ (List.getElem?_eq_getElem hig)
    rw [hi'] at hold
    injection hold with hold
    rw [hold] at he ⊢
    simp only [List.mem_append, List.mem_map, List.mem_filter] at he
    rcases he with he | ⟨x, ⟨hx, hxi⟩, rfl⟩
    · have hr := (hi.outs i _ ((nodeAt_nat g i _).2 (List.getElem?_eq_getElem hig)) e he).2.2
      obtain ⟨m, hm⟩ := nodeAt_of_range hr.1 hr.2
      have h1 := h i _ m (List.getElem?_eq_getElem hig) e he hm
      have h2 := hins.oldNodes e.toIndex.toNat m hm.2
      rw [hm'.2] at h2
      injection h2 with h2
      rw [h2]
      exact h1
    · left
      have hxi : x.1 = (i : Int) := by simpa using hxi
      obtain ⟨_, m, hm, hj⟩ := (hes.2 x.1 x.2.1 x.2.2).1 hx
      rw [hxi] at hm
      have := hm.unique ((nodeAt_nat g i _).2 (List.getElem?_eq_getElem hig))
      subst this
      have hnew := (nodeAt_nat g' _ _).2 hins.newNode
      simp only [Edge.make] at hm' ⊢
      rw [hm'.unique hnew]
      exact (hjoin _ _ _ hj).1
  · have hig : i = g.length := by omega
    subst hig
    rw [hins.newNode] at hi'
    injection hi' with hi'
    subst hi'
    simp only [List.mem_map] at he
    obtain ⟨x, hx, rfl⟩ := he
    left
    obtain ⟨_, m, hm, hj⟩ := (hes.2 x.1 x.2.1 x.2.2).1 hx
    simp only [Edge.make] at hm' ⊢
    have h2 := hins.oldNodes x.1.toNat m hm.2
    rw [hm'.2] at h2
    injection h2 with h2
    rw [h2]
    exact (hjoin _ _ _ hj).2

theorem add_weights (S : Setup ν W) (hM : Metric S) (threads : Threads) (ht : threads.Ok)
    (dir : Direction) (state : ν) (hd : S.symmetric = true ∨ dir = .roadmapToNewState)
    (g : Graph ν W) (h : Ready S g) (hw : WeightsAreDistances S g) :
    WeightsAreDistances S (addNodeToRoadmap S threads dir state g).2 := by
  obtain ⟨R, hR, hcase⟩ := C54_add S threads ht dir state g hd (fun n _ => by
    unfold queryDistance; split <;> apply hM.finite)
  rcases hcase with ⟨hdup, e, he, h0, hres⟩ | ⟨_, es, g', hres, hins, hes⟩
  · rw [hres]; exact hw
  · rw [hres]; exact weights_insert hM h.inv hw hins hes

/-- With the triangle inequality, the distance to the goal is an admissible heuristic for any steps
that cost the distance between their states. -/
theorem admissible_distance {S : Setup ν W} (hM : Metric S) (g : Graph ν W)
    (step : Int → Int → W → Prop) (cb : Astar.Callbacks ν W)
    (hcb : cb.heuristic = S.distance) (goal : Int) (t : Node ν W) (htn : NodeAt g goal t)
    (hstep : ∀ u v w, step u v w → ∃ n m, NodeAt g u n ∧ NodeAt g v m ∧ w = S.distance n.value m.value) :
    Astar.Admissible step (Astar.nodeHeuristic g cb goal) goal := by
  have hget : ∀ i n, NodeAt g i n → getNode g i = .ok n := by
    intro i n hn
    unfold getNode
    rw [nodePos_ok hn.range]
    simp [hn.2]
  have hheur : ∀ u n, NodeAt g u n → Astar.nodeHeuristic g cb goal u = S.distance n.value t.value := by
    intro u n hn
    simp only [Astar.nodeHeuristic, hget u n hn, hget goal t htn, hcb]
  constructor
  · intro u c p C hp
    generalize hgo : goal = go at hp
    induction hp with
    | here u c =>
      subst hgo
      rw [hheur _ t htn]
      exact hM.self c _
    | @cons u v t' w c C p hs hp ih =>
      subst hgo
      obtain ⟨n, m, hn, hm, rfl⟩ := hstep _ _ _ hs
      have h1 := ih rfl
      rw [hheur v m hm] at h1
      rw [hheur u n hn]
      exact le_trans (hM.triangle c n.value m.value t.value) h1
  · rw [hheur _ t htn]; exact hM.nonneg _ _

omit [Cost W] in
/-- The states at nodes given by integer indices. -/
theorem extract_ok' (g : Graph ν W) (vs : List Int) (h : ∀ v ∈ vs, 0 ≤ v ∧ v < (g.length : Int)) :
    ∃ path, extractSolutionPath g vs = .ok path ∧ StatesAt g (vs.map Int.toNat) path := by
  obtain ⟨path, h1, h2⟩ := extract_ok g (vs.map Int.toNat) (by
    intro v hv
    obtain ⟨i, hi, rfl⟩ := List.mem_map.1 hv
    have := h i hi
    omega)
  refine ⟨path, ?_, h2⟩
  rw [List.map_map] at h1
  have : vs.map ((fun v : Nat => (v : Int)) ∘ Int.toNat) = vs := by
    conv => rhs; rw [← List.map_id vs]
    apply List.map_congr_left
    intro v hv
    have := h v hv
    simp only [Function.comp_apply, id]
    omega
  rw [this] at h1
  exact h1

theorem path_nodes {step : Int → Int → W → Prop} {g : Graph ν W}
    (hstep : ∀ u v w, step u v w → (0 ≤ u ∧ u < (g.length : Int)) ∧ (0 ≤ v ∧ v < (g.length : Int)))
    {u t : Int} {c C : W} {p : List Int} (hu : 0 ≤ u ∧ u < (g.length : Int))
    (h : Astar.Path step u c p t C) : ∀ v ∈ p, 0 ≤ v ∧ v < (g.length : Int) := by
  induction h with
  | here => simpa using hu
  | cons hs hp ih =>
    intro x hx
    rcases List.mem_cons.1 hx with rfl | hx
    · exact hu
    · exact ih (hstep _ _ _ hs).2 x hx

theorem optimal_states {step : Int → Int → W → Prop} {g : Graph ν W}
    (hstep : ∀ u v w, step u v w → (0 ≤ u ∧ u < (g.length : Int)) ∧ (0 ≤ v ∧ v < (g.length : Int)))
    {i j : Int} (hi : 0 ≤ i ∧ i < (g.length : Int)) {vs : List Int} {cost : W}
    (h : Astar.Optimal step i j vs cost) :
    ∃ path, extractSolutionPath g vs = .ok path ∧ StatesAt g (vs.map Int.toNat) path := by
  apply extract_ok'
  rcases h with ⟨h1, _⟩ | ⟨h1, _⟩
  · rw [h1]; simp
  · exact path_nodes hstep hi h1

/-- **C63.** A query with one start, on a roadmap whose weights are distances (as built by the planner
itself) and a distance with the triangle inequality: start and goal get nodes that stand for them; if
these are the same node, `invalid_argument` is thrown; otherwise the answer is a cheapest path along
edges of finite weight that are not marked invalid, with its cost, or no path and infinity exactly if
there is none. -/
theorem C63_single (S : Setup ν W) (hs : S.symmetric = true) (hM : Metric S)
    (start goal : ν × Threads) (hts : start.2.Ok) (htg : goal.2.Ok) (g : Graph ν W)
    (hl : Linked g) (hm : Mirrored g) (hn : Dijkstra.NonNegative g) (hw : WeightsAreDistances S g) :
    ∃ (i j : Int) (g' : Graph ν W), StandsFor S .newStateToRoadmap g' start.1 i ∧
      StandsFor S .roadmapToNewState g' goal.1 j ∧ KeepsStates g g' ∧ Linked g' ∧ Mirrored g' ∧
      (i = j → ∀ fuel pick limit,
        querySingle S false fuel pick limit start goal g = (some (.throws .invalidArgument), g')) ∧
      (i ≠ j → ∃ N, ∀ pick fuel limit, N ≤ fuel → ∃ vs path cost,
        querySingle S false fuel pick limit start goal g = (some (.ok (path, cost)), g') ∧
        Astar.Optimal (Astar.WeightStep g') i j vs cost ∧ StatesAt g' (vs.map Int.toNat) path) := by
  have r0 : Ready S g := ⟨inv_of_linked hl hm, hn⟩
  obtain ⟨i, g1, a1, a2, a3, a4⟩ := add_ready S start.2 hts .newStateToRoadmap start.1 (Or.inl hs)
    hM.finite g r0
  have w1 := add_weights S hM start.2 hts .newStateToRoadmap start.1 (Or.inl hs) g r0 hw
  rw [a1] at w1
  obtain ⟨j, g2, b1, b2, b3, b4⟩ := add_ready S goal.2 htg .roadmapToNewState goal.1 (Or.inr rfl)
    hM.finite g1 a2
  have w2 := add_weights S hM goal.2 htg .roadmapToNewState goal.1 (Or.inr rfl) g1 a2 w1
  rw [b1] at w2
  have hl2 := b2.inv.linked
  have c3 := a3.keep b4
  have hi : 0 ≤ i ∧ i < (g2.length : Int) := c3.choose_spec.1.range
  obtain ⟨t, htn, _⟩ := b3
  have hj : 0 ≤ j ∧ j < (g2.length : Int) := htn.range
  refine ⟨i, j, g2, c3, ⟨t, htn, by assumption⟩, a4.trans b4, hl2, b2.inv.mir, ?_, ?_⟩
  · intro hij fuel pick limit
    have := Astar.C18_arguments fuel pick g2 i j (Astar.weightCallbacks S.distance) limit
      (by simp [hij])
    simp only [querySingle, M.bind_apply, a1, b1, M.pure_apply, Astar.performAstar]
    rw [if_neg (by decide), this]
    rfl
  · intro hij
    have hstep : ∀ u v w, Astar.WeightStep g2 u v w →
        ∃ n m, NodeAt g2 u n ∧ NodeAt g2 v m ∧ w = S.distance n.value m.value := by
      rintro u v w ⟨n, hn, e, he, rfl, _, hfin, rfl⟩
      obtain ⟨_, _, m, hm, _⟩ := (hl2 u n hn).2 e he
      refine ⟨n, m, hn, hm, ?_⟩
      have hun : ((u.toNat : Nat) : Int) = u := Int.toNat_of_nonneg hn.1
      rcases w2 u.toNat n m hn.2 e he hm with h | h
      · exact h
      · rw [h] at hfin; exact absurd hfin (lt_irrefl _)
    have hrange : ∀ u v w, Astar.WeightStep g2 u v w →
        (0 ≤ u ∧ u < (g2.length : Int)) ∧ (0 ≤ v ∧ v < (g2.length : Int)) := by
      intro u v w h
      obtain ⟨n, m, h1, h2, _⟩ := hstep u v w h
      exact ⟨h1.range, h2.range⟩
    obtain ⟨N, hN⟩ := Astar.C19_weights g2 i j S.distance hl2
      (fun u v w h => by obtain ⟨n, m, _, _, rfl⟩ := hstep u v w h; exact hM.nonneg _ _)
      (admissible_distance hM g2 _ _ rfl j t htn hstep) hi hj hij
    refine ⟨N, ?_⟩
    intro pick fuel limit hf
    obtain ⟨vs, cost, h1, h2⟩ := hN pick fuel limit hf
    obtain ⟨path, h3, h4⟩ := optimal_states hrange hi h2
    refine ⟨vs, path, cost, ?_, h2, h4⟩
    simp only [querySingle, M.bind_apply, a1, b1, M.pure_apply]
    rw [if_neg (by decide), h1]
    simp [astarAnswer, h3]

/-- **C63.** The lazy query checks and measures the edges anew: the answer is a cheapest path along the
edges that the edge check accepts now, whatever the weights stored in the roadmap. -/
theorem C63_lazy (S : Setup ν W) (hs : S.symmetric = true) (hM : Metric S)
    (start goal : ν × Threads) (hts : start.2.Ok) (htg : goal.2.Ok) (g : Graph ν W)
    (hl : Linked g) (hm : Mirrored g) (hn : Dijkstra.NonNegative g) :
    ∃ (i j : Int) (g' : Graph ν W), StandsFor S .newStateToRoadmap g' start.1 i ∧
      StandsFor S .roadmapToNewState g' goal.1 j ∧ KeepsStates g g' ∧ Linked g' ∧ Mirrored g' ∧
      (i = j → ∀ fuel pick limit,
        querySingle S true fuel pick limit start goal g = (some (.throws .invalidArgument), g')) ∧
      (i ≠ j → ∃ N, ∀ pick fuel limit, N ≤ fuel → ∃ vs path cost,
        querySingle S true fuel pick limit start goal g = (some (.ok (path, cost)), g') ∧
        Astar.Optimal (Astar.ValueStep g' S.edgeValid S.distance) i j vs cost ∧
        StatesAt g' (vs.map Int.toNat) path) := by
  have r0 : Ready S g := ⟨inv_of_linked hl hm, hn⟩
  obtain ⟨i, g1, a1, a2, a3, a4⟩ := add_ready S start.2 hts .newStateToRoadmap start.1 (Or.inl hs)
    hM.finite g r0
  obtain ⟨j, g2, b1, b2, b3, b4⟩ := add_ready S goal.2 htg .roadmapToNewState goal.1 (Or.inr rfl)
    hM.finite g1 a2
  have hl2 := b2.inv.linked
  have c3 := a3.keep b4
  have hi : 0 ≤ i ∧ i < (g2.length : Int) := c3.choose_spec.1.range
  obtain ⟨t, htn, _⟩ := b3
  have hj : 0 ≤ j ∧ j < (g2.length : Int) := htn.range
  refine ⟨i, j, g2, c3, ⟨t, htn, by assumption⟩, a4.trans b4, hl2, b2.inv.mir, ?_, ?_⟩
  · intro hij fuel pick limit
    have := Astar.C18_arguments fuel pick g2 i j
      (Astar.valueCallbacks S.edgeValid S.distance S.distance) limit (by simp [hij])
    simp only [querySingle, M.bind_apply, a1, b1, M.pure_apply, Astar.performLazyAstarValues,
      if_true, this]
    rfl
  · intro hij
    have hstep : ∀ u v w, Astar.ValueStep g2 S.edgeValid S.distance u v w →
        ∃ n m, NodeAt g2 u n ∧ NodeAt g2 v m ∧ w = S.distance n.value m.value := by
      rintro u v w ⟨n, m, hn, hm, _, _, rfl⟩
      exact ⟨n, m, hn, hm, rfl⟩
    have hrange : ∀ u v w, Astar.ValueStep g2 S.edgeValid S.distance u v w →
        (0 ≤ u ∧ u < (g2.length : Int)) ∧ (0 ≤ v ∧ v < (g2.length : Int)) := by
      intro u v w h
      obtain ⟨n, m, h1, h2, _⟩ := hstep u v w h
      exact ⟨h1.range, h2.range⟩
    obtain ⟨N, hN⟩ := Astar.C19_values g2 i j S.edgeValid S.distance S.distance hl2
      (fun u v w h => by obtain ⟨n, m, _, _, rfl⟩ := hstep u v w h; exact hM.nonneg _ _)
      (admissible_distance hM g2 _ _ rfl j t htn hstep) hi hj hij
    refine ⟨N, ?_⟩
    intro pick fuel limit hf
    obtain ⟨vs, cost, h1, h2⟩ := hN pick fuel limit hf
    obtain ⟨path, h3, h4⟩ := optimal_states hrange hi h2
    refine ⟨vs, path, cost, ?_, h2, h4⟩
    simp only [querySingle, M.bind_apply, a1, b1, M.pure_apply, if_true, h1]
    simp [astarAnswer, h3]

/-- **C63.** A roadmap built by the planner meets the requirement on the weights. -/
theorem C63_built (S : Setup ν W) (hM : Metric S) (stateValid : ν → Bool) (g : Graph ν W)
    (h : Sound S stateValid g) : WeightsAreDistances S g := by
  intro i n m hi e he hm
  left
  have hr := hm.1
  have hto : e.toIndex = ((e.toIndex.toNat : Nat) : Int) := (Int.toNat_of_nonneg hr).symm
  obtain ⟨_, h1⟩ := h.edges i e.toIndex.toNat n m hi hm.2 e he hto
  rcases h1 with ⟨_, _, h2⟩ | ⟨_, _, h2⟩
  · exact h2
  · rw [h2]
    cases hs : S.symmetric with
    | true => exact (hM.symm hs _ _).symm
    | false => rfl

/-! ## Cases that meet the hypotheses -/

/-- The distance of the sample roadmap is a metric. -/
theorem exMetric : Metric (exSetup true false) where
  nonneg a b := by
    show (0 : Dist) ≤ .fin _
    exact (Dist.le_def _ _).2 (by simp [Dist.leb])
  finite _ _ := rfl
  self c a := by
    cases c with
    | inf => rfl
    | fin c =>
      show Dist.leb (.fin _) (.fin _) = true
      simp only [Dist.leb, decide_eq_true_eq]
      show c + ((a - a) + (a - a)) ≤ c
      omega
  triangle c a b t := by
    cases c with
    | inf => rfl
    | fin c =>
      show Dist.leb (.fin _) (.fin _) = true
      simp only [Dist.leb, decide_eq_true_eq]
      show c + ((a - t) + (t - a)) ≤ c + ((a - b) + (b - a)) + ((b - t) + (t - b))
      omega
  symm _ a b := by simp only [exSetup, Dist.fin.injEq]; omega

/-- Two starts; the one nearer to the goal is chosen. -/
example : (queryMultiStart (exSetup true false) (fun _ => 0) [(1, serial), (5, serial)] (11, serial)
    exRoadmap).1 = some (.ok ([5, 7, 11], .fin 6)) := by decide +kernel
/-- The goal cannot be reached. -/
example : (queryMultiStart (exSetup true false) (fun _ => 0) [(1, serial), (5, serial)] (30, serial)
    exRoadmap).1 = some (.ok ([], .inf)) := by decide +kernel
/-- The start is the goal: its state is listed twice. -/
example : (queryMultiStart (exSetup true false) (fun _ => 0) [(7, serial)] (7, serial)
    exRoadmap).1 = some (.ok ([7, 7], .fin 0)) := by decide +kernel
example : queryMultiMulti (exSetup true false) (fun _ => 0) [(1, serial), (5, serial)]
    [(30, serial), (11, serial), (8, serial)] exRoadmap = some (.ok ([5, 8], .fin 3)) := by decide +kernel
example : (querySingle (exSetup true false) false 100 (fun _ => 0) true (1, serial) (11, serial)
    exRoadmap).1 = some (.ok ([1, 3, 7, 11], .fin 10)) := by decide +kernel
example : (querySingle (exSetup true false) true 100 (fun _ => 0) true (1, serial) (11, serial)
    exRoadmap).1 = some (.ok ([1, 3, 7, 11], .fin 10)) := by decide +kernel
example : (querySingle (exSetup true false) true 100 (fun _ => 0) true (3, serial) (3, serial)
    exRoadmap).1 = some (.throws .invalidArgument) := by decide +kernel

end Verif.Prm
