import Verif.Model.PrmRandomWalk
import Verif.Spec.PrmRandomWalk
import Verif.Props.PrmQuery
import Verif.Props.RandomWalk

/-!
# C151: the random walk query of the roadmap planner
-/
namespace Verif.Prm
open Verif Verif.Graph Verif.Knn Verif.RandomWalk

variable {ν W : Type} [Cost W]

theorem addDistances_eq (distance : ν → ν → W) (path : List ν) (total : W) :
    addDistances distance total path = (path.zip path.tail).foldl (fun sum p => sum + distance p.1 p.2) total := by
  induction path generalizing total with
  | nil => rfl
  | cons a rest ih =>
    cases rest with
    | nil => rfl
    | cons b rest =>
      rw [addDistances, ih]
      rfl

omit [Cost W] in
theorem nodeAt_unique {g : Graph ν W} {i : Int} {n m : Node ν W} (h : NodeAt g i n) (h' : NodeAt g i m) : n = m := by
  have := h.2.symm.trans h'.2
  simpa using this

/-- The edges after a node has been inserted. -/
theorem inserted_edges {S : Setup ν W} {dir : Direction} {state : ν} {es : List (Int × W × W)} {R : List (Int × W)}
    {g g' : Graph ν W} (h : Inserted state es g g') (hes : JoinedNeighbors S dir g state R es) (u v : Int) :
    HasEdge g' u v ↔ HasEdge g u v ∨ (u = (g.length : Int) ∧ v ∈ es.map (·.1)) ∨
      (v = (g.length : Int) ∧ u ∈ es.map (·.1)) := by
  constructor
  · rintro ⟨n, ⟨h0, hn⟩, e, he, rfl⟩
    have hlt := (List.getElem?_eq_some_iff.1 hn).1
    rw [h.size] at hlt
    by_cases hig : u.toNat < g.length
    · have hold := h.oldNodes u.toNat _ (List.getElem?_eq_getElem hig)
      rw [hn] at hold
      injection hold with hold
      rw [hold] at he
      simp only [List.mem_append, List.mem_map, List.mem_filter, decide_eq_true_eq] at he
      rcases he with he | ⟨x, ⟨hx, hx'⟩, rfl⟩
      · exact .inl ⟨_, ⟨h0, List.getElem?_eq_getElem hig⟩, e, he, rfl⟩
      · exact .inr (.inr ⟨rfl, List.mem_map.2 ⟨x, hx, by omega⟩⟩)
    · have hig : u.toNat = g.length := by omega
      rw [hig, h.newNode] at hn
      injection hn with hn
      subst hn
      simp only [List.mem_map] at he
      obtain ⟨x, hx, rfl⟩ := he
      exact .inr (.inl ⟨by omega, List.mem_map.2 ⟨x, hx, rfl⟩⟩)
  · rintro (⟨n, ⟨h0, hn⟩, e, he, rfl⟩ | ⟨rfl, hv⟩ | ⟨rfl, hu⟩)
    · exact ⟨_, ⟨h0, h.oldNodes _ n hn⟩, e, List.mem_append_left _ he, rfl⟩
    · obtain ⟨x, hx, rfl⟩ := List.mem_map.1 hv
      exact ⟨_, (nodeAt_nat g' _ _).2 h.newNode, _, List.mem_map.2 ⟨x, hx, rfl⟩, rfl⟩
    · obtain ⟨x, hx, rfl⟩ := List.mem_map.1 hu
      obtain ⟨_, n, hn, _⟩ := (hes.2 x.1 x.2.1 x.2.2).1 hx
      refine ⟨_, ⟨hn.1, h.oldNodes _ n hn.2⟩, Edge.make _ (g.length : Int) x.2.1, List.mem_append_right _ (List.mem_map.2
        ⟨x, List.mem_filter.2 ⟨hx, ?_⟩, rfl⟩), rfl⟩
      have := hn.1
      simp only [decide_eq_true_eq]
      omega

theorem add_twoWay (S : Setup ν W) (threads : Threads) (ht : threads.Ok) (dir : Direction) (state : ν)
    (hd : S.symmetric = true ∨ dir = .roadmapToNewState)
    (hf : ∀ a b, S.distance a b < Cost.inf) (g : Graph ν W) (h : TwoWay g) :
    TwoWay (addNodeToRoadmap S threads dir state g).2 := by
  obtain ⟨R, hR, hcase⟩ := C54_add S threads ht dir state g hd (fun n _ => by
    unfold queryDistance; split <;> apply hf)
  rcases hcase with ⟨_, e, _, _, hres⟩ | ⟨_, es, g', hres, hins, hes⟩
  · rw [hres]; exact h
  · rw [hres]
    intro u v
    rw [inserted_edges hins hes, inserted_edges hins hes]
    rintro (h1 | h1 | h1)
    · exact .inl (h _ _ h1)
    · exact .inr (.inr h1)
    · exact .inr (.inl h1)

omit [Cost W] in
theorem edge_range {g : Graph ν W} (hl : Linked g) {u v : Int} (h : HasEdge g u v) :
    (0 ≤ u ∧ u < (g.length : Int)) ∧ (0 ≤ v ∧ v < (g.length : Int)) := by
  obtain ⟨n, hn, e, he, rfl⟩ := h
  exact ⟨hn.range, outInRange_of_linked hl n (List.mem_of_getElem? hn.2) e he⟩

omit [Cost W] in
theorem simplePath_range {g : Graph ν W} (hl : Linked g) {s t : Int} {vs : List Int} (h : SimplePath g s t vs)
    (hs : 0 ≤ s ∧ s < (g.length : Int)) : ∀ v ∈ vs, 0 ≤ v ∧ v < (g.length : Int) := by
  intro v hv
  obtain ⟨k, hk⟩ := List.getElem?_of_mem hv
  cases k with
  | zero =>
    have := h.first
    rw [List.head?_eq_getElem?, hk] at this
    injection this with this
    rw [this]; exact hs
  | succ k =>
    have hlt := (List.getElem?_eq_some_iff.1 hk).1
    exact (edge_range hl (h.edges k _ v (List.getElem?_eq_getElem (by omega)) hk)).2

omit [Cost W] in
/-- On a roadmap with edges in both directions the walk does not get stuck. -/
theorem walk_twoWay {g : Graph ν W} (h2 : TwoWay g) (goal : Int) (draw : Nat → Nat) :
    ∀ fuel k path cur, path.getLast? = some cur → (cur = goal ∨ ∃ v, HasEdge g cur v) →
      walkLoop g goal draw fuel k path = none ∨ ∃ r, walkLoop g goal draw fuel k path = some (.ok r) := by
  intro fuel
  induction fuel with
  | zero =>
    intro k path cur hp _
    unfold walkLoop
    rw [hp]
    simp only
    by_cases h : cur = goal
    · rw [if_pos h]; exact .inr ⟨_, rfl⟩
    · rw [if_neg h]; exact .inl rfl
  | succ fuel ih =>
    intro k path cur hp hc
    unfold walkLoop
    rw [hp]
    simp only
    by_cases h : cur = goal
    · rw [if_pos h]; exact .inr ⟨_, rfl⟩
    · rw [if_neg h]
      obtain ⟨v, hv⟩ := hc.resolve_left h
      obtain ⟨n, hn, e, he, rfl⟩ := hv
      have hok : ∃ edge ∈ n.outEdges, walkStep g (draw k) path cur =
          .ok (path.takeWhile (fun x => decide (x ≠ edge.toIndex)) ++ [edge.toIndex]) := by
        unfold walkStep
        rw [Astar.getNode_ok_iff.2 hn, Out.bind_ok]
        cases hes : n.outEdges with
        | nil => rw [hes] at he; cases he
        | cons a as =>
          simp only
          have hlt : draw k % (a :: as).length < (a :: as).length := Nat.mod_lt _ (by simp)
          rw [List.getElem?_eq_getElem hlt]
          exact ⟨_, List.getElem_mem hlt, rfl⟩
      obtain ⟨edge, hmem, hstep⟩ := hok
      rw [hstep]
      simp only
      exact ih _ _ edge.toIndex (by simp) (.inr ⟨cur, h2 _ _ ⟨n, hn, edge, hmem, rfl⟩⟩)

omit [Cost W] in
/-- Every path without loops is the result of some draws. -/
theorem walk_possible {g : Graph ν W} {start goal : Int} {vs : List Int} (h : SimplePath g start goal vs) :
    ∃ draw, ∀ fuel, vs.length ≤ fuel → performRandomWalk fuel draw g start goal = some (.ok vs) := by
  have hdraw : ∀ k : Nat, ∃ d : Nat, ∀ u v, vs[k]? = some u → vs[k + 1]? = some v → ∀ path,
      walkStep g d path u = .ok (path.takeWhile (fun x => decide (x ≠ v)) ++ [v]) := by
    intro k
    cases hu : vs[k]? with
    | none => exact ⟨0, fun u v h => by cases h⟩
    | some u =>
      cases hv : vs[k + 1]? with
      | none => exact ⟨0, fun u v _ h => by cases h⟩
      | some v =>
        obtain ⟨n, hn, e, he, rfl⟩ := h.edges k u v hu hv
        obtain ⟨d, hd⟩ := List.getElem?_of_mem he
        refine ⟨d, ?_⟩
        intro u' v' hu' hv' path
        cases hu'; cases hv'
        unfold walkStep
        rw [Astar.getNode_ok_iff.2 hn, Out.bind_ok]
        have hlt := (List.getElem?_eq_some_iff.1 hd).1
        cases hes : n.outEdges with
        | nil => rw [hes] at he; cases he
        | cons a as =>
          rw [hes] at hd hlt
          simp only
          rw [Nat.mod_eq_of_lt hlt, hd]
  choose draw hdraw using hdraw
  refine ⟨draw, ?_⟩
  have hpos : 0 < vs.length := by
    have := h.first
    cases vs with
    | nil => cases this
    | cons => simp
  have key : ∀ m k fuel, k + m + 1 = vs.length → m ≤ fuel → walkLoop g goal draw fuel k (vs.take (k + 1)) = some (.ok vs) := by
    intro m
    induction m with
    | zero =>
      intro k fuel hk _
      have e : vs.take (k + 1) = vs := List.take_of_length_le (by omega)
      rw [e]
      unfold walkLoop
      rw [h.last]
      simp
    | succ m ih =>
      intro k fuel hk hf
      obtain ⟨fuel, rfl⟩ : ∃ f, fuel = f + 1 := ⟨fuel - 1, by omega⟩
      have hk1 : k < vs.length := by omega
      have hk2 : k + 1 < vs.length := by omega
      have hlast : (vs.take (k + 1)).getLast? = some vs[k] := by
        rw [List.take_succ_eq_append_getElem hk1, List.getLast?_concat]
      unfold walkLoop
      rw [hlast]
      simp only
      have hne : vs[k] ≠ goal := by
        intro hg
        have hl := h.last
        rw [List.getLast?_eq_getElem?] at hl
        have hl' : vs[vs.length - 1] = goal := by
          rw [List.getElem?_eq_getElem (by omega)] at hl
          injection hl
        have := (List.getElem_inj h.nodup).mp (hg.trans hl'.symm)
        omega
      rw [if_neg hne, hdraw k _ _ (List.getElem?_eq_getElem hk1) (List.getElem?_eq_getElem hk2)]
      simp only
      have e : (vs.take (k + 1)).takeWhile (fun x => decide (x ≠ vs[k + 1])) ++ [vs[k + 1]] = vs.take (k + 1 + 1) := by
        rw [List.take_succ_eq_append_getElem hk2]
        congr 1
        have all : ∀ (p : Int → Bool) (l : List Int), (∀ x ∈ l, p x = true) → l.takeWhile p = l := by
          intro p l hp
          induction l with
          | nil => rfl
          | cons a l ih =>
            rw [List.takeWhile_cons, if_pos (hp a (List.mem_cons_self ..)), ih (fun x hx => hp x (List.mem_cons_of_mem _ hx))]
        apply all
        intro x hx
        obtain ⟨q, hq, rfl⟩ := List.mem_iff_getElem.1 hx
        rw [List.getElem_take]
        rw [List.length_take] at hq
        simp only [decide_eq_true_eq]
        intro hc
        have := (List.getElem_inj h.nodup).mp hc
        omega
      rw [e]
      exact ih (k + 1) fuel (by omega) (by omega)
  intro fuel hf
  have := key (vs.length - 1) 0 fuel (by omega) (by omega)
  unfold performRandomWalk
  have e : [start] = vs.take (0 + 1) := by
    have := h.first
    cases vs with
    | nil => cases this
    | cons a as => cases this; rfl
  rw [e]
  exact this

/-- **C151.** The random walk query on a consistent roadmap whose edges lead both ways (as the planner builds it): start and
goal get nodes that stand for them; the roadmap keeps its states and stays consistent. The answers that some draws lead to
are exactly the paths without loops from the one node to the other, each with its length. If the start is not the goal and
has no edge, the behaviour is undefined; otherwise whatever is drawn, the query returns an answer or is still walking. -/
theorem C151_walk (S : Setup ν W) (hs : S.symmetric = true) (hf : ∀ a b, S.distance a b < Cost.inf)
    (start goal : ν × Threads) (hts : start.2.Ok) (htg : goal.2.Ok) (g : Graph ν W)
    (hl : Linked g) (hm : Mirrored g) (hn : Dijkstra.NonNegative g) (h2 : TwoWay g) :
    ∃ (i j : Int) (g' : Graph ν W), StandsFor { S with addDuplicates := false } .newStateToRoadmap g' start.1 i ∧
      StandsFor { S with addDuplicates := false } .roadmapToNewState g' goal.1 j ∧ KeepsStates g g' ∧
      Linked g' ∧ Mirrored g' ∧ TwoWay g' ∧
      (∀ fuel draw, (queryRandomWalk S fuel draw start goal g).2 = g') ∧
      (∀ answer, (∃ fuel draw, (queryRandomWalk S fuel draw start goal g).1 = some (.ok answer)) ↔
        WalkAnswer S.distance g' i j answer) ∧
      (∀ fuel draw, i ≠ j → (¬ ∃ v, HasEdge g' i v) →
        (queryRandomWalk S (fuel + 1) draw start goal g).1 = some .ub) ∧
      (∀ fuel draw, (i = j ∨ ∃ v, HasEdge g' i v) →
        (queryRandomWalk S fuel draw start goal g).1 = none ∨
        ∃ answer, (queryRandomWalk S fuel draw start goal g).1 = some (.ok answer)) := by
  have hf' : ∀ a b, ({ S with addDuplicates := false } : Setup ν W).distance a b < Cost.inf := hf
  have r0 : Ready { S with addDuplicates := false } g := ⟨inv_of_linked hl hm, hn⟩
  obtain ⟨i, g1, a1, a2, a3, a4⟩ := add_ready { S with addDuplicates := false } start.2 hts .newStateToRoadmap start.1
    (Or.inl hs) hf' g r0
  have t1 := add_twoWay { S with addDuplicates := false } start.2 hts .newStateToRoadmap start.1 (Or.inl hs) hf' g h2
  rw [a1] at t1
  obtain ⟨j, g2, b1, b2, b3, b4⟩ := add_ready { S with addDuplicates := false } goal.2 htg .roadmapToNewState goal.1
    (Or.inr rfl) hf' g1 a2
  have t2 := add_twoWay { S with addDuplicates := false } goal.2 htg .roadmapToNewState goal.1 (Or.inr rfl) hf' g1 t1
  rw [b1] at t2
  have hl2 := b2.inv.linked
  have c3 := a3.keep b4
  have hi : 0 ≤ i ∧ i < (g2.length : Int) := c3.choose_spec.1.range
  have hq : ∀ fuel draw, queryRandomWalk S fuel draw start goal g =
      (walkAnswer S.distance g2 (performRandomWalk fuel draw g2 i j), g2) := by
    intro fuel draw
    simp only [queryRandomWalk, M.bind_apply, a1, b1, M.pure_apply]
  have hans : ∀ vs, SimplePath g2 i j vs → ∃ states, StatesAt g2 (vs.map Int.toNat) states ∧
      walkAnswer S.distance g2 (some (.ok vs)) = some (.ok (states, addDistances S.distance 0 states)) := by
    intro vs hvs
    obtain ⟨states, e1, e2⟩ := extract_ok' g2 vs (simplePath_range hl2 hvs hi)
    exact ⟨states, e2, by simp [walkAnswer, e1]⟩
  refine ⟨i, j, g2, c3, b3, a4.trans b4, hl2, b2.inv.mir, t2, fun fuel draw => by rw [hq], ?_, ?_, ?_⟩
  · intro answer
    constructor
    · rintro ⟨fuel, draw, h⟩
      rw [hq] at h
      simp only at h
      cases hw : performRandomWalk fuel draw g2 i j with
      | none => rw [hw] at h; cases h
      | some r =>
        rw [hw] at h
        cases r with
        | ok vs =>
          have hsp := C22_simple_path fuel draw g2 i j vs hw
          obtain ⟨states, e1, e2⟩ := hans vs hsp
          rw [e2] at h
          injection h with h
          injection h with h
          subst h
          exact ⟨vs, hsp, e1, addDistances_eq _ _ _⟩
        | throws e => cases h
        | abort => cases h
        | ub => cases h
    · rintro ⟨vs, hsp, e1, e2⟩
      obtain ⟨draw, hd⟩ := walk_possible hsp
      refine ⟨vs.length, draw, ?_⟩
      obtain ⟨states, e3, e4⟩ := hans vs hsp
      rw [hq, hd _ (Nat.le_refl _)]
      simp only
      rw [e4]
      obtain ⟨path, total⟩ := answer
      have : states = path := by
        have h3 : states.map some = path.map some := by
          rw [← e3]; exact e1
        exact List.map_injective_iff.2 (fun _ _ h => by injection h) h3
      subst this
      have e5 : total = _ := e2
      rw [addDistances_eq, e5]
  · intro fuel draw hij hno
    obtain ⟨n, hn', _⟩ := c3
    have hout : n.outEdges = [] := by
      cases h : n.outEdges with
      | nil => rfl
      | cons e es => exact absurd ⟨e.toIndex, n, hn', e, by rw [h]; simp, rfl⟩ hno
    rw [hq, C22_dead_end fuel draw g2 i j n hn' hout hij]
    rfl
  · intro fuel draw hc
    rw [hq]
    rcases walk_twoWay t2 j draw fuel 0 [i] i rfl hc with h | ⟨vs, h⟩
    · left
      show walkAnswer _ _ (performRandomWalk fuel draw g2 i j) = none
      unfold performRandomWalk
      rw [h]; rfl
    · right
      obtain ⟨states, _, e⟩ := hans vs (C22_simple_path fuel draw g2 i j vs h)
      refine ⟨(states, addDistances S.distance 0 states), ?_⟩
      show walkAnswer _ _ (performRandomWalk fuel draw g2 i j) = _
      unfold performRandomWalk
      rw [h]
      exact e

/-- **C151.** The roadmaps that the planner builds have edges in both directions. -/
theorem C151_built (S : Setup ν W) (stateValid : ν → Bool) (hf : ∀ a b, S.distance a b < Cost.inf)
    (draws : List (ν × Threads)) (ht : ∀ d ∈ draws, d.2.Ok) (g : Graph ν W)
    (h : buildRoadMap S stateValid draws = .ok g) : TwoWay g := by
  have key : ∀ (draws : List (ν × Threads)) (g : Graph ν W), (∀ d ∈ draws, d.2.Ok) → TwoWay g →
      TwoWay (extendRoadMap S stateValid draws g).2 := by
    intro draws
    induction draws with
    | nil => intro g _ h; exact h
    | cons d draws ih =>
      intro g ht h
      obtain ⟨state, threads⟩ := d
      unfold extendRoadMap
      by_cases hv : stateValid state
      · rw [if_pos hv]
        have h1 := add_twoWay S threads (ht _ (List.mem_cons_self ..)) .roadmapToNewState state (Or.inr rfl) hf g h
        simp only [M.bind_apply]
        cases he : addNodeToRoadmap S threads .roadmapToNewState state g with
        | mk r g1 =>
          rw [he] at h1
          cases r with
          | ok i => exact ih g1 (fun d hd => ht d (List.mem_cons_of_mem _ hd)) h1
          | throws e => exact h1
          | abort => exact h1
          | ub => exact h1
      · rw [if_neg hv]
        exact ih g (fun d hd => ht d (List.mem_cons_of_mem _ hd)) h
  have h0 : TwoWay ([] : Graph ν W) := by
    rintro u v ⟨n, hn, _⟩
    have := hn.2
    simp at this
  have h1 := key draws [] ht h0
  unfold buildRoadMap at h
  split at h
  · rename_i heq
    rw [heq] at h1
    cases h
    exact h1
  all_goals cases h

/-- Points on a line as in `exSetup`, when all edges have become impossible -/
def blockedSetup : Setup Nat Dist := { exSetup true false with edgeValid := fun _ _ => false }

/-- The sample roadmap after its edges have been checked anew -/
def blockedRoadmap : Graph Nat Dist :=
  match updateRoadMapEdges blockedSetup.edgeValid blockedSetup.distance [0, 1, 2] exRoadmap with
  | .ok g => g
  | _ => []

/-- **C151.** The walk takes no notice of what `UpdateRoadMapEdges` found: after all edges have been found impossible and
their weights set to infinity, the query still answers with a path along such an edge and a finite length, whatever is drawn,
while the query by A* finds that there is no path. -/
theorem C151_blocked_wrong (fuel : Nat) (draw : Nat → Nat) :
    updateRoadMapEdges blockedSetup.edgeValid blockedSetup.distance [0, 1, 2] exRoadmap = .ok blockedRoadmap ∧
    (∀ n ∈ blockedRoadmap, ∀ e ∈ n.outEdges, e.weight = Cost.inf) ∧
    (queryRandomWalk blockedSetup (fuel + 1) draw (3, serial) (7, serial) blockedRoadmap).1 =
      some (.ok ([3, 7], .fin 4)) ∧
    (querySingle blockedSetup false 100 (fun _ => 0) true (3, serial) (7, serial) blockedRoadmap).1 =
      some (.ok ([], .inf)) := by
  refine ⟨by rfl, by decide +kernel, ?_, by decide +kernel⟩
  have hq : (do
      let i ← addNodeToRoadmap { blockedSetup with addDuplicates := false } serial .newStateToRoadmap 3
      let j ← addNodeToRoadmap { blockedSetup with addDuplicates := false } serial .roadmapToNewState 7
      pure (i, j) : M (Graph Nat Dist) (Int × Int)) blockedRoadmap = (.ok (0, 1), blockedRoadmap) := by rfl
  unfold queryRandomWalk
  rw [hq]
  simp only
  have hw : performRandomWalk (fuel + 1) draw blockedRoadmap 0 1 = some (.ok [0, 1]) := by
    have hn : NodeAt blockedRoadmap 0 (blockedRoadmap[0]'(by decide +kernel)) := ⟨by decide, by rfl⟩
    unfold performRandomWalk walkLoop
    simp only [List.getLast?_singleton]
    rw [if_neg (by decide)]
    have hstep : walkStep blockedRoadmap (draw 0) [0] 0 = .ok [0, 1] := by
      unfold walkStep
      rw [Astar.getNode_ok_iff.2 hn, Out.bind_ok]
      have hes : (blockedRoadmap[0]'(by decide +kernel)).outEdges = [Edge.make 0 1 .inf] := by rfl
      rw [hes]
      simp only [List.length_singleton, Nat.mod_one]
      rfl
    rw [hstep]
    simp only
    unfold walkLoop
    simp
  rw [hw]
  rfl

/-! ## Cases that meet the hypotheses -/

/-- The walk goes back and forth before it finds the goal; the path has no loop. -/
example : (queryRandomWalk (exSetup true false) 100 (fun k => [0, 1, 0, 0, 1].getD k 0) (1, serial) (11, serial) exRoadmap).1 =
    some (.ok ([1, 3, 7, 11], .fin 10)) := by decide +kernel
/-- The start is too far away from everything. -/
example : (queryRandomWalk (exSetup true false) 100 (fun _ => 0) (30, serial) (3, serial) exRoadmap).1 =
    some .ub := by decide +kernel
example : TwoWay exRoadmap := C151_built (exSetup true false) (· < 50) (fun _ _ => rfl) exDraws
  (by intro d hd n s h; simp only [exDraws, List.mem_cons, List.not_mem_nil, or_false] at hd
      rcases hd with rfl | rfl | rfl | rfl | rfl <;> cases h) exRoadmap (by rfl)

end Verif.Prm
