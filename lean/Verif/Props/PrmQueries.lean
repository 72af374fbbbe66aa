import Verif.Model.PrmQueries
import Verif.Props.PrmQuery
/-!
# C216: how a roadmap grows with queries
-/
namespace Verif.Prm
open Verif Verif.Graph Verif.Knn

variable {ν W : Type} [Cost W]

/-- Distances are finite and not negative, are zero from a state to itself, and are declared symmetric; at least one
neighbour is asked for. -/
structure PlainDistance (S : Setup ν W) : Prop where
  symmetric : S.symmetric = true
  finite : ∀ a b, S.distance a b < Cost.inf
  nonneg : ∀ a b, 0 ≤ S.distance a b
  self : ∀ a, S.distance a a = 0
  neighbors : S.K ≠ 0

/-- The threads of the queries for the start and the goal run under some schedule. -/
def Query.Ok (q : Query ν) : Prop := q.start.2.Ok ∧ q.goal.2.Ok

/-- The states a list of queries may add -/
def added (qs : List (Query ν)) : List ν :=
  (qs.filter (·.addNodes)).flatMap fun q => [q.start.1, q.goal.1]

/-- A node at distance zero -/
def Near (S : Setup ν W) (dir : Direction) (g : Graph ν W) (s : ν) : Prop :=
  ∃ n ∈ g, queryDistance S dir s n.value = 0

omit [Cost W] in
theorem KeepsStates.mem {g g' : Graph ν W} (h : KeepsStates g g') {n : Node ν W} (hn : n ∈ g) :
    ∃ n' ∈ g', n'.value = n.value := by
  obtain ⟨i, hi⟩ := List.getElem?_of_mem hn
  obtain ⟨n', h1, h2⟩ := h i n hi
  exact ⟨n', List.mem_of_getElem? h1, h2⟩

theorem Near.keep {S : Setup ν W} {dir : Direction} {g g' : Graph ν W} {s : ν} (h : Near S dir g s)
    (hk : KeepsStates g g') : Near S dir g' s := by
  obtain ⟨n, hn, h0⟩ := h
  obtain ⟨n', h1, h2⟩ := hk.mem hn
  exact ⟨n', h1, by rw [h2]; exact h0⟩

theorem PlainDistance.query_self {S : Setup ν W} (hP : PlainDistance S) (dir : Direction) (s : ν) :
    queryDistance S dir s s = 0 := by
  unfold queryDistance; split <;> exact hP.self s

theorem add_near {S : Setup ν W} (hP : PlainDistance S) (ha : S.addDuplicates = false) (t : Threads) (ht : t.Ok)
    (dir : Direction) (s : ν) (g : Graph ν W) (h : Near S dir g s) :
    ∃ i, addNodeToRoadmap S t dir s g = (.ok i, g) := by
  obtain ⟨h1, -⟩ := C54_duplicate S t ht dir s g (Or.inl hP.symmetric)
    (fun n _ => by unfold queryDistance; split <;> apply hP.finite)
    (fun n _ => by unfold queryDistance; split <;> apply hP.nonneg) hP.neighbors ha
  obtain ⟨i, n, -, -, h2⟩ := h1 h
  exact ⟨i, h2⟩

theorem add_far {S : Setup ν W} (hP : PlainDistance S) (t : Threads) (ht : t.Ok)
    (dir : Direction) (s : ν) (g : Graph ν W) (h : S.addDuplicates = false → ¬ Near S dir g s) :
    ∃ es g', addNodeToRoadmap S t dir s g = (.ok (g.length : Int), g') ∧ Inserted s es g g' := by
  obtain ⟨R, hR, hc⟩ := C54_add S t ht dir s g (Or.inl hP.symmetric)
    (fun n _ => by unfold queryDistance; split <;> apply hP.finite)
  rcases hc with ⟨hd, e, he, h0, -⟩ | ⟨-, es, g', h1, h2, -⟩
  · exfalso
    obtain ⟨n, hn, hq⟩ := neighbors_nodes hR e he
    exact h hd ⟨n, List.mem_of_getElem? hn.2, by rw [← hq, h0]⟩
  · exact ⟨es, g', h1, h2⟩

/-- Adding a state -/
theorem add_cases {S : Setup ν W} (hP : PlainDistance S) (t : Threads) (ht : t.Ok) (dir : Direction) (s : ν)
    (g : Graph ν W) : ∃ i g', addNodeToRoadmap S t dir s g = (.ok i, g') ∧ KeepsStates g g' ∧ Near S dir g' s ∧
      ((S.addDuplicates = false ∧ Near S dir g s ∧ g' = g) ∨
       ((S.addDuplicates = false → ¬ Near S dir g s) ∧ g'.length = g.length + 1 ∧ ∃ n ∈ g', n.value = s)) := by
  by_cases h : S.addDuplicates = false ∧ Near S dir g s
  · obtain ⟨i, hi⟩ := add_near hP h.1 t ht dir s g h.2
    exact ⟨i, g, hi, keepsStates_refl g, h.2, Or.inl ⟨h.1, h.2, rfl⟩⟩
  · have h' : S.addDuplicates = false → ¬ Near S dir g s := fun a b => h ⟨a, b⟩
    obtain ⟨es, g', h1, h2⟩ := add_far hP t ht dir s g h'
    have hm := List.mem_of_getElem? h2.newNode
    exact ⟨_, g', h1, h2.keeps, ⟨_, hm, hP.query_self dir s⟩, Or.inr ⟨h', h2.size, _, hm, rfl⟩⟩

/-- The roadmap after a query that adds nodes -/
theorem querySingle_roadmap {S : Setup ν W} {lazy : Bool} {fuel : Nat} {pick : Nat → Nat} {limit : Bool}
    {start goal : ν × Threads} {g g1 g2 : Graph ν W} {i j : Int}
    (h1 : addNodeToRoadmap S start.2 .newStateToRoadmap start.1 g = (.ok i, g1))
    (h2 : addNodeToRoadmap S goal.2 .roadmapToNewState goal.1 g1 = (.ok j, g2)) :
    (querySingle S lazy fuel pick limit start goal g).2 = g2 := by
  simp only [querySingle, M.bind_apply, h1, h2, M.pure_apply]

theorem ask_keeps {S : Setup ν W} (hP : PlainDistance S) (q : Query ν) (hq : q.Ok) (g : Graph ν W) :
    KeepsStates g (ask S q g).2 := by
  unfold ask
  split
  · obtain ⟨i, g1, a1, a2, -, -⟩ := add_cases hP q.start.2 hq.1 .newStateToRoadmap q.start.1 g
    obtain ⟨j, g2, b1, b2, -, -⟩ := add_cases hP q.goal.2 hq.2 .roadmapToNewState q.goal.1 g1
    rw [querySingle_roadmap a1 b1]
    exact a2.trans b2
  · exact keepsStates_refl g

theorem askAll_keeps {S : Setup ν W} (hP : PlainDistance S) (qs : List (Query ν)) (hq : ∀ q ∈ qs, q.Ok)
    (g : Graph ν W) : KeepsStates g (askAll S qs g).2 := by
  induction qs generalizing g with
  | nil => exact keepsStates_refl g
  | cons q qs ih =>
    exact (ask_keeps hP q (hq q (by simp)) g).trans (ih (fun q h => hq q (by simp [h])) _)

/-- **C216 (once).** Without duplicates, a query that was made before, with others in between, adds nothing: the roadmap
is what it was. -/
theorem C216_again (S : Setup ν W) (hP : PlainDistance S) (ha : S.addDuplicates = false) (q q' : Query ν) (hq : q.Ok)
    (hq' : q'.Ok) (hs : q'.start.1 = q.start.1) (hg : q'.goal.1 = q.goal.1) (hadd : q.addNodes = true)
    (others : List (Query ν)) (ho : ∀ o ∈ others, o.Ok) (g : Graph ν W) :
    (ask S q' (askAll S (q :: others) g).2).2 = (askAll S (q :: others) g).2 := by
  obtain ⟨i, g1, a1, -, a3, -⟩ := add_cases hP q.start.2 hq.1 .newStateToRoadmap q.start.1 g
  obtain ⟨j, g2, b1, b2, b3, -⟩ := add_cases hP q.goal.2 hq.2 .roadmapToNewState q.goal.1 g1
  have hk := askAll_keeps hP others ho g2
  have e : (askAll S (q :: others) g).2 = (askAll S others g2).2 := by
    show (askAll S others (ask S q g).2).2 = _
    unfold ask
    rw [if_pos hadd, querySingle_roadmap a1 b1]
  rw [e]
  obtain ⟨i', c1⟩ := add_near hP ha q'.start.2 hq'.1 .newStateToRoadmap q'.start.1 _
    (by rw [hs]; exact (a3.keep b2).keep hk)
  obtain ⟨j', c2⟩ := add_near hP ha q'.goal.2 hq'.2 .roadmapToNewState q'.goal.1 _
    (by rw [hg]; exact b3.keep hk)
  unfold ask
  split
  · exact querySingle_roadmap c1 c2
  · rfl

/-- What is known while queries are made: the nodes that are new hold different states of the queries. -/
structure Ledger (g g' : Graph ν W) (A : List ν) : Prop where
  size : g'.length = g.length + A.length
  nodup : A.Nodup
  held : ∀ a ∈ A, ∃ n ∈ g', n.value = a

theorem Ledger.add {S : Setup ν W} (hP : PlainDistance S) (ha : S.addDuplicates = false) {t : Threads} (ht : t.Ok)
    {dir : Direction} {s : ν} {g g' : Graph ν W} {A : List ν} (h : Ledger g g' A) :
    ∃ i g'' A', addNodeToRoadmap S t dir s g' = (.ok i, g'') ∧ Ledger g g'' A' ∧ ∀ a ∈ A', a ∈ A ∨ a = s := by
  obtain ⟨i, g'', h1, h2, -, h3⟩ := add_cases hP t ht dir s g'
  have hk : ∀ a ∈ A, ∃ n ∈ g'', n.value = a := by
    intro a haA
    obtain ⟨n, hn, hv⟩ := h.held a haA
    obtain ⟨n', hn', hv'⟩ := h2.mem hn
    exact ⟨n', hn', hv'.trans hv⟩
  rcases h3 with ⟨-, -, h4⟩ | ⟨h4, h5, n, hn, hv⟩
  · exact ⟨i, g'', A, h1, ⟨by rw [h4, h.size], h.nodup, hk⟩, fun a h => Or.inl h⟩
  · refine ⟨i, g'', s :: A, h1, ⟨by rw [h5, h.size, List.length_cons]; omega, ?_, ?_⟩, ?_⟩
    · refine List.nodup_cons.2 ⟨fun hsA => ?_, h.nodup⟩
      obtain ⟨m, hm, hmv⟩ := h.held s hsA
      exact h4 ha ⟨m, hm, by rw [hmv]; exact hP.query_self dir s⟩
    · intro a haA
      rcases List.mem_cons.1 haA with rfl | haA
      · exact ⟨n, hn, hv⟩
      · exact hk a haA
    · intro a haA
      rcases List.mem_cons.1 haA with rfl | haA
      · exact Or.inr rfl
      · exact Or.inl haA

theorem Ledger.askAll {S : Setup ν W} (hP : PlainDistance S) (ha : S.addDuplicates = false) (qs : List (Query ν))
    (hq : ∀ q ∈ qs, q.Ok) {g g' : Graph ν W} {A : List ν} (h : Ledger g g' A) :
    ∃ A', Ledger g (askAll S qs g').2 A' ∧ ∀ a ∈ A', a ∈ A ∨ a ∈ added qs := by
  induction qs generalizing g' A with
  | nil => exact ⟨A, h, fun a h => Or.inl h⟩
  | cons q qs ih =>
    have ih := @ih (fun q h => hq q (by simp [h]))
    show ∃ A', Ledger g (Prm.askAll S qs (ask S q g').2).2 A' ∧ _
    unfold ask
    cases hadd : q.addNodes with
    | false =>
      obtain ⟨A', h1, h2⟩ := ih h
      refine ⟨A', by simpa using h1, fun a haA => ?_⟩
      rcases h2 a haA with h3 | h3
      · exact Or.inl h3
      · right; simpa [added, hadd] using h3
    | true =>
      obtain ⟨i, g1, A1, a1, a2, a3⟩ := h.add hP ha (hq q (by simp)).1 (dir := .newStateToRoadmap) (s := q.start.1)
      obtain ⟨j, g2, A2, b1, b2, b3⟩ := a2.add hP ha (hq q (by simp)).2 (dir := .roadmapToNewState) (s := q.goal.1)
      rw [if_pos rfl, querySingle_roadmap a1 b1]
      obtain ⟨A', h1, h2⟩ := ih b2
      refine ⟨A', h1, fun a haA => ?_⟩
      have hc : added (q :: qs) = q.start.1 :: q.goal.1 :: added qs := by simp [added, hadd]
      rw [hc]
      rcases h2 a haA with h3 | h3
      · rcases b3 a h3 with h3 | h3
        · rcases a3 a h3 with h3 | h3
          · exact Or.inl h3
          · right; simp [h3]
        · right; simp [h3]
      · right; simp [h3]

/-- **C216 (growth).** Without duplicates, any number of queries adds at most one node for each different start or goal of
those that add nodes, whatever their order, their answers and the schedules of the threads; no node is taken away. -/
theorem C216_growth (S : Setup ν W) (hP : PlainDistance S) (ha : S.addDuplicates = false) (qs : List (Query ν))
    (hq : ∀ q ∈ qs, q.Ok) (states : List ν) (hs : ∀ a ∈ added qs, a ∈ states) (g : Graph ν W) :
    g.length ≤ (askAll S qs g).2.length ∧ (askAll S qs g).2.length ≤ g.length + states.length ∧
    KeepsStates g (askAll S qs g).2 := by
  have h0 : Ledger g g [] := ⟨by simp, by simp, by simp⟩
  obtain ⟨A, h1, h2⟩ := h0.askAll hP ha qs hq
  have h3 : A.length ≤ states.length := by
    apply (List.subperm_of_subset h1.nodup ?_).length_le
    intro a haA
    rcases h2 a haA with h | h
    · simp at h
    · exact hs a h
  exact ⟨by rw [h1.size]; omega, by rw [h1.size]; omega, askAll_keeps hP qs hq g⟩

/-- **C216 (duplicates).** With duplicates, every query that adds nodes adds two, also one made before. -/
theorem C216_duplicates (S : Setup ν W) (hP : PlainDistance S) (ha : S.addDuplicates = true) (qs : List (Query ν))
    (hq : ∀ q ∈ qs, q.Ok) (g : Graph ν W) :
    (askAll S qs g).2.length = g.length + 2 * (qs.filter (·.addNodes)).length := by
  induction qs generalizing g with
  | nil => rfl
  | cons q qs ih =>
    show (askAll S qs (ask S q g).2).2.length = _
    rw [ih (fun q h => hq q (by simp [h]))]
    unfold ask
    cases hadd : q.addNodes with
    | false => simp [hadd]
    | true =>
      obtain ⟨es, g1, a1, a2⟩ := add_far hP q.start.2 (hq q (by simp)).1 .newStateToRoadmap q.start.1 g (by simp [ha])
      obtain ⟨es', g2, b1, b2⟩ := add_far hP q.goal.2 (hq q (by simp)).2 .roadmapToNewState q.goal.1 g1 (by simp [ha])
      rw [if_pos rfl, querySingle_roadmap a1 b1, b2.size, a2.size]
      simp only [List.filter_cons, hadd, if_true, List.length_cons]
      omega

/-- **C216 (copies).** The queries that are given a roadmap they may not change have no effect on the others: leaving them
out changes neither the roadmap at the end nor the answers of the others, and each gives the answer that the query which
adds nodes would give in its place. -/
theorem C216_copies (S : Setup ν W) (qs : List (Query ν)) (g : Graph ν W) :
    (askAll S (qs.filter (·.addNodes)) g).2 = (askAll S qs g).2 ∧
    (askAll S (qs.filter (·.addNodes)) g).1 =
      ((qs.zip (askAll S qs g).1).filter (·.1.addNodes)).map (·.2) ∧
    ∀ q : Query ν, (ask S { q with addNodes := false } g).1 = (ask S { q with addNodes := true } g).1 ∧
      (ask S { q with addNodes := false } g).2 = g := by
  refine ⟨?_, ?_, fun q => ⟨rfl, rfl⟩⟩
  · induction qs generalizing g with
    | nil => rfl
    | cons q qs ih =>
      cases hadd : q.addNodes with
      | false =>
        rw [List.filter_cons_of_neg (by simp [hadd]), ih]
        show _ = (askAll S qs (ask S q g).2).2
        simp [ask, hadd]
      | true =>
        rw [List.filter_cons_of_pos hadd]
        exact ih (ask S q g).2
  · induction qs generalizing g with
    | nil => rfl
    | cons q qs ih =>
      cases hadd : q.addNodes with
      | false =>
        rw [List.filter_cons_of_neg (by simp [hadd]), ih]
        have : (askAll S (q :: qs) g).1 = (ask S q g).1 :: (askAll S qs g).1 := by
          show (ask S q g).1 :: (askAll S qs (ask S q g).2).1 = _
          simp [ask, hadd]
        rw [this, List.zip_cons_cons, List.filter_cons_of_neg (by simp [hadd])]
      | true =>
        rw [List.filter_cons_of_pos hadd]
        show (ask S q g).1 :: (askAll S (qs.filter (·.addNodes)) (ask S q g).2).1 = _
        rw [ih (ask S q g).2]
        show _ = List.map _ (List.filter _ ((q :: qs).zip ((ask S q g).1 :: (askAll S qs (ask S q g).2).1)))
        rw [List.zip_cons_cons, List.filter_cons_of_pos (by simpa using hadd)]
        rfl

/-! ## Cases that meet the hypotheses -/

theorem exPlain (d : Bool) : PlainDistance (exSetup true d) where
  symmetric := rfl
  finite _ _ := rfl
  nonneg a b := by
    show (0 : Dist) ≤ .fin _
    exact (Dist.le_def _ _).2 (by simp [Dist.leb])
  self a := by
    show Dist.fin ((a - a) + (a - a)) = .fin 0
    simp
  neighbors := by cases d <;> decide

/-- A query of the sample roadmap -/
def exQuery (addNodes : Bool) (start goal : Nat) : Query Nat :=
  ⟨false, addNodes, 100, fun _ => 0, true, (start, serial), (goal, serial)⟩

example (b : Bool) (s t : Nat) : (exQuery b s t).Ok :=
  ⟨(fun _ _ h => by cases h), (fun _ _ h => by cases h)⟩

/-- Four queries, one of them again and one on a copy, add three nodes; with duplicates they add six. -/
example : ((askAll (exSetup true false) [exQuery true 1 11, exQuery false 2 9, exQuery true 1 11, exQuery true 11 5]
      exRoadmap).2.map (·.value)) = [3, 7, 13, 1, 11, 5] ∧
    ((askAll (exSetup true true) [exQuery true 1 11, exQuery false 2 9, exQuery true 1 11, exQuery true 11 5]
      exRoadmap).2.map (·.value)) = [3, 7, 13, 1, 11, 1, 11, 11, 5] := by decide +kernel

end Verif.Prm
