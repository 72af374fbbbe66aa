import Verif.Model.RandomWalk
import Verif.Spec.RandomWalk
import Verif.Lemmas.Astar
import Verif.Props.Graph

/-!
# Property C22 (GraphRandomWalk)

`draw` ranges over all sequences of random draws; `none` is a call that has not returned within
`fuel` steps.
-/
namespace Verif.RandomWalk
open Verif Verif.Graph

variable {ν W : Type}

theorem walkStep_ok {g : Graph ν W} {d : Nat} {path path' : List Int} {cur : Int}
    (h : walkStep g d path cur = .ok path') :
    ∃ v, HasEdge g cur v ∧ path' = path.takeWhile (fun x => decide (x ≠ v)) ++ [v] := by
  unfold walkStep at h
  obtain ⟨node, hn, h⟩ := Out.bind_eq_ok.1 h
  split at h
  · cases h
  · rename_i e es he
    split at h
    · cases h
    · rename_i edge hedge
      injection h with h
      exact ⟨edge.toIndex, ⟨node, Astar.getNode_ok_iff.1 hn, edge,
        by rw [he]; exact List.mem_of_getElem? hedge, rfl⟩, h.symm⟩

/-- Cutting a loop off and adding the new node keeps the path simple. -/
theorem SimplePath.step {g : Graph ν W} {start cur v : Int} {path : List Int}
    (h : SimplePath g start cur path) (he : HasEdge g cur v) :
    SimplePath g start v (path.takeWhile (fun x => decide (x ≠ v)) ++ [v]) := by
  have hpre := List.takeWhile_prefix (fun x => decide (x ≠ v)) (l := path)
  obtain ⟨t, ht⟩ := hpre
  have hnot : ∀ x ∈ path.takeWhile (fun x => decide (x ≠ v)), x ≠ v := by
    intro x hx
    have := List.all_takeWhile (p := fun x => decide (x ≠ v)) (l := path)
    rw [List.all_eq_true] at this
    simpa using this x hx
  generalize hl : path.takeWhile (fun x => decide (x ≠ v)) = l at *
  have hget : ∀ i, i < l.length → path[i]? = l[i]? := by
    intro i hi; rw [← ht, List.getElem?_append_left hi]
  have hcase : (t = [] ∧ l = path) ∨ ∃ t', t = v :: t' := by
    cases t with
    | nil => left; exact ⟨rfl, by simpa using ht⟩
    | cons a t' =>
      right
      by_cases hav : a = v
      · exact ⟨t', by rw [hav]⟩
      · exfalso
        have : path.takeWhile (fun x => decide (x ≠ v)) =
            l ++ (a :: t').takeWhile (fun x => decide (x ≠ v)) := by
          rw [show path = l ++ a :: t' from ht.symm, List.takeWhile_append_of_pos]
          intro x hx; simpa using hnot x hx
        rw [hl, List.takeWhile_cons_of_pos (by simpa using hav)] at this
        have := congrArg List.length this
        simp at this
  refine ⟨?_, by simp, ?_, ?_⟩
  · have := h.first
    cases l with
    | nil =>
      rcases hcase with ⟨_, h2⟩ | ⟨t', h2⟩
      · rw [← h2] at this; cases this
      · rw [← ht, h2] at this; simpa using this
    | cons a l =>
      rw [← ht] at this
      simpa using this
  · rw [List.nodup_append]
    refine ⟨?_, by simp, ?_⟩
    · have := h.nodup
      rw [← ht, List.nodup_append] at this
      exact this.1
    · intro x hx y hy
      simp at hy; subst hy
      exact hnot x hx
  · intro i u w hu hw
    by_cases hi : i + 1 < l.length
    · rw [List.getElem?_append_left (by omega)] at hu
      rw [List.getElem?_append_left hi] at hw
      exact h.edges i u w (by rw [hget i (by omega)]; exact hu) (by rw [hget _ hi]; exact hw)
    · have hi' : i + 1 = l.length := by
        have := (List.getElem?_eq_some_iff.1 hw).1
        simp at this
        omega
      rw [List.getElem?_append_left (by omega)] at hu
      rw [List.getElem?_append_right (by omega)] at hw
      simp [hi'] at hw
      subst hw
      rcases hcase with ⟨_, h2⟩ | ⟨t', h2⟩
      · -- nothing was cut: `u` is the last node
        have hlast := h.last
        rw [← h2, List.getLast?_eq_getElem?] at hlast
        have : l.length - 1 = i := by omega
        rw [this, hu] at hlast
        injection hlast with hlast
        rw [hlast]; exact he
      · refine h.edges i u v (by rw [hget i (by omega)]; exact hu) ?_
        rw [← ht, h2, hi', List.getElem?_append_right (Nat.le_refl _)]
        simp

theorem walkLoop_simple {g : Graph ν W} {start goal : Int} {draw : Nat → Nat} :
    ∀ fuel k path cur r, SimplePath g start cur path →
      walkLoop g goal draw fuel k path = some (.ok r) → SimplePath g start goal r := by
  intro fuel
  induction fuel with
  | zero =>
    intro k path cur r hp hr
    unfold walkLoop at hr
    rw [hp.last] at hr
    simp only at hr
    split at hr
    · rename_i hc
      injection hr with hr; injection hr with hr
      rw [← hr, ← hc]; exact hp
    · cases hr
  | succ fuel ih =>
    intro k path cur r hp hr
    unfold walkLoop at hr
    rw [hp.last] at hr
    simp only at hr
    split at hr
    · rename_i hc
      injection hr with hr; injection hr with hr
      rw [← hr, ← hc]; exact hp
    · split at hr <;> try (injection hr with hr; cases hr)
      rename_i p' hs
      obtain ⟨v, hv, rfl⟩ := walkStep_ok hs
      exact ih _ _ _ _ (hp.step hv) hr

/-- C22: whatever the graph and the random draws, a path that is returned leads from start to goal
along out edges and visits no node twice. -/
theorem C22_simple_path (fuel : Nat) (draw : Nat → Nat) (g : Graph ν W) (start goal : Int)
    (path : List Int) (hr : performRandomWalk fuel draw g start goal = some (.ok path)) :
    SimplePath g start goal path :=
  walkLoop_simple fuel 0 [start] start path
    ⟨rfl, rfl, by simp, fun i u v _ hv => by simp at hv⟩ hr

/-- C22: on a consistent graph where every node has an out edge, no call throws or has undefined
behaviour: it returns a path or is still walking. -/
theorem C22_safe (fuel : Nat) (draw : Nat → Nat) (g : Graph ν W) (start goal : Int)
    (hl : Linked g) (hout : ∀ n ∈ g, n.outEdges ≠ []) (hs : 0 ≤ start ∧ start < (g.length : Int)) :
    performRandomWalk fuel draw g start goal = none ∨
      ∃ path, performRandomWalk fuel draw g start goal = some (.ok path) := by
  have hrg := outInRange_of_linked hl
  have key : ∀ fuel k path cur, path.getLast? = some cur → 0 ≤ cur ∧ cur < (g.length : Int) →
      walkLoop g goal draw fuel k path = none ∨
        ∃ r, walkLoop g goal draw fuel k path = some (.ok r) := by
    intro fuel
    induction fuel with
    | zero =>
      intro k path cur hp _
      unfold walkLoop
      rw [hp]
      simp only
      split
      · exact Or.inr ⟨_, rfl⟩
      · exact Or.inl rfl
    | succ fuel ih =>
      intro k path cur hp hc
      unfold walkLoop
      rw [hp]
      simp only
      split
      · exact Or.inr ⟨_, rfl⟩
      · obtain ⟨node, hn⟩ := Astar.getNode_of_range hc
        have hmem : node ∈ g := List.mem_of_getElem? (Astar.getNode_ok_iff.1 hn).2
        have hstep : ∃ e ∈ node.outEdges, walkStep g (draw k) path cur =
            .ok (path.takeWhile (fun x => decide (x ≠ e.toIndex)) ++ [e.toIndex]) := by
          unfold walkStep
          rw [hn, Out.bind_ok]
          have hne := hout node hmem
          cases ho : node.outEdges with
          | nil => exact absurd ho hne
          | cons e es =>
            have hlt : draw k % (e :: es).length < (e :: es).length := Nat.mod_lt _ (by simp)
            refine ⟨(e :: es)[draw k % (e :: es).length], List.getElem_mem hlt, ?_⟩
            simp only [List.getElem?_eq_getElem hlt]
        obtain ⟨e, he, hstep⟩ := hstep
        rw [hstep]
        exact ih _ _ e.toIndex (by simp) (hrg node hmem e he)
  exact key fuel 0 [start] start rfl hs

/-- C22: a node without out edges that is not the goal makes the call undefined (the distribution
is given an empty range). -/
theorem C22_dead_end (fuel : Nat) (draw : Nat → Nat) (g : Graph ν W) (start goal : Int)
    (n : Node ν W) (hn : NodeAt g start n) (hout : n.outEdges = []) (hne : start ≠ goal) :
    performRandomWalk (fuel + 1) draw g start goal = some .ub := by
  unfold performRandomWalk walkLoop
  simp only [List.getLast?_singleton, if_neg hne]
  unfold walkStep
  rw [Astar.getNode_ok_iff.2 hn, Out.bind_ok]
  simp [hout]

/-- C22: the walk takes the edges that are drawn, one draw per step. If the edges drawn lead through
`visited 0, visited 1, …` and first to the goal after `n` steps, the call returns, and the path is part of
that walk, in the same order. -/
theorem C22_follows_draws (fuel : Nat) (draw : Nat → Nat) (g : Graph ν W) (start goal : Int)
    (n : Nat) (hn : n ≤ fuel) (visited : Nat → Int) (h0 : visited 0 = start)
    (hstep : ∀ k, k < n → ∃ node e, NodeAt g (visited k) node ∧
      node.outEdges[draw k % node.outEdges.length]? = some e ∧ e.toIndex = visited (k + 1))
    (hgoal : visited n = goal) (hfirst : ∀ k, k < n → visited k ≠ goal) :
    ∃ path, performRandomWalk fuel draw g start goal = some (.ok path) ∧
      path.Sublist ((List.range (n + 1)).map visited) := by
  have key : ∀ m fuel k path, k + m = n → m ≤ fuel → path.getLast? = some (visited k) →
      path.Sublist ((List.range (k + 1)).map visited) →
      ∃ r, walkLoop g goal draw fuel k path = some (.ok r) ∧
        r.Sublist ((List.range (n + 1)).map visited) := by
    intro m
    induction m with
    | zero =>
      intro fuel k path hk _ hl hs
      have : k = n := by omega
      subst this
      unfold walkLoop
      rw [hl]
      simp only [hgoal, if_true]
      exact ⟨path, rfl, hs⟩
    | succ m ih =>
      intro fuel k path hk hf hl hs
      obtain ⟨node, e, hnode, he, hto⟩ := hstep k (by omega)
      obtain ⟨f, rfl⟩ : ∃ f, fuel = f + 1 := ⟨fuel - 1, by omega⟩
      have hw : walkStep g (draw k) path (visited k) =
          .ok (path.takeWhile (fun x => decide (x ≠ visited (k + 1))) ++ [visited (k + 1)]) := by
        unfold walkStep
        rw [Astar.getNode_ok_iff.2 hnode, Out.bind_ok]
        cases ho : node.outEdges with
        | nil => rw [ho] at he; simp at he
        | cons a as => rw [ho] at he; simp only [he, hto]
      unfold walkLoop
      rw [hl]
      simp only [if_neg (hfirst k (by omega)), hw]
      refine ih f (k + 1) _ (by omega) (by omega) (by simp) ?_
      rw [List.range_succ, List.map_append]
      exact List.Sublist.append ((List.takeWhile_sublist _).trans hs) (by simp)
  exact key n fuel 0 [start] (by omega) hn (by simp [h0]) (by simp [h0])

/-- A cycle 0 → 1 → 0 with an exit 1 → 2 and a way back 2 → 0. -/
def sample : Graph Unit Nat := history 100
  [.addNode (), .addNode (), .addNode (), .addEdge 0 1 1, .addEdge 1 0 1, .addEdge 1 2 1, .addEdge 2 0 1]

/-- The walk goes 0, 1, 0, 1, 2; the loop is trimmed. -/
example : performRandomWalk 9 (fun k => if k = 3 then 1 else 0) sample 0 2 = some (.ok [0, 1, 2]) := by
  decide
/-- The walk 0, 1, 0, 1, 2 that is drawn -/
example : ∀ k, k < 4 → ∃ node e, NodeAt sample ([0, 1, 0, 1, 2].getD k 0) node ∧
    node.outEdges[(if k = 3 then 1 else 0) % node.outEdges.length]? = some e ∧
    e.toIndex = [0, 1, 0, 1, 2].getD (k + 1) 0 := by
  have h0 : NodeAt sample 0 (sample[0]'(by decide)) := ⟨by decide, by decide⟩
  have h1 : NodeAt sample 1 (sample[1]'(by decide)) := ⟨by decide, by decide⟩
  intro k hk
  match k, hk with
  | 0, _ => exact ⟨_, _, h0, rfl, rfl⟩
  | 1, _ => exact ⟨_, _, h1, rfl, rfl⟩
  | 2, _ => exact ⟨_, _, h0, rfl, rfl⟩
  | 3, _ => exact ⟨_, _, h1, rfl, rfl⟩
example : ∀ n ∈ sample, n.outEdges ≠ [] := by decide
example : Linked sample := (inv_history _ _).linked

end Verif.RandomWalk
