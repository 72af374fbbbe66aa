import Verif.Spec.NanGeneric
import Verif.Props.NanAstarHeuristic

/-!
# Properties of generic A* searches with costs that may not be a number: C200
-/
namespace Verif.NanAstar
open Verif Verif.NotANumber

variable {W : Type} [Cost W]

/-! ## Any heuristic -/

/-- The same callbacks with a heuristic that says nothing. -/
def Generic.blind (G : Generic W) : Generic W := { G with heuristic := fun _ _ => some Cost.inf }

section
variable (hadd : ∀ a : W, a + Cost.inf = Cost.inf)
include hadd

theorem genericExpand_blind (G : Generic W) (goal : Int) (limit : Bool) {n n' : Elem W}
    (hid : n.id = n'.id) (hc : n.cost = n'.cost) (cs : List Int) (s t : State W) (h : Sim s t) :
    Sim (genericExpand G goal limit n cs s) (genericExpand G.blind goal limit n' cs t) := by
  induction cs generalizing s t with
  | nil => exact h
  | cons c cs ih =>
    unfold genericExpand
    have hv : G.blind.valid n'.id c = G.valid n'.id c := rfl
    have hd : G.blind.distance n'.id c = G.distance n'.id c := rfl
    rw [hv, hd, hid]
    split
    · dsimp only
      rw [h.members, h.explored, hc]
      split
      · refine ih _ _ ⟨?_, ?_, rfl, rfl⟩
        · rw [List.map_append, List.map_append, h.queue, List.map_singleton, List.map_singleton]
          rfl
        · intro y hy
          rcases List.mem_append.1 hy with hy | hy
          · exact h.values y hy
          · rw [List.mem_singleton] at hy
            subst hy
            exact add_inf hadd _
      · exact ih s t h
    · exact ih s t h

omit hadd in
theorem genericLoop_congr (G : Generic W) (goal : Int) (limit : Bool) {p p' : Nat → Nat}
    (fuel k : Nat) (s : State W) (h : ∀ j, k ≤ j → p j = p' j) :
    genericLoop G goal limit p fuel k s = genericLoop G goal limit p' fuel k s := by
  induction fuel generalizing k s with
  | zero => unfold genericLoop; rw [h k (Nat.le_refl k)]
  | succ fuel ih =>
    unfold genericLoop
    rw [h k (Nat.le_refl k)]
    have ih' := fun s => ih (k + 1) s (fun j hj => h j (by omega))
    simp only [ih']

theorem genericLoop_blind (G : Generic W) (goal : Int) (limit : Bool) (pick : Nat → Nat)
    (fuel k : Nat) (s t : State W) (h : Sim s t) :
    ∃ pick', genericLoop G goal limit pick fuel k s = genericLoop G.blind goal limit pick' fuel k t := by
  by_cases hq : s.queue = []
  · have ht : t.queue = [] := by
      have := h.queue
      rw [hq] at this
      exact List.map_eq_nil_iff.1 this.symm
    refine ⟨pick, ?_⟩
    unfold genericLoop
    have e1 : ∀ c, pop c ([] : List (Elem W)) = none := by
      intro c; simp [pop, popMin, minPositions]
    rw [hq, ht, e1]
    dsimp only
    rw [h.explored]
  · obtain ⟨i, x, hx, hp⟩ := pop_some (c := pick k) hq
    have hy : (t.queue.map label)[i]? = some (label x) := by
      rw [← h.queue, List.getElem?_map, hx]; rfl
    rw [List.getElem?_map] at hy
    obtain ⟨y, hy, hxy⟩ := Option.map_eq_some_iff.1 hy
    have hp' := pop_blind h.values hy
    simp only [label, Prod.mk.injEq] at hxy
    obtain ⟨h1, h2, h3⟩ := hxy
    have hrest : (s.queue.eraseIdx i).map label = (t.queue.eraseIdx i).map label := by
      rw [← eraseIdx_map, ← eraseIdx_map, h.queue]
    have hvals : ∀ e ∈ t.queue.eraseIdx i, e.value = none ∨ e.value = some Cost.inf :=
      fun e he => h.values e (List.mem_of_mem_eraseIdx he)
    cases fuel with
    | zero =>
      refine ⟨fun _ => i, ?_⟩
      unfold genericLoop
      rw [hp, hp']
    | succ fuel =>
      have next : ∀ s' t', Sim s' t' → ∃ pick', pick' k = i ∧
          genericLoop G goal limit pick fuel (k + 1) s' = genericLoop G.blind goal limit pick' fuel (k + 1) t' := by
        intro s' t' h'
        obtain ⟨p, hp⟩ := genericLoop_blind G goal limit pick fuel (k + 1) s' t' h'
        refine ⟨fun j => if j = k then i else p j, by simp, ?_⟩
        rw [hp]
        refine genericLoop_congr G.blind goal limit fuel (k + 1) t' ?_
        intro j hj
        rw [if_neg (by omega)]
      unfold genericLoop
      rw [hp]
      dsimp only
      cases hw : notWorse ((s.explored.lookup x.id).map (·.2)) x.cost with
      | true =>
        have hw' : notWorse ((t.explored.lookup y.id).map (·.2)) y.cost = true := by
          rw [h1, h3, ← h.explored]; exact hw
        obtain ⟨p, hk, hp2⟩ := next ⟨s.queue.eraseIdx i, if limit then s.members.filter (fun m => m.1 ≠ x.id)
            else s.members, s.explored⟩ ⟨t.queue.eraseIdx i, if limit then t.members.filter (fun m => m.1 ≠ y.id)
            else t.members, t.explored⟩ ⟨hrest, hvals, by rw [h.members, h1], h.explored⟩
        refine ⟨p, ?_⟩
        rw [hk, hp']
        dsimp only
        rw [hw', if_neg (show ¬ ((!true) = true) by decide), if_neg (show ¬ ((!true) = true) by decide)]
        exact hp2
      | false =>
        have hw' : notWorse ((t.explored.lookup y.id).map (·.2)) y.cost = false := by
          rw [h1, h3, ← h.explored]; exact hw
        rw [if_pos (show (!false) = true by rfl)]
        by_cases hg : x.id = goal
        · refine ⟨fun _ => i, ?_⟩
          rw [hp']
          dsimp only
          rw [hw', if_pos (show (!false) = true by rfl), if_pos hg, if_pos (h1.trans hg), h1, h2, h3, h.explored]
        · obtain ⟨p, hk, hp2⟩ := next _ _ (genericExpand_blind hadd G goal limit h1.symm h3.symm (G.children x.id)
            ⟨s.queue.eraseIdx i, if limit then s.members.filter (fun m => m.1 ≠ x.id) else s.members,
              (x.id, (x.backpointer, x.cost)) :: s.explored⟩
            ⟨t.queue.eraseIdx i, if limit then t.members.filter (fun m => m.1 ≠ y.id) else t.members,
              (y.id, (y.backpointer, y.cost)) :: t.explored⟩
            ⟨hrest, hvals, by rw [h.members, h1], by rw [h1, h2, h3, h.explored]⟩)
          refine ⟨p, ?_⟩
          rw [hk, hp']
          dsimp only
          rw [hw', if_pos (show (!false) = true by rfl), if_neg hg, if_neg (fun h => hg (h1.symm.trans h))]
          have hch : G.blind.children y.id = G.children x.id := by rw [h1]; rfl
          rw [hch]
          exact hp2
termination_by fuel

/-- **C200, heuristics.** Whatever a heuristic returns, NaN included: the search does nothing that it could not
do, with another order among equal entries of the queue, under a heuristic that is infinite everywhere. -/
theorem C200_heuristic (fuel : Nat) (pick : Nat → Nat) (G : Generic W) (start goal : Int) (limit : Bool) :
    ∃ pick', genericAstarSearch fuel pick G start goal limit =
      genericAstarSearch fuel pick' { G with heuristic := fun _ _ => some Cost.inf } start goal limit := by
  show ∃ pick', _ = genericAstarSearch fuel pick' G.blind start goal limit
  unfold genericAstarSearch
  split
  · exact ⟨pick, rfl⟩
  · obtain ⟨p, hp⟩ := genericLoop_blind hadd G goal limit pick fuel 0
      ⟨[⟨start, -1, some 0, G.heuristic start goal⟩], if limit then [(start, some 0)] else [], []⟩
      ⟨[⟨start, -1, some 0, some Cost.inf⟩], if limit then [(start, some 0)] else [], []⟩
      ⟨rfl, by simp, rfl, rfl⟩
    refine ⟨p, ?_⟩
    rw [hp]
    rfl

end

/-! ## Numbers -/

theorem genericExpand_lift {G : Generic W} {G' : Astar.Generic W} (ha : SameAnswers G G') (goal : Int)
    (limit : Bool) (n : Astar.Elem W) (cs : List Int) (hcs : ∀ c ∈ cs, c ∈ G.children n.id) (s : Astar.State W) :
    genericExpand G goal limit (liftElem n) cs (liftState s) =
      liftState (Astar.genericExpand G' goal limit n cs s) := by
  induction cs generalizing s with
  | nil => rfl
  | cons c cs ih =>
    have ih' := fun s => ih (fun c hc => hcs c (List.mem_cons_of_mem _ hc)) s
    unfold genericExpand Astar.genericExpand
    rw [← ha.valid]
    have hid : (liftElem n).id = n.id := rfl
    rw [hid]
    split
    · next hv =>
      dsimp only
      rw [ha.distance n.id c (hcs c List.mem_cons_self) hv, ha.heuristic]
      have h1 : notWorse (((liftState s).explored.lookup c).map (·.2))
          (add (liftElem n).cost (some (G'.distance n.id c))) =
          Astar.notWorse ((s.explored.lookup c).map (·.2)) (n.cost + G'.distance n.id c) := by
        show notWorse (((liftExplored s.explored).lookup c).map (·.2)) (some (n.cost + G'.distance n.id c)) = _
        rw [lookup_explored, Option.map_map, ← notWorse_lift, Option.map_map]
        rfl
      have h2 : notWorse ((liftState s).members.lookup c)
          (add (liftElem n).cost (some (G'.distance n.id c))) =
          Astar.notWorse (s.members.lookup c) (n.cost + G'.distance n.id c) := by
        show notWorse ((s.members.map (fun x => (x.1, some x.2))).lookup c)
          (some (n.cost + G'.distance n.id c)) = _
        rw [lookup_lift, notWorse_lift]
      rw [h1, h2]
      split
      · rw [← ih']
        congr 1
        show State.mk _ _ _ = State.mk _ _ _
        congr 1
        rw [List.map_append]
        rfl
      · exact ih' s
    · exact ih' s

theorem genericLoop_lift {G : Generic W} {G' : Astar.Generic W} (ha : SameAnswers G G') (goal : Int)
    (limit : Bool) (pick : Nat → Nat) (fuel k : Nat) (s : Astar.State W) :
    genericLoop G goal limit pick fuel k (liftState s) =
      (Astar.genericLoop G' goal limit pick fuel k s).map liftExplored := by
  induction fuel generalizing k s with
  | zero =>
    unfold genericLoop Astar.genericLoop
    show (match pop (pick k) (s.queue.map liftElem) with | none => _ | some (n, rest) => _) = _
    rw [pop_lift]
    cases popMin Astar.Elem.value (pick k) s.queue <;> rfl
  | succ fuel ih =>
    unfold genericLoop Astar.genericLoop
    show (match pop (pick k) (s.queue.map liftElem) with | none => _ | some (n, rest) => _) = _
    rw [pop_lift]
    cases popMin Astar.Elem.value (pick k) s.queue with
    | none => rfl
    | some x =>
      obtain ⟨n, rest⟩ := x
      dsimp only [Option.map_some]
      have hm : (if limit then (liftState s).members.filter (fun m => m.1 ≠ (liftElem n).id)
          else (liftState s).members) =
          (if limit then s.members.filter (fun m => m.1 ≠ n.id) else s.members).map
            (fun x => (x.1, some x.2)) := by
        cases limit
        · rfl
        · exact filter_lift s.members n.id
      have hw : notWorse (((liftState s).explored.lookup (liftElem n).id).map (·.2)) (liftElem n).cost =
          Astar.notWorse ((s.explored.lookup n.id).map (·.2)) n.cost := by
        show notWorse (((liftExplored s.explored).lookup n.id).map (·.2)) (some n.cost) = _
        rw [lookup_explored, Option.map_map, ← notWorse_lift, Option.map_map]
        rfl
      rw [hw, hm]
      split
      · by_cases hg : n.id = goal
        · rw [if_pos hg, if_pos (show (liftElem n).id = goal from hg)]; rfl
        · rw [if_neg hg, if_neg (show ¬ (liftElem n).id = goal from hg), ← ih]
          congr 1
          rw [← ha.children]
          exact genericExpand_lift ha goal limit n (G.children n.id) (fun _ h => h)
            ⟨rest, if limit then s.members.filter (fun m => m.1 ≠ n.id) else s.members,
              (n.id, (n.backpointer, n.cost)) :: s.explored⟩
      · exact ih (k + 1) ⟨rest, _, s.explored⟩

/-- **C200, numbers.** As long as the callbacks return numbers, the search is the one of C21. -/
theorem C200_numbers {G : Generic W} {G' : Astar.Generic W} (ha : SameAnswers G G') (fuel : Nat)
    (pick : Nat → Nat) (start goal : Int) (limit : Bool) :
    genericAstarSearch fuel pick G start goal limit =
      numberResult (Astar.genericAstarSearch fuel pick G' start goal limit) := by
  unfold genericAstarSearch Astar.genericAstarSearch
  split
  · rfl
  · have hs : (⟨[⟨start, -1, some 0, G.heuristic start goal⟩], if limit then [(start, some 0)] else [], []⟩ :
        State W) = liftState ⟨[⟨start, -1, 0, G'.heuristic start goal⟩], if limit then [(start, 0)] else [], []⟩ := by
      rw [ha.heuristic]
      cases limit <;> rfl
    rw [hs, genericLoop_lift ha]
    cases Astar.genericLoop G' goal limit pick fuel 0 _ with
    | none => rfl
    | some ex => exact extract_lift fuel ex start goal

/-- **C200, completeness.** On finitely many states with ids and distances that are not negative the search ends
with any heuristic, NaN included. It reports no path exactly if there is none; otherwise it reports a path along
valid children that costs no more than the number reported. -/
theorem C200_complete (hadd : ∀ a : W, a + Cost.inf = Cost.inf) (G : Generic W) (start goal : Int)
    (hne : start ≠ goal) (hn : ∀ u v w, G.Move u v w → ∃ d, w = some d ∧ 0 ≤ d) (S : List Int) (h0 : start ∈ S)
    (hS : ∀ u v w, u ∈ S → G.Move u v w → v ∈ S) (hids : ∀ u ∈ S, 0 ≤ u) :
    ∃ N, ∀ pick fuel limit, N ≤ fuel → ∃ path cost,
      genericAstarSearch fuel pick G start goal limit = some (.ok (path, some cost)) ∧
      Astar.Complete G.Step start goal path cost := by
  let G' : Astar.Generic W := ⟨G.children, G.valid, fun u v => (G.distance u v).getD Cost.inf, fun _ _ => Cost.inf⟩
  have hstep : ∀ u v w, G'.Step u v w ↔ G.Step u v w := by
    intro u v w
    constructor
    · rintro ⟨h1, h2, h3⟩
      obtain ⟨d, h4, _⟩ := hn u v _ ⟨h1, h2, rfl⟩
      refine ⟨h1, h2, ?_⟩
      have h3' : w = (G.distance u v).getD Cost.inf := h3
      rw [h4] at h3'
      rw [h4, h3']
      rfl
    · rintro ⟨h1, h2, h3⟩
      exact ⟨h1, h2, show w = (G.distance u v).getD Cost.inf by rw [← h3]; rfl⟩
  obtain ⟨N, hN⟩ := Astar.C21_complete G' start goal hne (by
      intro u v w h
      obtain ⟨d, h1, h2⟩ := hn u v _ ((hstep u v w).1 h)
      cases h1
      exact h2) S h0 (fun u v w hu h => hS u v _ hu ((hstep u v w).1 h)) hids
  refine ⟨N, ?_⟩
  intro pick fuel limit hf
  obtain ⟨p, hp⟩ := C200_heuristic hadd fuel pick G start goal limit
  obtain ⟨path, cost, h1, h2⟩ := hN p fuel limit hf
  refine ⟨path, cost, ?_, Astar.complete_congr hstep h2⟩
  rw [hp, C200_numbers (G := { G with heuristic := fun _ _ => some Cost.inf }) (G' := G')
    ⟨fun _ => rfl, fun _ _ => rfl, ?_, fun _ _ => rfl⟩, h1]
  · rfl
  · intro u v hc hv
    obtain ⟨d, h4, _⟩ := hn u v _ ⟨hc, hv, rfl⟩
    show G.distance u v = some ((G.distance u v).getD Cost.inf)
    rw [h4]
    rfl

/-! ## Paths -/

/-- a state was reached from its backpointer, or is the first one -/
def Reached (G : Generic W) (start : Int) (id b : Int) : Prop :=
  (id = start ∧ b = -1) ∨ (0 ≤ b ∧ ∃ w, G.Move b id w)

/-- the invariant of the search -/
structure GenericInv (G : Generic W) (start : Int) (s : State W) : Prop where
  queue : ∀ e ∈ s.queue, 0 ≤ e.id ∧ Reached G start e.id e.backpointer
  explored : ∀ x ∈ s.explored, Reached G start x.1 x.2.1

theorem genericExpand_inv {G : Generic W} {start : Int} (hids : ∀ u v, v ∈ G.children u → 0 ≤ v) (goal : Int)
    (limit : Bool) {n : Elem W} (hn : 0 ≤ n.id) (cs : List Int) (hcs : ∀ c ∈ cs, c ∈ G.children n.id)
    (s : State W) (hi : GenericInv G start s) : GenericInv G start (genericExpand G goal limit n cs s) := by
  induction cs generalizing s with
  | nil => exact hi
  | cons c cs ih =>
    have ih' := ih (fun c hc => hcs c (List.mem_cons_of_mem _ hc))
    unfold genericExpand
    split
    · next hv =>
      dsimp only
      split
      · refine ih' _ ⟨?_, hi.explored⟩
        intro y hy
        rcases List.mem_append.1 hy with hy | hy
        · exact hi.queue y hy
        · rw [List.mem_singleton] at hy
          subst hy
          have hc := hcs c List.mem_cons_self
          exact ⟨hids _ _ hc, .inr ⟨hn, _, hc, hv, rfl⟩⟩
      · exact ih' s hi
    · exact ih' s hi

theorem genericLoop_inv {G : Generic W} {start goal : Int} (hids : ∀ u v, v ∈ G.children u → 0 ≤ v)
    {limit : Bool} {pick : Nat → Nat} {fuel k : Nat} {s : State W} {ex : Explored W} (hi : GenericInv G start s)
    (h : genericLoop G goal limit pick fuel k s = some ex) : ∀ x ∈ ex, Reached G start x.1 x.2.1 := by
  induction fuel generalizing k s with
  | zero =>
    unfold genericLoop at h
    split at h
    · cases h; exact hi.explored
    · cases h
  | succ fuel ih =>
    unfold genericLoop at h
    split at h
    · cases h; exact hi.explored
    · next n rest hp =>
      obtain ⟨p1, _, p3⟩ := pop_spec hp
      have hn := hi.queue n p1
      have hrest : ∀ e ∈ rest, 0 ≤ e.id ∧ Reached G start e.id e.backpointer := fun e he => hi.queue e (p3 e he)
      have hex : ∀ x ∈ (n.id, (n.backpointer, n.cost)) :: s.explored, Reached G start x.1 x.2.1 := by
        intro x hx
        rcases List.mem_cons.1 hx with rfl | hx
        · exact hn.2
        · exact hi.explored x hx
      dsimp only at h
      split at h
      · split at h
        · cases h; exact hex
        · exact ih (genericExpand_inv hids goal limit hn.1 _ (fun _ h => h) _ ⟨hrest, hex⟩) h
      · exact ih (s := ⟨rest, if limit then s.members.filter (fun m => m.1 ≠ n.id) else s.members, s.explored⟩)
          ⟨hrest, hi.explored⟩ h

omit [Cost W] in
theorem followBack_moves {G : Generic W} {ex : Explored W} {start goal : Int}
    (hex : ∀ x ∈ ex, Reached G start x.1 x.2.1) :
    ∀ (fuel : Nat) (b x : Int) (acc t p : List Int), x ≠ start → Reached G start x b →
      acc.reverse = x :: t → Route (fun u v => ∃ w, G.Move u v w) (x :: t) →
      (x :: t).getLast? = some goal → followBack ex start fuel b acc = some (.ok p) →
      p.reverse.head? = some start ∧ p.reverse.getLast? = some goal ∧
        Route (fun u v => ∃ w, G.Move u v w) p.reverse := by
  intro fuel
  induction fuel with
  | zero =>
    intro b x acc t p hx hb hacc hr hl hf
    unfold followBack at hf
    rcases hb with ⟨h, _⟩ | ⟨hn, w, hw⟩
    · exact absurd h hx
    · rw [if_pos hn] at hf
      cases hf
  | succ fuel ih =>
    intro b x acc t p hx hb hacc hr hl hf
    unfold followBack at hf
    rcases hb with ⟨h, _⟩ | ⟨hn, w, hw⟩
    · exact absurd h hx
    · rw [if_pos hn] at hf
      dsimp only at hf
      have hacc' : (acc ++ [b]).reverse = b :: x :: t := by rw [List.reverse_append, hacc]; rfl
      have hr' : Route (fun u v => ∃ w, G.Move u v w) (b :: x :: t) := ⟨⟨w, hw⟩, hr⟩
      have hl' : (b :: x :: t).getLast? = some goal := by rw [List.getLast?_cons_cons]; exact hl
      split at hf
      · next hbs =>
        cases hf
        rw [hacc']
        exact ⟨by rw [hbs]; rfl, hl', hr'⟩
      · next hbs =>
        split at hf
        · cases hf
        · next data hd =>
          exact ih data.1 b _ (x :: t) p hbs (hex _ (lookup_mem hd)) hacc' hr' hl' hf

/-- **C200, paths.** Whatever the callbacks return, NaN included, and whatever the queue does then: if the ids are
not negative and the call returns a path, it leads from the start to the goal along valid children. -/
theorem C200_path (fuel : Nat) (pick : Nat → Nat) (G : Generic W) (start goal : Int) (limit : Bool)
    (h0 : 0 ≤ start) (hids : ∀ u v, v ∈ G.children u → 0 ≤ v) (path : List Int) (cost : Option W)
    (hr : genericAstarSearch fuel pick G start goal limit = some (.ok (path, cost))) :
    (path = [] ∧ cost = some Cost.inf) ∨
      (path.head? = some start ∧ path.getLast? = some goal ∧ Route (fun u v => ∃ w, G.Move u v w) path) := by
  unfold genericAstarSearch at hr
  split at hr
  · cases hr
  · next hne =>
    split at hr <;> try cases hr
    next ex hl =>
    have hex := genericLoop_inv (start := start) hids (s := ⟨[⟨start, -1, some 0, G.heuristic start goal⟩],
      if limit then [(start, some 0)] else [], []⟩) ⟨by
        intro e he
        rw [List.mem_singleton] at he
        subst he
        exact ⟨h0, .inl ⟨rfl, rfl⟩⟩, by simp⟩ hl
    unfold extractAstarResult at hr
    split at hr
    · cases hr; exact .inl ⟨rfl, rfl⟩
    · next b c hg =>
      split at hr <;> try cases hr
      next p hp =>
      exact .inr (followBack_moves hex fuel b goal [goal] [] p (fun h => hne h.symm) (hex _ (lookup_mem hg)) rfl
        trivial rfl hp)

/-! ## Searches that do not end -/

theorem genericExpand_total {G : Generic W} {goal : Int} (hno : ∀ u w, ¬ G.Move u goal w) (limit : Bool)
    {n : Elem W} (cs : List Int) (hcs : ∀ c ∈ cs, c ∈ G.children n.id) (s : State W)
    (hq : ∀ e ∈ s.queue, e.id ≠ goal) :
    (∀ e ∈ (genericExpand G goal limit n cs s).queue, e.id ≠ goal) ∧
      (∀ e ∈ s.queue, e ∈ (genericExpand G goal limit n cs s).queue) ∧
      ∀ c ∈ cs, G.valid n.id c = true → add n.cost (G.distance n.id c) = none →
        ∃ x ∈ (genericExpand G goal limit n cs s).queue, x.id = c ∧ x.cost = none := by
  induction cs generalizing s with
  | nil => exact ⟨hq, fun _ h => h, by simp⟩
  | cons c cs ih =>
    have ih' := ih (fun c hc => hcs c (List.mem_cons_of_mem _ hc))
    unfold genericExpand
    split
    · next hv =>
      dsimp only
      split
      · obtain ⟨h1, h2, h3⟩ := ih' { s with queue := s.queue ++ [⟨c, n.id, add n.cost (G.distance n.id c),
            add (add n.cost (G.distance n.id c)) (G.heuristic c goal)⟩] } (by
              intro x hx
              rcases List.mem_append.1 hx with hx | hx
              · exact hq x hx
              · rw [List.mem_singleton] at hx
                subst hx
                intro h
                exact hno n.id _ ⟨h ▸ hcs c List.mem_cons_self, h ▸ hv, rfl⟩)
        refine ⟨h1, fun x hx => h2 x (List.mem_append_left _ hx), ?_⟩
        intro c' hc' hv' hnone
        rcases List.mem_cons.1 hc' with rfl | hc'
        · exact ⟨_, h2 _ (List.mem_append_right _ List.mem_cons_self), rfl, hnone⟩
        · exact h3 c' hc' hv' hnone
      · next hw =>
        obtain ⟨h1, h2, h3⟩ := ih' s hq
        refine ⟨h1, h2, ?_⟩
        intro c' hc' hv' hnone
        rcases List.mem_cons.1 hc' with rfl | hc'
        · rw [hnone, notWorse_none, notWorse_none] at hw
          simp at hw
        · exact h3 c' hc' hv' hnone
    · next hv =>
      obtain ⟨h1, h2, h3⟩ := ih' s hq
      refine ⟨h1, h2, ?_⟩
      intro c' hc' hv' hnone
      rcases List.mem_cons.1 hc' with rfl | hc'
      · exact absurd hv' hv
      · exact h3 c' hc' hv' hnone

theorem genericLoop_endless {G : Generic W} {goal : Int} (hno : ∀ u w, ¬ G.Move u goal w) (limit : Bool)
    (S : Int → Prop) (hS : ∀ u, S u → ∃ v w, S v ∧ G.Move u v w) (pick : Nat → Nat) (fuel k : Nat)
    (s : State W) (hq : ∀ e ∈ s.queue, e.id ≠ goal) (hw : ∃ e ∈ s.queue, S e.id ∧ e.cost = none) :
    genericLoop G goal limit pick fuel k s = none := by
  induction fuel generalizing k s with
  | zero =>
    unfold genericLoop
    split
    · next hp =>
      obtain ⟨e, he, _⟩ := hw
      rw [pop_none hp] at he
      cases he
    · rfl
  | succ fuel ih =>
    unfold genericLoop
    split
    · next hp =>
      obtain ⟨e, he, _⟩ := hw
      rw [pop_none hp] at he
      cases he
    · next n rest hp =>
      obtain ⟨p1, p2, p3⟩ := pop_spec hp
      have hrest : ∀ e ∈ rest, e.id ≠ goal := fun e he => hq e (p3 e he)
      obtain ⟨h1, h2, h3⟩ := genericExpand_total hno limit (n := n) (G.children n.id) (fun _ h => h)
        ⟨rest, if limit then s.members.filter (fun m => m.1 ≠ n.id) else s.members,
          (n.id, (n.backpointer, n.cost)) :: s.explored⟩ hrest
      obtain ⟨e, he, hSe, hce⟩ := hw
      dsimp only
      rcases p2 e he with rfl | hin
      · have hb : (!notWorse ((s.explored.lookup e.id).map (·.2)) e.cost) = true := by
          rw [hce, notWorse_none]; rfl
        rw [if_pos hb, if_neg (hq e p1)]
        obtain ⟨v, w, hv, hc, hval, hwd⟩ := hS e.id hSe
        obtain ⟨x, hx, hxid, hxc⟩ := h3 v hc hval (by rw [hce]; rfl)
        exact ih (k + 1) _ h1 ⟨x, hx, by rw [hxid]; exact hv, hxc⟩
      · split
        · rw [if_neg (hq n p1)]
          exact ih (k + 1) _ h1 ⟨e, h2 e hin, hSe, hce⟩
        · exact ih (k + 1) _ hrest ⟨e, hin, hSe, hce⟩

/-- **C200, endless searches.** If the distance to a valid child of the start is NaN, if one can walk on from there
for ever along valid children, and if no state has the goal as a valid child, then the search never returns, although
the states may be finite: no number of rounds is enough, whatever the heuristic, the queue and the flag for
duplicates. -/
theorem C200_endless (fuel : Nat) (pick : Nat → Nat) (G : Generic W) (start goal : Int) (limit : Bool)
    (hne : start ≠ goal) (hno : ∀ u w, ¬ G.Move u goal w) (S : Int → Prop) (first : Int)
    (hfirst : G.Move start first none) (hS1 : S first) (hS : ∀ u, S u → ∃ v w, S v ∧ G.Move u v w) :
    genericAstarSearch fuel pick G start goal limit = none := by
  unfold genericAstarSearch
  rw [if_neg hne]
  suffices hl : genericLoop G goal limit pick fuel 0
      ⟨[⟨start, -1, some 0, G.heuristic start goal⟩], if limit then [(start, some 0)] else [], []⟩ = none by
    rw [hl]
  generalize (if limit then [(start, some (0 : W))] else []) = members
  unfold genericLoop
  split
  · next hp => cases pop_none hp
  · next n rest hp =>
    obtain ⟨p1, _, p3⟩ := pop_spec hp
    rw [List.mem_singleton] at p1
    subst p1
    cases fuel with
    | zero => rfl
    | succ fuel =>
      dsimp only
      rw [if_pos (by rfl), if_neg hne]
      obtain ⟨h1, _, h3⟩ := genericExpand_total hno limit
        (n := ⟨start, -1, some 0, G.heuristic start goal⟩) (G.children start) (fun _ h => h)
        ⟨rest, if limit then members.filter (fun m => m.1 ≠ start) else members, [(start, (-1, some 0))]⟩ (by
          intro e he
          have := p3 e he
          rw [List.mem_singleton] at this
          rw [this]
          exact hne)
      obtain ⟨x, hx, hxid, hxc⟩ := h3 first hfirst.1 hfirst.2.1 (by rw [← hfirst.2.2]; rfl)
      exact genericLoop_endless hno limit S hS pick fuel 1 _ h1 ⟨x, hx, by rw [hxid]; exact hS1, hxc⟩

/-- **C200, arguments.** Equal ids throw. -/
theorem C200_same_ids (fuel : Nat) (pick : Nat → Nat) (G : Generic W) (start : Int) (limit : Bool) :
    genericAstarSearch fuel pick G start start limit = some (.throws .invalidArgument) := by
  unfold genericAstarSearch; rw [if_pos rfl]

/-! ## Concrete cases -/

/-- The numbers 0 to 3 in a row, with a heuristic that is never a number. -/
def inARow : Generic Dist where
  children u := if 0 ≤ u ∧ u < 3 then [u + 1, 0] else []
  valid _ _ := true
  distance _ _ := some (.fin 2)
  heuristic _ _ := none

example : ∀ u v w, inARow.Move u v w → ∃ d, w = some d ∧ 0 ≤ d :=
  fun _ _ _ h => ⟨.fin 2, h.2.2, by decide⟩

example : SameAnswers { inARow with heuristic := fun u v => some (.fin (u - v).natAbs) }
    ⟨inARow.children, inARow.valid, fun _ _ => .fin 2, fun u v => .fin (u - v).natAbs⟩ :=
  ⟨fun _ => rfl, fun _ _ => rfl, fun _ _ _ _ => rfl, fun _ _ => rfl⟩

example : ∀ u v w, u ∈ [0, 1, 2, 3] → inARow.Move u v w → v ∈ [0, 1, 2, 3] := by
  rintro u v w hu ⟨hc, _⟩
  simp only [List.mem_cons, List.not_mem_nil, or_false] at hu
  rcases hu with rfl | rfl | rfl | rfl <;> simp [inARow] at hc ⊢ <;> omega

example : genericAstarSearch 20 (fun _ => 0) inARow 0 3 true = some (.ok ([0, 1, 2, 3], some (.fin 6))) := by
  decide +kernel

/-- The numbers 0 and 1 with a way to each other whose length is not a number. -/
def toAndFro : Generic Dist where
  children u := if u = 0 then [1] else [0]
  valid _ _ := true
  distance _ _ := none
  heuristic _ _ := some (.fin 0)

/-- **C200, endless, a case.** The search from 0 to 5 never ends. -/
theorem C200_to_and_fro (fuel : Nat) (pick : Nat → Nat) (limit : Bool) :
    genericAstarSearch fuel pick toAndFro 0 5 limit = none := by
  refine C200_endless fuel pick toAndFro 0 5 limit (by decide) ?_ (fun u => u = 0 ∨ u = 1) 1
    ⟨by decide, rfl, rfl⟩ (.inr rfl) ?_
  · rintro u w ⟨h, _⟩
    unfold toAndFro at h
    dsimp only at h
    split at h <;> simp at h
  · rintro u (rfl | rfl)
    · exact ⟨1, none, .inr rfl, by decide, rfl, rfl⟩
    · exact ⟨0, none, .inl rfl, by decide, rfl, rfl⟩

end Verif.NanAstar
