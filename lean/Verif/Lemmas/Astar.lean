import Verif.Lemmas.AstarCore
import Verif.Lemmas.Graph

/-!
# Both A* models compute the core search
-/
namespace Verif.Astar
open Verif Verif.Graph

variable {ν W : Type} [Cost W] {succ : Succ W} {h : Int → W} {start goal : Int}

/-! ## Results of the core search -/

theorem notWorse_none (c : W) : notWorse none c = false := rfl

theorem popMin_single {α : Type} (key : α → W) (k : Nat) (x : α) :
    popMin key k [x] = some (x, []) := by
  cases hp : popMin key k [x] with
  | none => have := popMin_none.1 hp; cases this
  | some r =>
    obtain ⟨y, rest⟩ := r
    have h1 := (popMin_mem hp).1
    have h2 := popMin_length hp
    simp at h1 h2
    rw [h1, h2]

theorem coreLoop_start (hne : start ≠ goal) (pick : Nat → Nat) (fuel : Nat) (x : W) :
    coreLoop succ h goal pick (fuel + 1) 0 [⟨start, -1, 0, x⟩] [] =
      coreLoop succ h goal pick fuel 1 (pushes h [(start, (-1, 0))] ⟨start, -1, 0, x⟩ (succ start))
        [(start, (-1, 0))] := by
  rw [coreLoop]
  simp only [popMin_single, if_neg hne]
  simp [notWorse]

theorem coreLoop_start_zero (pick : Nat → Nat) (x : W) :
    coreLoop succ h goal pick 0 0 [⟨start, -1, 0, x⟩] [] = none := by
  rw [coreLoop]
  simp only [popMin_single]

/-- The ways the search from the start can end. -/
theorem search_result (hne : start ≠ goal) {pick : Nat → Nat} {fuel : Nat} {x : W} {ex' : Explored W}
    (hr : coreLoop succ h goal pick fuel 0 [⟨start, -1, 0, x⟩] [] = some ex') :
    ∃ q0 ex0, Inv succ h start goal q0 ex0 ∧ ((q0 = [] ∧ ex' = ex0) ∨
      ∃ e ∈ q0, e.id = goal ∧ (∀ y ∈ q0, e.value ≤ y.value) ∧
        ex' = (goal, (e.backpointer, e.cost)) :: ex0) := by
  cases fuel with
  | zero => rw [coreLoop_start_zero] at hr; cases hr
  | succ fuel =>
    rw [coreLoop_start hne] at hr
    exact coreLoop_result _ _ _ _ _ (inv_start hne) hr

theorem search_hist (hne : start ≠ goal) {pick : Nat → Nat} {fuel : Nat} {x : W} {ex' : Explored W}
    (hr : coreLoop succ h goal pick fuel 0 [⟨start, -1, 0, x⟩] [] = some ex') :
    Hist succ start ex' := by
  obtain ⟨q0, ex0, hi, ⟨_, rfl⟩ | ⟨e, he, hg, _, rfl⟩⟩ := search_result hne hr
  · exact hi.hist
  · obtain ⟨_, b', cb, w, h1, h2, h3⟩ := hi.queue e he
    rw [hg] at h2
    exact .cons hi.hist h1 h2 h3 (fun b0 c0 h0 => by rw [hi.goalNot] at h0; cases h0)

/-- Ids with successors are not negative, on a closed set. -/
structure NonNegIds (succ : Succ W) (start : Int) (P : Int → Prop) : Prop where
  start : P start
  step : ∀ u v w, P u → (v, w) ∈ succ u → P v
  pos : ∀ u, P u → succ u ≠ [] → 0 ≤ u

theorem extract_path {P : Int → Prop} (hP : NonNegIds succ start P) (hne : start ≠ goal)
    {ex : Explored W} (hh : Hist succ start ex) {fuel : Nat} {path : List Int} {cost : W}
    (hr : extractAstarResult fuel ex start goal = some (.ok (path, cost))) :
    (path = [] ∧ cost = Cost.inf ∧ ex.lookup goal = none) ∨
      (∃ b, ex.lookup goal = some (b, cost)) ∧
      ∃ C, Path succ.step start 0 path goal C ∧ (NonNegative succ.step → C ≤ cost) := by
  unfold extractAstarResult at hr
  split at hr
  · rename_i hl
    injection hr with hr; injection hr with hr; injection hr with h1 h2
    exact Or.inl ⟨h1.symm, h2.symm, hl⟩
  · rename_i b c hl
    split at hr <;> try (injection hr with hr; injection hr)
    · cases hr
    · rename_i p hf heq
      injection heq with h1 h2
      right
      subst h2
      refine ⟨⟨b, hl⟩, ?_⟩
      obtain ⟨b', cb, w, g1, g2, g3⟩ := hh.chain _ _ _ hl hne.symm
      have := followBack_path (goal := goal) (Cgoal := c) hh
        (fun x d hx hs => hP.pos x (hh.all hP.start hP.step x d hx) hs) fuel b [goal] p b' cb hf g1
        (fun hs => by rw [hs] at g2; cases g2) (by
          intro q c0 hq hle
          exact ⟨c0 + w, hq.snoc g2, fun hn => le_trans (Cost.add_mono w (hle hn)) g3⟩)
      rw [← h1]
      exact this

theorem Chain.tail_pos {P : Int → Prop} (hP : NonNegIds succ start P) {ex : Explored W}
    (hh : Hist succ start ex) {x : Int} {l : List Int} (hc : Chain ex start x l) :
    P x → succ x ≠ [] → ∀ y ∈ l, 0 ≤ y := by
  induction hc with
  | here => intro hp hs y hy; simp at hy; subst hy; exact hP.pos _ hp hs
  | step hne hl _ ih =>
    intro hp hs y hy
    rcases List.mem_cons.1 hy with rfl | hy
    · exact hP.pos _ hp hs
    · obtain ⟨b', cb, w, g1, g2, g3⟩ := hh.chain _ _ _ hl hne
      exact ih (hh.all hP.start hP.step _ _ g1) (fun hs => by rw [hs] at g2; cases g2) y hy

theorem extract_ok {P : Int → Prop} (hP : NonNegIds succ start P) (hne : start ≠ goal)
    (hn : NonNegative succ.step) {ex : Explored W} (hh : Hist succ start ex) {fuel : Nat}
    (hf : ex.length ≤ fuel) :
    ∃ path cost, extractAstarResult fuel ex start goal = some (.ok (path, cost)) := by
  unfold extractAstarResult
  cases hl : ex.lookup goal with
  | none => exact ⟨_, _, rfl⟩
  | some d =>
    obtain ⟨b, c⟩ := d
    obtain ⟨b', cb, w, g1, g2, g3⟩ := hh.chain _ _ _ hl hne.symm
    obtain ⟨l, hc⟩ := hh.has_chain hn b _ g1
    have hpos := hc.tail_pos hP hh (hh.all hP.start hP.step _ _ g1)
      (fun hs => by rw [hs] at g2; cases g2)
    simp only
    rw [followBack_chain hc hpos fuel [goal] (Nat.le_trans (hc.length_le hh) hf)]
    exact ⟨_, _, rfl⟩

theorem search_complete {P : Int → Prop} (hP : NonNegIds succ start P) (hne : start ≠ goal)
    (hn : NonNegative succ.step) {pick : Nat → Nat} {fuel fuel' : Nat} {x : W} {ex' : Explored W}
    (hr : coreLoop succ h goal pick fuel 0 [⟨start, -1, 0, x⟩] [] = some ex')
    {path : List Int} {cost : W}
    (he : extractAstarResult fuel' ex' start goal = some (.ok (path, cost))) :
    Complete succ.step start goal path cost := by
  rcases extract_path hP hne (search_hist hne hr) he with ⟨h1, h2, h3⟩ | ⟨_, C, h3, h4⟩
  · left
    refine ⟨h1, h2, ?_⟩
    intro p C hp
    obtain ⟨q0, ex0, hi, ⟨hq, rfl⟩ | ⟨e, _, _, _, rfl⟩⟩ := search_result hne hr
    · obtain ⟨b, c, g1, g2⟩ := hi.hist.start_le
      obtain ⟨e, he, _⟩ := frontier hi hp rfl ⟨b, c, g1, g2⟩
      rw [hq] at he; cases he
    · rw [lookup_cons_eq, if_pos rfl] at h3; cases h3
  · exact Or.inr ⟨C, h3, h4 hn⟩

theorem search_optimal {P : Int → Prop} (hP : NonNegIds succ start P) (hne : start ≠ goal)
    (hn : NonNegative succ.step) (ha : Admissible succ.step h goal)
    {pick : Nat → Nat} {fuel fuel' : Nat} {x : W} {ex' : Explored W}
    (hr : coreLoop succ h goal pick fuel 0 [⟨start, -1, 0, x⟩] [] = some ex')
    {path : List Int} {cost : W}
    (he : extractAstarResult fuel' ex' start goal = some (.ok (path, cost))) :
    Optimal succ.step start goal path cost := by
  rcases search_complete hP hne hn hr he with h0 | ⟨C, h3, h4⟩
  · exact Or.inl h0
  · right
    have hl : ∃ b, ex'.lookup goal = some (b, cost) := by
      rcases extract_path hP hne (search_hist hne hr) he with ⟨h1, _, _⟩ | ⟨h1, _⟩
      · rw [h1] at h3; cases h3
      · exact h1
    obtain ⟨b, hl⟩ := hl
    have hmin : ∀ p C, Path succ.step start 0 p goal C → cost ≤ C := by
      intro p C hp
      obtain ⟨q0, ex0, hi, ⟨hq, rfl⟩ | ⟨e, heq, hid, hmin, rfl⟩⟩ := search_result hne hr
      · rw [hi.goalNot] at hl; cases hl
      · rw [lookup_cons_eq, if_pos rfl] at hl
        injection hl with hl; injection hl with _ hl
        subst hl
        obtain ⟨b, c, g1, g2⟩ := hi.hist.start_le
        obtain ⟨y, hy, c', p', g3, g4⟩ := frontier hi hp rfl ⟨b, c, g1, g2⟩
        have h5 : e.cost ≤ e.value := by
          rw [(hi.queue e heq).1, hid]; exact Cost.le_add _ ha.2
        have h6 : y.value ≤ C := by
          rw [(hi.queue y hy).1]
          exact le_trans (Cost.add_mono _ g3) (ha.1 _ _ _ _ g4)
        exact le_trans h5 (le_trans (hmin y hy) h6)
    have : cost = C := le_antisymm (hmin _ _ h3) h4
    rw [← this] at h3
    exact ⟨h3, hmin⟩

theorem exists_bound {α β : Type} (f : α → List β) : ∀ S : List α, ∃ B, ∀ u ∈ S, (f u).length ≤ B
  | [] => ⟨0, by simp⟩
  | a :: S => by
    obtain ⟨B, hB⟩ := exists_bound f S
    refine ⟨max (f a).length B, ?_⟩
    intro u hu
    rcases List.mem_cons.1 hu with rfl | hu
    · exact Nat.le_max_left _ _
    · exact Nat.le_trans (hB u hu) (Nat.le_max_right _ _)

/-- With non-negative costs on finitely many nodes there is a number of rounds that is always
enough. -/
theorem search_terminates (_hne : start ≠ goal) (hn : NonNegative succ.step) {S : List Int}
    (h0 : start ∈ S) (hS : ∀ u v w, u ∈ S → (v, w) ∈ succ u → v ∈ S) :
    ∃ N, ∀ (pick : Nat → Nat) (fuel : Nat) (x : W), N ≤ fuel →
      ∃ ex', coreLoop succ h goal pick fuel 0 [⟨start, -1, 0, x⟩] [] = some ex' ∧
        ex'.length ≤ fuel := by
  obtain ⟨B, hB⟩ := exists_bound succ S
  refine ⟨budget B (S.length - 1), ?_⟩
  intro pick fuel x hf
  obtain ⟨ex', h1, h2⟩ := coreLoop_terminates (h := h) (goal := goal) hn hS hB (pick := pick) fuel 0
    [⟨start, -1, 0, x⟩] [] [(⟨start, -1, 0, x⟩, [start])] rfl (by
      intro ep hep
      simp at hep; subst hep
      exact ⟨⟨[], rfl, by simp⟩, by simp, by simpa using h0⟩) (by simpa [potential] using hf)
  exact ⟨ex', h1, by simpa using h2⟩

/-! ## The graph search -/

/-- The step an edge stands for. -/
def edgeStep (g : Graph ν W) (cb : Callbacks ν W) (e : Edge W) : Option (Int × W) :=
  match cb.valid g e, cb.distance g e with
  | .ok true, .ok w => some (e.toIndex, w)
  | _, _ => none

/-- The successor lists of a graph. -/
def graphSucc (g : Graph ν W) (cb : Callbacks ν W) : Succ W := fun u =>
  match getNode g u with
  | .ok n => n.outEdges.filterMap (edgeStep g cb)
  | _ => []

omit [Cost W] in
theorem getNode_ok_iff {g : Graph ν W} {u : Int} {n : Node ν W} :
    getNode g u = .ok n ↔ NodeAt g u n := by
  unfold getNode NodeAt
  by_cases hu : 0 ≤ u ∧ u < (g.length : Int)
  · rw [nodePos_ok hu, Out.bind_ok]
    cases hg : g[u.toNat]? with
    | none => simp
    | some m => simp [hu.1]
  · rw [nodePos_bad hu]
    simp only [Out.bind_throws, reduceCtorEq, false_iff, not_and]
    intro h0 hs
    have := (List.getElem?_eq_some_iff.1 hs).1
    omega

omit [Cost W] in
theorem graphSucc_step {g : Graph ν W} {cb : Callbacks ν W} {u v : Int} {w : W} :
    (graphSucc g cb).step u v w ↔ GraphStep g cb u v w := by
  unfold Succ.step graphSucc GraphStep
  constructor
  · intro hm
    split at hm
    · rename_i n hn
      obtain ⟨e, he, hs⟩ := List.mem_filterMap.1 hm
      unfold edgeStep at hs
      split at hs
      · rename_i w' h1 h2
        injection hs with hs; injection hs with h3 h4
        subst h4
        exact ⟨n, getNode_ok_iff.1 hn, e, he, h3, h1, h2⟩
      · cases hs
    · cases hm
  · rintro ⟨n, hn, e, he, h1, h2, h3⟩
    rw [getNode_ok_iff.2 hn]
    refine List.mem_filterMap.2 ⟨e, he, ?_⟩
    unfold edgeStep
    rw [h2, h3]
    simp [h1]

omit [Cost W] in
theorem graphSucc_ids (g : Graph ν W) (cb : Callbacks ν W) (start : Int) :
    NonNegIds (graphSucc g cb) start (fun _ => True) := by
  refine ⟨trivial, fun _ _ _ _ _ => trivial, ?_⟩
  intro u _ hs
  unfold graphSucc at hs
  split at hs
  · rename_i n hn; exact (getNode_ok_iff.1 hn).1
  · exact absurd rfl hs

theorem graphHeuristic_ok {g : Graph ν W} {cb : Callbacks ν W} {goal u : Int} {x : W}
    (hx : graphHeuristic g cb goal u = .ok x) : x = nodeHeuristic g cb goal u := by
  unfold graphHeuristic at hx
  unfold nodeHeuristic
  cases h1 : getNode g u <;> rw [h1] at hx <;> try (cases hx)
  cases h2 : getNode g goal <;> rw [h2] at hx <;> try (cases hx)
  simp

/-- A completed expansion is the core's. -/
theorem lazyExpand_ok {g : Graph ν W} {cb : Callbacks ν W} {goal : Int} {n : Elem W} :
    ∀ (es : List (Edge W)) (s s' : State W), lazyExpand g cb goal false n es s = .ok s' →
      s' = ⟨s.queue ++ pushes (nodeHeuristic g cb goal) s.explored n (es.filterMap (edgeStep g cb)),
        s.members, s.explored⟩ := by
  intro es
  induction es with
  | nil => intro s s' hr; simp [lazyExpand] at hr; simp [pushes, ← hr]
  | cons e es ih =>
    intro s s' hr
    unfold lazyExpand at hr
    obtain ⟨b, hv, hr⟩ := Out.bind_eq_ok.1 hr
    cases b with
    | false =>
      simp only [if_true] at hr
      rw [ih _ _ hr]
      have : edgeStep g cb e = none := by unfold edgeStep; rw [hv]
      simp [this]
    | true =>
      simp only [Bool.true_eq_false, if_false] at hr
      obtain ⟨d, hd, hr⟩ := Out.bind_eq_ok.1 hr
      have hs : edgeStep g cb e = some (e.toIndex, d) := by unfold edgeStep; rw [hv, hd]
      rw [List.filterMap_cons_some hs]
      cases hnw : notWorse ((s.explored.lookup e.toIndex).map (·.2)) (n.cost + d) with
      | true =>
        rw [if_pos hnw] at hr
        rw [ih _ _ hr]
        simp [pushes, hnw]
      | false =>
        rw [if_neg (by simp [hnw])] at hr
        simp only [Bool.false_and, Bool.false_eq_true, if_false] at hr
        obtain ⟨x, hx, hr⟩ := Out.bind_eq_ok.1 hr
        rw [ih _ _ hr, graphHeuristic_ok hx]
        simp [pushes, hnw]

theorem lazyLoop_ok {g : Graph ν W} {cb : Callbacks ν W} {goal : Int} {pick : Nat → Nat} :
    ∀ fuel k (s : State W) ex', lazyLoop g cb goal false pick fuel k s = some (.ok ex') →
      coreLoop (graphSucc g cb) (nodeHeuristic g cb goal) goal pick fuel k s.queue s.explored =
        some ex' := by
  intro fuel
  induction fuel with
  | zero =>
    intro k s ex' hr
    unfold lazyLoop at hr
    unfold coreLoop
    split at hr
    · rename_i hp; rw [hp]; injection hr with hr; injection hr with hr; rw [hr]
    · cases hr
  | succ fuel ih =>
    intro k s ex' hr
    unfold lazyLoop at hr
    unfold coreLoop
    split at hr
    · rename_i hp; rw [hp]; injection hr with hr; injection hr with hr; rw [hr]
    · rename_i n rest hp
      rw [hp]
      simp only at hr ⊢
      split at hr
      · rename_i hg
        rw [if_pos hg]
        injection hr with hr; injection hr with hr; rw [hr]
      · rename_i hg
        rw [if_neg hg]
        split at hr
        · rename_i hnw
          rw [if_pos hnw]
          exact ih _ _ _ hr
        · rename_i hnw
          rw [if_neg hnw]
          split at hr <;> try (injection hr with hr; cases hr)
          rename_i s' hs
          unfold lazyExplore at hs
          obtain ⟨node, hn, hs⟩ := Out.bind_eq_ok.1 hs
          have := lazyExpand_ok _ _ _ hs
          have hsucc : graphSucc g cb n.id = node.outEdges.filterMap (edgeStep g cb) := by
            unfold graphSucc; rw [hn]
          rw [hsucc]
          have := ih _ _ _ hr
          rw [lazyExpand_ok _ _ _ hs] at this
          exact this

theorem lazyExpand_answers {g : Graph ν W} {cb : Callbacks ν W} {goal : Int} {n : Elem W}
    (hgoal : ∃ m, getNode g goal = .ok m) :
    ∀ (es : List (Edge W)) (s : State W),
      (∀ e ∈ es, (∃ b, cb.valid g e = .ok b) ∧ (cb.valid g e = .ok true → ∃ w, cb.distance g e = .ok w)
        ∧ ∃ m, getNode g e.toIndex = .ok m) →
      ∃ s', lazyExpand g cb goal false n es s = .ok s' := by
  intro es
  induction es with
  | nil => intro s _; exact ⟨s, rfl⟩
  | cons e es ih =>
    intro s hes
    have ih := fun s => ih s (fun e he => hes e (List.mem_cons_of_mem _ he))
    obtain ⟨⟨b, hv⟩, hd, m, hm⟩ := hes e (by simp)
    unfold lazyExpand
    rw [hv, Out.bind_ok]
    cases b with
    | false => simp only [if_true]; exact ih s
    | true =>
      simp only [Bool.true_eq_false, if_false]
      obtain ⟨d, hd⟩ := hd hv
      rw [hd, Out.bind_ok]
      simp only [Bool.false_and, Bool.false_eq_true, if_false]
      split
      · exact ih s
      · obtain ⟨m', hgoal⟩ := hgoal
        have : graphHeuristic g cb goal e.toIndex = .ok (cb.heuristic m.value m'.value) := by
          unfold graphHeuristic; rw [hm, hgoal]; rfl
        rw [this, Out.bind_ok]
        exact ih _

omit [Cost W] in
theorem getNode_of_range {g : Graph ν W} {u : Int} (hu : 0 ≤ u ∧ u < (g.length : Int)) :
    ∃ n, getNode g u = .ok n := by
  have : u.toNat < g.length := by omega
  exact ⟨g[u.toNat], getNode_ok_iff.2 ⟨hu.1, List.getElem?_eq_getElem this⟩⟩

theorem lazyLoop_answers {g : Graph ν W} {cb : Callbacks ν W} {goal : Int} {pick : Nat → Nat}
    (ha : cb.Answers g) (hr : OutInRange g) (hgoal : 0 ≤ goal ∧ goal < (g.length : Int)) :
    ∀ fuel k (s : State W) ex', (∀ e ∈ s.queue, 0 ≤ e.id ∧ e.id < (g.length : Int)) →
      coreLoop (graphSucc g cb) (nodeHeuristic g cb goal) goal pick fuel k s.queue s.explored =
        some ex' → lazyLoop g cb goal false pick fuel k s = some (.ok ex') := by
  intro fuel
  induction fuel with
  | zero =>
    intro k s ex' _ hr
    unfold coreLoop at hr
    unfold lazyLoop
    split at hr
    · rename_i hp; rw [hp]; injection hr with hr; rw [hr]
    · cases hr
  | succ fuel ih =>
    intro k s ex' hq hc
    unfold coreLoop at hc
    unfold lazyLoop
    split at hc
    · rename_i hp; rw [hp]; injection hc with hc; rw [hc]
    · rename_i n rest hp
      obtain ⟨hmem, hsub, _, _⟩ := popMin_mem hp
      rw [hp]
      simp only at hc ⊢
      split at hc
      · rename_i hg
        rw [if_pos hg]
        injection hc with hc; rw [hc]
      · rename_i hg
        rw [if_neg hg]
        split at hc
        · rename_i hnw
          rw [if_pos hnw]
          exact ih _ _ _ (fun e he => hq e (hsub e he)) hc
        · rename_i hnw
          rw [if_neg hnw]
          obtain ⟨node, hn⟩ := getNode_of_range (hq n hmem)
          have hnode : node ∈ g := List.mem_of_getElem? (getNode_ok_iff.1 hn).2
          obtain ⟨s', hs⟩ := lazyExpand_answers (n := n) (getNode_of_range hgoal) node.outEdges
            ⟨rest, s.members, (n.id, (n.backpointer, n.cost)) :: s.explored⟩
            (fun e he => ⟨(ha node hnode e he).1, (ha node hnode e he).2,
              getNode_of_range (hr node hnode e he)⟩)
          have hse : lazyExplore g cb goal false n ⟨rest, s.members, s.explored⟩ = .ok s' := by
            unfold lazyExplore; simp only; rw [hn, Out.bind_ok]; exact hs
          simp only [Bool.false_eq_true, if_false]
          rw [hse]
          have hsucc : graphSucc g cb n.id = node.outEdges.filterMap (edgeStep g cb) := by
            unfold graphSucc; rw [hn]
          have hs' := lazyExpand_ok _ _ _ hs
          rw [hsucc] at hc
          subst hs'
          refine ih _ _ _ ?_ hc
          intro e he
          rcases List.mem_append.1 he with he | he
          · exact hq e (hsub e he)
          · obtain ⟨v, w, h1, _, rfl⟩ := mem_pushes.1 he
            obtain ⟨e', he', hst⟩ := List.mem_filterMap.1 h1
            unfold edgeStep at hst
            split at hst
            · injection hst with hst; injection hst with hst _
              have := hr node hnode e' he'
              rw [hst] at this
              exact this
            · cases hst

/-! ## The flag -/

theorem lazyExpand_limit {g : Graph ν W} {cb : Callbacks ν W} {goal : Int} {n : Elem W} :
    ∀ (es : List (Edge W)) (s : State W), s.members = [] →
      lazyExpand g cb goal true n es s = lazyExpand g cb goal false n es s := by
  intro es
  induction es with
  | nil => intro s _; rfl
  | cons e es ih =>
    intro s hs
    unfold lazyExpand
    rw [hs]
    simp only [List.lookup_nil, notWorse_none, Bool.and_false]
    congr 1; funext v
    rw [ih s hs]
    split
    · rfl
    · congr 1; funext d
      split
      · rfl
      · simp only [Bool.false_eq_true, if_false]
        congr 1; funext x
        exact ih _ rfl

theorem lazyExpand_members {g : Graph ν W} {cb : Callbacks ν W} {goal : Int} {n : Elem W}
    {es : List (Edge W)} {s s' : State W} (hr : lazyExpand g cb goal false n es s = .ok s') :
    s'.members = s.members := by rw [lazyExpand_ok _ _ _ hr]

theorem lazyLoop_limit {g : Graph ν W} {cb : Callbacks ν W} {goal : Int} {pick : Nat → Nat} :
    ∀ fuel k (s : State W), s.members = [] →
      lazyLoop g cb goal true pick fuel k s = lazyLoop g cb goal false pick fuel k s := by
  intro fuel
  induction fuel with
  | zero => intro k s _; unfold lazyLoop; rfl
  | succ fuel ih =>
    intro k s hs
    unfold lazyLoop
    cases popMin Elem.value (pick k) s.queue with
    | none => rfl
    | some nr =>
      obtain ⟨n, rest⟩ := nr
      simp only [hs, if_true, List.filter_nil, Bool.false_eq_true, if_false]
      split
      · rfl
      · split
        · exact ih _ _ rfl
        · have : lazyExplore g cb goal true n ⟨rest, [], s.explored⟩ =
              lazyExplore g cb goal false n ⟨rest, [], s.explored⟩ := by
            unfold lazyExplore
            simp only
            congr 1; funext node
            exact lazyExpand_limit _ _ rfl
          rw [this]
          cases he : lazyExplore g cb goal false n ⟨rest, [], s.explored⟩ with
          | ok s' =>
            simp only
            apply ih
            unfold lazyExplore at he
            obtain ⟨node, _, he⟩ := Out.bind_eq_ok.1 he
            rw [lazyExpand_members he]
          | throws e => rfl
          | abort => rfl
          | ub => rfl

/-- The first round does not depend on the flag, and leaves no queue members. -/
theorem lazyLoop_first {g : Graph ν W} {cb : Callbacks ν W} {goal start : Int} {pick : Nat → Nat}
    (hne : start ≠ goal) (fuel k : Nat) (x : W) :
    lazyLoop g cb goal true pick fuel k ⟨[⟨start, -1, 0, x⟩], [(start, 0)], []⟩ =
      lazyLoop g cb goal false pick fuel k ⟨[⟨start, -1, 0, x⟩], [], []⟩ := by
  cases fuel with
  | zero => unfold lazyLoop; simp only [popMin_single]
  | succ fuel =>
    unfold lazyLoop
    simp only [popMin_single, if_neg hne]
    simp only [if_true, Bool.false_eq_true, if_false, List.lookup_nil, Option.map_none, notWorse_none]
    have hf : List.filter (fun m : Int × W => decide (m.1 ≠ start)) [(start, 0)] = [] := by simp
    rw [hf]
    have : lazyExplore g cb goal true ⟨start, -1, 0, x⟩ ⟨[], [], []⟩ =
        lazyExplore g cb goal false ⟨start, -1, 0, x⟩ ⟨[], [], []⟩ := by
      unfold lazyExplore
      simp only
      congr 1; funext node
      exact lazyExpand_limit _ _ rfl
    rw [this]
    cases he : lazyExplore g cb goal false ⟨start, -1, 0, x⟩ ⟨[], [], []⟩ with
    | ok s' =>
      simp only
      apply lazyLoop_limit
      unfold lazyExplore at he
      obtain ⟨node, _, he⟩ := Out.bind_eq_ok.1 he
      rw [lazyExpand_members he]
    | throws e => rfl
    | abort => rfl
    | ub => rfl

theorem performLazyAstar_limit (fuel : Nat) (pick : Nat → Nat) (g : Graph ν W) (start goal : Int)
    (cb : Callbacks ν W) : performLazyAstar fuel pick g start goal cb true =
      performLazyAstar fuel pick g start goal cb false := by
  unfold performLazyAstar
  split
  · rfl
  · rename_i hb
    have hne : start ≠ goal := by
      intro h
      apply hb
      simp [lazyArgumentsBad, h]
    cases graphHeuristic g cb goal start with
    | ok x =>
      simp only [if_true, Bool.false_eq_true, if_false]
      rw [lazyLoop_first hne]
    | throws e => rfl
    | abort => rfl
    | ub => rfl

omit [Cost W] in
theorem arguments_good {g : Graph ν W} {start goal : Int}
    (hb : ¬ lazyArgumentsBad g start goal = true) :
    (0 ≤ start ∧ start < (g.length : Int)) ∧ (0 ≤ goal ∧ goal < (g.length : Int)) ∧ start ≠ goal := by
  simp [lazyArgumentsBad] at hb
  omega

theorem performLazyAstar_returns {fuel : Nat} {pick : Nat → Nat} {g : Graph ν W} {start goal : Int}
    {cb : Callbacks ν W} {limit : Bool} {r : List Int × W}
    (hr : performLazyAstar fuel pick g start goal cb limit = some (.ok r)) :
    start ≠ goal ∧ ∃ x ex', coreLoop (graphSucc g cb) (nodeHeuristic g cb goal) goal pick fuel 0
      [⟨start, -1, 0, x⟩] [] = some ex' ∧
      extractAstarResult fuel ex' start goal = some (.ok r) := by
  have hr : performLazyAstar fuel pick g start goal cb false = some (.ok r) := by
    cases limit with
    | false => exact hr
    | true => rw [← performLazyAstar_limit]; exact hr
  unfold performLazyAstar at hr
  split at hr
  · cases hr
  · rename_i hb
    refine ⟨(arguments_good hb).2.2, ?_⟩
    split at hr <;> try (injection hr with hr; cases hr)
    rename_i x hx
    split at hr <;> try (injection hr with hr; cases hr)
    · cases hr
    · rename_i ex' hl
      exact ⟨x, ex', lazyLoop_ok _ _ _ _ hl, hr⟩

theorem performLazyAstar_of_core {fuel : Nat} {pick : Nat → Nat} {g : Graph ν W} {start goal : Int}
    {cb : Callbacks ν W} {limit : Bool} (ha : cb.Answers g) (hrg : OutInRange g)
    (hs : 0 ≤ start ∧ start < (g.length : Int)) (hg : 0 ≤ goal ∧ goal < (g.length : Int))
    (hne : start ≠ goal) {ex' : Explored W}
    (hc : ∀ x, coreLoop (graphSucc g cb) (nodeHeuristic g cb goal) goal pick fuel 0
      [⟨start, -1, 0, x⟩] [] = some ex') :
    performLazyAstar fuel pick g start goal cb limit = extractAstarResult fuel ex' start goal := by
  have : performLazyAstar fuel pick g start goal cb limit =
      performLazyAstar fuel pick g start goal cb false := by
    cases limit with
    | false => rfl
    | true => exact performLazyAstar_limit _ _ _ _ _ _
  rw [this]
  unfold performLazyAstar
  have hb : lazyArgumentsBad g start goal = false := by
    simp [lazyArgumentsBad]; omega
  obtain ⟨n, hn⟩ := getNode_of_range hs
  obtain ⟨m, hm⟩ := getNode_of_range hg
  have hh : graphHeuristic g cb goal start = .ok (cb.heuristic n.value m.value) := by
    unfold graphHeuristic; rw [hn, hm]; rfl
  rw [hb, hh]
  simp only [Bool.false_eq_true, if_false]
  rw [lazyLoop_answers ha hrg hg fuel 0 _ ex' (by simpa using hs) (hc _)]

/-! ## The generic search -/

/-- The successor lists of the generic search. -/
def genericSucc (G : Generic W) : Succ W := fun u =>
  ((G.children u).filter (fun v => G.valid u v)).map fun v => (v, G.distance u v)

omit [Cost W] in
theorem genericSucc_step {G : Generic W} {u v : Int} {w : W} :
    (genericSucc G).step u v w ↔ G.Step u v w := by
  unfold Succ.step genericSucc Generic.Step
  simp only [List.mem_map, List.mem_filter, Prod.mk.injEq]
  constructor
  · rintro ⟨a, ⟨h1, h2⟩, rfl, rfl⟩; exact ⟨h1, h2, rfl⟩
  · rintro ⟨h1, h2, rfl⟩; exact ⟨v, ⟨h1, h2⟩, rfl, rfl⟩

theorem genericExpand_eq {G : Generic W} {goal : Int} {limit : Bool} {top : Elem W} :
    ∀ (l : List Int) (s : State W), s.members = [] →
      genericExpand G goal limit top l s = ⟨s.queue ++
        pushes (fun u => G.heuristic u goal) s.explored top
          ((l.filter (fun v => G.valid top.id v)).map fun v => (v, G.distance top.id v)),
        s.members, s.explored⟩ := by
  intro l
  induction l with
  | nil => intro s _; simp [genericExpand, pushes]
  | cons v l ih =>
    intro s hs
    unfold genericExpand
    cases hv : G.valid top.id v with
    | false => simp [hv, ih s hs]
    | true =>
      simp only [if_true, hs, List.lookup_nil, notWorse_none, Bool.and_false, Bool.not_false,
        Bool.and_true, List.filter_cons, hv, List.map_cons]
      cases hnw : notWorse ((s.explored.lookup v).map (·.2)) (top.cost + G.distance top.id v) with
      | true =>
        simp [pushes, hnw, ih s hs, hs]
      | false =>
        simp only [Bool.not_false, if_true]
        rw [ih _ rfl]
        simp [pushes, hnw]

theorem genericLoop_eq {G : Generic W} {goal : Int} {limit : Bool} {pick : Nat → Nat} :
    ∀ fuel k (s : State W), s.members = [] → s.explored.lookup goal = none →
      genericLoop G goal limit pick fuel k s =
        coreLoop (genericSucc G) (fun u => G.heuristic u goal) goal pick fuel k s.queue s.explored := by
  intro fuel
  induction fuel with
  | zero => intro k s _ _; unfold genericLoop coreLoop; rfl
  | succ fuel ih =>
    intro k s hs hg
    unfold genericLoop coreLoop
    cases popMin Elem.value (pick k) s.queue with
    | none => rfl
    | some nr =>
      obtain ⟨n, rest⟩ := nr
      have hm : (if limit then s.members.filter (fun m => decide (m.1 ≠ n.id)) else s.members) = [] := by
        rw [hs]; split <;> rfl
      simp only [hm]
      by_cases hng : n.id = goal
      · rw [if_pos hng]
        rw [hng, hg]
        simp [notWorse]
      · simp only [if_neg hng]
        cases hnw : notWorse ((s.explored.lookup n.id).map (·.2)) n.cost with
        | true =>
          simp only [Bool.not_true, Bool.false_eq_true, if_false, if_true]
          exact ih (k + 1) ⟨rest, [], s.explored⟩ rfl hg
        | false =>
          simp only [Bool.not_false, if_true, Bool.false_eq_true, if_false]
          rw [genericExpand_eq _ _ rfl]
          apply ih _ _ rfl
          rw [lookup_cons_eq, if_neg (fun h => hng h.symm)]
          exact hg

theorem genericAstarSearch_eq {G : Generic W} {fuel : Nat} {pick : Nat → Nat} {start goal : Int}
    {limit : Bool} (hne : start ≠ goal) : genericAstarSearch fuel pick G start goal limit =
      match coreLoop (genericSucc G) (fun u => G.heuristic u goal) goal pick fuel 0
        [⟨start, -1, 0, G.heuristic start goal⟩] [] with
      | none => none
      | some ex => extractAstarResult fuel ex start goal := by
  unfold genericAstarSearch
  rw [if_neg hne]
  have : genericLoop G goal limit pick fuel 0 ⟨[⟨start, -1, 0, G.heuristic start goal⟩],
      if limit then [(start, 0)] else [], []⟩ =
      coreLoop (genericSucc G) (fun u => G.heuristic u goal) goal pick fuel 0
        [⟨start, -1, 0, G.heuristic start goal⟩] [] := by
    cases limit with
    | false => exact genericLoop_eq _ _ _ rfl rfl
    | true =>
      cases fuel with
      | zero => rw [coreLoop_start_zero]; unfold genericLoop; simp only [popMin_single]
      | succ fuel =>
        rw [coreLoop_start hne]
        unfold genericLoop
        simp only [popMin_single, if_neg hne]
        have hf : List.filter (fun m : Int × W => decide (m.1 ≠ start)) [(start, 0)] = [] := by simp
        simp only [if_true, List.lookup_nil, Option.map_none, notWorse_none, Bool.not_false]
        rw [hf, genericExpand_eq _ _ rfl]
        rw [genericLoop_eq _ _ _ rfl (by rw [lookup_cons_eq, if_neg hne.symm]; rfl)]
        rfl
  rw [this]
  cases coreLoop (genericSucc G) (fun u => G.heuristic u goal) goal pick fuel 0
    [⟨start, -1, 0, G.heuristic start goal⟩] [] <;> rfl

end Verif.Astar
