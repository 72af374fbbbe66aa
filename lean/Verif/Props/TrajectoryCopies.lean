import Verif.Spec.TrajectoryCopies
import Verif.Props.TotgQuery
/-!
# C147: copies of a trajectory
-/
namespace Verif.TrajectoryCopies
open Verif Verif.Totg

variable {n : Nat}

/-- The trajectories are as the specification says, and the list of a cached iterator is a copy of the own list. -/
structure Agree (objects : Objects n) (a : List (Option (Known n))) : Prop where
  length : objects.length = a.length
  dead : ∀ k : Nat, (objects[k]?).join = none ↔ (a[k]?).join = none
  alive : ∀ (k : Nat) (o : Object n) (w : Known n), objects[k]? = some (some o) → a[k]? = some (some w) → o.path = w.path ∧ o.steps = w.steps ∧
    o.cache.Valid o.steps ∧ w.last = o.cache.time.map fun t => (t, o.owner)
  owner : ∀ (k j : Nat) (o w : Object n), objects[k]? = some (some o) → o.cache.time ≠ none → o.owner = j → objects[j]? = some (some w) →
    w.steps = o.steps
  range : ∀ (k : Nat) (o : Object n), objects[k]? = some (some o) → o.cache.time ≠ none → o.owner < objects.length

theorem query_answer (p : Totg.Path n) (steps : List Step) (c : Cache) (time : ℝ) :
    (positionVelocity p steps c time).1 = (do
      let i ← (trajectorySegment steps c time).1
      answer p steps time i) := by
  unfold positionVelocity
  congr 1

theorem join_some {α : Type} {l : List (Option α)} {k : Nat} {o : α} : (l[k]?).join = some o ↔ l[k]? = some (some o) := by
  cases h : l[k]? with
  | none => simp
  | some x => simp

theorem set_get {α : Type} (l : List (Option α)) (k i : Nat) (x : Option α) :
    (l.set k x)[i]? = if i = k ∧ k < l.length then some x else l[i]? := by
  rw [List.getElem?_set]
  by_cases h : k = i
  · subst h
    by_cases h' : k < l.length
    · simp [h']
    · simp [h']
  · simp [h, Ne.symm h]

theorem get_lt {α : Type} {l : List α} {k : Nat} {x : α} (h : l[k]? = some x) : k < l.length :=
  (List.getElem?_eq_some_iff.mp h).1

theorem search_lookup (steps : List Step) (c : Cache) (hc : c.Valid steps) (time : ℝ) (last : Step)
    (hl : steps.getLast? = some last) (ht : ¬ time ≥ last.time) :
    advance time steps (c.start time) = lookup steps time := by
  have := (segment_lookup steps c hc time).1
  rw [← this]
  unfold trajectorySegment
  simp only [hl]
  rw [if_neg ht]
  cases advance time steps (c.start time) <;> rfl

theorem lookup_ok (steps : List Step) (time : ℝ) (last : Step) (hl : steps.getLast? = some last)
    (ht : ¬ time ≥ last.time) : ∃ i, lookup steps time = .ok i := by
  unfold lookup
  rw [hl]
  simp only
  rw [if_neg ht]
  have hne : ∃ (j : Nat) (s : Step), steps[j]? = some s ∧ time < s.time :=
    ⟨steps.length - 1, last, by rw [← hl, List.getLast?_eq_getElem?], not_le.mp ht⟩
  obtain ⟨j, s, hj, hs⟩ := hne
  have key : ∀ d i, i + d = j → ∃ i', advance time steps i = .ok i' := by
    intro d
    induction d with
    | zero =>
      intro i hi
      have : i = j := by omega
      subst this
      exact ⟨i, by rw [advance_some _ _ _ _ hj, if_neg (not_le.mpr hs)]⟩
    | succ d ih =>
      intro i hi
      have hlt : i < steps.length := by have := get_lt hj; omega
      rw [advance_some _ _ _ _ (List.getElem?_eq_getElem hlt)]
      split
      · exact ih (i + 1) (by omega)
      · exact ⟨i, rfl⟩
  exact key j 0 (by omega)

/-- C147, the state is that of the specification: the answer is that of a trajectory that was never queried, unless the list
of the last answer is gone. -/
theorem query_exact {objects : Objects n} {a : List (Option (Known n))} (h : Agree objects a) (k : Nat) (o : Object n)
    (w : Known n) (ho : objects[k]? = some (some o)) (hw : a[k]? = some (some w)) (time : ℝ) :
    (Lost a w time → (query objects k o time).1 = .ub) ∧
    (¬ Lost a w time → (query objects k o time).1 = fresh w time ∧
      Agree (query objects k o time).2 (meaning a (.query k time))) := by
  obtain ⟨hp, hs, hc, hlast⟩ := h.alive k o w ho hw
  have hfresh : fresh w time = (do
      let i ← lookup o.steps time
      answer o.path o.steps time i) := by
    unfold fresh
    rw [query_answer, (segment_lookup w.steps _ (valid_empty w.steps) time).1, hp, hs]
  have hk := get_lt ho
  have hka := get_lt hw
  cases hl : o.steps.getLast? with
  | none =>
    refine ⟨fun ⟨t, j, _, _, ⟨e, he, _⟩, _⟩ => ?_, fun _ => ⟨?_, ?_⟩⟩
    · rw [← hs, hl] at he; cases he
    · rw [hfresh]; simp only [query, hl, lookup, Out.bind_ub]
    · have : meaning a (.query k time) = a := by
        simp only [meaning, hw, Option.join_some]
        rw [if_neg]
        rintro ⟨e, he, _⟩
        rw [← hs, hl] at he
        cases he
      rw [this]
      simpa only [query, hl] using h
  | some last =>
    by_cases ht : time ≥ last.time
    · have hno : ¬ ∃ e ∈ w.steps.getLast?, time < e.time := by
        rintro ⟨e, he, hlt⟩
        rw [← hs, hl] at he
        cases he
        exact absurd ht (not_le.mpr hlt)
      refine ⟨fun ⟨t, j, _, _, he, _⟩ => absurd he hno, fun _ => ⟨?_, ?_⟩⟩
      · rw [hfresh]
        simp only [query, hl, lookup]
        rw [if_pos ht, if_pos ht]
        rfl
      · have : meaning a (.query k time) = a := by
          simp only [meaning, hw, Option.join_some]
          rw [if_neg hno]
        rw [this]
        simp only [query, hl]
        rw [if_pos ht]
        exact h
    · have hyes : ∃ e ∈ w.steps.getLast?, time < e.time := ⟨last, by rw [← hs, hl]; rfl, not_le.mp ht⟩
      obtain ⟨i, hi⟩ := lookup_ok o.steps time last hl ht
      have hadv := search_lookup o.steps o.cache hc time last hl ht
      rw [hi] at hadv
      -- the step, once the list is known to be the own one or a copy of it
      have good : ∀ owner, searched objects k o time = some (o.steps, owner) →
          (owner < objects.length) → (∀ x, objects[owner]? = some (some x) → x.steps = o.steps) →
          meaning a (.query k time) = a.set k (some { w with last := some (time, owner) }) →
          (query objects k o time).1 = fresh w time ∧ Agree (query objects k o time).2 (meaning a (.query k time)) := by
        intro owner hsearch hown hcopy hmean
        have hq : query objects k o time = (answer o.path o.steps time i,
            objects.set k (some { o with cache := ⟨some time, i⟩, owner := owner })) := by
          simp only [query, hl]
          rw [if_neg ht, hsearch]
          simp only [hadv]
        rw [hq, hmean, hfresh, hi]
        refine ⟨rfl, ?_⟩
        have hvalid : (⟨some time, i⟩ : Cache).Valid o.steps := by
          have := (segment_lookup o.steps o.cache hc time).2
          unfold trajectorySegment at this
          simp only [hl] at this
          rw [if_neg ht, hadv] at this
          exact this
        constructor
        · simpa using h.length
        · intro r
          rw [set_get, set_get]
          by_cases e : r = k
          · rw [if_pos ⟨e, hk⟩, if_pos ⟨e, hka⟩]; simp
          · rw [if_neg (fun x => e x.1), if_neg (fun x => e x.1)]
            exact h.dead r
        · intro r o' w' ho' hw'
          rw [set_get] at ho' hw'
          by_cases e : r = k
          · rw [if_pos ⟨e, hk⟩] at ho'
            rw [if_pos ⟨e, hka⟩] at hw'
            cases ho'; cases hw'
            exact ⟨hp, hs, hvalid, rfl⟩
          · rw [if_neg (fun x => e x.1)] at ho' hw'
            exact h.alive r o' w' ho' hw'
        · intro r j o' w' ho' hcache hj hw'
          rw [set_get] at ho' hw'
          have hsame : ∀ j' x, j' = j → (if j = k ∧ k < objects.length then
              some (some ({ o with cache := ⟨some time, i⟩, owner := owner } : Object n)) else objects[j]?) = some (some x) →
              ∃ y, objects[j']? = some (some y) ∧ y.steps = x.steps := by
            intro j' x hjj hx
            subst hjj
            by_cases e : j' = k
            · rw [if_pos ⟨e, hk⟩] at hx
              cases hx
              exact ⟨o, e ▸ ho, rfl⟩
            · rw [if_neg (fun x => e x.1)] at hx
              exact ⟨x, hx, rfl⟩
          obtain ⟨y, hy1, hy2⟩ := hsame j w' rfl hw'
          by_cases e : r = k
          · rw [if_pos ⟨e, hk⟩] at ho'
            cases ho'
            simp only at hj
            subst hj
            rw [← hy2]
            exact hcopy y hy1
          · rw [if_neg (fun x => e x.1)] at ho'
            rw [← hy2]
            exact h.owner r j o' y ho' hcache hj hy1
        · intro r o' ho' hcache
          rw [set_get] at ho'
          rw [List.length_set]
          by_cases e : r = k
          · rw [if_pos ⟨e, hk⟩] at ho'
            cases ho'
            exact hown
          · rw [if_neg (fun x => e x.1)] at ho'
            exact h.range r o' ho' hcache
      cases hct : o.cache.time with
      | none =>
        rw [hct] at hlast
        refine ⟨fun ⟨t, j, hx, _⟩ => ?_, fun _ => good k ?_ hk ?_ ?_⟩
        · rw [hlast] at hx; cases hx
        · simp only [searched, hct]
        · intro x hx; rw [ho] at hx; cases hx; rfl
        · simp only [meaning, hw, Option.join_some]
          rw [if_pos hyes, hlast]
          rfl
      | some cached =>
        rw [hct] at hlast
        simp only [Option.map_some] at hlast
        have hown := h.range k o ho (by rw [hct]; simp)
        have hmean : meaning a (.query k time) =
            a.set k (some { w with last := some (time, if time < cached then k else o.owner) }) := by
          simp only [meaning, hw, Option.join_some]
          rw [if_pos hyes, hlast]
        by_cases hlt : time < cached
        · refine ⟨fun ⟨t, j, hx, hle, _⟩ => ?_, fun _ => good k ?_ hk ?_ ?_⟩
          · rw [hlast] at hx
            cases hx
            exact absurd hle (not_le.mpr hlt)
          · simp only [searched, hct]; rw [if_pos hlt]
          · intro x hx; rw [ho] at hx; cases hx; rfl
          · rw [hmean, if_pos hlt]
        · cases hj : (objects[o.owner]?).join with
          | none =>
            have hsearch : searched objects k o time = none := by
              simp only [searched, hct]
              rw [if_neg hlt]
              split
              · rename_i other heq
                rw [heq] at hj
                cases hj
              · rfl
            refine ⟨fun _ => ?_, fun hn => absurd ⟨cached, o.owner, hlast, not_lt.mp hlt, hyes, (h.dead _).mp hj⟩ hn⟩
            simp only [query, hl]
            rw [if_neg ht, hsearch]
          | some other =>
            have hoth := join_some.mp hj
            have hst := h.owner k o.owner o other ho (by rw [hct]; simp) rfl hoth
            refine ⟨fun ⟨t, j, hx, _, _, hd⟩ => ?_, fun _ => good o.owner ?_ hown ?_ ?_⟩
            · rw [hlast] at hx
              cases hx
              rw [(h.dead _).mpr hd] at hj
              cases hj
            · simp only [searched, hct]
              rw [if_neg hlt, hoth, ← hst]
            · intro x hx; rw [hoth] at hx; cases hx; exact hst
            · rw [hmean, if_neg hlt]

theorem get_append {α : Type} (l : List α) (x : α) (i : Nat) :
    (l ++ [x])[i]? = if i = l.length then some x else l[i]? := by
  rw [List.getElem?_append]
  by_cases h : i < l.length
  · rw [if_pos h, if_neg (by omega)]
  · rw [if_neg h]
    by_cases e : i = l.length
    · rw [if_pos e, e]; simp
    · rw [if_neg e, List.getElem?_eq_none (by simp; omega), List.getElem?_eq_none (by omega)]

/-- A trajectory is added that is a copy of an old one or was never queried -/
theorem agree_append {objects : Objects n} {a : List (Option (Known n))} (h : Agree objects a) (o : Object n)
    (w : Known n) (h1 : o.path = w.path) (h2 : o.steps = w.steps) (h3 : o.cache.Valid o.steps)
    (h4 : w.last = o.cache.time.map fun t => (t, o.owner))
    (h5 : o.cache.time ≠ none → o.owner < objects.length ∧ ∀ x, objects[o.owner]? = some (some x) → x.steps = o.steps) :
    Agree (objects ++ [some o]) (a ++ [some w]) := by
  have hlen := h.length
  constructor
  · simp [hlen]
  · intro k
    rw [get_append, get_append, ← hlen]
    split
    · simp
    · exact h.dead k
  · intro k o' w' ho hw
    rw [get_append] at ho hw
    rw [← hlen] at hw
    by_cases e : k = objects.length
    · rw [if_pos e] at ho hw
      cases ho; cases hw
      exact ⟨h1, h2, h3, h4⟩
    · rw [if_neg e] at ho hw
      exact h.alive k o' w' ho hw
  · intro k j o' w' ho hc hj hw
    rw [get_append] at ho hw
    by_cases e : k = objects.length
    · rw [if_pos e] at ho
      cases ho
      have := h5 hc
      rw [if_neg (by omega)] at hw
      exact this.2 w' (hj ▸ hw)
    · rw [if_neg e] at ho
      have := h.range k o' ho hc
      rw [if_neg (by omega)] at hw
      exact h.owner k j o' w' ho hc hj hw
  · intro k o' ho hc
    rw [get_append] at ho
    rw [List.length_append]
    by_cases e : k = objects.length
    · rw [if_pos e] at ho
      cases ho
      have := (h5 hc).1
      omega
    · rw [if_neg e] at ho
      have := h.range k o' ho hc
      omega

theorem agree_step {objects objects' : Objects n} {a : List (Option (Known n))} (h : Agree objects a) (op : Op n)
    (hs : step objects op = some (.ok objects')) : Agree objects' (meaning a op) := by
  cases op with
  | make path steps =>
    simp only [step, Option.some.injEq, Out.ok.injEq] at hs
    subst hs
    exact agree_append h _ _ rfl rfl (valid_empty _) rfl (fun hc => absurd rfl hc)
  | copy k =>
    simp only [step] at hs
    split at hs
    · rename_i o ho
      cases hs
      obtain ⟨w, hw⟩ := Option.ne_none_iff_exists'.mp fun e => by
        have := (h.dead k).mpr e
        rw [ho] at this
        cases this
      obtain ⟨h1, h2, h3, h4⟩ := h.alive k o w ho (join_some.mp hw)
      simp only [meaning, hw]
      exact agree_append h o w h1 h2 h3 h4 fun hc => ⟨h.range k o ho hc, fun x hx => h.owner k _ o x ho hc rfl hx⟩
    · cases hs
  | query k time =>
    simp only [step] at hs
    split at hs
    · rename_i o ho
      obtain ⟨w, hw⟩ := Option.ne_none_iff_exists'.mp fun e => by
        have := (h.dead k).mpr e
        rw [ho] at this
        cases this
      obtain ⟨q1, q2⟩ := query_exact h k o w ho (join_some.mp hw) time
      by_cases hlost : Lost a w time
      · rw [q1 hlost] at hs
        cases hs
      · cases hq : (query objects k o time).1 with
        | ok x =>
          rw [hq] at hs
          cases hs
          exact (q2 hlost).2
        | throws e => rw [hq] at hs; cases hs
        | abort => rw [hq] at hs; cases hs
        | ub => rw [hq] at hs; cases hs
    · cases hs
  | destroy k =>
    simp only [step] at hs
    split at hs
    · rename_i o ho
      cases hs
      have hk := get_lt ho
      have hka : k < a.length := h.length ▸ hk
      simp only [meaning]
      constructor
      · simpa using h.length
      · intro r
        rw [set_get, set_get]
        by_cases e : r = k
        · rw [if_pos ⟨e, hk⟩, if_pos ⟨e, hka⟩]; simp
        · rw [if_neg (fun x => e x.1), if_neg (fun x => e x.1)]
          exact h.dead r
      · intro r o' w' ho' hw'
        rw [set_get] at ho' hw'
        by_cases e : r = k
        · rw [if_pos ⟨e, hk⟩] at ho'; cases ho'
        · rw [if_neg (fun x => e x.1)] at ho' hw'
          exact h.alive r o' w' ho' hw'
      · intro r j o' w' ho' hc hj hw'
        rw [set_get] at ho' hw'
        by_cases e : r = k
        · rw [if_pos ⟨e, hk⟩] at ho'; cases ho'
        · rw [if_neg (fun x => e x.1)] at ho'
          by_cases e' : j = k
          · rw [if_pos ⟨e', hk⟩] at hw'; cases hw'
          · rw [if_neg (fun x => e' x.1)] at hw'
            exact h.owner r j o' w' ho' hc hj hw'
      · intro r o' ho' hc
        rw [set_get] at ho'
        rw [List.length_set]
        by_cases e : r = k
        · rw [if_pos ⟨e, hk⟩] at ho'; cases ho'
        · rw [if_neg (fun x => e x.1)] at ho'
          exact h.range r o' ho' hc
    · cases hs

theorem agree_run (ops : List (Op n)) : ∀ {objects objects' : Objects n} {a : List (Option (Known n))},
    Agree objects a → run objects ops = some (.ok objects') → Agree objects' (meanings a ops) := by
  induction ops with
  | nil => intro objects objects' a h hr; cases hr; exact h
  | cons op ops ih =>
    intro objects objects' a h hr
    simp only [run] at hr
    split at hr
    · cases hr
    · rename_i m hm
      exact ih (agree_step h op hm) hr
    · rename_i out hne hout
      cases hr
      exact absurd rfl (hne objects')

theorem agree_nil : Agree ([] : Objects n) [] := by
  constructor <;> simp

/-- C147: however trajectories were constructed, copied, queried and destroyed before, a query of a trajectory answers as one
that was never queried before, with one exception: if the time is not before that of its last query, is before its end, and
the trajectory in whose list that query was answered is destroyed, the behaviour is undefined. -/
theorem C147_query (ops : List (Op n)) (objects : Objects n) (hr : run [] ops = some (.ok objects)) (k : Nat)
    (w : Known n) (hw : (meanings [] ops)[k]? = some (some w)) (time : ℝ) :
    ∃ o, objects[k]? = some (some o) ∧ (Lost (meanings [] ops) w time → (query objects k o time).1 = .ub) ∧
      (¬ Lost (meanings [] ops) w time → (query objects k o time).1 = fresh w time) := by
  have h := agree_run ops agree_nil hr
  obtain ⟨o, ho⟩ := Option.ne_none_iff_exists'.mp fun e => by
    have := (h.dead k).mp e
    rw [hw] at this
    cases this
  have ho' := join_some.mp ho
  obtain ⟨h1, h2⟩ := query_exact h k o w ho' hw time
  exact ⟨o, ho', h1, fun hn => (h2 hn).1⟩

/-- No trajectory is destroyed -/
def NoneDestroyed (ops : List (Op n)) : Prop := ∀ k, .destroy k ∉ ops

/-- C147: as long as no trajectory is destroyed, each query of each trajectory and each copy answers as one that was never
queried. -/
theorem C147_alive (ops : List (Op n)) (objects : Objects n) (hr : run [] ops = some (.ok objects))
    (hn : NoneDestroyed ops) (k : Nat) (w : Known n) (hw : (meanings [] ops)[k]? = some (some w)) (time : ℝ) :
    ∃ o, objects[k]? = some (some o) ∧ (query objects k o time).1 = fresh w time := by
  obtain ⟨o, ho, -, h⟩ := C147_query ops objects hr k w hw time
  refine ⟨o, ho, h ?_⟩
  rintro ⟨t, j, hlast, -, -, hd⟩
  have hagree := agree_run ops agree_nil hr
  have hcache : o.cache.time ≠ none ∧ o.owner = j := by
    have := (hagree.alive k o w ho hw).2.2.2
    rw [hlast] at this
    cases hc : o.cache.time with
    | none => rw [hc] at this; cases this
    | some x =>
      rw [hc] at this
      cases this
      exact ⟨by simp, rfl⟩
  have hlt := hagree.range k o ho hcache.1
  rw [hcache.2] at hlt
  have hall : ∀ (ops : List (Op n)) (objects objects' : Objects n), (∀ i, i < objects.length → (objects[i]?).join ≠ none) →
      NoneDestroyed ops → run objects ops = some (.ok objects') → ∀ i, i < objects'.length → (objects'[i]?).join ≠ none := by
    intro ops
    induction ops with
    | nil => intro objects objects' h0 _ e; cases e; exact h0
    | cons op ops ih =>
      intro objects objects' h0 hno e
      simp only [run] at e
      split at e
      · cases e
      · rename_i m hm
        refine ih m objects' ?_ (fun k hk => hno k (List.mem_cons_of_mem _ hk)) e
        cases op with
        | make path steps =>
          simp only [step, Option.some.injEq, Out.ok.injEq] at hm
          subst hm
          intro i hi
          rw [get_append]
          split
          · simp
          · rename_i hne
            rw [List.length_append, List.length_singleton] at hi
            exact h0 i (by omega)
        | copy k =>
          simp only [step] at hm
          split at hm
          · cases hm
            intro i hi
            rw [get_append]
            split
            · simp
            · rename_i hne
              rw [List.length_append, List.length_singleton] at hi
              exact h0 i (by omega)
          · cases hm
        | query k time =>
          simp only [step] at hm
          split at hm
          · rename_i o' ho'
            have hsecond : m = (query objects k o' time).2 := by
              cases hq : (query objects k o' time).1 with
              | ok x => rw [hq] at hm; cases hm; rfl
              | throws e => rw [hq] at hm; cases hm
              | abort => rw [hq] at hm; cases hm
              | ub => rw [hq] at hm; cases hm
            rw [hsecond]
            have hset : ∀ x : Object n, ∀ i, i < (objects.set k (some x)).length →
                ((objects.set k (some x))[i]?).join ≠ none := by
              intro x i hi
              rw [set_get]
              split
              · simp
              · rw [List.length_set] at hi
                exact h0 i hi
            unfold query
            cases o'.steps.getLast? with
            | none => exact h0
            | some last =>
              simp only
              split
              · exact h0
              · cases searched objects k o' time with
                | none => exact h0
                | some x =>
                  simp only
                  split
                  · exact hset _
                  · exact h0
          · cases hm
        | destroy k => exact absurd List.mem_cons_self (hno k)
      · rename_i out hne hout
        cases e
        exact absurd rfl (hne objects')
  exact hall ops [] objects (by simp) hn hr j hlt ((hagree.dead j).mpr hd)

/-- C147: a copy of a trajectory that was queried does not stand on its own: when the original is gone, the next query of
the copy that does not go back in time has undefined behaviour. Without the copying the same query is answered. -/
theorem C147_wrong (path : Totg.Path n) (steps : List Step) (last : Step) (t₀ t₁ : ℝ) (x y : (Fin n → ℝ) × (Fin n → ℝ))
    (hl : steps.getLast? = some last) (h0 : t₀ ≤ t₁) (h1 : t₁ < last.time)
    (hx : (positionVelocity path steps Cache.empty t₀).1 = .ok x)
    (hy : (positionVelocity path steps Cache.empty t₁).1 = .ok y) :
    (∃ objects, run [] [.make path steps, .query 0 t₀, .query 0 t₁] = some (.ok objects)) ∧
    (∃ objects, run [] [.make path steps, .query 0 t₀, .copy 0, .query 1 t₁] = some (.ok objects)) ∧
    (∃ objects, run [] [.make path steps, .copy 0, .destroy 0, .query 1 t₀, .query 1 t₁] = some (.ok objects)) ∧
    run [] [.make path steps, .query 0 t₀, .copy 0, .destroy 0, .query 1 t₁] = some .ub := by
  have h0' : t₀ < last.time := lt_of_le_of_lt h0 h1
  -- a query that succeeds, in the state of the specification
  have good : ∀ (objects : Objects n) (a : List (Option (Known n))) (k : Nat) (w : Known n) (t : ℝ)
      (z : (Fin n → ℝ) × (Fin n → ℝ)), Agree objects a → a[k]? = some (some w) → ¬ Lost a w t → fresh w t = .ok z →
      ∃ objects', step objects (.query k t) = some (.ok objects') ∧ Agree objects' (meaning a (.query k t)) := by
    intro objects a k w t z hag hw hn hz
    obtain ⟨o, ho⟩ := Option.ne_none_iff_exists'.mp fun e => by
      have := (hag.dead k).mp e
      rw [hw] at this
      cases this
    have ho' := join_some.mp ho
    obtain ⟨q1, q2⟩ := (query_exact hag k o w ho' hw t).2 hn
    refine ⟨_, ?_, q2⟩
    simp only [step, ho', q1, hz, Out.bind_ok]
  have bad : ∀ (objects : Objects n) (a : List (Option (Known n))) (k : Nat) (w : Known n) (t : ℝ),
      Agree objects a → a[k]? = some (some w) → Lost a w t → step objects (.query k t) = some .ub := by
    intro objects a k w t hag hw hn
    obtain ⟨o, ho⟩ := Option.ne_none_iff_exists'.mp fun e => by
      have := (hag.dead k).mp e
      rw [hw] at this
      cases this
    have ho' := join_some.mp ho
    simp only [step, ho', (query_exact hag k o w ho' hw t).1 hn, Out.bind_ub]
  have other : ∀ (objects objects' : Objects n) (op : Op n) (rest : List (Op n)), step objects op = some (.ok objects') →
      run objects (op :: rest) = run objects' rest := by
    intro objects objects' op rest e
    simp only [run, e]
  have e0 : ∃ e ∈ steps.getLast?, t₀ < e.time := ⟨last, by rw [hl]; rfl, h0'⟩
  have e1 : ∃ e ∈ steps.getLast?, t₁ < e.time := ⟨last, by rw [hl]; rfl, h1⟩
  -- the first query
  have first : Agree ([some ⟨path, steps, Cache.empty, 0⟩] : Objects n) [some ⟨path, steps, none⟩] :=
    agree_step (op := .make path steps) agree_nil rfl
  have m0 : meaning [some (⟨path, steps, none⟩ : Known n)] (.query 0 t₀) = [some ⟨path, steps, some (t₀, 0)⟩] := by
    simp only [meaning, List.getElem?_cons_zero, Option.join_some]
    rw [if_pos e0]
    rfl
  obtain ⟨s1, hs1, a1⟩ := good _ _ 0 ⟨path, steps, none⟩ t₀ x first rfl (by rintro ⟨t, j, h, -⟩; cases h) hx
  rw [m0] at a1
  have hlen : s1.length = 1 := a1.length
  obtain ⟨o, ho⟩ : ∃ o, s1[0]? = some (some o) := by
    obtain ⟨o, ho⟩ := Option.ne_none_iff_exists'.mp fun e => by
      have := (a1.dead 0).mp e
      cases this
    exact ⟨o, join_some.mp ho⟩
  have c1 : step s1 (.copy 0) = some (.ok (s1 ++ [some o])) := by simp only [step, ho]
  have a2 := agree_step a1 _ c1
  have m2 : meaning [some (⟨path, steps, some (t₀, 0)⟩ : Known n)] (.copy 0) =
      [some ⟨path, steps, some (t₀, 0)⟩, some ⟨path, steps, some (t₀, 0)⟩] := rfl
  rw [m2] at a2
  have g0 : (s1 ++ [some o])[0]? = some (some o) := by rw [get_append, if_neg (by omega), ho]
  have d1 : step (s1 ++ [some o]) (.destroy 0) = some (.ok ((s1 ++ [some o]).set 0 none)) := by simp only [step, g0]
  have a3 := agree_step a2 _ d1
  refine ⟨?_, ?_, ?_, ?_⟩
  · obtain ⟨s2, hs2, -⟩ := good s1 _ 0 ⟨path, steps, some (t₀, 0)⟩ t₁ y a1 rfl
      (by rintro ⟨t, j, h, -, -, hd⟩; cases h; cases hd) hy
    refine ⟨s2, ?_⟩
    rw [other [] [some ⟨path, steps, Cache.empty, 0⟩] _ _ rfl, other _ _ _ _ hs1, other _ _ _ _ hs2]
    rfl
  · obtain ⟨s2, hs2, -⟩ := good _ _ 1 ⟨path, steps, some (t₀, 0)⟩ t₁ y a2 rfl
      (by rintro ⟨t, j, h, -, -, hd⟩; cases h; cases hd) hy
    refine ⟨s2, ?_⟩
    rw [other [] [some ⟨path, steps, Cache.empty, 0⟩] _ _ rfl, other _ _ _ _ hs1, other _ _ _ _ c1, other _ _ _ _ hs2]
    rfl
  · have b1 : Agree ([some ⟨path, steps, Cache.empty, 0⟩, some ⟨path, steps, Cache.empty, 0⟩] : Objects n)
        [some ⟨path, steps, none⟩, some ⟨path, steps, none⟩] := agree_step (op := .copy 0) first rfl
    have b2 : Agree ([none, some ⟨path, steps, Cache.empty, 0⟩] : Objects n) [none, some ⟨path, steps, none⟩] :=
      agree_step (op := .destroy 0) b1 rfl
    obtain ⟨s2, hs2, b3⟩ := good _ _ 1 ⟨path, steps, none⟩ t₀ x b2 rfl (by rintro ⟨t, j, h, -⟩; cases h) hx
    have m3 : meaning [none, some (⟨path, steps, none⟩ : Known n)] (.query 1 t₀) =
        [none, some ⟨path, steps, some (t₀, 1)⟩] := by
      simp only [meaning, List.getElem?_cons_zero, List.getElem?_cons_succ, Option.join_some]
      rw [if_pos e0]
      rfl
    rw [m3] at b3
    obtain ⟨s3, hs3, -⟩ := good s2 _ 1 ⟨path, steps, some (t₀, 1)⟩ t₁ y b3 rfl
      (by rintro ⟨t, j, h, -, -, hd⟩; cases h; cases hd) hy
    refine ⟨s3, ?_⟩
    rw [other [] [some ⟨path, steps, Cache.empty, 0⟩] _ _ rfl,
      other _ [some ⟨path, steps, Cache.empty, 0⟩, some ⟨path, steps, Cache.empty, 0⟩] _ _ rfl,
      other _ [none, some ⟨path, steps, Cache.empty, 0⟩] _ _ rfl, other _ _ _ _ hs2, other _ _ _ _ hs3]
    rfl
  · have hub := bad _ _ 1 ⟨path, steps, some (t₀, 0)⟩ t₁ a3 rfl ⟨t₀, 0, rfl, h0, e1, rfl⟩
    rw [other [] [some ⟨path, steps, Cache.empty, 0⟩] _ _ rfl, other _ _ _ _ hs1, other _ _ _ _ c1, other _ _ _ _ d1]
    simp only [run, hub]

end Verif.TrajectoryCopies
