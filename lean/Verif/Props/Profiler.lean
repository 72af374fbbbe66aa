import Verif.Model.Profiler
import Verif.Spec.Profiler
import Mathlib.Data.Rat.Defs
import Mathlib.Algebra.Field.Rat
import Mathlib.Algebra.Order.Ring.Rat
import Mathlib.Algebra.BigOperators.Group.List.Basic
import Mathlib.Data.List.Induction

/-!
# C57: the profiler
-/
namespace Verif.Profiler
open Verif

theorem Map.get_set {V : Type} (m : Map V) (k k' : String) (v : V) :
    (m.set k v).get k' = if k = k' then some v else m.get k' := by
  induction m with
  | nil => simp [Map.set, Map.get]
  | cons x m ih =>
    obtain ⟨a, b⟩ := x
    unfold Map.set
    by_cases h : a = k
    · subst h
      by_cases h' : a = k' <;> simp [Map.get, h']
    · rw [if_neg h]
      unfold Map.get
      rw [ih]
      by_cases h' : a = k'
      · subst h'; simp [Ne.symm h]
      · simp [h']

theorem Map.mem_keys {V : Type} (m : Map V) (k : String) : k ∈ m.map (·.1) ↔ (m.get k).isSome := by
  induction m with
  | nil => simp [Map.get]
  | cons x m ih =>
    obtain ⟨a, b⟩ := x
    unfold Map.get
    rw [List.map_cons, List.mem_cons, ih]
    by_cases h : a = k
    · simp [h]
    · simp [h, Ne.symm h]

theorem Map.nodup_set {V : Type} (m : Map V) (k : String) (v : V) (h : (m.map (·.1)).Nodup) :
    ((m.set k v).map (·.1)).Nodup := by
  induction m with
  | nil => simp [Map.set]
  | cons x m ih =>
    obtain ⟨a, b⟩ := x
    rw [List.map_cons, List.nodup_cons] at h
    unfold Map.set
    by_cases ha : a = k
    · subst ha
      rw [if_pos rfl, List.map_cons, List.nodup_cons]
      exact h
    · rw [if_neg ha, List.map_cons, List.nodup_cons]
      refine ⟨?_, ih h.2⟩
      rw [Map.mem_keys, Map.get_set, if_neg (Ne.symm ha), ← Map.mem_keys]
      exact h.1

variable {K : Type} [Field K]

omit [Field K] in
theorem recorded_snoc (n : String) (h : List (Event K)) (e : Event K) :
    recorded n (h ++ [e]) = e.record n (recorded n h) := by
  simp [recorded]

omit [Field K] in
theorem recordedTimed_snoc (n : String) (h : List (Event K)) (e : Event K) :
    recordedTimed n (h ++ [e]) = e.recordTimed n (recordedTimed n h) := by
  simp [recordedTimed]

omit [Field K] in
theorem known_snoc (n : String) (h : List (Event K)) (e : Event K) :
    known n (h ++ [e]) = e.know n (known n h) := by
  simp [known]

omit [Field K] in
theorem lastStart_fst (clock : Nat → K) (n : String) (h : List (Event K)) (p : Bool × Option K) :
    (h.foldl (fun p e => e.start clock n p) p).1 = h.foldl (fun b e => e.know n b) p.1 := by
  induction h generalizing p with
  | nil => rfl
  | cons e h ih => rw [List.foldl_cons, List.foldl_cons, ih]; rfl

omit [Field K] in
theorem lastStart_snoc (clock : Nat → K) (n : String) (h : List (Event K)) (e : Event K) :
    lastStart clock n (h ++ [e]) =
      match e.op with
      | .startTimer m => if m = n then some (clock (e.ticks - 1)) else lastStart clock n h
      | .reset m => if m = n ∧ known n h = true then some (clock (e.ticks - 1)) else lastStart clock n h
      | _ => lastStart clock n h := by
  unfold lastStart known
  rw [List.foldl_append, List.foldl_cons, List.foldl_nil]
  unfold Event.start
  have := lastStart_fst clock n h (false, none)
  unfold Event.start at this
  dsimp only at this ⊢
  rw [← this]
  rfl

/-- the state after the events -/
structure Rep (clock : Nat → K) (h : List (Event K)) (s : St K) : Prop where
  data : ∀ n, s.data.get n = if known n h then some (recorded n h) else none
  unknown : ∀ n, known n h = false → recorded n h = []
  timed : ∀ n, s.timed.get n = if recordedTimed n h = [] then none else some (recordedTimed n h)
  timers : ∀ n, s.timers.get n = lastStart clock n h
  prealloc : ∀ b ∈ s.prealloc, b = []
  nodupData : (s.data.map (·.1)).Nodup
  nodupTimed : (s.timed.map (·.1)).Nodup

omit [Field K] in
theorem Rep.entry {clock : Nat → K} {h : List (Event K)} {s : St K} (hr : Rep clock h s) (n : String) :
    entry s n = recorded n h := by
  unfold Profiler.entry
  rw [hr.data]
  cases hk : known n h with
  | true => simp
  | false => simp [hr.unknown n hk]

omit [Field K] in
theorem addData_spec (n : String) (d : K) (s : St K) (hp : ∀ b ∈ s.prealloc, b = [])
    (hn : (s.data.map (·.1)).Nodup) :
    (∀ m, (addData n d s).data.get m = if n = m then some (entry s n ++ [d]) else s.data.get m) ∧
    (addData n d s).timed = s.timed ∧ (addData n d s).timers = s.timers ∧ (addData n d s).ticks = s.ticks ∧
    (∀ b ∈ (addData n d s).prealloc, b = []) ∧ ((addData n d s).data.map (·.1)).Nodup := by
  have h : (∀ m, m ≠ n → (prepare n s).data.get m = s.data.get m) ∧ entry (prepare n s) n = entry s n ∧
      (prepare n s).timed = s.timed ∧ (prepare n s).timers = s.timers ∧ (prepare n s).ticks = s.ticks ∧
      (∀ b ∈ (prepare n s).prealloc, b = []) ∧ ((prepare n s).data.map (·.1)).Nodup := by
    unfold prepare
    cases hd : s.data.get n with
    | some v => exact ⟨fun _ _ => rfl, rfl, rfl, rfl, rfl, hp, hn⟩
    | none =>
      dsimp only
      cases hl : s.prealloc.getLast? with
      | none =>
        refine ⟨fun m hm => ?_, ?_, rfl, rfl, rfl, hp, Map.nodup_set _ _ _ hn⟩
        · rw [Map.get_set, if_neg (Ne.symm hm)]
        · unfold entry; rw [Map.get_set, if_pos rfl, hd]; rfl
      | some b =>
        have hb : b = [] := hp b (List.mem_of_getLast? hl)
        refine ⟨fun m hm => ?_, ?_, rfl, rfl, rfl, fun x hx => hp x (List.dropLast_subset _ hx),
          Map.nodup_set _ _ _ hn⟩
        · rw [Map.get_set, if_neg (Ne.symm hm)]
        · unfold entry; rw [Map.get_set, if_pos rfl, hd, hb]; rfl
  obtain ⟨h1, h2, h3, h4, h5, h6, h7⟩ := h
  refine ⟨fun m => ?_, h3, h4, h5, h6, Map.nodup_set _ _ _ h7⟩
  unfold addData
  rw [Map.get_set, h2]
  by_cases hm : n = m
  · rw [if_pos hm, if_pos hm]
  · rw [if_neg hm, if_neg hm, h1 m (Ne.symm hm)]

omit [Field K] in
theorem startTimer_spec (clock : Nat → K) (n : String) (s : St K) :
    (∀ m, (startTimer clock n s).timers.get m =
      if n = m then some (clock ((startTimer clock n s).ticks - 1)) else s.timers.get m) ∧
    (startTimer clock n s).data = s.data ∧ (startTimer clock n s).timed = s.timed ∧
    (startTimer clock n s).prealloc = s.prealloc ∧ s.ticks < (startTimer clock n s).ticks := by
  unfold startTimer stopwatchReset
  cases s.timers.get n with
  | none =>
    refine ⟨fun m => ?_, rfl, rfl, rfl, by dsimp only; omega⟩
    dsimp only
    rw [Map.get_set, Map.get_set]
    by_cases hm : n = m
    · rw [if_pos hm, if_pos hm]; rfl
    · rw [if_neg hm, if_neg hm, if_neg hm]
  | some _ =>
    refine ⟨fun m => ?_, rfl, rfl, rfl, by dsimp only; omega⟩
    dsimp only
    rw [Map.get_set]
    by_cases hm : n = m
    · rw [if_pos hm, if_pos hm]; rfl
    · rw [if_neg hm, if_neg hm]

theorem step_rep (clock : Nat → K) (op : Op K) {h : List (Event K)} {s : St K} (hr : Rep clock h s) :
    Rep clock (h ++ [⟨op, (step clock op s).1, (step clock op s).2.ticks⟩]) (step clock op s).2 := by
  cases op with
  | reinitialize a b =>
    constructor
    · intro n; simp [step, reinitialize, Map.get, known_snoc, Event.know]
    · intro n _; simp [recorded_snoc, Event.record]
    · intro n; simp [step, reinitialize, Map.get, recordedTimed_snoc, Event.recordTimed]
    · intro n; rw [lastStart_snoc]; exact hr.timers n
    · intro x hx
      simp only [step, reinitialize, List.mem_append] at hx
      rcases hx with hx | hx
      · exact hr.prealloc x (List.mem_of_mem_take hx)
      · exact List.eq_of_mem_replicate hx
    · simp [step, reinitialize]
    · simp [step, reinitialize]
  | reset n =>
    have hd := hr.data n
    cases hk : known n h with
    | false =>
      rw [hk] at hd
      have hd' : s.data.get n = none := by simpa using hd
      have he : (step clock (.reset n) s) = (.ok .nothing, s) := by
        simp only [step, reset, hd']
      rw [he]
      constructor
      · intro m
        rw [hr.data m, known_snoc, recorded_snoc]
        simp only [Event.know, Event.record]
        by_cases hm : n = m
        · subst hm; simp [hk]
        · simp [hm]
      · intro m hm
        rw [known_snoc] at hm
        rw [recorded_snoc]
        simp only [Event.know, Event.record] at hm ⊢
        split
        · rfl
        · exact hr.unknown m hm
      · intro m; rw [recordedTimed_snoc]; exact hr.timed m
      · intro m
        rw [lastStart_snoc]
        dsimp only
        rw [if_neg]
        · exact hr.timers m
        · rintro ⟨rfl, h2⟩; rw [hk] at h2; cases h2
      · exact hr.prealloc
      · exact hr.nodupData
      · exact hr.nodupTimed
    | true =>
      rw [hk] at hd
      have hd' : s.data.get n = some (recorded n h) := by simpa using hd
      have he : (step clock (.reset n) s) =
          (.ok .nothing, startTimer clock n { s with data := s.data.set n [] }) := by
        simp only [step, reset, hd']
      rw [he]
      obtain ⟨t1, t2, t3, t4, _⟩ := startTimer_spec clock n { s with data := s.data.set n [] }
      constructor
      · intro m
        rw [t2, Map.get_set, known_snoc, recorded_snoc, hr.data m]
        simp only [Event.know, Event.record]
        by_cases hm : n = m
        · subst hm; simp [hk]
        · simp [hm]
      · intro m hm
        rw [known_snoc] at hm
        rw [recorded_snoc]
        simp only [Event.know, Event.record] at hm ⊢
        split
        · rfl
        · exact hr.unknown m hm
      · intro m; rw [t3, recordedTimed_snoc]; exact hr.timed m
      · intro m
        rw [lastStart_snoc, t1]
        dsimp only
        by_cases hm : n = m
        · subst hm; simp [hk]
        · simp only [hm, if_false, false_and]; exact hr.timers m
      · rw [t4]; exact hr.prealloc
      · rw [t2]; exact Map.nodup_set _ _ _ hr.nodupData
      · rw [t3]; exact hr.nodupTimed
  | addData n d =>
    obtain ⟨a1, a2, a3, a4, a5, a6⟩ := addData_spec n d s hr.prealloc hr.nodupData
    have he : step clock (.addData n d) s = (.ok .nothing, addData n d s) := rfl
    rw [he]
    constructor
    · intro m
      rw [a1, known_snoc, recorded_snoc, hr.entry, hr.data m]
      simp only [Event.know, Event.record]
      by_cases hm : n = m
      · subst hm; simp
      · simp [hm]
    · intro m hm
      rw [known_snoc] at hm
      rw [recorded_snoc]
      simp only [Event.know, Event.record] at hm ⊢
      by_cases hnm : n = m
      · simp [hnm] at hm
      · simp only [hnm, if_false] at hm ⊢; exact hr.unknown m hm
    · intro m; rw [a2, recordedTimed_snoc]; exact hr.timed m
    · intro m; rw [lastStart_snoc]; rw [a3]; exact hr.timers m
    · exact a5
    · exact a6
    · rw [a2]; exact hr.nodupTimed
  | startTimer n =>
    obtain ⟨t1, t2, t3, t4, _⟩ := startTimer_spec clock n s
    have he : step clock (.startTimer n) s = (.ok .nothing, startTimer clock n s) := rfl
    rw [he]
    constructor
    · intro m; rw [t2, known_snoc, recorded_snoc]; exact hr.data m
    · intro m hm; rw [known_snoc] at hm; rw [recorded_snoc]; exact hr.unknown m hm
    · intro m; rw [t3, recordedTimed_snoc]; exact hr.timed m
    · intro m
      rw [lastStart_snoc, t1]
      dsimp only
      rw [hr.timers m]
    · rw [t4]; exact hr.prealloc
    · rw [t2]; exact hr.nodupData
    · rw [t3]; exact hr.nodupTimed
  | record n =>
    cases ht : s.timers.get n with
    | none =>
      have he : step clock (.record n) s = (.throws .logicError, s) := by
        simp only [step, record, ht, Out.bind_throws]
      rw [he]
      constructor
      · intro m; rw [known_snoc, recorded_snoc]; exact hr.data m
      · intro m hm; rw [known_snoc] at hm; rw [recorded_snoc]; exact hr.unknown m hm
      · intro m; rw [recordedTimed_snoc]; exact hr.timed m
      · intro m; rw [lastStart_snoc]; exact hr.timers m
      · exact hr.prealloc
      · exact hr.nodupData
      · exact hr.nodupTimed
    | some t =>
      have he : step clock (.record n) s = (.ok (.time (clock s.ticks - t)),
          addData n (clock s.ticks - t) { s with ticks := s.ticks + 1 }) := by
        simp only [step, record, ht, Out.bind_ok]
      rw [he]
      obtain ⟨a1, a2, a3, a4, a5, a6⟩ := addData_spec n (clock s.ticks - t) { s with ticks := s.ticks + 1 }
        hr.prealloc hr.nodupData
      have hent : entry { s with ticks := s.ticks + 1 } n = recorded n h := hr.entry n
      constructor
      · intro m
        rw [a1, known_snoc, recorded_snoc, hent, hr.data m]
        simp only [Event.know, Event.record]
        by_cases hm : n = m
        · subst hm; simp
        · simp [hm]
      · intro m hm
        rw [known_snoc] at hm
        rw [recorded_snoc]
        simp only [Event.know, Event.record] at hm ⊢
        by_cases hnm : n = m
        · simp [hnm] at hm
        · simp only [hnm, if_false] at hm ⊢; exact hr.unknown m hm
      · intro m; rw [a2, recordedTimed_snoc]; exact hr.timed m
      · intro m; rw [lastStart_snoc, a3]; exact hr.timers m
      · exact a5
      · exact a6
      · rw [a2]; exact hr.nodupTimed
  | recordDouble n d =>
    have hgen : ∃ t ticks, step clock (.recordDouble n d) s = (.ok (.time t), { s with
        timed := s.timed.set n ((s.timed.get n).getD [] ++ [(t, d)]), ticks := ticks }) := by
      simp only [step, recordDouble]
      cases s.timers.get n with
      | none => exact ⟨0, s.ticks, rfl⟩
      | some t => exact ⟨_, _, rfl⟩
    obtain ⟨t, ticks, he⟩ := hgen
    rw [he]
    have hent : (s.timed.get n).getD [] = recordedTimed n h := by
      rw [hr.timed]
      split
      · next h0 => rw [h0]; rfl
      · rfl
    constructor
    · intro m; rw [known_snoc, recorded_snoc]; exact hr.data m
    · intro m hm; rw [known_snoc] at hm; rw [recorded_snoc]; exact hr.unknown m hm
    · intro m
      dsimp only
      rw [Map.get_set, recordedTimed_snoc, hent]
      simp only [Event.recordTimed]
      by_cases hm : n = m
      · subst hm; simp
      · simp only [hm, if_false]; exact hr.timed m
    · intro m; rw [lastStart_snoc]; exact hr.timers m
    · exact hr.prealloc
    · exact hr.nodupData
    · exact Map.nodup_set _ _ _ hr.nodupTimed
  | getData n =>
    cases hd : s.data.get n with
    | some v =>
      have he : step clock (.getData n) s = (.ok (.values v), s) := by simp only [step, getData, hd]
      rw [he]
      have hk : known n h = true := by
        have := hr.data n
        rw [hd] at this
        by_contra hk
        simp [hk] at this
      constructor
      · intro m
        rw [known_snoc, recorded_snoc, hr.data m]
        simp only [Event.know, Event.record]
        by_cases hm : n = m
        · subst hm; simp [hk]
        · simp [hm]
      · intro m hm
        rw [known_snoc] at hm
        rw [recorded_snoc]
        simp only [Event.know, Event.record] at hm ⊢
        by_cases hnm : n = m
        · simp [hnm] at hm
        · simp only [hnm, if_false] at hm; exact hr.unknown m hm
      · intro m; rw [recordedTimed_snoc]; exact hr.timed m
      · intro m; rw [lastStart_snoc]; exact hr.timers m
      · exact hr.prealloc
      · exact hr.nodupData
      · exact hr.nodupTimed
    | none =>
      have he : step clock (.getData n) s = (.ok (.values []), { s with data := s.data.set n [] }) := by
        simp only [step, getData, hd]
      rw [he]
      have hk : known n h = false := by
        have := hr.data n
        rw [hd] at this
        by_contra hk
        simp [hk] at this
      constructor
      · intro m
        dsimp only
        rw [Map.get_set, known_snoc, recorded_snoc, hr.data m]
        simp only [Event.know, Event.record]
        by_cases hm : n = m
        · subst hm; simp [hr.unknown n hk]
        · simp [hm]
      · intro m hm
        rw [known_snoc] at hm
        rw [recorded_snoc]
        simp only [Event.know, Event.record] at hm ⊢
        by_cases hnm : n = m
        · simp [hnm] at hm
        · simp only [hnm, if_false] at hm; exact hr.unknown m hm
      · intro m; rw [recordedTimed_snoc]; exact hr.timed m
      · intro m; rw [lastStart_snoc]; exact hr.timers m
      · exact hr.prealloc
      · exact Map.nodup_set _ _ _ hr.nodupData
      · exact hr.nodupTimed

theorem history_snoc (clock : Nat → K) (ops : List (Op K)) (op : Op K) :
    history clock (ops ++ [op]) =
      ((history clock ops).1 ++ [⟨op, (step clock op (history clock ops).2).1,
        (step clock op (history clock ops).2).2.ticks⟩], (step clock op (history clock ops).2).2) := by
  unfold history
  rw [List.foldl_append]
  rfl

theorem history_rep (clock : Nat → K) (ops : List (Op K)) :
    Rep clock (history clock ops).1 (history clock ops).2 := by
  induction ops using List.reverseRecOn with
  | nil =>
    constructor <;> simp [history, Map.get, known, recorded, recordedTimed, lastStart]
  | append_singleton ops op ih =>
    rw [history_snoc]
    exact step_rep clock op ih

/-- After every history of calls, asking for the data of a name returns what was recorded under it since the last
reset, in the order of recording. -/
theorem C57_get_data (clock : Nat → K) (ops : List (Op K)) (name : String) :
    (step clock (.getData name) (history clock ops).2).1 = .ok (.values (recorded name (history clock ops).1)) := by
  have hr := history_rep clock ops
  simp only [step, getData]
  rw [hr.data name]
  cases hk : known name (history clock ops).1 with
  | true => rfl
  | false => rw [hr.unknown name hk]; rfl

/-- Recording returns, and adds to the data, the time since the last start of the timer; on a timer that was never
started it throws and nothing changes. With a value, the time is 0 in this case. -/
theorem C57_record (clock : Nat → K) (ops : List (Op K)) (name : String) (value : K) :
    let h := (history clock ops).1
    let s := (history clock ops).2
    (∀ t, lastStart clock name h = some t →
      (step clock (.record name) s).1 = .ok (.time (clock s.ticks - t)) ∧
      (step clock (.recordDouble name value) s).1 = .ok (.time (clock s.ticks - t))) ∧
    (lastStart clock name h = none →
      step clock (.record name) s = (.throws .logicError, s) ∧
      (step clock (.recordDouble name value) s).1 = .ok (.time 0)) := by
  intro h s
  have hr := history_rep clock ops
  constructor
  · intro t ht
    have : s.timers.get name = some t := by rw [hr.timers name]; exact ht
    simp only [step, record, recordDouble, this, Out.bind_ok]
    exact ⟨trivial, trivial⟩
  · intro ht
    have : s.timers.get name = none := by rw [hr.timers name]; exact ht
    simp only [step, record, recordDouble, this, Out.bind_throws]
    exact ⟨trivial, trivial⟩

theorem ticks_mono (clock : Nat → K) (op : Op K) (s : St K) : s.ticks ≤ (step clock op s).2.ticks := by
  cases op with
  | reinitialize a b => exact Nat.le_refl _
  | reset n =>
    simp only [step, reset]
    split
    · exact Nat.le_of_lt (startTimer_spec clock n { s with data := s.data.set n [] }).2.2.2.2
    · exact Nat.le_refl _
  | addData n d =>
    simp only [step, addData, prepare]
    split
    · exact Nat.le_refl _
    · split <;> exact Nat.le_refl _
  | startTimer n => exact Nat.le_of_lt (startTimer_spec clock n _).2.2.2.2
  | record n =>
    simp only [step, record]
    split
    · exact Nat.le_refl _
    · simp only [addData, prepare]
      split
      · exact Nat.le_succ _
      · split <;> exact Nat.le_succ _
  | recordDouble n d =>
    simp only [step, recordDouble]
    split
    · exact Nat.le_refl _
    · exact Nat.le_succ _
  | getData n =>
    simp only [step, getData]
    split <;> exact Nat.le_refl _

/-- starts lie in the past -/
theorem start_past (clock : Nat → K) (ops : List (Op K)) (name : String) (t : K)
    (h : lastStart clock name (history clock ops).1 = some t) :
    ∃ i, t = clock i ∧ i ≤ (history clock ops).2.ticks := by
  induction ops using List.reverseRecOn with
  | nil => simp [history, lastStart] at h
  | append_singleton ops op ih =>
    have hm := ticks_mono clock op (history clock ops).2
    rw [history_snoc] at h ⊢
    rw [lastStart_snoc] at h
    dsimp only at h ⊢
    have old : lastStart clock name (history clock ops).1 = some t →
        ∃ i, t = clock i ∧ i ≤ (step clock op (history clock ops).2).2.ticks := by
      intro h'
      obtain ⟨i, h1, h2⟩ := ih h'
      exact ⟨i, h1, by omega⟩
    split at h
    · split at h
      · injection h with h
        exact ⟨_, h.symm, Nat.sub_le _ _⟩
      · exact old h
    · split at h
      · injection h with h
        exact ⟨_, h.symm, Nat.sub_le _ _⟩
      · exact old h
    · exact old h

/-- With a clock that never goes back no recorded time is negative. -/
theorem C57_not_negative [LinearOrder K] [IsStrictOrderedRing K] (clock : Nat → K)
    (hc : ∀ i j, i ≤ j → clock i ≤ clock j) (ops : List (Op K)) (name : String) (t : K)
    (h : (step clock (.record name) (history clock ops).2).1 = .ok (.time t)) : 0 ≤ t := by
  cases hs : lastStart clock name (history clock ops).1 with
  | none =>
    rw [((C57_record clock ops name 0).2 hs).1] at h
    cases h
  | some t0 =>
    rw [((C57_record clock ops name 0).1 t0 hs).1] at h
    injection h with h
    injection h with h
    subst h
    obtain ⟨i, rfl, hi⟩ := start_past clock ops name t0 hs
    exact sub_nonneg.2 (hc _ _ hi)

theorem foldl_add (l : List K) (a : K) : l.foldl (· + ·) a = a + l.sum := by
  induction l generalizing a with
  | nil => simp
  | cons x l ih => rw [List.foldl_cons, ih, List.sum_cons, add_assoc]

omit [Field K] in
theorem foldl_min [LinearOrder K] (l : List K) (a : K) :
    (l.foldl (fun m y => if y < m then y else m) a) ∈ a :: l ∧
    ∀ x ∈ a :: l, l.foldl (fun m y => if y < m then y else m) a ≤ x := by
  induction l generalizing a with
  | nil => simp
  | cons y l ih =>
    rw [List.foldl_cons]
    by_cases h : y < a
    · rw [if_pos h]
      obtain ⟨h1, h2⟩ := ih y
      refine ⟨List.mem_cons_of_mem _ h1, ?_⟩
      intro x hx
      rcases List.mem_cons.1 hx with rfl | hx
      · exact le_trans (h2 y (List.mem_cons_self ..)) (le_of_lt h)
      · exact h2 x hx
    · rw [if_neg h]
      obtain ⟨h1, h2⟩ := ih a
      constructor
      · rcases List.mem_cons.1 h1 with h1 | h1
        · rw [h1]; exact List.mem_cons_self ..
        · exact List.mem_cons_of_mem _ (List.mem_cons_of_mem _ h1)
      · intro x hx
        rcases List.mem_cons.1 hx with rfl | hx
        · exact h2 x (List.mem_cons_self ..)
        · rcases List.mem_cons.1 hx with rfl | hx
          · exact le_trans (h2 a (List.mem_cons_self ..)) (le_of_not_gt h)
          · exact h2 x (List.mem_cons_of_mem _ hx)

omit [Field K] in
theorem foldl_max [LinearOrder K] (l : List K) (a : K) :
    (l.foldl (fun m y => if m < y then y else m) a) ∈ a :: l ∧
    ∀ x ∈ a :: l, x ≤ l.foldl (fun m y => if m < y then y else m) a := by
  induction l generalizing a with
  | nil => simp
  | cons y l ih =>
    rw [List.foldl_cons]
    by_cases h : a < y
    · rw [if_pos h]
      obtain ⟨h1, h2⟩ := ih y
      refine ⟨List.mem_cons_of_mem _ h1, ?_⟩
      intro x hx
      rcases List.mem_cons.1 hx with rfl | hx
      · exact le_trans (le_of_lt h) (h2 y (List.mem_cons_self ..))
      · exact h2 x hx
    · rw [if_neg h]
      obtain ⟨h1, h2⟩ := ih a
      constructor
      · rcases List.mem_cons.1 h1 with h1 | h1
        · rw [h1]; exact List.mem_cons_self ..
        · exact List.mem_cons_of_mem _ (List.mem_cons_of_mem _ h1)
      · intro x hx
        rcases List.mem_cons.1 hx with rfl | hx
        · exact h2 x (List.mem_cons_self ..)
        · rcases List.mem_cons.1 hx with rfl | hx
          · exact le_trans (le_of_not_gt h) (h2 a (List.mem_cons_self ..))
          · exact h2 x (List.mem_cons_of_mem _ hx)

/-- The summary of a name: "never called" if the name is not known, undefined behaviour if it is known but has no
data (after a reset, or because its data was asked for), otherwise the sum, number, least, greatest and average of
the recorded data. -/
theorem C57_summary [LinearOrder K] (clock : Nat → K) (ops : List (Op K)) (name : String) :
    let h := (history clock ops).1
    let s := (history clock ops).2
    (known name h = false → printSingleSummary name s = .ok .neverCalled) ∧
    (known name h = true → recorded name h = [] → printSingleSummary name s = .ub) ∧
    (recorded name h ≠ [] → ∃ least greatest,
      printSingleSummary name s = .ok (.called (recorded name h).sum (recorded name h).length least greatest
        ((recorded name h).sum / ((recorded name h).length : Nat))) ∧
      least ∈ recorded name h ∧ greatest ∈ recorded name h ∧
      ∀ x ∈ recorded name h, least ≤ x ∧ x ≤ greatest) := by
  intro h s
  have hr : Rep clock h s := history_rep clock ops
  refine ⟨fun hk => ?_, fun hk he => ?_, fun hne => ?_⟩
  · unfold printSingleSummary; rw [hr.data name, hk]; rfl
  · unfold printSingleSummary; rw [hr.data name, hk, he]; rfl
  · have hk : known name h = true := by
      by_contra hk
      exact hne (hr.unknown name (by simpa using hk))
    unfold printSingleSummary
    rw [hr.data name, hk]
    cases hrec : recorded name h with
    | nil => exact absurd hrec hne
    | cons x xs =>
      refine ⟨_, _, ?_, (foldl_min xs x).1, (foldl_max xs x).1, fun y hy =>
        ⟨(foldl_min xs x).2 y hy, (foldl_max xs x).2 y hy⟩⟩
      simp only [if_true]
      rw [foldl_add, zero_add]

theorem foldl_fst (l : List (K × K)) (a : K) : l.foldl (fun a x => a + x.1) a = a + (l.map (·.1)).sum := by
  induction l generalizing a with
  | nil => simp
  | cons x l ih => rw [List.foldl_cons, ih, List.map_cons, List.sum_cons, add_assoc]

theorem foldl_snd (l : List (K × K)) (a : K) : l.foldl (fun a x => a + x.2) a = a + (l.map (·.2)).sum := by
  induction l generalizing a with
  | nil => simp
  | cons x l ih => rw [List.foldl_cons, ih, List.map_cons, List.sum_cons, add_assoc]

/-- The summaries of a group have one line per name: a separator for names that begin with five tildes, otherwise
total, number and average of the recorded data (an average that is not a number for a known name without data);
the written summary falls back to the times with values for names that are not known. No names at all are
undefined behaviour. -/
theorem C57_group (clock : Nat → K) (ops : List (Op K)) (names : List String) :
    let h := (history clock ops).1
    let s := (history clock ops).2
    (names = [] → printGroupSummary names s = .ub ∧ writeGroupSummary names s = .ub) ∧
    (names ≠ [] → ∃ printed written, printGroupSummary names s = .ok printed ∧
      writeGroupSummary names s = .ok written ∧ printed.length = names.length ∧ written.length = names.length ∧
      ∀ (i : Nat) name, names[i]? = some name →
        ((isSeparator name = true → printed[i]? = some .separator ∧ written[i]? = some .separator) ∧
        (isSeparator name = false → known name h = true →
          let row := Row.times name (recorded name h).sum (recorded name h).length
            (if recorded name h = [] then none else some ((recorded name h).sum / ((recorded name h).length : Nat)))
          printed[i]? = some row ∧ written[i]? = some row) ∧
        (isSeparator name = false → known name h = false → printed[i]? = some (.times name 0 0 (some 0)) ∧
          (recordedTimed name h = [] → written[i]? = some (.times name 0 0 (some 0))) ∧
          (recordedTimed name h ≠ [] →
            let v := recordedTimed name h
            written[i]? = some (.values name (v.map (·.1)).sum v.length (some ((v.map (·.1)).sum / (v.length : Nat)))
              (v.map (·.2)).sum (some ((v.map (·.2)).sum / (v.length : Nat)))))))) := by
  intro h s
  have hr : Rep clock h s := history_rep clock ops
  constructor
  · rintro rfl; exact ⟨rfl, rfl⟩
  · intro hne
    refine ⟨names.map (groupRow s), names.map (writeRow s), by unfold printGroupSummary; rw [if_neg hne],
      by unfold writeGroupSummary; rw [if_neg hne], by simp, by simp, ?_⟩
    intro i name hi
    rw [List.getElem?_map, List.getElem?_map, hi, Option.map_some, Option.map_some]
    unfold groupRow writeRow
    rw [hr.data name, hr.timed name]
    refine ⟨fun hs => by simp [hs], fun hs hk => ?_, fun hs hk => ⟨by simp [hs, hk], fun ht => ?_, fun ht => ?_⟩⟩
    · simp only [hs, hk, if_true, Bool.false_eq_true, if_false, foldl_add, zero_add, mean, List.length_eq_zero_iff]
      exact ⟨trivial, trivial⟩
    · simp [hs, hk, ht]
    · simp only [hs, hk, ht, Bool.false_eq_true, if_false, foldl_fst, foldl_snd, zero_add, mean,
        List.length_eq_zero_iff]

omit [Field K] in
theorem mem_getAllNames (s : St K) (n : String) :
    n ∈ getAllNames s ↔ (s.data.get n).isSome ∨ (s.timed.get n).isSome := by
  unfold getAllNames
  rw [List.mem_mergeSort, List.mem_append, Map.mem_keys, Map.mem_keys]

omit [Field K] in
theorem getAllNames_sorted (s : St K) : (getAllNames s).Pairwise (· ≤ ·) := by
  unfold getAllNames
  refine List.Pairwise.imp (fun h => by simpa using h)
    (List.pairwise_mergeSort (le := fun a b : String => decide (a ≤ b)) ?_ ?_ _)
  · intro a b c hab hbc
    simp only [decide_eq_true_eq] at *
    exact String.le_trans hab hbc
  · intro a b
    simp only [Bool.or_eq_true, decide_eq_true_eq]
    exact String.le_total a b

omit [Field K] in
theorem count_getAllNames (s : St K) (n : String) (h1 : (s.data.map (·.1)).Nodup) (h2 : (s.timed.map (·.1)).Nodup) :
    (getAllNames s).count n =
      (if (s.data.get n).isSome then 1 else 0) + (if (s.timed.get n).isSome then 1 else 0) := by
  unfold getAllNames
  rw [(List.mergeSort_perm _ _).count_eq, List.count_append, h1.count, h2.count]
  simp only [Map.mem_keys]

/-- All names: the known ones and those with times and values, in order; a name that is both is listed twice. -/
theorem C57_names (clock : Nat → K) (ops : List (Op K)) :
    let h := (history clock ops).1
    let names := getAllNames (history clock ops).2
    names.Pairwise (· ≤ ·) ∧ ∀ name, names.count name =
      (if known name h = true then 1 else 0) + (if recordedTimed name h = [] then 0 else 1) := by
  intro h names
  have hr : Rep clock h (history clock ops).2 := history_rep clock ops
  refine ⟨getAllNames_sorted _, fun name => ?_⟩
  rw [count_getAllNames _ _ hr.nodupData hr.nodupTimed, hr.data, hr.timed]
  congr 1
  · cases known name h <;> rfl
  · split <;> rfl

theorem filter_flatMap_name {V : Type} (names : List String) (f : String → List (String × V))
    (hf : ∀ n, ∀ x ∈ f n, x.1 = n) (n : String) :
    (names.flatMap f).filter (fun x => x.1 == n) = (List.replicate (names.count n) (f n)).flatten := by
  induction names with
  | nil => simp
  | cons a names ih =>
    rw [List.flatMap_cons, List.filter_append, ih, List.count_cons]
    by_cases h : a = n
    · subst h
      have : (f a).filter (fun x => x.1 == a) = f a := by
        rw [List.filter_eq_self]
        intro x hx
        simp [hf a x hx]
      rw [this]
      simp [List.replicate_succ]
    · have : (f a).filter (fun x => x.1 == n) = [] := by
        rw [List.filter_eq_nil_iff]
        intro x hx
        simp [hf a x hx, h]
      rw [this]
      simp [h]

theorem pairwise_flatMap_name {V : Type} (names : List String) (f : String → List (String × V))
    (hf : ∀ n, ∀ x ∈ f n, x.1 = n) (hs : names.Pairwise (· ≤ ·)) :
    ((names.flatMap f).map (·.1)).Pairwise (· ≤ ·) := by
  rw [List.pairwise_map, List.pairwise_flatMap]
  constructor
  · intro a _
    have : ∀ l : List (String × V), (∀ x ∈ l, x.1 = a) → l.Pairwise fun x y => x.1 ≤ y.1 := by
      intro l hl
      induction l with
      | nil => exact List.Pairwise.nil
      | cons x l ih =>
        refine List.Pairwise.cons ?_ (ih fun y hy => hl y (List.mem_cons_of_mem _ hy))
        intro y hy
        rw [hl x (List.mem_cons_self ..), hl y (List.mem_cons_of_mem _ hy)]
        exact String.le_refl _
    exact this _ (hf a)
  · refine List.Pairwise.imp ?_ hs
    intro a b hab x hx y hy
    rw [hf a x hx, hf b y hy]
    exact hab

/-- Writing everything writes, in the order of the names, for each name with fewer than `limit` data all of them,
and likewise its times with values. A name used for both is written twice. Without any name it is undefined
behaviour. -/
theorem C57_write_all (clock : Nat → K) (ops : List (Op K)) (limit : Nat) :
    let h := (history clock ops).1
    let s := (history clock ops).2
    ((∀ name, known name h = false ∧ recordedTimed name h = []) → writeAll limit s = .ub) ∧
    ((∃ name, known name h = true ∨ recordedTimed name h ≠ []) → ∃ lines, writeAll limit s = .ok lines ∧
      (lines.map (·.1)).Pairwise (· ≤ ·) ∧
      ∀ name, lines.filter (fun l => l.1 == name) =
        let block := (if (recorded name h).length < limit then (recorded name h).map fun x => (name, x, none) else []) ++
          (if (recordedTimed name h).length < limit then
            (recordedTimed name h).map fun x => (name, x.1, some x.2) else [])
        if known name h = true ∧ recordedTimed name h ≠ [] then block ++ block else block) := by
  intro h s
  have hr : Rep clock h s := history_rep clock ops
  have hmem : ∀ n, n ∈ getAllNames s ↔ known n h = true ∨ recordedTimed n h ≠ [] := by
    intro n
    rw [mem_getAllNames, hr.data, hr.timed]
    by_cases h1 : known n h = true <;> by_cases h2 : recordedTimed n h = [] <;> simp [h1, h2]
  constructor
  · intro hnone
    have : getAllNames s = [] := by
      rw [List.eq_nil_iff_forall_not_mem]
      intro n hn
      rcases (hmem n).1 hn with h1 | h1
      · rw [(hnone n).1] at h1; cases h1
      · exact h1 (hnone n).2
    unfold writeAll
    rw [if_pos this]
  · rintro ⟨n0, hn0⟩
    have hne : getAllNames s ≠ [] := List.ne_nil_of_mem ((hmem n0).2 hn0)
    have hf : ∀ n, ∀ x ∈ nameLines limit s n, x.1 = n := by
      intro n x hx
      unfold nameLines at hx
      rw [List.mem_append] at hx
      rcases hx with hx | hx
      · split at hx
        · split at hx
          · obtain ⟨y, _, rfl⟩ := List.mem_map.1 hx; rfl
          · simp at hx
        · simp at hx
      · split at hx
        · split at hx
          · obtain ⟨y, _, rfl⟩ := List.mem_map.1 hx; rfl
          · simp at hx
        · simp at hx
    refine ⟨_, by unfold writeAll; rw [if_neg hne], pairwise_flatMap_name _ _ hf (getAllNames_sorted s), ?_⟩
    intro name
    rw [filter_flatMap_name _ _ hf, count_getAllNames _ _ hr.nodupData hr.nodupTimed]
    have hb : nameLines limit s name =
        (if (recorded name h).length < limit then (recorded name h).map fun x => (name, x, none) else []) ++
          (if (recordedTimed name h).length < limit then
            (recordedTimed name h).map fun x => (name, x.1, some x.2) else []) := by
      unfold nameLines
      rw [hr.data, hr.timed]
      congr 1
      · cases hk : known name h with
        | true => rfl
        | false => rw [hr.unknown name hk]; simp
      · by_cases ht : recordedTimed name h = []
        · rw [ht]; simp
        · rw [if_neg ht]
    rw [hb, hr.data, hr.timed]
    by_cases hk : known name h = true
    · by_cases ht : recordedTimed name h = []
      · simp [hk, ht]
      · simp [hk, ht, List.replicate_succ]
    · have hrec := hr.unknown name (by simpa using hk)
      by_cases ht : recordedTimed name h = []
      · simp [hk, ht, hrec]
      · simp [hk, ht]

/-- a clock -/
def exampleClock (i : Nat) : Rat := (i * i : Nat)

/-- a history with two names, a reset and a refused recording -/
def exampleOps : List (Op Rat) :=
  [.record "a", .startTimer "a", .record "a", .addData "b" 7, .record "a", .recordDouble "a" 3, .reset "b",
    .addData "b" 5, .addData "b" 6]

example : recorded "a" (history exampleClock exampleOps).1 = [3, 8] ∧
    recorded "b" (history exampleClock exampleOps).1 = [5, 6] ∧
    recordedTimed "a" (history exampleClock exampleOps).1 = [(15, 3)] ∧
    lastStart exampleClock "a" (history exampleClock exampleOps).1 = some 1 ∧
    known "b" (history exampleClock exampleOps).1 = true := by
  decide +kernel

example : printSingleSummary "b" (history exampleClock exampleOps).2 = .ok (.called 11 2 5 6 (11 / 2)) := by
  decide +kernel

example : nameLines 2 (history exampleClock exampleOps).2 "a" = [("a", 15, some 3)] ∧
    known "a" (history exampleClock exampleOps).1 = true := by
  decide +kernel

end Verif.Profiler
