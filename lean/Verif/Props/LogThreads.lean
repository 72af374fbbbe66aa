import Verif.Model.LogThreads

/-!
# C122: threads that share one logger
-/
namespace Verif.LogThreads

/-- A line of the file. -/
def line (m : String) : List Char := m.toList ++ ['\n']

/-- The messages of one thread in a list of calls. -/
def of (t : Nat) (calls : List (Nat × String)) : List String :=
  calls.filterMap fun c => if c.1 = t then some c.2 else none

theorem of_append (t : Nat) (a b : List (Nat × String)) : of t (a ++ b) = of t a ++ of t b := by
  simp [of]

/-- What holds at every step: the calls that have taken the mutex so far, in order. -/
structure Inv (file0 : List Char) (todo : Nat → List String) (s : State)
    (calls : List (Nat × String)) : Prop where
  sent : ∀ t, todo t = of t calls ++ (s.threads t).todo
  held : ∀ t, (s.threads t).writing.isSome ↔ s.holder = some t
  file : s.file ++ ((s.holder.bind fun t => (s.threads t).writing).getD []) =
    file0 ++ calls.flatMap fun c => line c.2
  last : ((s.holder.bind fun t => (s.threads t).writing).getD []) <:+
    (calls.getLast?.map fun c => line c.2).getD []

theorem inv_step {file0 : List Char} {todo : Nat → List String} {s : State}
    {calls : List (Nat × String)} (h : Inv file0 todo s calls) (t : Nat) :
    ∃ more, Inv file0 todo (step s t) (calls ++ more) := by
  unfold step
  cases hw : (s.threads t).writing with
  | none =>
    simp only [hw]
    cases htd : (s.threads t).todo with
    | nil => exact ⟨[], by simpa [htd] using h⟩
    | cons m rest =>
      simp only
      by_cases hh : s.holder = none
      · rw [if_pos hh]
        refine ⟨[(t, m)], fun u => ?_, fun u => ?_, ?_, ?_⟩
        · rw [of_append, h.sent u]
          by_cases hu : u = t
          · subst hu; simp [htd, of]
          · simp [hu, of, Ne.symm hu]
        · by_cases hu : u = t
          · simp [hu]
          · have := h.held u
            rw [hh] at this
            simp only [hu, if_false, Option.some.injEq]
            exact ⟨fun h => (by simp [this] at h), fun h => absurd h.symm hu⟩
        · have hf := h.file
          rw [hh] at hf
          simp only [Option.bind_none, Option.getD_none, List.append_nil] at hf
          simp [hf, line]
        · simp [line]
      · rw [if_neg hh]
        exact ⟨[], by simpa using h⟩
  | some cs =>
    have hold : s.holder = some t := (h.held t).1 (by simp [hw])
    have hf := h.file
    rw [hold] at hf
    simp only [Option.bind_some, hw, Option.getD_some] at hf
    cases cs with
    | nil =>
      simp only [hw]
      refine ⟨[], fun u => ?_, fun u => ?_, ?_, ?_⟩
      · rw [List.append_nil]
        by_cases hu : u = t
        · subst hu; simpa using h.sent u
        · simpa [hu] using h.sent u
      · by_cases hu : u = t
        · simp [hu]
        · have := h.held u
          rw [hold] at this
          simp only [hu, if_false]
          refine ⟨fun h' => ?_, fun h' => by cases h'⟩
          have := this.1 h'
          simp only [Option.some.injEq] at this
          exact absurd this.symm hu
      · simpa using hf
      · simp
    | cons c cs =>
      simp only [hw]
      refine ⟨[], fun u => ?_, fun u => ?_, ?_, ?_⟩
      · rw [List.append_nil]
        by_cases hu : u = t
        · subst hu; simpa using h.sent u
        · simpa [hu] using h.sent u
      · by_cases hu : u = t
        · simp [hu, hold]
        · simpa [hu] using h.held u
      · simpa [hold] using hf
      · have hl := h.last
        simp only [hold, Option.bind_some, hw, Option.getD_some] at hl
        simpa [hold] using (List.suffix_cons c cs).trans hl

theorem inv_run {file0 : List Char} {todo : Nat → List String} : ∀ (schedule : List Nat)
    {s : State} {calls : List (Nat × String)}, Inv file0 todo s calls →
    ∃ more, Inv file0 todo (run s schedule) (calls ++ more)
  | [], s, calls, h => ⟨[], by simpa [run] using h⟩
  | t :: ts, s, calls, h => by
    obtain ⟨m1, h1⟩ := inv_step h t
    obtain ⟨m2, h2⟩ := inv_run ts h1
    exact ⟨m1 ++ m2, by rw [← List.append_assoc]; exact h2⟩

theorem inv_start (file0 : List Char) (todo : Nat → List String) :
    Inv file0 todo (start file0 todo) [] :=
  ⟨fun t => by simp [start, of], fun t => by simp [start], by simp [start], by simp [start]⟩

/-- C122, threads: whatever the schedule and however many threads log through one logger, at every
moment the file holds what it held before and then whole lines, except that the last line may be
unfinished while its thread holds the mutex. The lines of each thread are the first messages it was
to log, each once and in its own order; at most one thread is writing. -/
theorem C122_threads (file0 : List Char) (todo : Nat → List String) (schedule : List Nat) :
    ∃ calls : List (Nat × String), ∃ rest : List Char,
      (run (start file0 todo) schedule).file ++ rest =
        file0 ++ calls.flatMap (fun c => line c.2) ∧
      (∀ t, todo t = of t calls ++ ((run (start file0 todo) schedule).threads t).todo) ∧
      (∀ t u, ((run (start file0 todo) schedule).threads t).writing.isSome →
        ((run (start file0 todo) schedule).threads u).writing.isSome → t = u) ∧
      ((∀ t, ((run (start file0 todo) schedule).threads t).writing = none) → rest = []) ∧
      rest <:+ (calls.getLast?.map fun c => line c.2).getD [] := by
  obtain ⟨calls, h⟩ := inv_run schedule (inv_start file0 todo)
  rw [List.nil_append] at h
  refine ⟨calls, _, h.file, h.sent, fun t u ht hu => ?_, fun hn => ?_, h.last⟩
  · have := ((h.held t).1 ht).symm.trans ((h.held u).1 hu)
    simpa using this
  · cases hh : (run (start file0 todo) schedule).holder with
    | none => rfl
    | some t => simp [hn t]

/-- C122, threads, when all calls have returned: the file holds what it held before and every message
of every thread, as whole lines, each once, those of a thread in its own order. -/
theorem C122_threads_done (file0 : List Char) (todo : Nat → List String) (schedule : List Nat)
    (hdone : ∀ t, (run (start file0 todo) schedule).threads t = ⟨[], none⟩) :
    ∃ calls : List (Nat × String),
      (run (start file0 todo) schedule).file = file0 ++ calls.flatMap (fun c => line c.2) ∧
      ∀ t, of t calls = todo t := by
  obtain ⟨calls, rest, hf, hs, _, hr, _⟩ := C122_threads file0 todo schedule
  refine ⟨calls, ?_, fun t => ?_⟩
  · rw [hr fun t => by rw [hdone t]] at hf
    simpa using hf
  · have := hs t
    rw [hdone t] at this
    simpa using this.symm

/-- C122, threads, no deadlock: as long as a call has not returned or a message is still to be
logged, some thread can move. -/
theorem C122_threads_progress (file0 : List Char) (todo : Nat → List String) (schedule : List Nat)
    (hleft : ∃ t, (run (start file0 todo) schedule).threads t ≠ ⟨[], none⟩) :
    ∃ t, step (run (start file0 todo) schedule) t ≠ run (start file0 todo) schedule := by
  obtain ⟨calls, h⟩ := inv_run schedule (inv_start file0 todo)
  revert h hleft
  generalize run (start file0 todo) schedule = s
  rintro ⟨t, ht⟩ h
  cases hh : s.holder with
  | some u =>
    refine ⟨u, fun he => ?_⟩
    have hw := (h.held u).2 hh
    obtain ⟨cs, hcs⟩ := Option.isSome_iff_exists.1 hw
    have := congrArg (fun s => (s.threads u).writing) he
    cases cs with
    | nil => simp [step, hcs] at this
    | cons c cs => simp [step, hcs] at this
  | none =>
    have hw : (s.threads t).writing = none := by
      cases hw : (s.threads t).writing with
      | none => rfl
      | some x =>
        have := (h.held t).1 (by simp [hw])
        rw [hh] at this
        cases this
    refine ⟨t, fun he => ?_⟩
    cases htd : (s.threads t).todo with
    | nil =>
      apply ht
      revert hw htd
      generalize s.threads t = x
      cases x
      rintro rfl rfl
      rfl
    | cons m rest =>
      have := congrArg (fun s => s.holder) he
      simp [step, hw, htd, hh] at this

/-- Two threads, one schedule: the lines do not mix although the threads take turns. -/
example : (run (start [] fun t => if t = 0 then ["ab"] else if t = 1 then ["c"] else [])
    [0, 1, 0, 1, 0, 1, 0, 1, 0, 1, 1, 1, 1]).file = "ab\nc\n".toList ∧
    ∀ t, (run (start [] fun t => if t = 0 then ["ab"] else if t = 1 then ["c"] else [])
      [0, 1, 0, 1, 0, 1, 0, 1, 0, 1, 1, 1, 1]).threads t = ⟨[], none⟩ := by
  constructor
  · simp [run, step, start]
  · intro t
    by_cases h0 : t = 0
    · subst h0; simp [run, step, start]
    · by_cases h1 : t = 1
      · subst h1; simp [run, step, start]
      · simp [run, step, start, h0, h1]

end Verif.LogThreads
