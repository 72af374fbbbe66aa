import Verif.Model.Catches
/-!
# C134: calls and generators with a time limit
-/
namespace Verif.Catches
open Verif

theorem andThen_runs {α β : Type} {p : Prog α} {k : Except PyExc α → Prog β} {s s' : Process} {r : Except PyExc β} :
    Runs s (p.andThen k) s' r ↔ ∃ s1 r1, Runs s p s1 r1 ∧ Runs s1 (k r1) s' r := by
  constructor
  · intro h
    induction p generalizing s with
    | done r1 => exact ⟨s, r1, .done _ _, h⟩
    | tick n i hn hi =>
      cases h with
      | go h => obtain ⟨s1, r1, a, b⟩ := hn h; exact ⟨s1, r1, .go a, b⟩
      | ring h => obtain ⟨s1, r1, a, b⟩ := hi h; exact ⟨s1, r1, .ring a, b⟩
    | alarm k n hn =>
      cases h with
      | alarm h => obtain ⟨s1, r1, a, b⟩ := hn h; exact ⟨s1, r1, .alarm a, b⟩
    | install n hn =>
      cases h with
      | install h => obtain ⟨s1, r1, a, b⟩ := hn h; exact ⟨s1, r1, .install a, b⟩
  · rintro ⟨s1, r1, h1, h2⟩
    induction h1 with
    | done s r => exact h2
    | go _ ih => exact .go (ih h2)
    | ring _ ih => exact .ring (ih h2)
    | alarm _ ih => exact .alarm (ih h2)
    | install _ ih => exact .install (ih h2)

/-- What `catch_timeout` gives for the result of the call -/
def report {α : Type} : Except PyExc α → Except PyExc (Option α × Bool)
  | .ok v => .ok (some v, false)
  | .error .timeoutError => .ok (none, true)
  | .error e => .error e

theorem report_done {α : Type} (r : Except PyExc α) : afterwards r = .done (report r) := by
  rcases r with e | v
  · cases e <;> rfl
  · rfl

/-- The runs of `catch_timeout`: the call is run with the alarm on (off for zero seconds); its value comes back with
`False`, a `TimeoutError` out of it — of the alarm or its own — is a timeout, any other exception goes on. Or the alarm
rings before the call, or after it and before it is off: a timeout, whatever the call did. An alarm that was on before
may ring, too. -/
theorem runs_iff {α : Type} (seconds : Nat) (func : Prog α) (s s' : Process) (r : Except PyExc (Option α × Bool)) :
    Runs s (catchTimeout seconds func) s' r ↔
      (∃ s1 r1, Runs ⟨.raises, seconds != 0⟩ func s1 r1 ∧ s' = ⟨s1.handler, false⟩ ∧ r = report r1) ∨
      ((seconds ≠ 0 ∨ s.pending = true) ∧ s' = ⟨.raises, false⟩ ∧ r = .ok (none, true)) ∨
      (∃ r1, Runs ⟨.raises, seconds != 0⟩ func ⟨.raises, true⟩ r1 ∧ s' = ⟨.raises, false⟩ ∧ r = .ok (none, true)) := by
  unfold catchTimeout guarded
  rw [andThen_runs]
  obtain ⟨b, hb⟩ : ∃ b, b = (seconds != 0) := ⟨_, rfl⟩
  obtain ⟨c, hc⟩ : ∃ c, c = s.pending := ⟨_, rfl⟩
  rw [← hb, ← hc]
  constructor
  · rintro ⟨s2, r2, h1, h2⟩
    rw [report_done] at h2
    cases h2
    cases h1 with
    | install h =>
      rw [← hc] at h
      cases h with
      | ring h => cases h; exact .inr (.inl ⟨.inr rfl, rfl, rfl⟩)
      | go h => cases h with
        | alarm h =>
          rw [← hb] at h
          cases h with
          | go h =>
            obtain ⟨⟨h1, p1⟩, r1, a, b⟩ := andThen_runs.mp h
            cases b with
            | go b => cases b with
              | alarm b => cases b; exact .inl ⟨_, _, a, rfl, rfl⟩
            | ring b => cases b; exact .inr (.inr ⟨_, a, rfl, rfl⟩)
          | ring h => cases h; exact .inr (.inl ⟨.inl (by intro h; simp [h] at hb), rfl, rfl⟩)
  · rintro (⟨s1, r1, h, rfl, rfl⟩ | ⟨hs, rfl, rfl⟩ | ⟨r1, h, rfl, rfl⟩)
    · refine ⟨⟨s1.handler, false⟩, r1, .install (.go (.alarm ?_)), ?_⟩
      · rw [← hb]
        exact .go (andThen_runs.mpr ⟨s1, r1, h, .go (.alarm (.done _ _))⟩)
      · rw [report_done]
        exact .done _ _
    · refine ⟨⟨.raises, false⟩, .error .timeoutError, .install ?_, .done _ _⟩
      rcases hs with hs | hs
      · refine .go (.alarm ?_)
        rw [show (seconds != 0) = true by simpa using hs]
        exact .ring (.done _ _)
      · rw [← hc, hs]
        exact .ring (.done _ _)
    · refine ⟨⟨.raises, false⟩, .error .timeoutError, .install (.go (.alarm ?_)), .done _ _⟩
      rw [← hb]
      exact .go (andThen_runs.mpr ⟨_, r1, h, .ring (.done _ _)⟩)

/-- C134: however the call and the alarm go, no alarm is left on after `catch_timeout`, so that none rings later. -/
theorem C134_no_alarm_left {α : Type} (seconds : Nat) (func : Prog α) (s s' : Process) (r : Except PyExc (Option α × Bool))
    (h : Runs s (catchTimeout seconds func) s' r) : s'.pending = false := by
  rcases (runs_iff ..).mp h with ⟨_, _, _, rfl, _⟩ | ⟨_, rfl, _⟩ | ⟨_, _, rfl, _⟩ <;> rfl

/-- C134: a value with `False` is the value the call returned; an exception is the one the call raised, and is not
`TimeoutError`; otherwise the result is `(None, True)`. -/
theorem C134_result {α : Type} (seconds : Nat) (func : Prog α) (s s' : Process) (r : Except PyExc (Option α × Bool))
    (h : Runs s (catchTimeout seconds func) s' r) :
    (∃ v s1, r = .ok (some v, false) ∧ Runs ⟨.raises, seconds != 0⟩ func s1 (.ok v)) ∨
    (∃ e s1, r = .error e ∧ e ≠ .timeoutError ∧ Runs ⟨.raises, seconds != 0⟩ func s1 (.error e)) ∨
    r = .ok (none, true) := by
  rcases (runs_iff ..).mp h with ⟨s1, r1, h1, _, rfl⟩ | ⟨_, _, rfl⟩ | ⟨_, _, _, rfl⟩
  · rcases r1 with e | v
    · by_cases he : e = .timeoutError
      · subst he; exact .inr (.inr rfl)
      · refine .inr (.inl ⟨e, s1, ?_, he, h1⟩)
        cases e <;> first | rfl | exact absurd rfl he
    · exact .inl ⟨v, s1, rfl, h1⟩
  · exact .inr (.inr rfl)
  · exact .inr (.inr rfl)

/-- C134: a call that is not interrupted can come back: whatever the call does without the alarm ringing is what
`catch_timeout` can report. -/
theorem C134_reports {α : Type} (seconds : Nat) (func : Prog α) (s s1 : Process) (r1 : Except PyExc α)
    (h : Runs ⟨.raises, seconds != 0⟩ func s1 r1) :
    Runs s (catchTimeout seconds func) ⟨s1.handler, false⟩ (report r1) :=
  (runs_iff ..).mpr (.inl ⟨s1, r1, h, rfl, rfl⟩)

/-- A call that neither sets the alarm nor installs the handler -/
def Plain {α : Type} : Prog α → Prop
  | .done _ => True
  | .tick n i => Plain n ∧ Plain i
  | .alarm _ _ => False
  | .install _ => False

/-- What the call does when it is left alone -/
def alone {α : Type} : Prog α → Except PyExc α
  | .done r => r
  | .tick n _ => alone n
  | .alarm _ n => alone n
  | .install n => alone n

theorem alone_runs {α : Type} {p : Prog α} (hp : Plain p) {s s' : Process} {r : Except PyExc α} (hs : s.pending = false) :
    Runs s p s' r ↔ s' = s ∧ r = alone p := by
  induction p generalizing s with
  | done r1 => exact ⟨fun h => by cases h; exact ⟨rfl, rfl⟩, by rintro ⟨rfl, rfl⟩; exact .done _ _⟩
  | tick n i hn _ =>
    constructor
    · intro h
      cases h with
      | go h => exact (hn hp.1 hs).mp h
      | ring h => cases hs
    · intro h
      exact .go ((hn hp.1 hs).mpr h)
  | alarm _ _ _ => exact hp.elim
  | install _ _ => exact hp.elim

/-- C134: zero seconds means no limit: when no alarm was on before, the call is never interrupted, and times out only by
its own `TimeoutError`. -/
theorem C134_zero {α : Type} (func : Prog α) (hp : Plain func) (s s' : Process) (hs : s.pending = false)
    (r : Except PyExc (Option α × Bool)) :
    Runs s (catchTimeout 0 func) s' r ↔ s' = ⟨.raises, false⟩ ∧ r = report (alone func) := by
  rw [runs_iff]
  constructor
  · rintro (⟨s1, r1, h, rfl, rfl⟩ | ⟨h, _⟩ | ⟨r1, h, _⟩)
    · obtain ⟨rfl, rfl⟩ := (alone_runs hp rfl).mp h
      exact ⟨rfl, rfl⟩
    · rw [hs] at h; simp at h
    · have := ((alone_runs hp rfl).mp h).1
      cases this
  · rintro ⟨rfl, rfl⟩
    exact .inl ⟨⟨.raises, false⟩, _, (alone_runs hp rfl).mpr ⟨rfl, rfl⟩, rfl, rfl⟩

/-- C134: a call that has returned may still be reported as a timeout, and its value is lost. -/
theorem C134_value_lost {α : Type} (seconds : Nat) (hs : seconds ≠ 0) (v : α) (s : Process) :
    Runs s (catchTimeout seconds (.done (.ok v))) ⟨.raises, false⟩ (.ok (none, true)) :=
  (runs_iff ..).mpr (.inr (.inr ⟨.ok v, by rw [show (seconds != 0) = true by simpa using hs]; exact .done _ _, rfl, rfl⟩))

/-- C134: the handler which was installed before is not put back. -/
theorem C134_handler {α : Type} (seconds : Nat) (func : Prog α) (hp : Plain func) (s s' : Process)
    (r : Except PyExc (Option α × Bool)) (h : Runs s (catchTimeout seconds func) s' r) : s'.handler = .raises := by
  have key : ∀ (p : Prog α) (a b : Process) (x : Except PyExc α), Plain p → Runs a p b x → a.handler = .raises →
      b.handler = .raises := by
    intro p a b x hp h
    induction h with
    | done => exact id
    | go _ ih => exact ih hp.1
    | ring _ ih => exact fun _ => ih hp.2 rfl
    | alarm => exact hp.elim
    | install => exact hp.elim
  rcases (runs_iff ..).mp h with ⟨s1, r1, h1, rfl, _⟩ | ⟨_, rfl, _⟩ | ⟨_, _, rfl, _⟩
  · exact (key func _ s1 r1 hp h1 rfl :)
  · rfl
  · rfl

/-- C134: time limits do not nest. What a call does after a call with its own limit is not limited any more: it runs to
its end without interruption. -/
theorem C134_nested {α β : Type} (outer inner : Nat) (func : Prog α) (rest : Except PyExc (Option α × Bool) → Prog β)
    (hrest : ∀ x, Plain (rest x)) (s s' : Process) (r : Except PyExc (Option β × Bool))
    (h : Runs s (catchTimeout outer ((catchTimeout inner func).andThen rest)) s' r) :
    ((outer ≠ 0 ∨ s.pending = true) ∧ r = .ok (none, true)) ∨
    ∃ x s1, Runs ⟨.raises, outer != 0⟩ (catchTimeout inner func) s1 x ∧ r = report (alone (rest x)) := by
  rcases (runs_iff ..).mp h with ⟨s1, r1, h0, rfl, rfl⟩ | ⟨h0, _, rfl⟩ | ⟨r1, h0, rfl, rfl⟩
  · obtain ⟨s2, x, h1, h2⟩ := andThen_runs.mp h0
    obtain ⟨rfl, rfl⟩ := (alone_runs (hrest x) (C134_no_alarm_left _ _ _ _ _ h1)).mp h2
    exact .inr ⟨x, _, h1, rfl⟩
  · exact .inl ⟨h0, rfl⟩
  · obtain ⟨s2, x, h1, h2⟩ := andThen_runs.mp h0
    have hn := C134_no_alarm_left _ _ _ _ _ h1
    obtain ⟨rfl, rfl⟩ := (alone_runs (hrest x) hn).mp h2
    cases hn

/-- The hypotheses are met: a call which can be interrupted once and returns 1, with and without an alarm. -/
example : Runs ⟨.other, false⟩ (catchTimeout 3 (.tick (.done (.ok 1)) (.done (.error .timeoutError)))) ⟨.raises, false⟩
    (.ok (some 1, false)) ∧
    Runs ⟨.other, false⟩ (catchTimeout 3 (.tick (.done (.ok 1)) (.done (.error .timeoutError)))) ⟨.raises, false⟩
    (.ok (none, true)) :=
  ⟨C134_reports 3 _ _ ⟨.raises, true⟩ (.ok 1) (.go (.done _ _)),
   C134_reports 3 _ _ ⟨.raises, false⟩ (.error .timeoutError) (.ring (.done _ _))⟩

/-! ### Generators -/

/-- The items of attempts that were given up after the given numbers of items -/
def attempts {α : Type} (xs : List α) (ks : List Nat) : List (Event α) :=
  (ks.map fun k => (xs.take k).map Event.item ++ [.timeout]).flatten

theorem attempts_cons {α : Type} (xs : List α) (k : Nat) (ks : List Nat) :
    attempts xs (k :: ks) = (xs.take k).map Event.item ++ .timeout :: attempts xs ks := by
  simp [attempts]

/-- How the loop ends when the generator does -/
def Status.of : Option PyExc → Status
  | none => .ended
  | some e => .raised e

/-- What `retry` has given when `j` items of an attempt were given before -/
def Fine {α : Type} (xs : List α) (e : Option PyExc) (j : Nat) (r : List (Event α) × Status) : Prop :=
  ∃ (ks : List Nat) (k : Nat), (∀ i ∈ ks, i ≤ xs.length) ∧ k ≤ xs.length ∧
    (xs.take j).map Event.item ++ r.1 = attempts xs ks ++ (xs.take k).map Event.item ∧
    (r.2 = .going ∨ (k = xs.length ∧ e ≠ some .timeoutError ∧ r.2 = .of e))

theorem catch_end {α : Type} {e : Option PyExc} (he : e ≠ some .timeoutError) :
    catchNext ⟨([] : List α), e⟩ .no = (.error e, ⟨[], none⟩) := by
  rcases e with _ | e
  · rfl
  · cases e <;> first | rfl | exact absurd rfl he

theorem retry_gen {α : Type} (xs : List α) (e : Option PyExc) (j : Nat) (hj : j ≤ xs.length) (rings : List Ring) :
    Fine xs e j (retry ⟨xs, e⟩ ⟨xs.drop j, e⟩ rings) := by
  induction rings generalizing j with
  | nil => exact ⟨[], j, by simp, hj, by simp [retry, attempts], .inl rfl⟩
  | cons ring rings ih =>
    have out : ∀ it', catchNext ⟨xs.drop j, e⟩ ring = (.ok none, it') →
        Fine xs e j (retry ⟨xs, e⟩ ⟨xs.drop j, e⟩ (ring :: rings)) := by
      intro it' h
      obtain ⟨ks, k, h1, h2, h3, h4⟩ := ih 0 (Nat.zero_le _)
      refine ⟨j :: ks, k, ?_, h2, ?_, ?_⟩
      · intro i hi
        rcases List.mem_cons.mp hi with rfl | hi
        · exact hj
        · exact h1 i hi
      · rw [attempts_cons, retry, h]
        simp only [List.take_zero, List.map_nil, List.nil_append, List.drop_zero] at h3
        simp only [List.append_assoc, List.cons_append, ← h3]
      · rw [retry, h]
        simpa using h4
    rcases ring with _ | _ | _
    · rcases Nat.lt_or_ge j xs.length with hlt | hge
      · have hx := List.drop_eq_getElem_cons hlt
        obtain ⟨ks, k, h1, h2, h3, h4⟩ := ih (j + 1) hlt
        have hr : retry ⟨xs, e⟩ ⟨xs.drop j, e⟩ (.no :: rings) =
            (.item xs[j] :: (retry ⟨xs, e⟩ ⟨xs.drop (j + 1), e⟩ rings).1, (retry ⟨xs, e⟩ ⟨xs.drop (j + 1), e⟩ rings).2) := by
          rw [hx]
          rfl
        refine ⟨ks, k, h1, h2, ?_, ?_⟩
        · rw [← h3, List.take_succ_eq_append_getElem hlt, List.map_append, List.append_assoc, hr]
          rfl
        · rw [hr]
          exact h4
      · have hl : j = xs.length := Nat.le_antisymm hj hge
        have hd : xs.drop j = [] := List.drop_of_length_le hge
        by_cases he : e = some .timeoutError
        · subst he
          exact out _ (by rw [hd]; rfl)
        · have hr : retry ⟨xs, e⟩ ⟨xs.drop j, e⟩ (.no :: rings) = ([], .of e) := by
            rw [hd, retry, catch_end he]
            cases e <;> rfl
          exact ⟨[], j, by simp, hj, by simp [hr, attempts], .inr ⟨hl, he, by rw [hr]⟩⟩
    · exact out _ rfl
    · exact out _ rfl

/-- C134: `retry_on_timeout` gives whole beginnings of the generator, each ended by a timeout and followed by one from
its first item on: items given before a timeout are given again. It ends only after a beginning which is the whole
generator, and then as the generator does; a generator that ends with `TimeoutError` is retried for ever. -/
theorem C134_retry {α : Type} (xs : List α) (e : Option PyExc) (rings : List Ring) :
    ∃ (ks : List Nat) (k : Nat), (∀ i ∈ ks, i ≤ xs.length) ∧ k ≤ xs.length ∧
      (retry ⟨xs, e⟩ ⟨xs, e⟩ rings).1 = attempts xs ks ++ (xs.take k).map Event.item ∧
      ((retry ⟨xs, e⟩ ⟨xs, e⟩ rings).2 = .going ∨
        (k = xs.length ∧ e ≠ some .timeoutError ∧ (retry ⟨xs, e⟩ ⟨xs, e⟩ rings).2 = .of e)) := by
  obtain ⟨ks, k, h1, h2, h3, h4⟩ := retry_gen xs e 0 (Nat.zero_le _) rings
  exact ⟨ks, k, h1, h2, by simpa using h3, h4⟩

theorem retry_quiet {α : Type} (gen : Yielded α) (xs : List α) (e : Option PyExc) (rings : List Ring) (k : Nat)
    (hk : k ≤ xs.length) :
    retry gen ⟨xs, e⟩ (List.replicate k .no ++ rings) =
      ((xs.take k).map Event.item ++ (retry gen ⟨xs.drop k, e⟩ rings).1, (retry gen ⟨xs.drop k, e⟩ rings).2) := by
  induction k generalizing xs with
  | zero => simp
  | succ k ih =>
    rcases xs with _ | ⟨x, xs⟩
    · simp at hk
    · have := ih xs (by simpa using hk)
      rw [List.replicate_succ, List.cons_append, retry]
      simp only [catchNext, next, List.take_succ_cons, List.drop_succ_cons, List.map_cons, List.cons_append, this]

/-- C134: each of these happens: for every sequence of beginnings there are moments for the alarm to ring. -/
theorem C134_retry_all {α : Type} (xs : List α) (e : Option PyExc) (he : e ≠ some .timeoutError) (ks : List Nat)
    (hks : ∀ i ∈ ks, i ≤ xs.length) :
    ∃ rings, retry ⟨xs, e⟩ ⟨xs, e⟩ rings = (attempts xs ks ++ xs.map Event.item, .of e) := by
  induction ks with
  | nil =>
    refine ⟨List.replicate xs.length .no ++ [.no], ?_⟩
    rw [retry_quiet _ _ _ _ _ (Nat.le_refl _)]
    cases e <;> simp [retry, catch_end he, attempts, Status.of]
  | cons k ks ih =>
    obtain ⟨rings, h⟩ := ih (fun i hi => hks i (List.mem_cons_of_mem _ hi))
    refine ⟨List.replicate k .no ++ .inside :: rings, ?_⟩
    rw [retry_quiet _ _ _ _ _ (hks k List.mem_cons_self), attempts_cons, retry]
    simp only [catchNext, h, List.append_assoc, List.cons_append]

/-- C134: `skip_on_timeout` gives the items at which the alarm did not ring, in order, up to the first at which it rang
while the generator was working. -/
theorem C134_skip {α : Type} (xs : List α) (e : Option PyExc) (rings : List Ring) :
    (skip ⟨xs, e⟩ rings).1 = ((xs.zip (rings.takeWhile (· ≠ .inside))).filter (fun p => p.2 = .no)).map Prod.fst := by
  have empty : ∀ (rings : List Ring) (e : Option PyExc), (skip ⟨([] : List α), e⟩ rings).1 = [] := by
    intro rings
    induction rings with
    | nil => intro e; rfl
    | cons ring rings ih =>
      intro e
      rcases ring with _ | _ | _
      · by_cases he : e = some .timeoutError
        · subst he
          exact ih none
        · rw [skip, catch_end he]
          cases e <;> rfl
      · exact ih none
      · exact ih none
  induction rings generalizing xs with
  | nil => simp [skip]
  | cons ring rings ih =>
    rcases xs with _ | ⟨x, xs⟩
    · rw [empty]; rfl
    · rcases ring with _ | _ | _
      · simp [skip, catchNext, next, ih]
      · simp [skip, catchNext, empty]
      · simp [skip, catchNext, next, ih]

/-- C134: a timeout while the generator is working is not skipped: from then on there are no more items, and the loop
ends without an exception at the next moment the alarm does not ring. -/
theorem C134_skip_ends {α : Type} (g : Yielded α) (rings : List Ring) :
    skip g (.inside :: rings) = ([], if .no ∈ rings then .ended else .going) := by
  have key : ∀ rings, skip ⟨([] : List α), none⟩ rings = ([], if .no ∈ rings then .ended else .going) := by
    intro rings
    induction rings with
    | nil => rfl
    | cons ring rings ih =>
      rcases ring with _ | _ | _
      · simp [skip, catchNext, next]
      · simp [skip, catchNext, ih]
      · simp [skip, catchNext, next, ih]
  exact key rings

/-- C134: without a timeout the generator comes through unchanged. -/
theorem C134_skip_quiet {α : Type} (xs : List α) (e : Option PyExc) (he : e ≠ some .timeoutError) (n : Nat) :
    skip ⟨xs, e⟩ (List.replicate n .no) = (xs.take n, if n ≤ xs.length then .going else .of e) := by
  induction n generalizing xs with
  | zero => simp [skip]
  | succ n ih =>
    rcases xs with _ | ⟨x, xs⟩
    · cases e <;> simp [List.replicate_succ, skip, catch_end he, Status.of]
    · simp [List.replicate_succ, skip, catchNext, next, ih]

/-- The loops on the items 1, 2, 3 with a timeout at the second: `retry` starts again, `skip` ends. -/
example : (retry ⟨[1, 2, 3], none⟩ ⟨[1, 2, 3], none⟩ [.no, .inside, .no, .no, .no, .no]) =
      ([.item 1, .timeout, .item 1, .item 2, .item 3], .ended) ∧
    (skip ⟨[1, 2, 3], none⟩ [.no, .inside, .no, .no]) = ([1], .ended) ∧
    (skip ⟨[1, 2, 3], none⟩ [.no, .after, .no, .no]) = ([1, 3], .ended) := by
  decide

/-- C134: one moment of the loops is a run of `catch_timeout`: whatever `catchNext` gives for a generator is what
`catch_timeout` gives for a call that does what `next` does, when the alarm is on. -/
theorem C134_moment {α : Type} (g : Yielded α) (ring : Ring) (s : Process) (seconds : Nat) (hs : seconds ≠ 0)
    (call : Prog α) (hcall : call = .tick (.done (match (next g).1 with
      | .inr x => .ok x
      | .inl e => .error (e.getD .indexError))) (.done (.error .timeoutError))) (x : Option α)
    (h : (catchNext g ring).1 = .ok x) :
    Runs s (catchTimeout seconds call) ⟨.raises, false⟩ (.ok (x, x.isNone)) := by
  subst hcall
  have hb : (seconds != 0) = true := by simpa using hs
  rcases ring with _ | _ | _
  · rcases x with _ | x
    · exact (runs_iff ..).mpr (.inr (.inl ⟨.inl hs, rfl, rfl⟩))
    · have hx : (next g).1 = .inr x := by
        unfold catchNext at h
        simp only at h
        split at h
        · rename_i heq; rw [heq]; cases h; rfl
        · cases h
        · cases h
      rw [hx]
      refine C134_reports seconds _ s ⟨.raises, true⟩ (.ok x) ?_
      rw [hb]
      exact .go (.done _ _)
  · cases h
    exact (runs_iff ..).mpr (.inr (.inl ⟨.inl hs, rfl, rfl⟩))
  · cases h
    exact (runs_iff ..).mpr (.inr (.inl ⟨.inl hs, rfl, rfl⟩))

/-- C134: `conditional_try` without catching is the call. With it, it gives the value of the call, or the value for
exceptions; only `KeyboardInterrupt` goes on. -/
theorem C134_conditional {α : Type} (f : Except PyExc α) (d : α) :
    conditionalTry false f d = f ∧
    (∀ v, f = .ok v → conditionalTry true f d = .ok v) ∧
    (∀ e, f = .error e → conditionalTry true f d = if e = .keyboardInterrupt then .error e else .ok d) := by
  refine ⟨rfl, ?_, ?_⟩
  · rintro v rfl; rfl
  · rintro e rfl
    cases e <;> rfl

end Verif.Catches
