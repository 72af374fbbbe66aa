import Verif.Spec.PyListener
/-!
# C137: the Python listener
-/
namespace Verif.PyListener

variable {μ : Type}

/-- The places between taking the lock and giving it back -/
def Pc.inside : Pc μ → Bool
  | .cbWrite _ | .cbTest _ | .innerLock | .cbUnlock | .getRead _ | .getUnlock => true
  | _ => false

theorem received_snoc (h : List (Event μ)) (e : Event μ) : receivedOf (h ++ [e]) = receivedOf h ++ receivedOf [e] := by
  induction h with
  | nil => rfl
  | cons x h ih => cases x <;> simp [receivedOf, ih]

theorem handed_snoc (h : List (Event μ)) (e : Event μ) : handedOf (h ++ [e]) = handedOf h ++ handedOf [e] := by
  induction h with
  | nil => rfl
  | cons x h ih => cases x <;> simp [handedOf, ih]

theorem failed_snoc (h : List (Event μ)) (e : Event μ) : failedOf (h ++ [e]) = failedOf h ++ failedOf [e] := by
  induction h with
  | nil => rfl
  | cons x h ih => cases x <;> simp [failedOf, ih]

/-- What must hold of an event after the events before it -/
def Fine (pre : List (Event μ)) : Event μ → Prop
  | .returns b v => v = (receivedOf pre).getLast? ∧ (b = true → v = none → Event.shutdown ∈ pre)
  | .failed _ => Event.assigned ∉ pre
  | .handed _ => Event.assigned ∈ pre
  | _ => True

def AllFine (h : List (Event μ)) : Prop := ∀ pre e post, h = pre ++ e :: post → Fine pre e

theorem AllFine.snoc {h : List (Event μ)} {e : Event μ} (hf : AllFine h) (he : Fine h e) : AllFine (h ++ [e]) := by
  intro pre x post hx
  rcases List.eq_nil_or_concat post with rfl | ⟨post', y, rfl⟩
  · have := List.append_inj' hx (by simp)
    obtain ⟨rfl, h2⟩ := this
    cases h2
    exact he
  · rw [List.concat_eq_append, ← List.cons_append, ← List.append_assoc] at hx
    exact hf pre x post' (List.append_inj' hx rfl).1

/-- The thread that holds the lock is the one between taking it and giving it back -/
def Held (holder : Option Nat) (threads : Nat → Option (Pc μ)) : Prop :=
  ∀ t, (∃ pc, threads t = some pc ∧ pc.inside = true) ↔ holder = some t

theorem Held.same {holder : Option Nat} {threads : Nat → Option (Pc μ)} (h : Held holder threads) {t : Nat} {pc' : Option (Pc μ)}
    (hs : (∃ pc, pc' = some pc ∧ pc.inside = true) ↔ ∃ pc, threads t = some pc ∧ pc.inside = true) :
    Held holder fun u => if u = t then pc' else threads u := by
  intro u
  by_cases hu : u = t
  · subst hu; simp only [if_true]; exact hs.trans (h u)
  · simp only [if_neg hu]; exact h u

theorem Held.lock {threads : Nat → Option (Pc μ)} (h : Held none threads) {t : Nat} {pc : Pc μ} (hp : pc.inside = true) :
    Held (some t) fun u => if u = t then some pc else threads u := by
  intro u
  by_cases hu : u = t
  · subst hu; simp [hp]
  · simp only [if_neg hu, Option.some.injEq, Ne.symm hu, iff_false]
    intro h'
    cases (h u).mp h'

theorem Held.unlock {holder : Option Nat} {threads : Nat → Option (Pc μ)} (h : Held holder threads) {t : Nat} {pc : Pc μ}
    (ht : threads t = some pc) (hp : pc.inside = true) : Held none fun u => if u = t then none else threads u := by
  intro u
  by_cases hu : u = t
  · subst hu; simp
  · simp only [if_neg hu, reduceCtorEq, iff_false]
    intro h'
    have h1 := (h u).mp h'
    rw [(h t).mp ⟨pc, ht, hp⟩] at h1
    exact hu (Option.some.inj h1).symm

/-- What holds at every moment -/
structure Inv (c : Custom) (s : State μ) : Prop where
  held : Held s.holder s.threads
  data : s.data = (receivedOf s.history).getLast?
  assigned : s.assigned = true ↔ Event.assigned ∈ s.history
  down : s.down = true ↔ Event.shutdown ∈ s.history
  waited : ∀ t, s.threads t = some (.getLock true) ∨ s.threads t = some (.getRead true) → s.data ≠ none ∨ s.down = true
  early : s.assigned = false → handedOf s.history = []
  rest : c ≠ .none → (∀ t m, s.threads t ≠ some (.cbTest m)) →
    receivedOf s.history = failedOf s.history ++ handedOf s.history
  testing : ∀ t m, s.threads t = some (.cbTest m) → c ≠ .none →
    receivedOf s.history = failedOf s.history ++ handedOf s.history ++ [m]
  silent : c = .none → handedOf s.history = []
  deep : ∀ t, s.threads t = some .innerLock → c = .callsGet
  fine : AllFine s.history

theorem inv_start (c : Custom) : Inv c (start : State μ) := by
  refine ⟨?_, rfl, ?_, ?_, ?_, fun _ => rfl, fun _ _ => rfl, ?_, fun _ => rfl, ?_, ?_⟩
  · exact fun t => ⟨fun ⟨_, h, _⟩ => (by cases h), fun h => (by cases h)⟩
  · exact ⟨fun h => (by cases h), fun h => (by cases h)⟩
  · exact ⟨fun h => (by cases h), fun h => (by cases h)⟩
  · rintro t (h | h) <;> cases h
  · intro t m h; cases h
  · intro t h; cases h
  · intro pre e post h
    rcases pre with _ | ⟨x, pre⟩ <;> cases h

/-- Only one thread is between taking the lock and giving it back -/
theorem Held.unique {holder : Option Nat} {threads : Nat → Option (Pc μ)} (h : Held holder threads) {t u : Nat} {p q : Pc μ}
    (ht : threads t = some p) (hu : threads u = some q) (hp : p.inside = true) (hq : q.inside = true) : t = u := by
  have h1 := (h t).mp ⟨p, ht, hp⟩
  rw [(h u).mp ⟨q, hu, hq⟩] at h1
  exact (Option.some.inj h1).symm

/-- A step that changes only where a thread is and who holds the lock -/
theorem Inv.goto {c : Custom} {s : State μ} (h : Inv c s) {t : Nat} {pc' : Option (Pc μ)} {holder : Option Nat}
    (hold : ∀ m, s.threads t ≠ some (.cbTest m)) (hnew : ∀ m, pc' ≠ some (.cbTest m)) (hdeep : pc' ≠ some .innerLock)
    (hw : pc' = some (.getLock true) ∨ pc' = some (.getRead true) → s.data ≠ none ∨ s.down = true)
    (hh : Held holder fun u => if u = t then pc' else s.threads u) : Inv c ({ s with holder := holder }.goto t pc') := by
  refine ⟨hh, h.data, h.assigned, h.down, ?_, h.early, ?_, ?_, h.silent, ?_, h.fine⟩
  · intro u hu
    simp only [State.goto] at hu
    by_cases e : u = t
    · simp only [if_pos e] at hu; exact hw hu
    · simp only [if_neg e] at hu; exact h.waited u hu
  · intro hc hn
    refine h.rest hc fun u m hu => ?_
    by_cases e : u = t
    · subst e; exact hold m hu
    · refine hn u m ?_
      simp only [State.goto, if_neg e]; exact hu
  · intro u m hu hc
    simp only [State.goto] at hu
    by_cases e : u = t
    · rw [if_pos e] at hu; exact absurd hu (hnew m)
    · rw [if_neg e] at hu; exact h.testing u m hu hc
  · intro u hu
    simp only [State.goto] at hu
    by_cases e : u = t
    · rw [if_pos e] at hu; exact absurd hu hdeep
    · rw [if_neg e] at hu; exact h.deep u hu

theorem not_testing {c : Custom} {s : State μ} (h : Inv c s) {t : Nat} {p : Pc μ} (ht : s.threads t = some p)
    (hp : p.inside = true) (hn : ∀ m, p ≠ .cbTest m) : ∀ u m, s.threads u ≠ some (.cbTest m) := by
  intro u m hu
  have := h.held.unique ht hu hp rfl
  subst this
  rw [ht] at hu
  cases hu
  exact hn m rfl

/-- The step after the test of the attribute -/
theorem Inv.tested {c : Custom} {s : State μ} (h : Inv c s) {t : Nat} {m : μ} (ht : s.threads t = some (.cbTest m))
    {e : Event μ} {pc' : Pc μ} (hp : pc' = .cbUnlock ∨ (pc' = .innerLock ∧ c = .callsGet))
    (he : (e = .quiet m ∧ c = .none) ∨ (e = .handed m ∧ c ≠ .none ∧ s.assigned = true) ∨
      (e = .failed m ∧ s.assigned = false)) : Inv c ((s.emit e).goto t (some pc')) := by
  have hin : pc'.inside = true := by rcases hp with rfl | ⟨rfl, -⟩ <;> rfl
  have hnt : ∀ m, pc' ≠ .cbTest m := by rcases hp with rfl | ⟨rfl, -⟩ <;> intro m h <;> cases h
  have hrec : receivedOf (s.history ++ [e]) = receivedOf s.history := by
    rw [received_snoc]
    rcases he with ⟨rfl, -⟩ | ⟨rfl, -⟩ | ⟨rfl, -⟩ <;> simp [receivedOf]
  have hbal : c ≠ .none → receivedOf (s.history ++ [e]) = failedOf (s.history ++ [e]) ++ handedOf (s.history ++ [e]) := by
    intro hc
    rw [hrec, failed_snoc, handed_snoc, h.testing t m ht hc]
    rcases he with ⟨-, h1⟩ | ⟨rfl, -⟩ | ⟨rfl, h1⟩
    · exact absurd h1 hc
    · simp [failedOf, handedOf]
    · simp [failedOf, handedOf, h.early h1]
  have other : ∀ u m', (fun u => if u = t then some pc' else s.threads u) u ≠ some (.cbTest m') := by
    intro u m' hu
    simp only at hu
    by_cases e : u = t
    · rw [if_pos e] at hu; exact hnt m' (Option.some.inj hu)
    · rw [if_neg e] at hu
      exact e (h.held.unique hu ht rfl rfl)
  refine ⟨?_, ?_, ?_, ?_, ?_, ?_, fun hc _ => hbal hc, ?_, ?_, ?_, ?_⟩
  · exact h.held.same (by rw [ht]; exact ⟨fun _ => ⟨_, rfl, rfl⟩, fun _ => ⟨_, rfl, hin⟩⟩)
  · show s.data = _; rw [h.data]; exact congrArg List.getLast? hrec.symm
  · refine h.assigned.trans ?_
    rcases he with ⟨rfl, -⟩ | ⟨rfl, -⟩ | ⟨rfl, -⟩ <;> simp [State.emit, State.goto]
  · refine h.down.trans ?_
    rcases he with ⟨rfl, -⟩ | ⟨rfl, -⟩ | ⟨rfl, -⟩ <;> simp [State.emit, State.goto]
  · intro u hu
    simp only [State.goto, State.emit] at hu
    by_cases e : u = t
    · simp only [if_pos e, Option.some.injEq] at hu
      rcases hp with rfl | ⟨rfl, -⟩ <;> rcases hu with hu | hu <;> cases hu
    · simp only [if_neg e] at hu; exact h.waited u hu
  · intro ha
    show handedOf (s.history ++ [e]) = []
    have ha' : s.assigned = false := ha
    rw [handed_snoc, h.early ha']
    rcases he with ⟨rfl, -⟩ | ⟨rfl, -, h1⟩ | ⟨rfl, -⟩
    · rfl
    · rw [h1] at ha'; cases ha'
    · rfl
  · intro u m' hu
    exact absurd hu (other u m')
  · intro hc
    show handedOf (s.history ++ [e]) = []
    rw [handed_snoc, h.silent hc]
    rcases he with ⟨rfl, -⟩ | ⟨rfl, h1, -⟩ | ⟨rfl, -⟩
    · rfl
    · exact absurd hc h1
    · rfl
  · intro u hu
    simp only [State.goto, State.emit] at hu
    by_cases e : u = t
    · rw [if_pos e] at hu
      rcases hp with rfl | ⟨rfl, h1⟩
      · cases hu
      · exact h1
    · rw [if_neg e] at hu; exact h.deep u hu
  · refine h.fine.snoc ?_
    rcases he with ⟨rfl, -⟩ | ⟨rfl, -, h1⟩ | ⟨rfl, h1⟩
    · trivial
    · exact h.assigned.mp h1
    · intro h2
      rw [h.assigned.mpr h2] at h1
      cases h1

theorem Inv.step {c : Custom} {s s' : State μ} (h : Inv c s) {t : Nat} {pc : Pc μ} (ht : s.threads t = some pc)
    (hs : stepAt c s t pc = some s') : Inv c s' := by
  rcases pc with m | m | m | _ | _ | b | b | b | _
  · -- cbLock
    simp only [stepAt] at hs
    split at hs
    · rename_i hh
      cases hs
      refine h.goto (fun _ e => by rw [ht] at e; cases e) (fun _ e => by cases e) (fun e => by cases e) ?_ ?_
      · rintro (e | e) <;> cases e
      · exact Held.lock (hh ▸ h.held) rfl
    · cases hs
  · -- cbWrite
    simp only [stepAt] at hs
    cases hs
    have hn := not_testing h ht rfl (fun m e => by cases e)
    refine ⟨?_, ?_, ?_, ?_, ?_, ?_, ?_, ?_, ?_, ?_, ?_⟩
    · exact h.held.same (by rw [ht]; simp [Pc.inside])
    · show some m = (receivedOf (s.history ++ [.received m])).getLast?
      rw [received_snoc]; simp [receivedOf]
    · refine h.assigned.trans ?_; simp [State.emit, State.goto]
    · refine h.down.trans ?_; simp [State.emit, State.goto]
    · exact fun _ _ => .inl (by simp [State.emit, State.goto])
    · intro ha
      show handedOf (s.history ++ [.received m]) = []
      rw [handed_snoc, h.early ha]; rfl
    · intro hc hno
      exact absurd (by simp [State.goto]) (hno t m)
    · intro u m' hu hc
      simp only [State.goto, State.emit] at hu
      by_cases e : u = t
      · rw [if_pos e] at hu
        cases hu
        show receivedOf (s.history ++ [_]) = failedOf (s.history ++ [_]) ++ handedOf (s.history ++ [_]) ++ _
        rw [received_snoc, failed_snoc, handed_snoc, h.rest hc hn]
        simp [receivedOf, failedOf, handedOf]
      · rw [if_neg e] at hu
        exact absurd hu (hn u m')
    · intro hc
      show handedOf (s.history ++ [.received m]) = []
      rw [handed_snoc, h.silent hc]; rfl
    · intro u hu
      simp only [State.goto, State.emit] at hu
      by_cases e : u = t
      · rw [if_pos e] at hu; cases hu
      · rw [if_neg e] at hu; exact h.deep u hu
    · exact h.fine.snoc trivial
  · -- cbTest
    simp only [stepAt] at hs
    split at hs
    · rename_i ha
      rcases c with _ | _ | _ <;> cases hs
      · exact h.tested ht (.inl rfl) (.inl ⟨rfl, rfl⟩)
      · exact h.tested ht (.inl rfl) (.inr (.inl ⟨rfl, by decide, ha⟩))
      · exact h.tested ht (.inr ⟨rfl, rfl⟩) (.inr (.inl ⟨rfl, by decide, ha⟩))
    · rename_i ha
      cases hs
      exact h.tested ht (.inl rfl) (.inr (.inr ⟨rfl, by simpa using ha⟩))
  · -- innerLock
    simp only [stepAt] at hs
    rw [(h.held t).mp ⟨_, ht, rfl⟩] at hs
    cases hs
  · -- cbUnlock
    simp only [stepAt] at hs
    cases hs
    refine h.goto (fun _ e => by rw [ht] at e; cases e) (fun _ e => by cases e) (fun e => by cases e) ?_ ?_
    · rintro (e | e) <;> cases e
    · exact h.held.unlock ht rfl
  · -- getWait
    simp only [stepAt] at hs
    split at hs
    · rename_i hc
      cases hs
      refine h.goto (holder := s.holder) (fun _ e => by rw [ht] at e; cases e) (fun _ e => by cases e) (fun e => by cases e) ?_ ?_
      · rintro (e | e)
        · cases e
          rcases hd : s.data with _ | d
          · rw [hd] at hc; simpa using hc
          · exact .inl (by simp)
        · cases e
      · exact h.held.same (by rw [ht]; simp [Pc.inside])
    · cases hs
  · -- getLock
    simp only [stepAt] at hs
    split at hs
    · rename_i hh
      cases hs
      refine h.goto (fun _ e => by rw [ht] at e; cases e) (fun _ e => by cases e) (fun e => by cases e) ?_ ?_
      · rintro (e | e)
        · cases e
        · cases e
          exact h.waited t (.inl ht)
      · exact Held.lock (hh ▸ h.held) rfl
    · cases hs
  · -- getRead
    simp only [stepAt] at hs
    cases hs
    have hn := not_testing h ht rfl (fun m e => by cases e)
    have hrec : receivedOf (s.history ++ [.returns b s.data]) = receivedOf s.history := by
      rw [received_snoc]; simp [receivedOf]
    refine ⟨?_, ?_, ?_, ?_, ?_, ?_, ?_, ?_, ?_, ?_, ?_⟩
    · exact h.held.same (by rw [ht]; simp [Pc.inside])
    · show s.data = _; rw [h.data, ← h.data]; exact h.data.trans (congrArg List.getLast? hrec.symm)
    · refine h.assigned.trans ?_; simp [State.emit, State.goto]
    · refine h.down.trans ?_; simp [State.emit, State.goto]
    · intro u hu
      simp only [State.goto, State.emit] at hu
      by_cases e : u = t
      · simp only [if_pos e] at hu
        rcases hu with hu | hu <;> cases hu
      · simp only [if_neg e] at hu; exact h.waited u hu
    · intro ha
      show handedOf (s.history ++ [_]) = []
      rw [handed_snoc, h.early ha]; rfl
    · intro hc _
      show receivedOf (s.history ++ [_]) = failedOf (s.history ++ [_]) ++ handedOf (s.history ++ [_])
      rw [received_snoc, failed_snoc, handed_snoc, h.rest hc hn]
      simp [receivedOf, failedOf, handedOf]
    · intro u m' hu hc
      simp only [State.goto, State.emit] at hu
      by_cases e : u = t
      · rw [if_pos e] at hu; cases hu
      · rw [if_neg e] at hu; exact absurd hu (hn u m')
    · intro hc
      show handedOf (s.history ++ [_]) = []
      rw [handed_snoc, h.silent hc]; rfl
    · intro u hu
      simp only [State.goto, State.emit] at hu
      by_cases e : u = t
      · rw [if_pos e] at hu; cases hu
      · rw [if_neg e] at hu; exact h.deep u hu
    · refine h.fine.snoc ⟨h.data, ?_⟩
      rintro rfl hd
      rcases h.waited t (.inr ht) with h1 | h1
      · exact absurd hd h1
      · exact h.down.mp h1
  · -- getUnlock
    simp only [stepAt] at hs
    cases hs
    refine h.goto (fun _ e => by rw [ht] at e; cases e) (fun _ e => by cases e) (fun e => by cases e) ?_ ?_
    · rintro (e | e) <;> cases e
    · exact h.held.unlock ht rfl

theorem Inv.move {c : Custom} {s s' : State μ} (h : Inv c s) (m : Move μ) (hs : move c s m = some s') : Inv c s' := by
  rcases m with ⟨t, m⟩ | ⟨t, b⟩ | t | _ | _
  · simp only [PyListener.move] at hs
    split at hs
    · rename_i ht
      cases hs
      refine h.goto (holder := s.holder) (fun _ e => by rw [ht] at e; cases e) (fun _ e => by cases e) (fun e => by cases e) ?_ ?_
      · rintro (e | e) <;> cases e
      · exact h.held.same (by rw [ht]; simp [Pc.inside])
    · cases hs
  · simp only [PyListener.move] at hs
    split at hs
    · rename_i ht
      cases hs
      refine h.goto (holder := s.holder) (fun _ e => by rw [ht] at e; cases e) (fun _ e => by cases e) (fun e => by cases e) ?_ ?_
      · rintro (e | e) <;> cases e
      · exact h.held.same (by rw [ht]; simp [Pc.inside])
    · cases hs
  · simp only [PyListener.move] at hs
    split at hs
    · rename_i pc ht
      exact h.step ht hs
    · cases hs
  · simp only [PyListener.move] at hs
    split at hs
    · cases hs
    · rename_i ha
      cases hs
      have hrec : receivedOf (s.history ++ [Event.assigned]) = receivedOf s.history := by
        rw [received_snoc]; simp [receivedOf]
      have hhan : handedOf (s.history ++ [Event.assigned]) = handedOf s.history := by
        rw [handed_snoc]; simp [handedOf]
      have hfai : failedOf (s.history ++ [Event.assigned]) = failedOf s.history := by
        rw [failed_snoc]; simp [failedOf]
      refine ⟨h.held, ?_, ?_, ?_, h.waited, ?_, ?_, ?_, ?_, h.deep, h.fine.snoc trivial⟩
      · exact h.data.trans (congrArg List.getLast? hrec.symm)
      · simp [State.emit]
      · refine h.down.trans ?_; simp [State.emit]
      · intro e; cases e
      · intro hc hn; exact (hrec.trans (h.rest hc hn)).trans (by rw [← hhan, ← hfai]; rfl)
      · intro u m hu hc; exact (hrec.trans (h.testing u m hu hc)).trans (by rw [← hhan, ← hfai]; rfl)
      · intro hc; exact hhan.trans (h.silent hc)
  · simp only [PyListener.move] at hs
    cases hs
    have hrec : receivedOf (s.history ++ [Event.shutdown]) = receivedOf s.history := by
      rw [received_snoc]; simp [receivedOf]
    have hhan : handedOf (s.history ++ [Event.shutdown]) = handedOf s.history := by
      rw [handed_snoc]; simp [handedOf]
    have hfai : failedOf (s.history ++ [Event.shutdown]) = failedOf s.history := by
      rw [failed_snoc]; simp [failedOf]
    refine ⟨h.held, ?_, ?_, ?_, fun _ _ => .inr rfl, ?_, ?_, ?_, ?_, h.deep, h.fine.snoc trivial⟩
    · exact h.data.trans (congrArg List.getLast? hrec.symm)
    · refine h.assigned.trans ?_; simp [State.emit]
    · simp [State.emit]
    · intro e; exact hhan.trans (h.early e)
    · intro hc hn; exact (hrec.trans (h.rest hc hn)).trans (by rw [← hhan, ← hfai]; rfl)
    · intro u m hu hc; exact (hrec.trans (h.testing u m hu hc)).trans (by rw [← hhan, ← hfai]; rfl)
    · intro hc; exact hhan.trans (h.silent hc)

theorem Inv.run {c : Custom} (moves : List (Move μ)) {s s' : State μ} (h : Inv c s) (hr : run c s moves = some s') :
    Inv c s' := by
  induction moves generalizing s with
  | nil => cases hr; exact h
  | cons m ms ih =>
    rw [PyListener.run] at hr
    split at hr
    · rename_i hm
      exact ih (h.move m hm) hr
    · cases hr

/-! ## C137 -/

/-- A call of `get` returns the message last received at a moment of the call, and nothing only if none was received; one
that is to wait for a message returns nothing only after ROS was shut down -/
theorem C137_get (c : Custom) (moves : List (Move μ)) (s : State μ) (hr : run c start moves = some s)
    (pre post : List (Event μ)) (block : Bool) (v : Option μ) (h : s.history = pre ++ .returns block v :: post) :
    v = (receivedOf pre).getLast? ∧ (block = true → v = none → Event.shutdown ∈ pre) :=
  (Inv.run moves (inv_start c) hr).fine pre _ post h

/-- The moment a call of `get` reads the message is between its beginning and its end: the value it returns is that of the
listener when it holds the lock -/
theorem C137_get_moment (c : Custom) (moves : List (Move μ)) (s s' : State μ) (hr : run c start moves = some s)
    (mv : Move μ) (hm : move c s mv = some s') (block : Bool) (v : Option μ)
    (h : s'.history = s.history ++ [.returns block v]) :
    ∃ t, mv = .step t ∧ s.threads t = some (.getRead block) ∧ s.holder = some t ∧ v = s.data := by
  have inv := Inv.run moves (inv_start c) hr
  have new : ∀ e : Event μ, s.history ++ [e] = s.history ++ [.returns block v] → e = .returns block v := by
    intro e he
    simpa using he
  have old : s.history = s.history ++ [.returns block v] → False := by
    intro he
    have := congrArg List.length he
    simp at this
  rcases mv with ⟨t, m⟩ | ⟨t, b⟩ | t | _ | _ <;> simp only [move] at hm
  · split at hm
    · cases hm; exact (old h).elim
    · cases hm
  · split at hm
    · cases hm; exact (old h).elim
    · cases hm
  · split at hm
    · rename_i pc ht
      rcases pc with m | m | m | _ | _ | b | b | b | _ <;> simp only [stepAt] at hm
      · split at hm <;> cases hm
        exact (old h).elim
      · cases hm; cases new _ h
      · split at hm
        · rcases c with _ | _ | _ <;> cases hm <;> cases new _ h
        · cases hm; cases new _ h
      · split at hm <;> cases hm
        exact (old h).elim
      · cases hm; exact (old h).elim
      · split at hm <;> cases hm
        exact (old h).elim
      · split at hm <;> cases hm
        exact (old h).elim
      · cases hm
        cases new _ h
        exact ⟨t, rfl, ht, (inv.held t).mp ⟨_, ht, rfl⟩, rfl⟩
      · cases hm; exact (old h).elim
    · cases hm
  · split at hm
    · cases hm
    · cases hm; cases new _ h
  · cases hm; cases new _ h

/-- Whenever the lock is free, each message received has been handed to the user's callback, once and in the order of
receiving, but for the first ones, for which `callback` raised -/
theorem C137_handed (c : Custom) (hc : c ≠ .none) (moves : List (Move μ)) (s : State μ) (hr : run c start moves = some s)
    (hh : s.holder = none) : receivedOf s.history = failedOf s.history ++ handedOf s.history := by
  have inv := Inv.run moves (inv_start c) hr
  refine inv.rest hc fun t m ht => ?_
  have := (inv.held t).mp ⟨_, ht, rfl⟩
  rw [hh] at this
  cases this

/-- `callback` raises only before the constructor has kept the user's callback, and the user's callback is called only
after -/
theorem C137_failed (c : Custom) (moves : List (Move μ)) (s : State μ) (hr : run c start moves = some s)
    (pre post : List (Event μ)) (m : μ) :
    (s.history = pre ++ .failed m :: post → Event.assigned ∉ pre) ∧
    (s.history = pre ++ .handed m :: post → Event.assigned ∈ pre) :=
  ⟨(Inv.run moves (inv_start c) hr).fine pre _ post, (Inv.run moves (inv_start c) hr).fine pre _ post⟩

/-- Without a callback of the user nothing is handed to one -/
theorem C137_no_callback (moves : List (Move μ)) (s : State μ) (hr : run .none start moves = some s) :
    handedOf s.history = [] := (Inv.run moves (inv_start .none) hr).silent rfl

/-- A message that comes before the constructor is through is lost to the user's callback, though `get` returns it -/
theorem C137_missed (m : μ) : ∃ (moves : List (Move μ)) (s : State μ), run .plain start moves = some s ∧
    s.assigned = true ∧ s.holder = none ∧ (∀ t, s.threads t = none) ∧ receivedOf s.history = [m] ∧
    handedOf s.history = [] ∧ s.history.getLast? = some (.returns true (some m)) := by
  refine ⟨[.message 1 m, .step 1, .step 1, .step 1, .step 1, .assign, .get 0 true, .step 0, .step 0, .step 0, .step 0], _,
    rfl, rfl, rfl, ?_, rfl, rfl, rfl⟩
  intro t
  simp only [State.goto, State.emit, start]
  repeat' split
  all_goals rfl

/-- Nothing blocks for ever if the user's callback leaves the listener alone: a thread in a call can go on, or waits for
the lock while the one that holds it can go on, or waits in `get` for the first message -/
theorem C137_progress (c : Custom) (hc : c ≠ .callsGet) (moves : List (Move μ)) (s : State μ)
    (hr : run c start moves = some s) (t : Nat) (pc : Pc μ) (ht : s.threads t = some pc) :
    (∃ s', move c s (.step t) = some s') ∨ (∃ u s', s.holder = some u ∧ move c s (.step u) = some s') ∨
      (pc = .getWait true ∧ receivedOf s.history = [] ∧ Event.shutdown ∉ s.history) := by
  have inv := Inv.run moves (inv_start c) hr
  have free : ∀ (u : Nat) (p : Pc μ), s.threads u = some p → p.inside = true → ∃ s', move c s (.step u) = some s' := by
    intro u p hu hp
    rcases p with m | m | m | _ | _ | b | b | b | _ <;> simp only [Pc.inside, Bool.false_eq_true] at hp
    · exact ⟨_, by simp only [move, hu, stepAt]; rfl⟩
    · simp only [move, hu, stepAt]
      split
      · rcases c with _ | _ | _ <;> exact ⟨_, rfl⟩
      · exact ⟨_, rfl⟩
    · exact absurd (inv.deep u hu) hc
    · exact ⟨_, by simp only [move, hu, stepAt]; rfl⟩
    · exact ⟨_, by simp only [move, hu, stepAt]; rfl⟩
    · exact ⟨_, by simp only [move, hu, stepAt]; rfl⟩
  have lock : s.holder = none ∨ ∃ u s', s.holder = some u ∧ move c s (.step u) = some s' := by
    rcases hh : s.holder with _ | u
    · exact .inl rfl
    · obtain ⟨p, hu, hp⟩ := (inv.held u).mpr hh
      obtain ⟨s', hs⟩ := free u p hu hp
      exact .inr ⟨u, s', rfl, hs⟩
  rcases hin : pc.inside with _ | _
  · rcases pc with m | m | m | _ | _ | b | b | b | _ <;> simp only [Pc.inside, Bool.true_eq_false] at hin
    · rcases lock with h | h
      · exact .inl ⟨_, by simp only [move, ht, stepAt, if_pos h]; rfl⟩
      · exact .inr (.inl h)
    · by_cases hw : (!(b && s.data.isNone) || s.down) = true
      · exact .inl ⟨_, by simp only [move, ht, stepAt, if_pos hw]; rfl⟩
      · refine .inr (.inr ?_)
        have hd := inv.data
        have hdn := inv.down
        rcases b with _ | _
        · simp at hw
        · simp only [Bool.true_and, Bool.or_eq_true, Bool.not_eq_true', not_or, Bool.not_eq_false,
            Bool.not_eq_true, Option.isNone_iff_eq_none] at hw
          refine ⟨rfl, ?_, fun h => ?_⟩
          · rw [hw.1] at hd
            exact List.getLast?_eq_none_iff.mp hd.symm
          · rw [hdn.mpr h] at hw
            cases hw.2
    · rcases lock with h | h
      · exact .inl ⟨_, by simp only [move, ht, stepAt, if_pos h]; rfl⟩
      · exact .inr (.inl h)
  · exact .inl (free t pc ht hin)

/-- A thread that waits for the lock it holds stays there, and nothing is received or returned -/
theorem stuck_move {s s' : State μ} (inv : Inv .callsGet s) {t : Nat} (ht : s.threads t = some .innerLock) (mv : Move μ)
    (hm : move .callsGet s mv = some s') : s'.threads t = some .innerLock ∧
      ∃ es, s'.history = s.history ++ es ∧ ∀ e ∈ es, e = .assigned ∨ e = .shutdown := by
  have hh : s.holder = some t := (inv.held t).mp ⟨_, ht, rfl⟩
  have hn : s.holder ≠ none := by rw [hh]; exact fun h => by cases h
  have go : ∀ (u : Nat) (pc : Option (Pc μ)), u ≠ t → (s.goto u pc).threads t = some .innerLock ∧
      ∃ es, (s.goto u pc).history = s.history ++ es ∧ ∀ e ∈ es, e = .assigned ∨ e = .shutdown := by
    intro u pc hu
    refine ⟨?_, [], by simp [State.goto], by simp⟩
    simp only [State.goto, if_neg (Ne.symm hu)]
    exact ht
  rcases mv with ⟨u, m⟩ | ⟨u, b⟩ | u | _ | _ <;> simp only [move] at hm
  · split at hm
    · rename_i hu
      cases hm
      exact go u _ (by rintro rfl; rw [ht] at hu; cases hu)
    · cases hm
  · split at hm
    · rename_i hu
      cases hm
      exact go u _ (by rintro rfl; rw [ht] at hu; cases hu)
    · cases hm
  · split at hm
    · rename_i pc hu
      have hin : pc.inside = true → pc = .innerLock := by
        intro hp
        have := inv.held.unique ht hu rfl hp
        subst this
        rw [ht] at hu
        exact (Option.some.inj hu).symm
      rcases pc with m | m | m | _ | _ | b | b | b | _ <;> simp only [stepAt, if_neg hn] at hm
      · cases hm
      · cases hin rfl
      · cases hin rfl
      · cases hm
      · cases hin rfl
      · split at hm
        · cases hm
          exact go u _ (by rintro rfl; rw [ht] at hu; cases hu)
        · cases hm
      · cases hm
      · cases hin rfl
      · cases hin rfl
    · cases hm
  · split at hm
    · cases hm
    · cases hm
      exact ⟨ht, [.assigned], rfl, by simp⟩
  · cases hm
    exact ⟨ht, [.shutdown], rfl, by simp⟩

theorem stuck_run (moves : List (Move μ)) {s s' : State μ} (inv : Inv .callsGet s) {t : Nat}
    (ht : s.threads t = some .innerLock) (hr : run .callsGet s moves = some s') :
    s'.threads t = some .innerLock ∧ ∃ es, s'.history = s.history ++ es ∧ ∀ e ∈ es, e = .assigned ∨ e = .shutdown := by
  induction moves generalizing s with
  | nil => cases hr; exact ⟨ht, [], by simp, by simp⟩
  | cons m ms ih =>
    rw [run] at hr
    split at hr
    · rename_i s1 hm
      obtain ⟨h1, es, h2, h3⟩ := stuck_move inv ht m hm
      obtain ⟨h4, es', h5, h6⟩ := ih (inv.move m hm) h1 hr
      refine ⟨h4, es ++ es', by rw [h5, h2, List.append_assoc], fun e he => ?_⟩
      rcases List.mem_append.mp he with he | he
      · exact h3 e he
      · exact h6 e he
    · cases hr

theorem handed_mem {h : List (Event μ)} {m : μ} (hm : Event.handed m ∈ h) : m ∈ handedOf h := by
  induction h with
  | nil => cases hm
  | cons e h ih =>
    rcases List.mem_cons.mp hm with rfl | h1
    · simp [handedOf]
    · cases e <;> simp [handedOf, ih h1]

/-- What was handed to a callback that calls `get` -/
theorem handed_once {s s' : State μ} (mv : Move μ) (hm : move .callsGet s mv = some s') (h : handedOf s.history = []) :
    handedOf s'.history = [] ∨ ∃ t m, handedOf s'.history = [m] ∧ s'.threads t = some .innerLock := by
  have emit : ∀ e : Event μ, (∀ m, e ≠ .handed m) → handedOf (s.history ++ [e]) = [] := by
    intro e he
    rw [handed_snoc, h]
    cases e <;> first | rfl | exact absurd rfl (he _)
  rcases mv with ⟨t, m⟩ | ⟨t, b⟩ | t | _ | _ <;> simp only [move] at hm
  · split at hm <;> cases hm
    exact .inl h
  · split at hm <;> cases hm
    exact .inl h
  · split at hm
    · rename_i pc ht
      rcases pc with m | m | m | _ | _ | b | b | b | _ <;> simp only [stepAt] at hm
      · split at hm <;> cases hm
        exact .inl h
      · cases hm; exact .inl (emit _ fun _ e => by cases e)
      · split at hm
        · cases hm
          refine .inr ⟨t, m, ?_, by simp [State.goto]⟩
          show handedOf (s.history ++ [_]) = _
          rw [handed_snoc, h]; rfl
        · cases hm; exact .inl (emit _ fun _ e => by cases e)
      · split at hm <;> cases hm
        exact .inl h
      · cases hm; exact .inl h
      · split at hm <;> cases hm
        exact .inl h
      · split at hm <;> cases hm
        exact .inl h
      · cases hm; exact .inl (emit _ fun _ e => by cases e)
      · cases hm; exact .inl h
    · cases hm
  · split at hm <;> cases hm
    exact .inl (emit _ fun _ e => by cases e)
  · cases hm; exact .inl (emit _ fun _ e => by cases e)

theorem handed_append {h es : List (Event μ)} (he : ∀ e ∈ es, e = .assigned ∨ e = .shutdown) :
    handedOf (h ++ es) = handedOf h := by
  induction h with
  | nil =>
    induction es with
    | nil => rfl
    | cons e es ih =>
      rcases he e List.mem_cons_self with rfl | rfl
      · exact ih fun e h => he e (List.mem_cons_of_mem _ h)
      · exact ih fun e h => he e (List.mem_cons_of_mem _ h)
  | cons x h ih => cases x <;> simp [handedOf, ih]

theorem stuck_reach (moves : List (Move μ)) {s s' : State μ} (inv : Inv .callsGet s)
    (h : handedOf s.history = [] ∨ ∃ t m, handedOf s.history = [m] ∧ s.threads t = some .innerLock)
    (hr : run .callsGet s moves = some s') :
    handedOf s'.history = [] ∨ ∃ t m, handedOf s'.history = [m] ∧ s'.threads t = some .innerLock := by
  induction moves generalizing s with
  | nil => cases hr; exact h
  | cons mv ms ih =>
    rw [run] at hr
    split at hr
    · rename_i s1 hm
      refine ih (inv.move mv hm) ?_ hr
      rcases h with h | ⟨t, m, h1, h2⟩
      · exact handed_once mv hm h
      · obtain ⟨h3, es, h4, h5⟩ := stuck_move inv h2 mv hm
        exact .inr ⟨t, m, by rw [h4, handed_append h5, h1], h3⟩
    · cases hr

/-- A callback of the user that calls `get` blocks for ever with its first message: from then on no message is received
and no call of `get` returns, whatever happens -/
theorem C137_deadlock (moves : List (Move μ)) (s : State μ) (hr : run .callsGet start moves = some s) (m : μ)
    (h : Event.handed m ∈ s.history) (moves' : List (Move μ)) (s' : State μ) (hr' : run .callsGet s moves' = some s') :
    handedOf s.history = [m] ∧ s'.holder ≠ none ∧
      ∃ es, s'.history = s.history ++ es ∧ ∀ e ∈ es, e = .assigned ∨ e = .shutdown := by
  have inv := Inv.run moves (inv_start .callsGet) hr
  have hm := handed_mem h
  rcases stuck_reach moves (inv_start .callsGet) (.inl rfl) hr with h1 | ⟨t, m', h1, h2⟩
  · rw [h1] at hm; cases hm
  · rw [h1] at hm
    cases List.mem_singleton.mp hm
    obtain ⟨h3, h4⟩ := stuck_run moves' inv h2 hr'
    refine ⟨h1, ?_, h4⟩
    rw [((Inv.run moves' inv hr').held t).mp ⟨_, h3, rfl⟩]
    exact fun h => by cases h

/-- The state of `C137_deadlock` is reached by one message after the constructor -/
example (m : μ) : ∃ (moves : List (Move μ)) (s : State μ), run .callsGet start moves = some s ∧ Event.handed m ∈ s.history :=
  ⟨[.assign, .message 1 m, .step 1, .step 1, .step 1], _, rfl, by simp [State.goto, State.emit, start]⟩

/-- Two messages and a call of `get` in between -/
example : ∃ s : State Nat, run .plain start [.assign, .get 0 true, .message 1 5, .step 1, .step 1, .step 0, .step 1, .step 1,
    .step 0, .message 2 6, .step 0, .step 0, .step 2, .step 2, .step 2, .step 2] = some s ∧ s.holder = none ∧
    handedOf s.history = [5, 6] ∧ ∃ pre post, s.history = pre ++ .returns true (some 5) :: post :=
  ⟨_, rfl, rfl, rfl, [.assigned, .received 5, .handed 5], [.received 6, .handed 6], rfl⟩

/-- A call of `get` that is to wait returns nothing after ROS was shut down -/
example : ∃ s : State Nat, run .plain start [.assign, .get 0 true, .shutdown, .step 0, .step 0, .step 0, .step 0] = some s ∧
    s.history = [.assigned, .shutdown, .returns true none] := ⟨_, rfl, rfl⟩

end Verif.PyListener
