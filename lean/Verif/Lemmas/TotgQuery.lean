import Verif.Model.Totg
import Mathlib.Tactic.Linarith
import Mathlib.Tactic.Ring
import Mathlib.Tactic.FieldSimp
import Mathlib.Tactic.Positivity

/-! # Lemmas: timing and lookup of the steps of a trajectory -/
namespace Verif.Totg
open Verif

theorem advance_none (time : ℝ) (steps : List Step) (i : Nat) (h : steps[i]? = none) :
    advance time steps i = .ub := by
  rw [advance]
  split
  · rfl
  · rename_i s hs
    rw [h] at hs; cases hs

theorem advance_some (time : ℝ) (steps : List Step) (i : Nat) (s : Step) (h : steps[i]? = some s) :
    advance time steps i = if time ≥ s.time then advance time steps (i + 1) else .ok i := by
  rw [advance]
  split
  · rename_i hs
    rw [h] at hs; cases hs
  · rename_i s' hs
    rw [h] at hs; cases hs; rfl

theorem advance_ok (time : ℝ) (steps : List Step) (d : Nat) : ∀ (i j : Nat) (s : Step), j = i + d →
    (∀ m r, i ≤ m → m < j → steps[m]? = some r → r.time ≤ time) → steps[j]? = some s → time < s.time →
    advance time steps i = .ok j := by
  induction d with
  | zero =>
    intro i j s hj _ hs ht
    subst hj
    rw [advance_some _ _ _ _ hs, if_neg (not_le.2 ht)]
  | succ d ih =>
    intro i j s hj hb hs ht
    have hlt : i < steps.length := by
      obtain ⟨h', _⟩ := List.getElem?_eq_some_iff.1 hs
      omega
    have hi : steps[i]? = some steps[i] := List.getElem?_eq_getElem hlt
    rw [advance_some _ _ _ _ hi, if_pos (hb i _ le_rfl (by omega) hi)]
    exact ih (i + 1) j s (by omega) (fun m r hm => hb m r (by omega)) hs ht

theorem advance_inv (time : ℝ) (steps : List Step) (d : Nat) : ∀ (i j : Nat), steps.length ≤ i + d →
    advance time steps i = .ok j → i ≤ j ∧ (∀ m r, i ≤ m → m < j → steps[m]? = some r → r.time ≤ time) ∧
      ∃ s, steps[j]? = some s ∧ time < s.time := by
  induction d with
  | zero =>
    intro i j hl h
    rw [advance_none _ _ _ (List.getElem?_eq_none (by omega))] at h
    cases h
  | succ d ih =>
    intro i j hl h
    by_cases hlt : i < steps.length
    · have hi : steps[i]? = some steps[i] := List.getElem?_eq_getElem hlt
      rw [advance_some _ _ _ _ hi] at h
      split at h
      · rename_i hc
        obtain ⟨h1, h2, h3⟩ := ih (i + 1) j (by omega) h
        refine ⟨by omega, fun m r hm hmj hr => ?_, h3⟩
        rcases Nat.eq_or_lt_of_le hm with rfl | hm
        · rw [hi] at hr; cases hr; exact hc
        · exact h2 m r hm hmj hr
      · rename_i hc
        cases h
        exact ⟨le_rfl, fun m r h1 h2 => absurd h2 (by omega), _, hi, not_le.1 hc⟩
    · rw [advance_none _ _ _ (List.getElem?_eq_none (by omega))] at h
      cases h

/-- What is true of the cache: the steps before the cached one are not later than the cached time. -/
def Cache.Valid (steps : List Step) (c : Cache) : Prop :=
  ∀ t, c.time = some t → (∀ m r, m < c.index → steps[m]? = some r → r.time ≤ t)

theorem valid_empty (steps : List Step) : Cache.empty.Valid steps := by
  intro t h; cases h

/-- The lookup, as a function of the time only. -/
noncomputable def lookup (steps : List Step) (time : ℝ) : Out Nat :=
  match steps.getLast? with
  | none => .ub
  | some last => if time ≥ last.time then .ok (steps.length - 1) else advance time steps 0

theorem advance_from (time : ℝ) (steps : List Step) (i : Nat)
    (h : ∀ m r, m < i → steps[m]? = some r → r.time ≤ time) : advance time steps i = advance time steps 0 := by
  induction i with
  | zero => rfl
  | succ i ih =>
    rw [← ih fun m r hm => h m r (by omega)]
    cases hi : steps[i]? with
    | none =>
      rw [advance_none _ _ _ hi, advance_none]
      exact List.getElem?_eq_none (by have := List.getElem?_eq_none_iff.1 hi; omega)
    | some s => rw [advance_some _ _ _ _ hi, if_pos (h i s (by omega) hi)]

theorem segment_lookup (steps : List Step) (c : Cache) (hc : c.Valid steps) (time : ℝ) :
    (trajectorySegment steps c time).1 = lookup steps time ∧
      (trajectorySegment steps c time).2.Valid steps := by
  unfold trajectorySegment lookup
  cases steps.getLast? with
  | none => exact ⟨rfl, hc⟩
  | some last =>
    simp only
    split
    · exact ⟨rfl, hc⟩
    · have e : advance time steps (c.start time) = advance time steps 0 := by
        refine advance_from _ _ _ fun m r hm hr => ?_
        unfold Cache.start at hm
        cases ht : c.time with
        | none => rw [ht] at hm; simp only at hm; omega
        | some t =>
          rw [ht] at hm
          simp only at hm
          split at hm
          · omega
          · rename_i hn
            exact (hc t ht m r hm hr).trans (not_lt.1 hn)
      rw [e]
      cases ha : advance time steps 0 with
      | ok j =>
        refine ⟨rfl, fun t ht m r hm hr => ?_⟩
        cases ht
        exact (advance_inv time steps steps.length 0 j (by omega) ha).2.1 m r (by omega) hm hr
      | throws e => exact ⟨rfl, hc⟩
      | abort => exact ⟨rfl, hc⟩
      | ub => exact ⟨rfl, hc⟩

/-! ## Timing -/

theorem timesFrom_length (s : Step) (l : List Problem.Point) : (timesFrom s l).length = l.length := by
  induction l generalizing s with
  | nil => rfl
  | cons p l ih => simp [timesFrom, ih]

theorem timed_length (l : List Problem.Point) : (timed l).length = l.length := by
  cases l with
  | nil => rfl
  | cons p l => simp [timed, timesFrom_length]

theorem timesFrom_get (l : List Problem.Point) : ∀ (s : Step) (k : Nat) (a : Step),
    (s :: timesFrom s l)[k]? = some a → ∀ b, (s :: timesFrom s l)[k + 1]? = some b →
      b.time = a.time + (b.pos - a.pos) / ((b.vel + a.vel) / 2) := by
  induction l with
  | nil => intro s k a _ b hb; simp [timesFrom] at hb
  | cons p l ih =>
    intro s k a ha b hb
    cases k with
    | zero =>
      simp only [timesFrom, List.getElem?_cons_zero, List.getElem?_cons_succ, Option.some.injEq] at ha hb
      subst ha; subst hb; rfl
    | succ k =>
      rw [timesFrom] at ha hb
      simp only [List.getElem?_cons_succ] at ha hb
      exact ih _ k a ha b (by simpa using hb)

theorem timed_get (l : List Problem.Point) (k : Nat) (a b : Step) (ha : (timed l)[k]? = some a)
    (hb : (timed l)[k + 1]? = some b) : b.time = a.time + (b.pos - a.pos) / ((b.vel + a.vel) / 2) := by
  cases l with
  | nil => simp [timed] at ha
  | cons p l => exact timesFrom_get l _ k a ha b hb

theorem timesFrom_point (l : List Problem.Point) : ∀ (s : Step),
    (timesFrom s l).map (fun a => (a.pos, a.vel)) = l := by
  induction l with
  | nil => intro s; rfl
  | cons p l ih => intro s; simp [timesFrom, ih]

theorem timed_point (l : List Problem.Point) : (timed l).map (fun a => (a.pos, a.vel)) = l := by
  cases l with
  | nil => rfl
  | cons p l => simp [timed, timesFrom_point]

end Verif.Totg
