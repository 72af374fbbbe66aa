import Verif.Model.TrajectoryCopies
/-!
# Specification: trajectories and where their last answer came from

A trajectory remembers the time of its last query before its end, and the list in which that query was answered: its own, if
the time was earlier than that of the query before it or there was none; otherwise the list of the query before it. A copy
remembers the same as the original.
-/
namespace Verif.TrajectoryCopies
open Verif Verif.Totg

/-- What is to be known about a trajectory -/
structure Known (n : Nat) where
  path : Totg.Path n
  steps : List Step
  last : Option (ℝ × Nat)

variable {n : Nat}

/-- The trajectories after an operation -/
noncomputable def meaning (a : List (Option (Known n))) : Op n → List (Option (Known n))
  | .make path steps => a ++ [some ⟨path, steps, none⟩]
  | .copy k => a ++ [(a[k]?).join]
  | .query k time =>
    match (a[k]?).join with
    | none => a
    | some o =>
      if ∃ e ∈ o.steps.getLast?, time < e.time then
        match o.last with
        | none => a.set k (some { o with last := some (time, k) })
        | some (t, j) => a.set k (some { o with last := some (time, if time < t then k else j) })
      else a
  | .destroy k => a.set k none

/-- The trajectories after all operations -/
noncomputable def meanings (a : List (Option (Known n))) : List (Op n) → List (Option (Known n))
  | [] => a
  | op :: rest => meanings (meaning a op) rest

/-- A query that needs a list that is gone: the time is not before the last one, it is before the end, and the trajectory
whose list answered the last query is destroyed. -/
def Lost (a : List (Option (Known n))) (o : Known n) (time : ℝ) : Prop :=
  ∃ t j, o.last = some (t, j) ∧ t ≤ time ∧ (∃ e ∈ o.steps.getLast?, time < e.time) ∧ (a[j]?).join = none

/-- The answer of a trajectory that was never queried before -/
noncomputable def fresh (o : Known n) (time : ℝ) : Out ((Fin n → ℝ) × (Fin n → ℝ)) :=
  (positionVelocity o.path o.steps Cache.empty time).1

end Verif.TrajectoryCopies
