import Verif.Model.Totg

/-!
# Specification: switching points

Where a trajectory in the phase plane may touch the limit of the velocity. Slopes are velocities over positions;
they may be infinite, and 0 / 0 is none.
-/
namespace Verif.Totg

/-- The distance at which the code looks to either side of a position -/
noncomputable def near : ℝ := 1 / 1000000

/-- `q` is the quotient of `a` and `b`; infinite for a `b` that is 0. -/
def IsQuotient (a b : ℝ) (q : EReal) : Prop :=
  (b ≠ 0 ∧ q = ((a / b : ℝ) : EReal)) ∨ (b = 0 ∧ 0 < a ∧ q = ⊤) ∨ (b = 0 ∧ a < 0 ∧ q = ⊥)

namespace Problem
variable {n : Nat} (P : Problem n)

/-- The slope of the trajectory through a point with the lowest (highest) acceleration. Where the velocity is not
limited it is 0. -/
def TrajectorySlope (s : ℝ) (v : WithTop ℝ) (highest : Bool) (q : EReal) : Prop :=
  (∃ w : ℝ, v = w ∧ IsQuotient (P.acceleration s w highest) w q) ∨ (v = ⊤ ∧ q = 0)

/-- The slope of the velocity limit that comes from the accelerations, from its values nearby -/
def AccelerationLimitSlope (s : ℝ) (q : EReal) : Prop :=
  (∃ a b : ℝ, P.accelerationLimit (s - near) = a ∧ P.accelerationLimit (s + near) = b ∧
    q = (((b - a) / (2 * near) : ℝ) : EReal)) ∨
  (P.accelerationLimit (s - near) ≠ ⊤ ∧ P.accelerationLimit (s + near) = ⊤ ∧ q = ⊤) ∨
  (P.accelerationLimit (s - near) = ⊤ ∧ P.accelerationLimit (s + near) ≠ ⊤ ∧ q = ⊥)

/-- The first of the joints with the tightest velocity limit, joint 0 if no joint has a limit -/
def Tightest (s : ℝ) (i : Fin (n + 1)) : Prop :=
  (P.first s i ≠ 0 ∧ P.maxVelocity i / |P.first s i| < P.largest ∧ ∀ j, P.first s j ≠ 0 →
    P.maxVelocity i / |P.first s i| ≤ P.maxVelocity j / |P.first s j| ∧
    (j < i → P.maxVelocity i / |P.first s i| < P.maxVelocity j / |P.first s j|)) ∨
  (i = 0 ∧ ∀ j, P.first s j ≠ 0 → P.largest ≤ P.maxVelocity j / |P.first s j|)

/-- The slope of the velocity limit that comes from the velocities (compare C109) -/
def VelocityLimitSlope (s : ℝ) (q : EReal) : Prop :=
  ∃ i, P.Tightest s i ∧ IsQuotient (-(P.maxVelocity i * P.second s i)) (P.first s i * |P.first s i|) q

/-- One slope, if there is one, is greater than another, if there is one. -/
def Greater (a b : EReal → Prop) : Prop := ∃ q r, a q ∧ b r ∧ r < q

/-! ## Switching points of the acceleration limits -/

/-- At a discontinuity a trajectory on the lower of the two limits can arrive from below or the limit falls, and can
leave below or the limit rises. Elsewhere the limit has a minimum. -/
def Touches (q : ℝ × Bool) : Prop :=
  if q.2 = true then
    let before := P.accelerationLimit (q.1 - near)
    let after := P.accelerationLimit (q.1 + near)
    (after < before ∨ Greater (P.TrajectorySlope (q.1 - near) (min before after) false)
      (P.AccelerationLimitSlope (q.1 - 2 * near))) ∧
    (before < after ∨ Greater (P.AccelerationLimitSlope (q.1 + 2 * near))
      (P.TrajectorySlope (q.1 + near) (min before after) true))
  else Greater (· = 0) (P.AccelerationLimitSlope (q.1 - near)) ∧ Greater (P.AccelerationLimitSlope (q.1 + near)) (· = 0)

/-- The acceleration at a velocity that may be infinite -/
noncomputable def extreme (s : ℝ) (v : WithTop ℝ) (highest : Bool) : ℝ :=
  match v, highest with
  | (w : ℝ), h => P.acceleration s w h
  | none, true => P.largest
  | none, false => -P.largest

/-- The switching point at a position: with the lowest acceleration before and the highest after a discontinuity,
and no acceleration elsewhere -/
noncomputable def switchAt (q : ℝ × Bool) : Switch :=
  if q.2 = true then
    let v := min (P.accelerationLimit (q.1 - near)) (P.accelerationLimit (q.1 + near))
    ⟨q.1, v, P.extreme (q.1 - near) v false, P.extreme (q.1 + near) v true⟩
  else ⟨q.1, P.accelerationLimit q.1, 0, 0⟩

/-- `q` is a switching point of the path, the first with its position, after `pos` and before the end. -/
def Candidate (pos : ℝ) (q : ℝ × Bool) : Prop :=
  pos < q.1 ∧ q.1 ≤ P.length - near ∧ ∃ l r, P.switching = l ++ q :: r ∧ ∀ p ∈ l, p.1 ≠ q.1

/-- The first candidate after `pos` that satisfies `good` -/
def IsFirst (good : ℝ × Bool → Prop) (pos : ℝ) (q : ℝ × Bool) : Prop :=
  P.Candidate pos q ∧ good q ∧ ∀ p, P.Candidate pos p → p.1 < q.1 → ¬ good p

/-- The velocity at the switching point keeps the velocity limits. -/
def Slow (q : ℝ × Bool) : Prop := (P.switchAt q).vel ≤ (P.velocityLimit q.1 : ℝ)

/-! ## Switching points of the velocity limits -/

/-- The trajectory with the lowest acceleration on the velocity limit leaves it upwards. -/
def Leaves (s : ℝ) : Prop :=
  Greater (P.TrajectorySlope s (P.velocityLimit s : ℝ) false) (P.VelocityLimitSlope s)

/-- The same, or it stays on the limit. -/
def LeavesOrStays (s : ℝ) : Prop :=
  ∃ q r, P.TrajectorySlope s (P.velocityLimit s : ℝ) false q ∧ P.VelocityLimitSlope s r ∧ r ≤ q

/-- The search in steps of 1/1000 from `pos` ends in step `k`: at the end of the path, or where the trajectory does
not leave the limit although it left it, or stayed on it, in this step or before. -/
def Ends (pos : ℝ) (k : Nat) : Prop :=
  P.length ≤ pos + k / 1000 ∨
    (¬ P.Leaves (pos + k / 1000) ∧ ∃ j ≤ k, P.LeavesOrStays (pos + j / 1000))

/-- What the search for a switching point of the velocity limit finds: nothing if it ends at the end of the path,
otherwise a place in the last step, up to 1/1000000, where the trajectory stops leaving the limit. -/
def NextVelocity (pos : ℝ) (r : Option Switch) : Prop :=
  ∃ k : Nat, P.Ends pos k ∧ (∀ j < k, ¬ P.Ends pos j) ∧
    ((P.length ≤ pos + k / 1000 ∧ r = none) ∨
     (pos + k / 1000 < P.length ∧ ∃ before after : ℝ, pos + (k - 1) / 1000 ≤ before ∧ before ≤ after ∧
        after ≤ pos + k / 1000 ∧ after - before ≤ 1 / 1000000 ∧
        (before = pos + (k - 1) / 1000 ∨ P.Leaves before) ∧ ¬ P.Leaves after ∧
        r = some ⟨after, (P.velocityLimit after : ℝ), P.acceleration before (P.velocityLimit before) false,
          P.acceleration after (P.velocityLimit after) true⟩))

/-- The switching point keeps the acceleration limits nearby, or is after the acceleration switching point. -/
def Usable (limit : ℝ) (s : Switch) : Prop :=
  limit < s.pos ∨ (s.vel ≤ P.accelerationLimit (s.pos - near) ∧ s.vel ≤ P.accelerationLimit (s.pos + near))

/-- The first usable switching point of the velocity limit in a chain of searches -/
inductive FirstVelocity (limit : ℝ) : ℝ → Option Switch → Prop where
  | none {pos} : P.NextVelocity pos none → FirstVelocity limit pos none
  | found {pos s} : P.NextVelocity pos (some s) → P.Usable limit s → FirstVelocity limit pos (some s)
  | next {pos s r} : P.NextVelocity pos (some s) → ¬ P.Usable limit s → FirstVelocity limit s.pos r →
    FirstVelocity limit pos r

/-! ## The end of forward integration -/

/-- The trajectory at `p`, just before it crosses the lower of the limits at `after`, is steeper than that limit: with
the highest acceleration for a limit of the accelerations, with the lowest for a limit of the velocities. -/
def Trapped (p : ℝ × ℝ) (after : ℝ) : Prop :=
  if P.accelerationLimit after < (P.velocityLimit after : ℝ) then
    Greater (P.TrajectorySlope p.1 (p.2 : ℝ) true) (P.AccelerationLimitSlope p.1)
  else Greater (P.TrajectorySlope p.1 (p.2 : ℝ) false) (P.VelocityLimitSlope p.1)

/-- Above a limit -/
def Above (p : ℝ × ℝ) : Prop := P.velocityLimit p.1 < p.2 ∨ P.accelerationLimit p.1 < ((p.2 : ℝ) : WithTop ℝ)

end Problem
end Verif.Totg
