import Mathlib.Data.Real.Basic

/-!
# Specification: integration in the phase plane

A point is a position on the path and a velocity.
-/
namespace Verif.Totg

/-- The point one time step earlier, if the acceleration until the given point is constant. -/
noncomputable def earlier (timeStep acceleration : ℝ) (p : ℝ × ℝ) : ℝ × ℝ :=
  let v := p.2 - timeStep * acceleration
  (p.1 - timeStep * ((p.2 + v) / 2), v)

/-- The point one time step later with a constant acceleration. -/
noncomputable def later (timeStep acceleration : ℝ) (p : ℝ × ℝ) : ℝ × ℝ :=
  let v := p.2 + timeStep * acceleration
  (p.1 + timeStep * ((p.2 + v) / 2), v)

/-- The points 0, 1, 2, … time steps before `start`: the first step has the acceleration `before`, each other
one the lowest acceleration that `lowest` allows at its end. -/
noncomputable def back (timeStep : ℝ) (lowest : ℝ × ℝ → ℝ) (start : ℝ × ℝ) (before : ℝ) : Nat → ℝ × ℝ
  | 0 => start
  | k + 1 =>
    let p := back timeStep lowest start before k
    earlier timeStep (if k = 0 then before else lowest p) p

/-- The point is on the line through two others. -/
def OnLine (a b x : ℝ × ℝ) : Prop := (x.2 - a.2) * (b.1 - a.1) = (b.2 - a.2) * (x.1 - a.1)

end Verif.Totg
