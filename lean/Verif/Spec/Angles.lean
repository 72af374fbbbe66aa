import Verif.Model.Angles

/-!
# What is expected of angles
-/
namespace Verif.Angles

variable {K : Type} [Field K] [LinearOrder K]

/-- Two numbers are the same angle: they differ by whole turns. -/
def SameAngle (pi a b : K) : Prop := ∃ k : Int, b = a + (k : K) * (2 * pi)

/-- The usual range of angles. -/
def Principal (pi a : K) : Prop := -pi < a ∧ a ≤ pi

/-- `c` is how far to turn counter-clockwise from `a` to reach `b`. -/
def Ccw (pi a b c : K) : Prop := 0 ≤ c ∧ c < 2 * pi ∧ SameAngle pi (a + c) b

end Verif.Angles
