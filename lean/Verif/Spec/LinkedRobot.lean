import Mathlib.Data.Real.Basic
import Verif.Spec.Pose

/-!
# Specification: trees of links, and the motion of joints
-/
namespace Verif.LinkedRobot
open Matrix

/-- The links reached from link 0 by going from the parent to the child of joints, given as pairs of parent and child -/
inductive Reach (joints : List (Int × Int)) : Int → Prop
  | root : Reach joints 0
  | step {p c : Int} : (p, c) ∈ joints → Reach joints p → Reach joints c

end Verif.LinkedRobot
