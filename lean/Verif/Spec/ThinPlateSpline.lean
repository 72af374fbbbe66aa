import Mathlib.LinearAlgebra.Matrix.NonsingularInverse
import Verif.Model.ThinPlateSpline

/-!
# What thin plate splines are

The thin plate spline through values at points, the histories of calls of an object, and the contract of the solver.
-/
namespace Verif.ThinPlateSpline
open Matrix Verif.PointSets

/-- The radial function of a spline in the plane, `r² log r`, and in space, `-r` -/
noncomputable def radial : Nat → ℝ → ℝ
  | 2, r => r ^ 2 * Real.log r
  | _, r => -r

/-- The Euclidean distance -/
noncomputable def apart {d : Nat} (p q : Point d) : ℝ := Real.sqrt (∑ k, (p k - q k) ^ 2)

/-- `f` is a thin plate spline with its centres at the points `template`: an affine map plus radial functions around the
points, whose weights have no sum and no moment. -/
def IsSpline {d : Nat} (template : List (Point d)) (f : Point d → Point d) : Prop :=
  ∃ (linear : Fin d → Fin d → ℝ) (offset : Point d) (weight : Fin template.length → Point d),
    (∀ k, ∑ i, weight i k = 0) ∧
    (∀ k l, ∑ i, weight i k * template[i] l = 0) ∧
    ∀ p k, f p k = ∑ l, linear k l * p l + offset k + ∑ i, weight i k * radial d (apart template[i] p)

/-- No line of the plane, no plane of space contains all the points. -/
def Spanning {d : Nat} (template : List (Point d)) : Prop :=
  template ≠ [] ∧ ∀ (normal : Point d) (offset : ℝ), normal ≠ 0 →
    ∃ p ∈ template, ∑ k, normal k * p k ≠ offset

/-- Template points that coincide have the same target. -/
def Consistent {d : Nat} (template target : List (Point d)) : Prop :=
  ∀ (i j : Nat) (hi : i < template.length) (hj : j < template.length), template[i] = template[j] →
    target[i]? = target[j]?

/-- The solver finds a solution of every system that has one. -/
def Solves {d : Nat} (solver : Solver d) : Prop :=
  ∀ N A B, (∃ X, A * X = B) → A * solver N A B = B

/-- A call of a member function -/
inductive Call (d : Nat) where
  | template (points : List (Point d))
  | target (points : List (Point d))
  | solve
  | interpolate (points : List (Point d))

/-- The object after a call -/
noncomputable def Call.run {d : Nat} (solver : Solver d) (s : Spline d) : Call d → Spline d
  | .template points => setTemplatePoints points s
  | .target points => setTargetPoints points s
  | .solve => (solveForCoeffs solver s).2
  | .interpolate points => (ThinPlateSpline.interpolate solver points s).2

/-- The template points set last -/
def lastTemplate {d : Nat} (before : List (Point d)) (calls : List (Call d)) : List (Point d) :=
  calls.foldl (fun t c => match c with | .template points => points | _ => t) before

/-- The target points set last -/
def lastTarget {d : Nat} (before : List (Point d)) (calls : List (Call d)) : List (Point d) :=
  calls.foldl (fun t c => match c with | .target points => points | _ => t) before

end Verif.ThinPlateSpline
