import Mathlib.Data.Matrix.Block
import Mathlib.Data.Fin.Tuple.Basic
import Mathlib.Analysis.SpecialFunctions.Log.Basic
import Verif.Base.State
import Verif.Model.PointSets

/-!
# Model of include/arc_utilities/thin_plate_spline.hpp (9-159)

`double` is a real number. A matrix of points is the list of its columns. `DIMENSIONS` is `d`, two or three by the
static assertions of lines 19-23. `A.colPivHouseholderQr().solve(B)` (line 103) is a parameter `solver` of the functions
that need it; rows of the system are indexed by a point or by a homogeneous coordinate. The member functions take any
Eigen expression of the right number of rows; that is checked when compiling.
-/
namespace Verif.ThinPlateSpline
open Verif Matrix Verif.PointSets

/-- thin_plate_spline.hpp:103: what solves the linear system -/
abbrev Solver (d : Nat) := (N : Nat) → Matrix (Fin N ⊕ Fin (d + 1)) (Fin N ⊕ Fin (d + 1)) ℝ →
  Matrix (Fin N ⊕ Fin (d + 1)) (Fin d) ℝ → Matrix (Fin N ⊕ Fin (d + 1)) (Fin d) ℝ

/-- thin_plate_spline.hpp:153-157: the members -/
structure Spline (d : Nat) where
  /-- `homogeneous_template_points_` -/
  homogeneous : List (Point (d + 1))
  /-- `target_points_` -/
  target : List (Point d)
  /-- `affine_coeffs_` -/
  affine : Matrix (Fin d) (Fin (d + 1)) ℝ
  /-- `warping_coeffs_`, by columns -/
  warping : List (Point d)
  /-- `solved_` -/
  solved : Bool

/-- thin_plate_spline.hpp:25: the default constructor; `affine_coeffs_`, of fixed size, is uninitialised (`garbage`) -/
def empty {d : Nat} (garbage : Matrix (Fin d) (Fin (d + 1)) ℝ) : Spline d := ⟨[], [], garbage, [], false⟩

/-- thin_plate_spline.hpp:57 and 123: a column of the points with a row of ones below -/
def homogeneousPoint {d : Nat} (p : Point d) : Point (d + 1) := Fin.snoc (α := fun _ => ℝ) p 1

/-- thin_plate_spline.hpp:49-59 -/
def setTemplatePoints {d : Nat} (points : List (Point d)) (s : Spline d) : Spline d :=
  { s with homogeneous := points.map homogeneousPoint, solved := false }

/-- thin_plate_spline.hpp:65-74 -/
def setTargetPoints {d : Nat} (points : List (Point d)) (s : Spline d) : Spline d :=
  { s with target := points, solved := false }

/-- thin_plate_spline.hpp:134-151; the default case does not compile -/
noncomputable def kernelFunction : Nat → ℝ → ℝ
  | 2, rsq => if rsq = 0 then 0 else rsq * Real.log rsq
  | 3, rsq => if rsq = 0 then 0 else -Real.sqrt rsq
  | _, _ => 0

/-- thin_plate_spline.hpp:96-98: the matrix of the system -/
noncomputable def systemMatrix {d : Nat} (homogeneous : List (Point (d + 1))) (rsquared : Nat → Nat → ℝ) :
    Matrix (Fin homogeneous.length ⊕ Fin (d + 1)) (Fin homogeneous.length ⊕ Fin (d + 1)) ℝ :=
  fromBlocks (of fun i j => kernelFunction d (rsquared i j)) (of fun i k => homogeneous[i] k)
    (of fun k i => homogeneous[i] k) 0

/-- thin_plate_spline.hpp:99-100: the right hand side of the system -/
def rightHandSide {d : Nat} (N : Nat) (target : List (Point d)) (h : N = target.length) :
    Matrix (Fin N ⊕ Fin (d + 1)) (Fin d) ℝ :=
  of fun r k => match r with
    | .inl i => target[i] k
    | .inr _ => 0

/-- thin_plate_spline.hpp:76-107. The order in which threads write the squared distances does not matter (C93): here it
is that of a single thread. -/
noncomputable def solveForCoeffs {d : Nat} (solver : Solver d) : M (Spline d) Unit := fun s =>
  if s.homogeneous.length < 1 ∨ s.target.length < 1 then (.throws .invalidArgument, s)
  else if h : s.homogeneous.length = s.target.length then
    match calculateSquaredDistanceMatrix s.homogeneous.get (fun _ _ => 0) (allWrites s.homogeneous.get) with
    | .ok rsquared =>
      let params := solver s.homogeneous.length (systemMatrix s.homogeneous rsquared)
        (rightHandSide s.homogeneous.length s.target h)
      (.ok (), { s with
        warping := List.ofFn fun i => fun k => params (.inl i) k
        affine := of fun k l => params (.inr l) k
        solved := true })
    | .throws e => (.throws e, s)
    | .abort => (.abort, s)
    | .ub => (.ub, s)
  else (.throws .invalidArgument, s)

/-- thin_plate_spline.hpp:125-130: the value at the points, once solved. The product of the warping coefficients and the
kernel asserts that the sizes agree. -/
noncomputable def evaluate {d : Nat} (s : Spline d) (points : List (Point d)) : Out (List (Point d)) := do
  let homogeneousPoints := points.map homogeneousPoint
  let rsquared := squaredDistancesBetweenPointSets s.homogeneous homogeneousPoints
  Out.assert (s.warping.length = s.homogeneous.length)
  .ok (List.zipWith (fun h column => fun k =>
    ∑ l, s.affine k l * h l + (List.zipWith (fun (w : Point d) r => w k * kernelFunction d r) s.warping column).sum)
    homogeneousPoints rsquared)

/-- thin_plate_spline.hpp:109-131 -/
noncomputable def interpolate {d : Nat} (solver : Solver d) (points : List (Point d)) :
    M (Spline d) (List (Point d)) := fun s =>
  if s.solved then (evaluate s points, s)
  else
    match solveForCoeffs solver s with
    | (.ok _, s') => (evaluate s' points, s')
    | (.throws e, s') => (.throws e, s')
    | (.abort, s') => (.abort, s')
    | (.ub, s') => (.ub, s')

/-- thin_plate_spline.hpp:37-43: the constructor from both point sets; when it throws there is no object -/
noncomputable def construct {d : Nat} (solver : Solver d) (garbage : Matrix (Fin d) (Fin (d + 1)) ℝ)
    (template target : List (Point d)) : Out (Spline d) :=
  match solveForCoeffs solver (setTargetPoints target (setTemplatePoints template (empty garbage))) with
  | (.ok _, s) => .ok s
  | (.throws e, _) => .throws e
  | (.abort, _) => .abort
  | (.ub, _) => .ub

end Verif.ThinPlateSpline
