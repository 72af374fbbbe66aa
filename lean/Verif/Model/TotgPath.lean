import Mathlib.Analysis.SpecialFunctions.Trigonometric.Inverse
import Verif.Model.Angles
import Verif.Model.Pose
import Verif.Model.Projection

/-!
# Model of the blended path of the time-optimal trajectory parametrization

src/arc_utilities/time_optimal_trajectory_parametrization.cpp:7-216. Arithmetic is exact. Division by zero,
which gives infinities or not-a-number in the code, gives 0 here: theorems exclude it by their hypotheses.
-/
namespace Verif.Totg
open Verif
open Verif.Projection (normalized)

/-- A `LinearPathSegment` (lines 31-33) or a `CircularPathSegment` (lines 104-108). Used for
time_optimal_trajectory_parametrization.hpp:20 and time_optimal_trajectory_parametrization.cpp:12-15, 70-73. -/
inductive Segment (n : Nat) where
  | line (start stop : Fin n → ℝ)
  | arc (length radius : ℝ) (center x y : Fin n → ℝ)

namespace Segment
variable {n : Nat}

/-- time_optimal_trajectory_parametrization.hpp:20 `Length`; the length of a line is set in line 10 -/
noncomputable def length : Segment n → ℝ
  | .line start stop => Projection.norm (stop - start)
  | .arc length _ _ _ _ => length

/-- time_optimal_trajectory_parametrization.cpp:12-15, 70-73 `GetConfig` -/
noncomputable def config : Segment n → ℝ → (Fin n → ℝ)
  | .line start stop, s =>
    let ratio := (Angles.safetyCheckUnitInterval (s / Projection.norm (stop - start))).1
    (1 - ratio) • start + ratio • stop
  | .arc _ radius center x y, s =>
    let angle := s / radius
    center + radius • (Real.cos angle • x + Real.sin angle • y)

/-- time_optimal_trajectory_parametrization.cpp:17-20, 75-78 `GetTangent` -/
noncomputable def tangent : Segment n → ℝ → (Fin n → ℝ)
  | .line start stop, _ => (1 / Projection.norm (stop - start)) • (stop - start)
  | .arc _ radius _ x y, s =>
    -Real.sin (s / radius) • x + Real.cos (s / radius) • y

/-- time_optimal_trajectory_parametrization.cpp:22-25, 80-83 `GetCurvature` -/
noncomputable def curvature : Segment n → ℝ → (Fin n → ℝ)
  | .line _ _, _ => 0
  | .arc _ radius _ x y, s =>
    let angle := s / radius
    (-1 / radius) • (Real.cos angle • x + Real.sin angle • y)

/-- time_optimal_trajectory_parametrization.cpp:89-93: where the tangent of a coordinate vanishes -/
noncomputable def switchingPoint (radius x y : ℝ) : ℝ :=
  let angle := Pose.atan2 y x
  let angle := if angle < 0 then angle + Real.pi else angle
  angle * radius

/-- time_optimal_trajectory_parametrization.cpp:27, 85-100 `GetSwitchingPoints` -/
noncomputable def switchingPoints : Segment n → List ℝ
  | .line _ _ => []
  | .arc length radius _ x y =>
    (((List.finRange n).map fun i => switchingPoint radius (x i) (y i)).filter
      fun p => decide (p < length)).mergeSort fun a b => decide (a ≤ b)

end Segment

variable {n : Nat}

/-- time_optimal_trajectory_parametrization.cpp:38-68: the constructor of `CircularPathSegment` -/
noncomputable def blend (start intersection stop : Fin n → ℝ) (maxDeviation : ℝ) : Segment n :=
  if Projection.norm (intersection - start) < 1 / 10 ^ 6 ∨ Projection.norm (stop - intersection) < 1 / 10 ^ 6 then
    .arc 0 1 intersection 0 0
  else
    let startDirection := normalized (intersection - start)
    let endDirection := normalized (stop - intersection)
    if Projection.norm (startDirection - endDirection) < 1 / 10 ^ 6 then .arc 0 1 intersection 0 0
    else
      let distance := min (Projection.norm (start - intersection)) (Projection.norm (stop - intersection))
      let angle := Real.arccos (dotProduct startDirection endDirection)
      let limited := maxDeviation * Real.sin (1 / 2 * angle) / (1 - Real.cos (1 / 2 * angle))
      let distance := min distance limited
      let radius := distance / Real.tan (1 / 2 * angle)
      let center := intersection +
        (radius / Real.cos (1 / 2 * angle)) • normalized (endDirection - startDirection)
      .arc (angle * radius) radius center
        (normalized (intersection - distance • startDirection - center)) startDirection

/-- time_optimal_trajectory_parametrization.cpp:119-138: the loop over the waypoints. `start` is
`start_config`, the list begins with `*config1`. -/
noncomputable def segmentsFrom (maxDeviation : ℝ) : (Fin n → ℝ) → List (Fin n → ℝ) → List (Segment n)
  | start, config1 :: config2 :: config3 :: rest =>
    if maxDeviation > 0 then
      let arc := blend ((1 / 2 : ℝ) • (config1 + config2)) config2 ((1 / 2 : ℝ) • (config2 + config3)) maxDeviation
      let line := if Projection.norm (arc.config 0 - start) > 1 / 10 ^ 6 then [Segment.line start (arc.config 0)] else []
      line ++ arc :: segmentsFrom maxDeviation (arc.config arc.length) (config2 :: config3 :: rest)
    else .line start config2 :: segmentsFrom maxDeviation config2 (config2 :: config3 :: rest)
  | start, [_, config2] => [.line start config2]
  | _, _ => []

/-- The members of `Path`, time_optimal_trajectory_parametrization.hpp:59-63; each segment with its
`position`. -/
structure Path (n : Nat) where
  length : ℝ
  switching : List (ℝ × Bool)
  segments : List (ℝ × Segment n)

/-- time_optimal_trajectory_parametrization.cpp:149-151: removes entries at the end that are not before
the length -/
noncomputable def trim (length : ℝ) (l : List (ℝ × Bool)) : List (ℝ × Bool) :=
  (l.reverse.dropWhile fun p => decide (p.1 ≥ length)).reverse

/-- time_optimal_trajectory_parametrization.cpp:141-153: one segment of the loop -/
noncomputable def Path.add (p : Path n) (s : Segment n) : Path n :=
  let points := p.switching ++ s.switchingPoints.map fun t => (p.length + t, false)
  let length := p.length + s.length
  ⟨length, trim length points ++ [(length, true)], p.segments ++ [(p.length, s)]⟩

/-- time_optimal_trajectory_parametrization.cpp:111-155: the constructor of `Path` -/
noncomputable def makePath (waypoints : List (Fin n → ℝ)) (maxDeviation : ℝ) : Path n :=
  match waypoints with
  | first :: second :: rest =>
    let p := (segmentsFrom maxDeviation first (first :: second :: rest)).foldl Path.add ⟨0, [], []⟩
    { p with switching := p.switching.dropLast }
  | _ => ⟨0, [], []⟩

/-- time_optimal_trajectory_parametrization.cpp:173-179: the loop of `GetPathSegment` -/
noncomputable def findSegment (s : ℝ) : ℝ × Segment n → List (ℝ × Segment n) → ℝ × Segment n
  | it, [] => it
  | it, next :: rest => if s ≥ next.1 then findSegment s next rest else it

/-- time_optimal_trajectory_parametrization.cpp:172-182 `GetPathSegment`: the segment and the position on
it. An empty list is dereferenced. -/
noncomputable def Path.segmentAt (p : Path n) (s : ℝ) : Out (Segment n × ℝ) :=
  match p.segments with
  | [] => .ub
  | it :: rest =>
    let found := findSegment s it rest
    .ok (found.2, s - found.1)

/-- time_optimal_trajectory_parametrization.cpp:184-188 `GetConfig` -/
noncomputable def Path.config (p : Path n) (s : ℝ) : Out (Fin n → ℝ) := do
  let found ← p.segmentAt s
  .ok (found.1.config found.2)

/-- time_optimal_trajectory_parametrization.cpp:190-194 `GetTangent` -/
noncomputable def Path.tangent (p : Path n) (s : ℝ) : Out (Fin n → ℝ) := do
  let found ← p.segmentAt s
  .ok (found.1.tangent found.2)

/-- time_optimal_trajectory_parametrization.cpp:196-200 `GetCurvature` -/
noncomputable def Path.curvature (p : Path n) (s : ℝ) : Out (Fin n → ℝ) := do
  let found ← p.segmentAt s
  .ok (found.1.curvature found.2)

/-- time_optimal_trajectory_parametrization.cpp:202-214 `GetNextSwitchingPoint` -/
noncomputable def Path.nextSwitchingPoint (p : Path n) (s : ℝ) : ℝ × Bool :=
  match p.switching.dropWhile fun q => decide (q.1 ≤ s) with
  | [] => (p.length, true)
  | q :: _ => q

end Verif.Totg
