import Mathlib.Data.EReal.Basic
import Verif.Model.TotgLimits

/-!
# Model of the trajectory of the time-optimal trajectory parametrization

src/arc_utilities/time_optimal_trajectory_parametrization.cpp:218-543, 597-649. Arithmetic is exact. Loops
whose end is not known beforehand take a number of rounds; `none` is a run that is not yet finished.
Trajectories under construction are lists whose first element is the back of the code's list. The number of
joints is at least one. Signed zeros are not distinguished.
-/
namespace Verif.Totg
open Verif

/-- time_optimal_trajectory_parametrization.cpp:218 -/
noncomputable def eps : ℝ := 1 / 10 ^ 6

/-! ## Quotients that may be infinite or not a number -/

/-- A slope: `none` is not a number. Used for time_optimal_trajectory_parametrization.cpp:560-562, 597-600. -/
abbrev Slope := Option EReal

/-- a quotient of doubles. Used for time_optimal_trajectory_parametrization.cpp:560-562, 602-615. -/
noncomputable def quot (a b : ℝ) : Slope :=
  if b = 0 then if a = 0 then none else if a > 0 then some ⊤ else some ⊥ else some ((a / b : ℝ) : EReal)

/-- comparison with a slope; false if one is not a number. Used for
time_optimal_trajectory_parametrization.cpp:347-383, 391-400. -/
noncomputable def Slope.gt (a b : Slope) : Bool :=
  match a, b with
  | some a, some b => decide (a > b)
  | _, _ => false

/-- comparison with a slope; false if one is not a number. Used for
time_optimal_trajectory_parametrization.cpp:391-400, 448-452, 466-470. -/
noncomputable def Slope.ge (a b : Slope) : Bool :=
  match a, b with
  | some a, some b => decide (a ≥ b)
  | _, _ => false

/-! ## What the integration depends on -/

/-- The members of a `Trajectory` on which the integration depends, time_optimal_trajectory_parametrization.hpp:
107-111: the path (its length, switching points, tangent and curvature), the limits and the time step. -/
structure Problem (n : Nat) where
  length : ℝ
  switching : List (ℝ × Bool)
  first : ℝ → Fin (n + 1) → ℝ
  second : ℝ → Fin (n + 1) → ℝ
  maxVelocity : Fin (n + 1) → ℝ
  maxAcceleration : Fin (n + 1) → ℝ
  timeStep : ℝ
  largest : ℝ

namespace Problem
variable {n : Nat} (P : Problem n)

/-- time_optimal_trajectory_parametrization.cpp:545-558 `GetMinMaxPathAcceleration` -/
noncomputable def acceleration (pos vel : ℝ) (isMax : Bool) : ℝ :=
  minMaxAcceleration P.largest P.maxAcceleration (P.first pos) (P.second pos) vel isMax

/-- time_optimal_trajectory_parametrization.cpp:564-586 `GetAccelerationMaxPathVelocity` -/
noncomputable def accelerationLimit (pos : ℝ) : WithTop ℝ :=
  accelerationMaxVelocity P.maxAcceleration (P.first pos) (P.second pos)

/-- time_optimal_trajectory_parametrization.cpp:588-595 `GetVelocityMaxPathVelocity` -/
noncomputable def velocityLimit (pos : ℝ) : ℝ := velocityMaxVelocity P.largest P.maxVelocity (P.first pos)

/-- time_optimal_trajectory_parametrization.cpp:560-562 `GetMinMaxPhaseSlope` -/
noncomputable def slope (pos vel : ℝ) (isMax : Bool) : Slope := quot (P.acceleration pos vel isMax) vel

/-- time_optimal_trajectory_parametrization.cpp:597-600 `GetAccelerationMaxPathVelocityDeriv` -/
noncomputable def accelerationLimitDeriv (pos : ℝ) : Slope :=
  match P.accelerationLimit (pos + eps), P.accelerationLimit (pos - eps) with
  | (a : ℝ), (b : ℝ) => some (((a - b) / (2 * eps) : ℝ) : EReal)
  | none, (_ : ℝ) => some ⊤
  | (_ : ℝ), none => some ⊥
  | none, none => none

/-- time_optimal_trajectory_parametrization.cpp:602-615 `GetVelocityMaxPathVelocityDeriv` -/
noncomputable def velocityLimitDeriv (pos : ℝ) : Slope :=
  match activeConstraint P.largest P.maxVelocity (P.first pos) with
  | i => quot (-(P.maxVelocity i * P.second pos i)) (P.first pos i * |P.first pos i|)

/-! ## Switching points -/

/-- time_optimal_trajectory_parametrization.cpp:202-214: `GetNextSwitchingPoint` of the path -/
noncomputable def nextOnPath (pos : ℝ) : ℝ × Bool :=
  match P.switching.dropWhile fun q => decide (q.1 ≤ pos) with
  | [] => (P.length, true)
  | q :: _ => q

/-- A switching point: its position, velocity and the accelerations before and after. Used for
time_optimal_trajectory_parametrization.cpp:347-383, 385-419. -/
structure Switch where
  pos : ℝ
  vel : WithTop ℝ
  before : ℝ
  after : ℝ

/-- time_optimal_trajectory_parametrization.cpp:361-362, 364, 367: the acceleration at a velocity that may be
infinite. At infinity the terms of the joints are infinite or not a number and the minimum stays at the
largest double (the curvature is zero there, or the bound is not used). -/
noncomputable def accelerationAt (pos : ℝ) (vel : WithTop ℝ) (isMax : Bool) : ℝ :=
  match vel with
  | (v : ℝ) => P.acceleration pos v isMax
  | none => (if isMax then 1 else -1) * P.largest

/-- time_optimal_trajectory_parametrization.cpp:364, 367: the slope at a velocity that may be infinite -/
noncomputable def slopeAt (pos : ℝ) (vel : WithTop ℝ) (isMax : Bool) : Slope :=
  match vel with
  | (v : ℝ) => P.slope pos v isMax
  | none => some 0

/-- time_optimal_trajectory_parametrization.cpp:347-383 `GetNextAccelerationSwitchingPoint`; the inner `none`
is the end of the path -/
noncomputable def nextAcceleration : Nat → ℝ → Option (Option Switch)
  | 0, _ => none
  | fuel + 1, pos =>
    let q := P.nextOnPath pos
    if q.1 > P.length - eps then some none
    else if q.2 then
      let beforeVel := P.accelerationLimit (q.1 - eps)
      let afterVel := P.accelerationLimit (q.1 + eps)
      let vel := min beforeVel afterVel
      if (beforeVel > afterVel ∨
            (P.slopeAt (q.1 - eps) vel false).gt (P.accelerationLimitDeriv (q.1 - 2 * eps)) = true) ∧
          (beforeVel < afterVel ∨
            (P.accelerationLimitDeriv (q.1 + 2 * eps)).gt (P.slopeAt (q.1 + eps) vel true) = true) then
        some (some ⟨q.1, vel, P.accelerationAt (q.1 - eps) vel false, P.accelerationAt (q.1 + eps) vel true⟩)
      else nextAcceleration fuel q.1
    else
      let vel := P.accelerationLimit q.1
      if Slope.gt (some 0) (P.accelerationLimitDeriv (q.1 - eps)) = true ∧
          (P.accelerationLimitDeriv (q.1 + eps)).gt (some 0) = true then
        some (some ⟨q.1, vel, 0, 0⟩)
      else nextAcceleration fuel q.1

/-- time_optimal_trajectory_parametrization.cpp:394-395, 398-399: the comparison of the slope on the limit
with the slope of the limit -/
noncomputable def limitSlope (pos : ℝ) : Slope := P.slope pos (P.velocityLimit pos) false

/-- time_optimal_trajectory_parametrization.cpp:391-400: the search for a switching point in steps -/
noncomputable def scan : Nat → Bool → ℝ → Option ℝ
  | 0, _, _ => none
  | fuel + 1, start, pos =>
    let pos := pos + 1 / 1000
    let start := start || (P.limitSlope pos).ge (P.velocityLimitDeriv pos)
    if (!start || (P.limitSlope pos).gt (P.velocityLimitDeriv pos)) && decide (pos < P.length) then
      scan fuel start pos
    else some pos

/-- time_optimal_trajectory_parametrization.cpp:406-414: the bisection -/
noncomputable def refine : Nat → ℝ → ℝ → Option (ℝ × ℝ)
  | 0, _, _ => none
  | fuel + 1, before, after =>
    if after - before > 1 / 10 ^ 6 then
      let pos := (before + after) / 2
      if (P.limitSlope pos).gt (P.velocityLimitDeriv pos) then refine fuel pos after else refine fuel before pos
    else some (before, after)

/-- time_optimal_trajectory_parametrization.cpp:385-419 `GetNextVelocitySwitchingPoint` -/
noncomputable def nextVelocity (fuel : Nat) (pos : ℝ) : Option (Option Switch) := do
  let found ← P.scan fuel false (pos - 1 / 1000)
  if found ≥ P.length then some none
  else
    let (before, after) ← P.refine fuel (found - 1 / 1000) found
    some (some ⟨after, (P.velocityLimit after : ℝ), P.acceleration before (P.velocityLimit before) false,
      P.acceleration after (P.velocityLimit after) true⟩)

/-- time_optimal_trajectory_parametrization.cpp:311-316: the loop over acceleration switching points; gives
the last position too -/
noncomputable def usableAcceleration : Nat → ℝ → Option (Option Switch × ℝ)
  | 0, _ => none
  | fuel + 1, pos => do
    match ← P.nextAcceleration fuel pos with
    | none => some (none, pos)
    | some s => if s.vel > (P.velocityLimit s.pos : ℝ) then usableAcceleration fuel s.pos else some (some s, s.pos)

/-- time_optimal_trajectory_parametrization.cpp:322-329: the loop over velocity switching points -/
noncomputable def usableVelocity (accelerationPos : ℝ) : Nat → ℝ → Option (Option Switch)
  | 0, _ => none
  | fuel + 1, pos => do
    match ← P.nextVelocity fuel pos with
    | none => some none
    | some s =>
      if s.pos ≤ accelerationPos ∧
          (s.vel > P.accelerationLimit (s.pos - eps) ∨ s.vel > P.accelerationLimit (s.pos + eps)) then
        usableVelocity accelerationPos fuel s.pos
      else some (some s)

/-- time_optimal_trajectory_parametrization.cpp:305-345 `GetNextSwitchingPoint` -/
noncomputable def nextSwitch (fuel : Nat) (pos : ℝ) : Option (Option Switch) := do
  let (acceleration, accelerationPos) ← P.usableAcceleration fuel pos
  let velocity ← P.usableVelocity accelerationPos fuel pos
  match acceleration, velocity with
  | none, none => some none
  | some a, none => some (some a)
  | some a, some v => if a.pos ≤ v.pos then some (some a) else some (some v)
  | none, some v => some (some v)

/-! ## Integration -/

/-- A step under construction: position and velocity. Used for time_optimal_trajectory_parametrization.cpp:455,
471-472, 463-479. -/
abbrev Point := ℝ × ℝ

/-- time_optimal_trajectory_parametrization.cpp:448-452, 466-470: the velocity, lowered to the limit if the
limit can be followed from `old` -/
noncomputable def clamped (old pos vel : ℝ) : ℝ :=
  if vel > P.velocityLimit pos ∧ (P.velocityLimitDeriv old).ge (P.limitSlope old) = true then P.velocityLimit pos
  else vel

/-- time_optimal_trajectory_parametrization.cpp:455, 471-472 -/
def Exceeds (p : Point) : Prop := p.2 > P.velocityLimit p.1 ∨ (p.2 : WithTop ℝ) > P.accelerationLimit p.1

open Classical in
/-- time_optimal_trajectory_parametrization.cpp:463-479: the bisection -/
noncomputable def overshoot : Nat → Point → Point → Option (Point × Point)
  | 0, _, _ => none
  | fuel + 1, before, after =>
    if after.1 - before.1 > eps then
      let mid := 1 / 2 * (before.1 + after.1)
      let vel := P.clamped before.1 mid (1 / 2 * (before.2 + after.2))
      if P.Exceeds (mid, vel) then overshoot fuel before (mid, vel) else overshoot fuel (mid, vel) after
    else some (before, after)

/-- time_optimal_trajectory_parametrization.cpp:433-441: a step in time, which ends at the next discontinuity
if it is passed -/
noncomputable def stepped (discontinuities : List (ℝ × Bool)) (acceleration : ℝ) (old : Point) : Point :=
  let vel := old.2 + P.timeStep * acceleration
  let pos := old.1 + P.timeStep * (1 / 2) * (old.2 + vel)
  match discontinuities with
  | d :: _ => if pos > d.1 then (d.1, old.2 + (d.1 - old.1) * (vel - old.2) / (pos - old.1)) else (pos, vel)
  | [] => (pos, vel)

open Classical in
/-- time_optimal_trajectory_parametrization.cpp:422-496 `IntegrateForward`: `discontinuities` is what is left
of the switching points, `rev` the trajectory. The result says whether the end of the path was reached. -/
noncomputable def forward : Nat → List (ℝ × Bool) → ℝ → Point → List Point → Option (Out (Bool × List Point))
  | 0, _, _, _, _ => none
  | fuel + 1, discontinuities, acceleration, old, rev =>
    let discontinuities := discontinuities.dropWhile fun d => decide (d.1 ≤ old.1) || !d.2
    let new := P.stepped discontinuities acceleration old
    if new.1 > P.length then some (.ok (true, new :: rev))
    else if new.2 < 0 then some (.throws .runtimeError)
    else
      let new : Point := (new.1, P.clamped old.1 new.1 new.2)
      let acceleration := P.acceleration new.1 new.2 true
      if P.Exceeds new then
        match rev with
        | [] => some .ub
        | back :: _ => do
          let (before, after) ← P.overshoot fuel back new
          let rev := before :: rev
          if P.accelerationLimit after.1 < (P.velocityLimit after.1 : ℝ) then
            match discontinuities with
            | [] => some .ub
            | d :: _ =>
              if after.1 > d.1 then some (.ok (false, rev))
              else if (P.slope before.1 before.2 true).gt (P.accelerationLimitDeriv before.1) = true then
                some (.ok (false, rev))
              else forward fuel discontinuities acceleration new rev
          else if (P.slope before.1 before.2 false).gt (P.velocityLimitDeriv before.1) = true then
            some (.ok (false, rev))
          else forward fuel discontinuities acceleration new rev
      else forward fuel discontinuities acceleration new (new :: rev)

/-- time_optimal_trajectory_parametrization.cpp:528-533: the intersection of the line through two points of
the start trajectory with the line through a point with a slope, if it is between them. A quotient by zero
makes the comparisons false. -/
noncomputable def intersection (s1 s2 cur front : Point) (slope : Option ℝ) : Option Point :=
  match slope with
  | none => none
  | some slope =>
    if s2.1 - s1.1 = 0 then none
    else
      let startSlope := (s2.2 - s1.2) / (s2.1 - s1.1)
      if slope - startSlope = 0 then none
      else
        let pos := (s1.2 - cur.2 + slope * cur.1 - startSlope * s1.1) / (slope - startSlope)
        if max s1.1 cur.1 - eps ≤ pos ∧ pos ≤ eps + min s2.1 front.1 then
          some (pos, s1.2 + startSlope * (pos - s1.1))
        else none

/-- time_optimal_trajectory_parametrization.cpp:512-542: the loop of `IntegrateBackward`. `s2`, `s1`, `below`
are the start trajectory from `start2` down, `traj` is the new trajectory from its front, which is not empty
when the start trajectory is walked (lines 509-514). -/
noncomputable def backwardLoop : Nat → ℝ → Option ℝ → Point → List Point → Point → Point → List Point →
    Option (Out (List Point))
  | 0, _, _, _, _, _, _, _ => none
  | fuel + 1, acceleration, slope, cur, traj, s2, s1, below =>
    if below = [] ∧ cur.1 < 0 then some (.throws .runtimeError)
    else if s1.1 ≤ cur.1 then
      let vel := cur.2 - P.timeStep * acceleration
      let pos := cur.1 - P.timeStep * (1 / 2) * (vel + cur.2)
      let slope := if cur.1 - pos = 0 then none else some ((cur.2 - vel) / (cur.1 - pos))
      if vel < 0 then some (.throws .runtimeError)
      else
        match intersection s1 s2 (pos, vel) cur slope with
        | some x => some (.ok ((cur :: traj).reverse ++ x :: s1 :: below))
        | none => backwardLoop fuel (P.acceleration pos vel false) slope (pos, vel) (cur :: traj) s2 s1 below
    else
      match below with
      | [] => some .ub
      | s0 :: below =>
        match intersection s0 s1 cur (traj.headD cur) slope with
        | some x => some (.ok (traj.reverse ++ x :: s0 :: below))
        | none => backwardLoop fuel acceleration slope cur traj s1 s0 below

/-- time_optimal_trajectory_parametrization.cpp:498-543 `IntegrateBackward` -/
noncomputable def backward (fuel : Nat) (rev : List Point) (start : Point) (acceleration : ℝ) :
    Option (Out (List Point)) :=
  match rev with
  | s2 :: s1 :: below =>
    if s1.1 > start.1 then some (.throws .invalidArgument)
    else P.backwardLoop fuel acceleration (some 0) start [] s2 s1 below
  | _ => some .ub

/-- time_optimal_trajectory_parametrization.cpp:230-237, 262-269: the loop of the constructors -/
noncomputable def alternate : Nat → ℝ → List Point → Option (Out (List Point))
  | 0, _, _ => none
  | fuel + 1, acceleration, rev =>
    match rev with
    | [] => some .ub
    | back :: _ => do
      match ← P.forward fuel P.switching acceleration back rev with
      | .ok (true, rev) => some (.ok rev)
      | .ok (false, rev) =>
        match rev with
        | [] => some .ub
        | back :: _ =>
          match ← P.nextSwitch fuel back.1 with
          | none => some (.ok rev)
          | some s =>
            match ← P.backward fuel rev (s.pos, s.vel.untopD 0) s.before with
            | .ok rev => alternate fuel s.after rev
            | .throws e => some (.throws e)
            | .abort => some .abort
            | .ub => some .ub
      | .throws e => some (.throws e)
      | .abort => some .abort
      | .ub => some .ub

/-- time_optimal_trajectory_parametrization.cpp:228-239, 260-271: the steps before the timing, from the last
to the first -/
noncomputable def integrate (fuel : Nat) : Option (Out (List Point)) := do
  match ← P.alternate fuel (P.acceleration 0 0 true) [(0, 0)] with
  | .ok rev => P.backward fuel rev (P.length, 0) (P.acceleration P.length 0 false)
  | .throws e => some (.throws e)
  | .abort => some .abort
  | .ub => some .ub

end Problem

/-! ## Timing and queries -/

/-- A `TrajectoryStep`, time_optimal_trajectory_parametrization.hpp:82-89 -/
structure Step where
  pos : ℝ
  vel : ℝ
  time : ℝ

/-- time_optimal_trajectory_parametrization.cpp:245-249, 277-281: times of the steps after `previous` -/
noncomputable def timesFrom (previous : Step) : List Problem.Point → List Step
  | [] => []
  | p :: rest =>
    let step : Step := ⟨p.1, p.2, previous.time + (p.1 - previous.pos) / ((p.2 + previous.vel) / 2)⟩
    step :: timesFrom step rest

/-- time_optimal_trajectory_parametrization.cpp:240-249, 272-281: the steps with their times -/
noncomputable def timed : List Problem.Point → List Step
  | [] => []
  | p :: rest => ⟨p.1, p.2, 0⟩ :: timesFrom ⟨p.1, p.2, 0⟩ rest

/-- The members `cached_time_` and `cached_trajectory_segment_`, time_optimal_trajectory_parametrization.hpp:
114-115, the segment by its index; no time is the largest double, with which the object is made. -/
structure Cache where
  time : Option ℝ
  index : Nat

/-- time_optimal_trajectory_parametrization.cpp:227, 259 -/
def Cache.empty : Cache := ⟨none, 0⟩

/-- time_optimal_trajectory_parametrization.cpp:625-627: where the search starts -/
noncomputable def Cache.start (c : Cache) (time : ℝ) : Nat :=
  match c.time with
  | none => 0
  | some t => if time < t then 0 else c.index

/-- time_optimal_trajectory_parametrization.cpp:628-630: the loop of `GetTrajectorySegment` -/
noncomputable def advance (time : ℝ) (steps : List Step) (i : Nat) : Out Nat :=
  match h : steps[i]? with
  | none => .ub
  | some s => if time ≥ s.time then advance time steps (i + 1) else .ok i
termination_by steps.length - i
decreasing_by
  obtain ⟨h', _⟩ := List.getElem?_eq_some_iff.1 h
  omega

/-- time_optimal_trajectory_parametrization.cpp:619-634 `GetTrajectorySegment` -/
noncomputable def trajectorySegment (steps : List Step) (c : Cache) (time : ℝ) : Out Nat × Cache :=
  match steps.getLast? with
  | none => (.ub, c)
  | some last =>
    if time ≥ last.time then (.ok (steps.length - 1), c)
    else
      match advance time steps (c.start time) with
      | .ok i => (.ok i, ⟨some time, i⟩)
      | .throws e => (.throws e, c)
      | .abort => (.abort, c)
      | .ub => (.ub, c)

/-- time_optimal_trajectory_parametrization.cpp:640-647: position and velocity on the path between two steps -/
noncomputable def between (previous it : Step) (time : ℝ) : ℝ × ℝ :=
  let timestep := it.time - previous.time
  let acceleration := 2 * (it.pos - previous.pos - timestep * previous.vel) / (timestep * timestep)
  let timestep := time - previous.time
  (previous.pos + timestep * previous.vel + 1 / 2 * timestep * timestep * acceleration,
    previous.vel + timestep * acceleration)

/-- time_optimal_trajectory_parametrization.cpp:636-649 `GetPositionVelocity` -/
noncomputable def positionVelocity {n : Nat} (p : Path n) (steps : List Step) (c : Cache) (time : ℝ) :
    Out ((Fin n → ℝ) × (Fin n → ℝ)) × Cache :=
  let found := trajectorySegment steps c time
  (do
    let i ← found.1
    match i with
    | 0 => .ub
    | i + 1 =>
      match steps[i]?, steps[i + 1]? with
      | some previous, some it =>
        let at_ := between previous it time
        let config ← p.config at_.1
        let tangent ← p.tangent at_.1
        .ok (config, at_.2 • tangent)
      | _, _ => .ub,
   found.2)

/-- time_optimal_trajectory_parametrization.cpp:617 `Duration` -/
noncomputable def duration (steps : List Step) : Out ℝ :=
  match steps.getLast? with
  | none => .ub
  | some last => .ok last.time

open Classical in
/-- time_optimal_trajectory_parametrization.cpp:220-282: the constructors of `Trajectory` on a path. The path
without segments is dereferenced by the first evaluation. -/
noncomputable def makeTrajectory {n : Nat} (p : Path (n + 1)) (maxVelocity maxAcceleration : Fin (n + 1) → ℝ)
    (timeStep largest : ℝ) (fuel : Nat) : Option (Out (List Step)) :=
  if p.segments = [] then some .ub
  else do
    let P : Problem n := ⟨p.length, p.switching, fun s => (match p.tangent s with | .ok t => t | _ => 0),
      fun s => (match p.curvature s with | .ok t => t | _ => 0), maxVelocity, maxAcceleration, timeStep, largest⟩
    match ← P.integrate fuel with
    | .ok rev => some (.ok (timed rev.reverse))
    | .throws e => some (.throws e)
    | .abort => some .abort
    | .ub => some .ub

end Verif.Totg
