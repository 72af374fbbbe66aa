import Verif.Props.TotgTrajectoryExamples
import Verif.Props.TotgQuery
import Mathlib.Tactic.NormNum

/-!
# C111: finished trajectories that break the limits

Two constructions, from the waypoints to the answer of a query. In the first the last step forward passes the end of the
path and is not compared with the velocity limit. In the second the limit falls abruptly at a bend, and the velocity is
lowered to it in one step, whatever acceleration that takes.
-/
namespace Verif.Totg
open Verif

/-! ### One joint on a line -/

theorem one_norm : Projection.norm ((![1] : Fin 1 → ℝ) - ![0]) = 1 := by
  rw [← Projection.length_eq]
  simp [Projection.length]

theorem one_path : makePath [(![0] : Fin 1 → ℝ), ![1]] 1 = ⟨1, [], [(0, .line ![0] ![1])]⟩ := by
  have h : (Segment.line (![0] : Fin 1 → ℝ) ![1]).length = 1 := one_norm
  simp only [makePath, segmentsFrom, List.foldl, Path.add, h, Segment.switchingPoints, trim]
  simp

theorem one_tangent (s : ℝ) : (Path.mk 1 [] [(0, .line (![0] : Fin 1 → ℝ) ![1])]).tangent s = .ok ![1] := by
  show Out.ok ((1 / Projection.norm ((![1] : Fin 1 → ℝ) - ![0])) • ((![1] : Fin 1 → ℝ) - ![0])) = _
  rw [one_norm]
  congr 1
  funext i
  fin_cases i
  simp

theorem one_curvature (s : ℝ) : (Path.mk 1 [] [(0, .line (![0] : Fin 1 → ℝ) ![1])]).curvature s = .ok 0 := rfl

/-- one joint that moves over a distance of one -/
noncomputable def slow : Problem 0 where
  length := 1
  switching := []
  first := fun _ => ![1]
  second := fun _ => 0
  maxVelocity := ![1 / 2]
  maxAcceleration := ![4]
  timeStep := 1
  largest := 100

theorem slow_acceleration (s v : ℝ) (b : Bool) : slow.acceleration s v b = if b then 4 else -4 := by
  cases b <;> simp [Problem.acceleration, minMaxAcceleration, slow, List.finRange] <;> norm_num

theorem slow_integrate : slow.integrate 2 = some (.ok [(1, 0), (1 / 2, 1), (0, 0)]) := by
  have hl : slow.length = 1 := rfl
  have ht : slow.timeStep = 1 := rfl
  have hs : slow.switching = [] := rfl
  have hf : slow.forward 1 [] 4 (0, 0) [(0, 0)] = some (.ok (true, [(2, 4), (0, 0)])) := by
    rw [Problem.forward]
    have e : slow.stepped [] 4 (0, 0) = (2, 4) := by simp [Problem.stepped, ht]; norm_num
    simp only [List.dropWhile_nil, e]
    rw [if_pos (by rw [hl]; norm_num)]
  unfold Problem.integrate
  rw [Problem.alternate.eq_def]
  simp only [slow_acceleration, if_true, hs, hf, Option.bind_eq_bind, Option.bind_some, hl]
  simp only [Problem.backward]
  rw [if_neg (by norm_num), Problem.backwardLoop.eq_def]
  simp only [ht]
  rw [if_neg (by norm_num), if_pos (by norm_num), if_neg (by norm_num), if_neg (by norm_num)]
  have : Problem.intersection (0, 0) (2, 4) (1 - 1 * (1 / 2) * (0 - 1 * -4 + 0), 0 - 1 * -4) (1, 0)
      (some ((0 - (0 - 1 * -4)) / (1 - (1 - 1 * (1 / 2) * (0 - 1 * -4 + 0))))) = some ((1 / 2 : ℝ), (1 : ℝ)) := by
    unfold Problem.intersection
    simp only
    rw [if_neg (by norm_num), if_neg (by norm_num), if_pos]
    · norm_num
    · unfold eps
      norm_num
  rw [if_neg (show ¬ (1 - (1 - 1 * (1 / 2) * (0 - 1 * -4 + 0)) : ℝ) = 0 by norm_num), this]
  rfl

theorem slow_trajectory : makeTrajectory (makePath [(![0] : Fin 1 → ℝ), ![1]] 1) ![1 / 2] ![4] 1 100 2 =
    some (.ok [⟨0, 0, 0⟩, ⟨1 / 2, 1, 1⟩, ⟨1, 0, 2⟩]) := by
  rw [one_path]
  unfold makeTrajectory
  rw [if_neg (by simp)]
  simp only [one_tangent, one_curvature]
  have := slow_integrate
  unfold slow at this
  simp only [this, Option.bind_eq_bind, Option.bind_some]
  simp [timed, timesFrom]
  norm_num

/-- C111: the last sentence is false for velocities. On a straight path of length one, with a joint that may move at one
half, the trajectory moves at one. -/
theorem C111_velocity_wrong : ∃ (steps : List Step) (q v : Fin 1 → ℝ),
    makeTrajectory (makePath [(![0] : Fin 1 → ℝ), ![1]] 1) ![1 / 2] ![4] 1 100 2 = some (.ok steps) ∧
    (positionVelocity (makePath [(![0] : Fin 1 → ℝ), ![1]] 1) steps Cache.empty 1).1 = .ok (q, v) ∧ v 0 = 1 := by
  refine ⟨_, ![1 / 2], ![1], slow_trajectory, ?_, rfl⟩
  rw [one_path]
  have hseg : trajectorySegment [⟨0, 0, 0⟩, ⟨1 / 2, 1, 1⟩, ⟨1, 0, 2⟩] Cache.empty 1 = (.ok 2, ⟨some 1, 2⟩) := by
    unfold trajectorySegment
    have hc : Cache.empty.start (1 : ℝ) = 0 := rfl
    have h2 : advance 1 [⟨0, 0, 0⟩, ⟨1 / 2, 1, 1⟩, ⟨1, 0, 2⟩] 0 = .ok 2 := by
      rw [advance]; simp only [List.getElem?_cons_zero]
      rw [if_pos (by norm_num), advance]; simp only [List.getElem?_cons_succ, List.getElem?_cons_zero]
      rw [if_pos (by norm_num), advance]; simp only [List.getElem?_cons_succ, List.getElem?_cons_zero]
      rw [if_neg (by norm_num)]
    simp only [hc, h2, List.getLast?_cons_cons, List.getLast?_singleton]
    rw [if_neg (by norm_num)]
  have hb : between ⟨1 / 2, 1, 1⟩ ⟨1, 0, 2⟩ 1 = (1 / 2, 1) := by
    unfold between; norm_num
  unfold positionVelocity
  rw [hseg]
  have hcfg : (Path.mk 1 [] [(0, .line (![0] : Fin 1 → ℝ) ![1])]).config (1 / 2) = .ok ![1 / 2] := by
    have : (Angles.safetyCheckUnitInterval ((1 / 2 - 0 : ℝ) / 1)).1 = 1 / 2 := by
      unfold Angles.safetyCheckUnitInterval
      norm_num
    show Out.ok ((1 - (Angles.safetyCheckUnitInterval ((1 / 2 - 0) / Projection.norm ((![1] : Fin 1 → ℝ) - ![0]))).1) •
      (![0] : Fin 1 → ℝ) + (Angles.safetyCheckUnitInterval ((1 / 2 - 0) / Projection.norm ((![1] : Fin 1 → ℝ) - ![0]))).1 •
      ![1]) = _
    rw [one_norm]
    congr 1
    rw [this]
    funext i
    fin_cases i
    simp
  simp only [Out.bind_ok, List.getElem?_cons_succ, List.getElem?_cons_zero, hb, one_tangent, hcfg]
  congr 2
  funext i
  fin_cases i
  simp

/-! ### Two joints around a corner -/

theorem bend_first : Projection.norm ((![3 / 2, 0] : Fin 2 → ℝ) - ![0, 0]) = 3 / 2 := by
  rw [← Projection.length_eq]
  simp [Projection.length, Fin.sum_univ_two]
  rw [Real.sqrt_sq (by norm_num)]

theorem bend_second : Projection.norm ((![3 / 2, 1] : Fin 2 → ℝ) - ![3 / 2, 0]) = 1 := by
  rw [← Projection.length_eq]
  simp [Projection.length, Fin.sum_univ_two]

/-- the path over the corner, with its two segments -/
noncomputable def bendPath : Path 2 :=
  ⟨5 / 2, [(3 / 2, true)], [(0, .line ![0, 0] ![3 / 2, 0]), (3 / 2, .line ![3 / 2, 0] ![3 / 2, 1])]⟩

theorem bend_path : makePath [(![0, 0] : Fin 2 → ℝ), ![3 / 2, 0], ![3 / 2, 1]] 0 = bendPath := by
  have h1 : (Segment.line (![0, 0] : Fin 2 → ℝ) ![3 / 2, 0]).length = 3 / 2 := bend_first
  have h2 : (Segment.line (![3 / 2, 0] : Fin 2 → ℝ) ![3 / 2, 1]).length = 1 := bend_second
  simp only [makePath, segmentsFrom, gt_iff_lt, lt_irrefl, if_false, List.foldl, Path.add, h1, h2,
    Segment.switchingPoints, trim, bendPath]
  norm_num

theorem bend_tangent (s : ℝ) : bendPath.tangent s = .ok (if s < 3 / 2 then ![1, 0] else ![0, 1]) := by
  have t1 : (Segment.line (![0, 0] : Fin 2 → ℝ) ![3 / 2, 0]).tangent s = ![1, 0] := by
    show (1 / Projection.norm ((![3 / 2, 0] : Fin 2 → ℝ) - ![0, 0])) • ((![3 / 2, 0] : Fin 2 → ℝ) - ![0, 0]) = _
    rw [bend_first]
    funext i
    fin_cases i <;> simp
  have t2 : (Segment.line (![3 / 2, 0] : Fin 2 → ℝ) ![3 / 2, 1]).tangent s = ![0, 1] := by
    show (1 / Projection.norm ((![3 / 2, 1] : Fin 2 → ℝ) - ![3 / 2, 0])) • ((![3 / 2, 1] : Fin 2 → ℝ) - ![3 / 2, 0]) = _
    rw [bend_second]
    funext i
    fin_cases i <;> simp
  by_cases h : s < 3 / 2
  · rw [if_pos h, ← t1]
    simp only [Path.tangent, Path.segmentAt, bendPath, findSegment]
    rw [if_neg (not_le.2 h)]
    rfl
  · rw [if_neg h, ← t2]
    simp only [Path.tangent, Path.segmentAt, bendPath, findSegment]
    rw [if_pos (not_lt.1 h)]
    rfl

theorem bend_curvature (s : ℝ) : bendPath.curvature s = .ok 0 := by
  simp only [Path.curvature, Path.segmentAt, bendPath, findSegment]
  split <;> rfl

/-- two joints; the first may move fast, the second only at one half -/
noncomputable def bend : Problem 1 where
  length := 5 / 2
  switching := [(3 / 2, true)]
  first := fun s => if s < 3 / 2 then ![1, 0] else ![0, 1]
  second := fun _ => 0
  maxVelocity := ![10, 1 / 2]
  maxAcceleration := ![2, 2]
  timeStep := 1
  largest := 100

theorem bend_acceleration (s v : ℝ) (b : Bool) : bend.acceleration s v b = if b then 2 else -2 := by
  by_cases h : s < 3 / 2 <;> cases b <;>
    simp [Problem.acceleration, minMaxAcceleration, bend, List.finRange, h] <;> norm_num

theorem bend_velocityLimit (s : ℝ) : bend.velocityLimit s = if s < 3 / 2 then 10 else 1 / 2 := by
  by_cases h : s < 3 / 2 <;>
    simp [Problem.velocityLimit, velocityMaxVelocity, bend, List.finRange, h] <;> norm_num

theorem bend_accelerationLimit (s : ℝ) : bend.accelerationLimit s = ⊤ := by
  by_cases h : s < 3 / 2 <;>
    simp [Problem.accelerationLimit, accelerationMaxVelocity, pairLimits, bend, List.finRange, h]

theorem bend_followed : (bend.velocityLimitDeriv 1).ge (bend.limitSlope 1) = true := by
  have h1 : bend.limitSlope 1 = some ((-2 / 10 : ℝ) : EReal) := by
    unfold Problem.limitSlope Problem.slope quot
    rw [bend_acceleration, bend_velocityLimit]
    norm_num
  have h2 : bend.velocityLimitDeriv 1 = some ((0 : ℝ) : EReal) := by
    unfold Problem.velocityLimitDeriv
    have : activeConstraint bend.largest bend.maxVelocity (bend.first 1) = 0 := by
      simp [activeConstraint, bend, List.finRange]; norm_num
    rw [this]
    simp [bend, quot]; norm_num
  rw [h1, h2]
  simp only [Slope.ge, decide_eq_true_eq, ge_iff_le, EReal.coe_le_coe_iff]
  norm_num

theorem bend_forward : bend.forward 3 [(3 / 2, true)] 2 (0, 0) [(0, 0)] =
    some (.ok (true, [(3, 5 / 2), (3 / 2, 1 / 2), (1, 2), (0, 0)])) := by
  have hl : bend.length = 5 / 2 := rfl
  have ht : bend.timeStep = 1 := rfl
  have hlim : ∀ p : ℝ × ℝ, bend.Exceeds p ↔ p.2 > if p.1 < 3 / 2 then 10 else 1 / 2 := by
    intro p
    unfold Problem.Exceeds
    rw [bend_velocityLimit, bend_accelerationLimit]
    simp
  rw [Problem.forward]
  have d1 : ([((3 / 2 : ℝ), true)].dropWhile fun d => decide (d.1 ≤ ((0 : ℝ), (0 : ℝ)).1) || !d.2) = [(3 / 2, true)] := by
    simp
  have e1 : bend.stepped [(3 / 2, true)] 2 (0, 0) = (1, 2) := by
    simp only [Problem.stepped, ht]
    rw [if_neg (by norm_num)]
    norm_num
  have c1 : bend.clamped 0 1 2 = 2 := by
    unfold Problem.clamped
    rw [bend_velocityLimit, if_neg]
    norm_num
  simp only [d1, e1, c1]
  rw [if_neg (by rw [hl]; norm_num), if_neg (by norm_num), if_neg (by rw [hlim]; simp only [d1, e1, c1]; norm_num), bend_acceleration,
    Problem.forward]
  have d2 : ([((3 / 2 : ℝ), true)].dropWhile fun d => decide (d.1 ≤ ((1 : ℝ), (2 : ℝ)).1) || !d.2) = [(3 / 2, true)] := by
    have : ¬ (3 / 2 : ℝ) ≤ 1 := by norm_num
    simp [this]
  have e2 : bend.stepped [(3 / 2, true)] 2 (1, 2) = (3 / 2, 7 / 3) := by
    simp only [Problem.stepped, ht]
    rw [if_pos (by norm_num)]
    norm_num
  have c2 : bend.clamped 1 (3 / 2) (7 / 3) = 1 / 2 := by
    unfold Problem.clamped
    rw [if_pos ⟨by rw [bend_velocityLimit]; norm_num, bend_followed⟩, bend_velocityLimit]
    norm_num
  simp only [if_true, d2, e2, c2]
  rw [if_neg (by rw [hl]; norm_num), if_neg (by norm_num), if_neg (by rw [hlim]; simp only [if_true, d2, e2, c2]; norm_num), bend_acceleration,
    Problem.forward]
  have d3 : ([((3 / 2 : ℝ), true)].dropWhile fun d => decide (d.1 ≤ ((3 / 2 : ℝ), (1 / 2 : ℝ)).1) || !d.2) = [] := by
    simp
  have e3 : bend.stepped [] 2 (3 / 2, 1 / 2) = (3, 5 / 2) := by
    simp only [Problem.stepped, ht]
    norm_num
  simp only [if_true, d3, e3]
  rw [if_pos (by rw [hl]; norm_num)]

theorem bend_integrate : bend.integrate 4 =
    some (.ok [(5 / 2, 0), (39 / 20, 11 / 10), (3 / 2, 1 / 2), (1, 2), (0, 0)]) := by
  have hl : bend.length = 5 / 2 := rfl
  have ht : bend.timeStep = 1 := rfl
  have hs : bend.switching = [(3 / 2, true)] := rfl
  unfold Problem.integrate
  rw [Problem.alternate.eq_def]
  simp only [bend_acceleration, if_true, hs, bend_forward, Option.bind_eq_bind, Option.bind_some, hl]
  simp only [Problem.backward]
  rw [if_neg (by norm_num), Problem.backwardLoop.eq_def]
  simp only [ht]
  rw [if_neg (by norm_num), if_pos (by norm_num), if_neg (by norm_num), if_neg (by norm_num)]
  have : Problem.intersection (3 / 2, 1 / 2) (3, 5 / 2) (5 / 2 - 1 * (1 / 2) * (0 - 1 * -2 + 0), 0 - 1 * -2) (5 / 2, 0)
      (some ((0 - (0 - 1 * -2)) / (5 / 2 - (5 / 2 - 1 * (1 / 2) * (0 - 1 * -2 + 0))))) =
      some ((39 / 20 : ℝ), (11 / 10 : ℝ)) := by
    unfold Problem.intersection
    simp only
    rw [if_neg (by norm_num), if_neg (by norm_num), if_pos]
    · norm_num
    · unfold eps
      norm_num
  rw [if_neg (show ¬ (5 / 2 - (5 / 2 - 1 * (1 / 2) * (0 - 1 * -2 + 0)) : ℝ) = 0 by norm_num), this]
  rfl

/-- the steps of the trajectory around the corner -/
noncomputable def bendSteps : List Step := [⟨0, 0, 0⟩, ⟨1, 2, 1⟩, ⟨3 / 2, 1 / 2, 7 / 5⟩, ⟨39 / 20, 11 / 10, 157 / 80⟩,
  ⟨5 / 2, 0, 237 / 80⟩]

theorem bend_trajectory : makeTrajectory (makePath [(![0, 0] : Fin 2 → ℝ), ![3 / 2, 0], ![3 / 2, 1]] 0)
    ![10, 1 / 2] ![2, 2] 1 100 4 = some (.ok bendSteps) := by
  rw [bend_path]
  unfold makeTrajectory
  rw [if_neg (by simp [bendPath])]
  simp only [bend_tangent, bend_curvature]
  have := bend_integrate
  unfold bend at this
  have h1 : bendPath.length = 5 / 2 := rfl
  have h2 : bendPath.switching = [(3 / 2, true)] := rfl
  simp only [h1, h2, this, Option.bind_eq_bind, Option.bind_some]
  simp only [timed, timesFrom, bendSteps, List.reverse_cons, List.reverse_nil, List.nil_append, List.cons_append]
  norm_num

theorem bend_query (time pos vel : ℝ) (h1 : 1 ≤ time) (h2 : time < 7 / 5)
    (hb : between ⟨1, 2, 1⟩ ⟨3 / 2, 1 / 2, 7 / 5⟩ time = (pos, vel)) (hp : pos < 3 / 2) :
    ∃ q, (positionVelocity bendPath bendSteps Cache.empty time).1 = .ok (q, ![vel, 0]) := by
  have hseg : trajectorySegment bendSteps Cache.empty time = (.ok 2, ⟨some time, 2⟩) := by
    unfold trajectorySegment
    have hc : Cache.empty.start time = 0 := rfl
    have ha : advance time bendSteps 0 = .ok 2 := by
      unfold bendSteps
      rw [advance]; simp only [List.getElem?_cons_zero]
      rw [if_pos (by linarith), advance]; simp only [List.getElem?_cons_succ, List.getElem?_cons_zero]
      rw [if_pos (by linarith), advance]; simp only [List.getElem?_cons_succ, List.getElem?_cons_zero]
      rw [if_neg (by linarith)]
    simp only [hc, ha]
    have hlast : bendSteps.getLast? = some ⟨5 / 2, 0, 237 / 80⟩ := rfl
    simp only [hlast]
    rw [if_neg (by linarith)]
  unfold positionVelocity
  rw [hseg]
  have hcfg : ∃ q, bendPath.config pos = .ok q := by
    unfold Path.config Path.segmentAt bendPath
    exact ⟨_, rfl⟩
  obtain ⟨q, hq⟩ := hcfg
  refine ⟨q, ?_⟩
  have g1 : bendSteps[1]? = some ⟨1, 2, 1⟩ := rfl
  have g2 : bendSteps[1 + 1]? = some ⟨3 / 2, 1 / 2, 7 / 5⟩ := rfl
  simp only [Out.bind_ok, g1, g2, hb, bend_tangent, hq, if_pos hp]
  congr 2
  funext i
  fin_cases i <;> simp

/-- C111: the last sentence is false for accelerations. Before a corner into an edge along which a slower joint moves, the
first joint, which may brake at two, goes from the velocity 2 to 5/4 in a fifth of a second. Both are on one straight
edge. -/
theorem C111_acceleration_wrong : ∃ (steps : List Step) (q q' v v' : Fin 2 → ℝ),
    let p := makePath [(![0, 0] : Fin 2 → ℝ), ![3 / 2, 0], ![3 / 2, 1]] 0
    makeTrajectory p ![10, 1 / 2] ![2, 2] 1 100 4 = some (.ok steps) ∧
    (positionVelocity p steps Cache.empty 1).1 = .ok (q, v) ∧
    (positionVelocity p steps Cache.empty (6 / 5)).1 = .ok (q', v') ∧ |v' 0 - v 0| > 2 * (6 / 5 - 1) := by
  obtain ⟨q, h1⟩ := bend_query 1 1 2 le_rfl (by norm_num) (by unfold between; norm_num) (by norm_num)
  obtain ⟨q', h2⟩ := bend_query (6 / 5) (53 / 40) (5 / 4) (by norm_num) (by norm_num) (by unfold between; norm_num)
    (by norm_num)
  refine ⟨bendSteps, q, q', ![2, 0], ![5 / 4, 0], bend_trajectory, ?_, ?_, ?_⟩
  · rw [bend_path]; exact h1
  · rw [bend_path]; exact h2
  · show |(5 / 4 : ℝ) - 2| > _
    rw [abs_of_neg] <;> norm_num

/-! ### Limits with which nothing moves -/

theorem forward_rests {n : Nat} {P : Problem n} (hs : P.Sound) (h : P.timeStep * P.acceleration 0 0 true = 0) (fuel : Nat) :
    ∀ disc rev, P.forward fuel disc (P.acceleration 0 0 true) (0, 0) rev = none := by
  induction fuel with
  | zero => intro disc rev; rfl
  | succ fuel ih =>
    intro disc rev
    rw [Problem.forward]
    generalize hd : disc.dropWhile (fun d => decide (d.1 ≤ ((0 : ℝ), (0 : ℝ)).1) || !d.2) = left
    have hstep : P.stepped left (P.acceleration 0 0 true) (0, 0) = (0, 0) := by
      unfold Problem.stepped
      cases left with
      | nil => simp [h]
      | cons d rest =>
        have h1 := List.head?_dropWhile_not (fun d : ℝ × Bool => decide (d.1 ≤ ((0 : ℝ), (0 : ℝ)).1) || !d.2) disc
        rw [hd] at h1
        simp only [List.head?_cons, Bool.or_eq_false_iff, decide_eq_false_iff_not, not_le] at h1
        simp only [h]
        rw [if_neg (by simpa using h1.1.le)]
        simp
    have hfe : P.Feasible (0, 0) := ⟨le_rfl, fun i => by simpa using hs.velocity i, 0, fun i => by
      simpa using hs.acceleration i⟩
    have hw : P.Within (0, 0) := (Problem.within_iff hs (0, 0)).2 ⟨hfe, hs.largest⟩
    have hclamp : P.clamped 0 0 0 = 0 := by
      unfold Problem.clamped
      rw [if_neg]
      rintro ⟨h, -⟩
      exact hw.1 (Or.inl h)
    simp only [hstep, hclamp]
    rw [if_neg (not_lt.2 hs.length), if_neg (lt_irrefl _)]
    split
    · rename_i hx
      rw [hstep, hclamp] at hx
      exact absurd hx hw.1
    · exact ih _ _

/-- C111: with a time step of zero, or an acceleration limit of zero for a joint that moves at the start of the path, the
construction never ends, whatever the other limits are. -/
theorem C111_never_ends {n : Nat} (P : Problem n) (hs : P.Sound)
    (h : P.timeStep = 0 ∨ ∃ i, P.first 0 i ≠ 0 ∧ P.maxAcceleration i = 0) (fuel : Nat) : P.integrate fuel = none := by
  have h0 : P.timeStep * P.acceleration 0 0 true = 0 := by
    rcases h with h | ⟨i, hi, ha⟩
    · rw [h, zero_mul]
    · have hz := (C109_acceleration P.largest P.maxAcceleration (P.first 0) (P.second 0) 0 0).2
        ⟨by simpa using hs.largest, fun j _ => by simpa using hs.acceleration j⟩
      have hm := ((C109_acceleration P.largest P.maxAcceleration (P.first 0) (P.second 0) 0 _).1
        ⟨hz.1.trans hz.2, le_rfl⟩).2 i hi
      rw [ha] at hm
      have : P.first 0 i * P.acceleration 0 0 true = 0 := by
        have := abs_nonpos_iff.1 hm
        simpa [Problem.acceleration] using this
      rw [(mul_eq_zero.1 this).resolve_left hi, mul_zero]
  unfold Problem.integrate
  cases fuel with
  | zero => rfl
  | succ fuel =>
    rw [Problem.alternate.eq_def]
    simp only [forward_rests hs h0]
    rfl

example : ({ slow with maxAcceleration := 0 } : Problem 0).Sound ∧
    ∃ i, ({ slow with maxAcceleration := 0 } : Problem 0).first 0 i ≠ 0 ∧
      ({ slow with maxAcceleration := 0 } : Problem 0).maxAcceleration i = 0 := by
  refine ⟨?_, 0, ?_, rfl⟩
  · constructor <;> simp [slow]
  · simp [slow]

end Verif.Totg
