import Mathlib.Analysis.Calculus.Deriv.Prod
import Mathlib.Analysis.Real.Pi.Bounds
import Verif.Model.Se2Robot
import Verif.Spec.RobotBody
import Verif.Lemmas.RobotJacobian
import Verif.Props.Pose
import Verif.Props.Angles
import Verif.Props.Averages
import Verif.Props.PointSets

/-!
# Robots in the plane (C102)
-/
namespace Verif.Se2Robot
open Verif Matrix Verif.Kinematics Verif.Pose Verif.RobotBody

/-- The robot after setting positions one after the other -/
noncomputable def after (r : Robot) (positions : List Config) : Robot := positions.foldl setPosition r

theorem after_names (r : Robot) (positions : List Config) : (after r positions).linkName = r.linkName ∧
    (after r positions).positionWeight = r.positionWeight ∧ (after r positions).rotationWeight = r.rotationWeight := by
  induction positions generalizing r with
  | nil => exact ⟨rfl, rfl, rfl⟩
  | cons p ps ih => exact ih (setPosition r p)

theorem matrix_one : toRotationMatrix ⟨1, 0, 0, 0⟩ = 1 := by
  ext i j; fin_cases i <;> fin_cases j <;> simp [toRotationMatrix]

theorem pose_eq (c : Config) : computePose c = ⟨aboutZ (c 2), ![c 0, c 1, 0]⟩ := by
  unfold computePose
  simp only [matrix_z, matrix_one, Transform.mul, Matrix.one_mul, mulVec_zero, zero_add]

theorem after_last (r : Robot) (positions : List Config) (p : Config) :
    after r (positions ++ [p]) = setPosition (after r positions) p := by
  unfold after; rw [List.foldl_append]; rfl

/-- C102: after construction and any number of new positions, the robot is at the last position, with the angle in the range
from -pi to pi; its only link is there, found by its name. Other names throw. -/
theorem C102_position (initial : Config) (pw rw' : ℝ) (name : String) (positions : List Config) :
    let r := after (make initial pw rw' name) positions
    let p := positions.getLast?.getD initial
    (getPosition r 0 = p 0 ∧ getPosition r 1 = p 1 ∧ Angles.SameAngle Real.pi (p 2) (getPosition r 2) ∧
      Angles.Principal Real.pi (getPosition r 2)) ∧
    linkNames r = [name] ∧ (∀ other, other ≠ name → linkTransform r other = .throws .invalidArgument) ∧
    ∃ T, linkTransform r name = .ok T ∧ linkTransforms r = [T] ∧ linkTransformsMap r = [(name, T)] ∧
      (∀ q, T.rotation *ᵥ q + T.translation = planar (p 0) (p 1) (p 2) q) := by
  intro r p
  have hr : ∃ r0 : Robot, r0.linkName = name ∧ r = setPosition r0 p := by
    rcases List.eq_nil_or_concat positions with h | ⟨ps, q, h⟩
    · refine ⟨⟨⟨0, 0⟩, 0, |pw|, |rw'|, name⟩, rfl, ?_⟩
      show after _ positions = setPosition _ (positions.getLast?.getD initial)
      rw [h]; rfl
    · refine ⟨after (make initial pw rw' name) ps, (after_names _ ps).1, ?_⟩
      show after _ positions = setPosition _ (positions.getLast?.getD initial)
      rw [h, List.concat_eq_append, after_last]
      simp
  obtain ⟨r0, h0, hr⟩ := hr
  clear_value r p
  subst hr
  obtain ⟨w1, w2, -⟩ := Angles.C46_wrap Real.pi Real.pi_pos (p 2)
  refine ⟨⟨rfl, rfl, w2, w1⟩, congrArg (fun x => [x]) h0, fun other ho => ?_, ?_⟩
  · unfold linkTransform
    rw [if_neg]
    show ¬ other = r0.linkName
    rw [h0]; exact ho
  · refine ⟨(setPosition r0 p).pose, ?_, rfl, ?_, fun q => ?_⟩
    · unfold linkTransform
      rw [if_pos]
      exact h0.symm
    · show [(r0.linkName, _)] = _
      rw [h0]
    · have hz : aboutZ (Angles.enforceBounds Real.pi (p 2)) = aboutZ (p 2) := by
        obtain ⟨k, hk⟩ := w2
        unfold aboutZ
        rw [hk, Real.cos_add_int_mul_two_pi, Real.sin_add_int_mul_two_pi]
      show (computePose _).rotation *ᵥ q + (computePose _).translation = _
      rw [pose_eq]
      unfold planar
      show aboutZ (Angles.enforceBounds Real.pi (p 2)) *ᵥ q + ![p 0, p 1, 0] = _
      rw [hz]

theorem planar_triangle (x y x' y' x'' y'' : ℝ) :
    planarDistance x y x'' y'' ≤ planarDistance x y x' y' + planarDistance x' y' x'' y'' := by
  have h := PointSets.triangle ![x, y, 0] ![x', y', 0] ![x'', y'', 0]
  unfold planarDistance
  simpa [Projection.distance, Fin.sum_univ_three, sub_sq_comm] using h

/-- C102: the distance adds the distance in the plane and the angle of the shortest turn, each with its weight without sign.
It is a metric; if the weights are not zero, then it is zero only for equal places and angles. -/
theorem C102_distance (initial : Config) (pw rw' : ℝ) (name : String) (positions : List Config) (a b c : Config) :
    let r := after (make initial pw rw' name) positions
    configurationDistance r a b = |pw| * planarDistance (a 0) (a 1) (b 0) (b 1) +
      |rw'| * Angles.revoluteDistance Real.pi (a 2) (b 2) ∧
    configurationDistanceTo r b = configurationDistance r (getPosition r) b ∧
    0 ≤ configurationDistance r a b ∧ configurationDistance r a b = configurationDistance r b a ∧
    configurationDistance r a c ≤ configurationDistance r a b + configurationDistance r b c ∧
    (pw ≠ 0 → rw' ≠ 0 → (configurationDistance r a b = 0 ↔
      a 0 = b 0 ∧ a 1 = b 1 ∧ Angles.SameAngle Real.pi (a 2) (b 2))) := by
  intro r
  obtain ⟨-, hp, hq⟩ := after_names (make initial pw rw' name) positions
  have hp : r.positionWeight = |pw| := hp
  have hq : r.rotationWeight = |rw'| := hq
  have key : ∀ a b : Config, configurationDistance r a b = |pw| * planarDistance (a 0) (a 1) (b 0) (b 1) +
      |rw'| * Angles.revoluteDistance Real.pi (a 2) (b 2) := by
    intro a b
    simp only [configurationDistance, signedDistances, hp, hq, planarDistance, Angles.revoluteDistance, cons_val_zero,
      cons_val_one, cons_val]
    rw [← sq, ← sq]
    ring
  clear_value r
  have d0 : ∀ x y x' y' : ℝ, 0 ≤ planarDistance x y x' y' := fun _ _ _ _ => Real.sqrt_nonneg _
  have r0 : ∀ x y : ℝ, 0 ≤ Angles.revoluteDistance Real.pi x y := fun _ _ => abs_nonneg _
  have hA := Angles.C47_distance Real.pi Real.pi_pos (a 2) (b 2)
  obtain ⟨-, -, -, s1, s2, -, s3⟩ := hA
  refine ⟨key a b, rfl, ?_, ?_, ?_, fun h1 h2 => ?_⟩
  · rw [key]
    exact add_nonneg (mul_nonneg (abs_nonneg _) (d0 _ _ _ _)) (mul_nonneg (abs_nonneg _) (r0 _ _))
  · rw [key, key, s1]
    congr 2
    unfold planarDistance
    congr 1; ring
  · rw [key, key, key]
    have t1 := mul_le_mul_of_nonneg_left (planar_triangle (a 0) (a 1) (b 0) (b 1) (c 0) (c 1)) (abs_nonneg pw)
    have t2 := mul_le_mul_of_nonneg_left (s3 (c 2)) (abs_nonneg rw')
    linarith
  · have p1 := abs_pos.2 h1
    have p2 := abs_pos.2 h2
    rw [key, add_eq_zero_iff_of_nonneg (mul_nonneg (abs_nonneg _) (d0 _ _ _ _)) (mul_nonneg (abs_nonneg _) (r0 _ _)),
      mul_eq_zero, or_iff_right p1.ne', mul_eq_zero, or_iff_right p2.ne', s2]
    unfold planarDistance
    rw [Real.sqrt_eq_zero (by positivity), add_eq_zero_iff_of_nonneg (sq_nonneg _) (sq_nonneg _), sq_eq_zero_iff,
      sq_eq_zero_iff, sub_eq_zero, sub_eq_zero, and_assoc]
    constructor
    · rintro ⟨h1, h2, h3⟩; exact ⟨h1.symm, h2.symm, h3⟩
    · rintro ⟨h1, h2, h3⟩; exact ⟨h1.symm, h2.symm, h3⟩

/-- C102: the distances by dimension are those in the plane without sign, and the angle of the shortest turn. -/
theorem C102_dimensions (a b : Config) :
    signedDistances a b 0 = b 0 - a 0 ∧ signedDistances a b 1 = b 1 - a 1 ∧
    signedDistances a b 2 = Angles.signedDistance Real.pi (a 2) (b 2) ∧
    distances a b = ![|b 0 - a 0|, |b 1 - a 1|, Angles.revoluteDistance Real.pi (a 2) (b 2)] := by
  refine ⟨rfl, rfl, rfl, ?_⟩
  ext i
  fin_cases i <;> rfl

/-- C102: interpolation goes straight in the plane and turns the shortest way, by the ratio cut off at 0 and 1; it starts at
the start and ends at the end. -/
theorem C102_interpolate (a b : Config) (ratio : ℝ) :
    let x := interpolate a b ratio
    let s := min 1 (max 0 ratio)
    x 0 = a 0 + s * (b 0 - a 0) ∧ x 1 = a 1 + s * (b 1 - a 1) ∧ (-Real.pi ≤ x 2 ∧ x 2 ≤ Real.pi) ∧
    (∃ t, |t| = Angles.revoluteDistance Real.pi (a 2) (b 2) ∧ Angles.SameAngle Real.pi (a 2 + t) (b 2) ∧
      Angles.SameAngle Real.pi (a 2 + s * t) (x 2)) ∧
    (ratio ≤ 0 → x 0 = a 0 ∧ x 1 = a 1 ∧ Angles.SameAngle Real.pi (a 2) (x 2)) ∧
    (1 ≤ ratio → x 0 = b 0 ∧ x 1 = b 1 ∧ Angles.SameAngle Real.pi (b 2) (x 2)) := by
  intro x s
  obtain ⟨k1, k2, k3, k4, k5, k6⟩ := Angles.C72_revolute Real.pi Real.pi_pos (a 2) (b 2) ratio
  obtain ⟨i1, -, -, i2, i3⟩ := (Angles.C72_interpolate ratio).1 (a 0) (b 0)
  obtain ⟨j1, -, -, j2, j3⟩ := (Angles.C72_interpolate ratio).1 (a 1) (b 1)
  refine ⟨i1, j1, k1, k4, fun h => ⟨i2 h, j2 h, ?_⟩, fun h => ⟨i3 h, j3 h, k6 h⟩⟩
  show Angles.SameAngle Real.pi (a 2) (Angles.interpolateRevolute Real.pi (a 2) (b 2) ratio)
  rw [k5 h]
  exact (Angles.C46_wrap Real.pi Real.pi_pos (a 2)).2.1

/-- C102: the average of no configurations is zero; otherwise it has the means of the places, and of the angles. -/
theorem C102_average_partial :
    average [] = .ok 0 ∧
    ∀ configurations : List Config, configurations ≠ [] → ∃ c, average configurations = .ok c ∧
      (∀ i, c i * configurations.length = (configurations.map fun x => x i).sum) ∧
      ∀ i lo hi, (∀ x ∈ configurations, lo ≤ x i ∧ x i ≤ hi) → lo ≤ c i ∧ c i ≤ hi := by
  refine ⟨rfl, fun cs hcs => ?_⟩
  have ne : ∀ {A : Type} (f : Config → A), cs.map f ≠ [] := fun f h => hcs (List.map_eq_nil_iff.1 h)
  obtain ⟨a, a1, a2, a3⟩ := Averages.C48_unweighted (cs.map fun c => c 2) (ne _)
  have hc : ∀ i : Fin 2, ∃ v, Averages.average ((cs.map fun c => (![c 0, c 1] : Fin 2 → ℝ)).map
      (LinearMap.proj i : (Fin 2 → ℝ) →ₗ[ℝ] ℝ)) [] = .ok v ∧ v * (cs.length : ℝ) = (cs.map fun c => ![c 0, c 1] i).sum ∧
      ∀ lo hi : ℝ, (∀ c ∈ cs, lo ≤ ![c 0, c 1] i ∧ ![c 0, c 1] i ≤ hi) → lo ≤ v ∧ v ≤ hi := by
    intro i
    obtain ⟨v, v1, v2, v3⟩ := Averages.C48_unweighted (((cs.map fun c => (![c 0, c 1] : Fin 2 → ℝ)).map
      (LinearMap.proj i : (Fin 2 → ℝ) →ₗ[ℝ] ℝ))) (by simpa using hcs)
    refine ⟨v, v1, ?_, fun lo hi h => v3 lo hi ?_⟩
    · rw [List.length_map, List.length_map] at v2
      rw [v2, List.map_map]
      rfl
    · intro y hy
      simp only [List.mem_map, exists_exists_and_eq_and] at hy
      obtain ⟨c, hc, rfl⟩ := hy
      exact h c hc
  obtain ⟨x, x1, x2, x3⟩ := hc 0
  obtain ⟨y, y1, y2, y3⟩ := hc 1
  rw [Averages.C48_vectors] at x1 y1
  cases hv : Averages.averageVec (cs.map fun c => (![c 0, c 1] : Fin 2 → ℝ)) ([] : List ℝ) with
  | ok v =>
    rw [hv] at x1 y1
    have hx : v 0 = x := Out.ok.inj x1
    have hy : v 1 = y := Out.ok.inj y1
    refine ⟨![v 0, v 1, a], ?_, ?_, ?_⟩
    · unfold average
      rw [if_pos (List.length_pos_of_ne_nil hcs)]
      simp only
      rw [hv, Out.bind_ok, (Averages.C48_aborts _ _).2.2, a1, Out.bind_ok]
    · intro i
      fin_cases i
      · exact (congrArg (· * (cs.length : ℝ)) hx).trans x2
      · exact (congrArg (· * (cs.length : ℝ)) hy).trans y2
      · rw [List.length_map] at a2
        exact a2
    · intro i lo hi h
      fin_cases i
      · exact (show v 0 = x from hx) ▸ x3 lo hi h
      · exact (show v 1 = y from hy) ▸ y3 lo hi h
      · refine a3 lo hi fun w hw => ?_
        obtain ⟨c, hc, rfl⟩ := List.mem_map.1 hw
        exact h c hc
  | throws e => rw [hv] at x1; cases x1
  | abort => rw [hv] at x1; cases x1
  | ub => rw [hv] at x1; cases x1

/-- C102: the mean of the angles is no average of the directions: 3 and -3, which are less than 1 apart, average to 0, the
opposite direction. -/
theorem C102_average_angle_wrong :
    average [![0, 0, 3], ![0, 0, -3]] = .ok ![0, 0, 0] ∧ Angles.revoluteDistance Real.pi 3 (-3) < 1 := by
  constructor
  · obtain ⟨c, h1, h2, -⟩ := C102_average_partial.2 [![0, 0, 3], ![0, 0, -3]] (by simp)
    rw [h1]
    refine congrArg Out.ok (funext fun i => ?_)
    have h := h2 i
    fin_cases i <;> simp at h <;> simpa using h
  · have hpi := Real.pi_lt_d2
    have hpi' := Real.pi_gt_three
    refine lt_of_le_of_lt ((Angles.C47_distance Real.pi Real.pi_pos 3 (-3)).2.1 (2 * Real.pi - 6) ⟨-1, by push_cast; ring⟩) ?_
    rw [abs_lt]; constructor <;> linarith

/-- C102: the columns of the Jacobian are the derivatives of the place of the point by x, y and the angle. -/
theorem C102_jacobian (initial : Config) (pw rw' : ℝ) (name : String) (positions : List Config) (q : Fin 3 → ℝ) :
    let r := after (make initial pw rw' name) positions
    let p := getPosition r
    (∀ other, other ≠ name → ∀ v, linkPointJacobian r other v = .throws .invalidArgument) ∧
    ∃ J, linkPointJacobian r name ![q 0, q 1, q 2, 1] = .ok J ∧
      HasDerivAt (fun x => planar x (p 1) (p 2) q) (J 0) (p 0) ∧
      HasDerivAt (fun y => planar (p 0) y (p 2) q) (J 1) (p 1) ∧
      HasDerivAt (fun a => planar (p 0) (p 1) a q) (J 2) (p 2) := by
  intro r p
  obtain ⟨hn, -, -⟩ := after_names (make initial pw rw' name) positions
  have hn : r.linkName = name := hn
  have hpose : r.pose = computePose p := by
    rcases List.eq_nil_or_concat positions with h | ⟨ps, q, h⟩
    · show (after _ positions).pose = computePose (after _ positions).config
      rw [h]; rfl
    · show (after _ positions).pose = computePose (after _ positions).config
      rw [h, List.concat_eq_append, after_last]; rfl
  have hz : ∀ a, aboutZ a *ᵥ q = turn ![0, 0, 1] a q := by
    intro a
    ext i
    fin_cases i <;> simp [aboutZ, turn, cross_apply, Fin.sum_univ_three, Matrix.mulVec_eq_sum, vecHead, vecTail] <;> ring
  have hq : ![q 0, q 1, q 2] = q := by ext i; fin_cases i <;> rfl
  clear_value r
  refine ⟨fun other h v => by unfold linkPointJacobian; rw [if_neg (by rw [hn]; exact h)], ?_⟩
  refine ⟨_, by unfold linkPointJacobian; rw [if_pos hn.symm], ?_, ?_, ?_⟩
  · simp only [planar, cons_val_zero]
    refine HasDerivAt.const_add _ ?_
    rw [hasDerivAt_pi]
    intro i
    fin_cases i
    · exact hasDerivAt_id _
    · exact hasDerivAt_const _ _
    · exact hasDerivAt_const _ _
  · simp only [planar, cons_val_one]
    refine HasDerivAt.const_add _ ?_
    rw [hasDerivAt_pi]
    intro i
    fin_cases i
    · exact hasDerivAt_const _ _
    · exact hasDerivAt_id _
    · exact hasDerivAt_const _ _
  · simp only [planar, hz]
    have h1 := (LinkedRobot.turn_deriv (u := ![0, 0, 1]) (by simp [Fin.sum_univ_three]) q (p 2)).add_const ![p 0, p 1, 0]
    refine h1.congr_deriv ?_
    rw [hpose, pose_eq]
    show _ = (aboutZ (p 2) *ᵥ ![0, 0, 1]) ⨯₃ (aboutZ (p 2) *ᵥ ![q 0, q 1, q 2] + (1 : ℝ) • ![p 0, p 1, 0] - ![p 0, p 1, 0])
    rw [hq, one_smul, add_sub_cancel_right, ← hz]
    congr 2
    ext i
    fin_cases i <;> simp [aboutZ, mulVec, dotProduct, Fin.sum_univ_three]

/-- A robot that is moved twice; the second angle is more than a turn. -/
example : getPosition (after (make ![1, 2, 0] (-1) 2 "base") [![0, 0, 1], ![3, 4, 1 + 2 * Real.pi]]) = ![3, 4, 1] := by
  obtain ⟨⟨h1, h2, h3, h4⟩, -⟩ := C102_position ![1, 2, 0] (-1) 2 "base" [![0, 0, 1], ![3, 4, 1 + 2 * Real.pi]]
  have hp := Real.pi_gt_three
  ext i
  fin_cases i
  · exact h1
  · exact h2
  · refine Angles.principal_unique Real.pi_pos h4 ?_ (h3.symm.trans ⟨-1, ?_⟩)
    · constructor <;> simp <;> linarith
    · simp

end Verif.Se2Robot
