import Verif.Lemmas.RobotJacobian
import Verif.Model.Se3Robot
import Verif.Props.Pose
import Verif.Props.PointSets
import Verif.Props.PoseAverage
import Verif.Spec.RobotBody

/-!
# C104: the robot with one link in space
-/
namespace Verif.Se3Robot
open Verif Matrix Verif.Kinematics Verif.Pose Verif.RobotBody

/-- The robot after setting positions one after the other -/
noncomputable def after (r : Robot) (positions : List Transform) : Robot := positions.foldl setPosition r

theorem after_eq (r : Robot) (positions : List Transform) :
    after r positions = { r with config := positions.getLast?.getD r.config } := by
  induction positions generalizing r with
  | nil => rfl
  | cons p ps ih =>
    show after (setPosition r p) ps = _
    rw [ih]
    cases ps with
    | nil => rfl
    | cons q qs => simp [setPosition, List.getLast?_cons]

/-- C104: after construction and any number of new positions, the robot is at the last position; its only link is there,
found by its name. Other names throw. -/
theorem C104_position (initial : Transform) (pw rw' : ℝ) (name : String) (positions : List Transform) :
    let r := after (make initial pw rw' name) positions
    let p := positions.getLast?.getD initial
    getPosition r = p ∧ linkNames r = [name] ∧ linkTransform r name = .ok p ∧ linkTransforms r = [p] ∧
    linkTransformsMap r = [(name, p)] ∧ ∀ other, other ≠ name → linkTransform r other = .throws .invalidArgument := by
  intro r p
  have hr : r = ⟨p, |pw|, |rw'|, name⟩ := after_eq _ _
  rw [hr]
  refine ⟨rfl, rfl, ?_, rfl, rfl, fun other h => ?_⟩
  · unfold linkTransform; rw [if_pos rfl]; rfl
  · unfold linkTransform; rw [if_neg h]

theorem distanceQuat_nonneg (p q : Quat) (hp : p.squaredNorm = 1) (hq : q.squaredNorm = 1) : 0 ≤ distanceQuat p q := by
  rcases (C89_quaternion p q hp hq).1 with h | ⟨h, -⟩ <;> rw [h]
  exact Real.arccos_nonneg _

theorem vector_eq (a b : Fin 3 → ℝ) : distanceVector a b = Projection.distance a b := by
  unfold distanceVector Projection.distance
  rw [Fin.sum_univ_three]
  simp only
  congr 1; ring

theorem distance_comm (a b : Fin 3 → ℝ) : Projection.distance a b = Projection.distance b a := by
  unfold Projection.distance
  congr 1
  exact Finset.sum_congr rfl fun i _ => by ring

/-- C104: the distance adds the distance of the places and the angle between the rotations, each with its weight without
sign, where angles up to a ten millionth may count as zero. It is symmetric and not negative, and satisfies the triangle
inequality up to two ten millionths times the weight. -/
theorem C104_distance_partial (initial : Transform) (pw rw' : ℝ) (name : String) (positions : List Transform) (a b c : Transform)
    (ha : IsRotationMatrix a.rotation) (hb : IsRotationMatrix b.rotation) (hc : IsRotationMatrix c.rotation) :
    let r := after (make initial pw rw' name) positions
    (∃ angle, configurationDistance r a b = |pw| * Projection.distance a.translation b.translation + |rw'| * angle ∧
      (angle = distanceRotation a.rotation b.rotation ∨
        angle = 0 ∧ distanceRotation a.rotation b.rotation ≤ 1 / 10000000)) ∧
    configurationDistance r a b = configurationDistance r b a ∧ 0 ≤ configurationDistance r a b ∧
    configurationDistance r a c ≤ configurationDistance r a b + configurationDistance r b c + |rw'| * (2 / 10000000) ∧
    configurationDistanceTo r a = configurationDistance r (positions.getLast?.getD initial) a := by
  intro r
  have hr : r = ⟨positions.getLast?.getD initial, |pw|, |rw'|, name⟩ := after_eq _ _
  have e : ∀ x y : Transform, configurationDistance r x y =
      |pw| * Projection.distance x.translation y.translation + |rw'| * distanceQuat (ofMatrix x.rotation) (ofMatrix y.rotation) := by
    intro x y
    rw [hr]
    simp only [configurationDistance, vector_eq]
    ring
  obtain ⟨a1, a2⟩ := ofMatrix_spec ha
  obtain ⟨b1, b2⟩ := ofMatrix_spec hb
  obtain ⟨c1, c2⟩ := ofMatrix_spec hc
  have hq := C89_quaternion _ _ a1 b1
  rw [a2, b2] at hq
  have hw := abs_nonneg rw'
  have hp := abs_nonneg pw
  refine ⟨⟨_, e a b, hq.1⟩, ?_, ?_, ?_, by rw [hr]; rfl⟩
  · rw [e, e, distance_comm, hq.2.1]
  · rw [e]
    have h1 : 0 ≤ Projection.distance a.translation b.translation := Real.sqrt_nonneg _
    have h2 := distanceQuat_nonneg _ _ a1 b1
    positivity
  · rw [e, e, e]
    have h1 := PointSets.triangle a.translation b.translation c.translation
    have h2 := C89_quaternion_triangle_partial _ _ _ a1 b1 c1
    have h3 := mul_le_mul_of_nonneg_left h1 hp
    have h4 := mul_le_mul_of_nonneg_left h2 hw
    linarith

/-- C104: the distances by dimension are the differences of the places, and the angle between the rotations. -/
theorem C104_dimensions (a b : Transform) (ha : IsRotationMatrix a.rotation) (hb : IsRotationMatrix b.rotation) :
    (∀ i : Fin 3, signedDistances a b i.castSucc = b.translation i - a.translation i) ∧
    (signedDistances a b 3 = distanceRotation a.rotation b.rotation ∨
      signedDistances a b 3 = 0 ∧ distanceRotation a.rotation b.rotation ≤ 1 / 10000000) ∧
    (∀ i, distances a b i = |signedDistances a b i|) := by
  obtain ⟨a1, a2⟩ := ofMatrix_spec ha
  obtain ⟨b1, b2⟩ := ofMatrix_spec hb
  have hq := (C89_quaternion _ _ a1 b1).1
  rw [a2, b2] at hq
  refine ⟨fun i => by fin_cases i <;> rfl, hq, fun i => rfl⟩

/-- C104: interpolation goes straight from place to place and turns at a constant rate, by the ratio cut off at 0 and 1; it
starts at the start and ends at the end. -/
theorem C104_interpolate (a b : Transform) (ha : IsRotationMatrix a.rotation) (hb : IsRotationMatrix b.rotation) (ratio : ℝ) :
    (interpolate a b ratio).translation = a.translation + min 1 (max 0 ratio) • (b.translation - a.translation) ∧
    (ratio ≤ 0 → interpolate a b ratio = a) ∧ (1 ≤ ratio → interpolate a b ratio = b) ∧
    (1 / 10000000 < distanceRotation a.rotation b.rotation →
      IsRotationMatrix (interpolate a b ratio).rotation ∧
      distanceRotation a.rotation (interpolate a b ratio).rotation =
        min 1 (max 0 ratio) * distanceRotation a.rotation b.rotation ∧
      distanceRotation (interpolate a b ratio).rotation b.rotation =
        (1 - min 1 (max 0 ratio)) * distanceRotation a.rotation b.rotation) :=
  C90_isometry a b ha hb ratio

/-- C104: the average of no configurations is the identity, that of one is this one, and that of more has the mean of the
places and a rotation from which their rotations deviate least. -/
theorem C104_average {solver : PoseAverage.Solver} (hs : PoseAverage.Solves solver) (configurations : List Transform)
    (hc : ∀ c ∈ configurations, IsRotationMatrix c.rotation) :
    average solver [] = .ok ⟨1, 0⟩ ∧
    (configurations ≠ [] → ∃ a, average solver configurations = .ok a ∧ IsRotationMatrix a.rotation ∧
      (∀ k, a.translation k * configurations.length = (configurations.map fun c => c.translation k).sum) ∧
      ∀ R, IsRotationMatrix R → (configurations.map fun c => PoseAverage.apart a.rotation c.rotation).sum ≤
        (configurations.map fun c => PoseAverage.apart R c.rotation).sum) := by
  refine ⟨rfl, fun hne => ?_⟩
  unfold average
  rw [if_pos (List.length_pos_of_ne_nil hne)]
  match configurations, hne, hc with
  | [c], _, hc =>
    refine ⟨c, (PoseAverage.C105_single_transform solver c [] [] 0).1, hc c (by simp), fun k => by simp, fun R hR => ?_⟩
    simp only [List.map_cons, List.map_nil, List.sum_cons, List.sum_nil, add_zero]
    have h0 : PoseAverage.apart c.rotation c.rotation = 0 := by simp [PoseAverage.apart]
    rw [h0]
    exact Finset.sum_nonneg fun i _ => Finset.sum_nonneg fun j _ => sq_nonneg _
  | c1 :: c2 :: rest, _, hc =>
    obtain ⟨a, a1, a2, a3, a4, -⟩ := PoseAverage.C105_transforms hs _ hc [] (by simp) (Or.inl rfl)
    have hd : ∀ R (l : List Transform), PoseAverage.deviation R ((PoseAverage.usedWeights [] l).map (· ^ 2)) (l.map (·.rotation)) =
        (l.map fun c => PoseAverage.apart R c.rotation).sum := by
      intro R l
      unfold PoseAverage.deviation PoseAverage.usedWeights
      rw [if_pos rfl]
      induction l with
      | nil => rfl
      | cons c l ih =>
        simp only [List.map_cons, List.zipWith_cons_cons, List.sum_cons]
        rw [ih]; ring
    have h1 : ∀ l : List Transform, ((PoseAverage.usedWeights [] l).map (|·|)).sum = (l.length : ℝ) := by
      intro l
      unfold PoseAverage.usedWeights
      rw [if_pos rfl]
      induction l with
      | nil => simp
      | cons c l ih =>
        simp only [List.map_cons, List.sum_cons]
        rw [ih]; simp; ring
    have h2 : ∀ k (l : List Transform), (List.zipWith (fun w t => |w| * t.translation k) (PoseAverage.usedWeights [] l) l).sum =
        (l.map fun c => c.translation k).sum := by
      intro k l
      unfold PoseAverage.usedWeights
      rw [if_pos rfl]
      induction l with
      | nil => rfl
      | cons c l ih =>
        simp only [List.map_cons, List.zipWith_cons_cons, List.sum_cons]
        rw [ih]; simp
    refine ⟨a, a1, a2, fun k => ?_, fun R hR => ?_⟩
    · have := a4 k
      rw [h1, h2] at this
      exact this
    · have := a3 R hR
      rw [hd, hd] at this
      exact this

/-- C104: the Jacobian times a velocity and an angular velocity, both as seen from the robot, is the velocity of the point in
the world. Other link names throw. -/
theorem C104_jacobian (initial : Transform) (pw rw' : ℝ) (name : String) (positions : List Transform) (q : Fin 4 → ℝ) :
    let r := after (make initial pw rw' name) positions
    let p := positions.getLast?.getD initial
    (∀ other, other ≠ name → linkPointJacobian r other q = .throws .invalidArgument) ∧
    ∃ J, linkPointJacobian r name q = .ok J ∧ ∀ (v u : Fin 3 → ℝ) (s : ℝ), ∑ i, u i ^ 2 = 1 →
      HasDerivAt (fun t => moving p.rotation p.translation u s v ![q 0, q 1, q 2] t)
        (J *ᵥ Sum.elim v (s • u)) 0 := by
  intro r p
  have hr : r = ⟨p, |pw|, |rw'|, name⟩ := after_eq _ _
  clear_value r p
  subst hr
  refine ⟨fun other h => by unfold linkPointJacobian; rw [if_neg h], _,
    by unfold linkPointJacobian; rw [if_pos rfl], fun v u s hu => ?_⟩
  simp only [getPosition]
  unfold moving
  have h1 : HasDerivAt (fun t : ℝ => s * t) s 0 := by simpa using (hasDerivAt_id (0 : ℝ)).const_mul s
  have h2 := LinkedRobot.turn_deriv hu ![q 0, q 1, q 2] (s * 0)
  have h3 := HasDerivAt.scomp (0 : ℝ) h2 h1
  have h4 : HasDerivAt (fun t : ℝ => t • v) v 0 := by simpa using (hasDerivAt_id (0 : ℝ)).smul_const v
  have h5 := (LinkedRobot.mulVec_deriv p.rotation (h3.add h4)).add_const p.translation
  refine HasDerivAt.congr_deriv (f' := p.rotation *ᵥ (s • (u ⨯₃ turn u (s * 0) ![q 0, q 1, q 2]) + v)) h5 ?_
  rw [← mulVec_mulVec, fromCols_mulVec]
  simp only [Sum.elim_comp_inl, Sum.elim_comp_inr, one_mulVec, neg_mulVec, C86_skew, mul_zero]
  congr 1
  have ht : turn u 0 ![q 0, q 1, q 2] = ![q 0, q 1, q 2] := by unfold turn; simp
  rw [ht, map_smul, ← smul_neg, cross_anticomm, add_comm]

/-- A robot that is moved twice; the second place is kept. -/
example : getPosition (after (make ⟨1, 0⟩ (-1) 2 "base") [⟨1, ![1, 0, 0]⟩, ⟨aboutZ 1, ![3, 4, 5]⟩]) = ⟨aboutZ 1, ![3, 4, 5]⟩ :=
  (C104_position _ _ _ _ _).1

/-- The rotations by no angle and by one about z are rotation matrices. -/
example : IsRotationMatrix (1 : Mat3) ∧ IsRotationMatrix (aboutZ 1) := by
  refine ⟨⟨by simp, by simp⟩, ?_⟩
  have h : (ofAngleAxis 1 ![0, 0, 1]).squaredNorm = 1 := by
    have := Real.sin_sq_add_cos_sq (1 / 2)
    simp [ofAngleAxis, Quat.squaredNorm] at this ⊢
  exact matrix_z 1 ▸ toRotationMatrix_rotation h

end Verif.Se3Robot
