import Verif.Model.PyConversions
import Verif.Props.TransformationHelper
/-!
# C140: the small conversions in Python
-/
namespace Verif.PyConversions
open Verif Verif.Conversions Verif.Kinematics Verif.Pose Matrix

/-- C140: a quaternion message is scaled by a positive number to length one; only that of zeros gives NaN. A list is
never normalized, though the signature offers it: it raises `AttributeError`. -/
theorem C140_normalize (q : Quaternion ℝ) :
    (q = ⟨0, 0, 0, 0⟩ ∧ normalizeQuaternion (.message q) = .ok none ∨
     ∃ m : ℝ, 0 < m ∧ (m * q.x) ^ 2 + (m * q.y) ^ 2 + (m * q.z) ^ 2 + (m * q.w) ^ 2 = 1 ∧
       normalizeQuaternion (.message q) = .ok (some ⟨m * q.x, m * q.y, m * q.z, m * q.w⟩)) ∧
    (∀ l : List ℝ, normalizeQuaternion (.list l) = .error .attributeError) ∧
    normalizeQuaternion .other = .error .notImplementedError := by
  refine ⟨?_, fun _ => rfl, rfl⟩
  obtain ⟨x, y, z, w⟩ := q
  by_cases h : x ^ 2 + y ^ 2 + z ^ 2 + w ^ 2 = 0
  · left
    have hx : x = 0 := by nlinarith [sq_nonneg x, sq_nonneg y, sq_nonneg z, sq_nonneg w]
    have hy : y = 0 := by nlinarith [sq_nonneg x, sq_nonneg y, sq_nonneg z, sq_nonneg w]
    have hz : z = 0 := by nlinarith [sq_nonneg x, sq_nonneg y, sq_nonneg z, sq_nonneg w]
    have hw : w = 0 := by nlinarith [sq_nonneg x, sq_nonneg y, sq_nonneg z, sq_nonneg w]
    subst hx hy hz hw
    refine ⟨rfl, ?_⟩
    simp [normalizeQuaternion]
  · right
    have hp : 0 < x ^ 2 + y ^ 2 + z ^ 2 + w ^ 2 := lt_of_le_of_ne (by positivity) (Ne.symm h)
    have hs : 0 < Real.sqrt (x ^ 2 + y ^ 2 + z ^ 2 + w ^ 2) := Real.sqrt_pos.mpr hp
    have hq := Real.sq_sqrt hp.le
    refine ⟨1 / Real.sqrt (x ^ 2 + y ^ 2 + z ^ 2 + w ^ 2), by positivity, ?_, ?_⟩
    · have : ∀ m : ℝ, (m * x) ^ 2 + (m * y) ^ 2 + (m * z) ^ 2 + (m * w) ^ 2 = m ^ 2 * (x ^ 2 + y ^ 2 + z ^ 2 + w ^ 2) :=
        fun m => by ring
      simp only [this]
      rw [div_pow, hq, one_pow, one_div, inv_mul_cancel₀ h]
    · simp only [normalizeQuaternion, hs.ne', if_false]
      congr 3 <;> ring

example : normalizeQuaternion (.message ⟨0, 0, 0, 2⟩) ≠ .ok none := by
  rcases (C140_normalize ⟨0, 0, 0, 2⟩).1 with ⟨h, -⟩ | ⟨m, -, -, h⟩
  · simp at h
  · rw [h]; simp

/-- C140: the quaternion of the three angles is that of the C++ side for robot descriptions -/
theorem euler_eq (r p y : ℝ) : quaternionFromEuler r p y = quaternionFromUrdfRPY r p y := by
  unfold quaternionFromEuler quaternionFromUrdfRPY ofAngleAxis
  simp only [Quat.mul]
  ext <;> simp <;> ring_nf

/-- C140: a list of six is a position, then roll, pitch and yaw: the pose has that position, and a quaternion of length
one whose matrix turns about x by the roll, then about the fixed y by the pitch, then about the fixed z by the yaw. -/
theorem C140_six (now x y z r p w : ℝ) :
    ∃ q : Quat, q.squaredNorm = 1 ∧ toRotationMatrix q = aboutZ w * aboutY p * aboutX r ∧
      convertToPoseMsg now (.list [x, y, z, r, p, w]) = .ok ⟨"", now, ⟨x, y, z⟩, ⟨q.x, q.y, q.z, q.w⟩⟩ := by
  refine ⟨quaternionFromEuler r p w, ?_, ?_, rfl⟩
  · rw [euler_eq]; exact (C91_rpy r p w).2.2.1
  · rw [euler_eq]; exact (C91_rpy r p w).2.2.2

/-- C140: a list of seven is a position and a quaternion, taken as they are, even if the quaternion has not length one;
messages keep their pose, a stamped one its header too; a list of any other length raises `ValueError`, and anything that
is not a list, a tuple too, `NotImplementedError`. -/
theorem C140_pose (now : ℝ) :
    (∀ x y z a b c d : ℝ,
      convertToPoseMsg now (.list [x, y, z, a, b, c, d]) = .ok ⟨"", now, ⟨x, y, z⟩, ⟨a, b, c, d⟩⟩) ∧
    (∀ p, convertToPoseMsg now (.stamped p) = .ok p) ∧
    (∀ p, convertToPoseMsg now (.pose p) = .ok ⟨"", now, p⟩) ∧
    (∀ l : List ℝ, l.length ≠ 6 → l.length ≠ 7 → convertToPoseMsg now (.list l) = .error .valueError) ∧
    convertToPoseMsg now .other = .error .notImplementedError := by
  refine ⟨fun _ _ _ _ _ _ _ => rfl, fun _ => rfl, fun _ => rfl, ?_, rfl⟩
  intro l h6 h7
  unfold convertToPoseMsg
  split <;> simp_all

example : convertToPoseMsg 0 (.list [1, 2, 3]) = .error .valueError :=
  (C140_pose 0).2.2.2.1 _ (by simp) (by simp)

/-- C140: a position is that of the message, or the first three places, and `IndexError` if there are fewer -/
theorem C140_position :
    (∀ p, convertToPosition (.point p) = .ok p) ∧
    (∀ f p, convertToPosition (.stamped ⟨f, p⟩) = .ok p) ∧
    (∀ (x y z : ℝ) (t : List ℝ), convertToPosition (.places (x :: y :: z :: t)) = .ok ⟨x, y, z⟩) ∧
    (∀ l : List ℝ, l.length < 3 → convertToPosition (.places l) = .error .indexError) := by
  refine ⟨fun _ => rfl, fun _ _ => rfl, fun _ _ _ _ => rfl, ?_⟩
  intro l hl
  match l, hl with
  | [], _ => rfl
  | [_], _ => rfl
  | [_, _], _ => rfl

/-- C140: a dictionary of positions is converted entry by entry, with its keys in their order; if it raises, it raises
`IndexError`, and some entry has fewer than three places. -/
theorem C140_positions (d : List (String × PositionArg)) :
    (∀ r, convertToPositions d = .ok r ↔
      r.map Prod.fst = d.map Prod.fst ∧ d.map (fun e => convertToPosition e.2) = r.map (fun e => .ok e.2)) ∧
    (∀ e, convertToPositions d = .error e ↔
      e = .indexError ∧ ∃ k l, (k, PositionArg.places l) ∈ d ∧ l.length < 3) := by
  have herr : ∀ a e, convertToPosition a = .error e → e = .indexError ∧ ∃ l, a = .places l ∧ l.length < 3 := by
    intro a e h
    cases a with
    | point p => cases h
    | stamped p => cases h
    | places l =>
      match l, h with
      | [], h => cases h; exact ⟨rfl, _, rfl, by simp⟩
      | [_], h => cases h; exact ⟨rfl, _, rfl, by simp⟩
      | [_, _], h => cases h; exact ⟨rfl, _, rfl, by simp⟩
      | _ :: _ :: _ :: _, h => cases h
  induction d with
  | nil =>
    refine ⟨fun r => ?_, fun e => ?_⟩
    · constructor
      · intro h; cases h; exact ⟨rfl, rfl⟩
      · rintro ⟨h, -⟩
        have : r = [] := by simpa using h
        subst this; rfl
    · constructor
      · intro h; cases h
      · rintro ⟨-, k, l, h, -⟩; simp at h
  | cons a d ih =>
    obtain ⟨k, a⟩ := a
    have hstep : convertToPositions ((k, a) :: d) =
        (match convertToPosition a with
         | .error e => .error e
         | .ok p => match convertToPositions d with
           | .error e => .error e
           | .ok r => .ok ((k, p) :: r)) := by
      unfold convertToPositions
      rw [List.mapM_cons]
      cases convertToPosition a with
      | error e => rfl
      | ok p =>
        simp only [bind, Except.bind, pure, Except.pure]
        split <;> simp_all
    rw [hstep]
    cases ha : convertToPosition a with
    | error e' =>
      obtain ⟨rfl, l, rfl, hl⟩ := herr a e' ha
      refine ⟨fun r => ?_, fun e => ?_⟩
      · constructor
        · intro h; cases h
        · rintro ⟨h1, h2⟩
          cases r with
          | nil => simp at h1
          | cons b r => simp [ha] at h2
      · constructor
        · intro h; cases h; exact ⟨rfl, k, l, by simp, hl⟩
        · rintro ⟨rfl, -⟩; rfl
    | ok p =>
      refine ⟨fun r => ?_, fun e => ?_⟩
      · cases hd : convertToPositions d with
        | error e' =>
          constructor
          · intro h; cases h
          · rintro ⟨h1, h2⟩
            cases r with
            | nil => simp at h1
            | cons b r =>
              simp only [List.map_cons, List.cons.injEq] at h1 h2
              have := (ih.1 r).mpr ⟨h1.2, h2.2⟩
              rw [hd] at this; cases this
        | ok r' =>
          have hr := (ih.1 r').mp hd
          constructor
          · intro h; cases h
            simp [ha, hr.1, hr.2]
          · rintro ⟨h1, h2⟩
            cases r with
            | nil => simp at h1
            | cons b r =>
              simp only [List.map_cons, List.cons.injEq, ha, Except.ok.injEq] at h1 h2
              have := (ih.1 r).mpr ⟨h1.2, h2.2⟩
              rw [hd] at this
              cases this
              obtain ⟨b1, b2⟩ := b
              simp only at h1 h2
              rw [h1.1, h2.1]
      · have hih := ih.2 e
        constructor
        · intro h
          have hd : convertToPositions d = .error e := by
            cases hd : convertToPositions d with
            | error e' => rw [hd] at h; simpa using h
            | ok r => rw [hd] at h; cases h
          obtain ⟨h1, k', l, hm, hl⟩ := hih.mp hd
          exact ⟨h1, k', l, List.mem_cons_of_mem _ hm, hl⟩
        · rintro ⟨h1, k', l, hm, hl⟩
          rcases List.mem_cons.mp hm with he | hm
          · cases he
            rw [C140_position.2.2.2 l hl] at ha; cases ha
          · rw [hih.mpr ⟨h1, k', l, hm, hl⟩]

example : convertToPositions [("a", .places [1, 2, 3]), ("b", .point ⟨4, 5, 6⟩)] = .ok [("a", ⟨1, 2, 3⟩), ("b", ⟨4, 5, 6⟩)] :=
  rfl

/-- C140: a point that is not the origin is scaled by a positive number to length one; for the origin the assertion
fails. -/
theorem C140_unit_point (p : Point ℝ) :
    p = ⟨0, 0, 0⟩ ∧ normalizePoint p = .error .assertionError ∨
    ∃ m : ℝ, 0 < m ∧ (m * p.x) ^ 2 + (m * p.y) ^ 2 + (m * p.z) ^ 2 = 1 ∧
      normalizePoint p = .ok ⟨m * p.x, m * p.y, m * p.z⟩ := by
  obtain ⟨x, y, z⟩ := p
  by_cases h : x ^ 2 + y ^ 2 + z ^ 2 = 0
  · left
    have hx : x = 0 := by nlinarith [sq_nonneg x, sq_nonneg y, sq_nonneg z]
    have hy : y = 0 := by nlinarith [sq_nonneg x, sq_nonneg y, sq_nonneg z]
    have hz : z = 0 := by nlinarith [sq_nonneg x, sq_nonneg y, sq_nonneg z]
    subst hx hy hz
    exact ⟨rfl, by simp [normalizePoint, makeUnitPoint]⟩
  · right
    have hp : 0 < x ^ 2 + y ^ 2 + z ^ 2 := lt_of_le_of_ne (by positivity) (Ne.symm h)
    have hs : 0 < Real.sqrt (x ^ 2 + y ^ 2 + z ^ 2) := Real.sqrt_pos.mpr hp
    refine ⟨1 / Real.sqrt (x ^ 2 + y ^ 2 + z ^ 2), by positivity, ?_, ?_⟩
    · have : ∀ m : ℝ, (m * x) ^ 2 + (m * y) ^ 2 + (m * z) ^ 2 = m ^ 2 * (x ^ 2 + y ^ 2 + z ^ 2) := fun m => by ring
      simp only [this]
      rw [div_pow, Real.sq_sqrt hp.le, one_pow, one_div, inv_mul_cancel₀ h]
    · simp only [normalizePoint, makeUnitPoint, gt_iff_lt, hs, if_true]
      congr 2 <;> ring

/-- C140: column `j` of the array is point `j`, or the place to which the matrix takes it -/
theorem C140_columns (points : List (Point ℝ)) (j : Fin points.length) :
    (fun i => listPointsToNpArray points none i j) = ![points[j].x, points[j].y, points[j].z] ∧
    ∀ (R : Matrix (Fin 3) (Fin 3) ℝ) (t : Fin 3 → ℝ),
      (fun i => listPointsToNpArray points (some (TransformationHelper.rigid R t)) i j) =
        R.mulVec ![points[j].x, points[j].y, points[j].z] + t := by
  refine ⟨rfl, fun R t => ?_⟩
  funext i
  simp only [listPointsToNpArray, Matrix.mulVec, dotProduct, Fin.sum_univ_four, Fin.sum_univ_three, Pi.add_apply]
  fin_cases i <;> simp [TransformationHelper.rigid]

/-- C140: the markers are scaled by the factor and are otherwise as they were -/
theorem C140_markers {R : Type} (msg : List (Marker R)) (s : ℝ) :
    (scaleMarkerArray msg s).map (·.rest) = msg.map (·.rest) ∧
    (scaleMarkerArray msg s).map (·.scale) = msg.map (fun m => ⟨s * m.scale.x, s * m.scale.y, s * m.scale.z⟩) ∧
    (s ≠ 0 → scaleMarkerArray (scaleMarkerArray msg s) s⁻¹ = msg) := by
  refine ⟨by simp [scaleMarkerArray], by simp [scaleMarkerArray, mul_comm], fun hs => ?_⟩
  simp only [scaleMarkerArray, List.map_map]
  conv_rhs => rw [← List.map_id msg]
  apply List.map_congr_left
  rintro ⟨⟨x, y, z⟩, r⟩ -
  simp [hs]

/-- C140: rounding gives a multiple of the power of ten no farther than half of it, and of two the even one -/
theorem C140_round (v : ℚ) (places : Int) :
    ∃ n : Int, pyRound v places = n / 10 ^ places ∧ |pyRound v places - v| ≤ 1 / 2 / 10 ^ places ∧
      (|pyRound v places - v| = 1 / 2 / 10 ^ places → n % 2 = 0) := by
  have hp : (0 : ℚ) < 10 ^ places := by positivity
  have key : ∀ n : Int, |(n : ℚ) / 10 ^ places - v| = |(n : ℚ) - v * 10 ^ places| / 10 ^ places := by
    intro n
    rw [← abs_of_pos hp, ← abs_div, abs_of_pos hp, sub_div, mul_div_cancel_right₀ _ hp.ne']
  have h1 := Int.floor_le (v * 10 ^ places)
  have h2 := Int.lt_floor_add_one (v * 10 ^ places)
  unfold pyRound
  simp only
  refine ⟨_, rfl, ?_, ?_⟩
  · rw [key, div_le_div_iff_of_pos_right hp, abs_le]
    split_ifs <;> push_cast <;> constructor <;> linarith
  · rw [key, div_left_inj' hp.ne']
    split_ifs with a b c
    · intro h
      rw [abs_sub_comm, abs_of_nonneg (by linarith)] at h
      linarith
    · intro h
      push_cast at h
      rw [abs_of_nonneg (by linarith)] at h
      linarith
    · intro _; exact c
    · intro _; omega

/-- C140: a dictionary is rounded value by value -/
theorem C140_dict_round (d : List (String × ℚ)) (places : Int) :
    (dictRound d places).map Prod.fst = d.map Prod.fst ∧
    (dictRound d places).map Prod.snd = d.map (fun e => pyRound e.2 places) := by
  simp [dictRound]

/-- C140: if a node does not start, the function is not called and nothing is shut down — not the C++ node either, if only
the Python node failed to start. -/
theorem C140_ros_not_started {α : Type} (name : String) (initCpp initPy : Except PyExc Unit) (f : Except PyExc α)
    (downPy downCpp : Except PyExc Unit) :
    (∀ e, initCpp = .error e → withRos name initCpp initPy f downPy downCpp = ([.initCpp ("cpp_" ++ name)], .error e)) ∧
    (∀ e, initCpp = .ok () → initPy = .error e →
      withRos name initCpp initPy f downPy downCpp = ([.initCpp ("cpp_" ++ name), .initPy name], .error e)) := by
  constructor
  · rintro e rfl; rfl
  · rintro e rfl rfl; rfl

/-- C140: once the nodes have started the function is called once, and whether it returns or raises both nodes are shut
down after it; the outcome is that of the function. -/
theorem C140_ros_started {α : Type} (name : String) (f : Except PyExc α) :
    withRos name (.ok ()) (.ok ()) f (.ok ()) (.ok ()) =
      ([.initCpp ("cpp_" ++ name), .initPy name, .body, .shutdownPy, .shutdownCpp], f) := rfl

/-- C140: an exception of the shutdown hides that of the function; if it comes from the Python node the C++ node stays. -/
theorem C140_ros_shutdown_raises {α : Type} (name : String) (f : Except PyExc α) (e : PyExc) (downCpp : Except PyExc Unit) :
    withRos name (.ok ()) (.ok ()) f (.error e) downCpp =
      ([.initCpp ("cpp_" ++ name), .initPy name, .body, .shutdownPy], .error e) ∧
    withRos name (.ok ()) (.ok ()) f (.ok ()) (.error e) =
      ([.initCpp ("cpp_" ++ name), .initPy name, .body, .shutdownPy, .shutdownCpp], .error e) := ⟨rfl, rfl⟩

end Verif.PyConversions
