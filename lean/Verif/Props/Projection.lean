import Mathlib.Algebra.Order.BigOperators.Ring.Finset
import Mathlib.LinearAlgebra.Matrix.DotProduct
import Mathlib.Tactic.Ring
import Mathlib.Tactic.FieldSimp
import Mathlib.Tactic.LinearCombination
import Mathlib.Tactic.Linarith
import Mathlib.Tactic.Positivity
import Mathlib.Tactic.NormNum
import Verif.Model.Projection
import Verif.Spec.Projection

/-!
# Properties C78 to C84: projections, lines, planes, cones, norms and angles of eigen_helpers.hpp
-/
namespace Verif.Projection
open Verif Matrix

section lemmas
variable {n : Nat}

theorem dot_eq (v w : Fin n → ℝ) : ∑ i, v i * w i = v ⬝ᵥ w := rfl

theorem sq_eq (v : Fin n → ℝ) : ∑ i, v i ^ 2 = v ⬝ᵥ v := by
  unfold dotProduct; exact Finset.sum_congr rfl fun i _ => by ring

theorem length_eq (v : Fin n → ℝ) : length v = norm v := by
  unfold length norm squaredNorm; rw [sq_eq]

theorem distance_eq (x y : Fin n → ℝ) : distance x y = norm (x - y) := by
  rw [← length_eq]; rfl

theorem dot_self_nonneg (v : Fin n → ℝ) : 0 ≤ v ⬝ᵥ v := by
  rw [← sq_eq]; exact Finset.sum_nonneg fun i _ => sq_nonneg _

theorem dot_self_pos {v : Fin n → ℝ} (h : v ≠ 0) : 0 < v ⬝ᵥ v :=
  lt_of_le_of_ne (dot_self_nonneg v) fun h' => h (dotProduct_self_eq_zero.1 h'.symm)

theorem norm_nonneg (v : Fin n → ℝ) : 0 ≤ norm v := Real.sqrt_nonneg _

theorem norm_sq (v : Fin n → ℝ) : norm v ^ 2 = v ⬝ᵥ v := Real.sq_sqrt (dot_self_nonneg v)

theorem norm_mul_self (v : Fin n → ℝ) : norm v * norm v = v ⬝ᵥ v := by rw [← norm_sq]; ring

theorem norm_pos {v : Fin n → ℝ} (h : v ≠ 0) : 0 < norm v := Real.sqrt_pos.2 (dot_self_pos h)

theorem norm_le_iff {v w : Fin n → ℝ} : norm v ≤ norm w ↔ v ⬝ᵥ v ≤ w ⬝ᵥ w :=
  Real.sqrt_le_sqrt_iff (dot_self_nonneg w)

theorem norm_neg (v : Fin n → ℝ) : norm (-v) = norm v := by
  simp [norm, squaredNorm]

theorem norm_smul (t : ℝ) (v : Fin n → ℝ) : norm (t • v) = |t| * norm v := by
  unfold norm squaredNorm
  rw [smul_dotProduct, dotProduct_smul, smul_eq_mul, smul_eq_mul, ← mul_assoc,
    Real.sqrt_mul (mul_self_nonneg t), Real.sqrt_mul_self_eq_abs]

theorem cauchy (v w : Fin n → ℝ) : (v ⬝ᵥ w) ^ 2 ≤ (v ⬝ᵥ v) * (w ⬝ᵥ w) := by
  have := Finset.sum_mul_sq_le_sq_mul_sq Finset.univ v w
  rwa [sq_eq, sq_eq, dot_eq] at this

theorem abs_dot_le (v w : Fin n → ℝ) : |v ⬝ᵥ w| ≤ norm v * norm w := by
  apply abs_le_of_sq_le_sq
  · rw [mul_pow, norm_sq, norm_sq]; exact cauchy v w
  · exact mul_nonneg (norm_nonneg _) (norm_nonneg _)

theorem normalized_of_ne {v : Fin n → ℝ} (h : v ≠ 0) : normalized v = (1 / norm v) • v :=
  if_pos (dot_self_pos h)

theorem normalized_zero : normalized (0 : Fin n → ℝ) = 0 := by
  unfold normalized squaredNorm; simp

theorem normalized_dot_self {v : Fin n → ℝ} (h : v ≠ 0) : normalized v ⬝ᵥ normalized v = 1 := by
  rw [normalized_of_ne h, smul_dotProduct, dotProduct_smul, smul_eq_mul, smul_eq_mul, ← norm_sq]
  have := (norm_pos h).ne'
  field_simp

theorem projection_eq {b : Fin n → ℝ} (h : b ≠ 0) (v : Fin n → ℝ) :
    vectorProjection b v = (b ⬝ᵥ v / b ⬝ᵥ b) • b := if_pos (dot_self_pos h)

theorem projection_zero (v : Fin n → ℝ) : vectorProjection 0 v = 0 := by
  unfold vectorProjection squaredNorm; simp

theorem projection_perp (b v : Fin n → ℝ) : b ⬝ᵥ (v - vectorProjection b v) = 0 := by
  by_cases h : b = 0
  · rw [h]; simp
  · have := (dot_self_pos h).ne'
    rw [projection_eq h, dotProduct_sub, dotProduct_smul, smul_eq_mul]
    field_simp; ring

theorem projection_multiple (b v : Fin n → ℝ) : Multiple b (vectorProjection b v) := by
  by_cases h : b = 0
  · exact ⟨0, by rw [h, projection_zero]; simp⟩
  · exact ⟨_, projection_eq h v⟩

/-- A foot at a right angle is nearest. -/
theorem nearest {x f y : Fin n → ℝ} (h : (x - f) ⬝ᵥ (f - y) = 0) : norm (x - f) ≤ norm (x - y) := by
  rw [norm_le_iff]
  have : x - y = (x - f) + (f - y) := by abel
  rw [this, add_dotProduct, dotProduct_add, dotProduct_add, h, dotProduct_comm (f - y) (x - f), h]
  have := dot_self_nonneg (f - y)
  linarith

end lemmas

/-- C78: the projection is the one multiple of the base vector that leaves a remainder at a right angle to it;
of the zero vector it is zero. -/
theorem C78_projection {n : Nat} (b v p : Fin n → ℝ) :
    vectorProjection b v = p ↔ Multiple b p ∧ Perpendicular b (v - p) := by
  constructor
  · rintro rfl; exact ⟨projection_multiple b v, projection_perp b v⟩
  · rintro ⟨⟨t, rfl⟩, h⟩
    by_cases hb : b = 0
    · rw [hb, projection_zero]; simp
    · unfold Perpendicular at h
      rw [dot_eq, dotProduct_sub, dotProduct_smul, smul_eq_mul] at h
      rw [projection_eq hb]
      congr 1
      have := (dot_self_pos hb).ne'
      field_simp
      linarith

/-- C78: projection and rejection add up to the vector, and the rejection is at a right angle to the base. -/
theorem C78_rejection {n : Nat} (b v : Fin n → ℝ) :
    vectorProjection b v + vectorRejection b v = v ∧ Perpendicular b (vectorRejection b v) :=
  ⟨by unfold vectorRejection; abel, projection_perp b v⟩

/-- C78: no multiple of the base vector is nearer to the vector than its projection. -/
theorem C78_nearest {n : Nat} (b v : Fin n → ℝ) (t : ℝ) :
    distance v (vectorProjection b v) ≤ distance v (t • b) := by
  rw [distance_eq, distance_eq]
  apply nearest
  obtain ⟨s, hs⟩ := projection_multiple b v
  have : vectorProjection b v - t • b = (s - t) • b := by rw [hs, sub_smul]
  rw [this, dotProduct_smul, dotProduct_comm, projection_perp, smul_zero]

example : vectorProjection ![2, 0] ![3, 4] = ![3, 0] := by
  rw [C78_projection]
  refine ⟨⟨3 / 2, by ext i; fin_cases i <;> norm_num⟩, ?_⟩
  simp [Perpendicular]

/-! ### C79: projection onto a plane -/

theorem cross_sq (u v : Fin 3 → ℝ) :
    (u ⨯₃ v) ⬝ᵥ (u ⨯₃ v) = (u ⬝ᵥ u) * (v ⬝ᵥ v) - (u ⬝ᵥ v) ^ 2 := by
  rw [cross_dot_cross, dotProduct_comm v u]; ring

theorem rejection_span {u v : Fin 3 → ℝ} (h : u ⨯₃ v ≠ 0) (x : Fin 3 → ℝ) :
    ∃ a b : ℝ, vectorRejection (u ⨯₃ v) x = a • u + b • v := by
  have hp := (dot_self_pos h).ne'
  have key : ∀ m w : Fin 3 → ℝ, (m ⬝ᵥ m) • w - (m ⬝ᵥ w) • m = m ⨯₃ (w ⨯₃ m) := by
    intro m w
    rw [cross_cross_eq_smul_sub_smul' m w m, dotProduct_comm m w]
  have hk := key (u ⨯₃ v) x
  rw [cross_cross_eq_smul_sub_smul u v (x ⨯₃ (u ⨯₃ v))] at hk
  refine ⟨-(v ⬝ᵥ x ⨯₃ (u ⨯₃ v)) / ((u ⨯₃ v) ⬝ᵥ (u ⨯₃ v)),
    (u ⬝ᵥ x ⨯₃ (u ⨯₃ v)) / ((u ⨯₃ v) ⬝ᵥ (u ⨯₃ v)), ?_⟩
  unfold vectorRejection
  rw [projection_eq h]
  ext i
  have := congrFun hk i
  simp only [Pi.sub_apply, Pi.smul_apply, smul_eq_mul, Pi.add_apply] at this ⊢
  field_simp
  linarith

theorem isApprox_one {c : ℝ} (h0 : 0 ≤ c) (h1 : c ≤ 1) :
    Angles.isApprox c 1 (1 / 10 ^ 10) = true ↔ 1 - c ≤ c / 10 ^ 10 := by
  unfold Angles.isApprox Angles.closeEnough
  rw [decide_eq_true_iff, abs_of_nonneg h0, abs_one, min_eq_left h1, abs_of_nonneg (by linarith),
    abs_of_nonneg (by positivity), div_mul_eq_mul_div, one_mul]

/-- C79: two vectors are refused exactly when the cosine of the angle between them is 1 or -1 up to the
tolerance. -/
theorem C79_throws (p1 p2 v : Fin 3 → ℝ) (h1 : p1 ≠ 0) (h2 : p2 ≠ 0) :
    (vectorProjectionToPlane p1 p2 v = .throws .invalidArgument ↔
      length p1 * length p2 - |∑ i, p1 i * p2 i| ≤ |∑ i, p1 i * p2 i| / 10 ^ 10) ∧
    (vectorProjectionToPlane p1 p2 v ≠ .throws .invalidArgument → ∃ r, vectorProjectionToPlane p1 p2 v = .ok r) := by
  have e : |normalized p1 ⬝ᵥ normalized p2| = |p1 ⬝ᵥ p2| / (norm p1 * norm p2) := by
    rw [normalized_of_ne h1, normalized_of_ne h2, smul_dotProduct, dotProduct_smul, smul_eq_mul, smul_eq_mul,
      abs_mul, abs_mul, abs_of_pos (one_div_pos.2 (norm_pos h1)), abs_of_pos (one_div_pos.2 (norm_pos h2))]
    have := (norm_pos h1).ne'
    have := (norm_pos h2).ne'
    field_simp
  have hpos : 0 < norm p1 * norm p2 := mul_pos (norm_pos h1) (norm_pos h2)
  have hle := abs_dot_le p1 p2
  have hc : |p1 ⬝ᵥ p2| / (norm p1 * norm p2) ≤ 1 := (div_le_one hpos).2 hle
  have hc0 : 0 ≤ |p1 ⬝ᵥ p2| / (norm p1 * norm p2) := div_nonneg (abs_nonneg _) hpos.le
  constructor
  · unfold vectorProjectionToPlane
    simp only
    rw [e]
    have hiff : Angles.isApprox (|p1 ⬝ᵥ p2| / (norm p1 * norm p2)) 1 (1 / 10 ^ 10) = true ↔
        norm p1 * norm p2 - |p1 ⬝ᵥ p2| ≤ |p1 ⬝ᵥ p2| / 10 ^ 10 := by
      have hA : |p1 ⬝ᵥ p2| = |p1 ⬝ᵥ p2| / (norm p1 * norm p2) * (norm p1 * norm p2) := by
        rw [div_mul_cancel₀ _ hpos.ne']
      generalize |p1 ⬝ᵥ p2| / (norm p1 * norm p2) = c at *
      generalize norm p1 * norm p2 = N at *
      rw [isApprox_one hc0 hc, hA]
      constructor
      · intro h; nlinarith
      · intro h
        by_contra hlt
        push Not at hlt
        nlinarith
    rw [dot_eq, length_eq, length_eq, ← hiff]
    split
    · simp_all
    · simp_all
  · intro h
    unfold vectorProjectionToPlane at h ⊢
    simp only at h ⊢
    split at h
    · exact absurd rfl h
    · rw [if_neg (by assumption)]; exact ⟨_, rfl⟩

/-- C79: otherwise the result is in the plane of the two vectors and differs from the vector by something at a
right angle to both. -/
theorem C79_plane (p1 p2 v r : Fin 3 → ℝ) (h1 : p1 ≠ 0) (h2 : p2 ≠ 0)
    (h : vectorProjectionToPlane p1 p2 v = .ok r) :
    (∃ a b : ℝ, r = a • p1 + b • p2) ∧ Perpendicular p1 (v - r) ∧ Perpendicular p2 (v - r) := by
  unfold vectorProjectionToPlane at h
  simp only at h
  split at h
  · cases h
  rename_i hn
  injection h with h
  have hone : |normalized p1 ⬝ᵥ normalized p2| ≠ 1 := by
    intro hc
    apply hn
    rw [hc]
    simp [Angles.isApprox, Angles.closeEnough]
  have hcross : normalized p1 ⨯₃ normalized p2 ≠ 0 := by
    intro hz
    have := cross_sq (normalized p1) (normalized p2)
    rw [hz, normalized_dot_self h1, normalized_dot_self h2] at this
    apply hone
    have hs : (normalized p1 ⬝ᵥ normalized p2) ^ 2 = 1 := by
      simp at this; linarith
    rw [← sq_abs] at hs
    nlinarith [abs_nonneg (normalized p1 ⬝ᵥ normalized p2)]
  have hv : v - r = vectorProjection (normalized p1 ⨯₃ normalized p2) v := by
    rw [← h]; unfold vectorRejection; abel
  obtain ⟨t, ht⟩ := projection_multiple (normalized p1 ⨯₃ normalized p2) v
  refine ⟨?_, ?_, ?_⟩
  · obtain ⟨a, b, hab⟩ := rejection_span hcross v
    refine ⟨a * (1 / norm p1), b * (1 / norm p2), ?_⟩
    rw [← h, hab, mul_smul, mul_smul, ← normalized_of_ne h1, ← normalized_of_ne h2]
  · unfold Perpendicular
    rw [dot_eq, hv, ht, dotProduct_smul, normalized_of_ne h1, LinearMap.map_smul₂, dotProduct_smul,
      dot_self_cross, smul_zero, smul_zero]
  · unfold Perpendicular
    rw [dot_eq, hv, ht, dotProduct_smul, normalized_of_ne h2, LinearMap.map_smul, dotProduct_smul,
      dot_cross_self, smul_zero, smul_zero]

/-- C79: a zero vector defines no plane, but it is not refused: every vector is returned as it is. -/
theorem C79_zero_accepted (p v : Fin 3 → ℝ) :
    vectorProjectionToPlane 0 p v = .ok v ∧ vectorProjectionToPlane p 0 v = .ok v := by
  have h0 : Angles.isApprox (0 : ℝ) 1 (1 / 10 ^ 10) = false := by
    unfold Angles.isApprox Angles.closeEnough; norm_num
  constructor
  · unfold vectorProjectionToPlane
    simp only [normalized_zero, zero_dotProduct, abs_zero, h0, Bool.false_eq_true, if_false, map_zero,
      LinearMap.zero_apply, vectorRejection, projection_zero, sub_zero]
  · unfold vectorProjectionToPlane
    simp only [normalized_zero, dotProduct_zero, abs_zero, h0, Bool.false_eq_true, if_false, map_zero,
      vectorRejection, projection_zero, sub_zero]

/-! ### C80: distance to a line -/

/-- C80: the internal check of `DistanceToLine` never fails. The second number is the position along the line,
measured from the given point with the direction scaled to length one; the first is the distance from there to
`x`, and no point of the line is nearer. -/
theorem C80_line (p d x : Fin 3 → ℝ) (hd : d ≠ 0) :
    ∃ dist along, distanceToLine p d x = .ok (dist, along) ∧
      dist = distance x (p + (along / length d) • d) ∧
      ∀ y, OnLine p d y → dist ≤ distance x y := by
  have hu : normalized d = (1 / norm d) • d := normalized_of_ne hd
  have hn := (norm_pos hd).ne'
  let along := normalized d ⬝ᵥ (x - p)
  have hfoot : p + along • normalized d = p + (along / length d) • d := by
    rw [hu, smul_smul, length_eq]; congr 2; ring
  have hperp : normalized d ⬝ᵥ (x - (p + along • normalized d)) = 0 := by
    have : x - (p + along • normalized d) = (x - p) - along • normalized d := by abel
    rw [this, dotProduct_sub, dotProduct_smul, normalized_dot_self hd]
    simp [along]
  have hdist : norm (p + along • normalized d - x) = norm (x - (p + along • normalized d)) := by
    rw [← norm_neg]; congr 1; abel
  have hpyth : norm (p + along • normalized d - x) * norm (p + along • normalized d - x) + along * along =
      squaredNorm (x - p) := by
    rw [hdist, norm_mul_self]
    have e : x - p = (x - (p + along • normalized d)) + along • normalized d := by abel
    unfold squaredNorm
    conv_rhs => rw [e]
    rw [add_dotProduct, dotProduct_add, dotProduct_add, dotProduct_smul, smul_dotProduct, smul_dotProduct,
      dotProduct_smul, dotProduct_comm _ (normalized d), hperp, normalized_dot_self hd]
    simp
  refine ⟨norm (p + along • normalized d - x), along, ?_, ?_, ?_⟩
  · unfold distanceToLine
    dsimp only
    rw [Out.assert_true, Out.bind_ok]
    rw [show normalized d ⬝ᵥ (x - p) = along from rfl, hpyth]
    simp [Angles.isApprox, Angles.closeEnough]
  · rw [distance_eq, hdist, hfoot]
  · rintro y ⟨t, rfl⟩
    rw [distance_eq, hdist]
    apply nearest
    have : p + along • normalized d - (p + t • d) = (along * (1 / norm d) - t) • d := by
      rw [hu, smul_smul, sub_smul]; abel
    rw [this, dotProduct_smul]
    have hdd : d ⬝ᵥ (x - (p + along • normalized d)) = 0 := by
      have : d = norm d • normalized d := by rw [hu, smul_smul, mul_one_div_cancel hn, one_smul]
      calc d ⬝ᵥ (x - (p + along • normalized d)) =
          (norm d • normalized d) ⬝ᵥ (x - (p + along • normalized d)) := by rw [← this]
        _ = 0 := by rw [smul_dotProduct, hperp, smul_zero]
    rw [dotProduct_comm, hdd, smul_zero]

/-- C80: with the zero direction the result is the distance to the given point. -/
theorem C80_zero (p x : Fin 3 → ℝ) : distanceToLine p 0 x = .ok (distance x p, 0) := by
  unfold distanceToLine
  dsimp only
  have hn : norm (p - x) = norm (x - p) := by rw [← norm_neg]; congr 1; abel
  have hz : p + (normalized (0 : Fin 3 → ℝ) ⬝ᵥ (x - p)) • normalized (0 : Fin 3 → ℝ) = p := by
    rw [normalized_zero]; simp
  have h2 : normalized (0 : Fin 3 → ℝ) ⬝ᵥ (x - p) = 0 := by rw [normalized_zero]; simp
  rw [hz, h2, hn, distance_eq, Out.assert_true, Out.bind_ok]
  rw [norm_mul_self]
  simp [Angles.isApprox, Angles.closeEnough, squaredNorm]

example : (![0, 0, 2] : Fin 3 → ℝ) ≠ 0 := by
  intro h; have := congrFun h 2; simp at this

/-! ### C81: hyperplanes -/

/-- C81: the projection of a point is on the plane and no point of the plane is nearer; the distance is the
distance to it. -/
theorem C81_project_point {n : Nat} (h : Hyperplane n) (x : Fin n → ℝ) :
    OnPlane h.origin h.normal (h.projectPointOntoPlane x) ∧
    h.getDistanceToPlane x = distance x (h.projectPointOntoPlane x) ∧
    h.getSquaredDistanceToPlane x = distance x (h.projectPointOntoPlane x) ^ 2 ∧
    ∀ y, OnPlane h.origin h.normal y → h.getDistanceToPlane x ≤ distance x y := by
  have hd : x - h.projectPointOntoPlane x = vectorProjection h.normal (x - h.origin) := by
    unfold Hyperplane.projectPointOntoPlane vectorRejection; abel
  have hp : h.normal ⬝ᵥ (h.projectPointOntoPlane x - h.origin) = 0 := by
    have : h.projectPointOntoPlane x - h.origin = (x - h.origin) - vectorProjection h.normal (x - h.origin) := by
      unfold Hyperplane.projectPointOntoPlane vectorRejection; abel
    rw [this]; exact projection_perp _ _
  refine ⟨hp, by rw [distance_eq, hd]; rfl, by rw [distance_eq, hd, norm_sq]; rfl, ?_⟩
  intro y hy
  rw [distance_eq]
  have : h.getDistanceToPlane x = norm (x - h.projectPointOntoPlane x) := by rw [hd]; rfl
  rw [this]
  apply nearest
  obtain ⟨t, ht⟩ := projection_multiple h.normal (x - h.origin)
  rw [hd, ht, smul_dotProduct]
  have e : h.projectPointOntoPlane x - y = (h.projectPointOntoPlane x - h.origin) - (y - h.origin) := by abel
  unfold OnPlane Perpendicular at hy
  rw [e, dotProduct_sub, hp, ← dot_eq h.normal (y - h.origin), hy]
  simp

/-- C81: a vector is split into a part along the normal and a part within the plane. -/
theorem C81_project_vector {n : Nat} (h : Hyperplane n) (v : Fin n → ℝ) :
    h.projectVectorOntoPlane v + h.rejectVectorOntoPlane v = v ∧
    Perpendicular h.normal (h.projectVectorOntoPlane v) ∧ Multiple h.normal (h.rejectVectorOntoPlane v) :=
  ⟨by unfold Hyperplane.projectVectorOntoPlane Hyperplane.rejectVectorOntoPlane vectorRejection; abel,
    projection_perp _ _, projection_multiple _ _⟩

/-- C81: the raw product is the distance times the length of the normal, with the sign of the side; it is zero
on the plane only. -/
theorem C81_raw {n : Nat} (h : Hyperplane n) (x : Fin n → ℝ) :
    |h.getRawDotProduct x| = h.getDistanceToPlane x * length h.normal ∧
    (h.getRawDotProduct x = 0 ↔ OnPlane h.origin h.normal x) ∧
    (∀ t : ℝ, h.getRawDotProduct (x + t • h.normal) = h.getRawDotProduct x + t * length h.normal ^ 2) := by
  refine ⟨?_, ?_, ?_⟩
  · unfold Hyperplane.getRawDotProduct Hyperplane.getDistanceToPlane
    rw [length_eq]
    by_cases hz : h.normal = 0
    · rw [hz, projection_zero]; simp [norm, squaredNorm]
    · rw [projection_eq hz, norm_smul, mul_assoc, norm_mul_self, abs_div, abs_of_pos (dot_self_pos hz),
        dotProduct_comm]
      have := (dot_self_pos hz).ne'
      field_simp
  · unfold Hyperplane.getRawDotProduct OnPlane Perpendicular
    rw [dot_eq, dotProduct_comm]
  · intro t
    unfold Hyperplane.getRawDotProduct
    rw [length_eq, norm_sq, show x + t • h.normal - h.origin = (x - h.origin) + t • h.normal by abel,
      add_dotProduct, smul_dotProduct, smul_eq_mul]

/-- C81: the normed product is the raw product over the distance from the origin of the plane, and never
larger than the normal is long; within 2^-52 of the origin it is the raw product itself. -/
theorem C81_normed {n : Nat} (h : Hyperplane n) (x : Fin n → ℝ) :
    (1 / 2 ^ 52 < distance x h.origin →
      h.getNormedDotProduct x * distance x h.origin = h.getRawDotProduct x ∧
      |h.getNormedDotProduct x| ≤ length h.normal) ∧
    (¬ 1 / 2 ^ 52 < distance x h.origin → h.getNormedDotProduct x = h.getRawDotProduct x) := by
  rw [distance_eq, length_eq]
  constructor
  · intro hlt
    have hpos : 0 < norm (x - h.origin) := lt_trans (by positivity) hlt
    have e : h.getNormedDotProduct x = (1 / norm (x - h.origin)) * ((x - h.origin) ⬝ᵥ h.normal) := by
      unfold Hyperplane.getNormedDotProduct safeNormal
      rw [if_pos hlt, smul_dotProduct, smul_eq_mul]
    refine ⟨?_, ?_⟩
    · rw [e]; unfold Hyperplane.getRawDotProduct; field_simp
    · rw [e, abs_mul, abs_of_pos (one_div_pos.2 hpos)]
      have := abs_dot_le (x - h.origin) h.normal
      rw [one_div, inv_mul_le_iff₀ hpos]
      exact this
  · intro hlt
    unfold Hyperplane.getNormedDotProduct Hyperplane.getRawDotProduct safeNormal
    rw [if_neg hlt]

/-! ### C82: the pyramid in a cone -/

theorem coneSide_eq {c : Fin 3 → ℝ} (hc : c ≠ 0) :
    coneSide c = ![1, 1, 1] - ((c 0 + c 1 + c 2) / (c ⬝ᵥ c)) • c := by
  unfold coneSide vectorRejection
  rw [projection_eq hc, projection_eq hc, projection_eq hc]
  have e0 : c ⬝ᵥ ![1, 0, 0] = c 0 := by rw [vec3_dotProduct]; simp
  have e1 : c ⬝ᵥ ![0, 1, 0] = c 1 := by rw [vec3_dotProduct]; simp
  have e2 : c ⬝ᵥ ![0, 0, 1] = c 2 := by rw [vec3_dotProduct]; simp
  rw [e0, e1, e2]
  ext i
  simp only [Pi.add_apply, Pi.sub_apply, Pi.smul_apply, smul_eq_mul]
  fin_cases i <;> simp only [Fin.zero_eta, Fin.mk_one, Fin.reduceFinMk, cons_val_zero, cons_val_one, cons_val] <;> ring

theorem coneSide_perp (c : Fin 3 → ℝ) : c ⬝ᵥ coneSide c = 0 := by
  unfold coneSide vectorRejection
  rw [dotProduct_add, dotProduct_add, projection_perp, projection_perp, projection_perp]; simp

theorem coneSide_sq {c : Fin 3 → ℝ} (hc : c ⬝ᵥ c = 1) :
    coneSide c ⬝ᵥ coneSide c = 3 - (c 0 + c 1 + c 2) ^ 2 := by
  have h0 : c ≠ 0 := by rintro rfl; simp at hc
  rw [coneSide_eq h0, hc]
  rw [vec3_dotProduct] at hc
  simp only [vec3_dotProduct, Pi.sub_apply, Pi.smul_apply, smul_eq_mul, cons_val_zero, cons_val_one, cons_val]
  linear_combination ((c 0 + c 1 + c 2) ^ 2) * hc

theorem normalized_dot_nonneg (m r : Fin 3 → ℝ) : (-normalized m) ⬝ᵥ r ≤ 0 ↔ 0 ≤ m ⬝ᵥ r := by
  by_cases hm : m = 0
  · rw [hm, normalized_zero]; simp
  · rw [normalized_of_ne hm, neg_dotProduct, smul_dotProduct, smul_eq_mul, neg_nonpos]
    exact mul_nonneg_iff_of_pos_left (one_div_pos.2 (norm_pos hm))

theorem gram (c p r : Fin 3 → ℝ) : ((c ⨯₃ p) ⬝ᵥ r) ^ 2 =
    (c ⬝ᵥ c) * (p ⬝ᵥ p) * (r ⬝ᵥ r) + 2 * (c ⬝ᵥ p) * (p ⬝ᵥ r) * (c ⬝ᵥ r) - (c ⬝ᵥ c) * (p ⬝ᵥ r) ^ 2
      - (p ⬝ᵥ p) * (c ⬝ᵥ r) ^ 2 - (r ⬝ᵥ r) * (c ⬝ᵥ p) ^ 2 := by
  simp only [cross_apply, vec3_dotProduct, cons_val_zero, cons_val_one, cons_val]
  ring

/-- The cross products of neighbouring rays -/
theorem ray_cross (c p q : Fin 3 → ℝ) (a b : ℝ) :
    (c + a • p) ⨯₃ (c + b • q) = b • (c ⨯₃ q) - a • (c ⨯₃ p) + (a * b) • (p ⨯₃ q) := by
  ext i
  fin_cases i <;> simp [cross_apply] <;> ring

theorem cone_dots {c p r : Fin 3 → ℝ} (hc : c ⬝ᵥ c = 1) (hp : p ⬝ᵥ p = 1) (hcp : c ⬝ᵥ p = 0) (d : ℝ) :
    let q := c ⨯₃ p
    ((c + d • p) ⨯₃ (c + d • q)) ⬝ᵥ r = d * (-(p ⬝ᵥ r) - q ⬝ᵥ r + d * (c ⬝ᵥ r)) ∧
    ((c + d • q) ⨯₃ (c + d • -p)) ⬝ᵥ r = d * (p ⬝ᵥ r - q ⬝ᵥ r + d * (c ⬝ᵥ r)) ∧
    ((c + d • -p) ⨯₃ (c + d • -q)) ⬝ᵥ r = d * (p ⬝ᵥ r + q ⬝ᵥ r + d * (c ⬝ᵥ r)) ∧
    ((c + d • -q) ⨯₃ (c + d • p)) ⬝ᵥ r = d * (-(p ⬝ᵥ r) + q ⬝ᵥ r + d * (c ⬝ᵥ r)) := by
  intro q
  have hcq : c ⨯₃ q = -p := by
    rw [cross_cross_eq_smul_sub_smul' c c p, hcp, hc]; simp
  have hpq : p ⨯₃ q = c := by
    rw [cross_cross_eq_smul_sub_smul' p c p, hp, dotProduct_comm c p, dotProduct_comm p c, hcp]; simp
  have hqp : q ⨯₃ p = -c := by rw [← cross_anticomm, hpq]
  have hcp' : c ⨯₃ p = q := rfl
  refine ⟨?_, ?_, ?_, ?_⟩
  · rw [ray_cross, hcq, hpq, hcp']
    simp only [add_dotProduct, sub_dotProduct, smul_dotProduct, neg_dotProduct, smul_eq_mul]; ring
  · rw [ray_cross, map_neg, map_neg, hcq, hqp, hcp']
    simp only [add_dotProduct, sub_dotProduct, smul_dotProduct, neg_dotProduct, smul_eq_mul]; ring
  · rw [ray_cross, map_neg, map_neg, map_neg crossProduct p, LinearMap.neg_apply, map_neg, hcq, hpq, hcp']
    simp only [add_dotProduct, sub_dotProduct, smul_dotProduct, neg_dotProduct, smul_eq_mul]; ring
  · rw [ray_cross, map_neg, map_neg crossProduct q, LinearMap.neg_apply, hcq, hqp, hcp']
    simp only [add_dotProduct, sub_dotProduct, smul_dotProduct, neg_dotProduct, smul_eq_mul]; ring

/-- C82: for a direction of length one the call fails its assertion exactly if the direction is (nearly) that of
(1, 1, 1) or (-1, -1, -1), and returns four normals otherwise. -/
theorem C82_accepts (c : Fin 3 → ℝ) (hc : length c = 1) (minDot : ℝ) :
    (3 - (c 0 + c 1 + c 2) ^ 2 ≤ (1 / 10 ^ 6) ^ 2 → convertConeToPyramid c minDot = .abort) ∧
    (¬ 3 - (c 0 + c 1 + c 2) ^ 2 ≤ (1 / 10 ^ 6) ^ 2 →
      ∃ m1 m2 m3 m4, convertConeToPyramid c minDot = .ok [m1, m2, m3, m4]) := by
  have hcc : c ⬝ᵥ c = 1 := by rw [← norm_sq, ← length_eq, hc]; norm_num
  have hiff : 1 / 10 ^ 6 < norm (coneSide c) ↔ ¬ 3 - (c 0 + c 1 + c 2) ^ 2 ≤ (1 / 10 ^ 6) ^ 2 := by
    unfold norm squaredNorm
    rw [Real.lt_sqrt (by positivity), coneSide_sq hcc, not_le]
  constructor
  · intro h
    unfold convertConeToPyramid
    dsimp only
    rw [Out.assert_false (by rw [hiff]; exact fun h' => h' h)]; rfl
  · intro h
    unfold convertConeToPyramid
    dsimp only
    rw [Out.assert_true (hiff.2 h), Out.bind_ok]
    exact ⟨_, _, _, _, rfl⟩

/-- C82: the vector that is said to be never zero is zero for the direction (1, 1, 1): the assertion fails. -/
theorem C82_diagonal_fails : ∃ c : Fin 3 → ℝ, length c = 1 ∧ ∀ minDot, convertConeToPyramid c minDot = .abort := by
  have h3 : Real.sqrt 3 ^ 2 = 3 := Real.sq_sqrt (by norm_num)
  have hl : length ![1 / Real.sqrt 3, 1 / Real.sqrt 3, 1 / Real.sqrt 3] = 1 := by
    unfold length
    rw [Fin.sum_univ_three]
    simp only [cons_val_zero, cons_val_one, cons_val, div_pow, h3]
    norm_num
  refine ⟨_, hl, fun minDot => (C82_accepts _ hl minDot).1 ?_⟩
  simp only [cons_val_zero, cons_val_one, cons_val]
  rw [show 1 / Real.sqrt 3 + 1 / Real.sqrt 3 + 1 / Real.sqrt 3 = 3 / Real.sqrt 3 by ring, div_pow, h3]
  norm_num

/-- C82: the four normals describe a pyramid around the cone direction: with two side directions of length one,
at right angles to it and to each other, a vector is inside if and only if the sum of its amounts along the
sides is at most the tangent of the angle times its amount along the cone direction. -/
theorem C82_shape (c : Fin 3 → ℝ) (hc : length c = 1) (minDot : ℝ) (ms : List (Fin 3 → ℝ))
    (h : convertConeToPyramid c minDot = .ok ms) (ht : Real.tan (Real.arccos minDot) ≠ 0) :
    ∃ p q : Fin 3 → ℝ, length p = 1 ∧ length q = 1 ∧ Perpendicular c p ∧ Perpendicular c q ∧ Perpendicular p q ∧
      ∀ r, InPyramid ms r ↔
        |∑ i, p i * r i| + |∑ i, q i * r i| ≤ |Real.tan (Real.arccos minDot)| * ∑ i, c i * r i := by
  have hcc : c ⬝ᵥ c = 1 := by rw [← norm_sq, ← length_eq, hc]; norm_num
  unfold convertConeToPyramid at h
  dsimp only at h
  obtain ⟨u, ha, h⟩ := Out.bind_eq_ok.1 h
  have ha := Out.assert_eq_ok.1 ha
  injection h with h
  have hne : coneSide c ≠ 0 := by
    intro hz
    rw [hz] at ha
    simp [norm, squaredNorm] at ha
    norm_num at ha
  let p := normalized (coneSide c)
  have hp : p ⬝ᵥ p = 1 := normalized_dot_self hne
  have hcp : c ⬝ᵥ p = 0 := by
    show c ⬝ᵥ normalized (coneSide c) = 0
    rw [normalized_of_ne hne, dotProduct_smul, coneSide_perp, smul_zero]
  have hqq : (c ⨯₃ p) ⬝ᵥ (c ⨯₃ p) = 1 := by rw [cross_sq, hcc, hp, hcp]; norm_num
  have hqne : c ⨯₃ p ≠ 0 := by intro hz; rw [hz] at hqq; simp at hqq
  have hqn : normalized (c ⨯₃ p) = c ⨯₃ p := by
    rw [normalized_of_ne hqne]
    unfold norm squaredNorm
    rw [hqq]; simp
  refine ⟨p, c ⨯₃ p, ?_, ?_, hcp, dot_self_cross c p, dot_cross_self c p, ?_⟩
  · rw [length_eq]; unfold norm squaredNorm; rw [hp]; simp
  · rw [length_eq]; unfold norm squaredNorm; rw [hqq]; simp
  intro r
  simp only [dot_eq]
  generalize hd : Real.tan (Real.arccos minDot) = d at *
  obtain ⟨e1, e2, e3, e4⟩ := cone_dots (r := r) hcc hp hcp d
  rw [← h]
  unfold InPyramid
  simp only [List.mem_cons, List.not_mem_nil, or_false, forall_eq_or_imp, forall_eq, dot_eq,
    normalized_dot_nonneg]
  rw [show normalized (coneSide c) = p from rfl, hqn, e1, e2, e3, e4]
  generalize p ⬝ᵥ r = x
  generalize (c ⨯₃ p) ⬝ᵥ r = y
  generalize c ⬝ᵥ r = z
  rcases lt_or_gt_of_ne ht with hneg | hpos
  · rw [abs_of_neg hneg]
    have key : ∀ a, 0 ≤ d * a ↔ a ≤ 0 := fun a => by
      rw [mul_nonneg_iff]
      constructor
      · rintro (⟨h1, _⟩ | ⟨_, h2⟩)
        · exact absurd h1 (not_le.2 hneg)
        · exact h2
      · intro h; exact Or.inr ⟨hneg.le, h⟩
    simp only [key]
    constructor
    · rintro ⟨h1, h2, h3, h4⟩
      rcases abs_cases x with ⟨hx, _⟩ | ⟨hx, _⟩ <;> rcases abs_cases y with ⟨hy, _⟩ | ⟨hy, _⟩ <;>
        rw [hx, hy] <;> linarith
    · intro h
      have := le_abs_self x; have := neg_abs_le x; have := le_abs_self y; have := neg_abs_le y
      refine ⟨?_, ?_, ?_, ?_⟩ <;> linarith
  · rw [abs_of_pos hpos]
    have key : ∀ a, 0 ≤ d * a ↔ 0 ≤ a := fun a => mul_nonneg_iff_of_pos_left hpos
    simp only [key]
    constructor
    · rintro ⟨h1, h2, h3, h4⟩
      rcases abs_cases x with ⟨hx, _⟩ | ⟨hx, _⟩ <;> rcases abs_cases y with ⟨hy, _⟩ | ⟨hy, _⟩ <;>
        rw [hx, hy] <;> linarith
    · intro h
      have := le_abs_self x; have := neg_abs_le x; have := le_abs_self y; have := neg_abs_le y
      refine ⟨?_, ?_, ?_, ?_⟩ <;> linarith

/-- C82: the pyramid lies inside the cone. -/
theorem C82_inside (c : Fin 3 → ℝ) (hc : length c = 1) (minDot : ℝ) (hl : -1 < minDot) (hu : minDot < 1)
    (h0 : minDot ≠ 0) (ms : List (Fin 3 → ℝ)) (h : convertConeToPyramid c minDot = .ok ms)
    (r : Fin 3 → ℝ) (hr : InPyramid ms r) : InCone c minDot r := by
  have hcc : c ⬝ᵥ c = 1 := by rw [← norm_sq, ← length_eq, hc]; norm_num
  have hsq : 0 < 1 - minDot ^ 2 := by nlinarith
  have htan : Real.tan (Real.arccos minDot) = Real.sqrt (1 - minDot ^ 2) / minDot := Real.tan_arccos minDot
  have ht : Real.tan (Real.arccos minDot) ≠ 0 := by
    rw [htan]; exact div_ne_zero (Real.sqrt_pos.2 hsq).ne' h0
  obtain ⟨p, q, hp, hq, hcp, hcq, hpq, hall⟩ := C82_shape c hc minDot ms h ht
  have hin := (hall r).1 hr
  have hd2 : |Real.tan (Real.arccos minDot)| ^ 2 * minDot ^ 2 = 1 - minDot ^ 2 := by
    rw [sq_abs, htan, div_pow, Real.sq_sqrt hsq.le, div_mul_cancel₀ _ (pow_ne_zero 2 h0)]
  have hdpos : 0 < |Real.tan (Real.arccos minDot)| := abs_pos.2 ht
  have hpp : p ⬝ᵥ p = 1 := by rw [← norm_sq, ← length_eq, hp]; norm_num
  have hqq : q ⬝ᵥ q = 1 := by rw [← norm_sq, ← length_eq, hq]; norm_num
  have hcp' : c ⬝ᵥ p = 0 := hcp
  have hcq' : c ⬝ᵥ q = 0 := hcq
  have hpq' : p ⬝ᵥ q = 0 := hpq
  -- the three directions are a basis
  have hq2 : ((c ⨯₃ p) ⬝ᵥ q) ^ 2 = 1 := by
    rw [gram, hcc, hpp, hqq, hcp', hcq', hpq']; norm_num
  have hrr : r ⬝ᵥ r = (c ⬝ᵥ r) ^ 2 + (p ⬝ᵥ r) ^ 2 + (q ⬝ᵥ r) ^ 2 := by
    have hm : q = ((c ⨯₃ p) ⬝ᵥ q) • (c ⨯₃ p) := by
      have hmm : (c ⨯₃ p) ⬝ᵥ (c ⨯₃ p) = 1 := by rw [cross_sq, hcc, hpp, hcp']; norm_num
      have : (q - ((c ⨯₃ p) ⬝ᵥ q) • (c ⨯₃ p)) ⬝ᵥ (q - ((c ⨯₃ p) ⬝ᵥ q) • (c ⨯₃ p)) = 0 := by
        simp only [sub_dotProduct, dotProduct_sub, smul_dotProduct, dotProduct_smul, smul_eq_mul, hmm, hqq,
          dotProduct_comm q (c ⨯₃ p)]
        linear_combination -hq2
      exact sub_eq_zero.1 (dotProduct_self_eq_zero.1 this)
    have hqr : (q ⬝ᵥ r) ^ 2 = ((c ⨯₃ p) ⬝ᵥ r) ^ 2 := by
      calc (q ⬝ᵥ r) ^ 2 = ((((c ⨯₃ p) ⬝ᵥ q) • (c ⨯₃ p)) ⬝ᵥ r) ^ 2 := by rw [← hm]
        _ = _ := by rw [smul_dotProduct, smul_eq_mul, mul_pow, hq2, one_mul]
    rw [hqr, gram, hcc, hpp, hcp']; ring
  unfold InCone
  rw [length_eq]
  simp only [dot_eq] at hin ⊢
  have hz : 0 ≤ c ⬝ᵥ r := by
    have := abs_nonneg (p ⬝ᵥ r); have := abs_nonneg (q ⬝ᵥ r)
    by_contra hlt
    push Not at hlt
    have := mul_neg_of_pos_of_neg hdpos hlt
    linarith
  by_cases hm : minDot ≤ 0
  · exact le_trans (mul_nonpos_of_nonpos_of_nonneg hm (norm_nonneg r)) hz
  push Not at hm
  apply le_of_sq_le_sq _ hz
  rw [mul_pow, norm_sq, hrr]
  have h1 : (|p ⬝ᵥ r| + |q ⬝ᵥ r|) ^ 2 ≤ (|Real.tan (Real.arccos minDot)| * c ⬝ᵥ r) ^ 2 :=
    pow_le_pow_left₀ (add_nonneg (abs_nonneg _) (abs_nonneg _)) hin 2
  have h2 : (p ⬝ᵥ r) ^ 2 + (q ⬝ᵥ r) ^ 2 ≤ (|p ⬝ᵥ r| + |q ⬝ᵥ r|) ^ 2 := by
    rw [← sq_abs (p ⬝ᵥ r), ← sq_abs (q ⬝ᵥ r)]
    nlinarith [abs_nonneg (p ⬝ᵥ r), abs_nonneg (q ⬝ᵥ r)]
  have h3 := mul_le_mul_of_nonneg_left (h2.trans h1) (sq_nonneg minDot)
  have h4 : minDot ^ 2 * (|Real.tan (Real.arccos minDot)| * c ⬝ᵥ r) ^ 2 = (1 - minDot ^ 2) * (c ⬝ᵥ r) ^ 2 := by
    rw [mul_pow, ← hd2]; ring
  rw [h4] at h3
  nlinarith

/-- C82: for the cone of angle zero (a ray) the normals are zero, and every vector counts as inside. -/
theorem C82_zero_angle (c : Fin 3 → ℝ) (ms : List (Fin 3 → ℝ)) (h : convertConeToPyramid c 1 = .ok ms) :
    ∀ r, InPyramid ms r := by
  unfold convertConeToPyramid at h
  dsimp only at h
  obtain ⟨u, ha, h⟩ := Out.bind_eq_ok.1 h
  injection h with h
  rw [← h]
  rw [Real.arccos_one, Real.tan_zero]
  simp [cross_self, normalized_zero, InPyramid]

/-- A direction and an angle that are accepted -/
example : length ![0, 0, 1] = 1 ∧ ¬ 3 - ((![0, 0, 1] : Fin 3 → ℝ) 0 + (![0, 0, 1] : Fin 3 → ℝ) 1
    + (![0, 0, 1] : Fin 3 → ℝ) 2) ^ 2 ≤ (1 / 10 ^ 6) ^ 2 := by
  constructor
  · unfold length; rw [Fin.sum_univ_three]; simp
  · simp only [cons_val_zero, cons_val_one, cons_val]; norm_num

/-! ### C83: clamping the norm -/

/-- C83: the result is no longer than the maximum, points the same way, and is the vector itself if that is
short enough. A maximum that is not positive fails the assertion. -/
theorem C83_clamp {n : Nat} (v : Fin n → ℝ) (m : ℝ) :
    (¬ 0 < m → clampNorm v m = .abort) ∧
    (0 < m → ∃ r, clampNorm v m = .ok r ∧ length r = min (length v) m ∧
      (∃ t : ℝ, 0 < t ∧ t ≤ 1 ∧ r = t • v) ∧ (length v ≤ m → r = v)) := by
  constructor
  · intro h; unfold clampNorm; rw [Out.assert_false h]; rfl
  · intro h
    unfold clampNorm
    rw [Out.assert_true h, Out.bind_ok]
    simp only [length_eq]
    by_cases hl : m < norm v
    · rw [if_pos hl]
      have hpos : 0 < norm v := h.trans hl
      refine ⟨_, rfl, ?_, ⟨_, div_pos h hpos, (div_le_one hpos).2 hl.le, rfl⟩, fun h' => absurd h' (not_le.2 hl)⟩
      rw [norm_smul, abs_of_pos (div_pos h hpos), min_eq_right hl.le]
      field_simp
    · rw [if_neg hl]
      exact ⟨v, rfl, (min_eq_left (not_lt.1 hl)).symm, ⟨1, one_pos, le_refl _, (one_smul _ _).symm⟩, fun _ => rfl⟩

/-- C83: a vector longer than 2^-52 is scaled to length one, keeping its direction; a shorter one is left. -/
theorem C83_safe_normal {n : Nat} (v : Fin n → ℝ) :
    (1 / 2 ^ 52 < length v → length (safeNormal v) = 1 ∧ v = length v • safeNormal v) ∧
    (¬ 1 / 2 ^ 52 < length v → safeNormal v = v) := by
  simp only [length_eq]
  constructor
  · intro h
    have hpos : 0 < norm v := lt_trans (by positivity) h
    unfold safeNormal
    rw [if_pos h, norm_smul, abs_of_pos (one_div_pos.2 hpos), smul_smul, mul_one_div_cancel hpos.ne', one_smul]
    exact ⟨one_div_mul_cancel hpos.ne', rfl⟩
  · intro h; unfold safeNormal; rw [if_neg h]

example : (1 : ℝ) / 2 ^ 52 < length ![3, 4] := by
  unfold length
  simp
  rw [show (3 ^ 2 + 4 ^ 2 : ℝ) = 5 ^ 2 by norm_num, Real.sqrt_sq (by norm_num)]
  norm_num

/-! ### C84: weighted products and angles -/

section weighted
variable {n : Nat} {w : Fin n → ℝ}

theorem weighted_root (hw : ∀ i, 0 ≤ w i) (v1 v2 : Fin n → ℝ) :
    weightedDotProduct v1 v2 w = (fun i => Real.sqrt (w i) * v1 i) ⬝ᵥ (fun i => Real.sqrt (w i) * v2 i) := by
  unfold weightedDotProduct dotProduct
  refine Finset.sum_congr rfl fun i _ => ?_
  rw [Pi.mul_apply]
  have := Real.mul_self_sqrt (hw i)
  calc v1 i * w i * v2 i = v1 i * (Real.sqrt (w i) * Real.sqrt (w i)) * v2 i := by rw [this]
    _ = _ := by ring

end weighted

/-- C84: with weights that are not negative, the weighted cosine is never cut off: it is the weighted product
over the two weighted norms and between -1 and 1. A vector of weighted norm zero fails the assertion. -/
theorem C84_cosine {n : Nat} (w v1 v2 : Fin n → ℝ) (hw : ∀ i, 0 ≤ w i) :
    ((∑ i, w i * v1 i ^ 2 = 0 ∨ ∑ i, w i * v2 i ^ 2 = 0) → weightedCosine v1 v2 w = .abort) ∧
    (∑ i, w i * v1 i ^ 2 ≠ 0 → ∑ i, w i * v2 i ^ 2 ≠ 0 →
      weightedCosine v1 v2 w = .ok ((∑ i, w i * v1 i * v2 i) /
        (Real.sqrt (∑ i, w i * v1 i ^ 2) * Real.sqrt (∑ i, w i * v2 i ^ 2))) ∧
      |∑ i, w i * v1 i * v2 i| ≤ Real.sqrt (∑ i, w i * v1 i ^ 2) * Real.sqrt (∑ i, w i * v2 i ^ 2)) := by
  have hs : ∀ v : Fin n → ℝ, weightedSquaredNorm v w = ∑ i, w i * v i ^ 2 := by
    intro v
    unfold weightedSquaredNorm weightedDotProduct dotProduct
    exact Finset.sum_congr rfl fun i _ => by rw [Pi.mul_apply]; ring
  have hdot : weightedDotProduct v1 v2 w = ∑ i, w i * v1 i * v2 i := by
    unfold weightedDotProduct dotProduct
    exact Finset.sum_congr rfl fun i _ => by rw [Pi.mul_apply]; ring
  have hnn : ∀ v : Fin n → ℝ, 0 ≤ ∑ i, w i * v i ^ 2 := fun v =>
    Finset.sum_nonneg fun i _ => mul_nonneg (hw i) (sq_nonneg _)
  have hn : ∀ v : Fin n → ℝ, weightedNorm v w = Real.sqrt (∑ i, w i * v i ^ 2) := by
    intro v; unfold weightedNorm; rw [hs]
  constructor
  · intro h
    unfold weightedCosine
    rw [Out.assert_false]
    · rfl
    · rw [hn, hn]
      rintro ⟨h1, h2⟩
      rcases h with h | h
      · rw [h, Real.sqrt_zero] at h1; exact lt_irrefl _ h1
      · rw [h, Real.sqrt_zero] at h2; exact lt_irrefl _ h2
  · intro h1 h2
    have p1 : 0 < Real.sqrt (∑ i, w i * v1 i ^ 2) := Real.sqrt_pos.2 (lt_of_le_of_ne (hnn v1) h1.symm)
    have p2 : 0 < Real.sqrt (∑ i, w i * v2 i ^ 2) := Real.sqrt_pos.2 (lt_of_le_of_ne (hnn v2) h2.symm)
    have hc : |∑ i, w i * v1 i * v2 i| ≤ Real.sqrt (∑ i, w i * v1 i ^ 2) * Real.sqrt (∑ i, w i * v2 i ^ 2) := by
      have := abs_dot_le (fun i => Real.sqrt (w i) * v1 i) (fun i => Real.sqrt (w i) * v2 i)
      rw [← weighted_root hw, hdot] at this
      have e : ∀ v : Fin n → ℝ, norm (fun i => Real.sqrt (w i) * v i) = Real.sqrt (∑ i, w i * v i ^ 2) := by
        intro v
        unfold norm squaredNorm
        rw [← weighted_root hw, ← hs]; rfl
      rwa [e, e] at this
    refine ⟨?_, hc⟩
    unfold weightedCosine
    rw [Out.assert_true (by rw [hn, hn]; exact ⟨p1, p2⟩), Out.bind_ok, hn, hn, hdot]
    have hpos := mul_pos p1 p2
    obtain ⟨l, u⟩ := abs_le.1 hc
    rw [min_eq_left ((div_le_one hpos).2 u), max_eq_right]
    rw [le_div_iff₀ hpos]; linarith

/-- C84: the weighted angle is the angle between 0 and π with that cosine. -/
theorem C84_angle {n : Nat} (w v1 v2 : Fin n → ℝ) (hw : ∀ i, 0 ≤ w i)
    (h1 : ∑ i, w i * v1 i ^ 2 ≠ 0) (h2 : ∑ i, w i * v2 i ^ 2 ≠ 0) :
    ∃ a, weightedAngle v1 v2 w = .ok a ∧ 0 ≤ a ∧ a ≤ Real.pi ∧
      Real.cos a * (Real.sqrt (∑ i, w i * v1 i ^ 2) * Real.sqrt (∑ i, w i * v2 i ^ 2)) =
        ∑ i, w i * v1 i * v2 i := by
  obtain ⟨hc, hb⟩ := (C84_cosine w v1 v2 hw).2 h1 h2
  have hnn : ∀ v : Fin n → ℝ, 0 ≤ ∑ i, w i * v i ^ 2 := fun v =>
    Finset.sum_nonneg fun i _ => mul_nonneg (hw i) (sq_nonneg _)
  have p1 : 0 < Real.sqrt (∑ i, w i * v1 i ^ 2) := Real.sqrt_pos.2 (lt_of_le_of_ne (hnn v1) h1.symm)
  have p2 : 0 < Real.sqrt (∑ i, w i * v2 i ^ 2) := Real.sqrt_pos.2 (lt_of_le_of_ne (hnn v2) h2.symm)
  have hpos := mul_pos p1 p2
  obtain ⟨l, u⟩ := abs_le.1 hb
  refine ⟨_, by unfold weightedAngle; rw [hc, Out.bind_ok], Real.arccos_nonneg _, Real.arccos_le_pi _, ?_⟩
  rw [Real.cos_arccos (by rw [le_div_iff₀ hpos]; linarith) ((div_le_one hpos).2 u)]
  field_simp

/-- C84: the angle at `b` between different points is the angle between 0 and π with the cosine given by the
two differences. -/
theorem C84_points {n : Nat} (a b c : Fin n → ℝ) (hab : a ≠ b) (hcb : c ≠ b) :
    0 ≤ angleDefinedByPoints a b c ∧ angleDefinedByPoints a b c ≤ Real.pi ∧
    Real.cos (angleDefinedByPoints a b c) * (distance a b * distance c b) = ∑ i, (a i - b i) * (c i - b i) := by
  have h1 : a - b ≠ 0 := sub_ne_zero.2 hab
  have h2 : c - b ≠ 0 := sub_ne_zero.2 hcb
  have hpos : 0 < norm (a - b) * norm (c - b) := mul_pos (norm_pos h1) (norm_pos h2)
  have hd : normalized (a - b) ⬝ᵥ normalized (c - b) = (a - b) ⬝ᵥ (c - b) / (norm (a - b) * norm (c - b)) := by
    rw [normalized_of_ne h1, normalized_of_ne h2, smul_dotProduct, dotProduct_smul, smul_eq_mul, smul_eq_mul]
    have := (norm_pos h1).ne'
    have := (norm_pos h2).ne'
    field_simp
  obtain ⟨l, u⟩ := abs_le.1 (abs_dot_le (a - b) (c - b))
  have l' : -1 ≤ (a - b) ⬝ᵥ (c - b) / (norm (a - b) * norm (c - b)) := by
    rw [le_div_iff₀ hpos]; linarith
  have u' : (a - b) ⬝ᵥ (c - b) / (norm (a - b) * norm (c - b)) ≤ 1 := (div_le_one hpos).2 u
  refine ⟨Real.arccos_nonneg _, Real.arccos_le_pi _, ?_⟩
  unfold angleDefinedByPoints
  dsimp only
  rw [hd, min_eq_left u', max_eq_right l', Real.cos_arccos l' u', distance_eq, distance_eq,
    div_mul_cancel₀ _ hpos.ne']
  rfl

example : ∑ i, (![1, 2] : Fin 2 → ℝ) i * (![3, 4] : Fin 2 → ℝ) i ^ 2 ≠ 0 := by
  simp; norm_num

end Verif.Projection
