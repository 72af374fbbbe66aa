import Verif.Model.TransformData
import Mathlib.LinearAlgebra.Matrix.Notation

/-!
# Property C211 (eigen_helpers.hpp): transforming all elements of a vector
-/
namespace Verif.TransformData
open Matrix

variable {n : Nat}

theorem loop_eq {α β : Type} (f : α → β) (data : List α) : ∀ acc, loop f data acc = acc ++ data.map f := by
  induction data with
  | nil => intro acc; simp [loop]
  | cons x data ih => intro acc; simp [loop, ih]

/-- **C211.** There is one result for each point, in their order, and each coordinate of it is that of the transformed
point. -/
theorem C211_points (t : Transform n) (data : List (Fin n → ℝ)) :
    (transformPoints t data).length = data.length ∧
    ∀ (k : Nat) (p : Fin n → ℝ), data[k]? = some p →
      ∃ q, (transformPoints t data)[k]? = some q ∧ ∀ i, q i = ∑ j, t.linear i j * p j + t.translation i := by
  unfold transformPoints
  rw [loop_eq, List.nil_append]
  refine ⟨by simp, fun k p h => ⟨t.point p, by simp [h], fun i => ?_⟩⟩
  simp [Transform.point, Matrix.mulVec, dotProduct]

theorem point_compose (a b : Transform n) (p : Fin n → ℝ) : (a.compose b).point p = a.point (b.point p) := by
  unfold Transform.point Transform.compose
  simp only [Matrix.mulVec_add, Matrix.mulVec_mulVec, add_assoc]

theorem compose_assoc (a b c : Transform n) : (a.compose b).compose c = a.compose (b.compose c) := by
  ext1
  · exact Matrix.mul_assoc _ _ _
  · simp only [Transform.compose, Matrix.mulVec_add, Matrix.mulVec_mulVec, add_assoc]

/-- **C211.** There is one result for each transform, in their order, and it moves points as the given transform does and
then the transform of the data. -/
theorem C211_poses (t : Transform n) (data : List (Transform n)) :
    (transformPoses t data).length = data.length ∧
    ∀ (k : Nat) (a : Transform n), data[k]? = some a →
      ∃ b, (transformPoses t data)[k]? = some b ∧ ∀ points, transformPoints b points = transformPoints t (transformPoints a points) := by
  unfold transformPoses
  rw [loop_eq, List.nil_append]
  refine ⟨by simp, fun k a h => ⟨t.compose a, by simp [h], fun points => ?_⟩⟩
  unfold transformPoints
  simp only [loop_eq, List.nil_append, List.map_map]
  congr 1
  funext p
  exact point_compose t a p

/-- **C211.** Transforming the data twice is transforming it once by the product, for points and for transforms. -/
theorem C211_twice (a b : Transform n) (points : List (Fin n → ℝ)) (poses : List (Transform n)) :
    transformPoints a (transformPoints b points) = transformPoints (a.compose b) points ∧
    transformPoses a (transformPoses b poses) = transformPoses (a.compose b) poses := by
  unfold transformPoints transformPoses
  simp only [loop_eq, List.nil_append, List.map_map]
  constructor
  · congr 1; funext p; exact (point_compose a b p).symm
  · congr 1; funext p; exact (compose_assoc a b p).symm

/-- **C211.** Transforming the data by the inverse gives it back. -/
theorem C211_back (a b : Transform n) (h1 : a.linear * b.linear = 1)
    (h2 : a.linear.mulVec b.translation + a.translation = 0) (points : List (Fin n → ℝ)) (poses : List (Transform n)) :
    transformPoints a (transformPoints b points) = points ∧ transformPoses a (transformPoses b poses) = poses := by
  have e : a.compose b = ⟨1, 0⟩ := by unfold Transform.compose; rw [h1, h2]
  rw [(C211_twice a b points poses).1, (C211_twice a b points poses).2, e]
  unfold transformPoints transformPoses
  simp only [loop_eq, List.nil_append]
  constructor
  · conv_rhs => rw [← List.map_id points]
    congr 1; funext p; simp [Transform.point]
  · conv_rhs => rw [← List.map_id poses]
    congr 1; funext p; simp [Transform.compose]

/-- **C211.** A rigid transform keeps the distance of any two of the points. -/
theorem C211_rigid (t : Transform n) (h : t.linearᵀ * t.linear = 1) (data : List (Fin n → ℝ)) (i j : Nat)
    (p q p' q' : Fin n → ℝ) (hp : data[i]? = some p) (hq : data[j]? = some q)
    (hp' : (transformPoints t data)[i]? = some p') (hq' : (transformPoints t data)[j]? = some q') :
    ∑ k, (p' k - q' k) ^ 2 = ∑ k, (p k - q k) ^ 2 := by
  unfold transformPoints at hp' hq'
  rw [loop_eq, List.nil_append, List.getElem?_map, hp] at hp'
  rw [loop_eq, List.nil_append, List.getElem?_map, hq] at hq'
  simp only [Option.map_some, Option.some.injEq] at hp' hq'
  have sq : ∀ x : Fin n → ℝ, ∑ k, (x k) ^ 2 = x ⬝ᵥ x := by
    intro x; simp only [dotProduct, sq]
  have e : p' - q' = t.linear.mulVec (p - q) := by
    rw [← hp', ← hq', Matrix.mulVec_sub]
    simp [Transform.point]
  have l : ∑ k, (p' k - q' k) ^ 2 = (p' - q') ⬝ᵥ (p' - q') := sq (p' - q')
  have r : ∑ k, (p k - q k) ^ 2 = (p - q) ⬝ᵥ (p - q) := sq (p - q)
  rw [l, r, e, Matrix.dotProduct_mulVec, Matrix.vecMul_mulVec, h, Matrix.vecMul_one]

/-- A quarter turn with a translation, its inverse, and a point. -/
example : (!![0, -1; 1, 0] : Matrix (Fin 2) (Fin 2) ℝ)ᵀ * !![0, -1; 1, 0] = 1 ∧
    (!![0, 1; -1, 0] : Matrix (Fin 2) (Fin 2) ℝ) * !![0, -1; 1, 0] = 1 ∧
    (!![0, 1; -1, 0] : Matrix (Fin 2) (Fin 2) ℝ).mulVec ![3, 4] + ![-4, 3] = 0 ∧
    transformPoints ⟨!![0, -1; 1, 0], ![3, 4]⟩ [![1, 0], ![0, 2]] = [![3, 5], ![1, 4]] := by
  refine ⟨?_, ?_, ?_, ?_⟩
  · ext i j; fin_cases i <;> fin_cases j <;> simp [Matrix.mul_apply, Fin.sum_univ_two]
  · ext i j; fin_cases i <;> fin_cases j <;> simp [Matrix.mul_apply, Fin.sum_univ_two]
  · ext i; fin_cases i <;> simp [Matrix.mulVec, dotProduct, Fin.sum_univ_two]
  · simp only [transformPoints, loop, Transform.point, List.nil_append, List.singleton_append, List.cons.injEq, and_true]
    constructor
    · ext i; fin_cases i <;> simp [Matrix.mulVec, dotProduct, Fin.sum_univ_two]; norm_num
    · ext i; fin_cases i <;> simp [Matrix.mulVec, dotProduct, Fin.sum_univ_two]; norm_num

end Verif.TransformData
