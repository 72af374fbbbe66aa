import Verif.Props.TotgTrajectory
import Mathlib.Tactic.NormNum

/-! # Beside C111: a construction that finishes -/
namespace Verif.Totg
open Verif

/-- one joint that moves straight over a distance of one, with acceleration one, in steps of one second -/
noncomputable def straight : Problem 0 where
  length := 1
  switching := []
  first := fun _ => ![1]
  second := fun _ => ![0]
  maxVelocity := ![10]
  maxAcceleration := ![1]
  timeStep := 1
  largest := 100

theorem straight_sound : straight.Sound := by
  constructor <;> simp [straight]

theorem straight_max (s v : ℝ) : straight.acceleration s v true = 1 := by
  simp [Problem.acceleration, minMaxAcceleration, straight, List.finRange]

theorem straight_min (s v : ℝ) : straight.acceleration s v false = -1 := by
  simp [Problem.acceleration, minMaxAcceleration, straight, List.finRange]

theorem straight_feasible (s v : ℝ) (h0 : 0 ≤ v) (h1 : v ≤ 10) : straight.Feasible (s, v) := by
  refine ⟨h0, ?_, 0, ?_⟩
  · intro i
    simp [straight, abs_of_nonneg h0, h1]
  · intro i
    simp [straight]

theorem straight_forward : straight.forward 2 [] 1 (0, 0) [(0, 0)] =
    some (.ok (true, [(2, 2), (1 / 2, 1), (0, 0)])) := by
  have e1 : later straight.timeStep 1 (0, 0) = (1 / 2, 1) := by
    simp [later, straight]
  have := Problem.C111_step straight_sound 1 [] 1 (0, 0) [(0, 0)]
  simp only [e1] at this
  rw [this (by simp) (by simp [straight]; norm_num) (straight_feasible _ _ (by norm_num) (by norm_num))
    (by simp [straight]), straight_max]
  rw [Problem.forward]
  have e2 : straight.stepped [] 1 (1 / 2, 1) = (2, 2) := by
    simp [Problem.stepped, straight]; norm_num
  simp only [List.dropWhile_nil, e2]
  rw [if_pos (by simp [straight])]

theorem straight_backward (fuel : Nat) : straight.backward (fuel + 1) [(2, 2), (1 / 2, 1), (0, 0)] (1, 0) (-1) =
    some (.ok [(1, 0), (1 / 2, 1), (1 / 2, 1), (0, 0)]) := by
  simp only [Problem.backward]
  rw [if_neg (by norm_num), Problem.backwardLoop.eq_def]
  simp only
  rw [if_neg (by simp), if_pos (by norm_num)]
  have ht : straight.timeStep = 1 := rfl
  simp only [ht]
  rw [if_neg (by norm_num), if_neg (by norm_num)]
  have : Problem.intersection (1 / 2, 1) (2, 2) (1 - 1 * (1 / 2) * (0 - 1 * -1 + 0), 0 - 1 * -1) (1, 0)
      (some ((0 - (0 - 1 * -1)) / (1 - (1 - 1 * (1 / 2) * (0 - 1 * -1 + 0))))) = some ((1 / 2 : ℝ), (1 : ℝ)) := by
    unfold Problem.intersection
    simp only
    rw [if_neg (by norm_num), if_neg (by norm_num), if_pos]
    · norm_num
    · unfold eps
      norm_num
  rw [this]
  norm_num

/-- The construction finishes with the trajectory that accelerates to the middle and brakes from there. -/
theorem straight_integrate : straight.integrate 3 = some (.ok [(1, 0), (1 / 2, 1), (1 / 2, 1), (0, 0)]) := by
  unfold Problem.integrate
  rw [Problem.alternate.eq_def]
  simp only
  have hs : straight.switching = [] := rfl
  have hl : straight.length = 1 := rfl
  rw [straight_max, hs, straight_forward]
  simp only [Option.bind_eq_bind, Option.bind_some, straight_min, hl]
  exact straight_backward 2

/-- The hypotheses of `C111_forward`, `C111_backward` and `C111_ends` are met by this construction. -/
example : straight.Sound ∧ (∃ fuel rev, straight.integrate fuel = some (.ok rev) ∧ rev.length = 4) :=
  ⟨straight_sound, 3, _, straight_integrate, rfl⟩

end Verif.Totg
