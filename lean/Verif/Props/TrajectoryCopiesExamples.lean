import Verif.Props.TrajectoryCopies
import Verif.Props.TotgQueryExamples
/-! # Beside C147: a trajectory to which the theorems apply -/
namespace Verif.TrajectoryCopies
open Verif Verif.Totg

/-- The hypotheses of `C147_wrong` are met: a joint that moves from 0 to 2 in four seconds, queried after one second and
after three. -/
theorem moving_example : ∃ (path : Totg.Path 1) (steps : List Step) (last : Step) (x y : (Fin 1 → ℝ) × (Fin 1 → ℝ)),
    steps.getLast? = some last ∧ (1 : ℝ) ≤ 3 ∧ 3 < last.time ∧
    (positionVelocity path steps Cache.empty 1).1 = .ok x ∧ (positionVelocity path steps Cache.empty 3).1 = .ok y := by
  obtain ⟨config, tangent, curvature, h1, -⟩ := C108_blended (n := 1) ![0] ![2] [] 1 one_pos two_apart two_noReversal
  have h := C112_between _ config tangent (fun s => (h1 s).1) (fun s => (h1 s).2.1) [(0, 0), (1, 1), (2, 0)]
    triangle_moving []
  rw [triangle_times] at h
  refine ⟨makePath [![0], ![2]] 1, [⟨0, 0, 0⟩, ⟨1, 1, 2⟩, ⟨2, 0, 4⟩], ⟨2, 0, 4⟩, _, _, rfl, by norm_num, by norm_num,
    (h 0 ⟨0, 0, 0⟩ ⟨1, 1, 2⟩ rfl rfl (by norm_num) 1 (by norm_num) (by norm_num)).1,
    (h 1 ⟨1, 1, 2⟩ ⟨2, 0, 4⟩ rfl rfl (by norm_num) 3 (by norm_num) (by norm_num)).1⟩

/-- So there is a program that copies a trajectory and has undefined behaviour. -/
example : ∃ ops : List (Op 1), run [] ops = some .ub ∧ ops.length = 5 := by
  obtain ⟨path, steps, last, x, y, h1, h2, h3, h4, h5⟩ := moving_example
  exact ⟨_, (C147_wrong path steps last 1 3 x y h1 h2 h3 h4 h5).2.2.2, rfl⟩

/-- And there are programs that copy a trajectory, as in `C147_query` and `C147_alive`. -/
example : ∃ (ops : List (Op 1)) (objects : Objects 1), run [] ops = some (.ok objects) ∧ NoneDestroyed ops ∧
    ∃ w, (meanings [] ops)[1]? = some (some w) := by
  obtain ⟨path, steps, last, x, y, h1, h2, h3, h4, h5⟩ := moving_example
  refine ⟨[.make path steps, .copy 0], _, rfl, ?_, _, rfl⟩
  intro k hk
  simp at hk

end Verif.TrajectoryCopies
