import Verif.Props.TotgQuery
import Verif.Props.TotgTrajectoryExamples
import Mathlib.Tactic.NormNum

/-! # Beside C112: a motion to which the theorems apply, and what happens after its end -/
namespace Verif.Totg
open Verif Verif.Projection

theorem triangle_moving : Moving [(0, 0), (1, 1), (2, 0)] := by
  constructor
  · rintro a b ⟨l, r, h⟩
    rcases l with _ | ⟨x, _ | ⟨y, _ | ⟨z, l⟩⟩⟩
    · simp only [List.nil_append, List.cons_append, List.cons.injEq] at h
      obtain ⟨rfl, rfl, _⟩ := h
      norm_num
    · simp only [List.nil_append, List.cons_append, List.cons.injEq] at h
      obtain ⟨_, rfl, rfl, _⟩ := h
      norm_num
    · simp at h
    · have := congrArg List.length h
      simp at this
  · rintro a b ⟨l, h⟩
    rcases l with _ | ⟨x, _ | ⟨y, l⟩⟩
    · simp at h
    · simp only [List.nil_append, List.cons_append, List.cons.injEq] at h
      obtain ⟨_, rfl, rfl, _⟩ := h
      norm_num
    · have := congrArg List.length h
      simp at this

/-- The points that the construction `straight_integrate` gives, one of them twice. -/
theorem straight_moving : Moving [(0, 0), (1 / 2, 1), (1 / 2, 1), (1, 0)] := by
  constructor
  · rintro a b ⟨l, r, h⟩
    rcases l with _ | ⟨x, _ | ⟨y, _ | ⟨z, _ | ⟨w, l⟩⟩⟩⟩
    · simp only [List.nil_append, List.cons_append, List.cons.injEq] at h
      obtain ⟨rfl, rfl, _⟩ := h
      norm_num
    · simp only [List.nil_append, List.cons_append, List.cons.injEq] at h
      obtain ⟨_, rfl, rfl, _⟩ := h
      norm_num
    · simp only [List.nil_append, List.cons_append, List.cons.injEq] at h
      obtain ⟨_, _, rfl, rfl, _⟩ := h
      norm_num
    · simp at h
    · have := congrArg List.length h
      simp at this
  · rintro a b ⟨l, h⟩
    rcases l with _ | ⟨x, _ | ⟨y, _ | ⟨z, l⟩⟩⟩
    · simp at h
    · simp at h
    · simp only [List.nil_append, List.cons_append, List.cons.injEq] at h
      obtain ⟨_, _, rfl, rfl, _⟩ := h
      norm_num
    · have := congrArg List.length h
      simp at this

theorem two_apart : Apart (2 / 10 ^ 6) [(![0] : Fin 1 → ℝ), ![2]] := by
  rintro a b ⟨l, r, h⟩
  rcases l with _ | ⟨x, _ | ⟨y, l⟩⟩
  · simp only [List.nil_append, List.cons_append, List.cons.injEq] at h
    obtain ⟨rfl, rfl, _⟩ := h
    have : distance (![0] : Fin 1 → ℝ) ![2] = 2 := by
      simp only [distance, Finset.univ_unique, Fin.default_eq_zero, Finset.sum_singleton]
      rw [Real.sqrt_eq_iff_mul_self_eq_of_pos] <;> norm_num
    rw [this]; norm_num
  · simp at h
  · have := congrArg List.length h
    simp at this

theorem two_noReversal : NoReversal [(![0] : Fin 1 → ℝ), ![2]] := by
  rintro a b c ⟨l, r, h⟩
  have := congrArg List.length h
  simp at this
  omega

theorem triangle_times : timed [(0, 0), (1, 1), (2, 0)] = [⟨0, 0, 0⟩, ⟨1, 1, 2⟩, ⟨2, 0, 4⟩] := by
  simp only [timed, timesFrom]
  norm_num

/-- Accelerate for two seconds and brake for two seconds along a straight line of length two: the path and the
points meet the hypotheses of `C112_between`, `C112_motion` and `C112_after`. -/
example : ∃ config tangent : ℝ → Fin 1 → ℝ,
    let p := makePath [(![0] : Fin 1 → ℝ), ![2]] 1
    (∀ s, p.config s = .ok (config s)) ∧ (∀ s, p.tangent s = .ok (tangent s)) ∧
    Moving [(0, 0), (1, 1), (2, 0)] ∧
    ∀ s, 0 ≤ s → s < p.length → HasDerivWithinAt config (tangent s) (Set.Ici s) s := by
  obtain ⟨config, tangent, curvature, h1, h2, h3, h4, h5, h6⟩ :=
    C108_blended (n := 1) ![0] ![2] [] 1 one_pos two_apart two_noReversal
  exact ⟨config, tangent, fun s => (h1 s).1, fun s => (h1 s).2.1, triangle_moving, fun s a b => (h5 s a b).1⟩

/-- The construction `straight_integrate` gives points to which the theorems apply. -/
example : ∃ fuel rev, straight.integrate fuel = some (.ok rev) ∧ Moving rev.reverse :=
  ⟨3, _, straight_integrate, by simpa using straight_moving⟩

/-- **C112.** A trajectory that has come to rest at its end moves again, backwards, if it is asked for a later
time: one second after the end of this one its speed is one half. -/
theorem C112_overrun : ∃ (p : Path 1) (points : List (ℝ × ℝ)) (q v : Fin 1 → ℝ), Moving points ∧
    duration (timed points) = .ok 4 ∧ points.getLast? = some (2, 0) ∧
    (positionVelocity p (timed points) Cache.empty 5).1 = .ok (q, v) ∧ length v = 1 / 2 := by
  obtain ⟨config, tangent, curvature, h1, h2, h3, h4, h5, h6, -⟩ :=
    C108_blended (n := 1) ![0] ![2] [] 1 one_pos two_apart two_noReversal
  have hlen : (makePath [(![0] : Fin 1 → ℝ), ![2]] 1).length = 2 := by
    simp only [makePath, segmentsFrom, List.foldl, Path.add, Segment.length]
    rw [← Projection.length_eq]
    simp only [length, Finset.univ_unique, Fin.default_eq_zero, Finset.sum_singleton]
    norm_num
    rw [Real.sqrt_eq_iff_mul_self_eq_of_pos] <;> norm_num
  have h := C112_after _ config tangent (fun s => (h1 s).1) (fun s => (h1 s).2.1) [(0, 0), (1, 1), (2, 0)]
    triangle_moving [] 1 ⟨1, 1, 2⟩ ⟨2, 0, 4⟩ rfl (by rw [triangle_times]; rfl) (by rw [triangle_times]; rfl) 5
    (by norm_num)
  refine ⟨makePath [![0], ![2]] 1, _, _, _, triangle_moving, ?_, rfl, h, ?_⟩
  · rw [triangle_times]; rfl
  · have ht := h6 (7 / 4) (by norm_num) (by rw [hlen]; norm_num)
    norm_num
    rw [Projection.length_eq, Projection.norm_neg, Projection.norm_smul, ← Projection.length_eq]
    norm_num
    rw [ht]

end Verif.Totg
