import Mathlib.Tactic.LinearCombination
import Verif.Props.Projection
import Verif.Props.Averages
import Verif.Props.Pseudoinverse

/-! # C116: the plane of best fit -/
namespace Verif.LeastSquares
open Verif Matrix Finset Verif.Projection

/-- The centroid: the mean of the points -/
theorem centroid_spec {d : Nat} (points : List (Fin d → ℝ)) (h : points ≠ []) :
    ∃ c, Averages.averageVec (K := ℝ) points [] = .ok c ∧ (points.length : ℝ) • c = points.sum := by
  have hz : ∃ c, Averages.averageVec (K := ℝ) points [] = .ok c := by
    obtain ⟨r, h1, -⟩ := Averages.C48_unweighted (K := ℝ) (points.map (0 : (Fin d → ℝ) →ₗ[ℝ] ℝ)) (by simpa using h)
    rw [Averages.C48_vectors (0 : (Fin d → ℝ) →ₗ[ℝ] ℝ) points []] at h1
    cases hc : Averages.averageVec (K := ℝ) points [] with
    | ok c => exact ⟨c, rfl⟩
    | throws e => rw [hc] at h1; cases h1
    | abort => rw [hc] at h1; cases h1
    | ub => rw [hc] at h1; cases h1
  obtain ⟨c, hc⟩ := hz
  refine ⟨c, hc, ?_⟩
  funext k
  obtain ⟨r, h1, h2, -⟩ := Averages.C48_unweighted (K := ℝ)
    (points.map (LinearMap.proj (R := ℝ) (φ := fun _ : Fin d => ℝ) k)) (by simpa using h)
  rw [Averages.C48_vectors (LinearMap.proj (R := ℝ) (φ := fun _ : Fin d => ℝ) k) points [], hc] at h1
  have h1' : c k = r := by injection h1
  rw [List.length_map, ← h1', ← map_list_sum] at h2
  rw [Pi.smul_apply, smul_eq_mul, mul_comm, h2]
  rfl

theorem smallest_fold {k : Nat} (s : Fin k → ℝ) (l : List (Fin k)) (b : Fin k) :
    ∃ i, l.foldl (fun best i => match best with
      | none => some i
      | some j => if s i < s j then some i else some j) (some b) = some i ∧ s i ≤ s b ∧ ∀ j ∈ l, s i ≤ s j := by
  induction l generalizing b with
  | nil => exact ⟨b, rfl, le_refl _, by simp⟩
  | cons a l ih =>
    rw [List.foldl_cons]
    dsimp only
    by_cases h : s a < s b
    · rw [if_pos h]
      obtain ⟨i, h1, h2, h3⟩ := ih a
      refine ⟨i, h1, h2.trans h.le, ?_⟩
      intro j hj
      rcases List.mem_cons.1 hj with rfl | hj
      · exact h2
      · exact h3 j hj
    · rw [if_neg h]
      obtain ⟨i, h1, h2, h3⟩ := ih b
      refine ⟨i, h1, h2, ?_⟩
      intro j hj
      rcases List.mem_cons.1 hj with rfl | hj
      · exact h2.trans (not_lt.1 h)
      · exact h3 j hj

theorem smallest_spec {k : Nat} (s : Fin k → ℝ) :
    (k = 0 → smallest s = none) ∧ (0 < k → ∃ i, smallest s = some i ∧ ∀ j, s i ≤ s j) := by
  constructor
  · rintro rfl; rfl
  · intro h
    unfold smallest
    cases hl : List.finRange k with
    | nil => rw [List.finRange_eq_nil_iff] at hl; omega
    | cons a l =>
      rw [List.foldl_cons]
      obtain ⟨i, h1, h2, h3⟩ := smallest_fold s l a
      refine ⟨i, h1, fun j => ?_⟩
      have hj := List.mem_finRange j
      rw [hl] at hj
      rcases List.mem_cons.1 hj with rfl | hj
      · exact h2
      · exact h3 j hj

theorem thin_assemble {m n : Nat} {a : Matrix (Fin m) (Fin n) ℝ} {d : ThinSvd m n} (h : IsThinSvd a d) :
    a = assemble d.u d.s d.v := by
  ext i j
  rw [h.product]
  unfold assemble
  rw [mul_apply]
  refine sum_congr rfl fun k _ => ?_
  rw [mul_diagonal, transpose_apply]

/-- The squared components of the columns of a matrix along a direction -/
theorem thin_form {m n : Nat} {a : Matrix (Fin m) (Fin n) ℝ} {d : ThinSvd m n} (h : IsThinSvd a d)
    (x : Fin m → ℝ) : squares (aᵀ *ᵥ x) = ∑ i, d.s i ^ 2 * ((d.uᵀ *ᵥ x) i) ^ 2 := by
  conv_lhs => rw [thin_assemble h, assemble_transpose]
  unfold assemble
  rw [← mulVec_mulVec, ← mulVec_mulVec, squares_orthonormal h.v]
  unfold squares
  refine sum_congr rfl fun i _ => ?_
  rw [mulVec_diagonal, mul_pow]

theorem thin_column {m n : Nat} {a : Matrix (Fin m) (Fin n) ℝ} {d : ThinSvd m n} (h : IsThinSvd a d)
    (i : Fin (min m n)) : squares (fun k => d.u k i) = 1 ∧ squares (aᵀ *ᵥ fun k => d.u k i) = d.s i ^ 2 := by
  have hu : (d.uᵀ *ᵥ fun k => d.u k i) = fun j => (1 : Matrix (Fin (min m n)) (Fin (min m n)) ℝ) j i := by
    funext j
    rw [← h.u]
    rfl
  constructor
  · have := congrFun (congrFun h.u i) i
    rw [one_apply_eq, mul_apply] at this
    rw [← this]
    unfold squares
    exact sum_congr rfl fun k _ => by rw [transpose_apply]; ring
  · rw [thin_form h, hu, sum_eq_single i]
    · beta_reduce; rw [one_apply_eq]; ring
    · intro j _ hj
      beta_reduce; rw [one_apply_ne hj]; ring
    · intro hi; exact absurd (mem_univ i) hi

/-- No direction has smaller squares than the smallest singular value. -/
theorem thin_least {m n : Nat} {a : Matrix (Fin m) (Fin n) ℝ} {d : ThinSvd m n} (h : IsThinSvd a d) (hn : 0 < n)
    (hz : a *ᵥ (fun _ => 1) = 0) (i : Fin (min m n)) (hi : ∀ j, d.s i ≤ d.s j) (x : Fin m → ℝ) (hx : squares x = 1) :
    d.s i ^ 2 ≤ squares (aᵀ *ᵥ x) := by
  rcases le_total m n with hmn | hnm
  · have hsq : d.u * d.uᵀ = 1 := by
      have hc : Fintype.card (Fin (min m n)) = Fintype.card (Fin m) := by simp [hmn]
      exact (mul_eq_one_comm_of_card_eq (Fin _) (Fin _) ℝ hc.symm).2 h.u
    have hux : squares (d.uᵀ *ᵥ x) = 1 := by
      rw [squares_orthonormal (by rw [transpose_transpose, hsq]), hx]
    rw [thin_form h]
    calc d.s i ^ 2 = ∑ j, d.s i ^ 2 * ((d.uᵀ *ᵥ x) j) ^ 2 := by
          rw [← mul_sum]
          unfold squares at hux
          rw [hux, mul_one]
      _ ≤ _ := sum_le_sum fun j _ =>
          mul_le_mul_of_nonneg_right (pow_le_pow_left₀ (h.s i) (hi j) 2) (sq_nonneg _)
  · have hsq : d.v * d.vᵀ = 1 := by
      have hc : Fintype.card (Fin (min m n)) = Fintype.card (Fin n) := by simp [hnm]
      exact (mul_eq_one_comm_of_card_eq (Fin _) (Fin _) ℝ hc.symm).2 h.v
    have h0 : d.s i = 0 := by
      by_contra hne
      have hpos : ∀ j, d.s j ≠ 0 := fun j => ne_of_gt ((lt_of_le_of_ne (h.s i) (Ne.symm hne)).trans_le (hi j))
      have h1 : squares (a *ᵥ fun _ => (1 : ℝ)) = 0 := by rw [hz]; exact squares_eq_zero.2 rfl
      rw [thin_assemble h] at h1
      unfold assemble at h1
      rw [← mulVec_mulVec, ← mulVec_mulVec, squares_orthonormal h.u, squares_eq_zero] at h1
      have h2 : d.vᵀ *ᵥ (fun _ => (1 : ℝ)) = 0 := by
        funext j
        have := congrFun h1 j
        rw [mulVec_diagonal, Pi.zero_apply] at this
        exact (mul_eq_zero.1 this).resolve_left (hpos j)
      have h3 : d.v *ᵥ (d.vᵀ *ᵥ fun _ => (1 : ℝ)) = 0 := by rw [h2, mulVec_zero]
      rw [mulVec_mulVec, hsq, one_mulVec] at h3
      have := congrFun h3 ⟨0, hn⟩
      simp at this
    rw [h0]
    simpa using squares_nonneg _

/-- The squared distances of the points to the plane through `origin` with unit normal `normal` -/
noncomputable def planeSquares {d : Nat} (points : List (Fin d → ℝ)) (origin normal : Fin d → ℝ) : ℝ :=
  (points.map fun p => ((p - origin) ⬝ᵥ normal) ^ 2).sum

theorem planeSquares_centroid {d : Nat} (points : List (Fin d → ℝ)) (c o x : Fin d → ℝ)
    (hc : (points.length : ℝ) • c = points.sum) : planeSquares points c x ≤ planeSquares points o x := by
  have key : ∀ l : List (Fin d → ℝ), planeSquares l o x =
      planeSquares l c x + 2 * ((l.sum - (l.length : ℝ) • c) ⬝ᵥ x) * ((c - o) ⬝ᵥ x) + l.length * ((c - o) ⬝ᵥ x) ^ 2 := by
    intro l
    induction l with
    | nil => simp [planeSquares]
    | cons p l ih =>
      unfold planeSquares at ih ⊢
      rw [List.map_cons, List.sum_cons, ih, List.map_cons, List.sum_cons, List.sum_cons, List.length_cons]
      push_cast
      have e : (p - o) ⬝ᵥ x = (p - c) ⬝ᵥ x + (c - o) ⬝ᵥ x := by
        rw [← add_dotProduct, sub_add_sub_cancel]
      have e2 : (p + l.sum - ((l.length : ℝ) + 1) • c) ⬝ᵥ x = (p - c) ⬝ᵥ x + (l.sum - (l.length : ℝ) • c) ⬝ᵥ x := by
        rw [← add_dotProduct]; congr 1; rw [add_smul, one_smul]; abel
      rw [e, e2]
      ring
  rw [key points, hc, sub_self, zero_dotProduct]
  have : 0 ≤ (points.length : ℝ) * ((c - o) ⬝ᵥ x) ^ 2 := mul_nonneg (Nat.cast_nonneg _) (sq_nonneg _)
  linarith

/-- The points as columns, with the centroid subtracted -/
def centred {d : Nat} (points : List (Fin d → ℝ)) (c : Fin d → ℝ) : Matrix (Fin d) (Fin points.length) ℝ :=
  of fun k i => (points[i] - c) k

theorem centred_squares {d : Nat} (points : List (Fin d → ℝ)) (c x : Fin d → ℝ) :
    squares ((centred points c)ᵀ *ᵥ x) = planeSquares points c x := by
  unfold squares planeSquares
  rw [← List.sum_ofFn]
  congr 1
  refine List.ext_getElem (by simp) fun i h1 h2 => ?_
  simp [centred, mulVec, dotProduct]

theorem centred_sum {d : Nat} (points : List (Fin d → ℝ)) (c : Fin d → ℝ)
    (hc : (points.length : ℝ) • c = points.sum) : centred points c *ᵥ (fun _ => 1) = 0 := by
  funext k
  have e : (centred points c *ᵥ fun _ => (1 : ℝ)) k = ∑ i : Fin points.length, (points[i] - c) k := by
    simp [centred, mulVec, dotProduct]
  rw [e]
  simp only [Pi.sub_apply, sum_sub_distrib, sum_const, card_univ, Fintype.card_fin, nsmul_eq_mul, Pi.zero_apply]
  have h1 := congrFun hc k
  rw [Pi.smul_apply, smul_eq_mul] at h1
  rw [h1, sub_eq_zero, ← Finset.sum_apply, ← Fin.sum_univ_getElem]
  rfl

/-- C116: for at least one point with at least one coordinate the plane goes through the centroid, has a normal of
length one, and no plane has a smaller sum of squared distances to the points. For no points or no coordinates an
assertion fails. -/
theorem C116_fit (svd : (m n : Nat) → Matrix (Fin m) (Fin n) ℝ → ThinSvd m n) {d : Nat} (points : List (Fin d → ℝ))
    (hsvd : ∀ c, (points.length : ℝ) • c = points.sum → IsThinSvd (of fun k (i : Fin points.length) => points[i] k - c k)
      (svd d points.length (of fun k i => points[i] k - c k))) :
    (points = [] ∨ d = 0 → fitPlaneToPoints svd points = .abort) ∧
    (points ≠ [] → 0 < d → ∃ plane, fitPlaneToPoints svd points = .ok plane ∧
      (points.length : ℝ) • plane.origin = points.sum ∧ ∑ k, plane.normal k ^ 2 = 1 ∧
      ∀ origin normal : Fin d → ℝ, ∑ k, normal k ^ 2 = 1 →
        (points.map fun p => ((p - plane.origin) ⬝ᵥ plane.normal) ^ 2).sum ≤
          (points.map fun p => ((p - origin) ⬝ᵥ normal) ^ 2).sum) := by
  constructor
  · intro h
    by_cases hp : points = []
    · subst hp
      unfold fitPlaneToPoints Averages.averageVec
      rw [Out.assert_false (by simp), Out.bind_abort, Out.bind_abort]
    · have hd : d = 0 := h.resolve_left hp
      obtain ⟨c, hc, -⟩ := centroid_spec points hp
      unfold fitPlaneToPoints
      rw [hc, Out.bind_ok]
      dsimp only
      rw [(smallest_spec _).1 (by simp [hd])]
  · intro hp hd
    obtain ⟨c, hc, hsum⟩ := centroid_spec points hp
    have hn : 0 < points.length := List.length_pos_iff.2 hp
    have hk : 0 < min d points.length := lt_min hd hn
    have hS : IsThinSvd (centred points c) (svd d points.length (centred points c)) := hsvd c hsum
    obtain ⟨i, h1, h2⟩ := (smallest_spec (svd d points.length (centred points c)).s).2 hk
    obtain ⟨h3, h4⟩ := thin_column hS i
    set u : Fin d → ℝ := fun k => (svd d points.length (centred points c)).u k i with hu
    have hnorm : Projection.norm u = 1 := by
      have := Projection.norm_sq u
      rw [← squares_dot, h3] at this
      have h0 := Projection.norm_nonneg u
      nlinarith
    have hsafe : safeNormal u = u := by
      unfold safeNormal
      rw [hnorm]
      simp
    refine ⟨⟨c, u⟩, ?_, hsum, h3, ?_⟩
    · unfold fitPlaneToPoints
      rw [hc, Out.bind_ok]
      dsimp only
      rw [show (of fun k i => (points[i] - c) k : Matrix (Fin d) (Fin points.length) ℝ) = centred points c from rfl, h1]
      dsimp only
      rw [← hu, hsafe]
    · intro o x hx
      calc planeSquares points c u = squares ((centred points c)ᵀ *ᵥ u) := (centred_squares _ _ _).symm
        _ = (svd d points.length (centred points c)).s i ^ 2 := h4
        _ ≤ squares ((centred points c)ᵀ *ᵥ x) := thin_least hS hn (centred_sum points c hsum) i h2 x hx
        _ = planeSquares points c x := centred_squares _ _ _
        _ ≤ planeSquares points o x := planeSquares_centroid points c o x hsum

/-! ### The hypotheses are met -/

/-- The decomposition for the four corners of a rectangle -/
noncomputable def rectangleSvd (m n : Nat) (_ : Matrix (Fin m) (Fin n) ℝ) : ThinSvd m n where
  u := of fun k i => if k.val = i.val then 1 else 0
  s := fun i => if i.val = 0 then 2 else 1
  v := of fun j i => if i.val = 0 then if j.val < 2 then 1 / 2 else -(1 / 2) else
    if j.val = 0 ∨ j.val = 2 then 1 / 2 else -(1 / 2)

/-- The corners of a rectangle, twice as long as it is high: the line through its middle along its length -/
noncomputable def rectangle : List (Fin 2 → ℝ) := [![1, 1 / 2], ![1, -(1 / 2)], ![-1, 1 / 2], ![-1, -(1 / 2)]]

theorem rectangle_u (i j : Fin 2) : ∑ k : Fin 2, (if k.val = i.val then (1 : ℝ) else 0) *
    (if k.val = j.val then 1 else 0) = if i = j then 1 else 0 := by
  fin_cases i <;> fin_cases j <;> simp [Fin.sum_univ_two]

/-- The right vectors for the rectangle -/
noncomputable def rectangleV (j : Fin 4) (i : Fin 2) : ℝ :=
  if i.val = 0 then if j.val < 2 then 1 / 2 else -(1 / 2) else if j.val = 0 ∨ j.val = 2 then 1 / 2 else -(1 / 2)

theorem rectangle_v (i j : Fin 2) : ∑ k : Fin 4, rectangleV k i * rectangleV k j = if i = j then 1 else 0 := by
  fin_cases i <;> fin_cases j <;> simp [rectangleV, Fin.sum_univ_four] <;> norm_num

theorem rectangle_product (i : Fin 2) (j : Fin 4) :
    (![![1, 1 / 2], ![1, -(1 / 2)], ![-1, 1 / 2], ![-1, -(1 / 2)]] : Fin 4 → Fin 2 → ℝ) j i =
      ∑ k : Fin 2, (if i.val = k.val then (1 : ℝ) else 0) * (if k.val = 0 then 2 else 1) * rectangleV j k := by
  fin_cases i <;> fin_cases j <;> simp [rectangleV, Fin.sum_univ_two]

theorem rectangle_get (j : Fin 4) (i : Fin 2) : (rectangle[j.val]'j.isLt) i - 0 =
    (![![1, 1 / 2], ![1, -(1 / 2)], ![-1, 1 / 2], ![-1, -(1 / 2)]] : Fin 4 → Fin 2 → ℝ) j i := by
  rw [sub_zero]
  fin_cases j <;> rfl

theorem rectangle_svd (c : Fin 2 → ℝ) (hc : (rectangle.length : ℝ) • c = rectangle.sum) :
    IsThinSvd (of fun k (i : Fin rectangle.length) => rectangle[i] k - c k)
      (rectangleSvd 2 rectangle.length (of fun k i => rectangle[i] k - c k)) := by
  have h0 : c = 0 := by
    funext k
    have := congrFun hc k
    fin_cases k <;> simp [rectangle] at this ⊢ <;> linarith
  subst h0
  constructor
  · ext i j; exact rectangle_u i j
  · ext i j; exact rectangle_v i j
  · intro i
    unfold rectangleSvd
    dsimp only
    split <;> norm_num
  · intro i j
    exact (rectangle_get j i).trans (rectangle_product i j)

example : ∃ plane, fitPlaneToPoints rectangleSvd rectangle = .ok plane ∧ ∑ k, plane.normal k ^ 2 = 1 := by
  obtain ⟨plane, h1, -, h2, -⟩ := (C116_fit rectangleSvd rectangle rectangle_svd).2 (by simp [rectangle]) two_pos
  exact ⟨plane, h1, h2⟩

end Verif.LeastSquares
