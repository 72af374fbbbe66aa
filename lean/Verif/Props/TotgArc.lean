import Verif.Lemmas.TotgArc

/-!
# C107: the pieces of the path that is parametrized
-/
namespace Verif.Totg
open Verif Matrix
open Verif.Projection (normalized length distance length_eq distance_eq norm_sq normalized_of_ne
  normalized_dot_self dot_self_pos)

variable {n : Nat}

theorem dot_combination {x u : Fin n → ℝ} (hx : x ⬝ᵥ x = 1) (hu : u ⬝ᵥ u = 1) (hxu : x ⬝ᵥ u = 0) (a b : ℝ) :
    (a • x + b • u) ⬝ᵥ (a • x + b • u) = a ^ 2 + b ^ 2 := by
  rw [add_dotProduct, dotProduct_add, dotProduct_add, smul_dotProduct, smul_dotProduct, smul_dotProduct,
    smul_dotProduct, dotProduct_smul, dotProduct_smul, dotProduct_smul, dotProduct_smul, hx, hu,
    dotProduct_comm u x, hxu]
  simp only [smul_eq_mul]
  ring

theorem norm_scaled {v : Fin n → ℝ} (hv : v ⬝ᵥ v = 1) (a : ℝ) : Projection.norm (a • v) = |a| := by
  rw [Projection.norm_smul, unit_norm hv, mul_one]

/-- derivatives along an arc -/
theorem arc_deriv (len r : ℝ) (center x y : Fin n → ℝ) (hr : r ≠ 0) (s : ℝ) :
    HasDerivAt (Segment.arc len r center x y).config ((Segment.arc len r center x y).tangent s) s ∧
    HasDerivAt (Segment.arc len r center x y).tangent ((Segment.arc len r center x y).curvature s) s := by
  have hd : HasDerivAt (fun s : ℝ => s / r) (1 / r) s := (hasDerivAt_id s).div_const r
  have hc := hd.cos
  have hs := hd.sin
  constructor
  · refine HasDerivAt.congr_deriv (f := fun s => center + r • (Real.cos (s / r) • x + Real.sin (s / r) • y))
      ((((hc.smul_const x).add (hs.smul_const y)).const_smul r).const_add center) ?_
    show r • ((-Real.sin (s / r) * (1 / r)) • x + (Real.cos (s / r) * (1 / r)) • y) =
      -Real.sin (s / r) • x + Real.cos (s / r) • y
    funext i
    simp only [Pi.add_apply, Pi.smul_apply, smul_eq_mul]
    field_simp
  · refine HasDerivAt.congr_deriv (f := fun s => -Real.sin (s / r) • x + Real.cos (s / r) • y)
      ((hs.neg.smul_const x).add (hc.smul_const y)) ?_
    show (-(Real.cos (s / r) * (1 / r))) • x + (-Real.sin (s / r) * (1 / r)) • y =
      (-1 / r) • (Real.cos (s / r) • x + Real.sin (s / r) • y)
    funext i
    simp only [Pi.add_apply, Pi.smul_apply, smul_eq_mul]
    ring

/-- A blend between two lines that are neither nearly parallel nor opposite. It leaves the first line and
enters the second at the same distance `d` from the corner, in the directions of the lines, along an arc
that is traversed with unit speed. `d` is as large as the ends and the deviation permit. The arc passes the
corner within the permitted deviation, and each of its points is within the permitted deviation of the two
lines. -/
theorem C107_blend (start corner stop : Fin n → ℝ) (dev : ℝ) (hdev : 0 < dev)
    (h1 : 1 / 10 ^ 6 ≤ distance start corner) (h2 : 1 / 10 ^ 6 ≤ distance corner stop)
    (h3 : 1 / 10 ^ 6 ≤ distance (direction start corner) (direction corner stop))
    (h4 : direction corner stop ≠ -direction start corner) :
    let a := blend start corner stop dev
    let u := direction start corner
    let w := direction corner stop
    0 < a.length ∧
    (∀ s, HasDerivAt a.config (a.tangent s) s ∧ HasDerivAt a.tangent (a.curvature s) s ∧
      length (a.tangent s) = 1) ∧
    ∃ d, 0 < d ∧ d ≤ distance start corner ∧ d ≤ distance corner stop ∧
      a.config 0 = corner - d • u ∧ a.config a.length = corner + d • w ∧
      a.tangent 0 = u ∧ a.tangent a.length = w ∧
      distance (a.config (a.length / 2)) corner ≤ dev ∧
      (d = distance start corner ∨ d = distance corner stop ∨ distance (a.config (a.length / 2)) corner = dev) ∧
      ∀ s, 0 ≤ s → s ≤ a.length → ∃ t, 0 ≤ t ∧ t ≤ d ∧
        (distance (a.config s) (corner - t • u) ≤ dev ∨ distance (a.config s) (corner + t • w) ≤ dev) := by
  intro a u w
  have pos : (0 : ℝ) < 1 / 10 ^ 6 := by norm_num
  have g1 : distance start corner = Projection.norm (corner - start) := by
    rw [distance_eq, ← Projection.norm_neg, neg_sub]
  have g2 : distance corner stop = Projection.norm (stop - corner) := by
    rw [distance_eq, ← Projection.norm_neg, neg_sub]
  have n1 : corner - start ≠ 0 := norm_ne (by rw [← g1]; linarith)
  have n2 : stop - corner ≠ 0 := norm_ne (by rw [← g2]; linarith)
  have e1 : u = normalized (corner - start) := direction_eq n1
  have e2 : w = normalized (stop - corner) := direction_eq n2
  have hu : u ⬝ᵥ u = 1 := by rw [e1]; exact normalized_dot_self n1
  have hw : w ⬝ᵥ w = 1 := by rw [e2]; exact normalized_dot_self n2
  have h3' : 1 / 10 ^ 6 ≤ Projection.norm (u - w) := by rw [← distance_eq]; exact h3
  have hsub : (u - w) ⬝ᵥ (u - w) = 2 - 2 * (u ⬝ᵥ w) := by
    rw [sub_dotProduct, dotProduct_sub, dotProduct_sub, hu, hw, dotProduct_comm w u]; ring
  have hadd : (u + w) ⬝ᵥ (u + w) = 2 + 2 * (u ⬝ᵥ w) := by
    rw [add_dotProduct, dotProduct_add, dotProduct_add, hu, hw, dotProduct_comm w u]; ring
  have lt1 : u ⬝ᵥ w < 1 := by
    have := dot_self_pos (norm_ne (lt_of_lt_of_le pos h3'))
    rw [hsub] at this
    linarith
  have gt1 : -1 < u ⬝ᵥ w := by
    have hne : u + w ≠ 0 := fun h => h4 (eq_neg_of_add_eq_zero_right h)
    have := dot_self_pos hne
    rw [hadd] at this
    linarith
  set θ := Real.arccos (u ⬝ᵥ w) with hθ
  have hθ0 : 0 < θ := Real.arccos_pos.2 lt1
  have hθπ : θ < Real.pi := by
    refine lt_of_le_of_ne (Real.arccos_le_pi _) ?_
    rw [hθ, Ne, Real.arccos_eq_pi]
    linarith
  set h := 1 / 2 * θ with hh
  have h2h : 2 * h = θ := by rw [hh]; ring
  have hcos : u ⬝ᵥ w = Real.cos (2 * h) := by
    rw [h2h, hθ, Real.cos_arccos gt1.le lt1.le]
  have hS : 0 < Real.sin h := Real.sin_pos_of_pos_of_lt_pi (by rw [hh]; linarith) (by rw [hh]; linarith)
  have hC : 0 < Real.cos h := Real.cos_pos_of_mem_Ioo ⟨by rw [hh]; linarith, by rw [hh]; linarith⟩
  have hSC := Real.sin_sq_add_cos_sq h
  have hC1 : Real.cos h < 1 := by nlinarith [sq_nonneg (Real.cos h)]
  set limited := dev * Real.sin h / (1 - Real.cos h) with hlim
  have hlim0 : 0 < limited := by
    rw [hlim]; apply div_pos (mul_pos hdev hS); linarith
  set d := min (min (distance start corner) (distance corner stop)) limited with hd
  have hd0 : 0 < d := lt_min (lt_min (by linarith) (by linarith)) hlim0
  obtain ⟨hr0, hxx, hxu, c0, c1, c2, hcen, hr⟩ := Totg.corner (inter := corner) hu hw hcos hS hC hd0
  set r := d / Real.tan h with hrd
  set center := corner + (r / Real.cos h) • normalized (w - u) with hcd
  set x := normalized (corner - d • u - center) with hx
  have ha : a = .arc (θ * r) r center x u := by
    show blend start corner stop dev = _
    unfold blend
    rw [if_neg (by rw [← g1, ← g2]; intro h; rcases h with h | h <;> linarith)]
    have k1 : Projection.norm (start - corner) = distance start corner := (distance_eq _ _).symm
    simp only [← e1, ← e2]
    rw [if_neg (not_lt.2 h3'), k1, ← g2]
  rw [ha]
  have hc1 : ∀ φ, (Real.cos φ • x + Real.sin φ • u) ⬝ᵥ (Real.cos φ • x + Real.sin φ • u) = 1 := by
    intro φ
    rw [dot_combination hxx hu hxu]
    exact Real.cos_sq_add_sin_sq φ
  have hmid : distance ((Segment.arc (θ * r) r center x u).config ((Segment.arc (θ * r) r center x u).length / 2))
      corner = d * (1 - Real.cos h) / Real.sin h := by
    have e : (Segment.arc (θ * r) r center x u).config ((Segment.arc (θ * r) r center x u).length / 2) - corner =
        (r - d / Real.sin h) • (Real.cos h • x + Real.sin h • u) := by
      show center + r • (Real.cos (θ * r / 2 / r) • x + Real.sin (θ * r / 2 / r) • u) - corner = _
      have : θ * r / 2 / r = h := by rw [hh]; field_simp
      rw [this, hcen, ← c2, Real.sin_two_mul, Real.cos_two_mul]
      funext i
      simp only [Pi.add_apply, Pi.sub_apply, Pi.smul_apply, smul_eq_mul]
      field_simp
      linear_combination (2 * d * u i) * hSC
    rw [distance_eq, e, norm_scaled (hc1 h), hr, abs_sub_comm, abs_of_nonneg]
    · ring
    · rw [← sub_div]
      apply div_nonneg _ hS.le
      nlinarith
  have hdl : d * (1 - Real.cos h) / Real.sin h ≤ dev := by
    have : d ≤ limited := min_le_right _ _
    rw [hlim, le_div_iff₀ (by linarith)] at this
    rwa [div_le_iff₀ hS]
  refine ⟨mul_pos hθ0 hr0, ?_, d, hd0, (min_le_left _ _).trans (min_le_left _ _),
    (min_le_left _ _).trans (min_le_right _ _), ?_, ?_, ?_, ?_, ?_, ?_, ?_⟩
  · intro s
    obtain ⟨k1, k2⟩ := arc_deriv (θ * r) r center x u hr0.ne' s
    refine ⟨k1, k2, ?_⟩
    rw [length_eq]
    show Projection.norm (-Real.sin (s / r) • x + Real.cos (s / r) • u) = 1
    apply unit_norm
    rw [dot_combination hxx hu hxu, neg_sq]
    exact Real.sin_sq_add_cos_sq _
  · show center + r • (Real.cos (0 / r) • x + Real.sin (0 / r) • u) = _
    rw [zero_div, Real.cos_zero, Real.sin_zero, one_smul, zero_smul, add_zero]
    exact c0
  · show center + r • (Real.cos (θ * r / r) • x + Real.sin (θ * r / r) • u) = _
    rw [mul_div_assoc, div_self hr0.ne', mul_one, ← h2h]
    exact c1
  · show -Real.sin (0 / r) • x + Real.cos (0 / r) • u = u
    simp
  · show -Real.sin (θ * r / r) • x + Real.cos (θ * r / r) • u = w
    rw [mul_div_assoc, div_self hr0.ne', mul_one, ← h2h]
    exact c2
  · rw [hmid]; exact hdl
  · rw [hmid]
    rcases min_choice (min (distance start corner) (distance corner stop)) limited with k | k
    · rcases min_choice (distance start corner) (distance corner stop) with k' | k'
      · left; rw [hd, k, k']
      · right; left; rw [hd, k, k']
    · right; right
      have : d = limited := by rw [hd, k]
      rw [this, hlim]
      have : 1 - Real.cos h ≠ 0 := by linarith
      field_simp
  · intro s s0 s1
    set φ := s / r with hφ
    have hφ0 : 0 ≤ φ := div_nonneg s0 hr0.le
    have hφ1 : φ ≤ θ := by rw [hφ, div_le_iff₀ hr0]; exact s1
    have bound : ∀ ψ, 0 ≤ ψ → ψ ≤ h → r * (1 - Real.cos ψ) ≤ dev ∧ 0 ≤ d - r * Real.sin ψ := by
      intro ψ p0 p1
      have hm : Real.cos h ≤ Real.cos ψ := Real.cos_le_cos_of_nonneg_of_le_pi p0 (by rw [hh]; linarith) p1
      have hs : Real.sin ψ ≤ Real.sin h :=
        Real.sin_le_sin_of_le_of_le_pi_div_two (by linarith) (by rw [hh]; linarith) p1
      constructor
      · calc r * (1 - Real.cos ψ) ≤ r * (1 - Real.cos h) :=
              mul_le_mul_of_nonneg_left (by linarith) hr0.le
          _ = d * (1 - Real.cos h) / Real.sin h * Real.cos h := by rw [hr]; ring
          _ ≤ dev * 1 := mul_le_mul hdl hC1.le hC.le hdev.le
          _ = dev := mul_one _
      · have : r * Real.sin ψ ≤ r * Real.sin h := mul_le_mul_of_nonneg_left hs hr0.le
        have e : r * Real.sin h = d * Real.cos h := by rw [hr]; field_simp
        nlinarith
    have cfg : (Segment.arc (θ * r) r center x u).config s =
        center + r • (Real.cos φ • x + Real.sin φ • u) := rfl
    rcases le_total φ h with hle | hge
    · obtain ⟨b1, b2⟩ := bound φ hφ0 hle
      refine ⟨d - r * Real.sin φ, b2, ?_, Or.inl ?_⟩
      · have := mul_nonneg hr0.le (Real.sin_nonneg_of_nonneg_of_le_pi hφ0 (by linarith))
        linarith
      · have e : center + r • (Real.cos φ • x + Real.sin φ • u) - (corner - (d - r * Real.sin φ) • u) =
            (-(r * (1 - Real.cos φ))) • x := by
          have hc : center = corner - d • u - r • x := eq_sub_of_add_eq c0
          rw [hc]
          funext i
          simp only [Pi.add_apply, Pi.sub_apply, Pi.smul_apply, smul_eq_mul]
          ring
        rw [distance_eq, cfg, e, norm_scaled hxx, abs_neg, abs_of_nonneg]
        · exact b1
        · exact mul_nonneg hr0.le (by linarith [Real.cos_le_one φ])
    · obtain ⟨b1, b2⟩ := bound (θ - φ) (by linarith) (by rw [hh] at hge ⊢; linarith)
      refine ⟨d - r * Real.sin (θ - φ), b2, ?_, Or.inr ?_⟩
      · have := mul_nonneg hr0.le (Real.sin_nonneg_of_nonneg_of_le_pi (x := θ - φ) (by linarith) (by linarith))
        linarith
      · have e : center + r • (Real.cos φ • x + Real.sin φ • u) - (corner + (d - r * Real.sin (θ - φ)) • w) =
            (-(r * (1 - Real.cos (θ - φ)))) • (Real.cos (2 * h) • x + Real.sin (2 * h) • u) := by
          have hc : center = corner + d • w - r • (Real.cos (2 * h) • x + Real.sin (2 * h) • u) :=
            eq_sub_of_add_eq c1
          have hφ' : φ = θ - (θ - φ) := by ring
          rw [hc, ← c2, h2h]
          have q1 : Real.cos φ = Real.cos θ * Real.cos (θ - φ) + Real.sin θ * Real.sin (θ - φ) := by
            conv_lhs => rw [hφ', Real.cos_sub]
          have q2 : Real.sin φ = Real.sin θ * Real.cos (θ - φ) - Real.cos θ * Real.sin (θ - φ) := by
            conv_lhs => rw [hφ', Real.sin_sub]
          rw [q1, q2]
          funext i
          simp only [Pi.add_apply, Pi.sub_apply, Pi.smul_apply, smul_eq_mul]
          ring
        rw [distance_eq, cfg, e, norm_scaled (hc1 _), abs_neg, abs_of_nonneg]
        · exact b1
        · exact mul_nonneg hr0.le (by linarith [Real.cos_le_one (θ - φ)])

/-- Where an end is too near, or the lines are nearly parallel, the blend is the corner itself. -/
theorem C107_no_blend (start corner stop : Fin n → ℝ) (dev : ℝ)
    (h : distance start corner < 1 / 10 ^ 6 ∨ distance corner stop < 1 / 10 ^ 6 ∨
      (corner ≠ start ∧ stop ≠ corner ∧
        distance (direction start corner) (direction corner stop) < 1 / 10 ^ 6)) :
    (blend start corner stop dev).length = 0 ∧ ∀ s, (blend start corner stop dev).config s = corner := by
  have g1 : distance start corner = Projection.norm (corner - start) := by
    rw [distance_eq, ← Projection.norm_neg, neg_sub]
  have g2 : distance corner stop = Projection.norm (stop - corner) := by
    rw [distance_eq, ← Projection.norm_neg, neg_sub]
  have e : blend start corner stop dev = .arc 0 1 corner 0 0 := by
    unfold blend
    by_cases h0 : Projection.norm (corner - start) < 1 / 10 ^ 6 ∨ Projection.norm (stop - corner) < 1 / 10 ^ 6
    · rw [if_pos h0]
    · rw [if_neg h0, if_pos]
      rcases h with h | h | ⟨k1, k2, h⟩
      · exact absurd (Or.inl (g1 ▸ h)) h0
      · exact absurd (Or.inr (g2 ▸ h)) h0
      · rwa [direction_eq (sub_ne_zero.2 k1), direction_eq (sub_ne_zero.2 k2), distance_eq] at h
  rw [e]
  refine ⟨rfl, fun s => ?_⟩
  show corner + (1 : ℝ) • (Real.cos (s / 1) • (0 : Fin n → ℝ) + Real.sin (s / 1) • (0 : Fin n → ℝ)) = corner
  simp

end Verif.Totg
