import Verif.Props.TotgSwitching

/-!
# Concrete paths that meet the hypotheses of C107, C108 and C110
-/
namespace Verif.Totg
open Verif Matrix
open Verif.Projection (length distance)

theorem distance_two (a b c d : ℝ) : distance ![a, b] ![c, d] = Real.sqrt ((a - c) ^ 2 + (b - d) ^ 2) := by
  simp [distance, Fin.sum_univ_two]

theorem direction_two (a b c d : ℝ) :
    direction ![a, b] ![c, d] = ![(c - a) / Real.sqrt ((c - a) ^ 2 + (d - b) ^ 2),
      (d - b) / Real.sqrt ((c - a) ^ 2 + (d - b) ^ 2)] := by
  funext i
  fin_cases i <;> simp [direction, length, Fin.sum_univ_two] <;> ring

/-- up and down again at right angles: (0,0), (1,1), (2,0) -/
noncomputable def roof : List (Fin 2 → ℝ) := [![0, 0], ![1, 1], ![2, 0]]

theorem root_two : 1 < Real.sqrt 2 ∧ Real.sqrt 2 < 2 := by
  constructor
  · rw [Real.lt_sqrt] <;> norm_num
  · rw [Real.sqrt_lt'] <;> norm_num

theorem roof_up : distance ![(0 : ℝ), 0] ![1, 1] = Real.sqrt 2 ∧
    direction ![(0 : ℝ), 0] ![1, 1] = ![1 / Real.sqrt 2, 1 / Real.sqrt 2] := by
  rw [distance_two, direction_two]; norm_num

theorem roof_down : distance ![(1 : ℝ), 1] ![2, 0] = Real.sqrt 2 ∧
    direction ![(1 : ℝ), 1] ![2, 0] = ![1 / Real.sqrt 2, -1 / Real.sqrt 2] := by
  rw [distance_two, direction_two]; norm_num

theorem roof_turn : distance (direction ![(0 : ℝ), 0] ![1, 1]) (direction ![(1 : ℝ), 1] ![2, 0]) = Real.sqrt 2 := by
  rw [roof_up.2, roof_down.2, distance_two]
  have h := Real.sq_sqrt (show (0 : ℝ) ≤ 2 by norm_num)
  have h0 := root_two.1
  congr 1
  have : Real.sqrt 2 ≠ 0 := by linarith
  field_simp
  nlinarith

theorem pair_infix {α : Type} {a b x y z : α} (h : [a, b] <:+: [x, y, z]) : (a = x ∧ b = y) ∨ (a = y ∧ b = z) := by
  obtain ⟨s, t, e⟩ := h
  rcases s with - | ⟨s, - | ⟨s', s⟩⟩
  · simp at e; exact Or.inl ⟨e.1, e.2.1⟩
  · simp at e; exact Or.inr ⟨e.2.1, e.2.2.1⟩
  · have := congrArg List.length e
    simp at this
    omega

theorem roof_apart : Apart (2 / 10 ^ 6) roof := by
  intro a b h
  have := root_two.1
  rcases pair_infix h with ⟨rfl, rfl⟩ | ⟨rfl, rfl⟩
  · rw [roof_up.1]; norm_num; linarith
  · rw [roof_down.1]; norm_num; linarith

theorem roof_noReversal : NoReversal roof := by
  rintro a b c ⟨s, t, e⟩
  have hlen := congrArg List.length e
  obtain rfl : s = [] := by
    apply List.length_eq_zero_iff.1
    simp [roof] at hlen
    omega
  simp only [List.nil_append, roof, List.cons_append, List.cons.injEq] at e
  obtain ⟨rfl, rfl, rfl, -⟩ := e
  rw [roof_up.2, roof_down.2]
  intro h
  have h0 := congrFun h 0
  have := root_two.1
  simp at h0
  have : 0 < (Real.sqrt 2)⁻¹ := by positivity
  linarith

/-- C107: the corner of the roof is blended -/
example : let a := blend ![(0 : ℝ), 0] ![1, 1] ![2, 0] (1 / 10)
    0 < a.length ∧ distance (a.config (a.length / 2)) ![1, 1] ≤ 1 / 10 := by
  have := root_two
  have h := C107_blend ![(0 : ℝ), 0] ![1, 1] ![2, 0] (1 / 10) (by norm_num)
    (by rw [roof_up.1]; norm_num; linarith) (by rw [roof_down.1]; norm_num; linarith)
    (by rw [roof_turn]; norm_num; linarith) (roof_noReversal _ _ _ (List.infix_refl _))
  obtain ⟨h1, -, d, -, -, -, -, -, -, -, h2, -⟩ := h
  exact ⟨h1, h2⟩

/-- C107: nearly straight corners are not -/
example : (blend ![(0 : ℝ), 0] ![1, 0] ![2, 0] (1 / 10)).length = 0 := by
  refine (C107_no_blend _ _ _ _ (Or.inr (Or.inr ⟨?_, ?_, ?_⟩))).1
  · intro h; simpa using congrFun h 0
  · intro h; simpa using congrFun h 0
  · rw [direction_two, direction_two, distance_two]; norm_num

/-- C107: a line -/
example : (Segment.line ![(0 : ℝ), 0] ![1, 1]).config (Real.sqrt 2) = ![1, 1] := by
  have := root_two
  obtain ⟨h1, -, -, h2, -⟩ := C107_line ![(0 : ℝ), 0] ![1, 1] (by rw [roof_up.1]; linarith)
  rw [h1, roof_up.1] at h2
  exact h2

/-- C108: the path over the roof -/
example : ∃ c, (makePath roof (1 / 10)).config (makePath roof (1 / 10)).length = .ok c ∧ c = ![2, 0] := by
  obtain ⟨config, tangent, curvature, h, -, -, h2, -⟩ :=
    C108_blended ![(0 : ℝ), 0] ![1, 1] [![2, 0]] (1 / 10) (by norm_num) roof_apart roof_noReversal
  exact ⟨_, (h _).1, h2⟩

/-- C108: without blends -/
example : (makePath roof 0).length = 2 * Real.sqrt 2 ∧ (makePath roof 0).config (Real.sqrt 2) = .ok ![1, 1] := by
  have := root_two
  have hap : Apart 0 roof := fun a b h => lt_trans (by norm_num) (roof_apart a b h)
  obtain ⟨h1, h2⟩ := C108_polyline ![(0 : ℝ), 0] ![1, 1] [![2, 0]] 0 le_rfl hap
  refine ⟨?_, ?_⟩
  · refine h1.trans ?_
    simp only [travelled, List.length_cons, List.length_nil]
    rw [roof_up.1, roof_down.1]
    ring
  · have := (h2 1 ![1, 1] ![2, 0] rfl rfl 0 le_rfl (by rw [roof_down.1]; linarith)).1
    simp only [travelled, zero_smul, add_zero] at this
    rw [roof_up.1] at this
    exact this

/-- C110: the second coordinate of the tangent vanishes over the ridge -/
example : ∃ s t k, 0 < s ∧ s < (makePath roof (1 / 10)).length ∧
    (makePath roof (1 / 10)).tangent s = .ok t ∧ (makePath roof (1 / 10)).curvature s = .ok k ∧
    t 1 = 0 ∧ k 1 ≠ 0 := by
  have h2 := root_two
  obtain ⟨m1, m2⟩ := midpoint_left (a := ![(0 : ℝ), 0]) (b := ![1, 1]) (by rw [roof_up.1]; linarith)
  obtain ⟨m3, m4⟩ := midpoint_right (a := ![(1 : ℝ), 1]) (b := ![2, 0]) (by rw [roof_down.1]; linarith)
  set a := blend ((1 / 2 : ℝ) • (![(0 : ℝ), 0] + ![1, 1])) ![1, 1] ((1 / 2 : ℝ) • (![(1 : ℝ), 1] + ![2, 0])) (1 / 10)
    with ha
  have hb := C107_blend ((1 / 2 : ℝ) • (![(0 : ℝ), 0] + ![1, 1])) ![1, 1] ((1 / 2 : ℝ) • (![(1 : ℝ), 1] + ![2, 0]))
    (1 / 10) (by norm_num) (by rw [m1, roof_up.1]; norm_num; linarith) (by rw [m3, roof_down.1]; norm_num; linarith)
    (by rw [m2, m4, roof_turn]; norm_num; linarith)
    (by rw [m2, m4]; exact roof_noReversal _ _ _ (List.infix_refl _))
  obtain ⟨al, ad, d, -, -, -, -, -, at0, at1, -⟩ := hb
  rw [← ha] at al ad at0 at1
  rw [m2, roof_up.2] at at0
  rw [m4, roof_down.2] at at1
  have hpos : 0 < 1 / Real.sqrt 2 := by positivity
  have v0 : (a.tangent 0) 1 = 1 / Real.sqrt 2 := by rw [at0]; rfl
  have v1 : (a.tangent a.length) 1 = -1 / Real.sqrt 2 := by rw [at1]; rfl
  have hc : ContinuousOn (fun t => (a.tangent t) 1) (Set.Icc 0 a.length) :=
    fun t _ => ((continuous_apply 1).continuousAt.comp (ad t).2.1.continuousAt).continuousWithinAt
  obtain ⟨t, ⟨t0, t1⟩, ht⟩ := intermediate_value_Icc' al.le hc (show (0 : ℝ) ∈ Set.Icc _ _ from
    ⟨by rw [v1, neg_div]; linarith, by rw [v0]; exact hpos.le⟩)
  have ht : (a.tangent t) 1 = 0 := ht
  have t1' : t < a.length := by
    refine lt_of_le_of_ne t1 fun h => ?_
    rw [h, v1, neg_div] at ht
    linarith
  have hcurv : (a.curvature t) 1 ≠ 0 := by
    obtain ⟨len, r, z, x, y, e, h0, hr, hle⟩ := blend_shape ((1 / 2 : ℝ) • (![(0 : ℝ), 0] + ![1, 1])) ![1, 1]
      ((1 / 2 : ℝ) • (![(1 : ℝ), 1] + ![2, 0])) (1 / 10) (by norm_num)
    rw [← ha] at e
    rw [e] at ht v0 t1 al ⊢
    intro hk
    have al : 0 < len := al
    have hr' : 0 < r := by
      rcases hr.lt_or_eq with h | h
      · exact h
      · rw [← h, mul_zero] at hle; linarith
    have hk : -1 / r * (Real.cos (t / r) * x 1 + Real.sin (t / r) * y 1) = 0 := hk
    have hk : Real.cos (t / r) * x 1 + Real.sin (t / r) * y 1 = 0 := by
      rcases mul_eq_zero.1 hk with h | h
      · exact absurd h (div_ne_zero (by norm_num) hr'.ne')
      · exact h
    have ht : -Real.sin (t / r) * x 1 + Real.cos (t / r) * y 1 = 0 := ht
    have v0 : -Real.sin (0 / r) * x 1 + Real.cos (0 / r) * y 1 = 1 / Real.sqrt 2 := v0
    rw [zero_div, Real.sin_zero, Real.cos_zero] at v0
    have := Real.sin_sq_add_cos_sq (t / r)
    have hy : y 1 = 0 := by linear_combination (Real.sin (t / r)) * hk + (Real.cos (t / r)) * ht - y 1 * this
    rw [hy] at v0
    linarith
  set line := (if Projection.norm (a.config 0 - ![(0 : ℝ), 0]) > 1 / 10 ^ 6 then
    [Segment.line ![(0 : ℝ), 0] (a.config 0)] else []) with hline
  have hs : segmentsFrom (1 / 10) ![(0 : ℝ), 0] roof =
      line ++ a :: segmentsFrom (1 / 10) (a.config a.length) [![1, 1], ![2, 0]] := by
    unfold roof
    rw [segmentsFrom, if_pos (by norm_num)]
  obtain ⟨g, l, hl⟩ := List.exists_cons_of_ne_nil
    (segments_ne_nil (1 / 10) ![(0 : ℝ), 0] ![0, 0] ![1, 1] [![2, 0]])
  obtain ⟨plen, pseg⟩ := makePath_eq ![(0 : ℝ), 0] ![1, 1] [![2, 0]] (1 / 10) g l hl
  have h0 : ∀ k ∈ g :: l, 0 ≤ k.length := by
    intro k hk
    rw [← hl] at hk
    exact (segments_plain _ _ _ k hk).listable.1
  have hmem : ∃ q ∈ positioned 0 (g :: l), q.2 = a ∧ 0 ≤ q.1 ∧ q.1 + a.length ≤ total (g :: l) := by
    have ham : a ∈ g :: l := by
      rw [← hl]
      show a ∈ segmentsFrom (1 / 10) ![(0 : ℝ), 0] roof
      rw [hs]
      simp
    have key : ∀ (m : List (Segment 2)) (p : ℝ), a ∈ m → ∃ q ∈ positioned p m, q.2 = a := by
      intro m
      induction m with
      | nil => intro p h; simp at h
      | cons k m ih =>
        intro p h
        rcases List.mem_cons.1 h with rfl | h
        · exact ⟨_, List.mem_cons_self, rfl⟩
        · obtain ⟨q, hq, e⟩ := ih (p + k.length) h
          exact ⟨q, List.mem_cons_of_mem _ hq, e⟩
    obtain ⟨q, hq, e⟩ := key _ 0 ham
    obtain ⟨-, b1, b2⟩ := positioned_mem h0 hq
    rw [zero_add, e] at b2
    exact ⟨q, hq, e, b1, b2⟩
  obtain ⟨q, hq, e, q0, q1⟩ := hmem
  have hloc := locate_on g l h0 0 q hq t t0 (by rw [e]; exact t1')
  rw [sub_zero, e] at hloc
  have hat : (makePath roof (1 / 10)).segmentAt (q.1 + t) = .ok (a, t) := (pseg _).trans (by rw [hloc])
  have t0' : 0 < t := lt_of_le_of_ne t0 fun h => by rw [← h, v0] at ht; linarith
  refine ⟨q.1 + t, a.tangent t, a.curvature t, by linarith, ?_, ?_, ?_, ht, hcurv⟩
  · refine lt_of_lt_of_le (show q.1 + t < q.1 + a.length by linarith) ?_
    exact q1.trans plen.ge
  · unfold Path.tangent; rw [hat]; rfl
  · unfold Path.curvature; rw [hat]; rfl

end Verif.Totg
