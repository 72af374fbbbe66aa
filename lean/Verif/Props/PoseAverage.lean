import Verif.Lemmas.PoseAverage
import Verif.Props.Averages

/-!
# C105: averages of rotations and transforms
-/
namespace Verif.PoseAverage
open Verif Matrix Verif.Kinematics Verif.Pose

theorem deviation_eq {a : Quat} (ha : a.squaredNorm = 1) (ws : List ℝ) (qs : List Quat) (hq : ∀ q ∈ qs, q.squaredNorm = 1)
    (hl : ws.length = qs.length) :
    deviation (toRotationMatrix a) (ws.map (· ^ 2)) (qs.map toRotationMatrix) =
      8 * (ws.map (· ^ 2)).sum - 8 * (List.zipWith (fun w q => w ^ 2 * dot a q ^ 2) ws qs).sum := by
  unfold deviation
  induction ws generalizing qs with
  | nil => cases qs <;> simp
  | cons w ws ih =>
    cases qs with
    | nil => simp at hl
    | cons q qs =>
      simp only [List.map_cons, List.zipWith_cons_cons, List.sum_cons]
      rw [ih qs (fun q h => hq q (List.mem_cons_of_mem _ h)) (by simpa using hl), apart_eq ha (hq q List.mem_cons_self)]
      ring

theorem used_length {A : Type} {weights : List ℝ} {values : List A} (hl : weights = [] ∨ weights.length = values.length) :
    (usedWeights weights values).length = values.length := by
  unfold usedWeights
  split
  · simp
  · next h => exact hl.resolve_left h

/-- C105: the average of two or more unit quaternions is a unit quaternion, for a rotation from which the given rotations
deviate least: no other rotation has a smaller sum of squared differences of the entries of the rotation matrices, each with
the square of its weight as factor. -/
theorem C105_quaternions {solver : Solver} (hs : Solves solver) (qs : List Quat) (hq : ∀ q ∈ qs, q.squaredNorm = 1)
    (weights : List ℝ) (h2 : 2 ≤ qs.length) (hl : weights = [] ∨ weights.length = qs.length) :
    ∃ a, averageQuat solver qs weights = .ok a ∧ a.squaredNorm = 1 ∧
      ∀ R : Mat3, IsRotationMatrix R →
        deviation (toRotationMatrix a) ((usedWeights weights qs).map (· ^ 2)) (qs.map toRotationMatrix) ≤
          deviation R ((usedWeights weights qs).map (· ^ 2)) (qs.map toRotationMatrix) := by
  obtain ⟨cs, hc, hcs⟩ := columns_eq weights qs hl
  obtain ⟨i, hi1, hi2⟩ := largest_all (solver (square cs)).1
  obtain ⟨b1, b2⟩ := best hs (square_symm cs) hi2
  set v : Fin 4 → ℝ := fun j => ((solver (square cs)).2 i j).re with hv
  refine ⟨⟨v 0, v 1, v 2, v 3⟩, ?_, ?_, fun R hR => ?_⟩
  · unfold averageQuat
    simp only
    rw [Out.assert_true (by omega), Out.bind_ok, Out.assert_true (by rcases hl with h | h <;> simp [h]), Out.bind_ok]
    match qs, h2, hc with
    | q1 :: q2 :: rest, _, hc =>
      simp only
      rw [hc, Out.bind_ok, hi1]
  · have : v ⬝ᵥ v = 1 := b1
    simp only [dotProduct, Fin.sum_univ_four] at this
    simp only [Quat.squaredNorm]
    linarith
  · have hva : (Quat.mk (v 0) (v 1) (v 2) (v 3)).squaredNorm = 1 := by
      have : v ⬝ᵥ v = 1 := b1
      simp only [dotProduct, Fin.sum_univ_four] at this
      simp only [Quat.squaredNorm]
      linarith
    obtain ⟨r1, r2⟩ := ofMatrix_spec hR
    rw [← r2]
    generalize ofMatrix R = x at r1
    rw [deviation_eq hva _ _ hq (used_length hl), deviation_eq r1 _ _ hq (used_length hl), ← hcs, ← hcs, ← square_form,
      ← square_form]
    have hvv : ![v 0, v 1, v 2, v 3] = v := by ext j; fin_cases j <;> rfl
    have := b2 ![x.w, x.x, x.y, x.z] (by
      simp only [dotProduct, Fin.sum_univ_four, cons_val_zero, cons_val_one, cons_val]
      simp only [Quat.squaredNorm] at r1
      linarith)
    simp only
    rw [hvv]
    linarith

/-- C105: a single quaternion is its own average; no quaternions, a wrong number of weights or a single one of weight zero
fail an assertion. -/
theorem C105_single (solver : Solver) (q : Quat) (qs : List Quat) (weights : List ℝ) (w : ℝ) :
    averageQuat solver [q] [] = .ok q ∧ (w ≠ 0 → averageQuat solver [q] [w] = .ok q) ∧ averageQuat solver [q] [0] = .abort ∧
    averageQuat solver [] weights = .abort ∧
    (weights ≠ [] → weights.length ≠ qs.length → averageQuat solver qs weights = .abort) := by
  refine ⟨?_, fun h => ?_, ?_, ?_, fun h1 h2 => ?_⟩
  · unfold averageQuat
    simp
  · unfold averageQuat
    simp [h]
  · unfold averageQuat
    simp
  · unfold averageQuat
    simp
  · unfold averageQuat
    simp only
    by_cases h : qs.length > 0
    · rw [Out.assert_true h, Out.bind_ok, Out.assert_false (by
        rintro (h | h)
        · exact h2 h
        · exact h1 (List.length_eq_zero_iff.1 h))]
      rfl
    · rw [Out.assert_false h]; rfl

/-- C105: the weights count as their squares. Of a rotation with weight 2 and three equal rotations with weight 1 each, the
average is the first rotation, from which the rotations, with their weights, deviate more than from the other. -/
theorem C105_weights_squared_wrong {solver : Solver} (hs : Solves solver) :
    let p : Quat := ⟨1, 0, 0, 0⟩
    let q : Quat := ⟨0, 1, 0, 0⟩
    ∃ a, averageQuat solver [p, q, q, q] [2, 1, 1, 1] = .ok a ∧ toRotationMatrix a = toRotationMatrix p ∧
      deviation (toRotationMatrix q) [2, 1, 1, 1] ([p, q, q, q].map toRotationMatrix) = 16 ∧
      deviation (toRotationMatrix a) [2, 1, 1, 1] ([p, q, q, q].map toRotationMatrix) = 24 := by
  intro p q
  have hp : p.squaredNorm = 1 := by simp [p, Quat.squaredNorm]
  have hq : q.squaredNorm = 1 := by simp [q, Quat.squaredNorm]
  have hall : ∀ x ∈ [p, q, q, q], x.squaredNorm = 1 := by
    intro x hx
    simp only [List.mem_cons, List.not_mem_nil, or_false] at hx
    rcases hx with rfl | rfl | rfl | rfl
    · exact hp
    · exact hq
    · exact hq
    · exact hq
  obtain ⟨a, h1, h2, h3⟩ := C105_quaternions hs [p, q, q, q] hall [2, 1, 1, 1] (by simp) (Or.inr rfl)
  have h4 := h3 (toRotationMatrix p) (toRotationMatrix_rotation hp)
  have hdev : ∀ b : Quat, b.squaredNorm = 1 → ∀ f g h k : ℝ,
      deviation (toRotationMatrix b) [f, g, h, k] ([p, q, q, q].map toRotationMatrix) =
        f * (8 - 8 * b.w ^ 2) + (g + h + k) * (8 - 8 * b.x ^ 2) := by
    intro b hb f g h k
    unfold deviation
    simp only [List.map_cons, List.map_nil, List.zipWith_cons_cons, List.zipWith_nil_left, List.sum_cons, List.sum_nil,
      apart_eq hb hp, apart_eq hb hq, dot, p, q]
    ring
  have hused : (usedWeights [2, 1, 1, 1] [p, q, q, q]).map (· ^ 2) = [(2 : ℝ) ^ 2, 1 ^ 2, 1 ^ 2, 1 ^ 2] := by
    unfold usedWeights
    rw [if_neg (by simp)]
    rfl
  rw [hused, hdev a h2, hdev p hp] at h4
  simp only [p] at h4
  have hsq := h2
  unfold Quat.squaredNorm at hsq
  have hx : a.x = 0 := by nlinarith [sq_nonneg a.x, sq_nonneg a.y, sq_nonneg a.z]
  have hy : a.y = 0 := by nlinarith [sq_nonneg a.x, sq_nonneg a.y, sq_nonneg a.z]
  have hz : a.z = 0 := by nlinarith [sq_nonneg a.x, sq_nonneg a.y, sq_nonneg a.z]
  have hw : a.w ^ 2 = 1 := by rw [hx, hy, hz] at hsq; linarith
  refine ⟨a, h1, ?_, ?_, ?_⟩
  · ext i j
    fin_cases i <;> fin_cases j <;> simp [toRotationMatrix, hx, hy, hz, p]
  · rw [hdev q hq]
    simp only [q]
    norm_num
  · rw [hdev a h2, hx, hw]
    norm_num

theorem mean_used (values weights : List ℝ) (h0 : values ≠ [])
    (hl : weights = [] ∨ weights.length = values.length ∧ ∃ w ∈ weights, w ≠ 0) :
    ∃ r, Averages.average values weights = .ok r ∧
      r * ((usedWeights weights values).map (|·|)).sum =
        (List.zipWith (fun w v => |w| * v) (usedWeights weights values) values).sum ∧
      ∀ lo hi, (∀ v ∈ values, lo ≤ v ∧ v ≤ hi) → lo ≤ r ∧ r ≤ hi := by
  rcases hl with rfl | ⟨hl, hw⟩
  · obtain ⟨r, r1, r2, r3⟩ := Averages.C48_unweighted values h0
    refine ⟨r, r1, ?_, r3⟩
    unfold usedWeights
    rw [if_pos rfl, List.map_map, List.zipWith_map_left]
    have e1 : ∀ l : List ℝ, (l.map ((|·|) ∘ fun _ => (1 : ℝ))).sum = l.length := by
      intro l
      induction l with
      | nil => simp
      | cons a l ih => rw [List.map_cons, List.sum_cons, ih]; simp; ring
    have e2 : ∀ l : List ℝ, (List.zipWith (fun _ v => |(1 : ℝ)| * v) l l).sum = l.sum := by
      intro l
      induction l with
      | nil => simp
      | cons a l ih => rw [List.zipWith_cons_cons, List.sum_cons, List.sum_cons, ih]; simp
    rw [e1, e2]
    exact r2
  · obtain ⟨r, r1, r2, r3⟩ := Averages.C48_weighted values weights hl hw
    have hne : weights ≠ [] := by
      rintro rfl
      obtain ⟨w, hw, -⟩ := hw
      cases hw
    refine ⟨r, r1, ?_, fun lo hi h => r3 lo hi fun p hp _ => h p.1 (List.of_mem_zip hp).1⟩
    unfold usedWeights
    rw [if_neg hne, r2]
    congr 1
    rw [List.zipWith_comm]

/-- C105: the average of two or more rigid transforms is a rigid transform. Its translation is the weighted mean of the
translations, and the rotations deviate from its rotation least (with the squares of the weights as factors). -/
theorem C105_transforms {solver : Solver} (hs : Solves solver) (ts : List Transform) (ht : ∀ t ∈ ts, IsRotationMatrix t.rotation)
    (weights : List ℝ) (h2 : 2 ≤ ts.length)
    (hl : weights = [] ∨ weights.length = ts.length ∧ ∃ w ∈ weights, w ≠ 0) :
    ∃ a, averageIsometry solver ts weights = .ok a ∧ IsRotationMatrix a.rotation ∧
      (∀ R : Mat3, IsRotationMatrix R →
        deviation a.rotation ((usedWeights weights ts).map (· ^ 2)) (ts.map (·.rotation)) ≤
          deviation R ((usedWeights weights ts).map (· ^ 2)) (ts.map (·.rotation))) ∧
      (∀ k, a.translation k * ((usedWeights weights ts).map (|·|)).sum =
        (List.zipWith (fun w t => |w| * t.translation k) (usedWeights weights ts) ts).sum) ∧
      ∀ k lo hi, (∀ t ∈ ts, lo ≤ t.translation k ∧ t.translation k ≤ hi) →
        lo ≤ a.translation k ∧ a.translation k ≤ hi := by
  have hne : ts ≠ [] := by rintro rfl; simp at h2
  have hl' : weights = [] ∨ weights.length = ts.length := hl.imp_right And.left
  obtain ⟨q, q1, q2, q3⟩ := C105_quaternions hs (ts.map fun t => ofMatrix t.rotation) (by
    intro q hq
    obtain ⟨t, htm, rfl⟩ := List.mem_map.1 hq
    exact (ofMatrix_spec (ht t htm)).1) weights (by simpa using h2) (by simpa using hl')
  have hu : ∀ {A : Type} (f : Transform → A), usedWeights weights (ts.map f) = usedWeights weights ts := by
    intro A f
    unfold usedWeights
    rw [List.map_map]
    rfl
  have hback : (ts.map fun t => ofMatrix t.rotation).map toRotationMatrix = ts.map (·.rotation) := by
    rw [List.map_map]
    exact List.map_congr_left fun t htm => (ofMatrix_spec (ht t htm)).2
  rw [hu, hback] at q3
  have hk : ∀ k : Fin 3, ∃ r, Averages.average ((ts.map (·.translation)).map (LinearMap.proj k : (Fin 3 → ℝ) →ₗ[ℝ] ℝ)) weights =
      .ok r ∧ r * ((usedWeights weights ts).map (|·|)).sum =
        (List.zipWith (fun w t => |w| * t.translation k) (usedWeights weights ts) ts).sum ∧
      ∀ lo hi, (∀ t ∈ ts, lo ≤ t.translation k ∧ t.translation k ≤ hi) → lo ≤ r ∧ r ≤ hi := by
    intro k
    obtain ⟨r, r1, r2, r3⟩ := mean_used ((ts.map (·.translation)).map (LinearMap.proj k : (Fin 3 → ℝ) →ₗ[ℝ] ℝ)) weights
      (by simpa using hne) (by simpa using hl)
    rw [List.map_map, hu] at r2
    refine ⟨r, r1, ?_, fun lo hi h => r3 lo hi ?_⟩
    · rw [r2, List.zipWith_map_right]
      rfl
    · intro y hy
      simp only [List.mem_map, exists_exists_and_eq_and] at hy
      obtain ⟨t, htm, rfl⟩ := hy
      exact h t htm
  cases hv : Averages.averageVec (ts.map (·.translation)) weights with
  | ok v =>
    refine ⟨⟨toRotationMatrix q, v⟩, ?_, toRotationMatrix_rotation q2, q3, fun k => ?_, fun k => ?_⟩
    · unfold averageIsometry
      rw [Out.assert_true (by omega), Out.bind_ok, Out.assert_true (by rcases hl' with h | h <;> simp [h]), Out.bind_ok]
      match ts, h2, hv, q1 with
      | t1 :: t2 :: rest, _, hv, q1 =>
        simp only
        rw [hv, Out.bind_ok, q1, Out.bind_ok]
    · obtain ⟨r, r1, r2, -⟩ := hk k
      rw [Averages.C48_vectors, hv] at r1
      exact (congrArg (· * _) (show v k = r from Out.ok.inj r1)).trans r2
    · obtain ⟨r, r1, -, r3⟩ := hk k
      rw [Averages.C48_vectors, hv] at r1
      have : v k = r := Out.ok.inj r1
      show ∀ lo hi, _ → lo ≤ v k ∧ v k ≤ hi
      rw [this]
      exact r3
  | throws e =>
    obtain ⟨r, r1, -⟩ := hk 0
    rw [Averages.C48_vectors, hv] at r1
    cases r1
  | abort =>
    obtain ⟨r, r1, -⟩ := hk 0
    rw [Averages.C48_vectors, hv] at r1
    cases r1
  | ub =>
    obtain ⟨r, r1, -⟩ := hk 0
    rw [Averages.C48_vectors, hv] at r1
    cases r1

/-- C105: a single transform is its own average; averaging fails an assertion for no transforms, a wrong number of weights
or weights that are all zero. -/
theorem C105_single_transform (solver : Solver) (t : Transform) (ts : List Transform) (weights : List ℝ) (w : ℝ) :
    averageIsometry solver [t] [] = .ok t ∧ (w ≠ 0 → averageIsometry solver [t] [w] = .ok t) ∧
    averageIsometry solver [] weights = .abort ∧
    (weights ≠ [] → (weights.length ≠ ts.length ∨ ∀ w ∈ weights, w = 0) → averageIsometry solver ts weights = .abort) := by
  refine ⟨?_, fun h => ?_, ?_, fun h1 h2 => ?_⟩
  · unfold averageIsometry
    simp
  · unfold averageIsometry
    simp [h]
  · unfold averageIsometry
    simp
  · unfold averageIsometry
    by_cases h : ts.length > 0
    · rw [Out.assert_true h, Out.bind_ok]
      by_cases h3 : weights.length = ts.length
      · rw [Out.assert_true (Or.inl h3), Out.bind_ok]
        have h4 := h2.resolve_left (fun h => h h3)
        match ts, h, h3 with
        | [t], _, h3 =>
          obtain ⟨w, rfl⟩ := List.length_eq_one_iff.1 h3
          have : w = 0 := h4 w (by simp)
          simp [this]
        | t1 :: t2 :: rest, _, h3 =>
          simp only
          have ha := (Averages.C48_aborts (((t1 :: t2 :: rest).map (·.translation)).map
            (LinearMap.proj 0 : (Fin 3 → ℝ) →ₗ[ℝ] ℝ)) weights).1.2 (Or.inr ⟨h1, Or.inr h4⟩)
          rw [Averages.C48_vectors] at ha
          cases hv : Averages.averageVec ((t1 :: t2 :: rest).map (·.translation)) weights with
          | ok v => rw [hv] at ha; cases ha
          | throws e => rw [hv] at ha; cases ha
          | abort => rfl
          | ub => rw [hv] at ha; cases ha
      · rw [Out.assert_false (by
          rintro (h | h)
          · exact h3 h
          · exact h1 (List.length_eq_zero_iff.1 h))]
        rfl
    · rw [Out.assert_false h]; rfl

/-- There are solvers, and two different rotations have an average. -/
example : ∃ solver, Solves solver ∧ ∃ a, averageQuat solver [⟨1, 0, 0, 0⟩, ⟨0, 1, 0, 0⟩] [1, 3] = .ok a := by
  obtain ⟨solver, hs⟩ := exists_solver
  refine ⟨solver, hs, ?_⟩
  obtain ⟨a, h, -⟩ := C105_quaternions hs [⟨1, 0, 0, 0⟩, ⟨0, 1, 0, 0⟩] (by simp [Quat.squaredNorm]) [1, 3] (by simp) (Or.inr rfl)
  exact ⟨a, h⟩

end Verif.PoseAverage
