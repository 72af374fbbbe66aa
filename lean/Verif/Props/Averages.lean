import Mathlib.Algebra.BigOperators.Group.List.Basic
import Mathlib.Algebra.Order.BigOperators.Group.List
import Mathlib.Tactic.Ring
import Mathlib.Tactic.FieldSimp
import Mathlib.Tactic.Linarith
import Mathlib.Tactic.LinearCombination
import Mathlib.Tactic.Positivity
import Mathlib.Tactic.NormNum
import Mathlib.Data.Rat.Floor
import Verif.Model.Averages

/-!
# C48, C73: averages, deviations and distances of vectors
-/
namespace Verif.Averages
open Verif
set_option linter.unusedSectionVars false

section
variable {K : Type} [Field K] [LinearOrder K] [IsStrictOrderedRing K]

/-! ## Averages -/

theorem firstNonzero_shift (i : Nat) (ws : List K) : firstNonzero (i + 1) ws = firstNonzero i ws + 1 := by
  induction ws generalizing i with
  | nil => rfl
  | cons w ws ih => rw [firstNonzero, firstNonzero]; split <;> simp [ih]

/-- with weights: average times sum of weights is the weighted sum -/
theorem averageLoop_spec (weights : List K) (hw : weights.length ≠ 0) :
    ∀ (vs : List K) (i : Nat) (avg sum : K), 0 < sum → weights.length = i + vs.length →
    ∃ r, averageLoop weights vs i avg sum = .ok r ∧
      r * (sum + ((weights.drop i).map (|·|)).sum) =
        avg * sum + (List.zipWith (fun v w => |w| * v) vs (weights.drop i)).sum ∧
      ∀ lo hi : K, lo ≤ avg → avg ≤ hi →
        (∀ p ∈ vs.zip (weights.drop i), p.2 ≠ 0 → lo ≤ p.1 ∧ p.1 ≤ hi) → lo ≤ r ∧ r ≤ hi := by
  intro vs
  induction vs with
  | nil =>
    intro i avg sum hs hl
    refine ⟨avg, rfl, ?_, fun lo hi h1 h2 _ => ⟨h1, h2⟩⟩
    rw [List.drop_eq_nil_of_le (by simp at hl; omega)]
    simp
  | cons v vs ih =>
    intro i avg sum hs hl
    have hi : i < weights.length := by rw [hl]; simp
    have hd : weights.drop i = weights[i] :: weights.drop (i + 1) := List.drop_eq_getElem_cons hi
    rw [averageLoop]
    have hwa : weightAt weights i = .ok |weights[i]| := by
      unfold weightAt
      rw [if_pos hw, List.getElem?_eq_getElem hi]
    rw [hwa, Out.bind_ok]
    dsimp only
    generalize weights[i] = w at *
    have hw0 : 0 ≤ |w| := abs_nonneg w
    have hs' : 0 < sum + |w| := by linarith
    obtain ⟨r, h1, h2, h3⟩ := ih (i + 1) (avg + |w| / (sum + |w|) * (v - avg)) (sum + |w|) hs' (by
      rw [hl]; simp; omega)
    refine ⟨r, h1, ?_, ?_⟩
    · rw [hd, List.map_cons, List.sum_cons, List.zipWith_cons_cons, List.sum_cons]
      have e : (avg + |w| / (sum + |w|) * (v - avg)) * (sum + |w|) = avg * sum + |w| * v := by
        field_simp
        ring
      rw [e] at h2
      linear_combination h2
    · intro lo hi' a1 a2 hall
      rw [hd, List.zip_cons_cons] at hall
      have e : avg + |w| / (sum + |w|) * (v - avg) = (avg * sum + |w| * v) / (sum + |w|) := by
        field_simp
        ring
      refine h3 lo hi' ?_ ?_ (fun p hp => hall p (List.mem_cons_of_mem _ hp))
      · rw [e, le_div_iff₀ hs']
        by_cases hz : w = 0
        · subst hz; simp; nlinarith
        · have := (hall (v, w) (List.mem_cons_self ..) hz).1
          have g1 : lo * sum ≤ avg * sum := mul_le_mul_of_nonneg_right a1 hs.le
          have g2 : |w| * lo ≤ |w| * v := mul_le_mul_of_nonneg_left this hw0
          linarith
      · rw [e, div_le_iff₀ hs']
        by_cases hz : w = 0
        · subst hz; simp; nlinarith
        · have := (hall (v, w) (List.mem_cons_self ..) hz).2
          have g1 : avg * sum ≤ hi' * sum := mul_le_mul_of_nonneg_right a2 hs.le
          have g2 : |w| * v ≤ |w| * hi' := mul_le_mul_of_nonneg_left this hw0
          linarith

theorem averageLoop_plain : ∀ (vs : List K) (i : Nat) (avg sum : K), 0 < sum →
    ∃ r, averageLoop [] vs i avg sum = .ok r ∧ r * (sum + (vs.length : K)) = avg * sum + vs.sum ∧
      ∀ lo hi : K, lo ≤ avg → avg ≤ hi → (∀ v ∈ vs, lo ≤ v ∧ v ≤ hi) → lo ≤ r ∧ r ≤ hi := by
  intro vs
  induction vs with
  | nil => intro i avg sum hs; exact ⟨avg, rfl, by simp, fun lo hi h1 h2 _ => ⟨h1, h2⟩⟩
  | cons v vs ih =>
    intro i avg sum hs
    rw [averageLoop]
    have hwa : weightAt ([] : List K) i = .ok 1 := rfl
    rw [hwa, Out.bind_ok]
    dsimp only
    have hs' : 0 < sum + 1 := by linarith
    obtain ⟨r, h1, h2, h3⟩ := ih (i + 1) (avg + 1 / (sum + 1) * (v - avg)) (sum + 1) hs'
    have e : (avg + 1 / (sum + 1) * (v - avg)) * (sum + 1) = avg * sum + v := by
      field_simp
      ring
    refine ⟨r, h1, ?_, ?_⟩
    · rw [List.length_cons, List.sum_cons]
      push_cast
      rw [e] at h2
      linear_combination h2
    · intro lo hi a1 a2 hall
      have hv := hall v (List.mem_cons_self ..)
      have e' : avg + 1 / (sum + 1) * (v - avg) = (avg * sum + v) / (sum + 1) := by
        field_simp
        ring
      refine h3 lo hi ?_ ?_ (fun p hp => hall p (List.mem_cons_of_mem _ hp))
      · rw [e', le_div_iff₀ hs']
        have g1 : lo * sum ≤ avg * sum := mul_le_mul_of_nonneg_right a1 hs.le
        linarith [hv.1]
      · rw [e', div_le_iff₀ hs']
        have g1 : avg * sum ≤ hi * sum := mul_le_mul_of_nonneg_right a2 hs.le
        linarith [hv.2]

/-- the leading zero weights -/
theorem firstNonzero_spec (ws : List K) :
    (∀ w ∈ ws.take (firstNonzero 0 ws), w = 0) ∧ firstNonzero 0 ws ≤ ws.length ∧
      ∀ w, ws[firstNonzero 0 ws]? = some w → w ≠ 0 := by
  induction ws with
  | nil => simp [firstNonzero]
  | cons x ws ih =>
    rw [firstNonzero]
    by_cases h : x = 0
    · rw [if_pos h, firstNonzero_shift]
      obtain ⟨h1, h2, h3⟩ := ih
      refine ⟨?_, by simpa using h2, by simpa using h3⟩
      rw [List.take_succ_cons]
      intro w hw
      rcases List.mem_cons.1 hw with e | e
      · rw [e, h]
      · exact h1 w e
    · rw [if_neg h]
      simp [h]

theorem sum_abs_zero (ws : List K) (h : ∀ w ∈ ws, w = 0) : (ws.map (|·|)).sum = 0 := by
  induction ws with
  | nil => rfl
  | cons w ws ih =>
    rw [List.map_cons, List.sum_cons, ih (fun x hx => h x (List.mem_cons_of_mem _ hx)),
      h w (List.mem_cons_self ..)]
    simp

theorem sum_zip_zero (vs ws : List K) (h : ∀ w ∈ ws, w = 0) :
    (List.zipWith (fun v w => |w| * v) vs ws).sum = 0 := by
  induction vs generalizing ws with
  | nil => simp
  | cons v vs ih =>
    cases ws with
    | nil => simp
    | cons w ws =>
      rw [List.zipWith_cons_cons, List.sum_cons, ih ws (fun x hx => h x (List.mem_cons_of_mem _ hx)),
        h w (List.mem_cons_self ..)]
      simp

/-- The weighted average times the sum of the (absolute) weights is the weighted sum, and it lies between the
smallest and the largest value with a non-zero weight. -/
theorem C48_weighted (values weights : List K) (hl : weights.length = values.length)
    (hw : ∃ w ∈ weights, w ≠ 0) :
    ∃ r, average values weights = .ok r ∧
      r * (weights.map (|·|)).sum = (List.zipWith (fun v w => |w| * v) values weights).sum ∧
      ∀ lo hi : K, (∀ p ∈ values.zip weights, p.2 ≠ 0 → lo ≤ p.1 ∧ p.1 ≤ hi) → lo ≤ r ∧ r ≤ hi := by
  obtain ⟨h1, h2, h3⟩ := firstNonzero_spec weights
  have hlt : firstNonzero 0 weights < weights.length := by
    rcases Nat.lt_or_ge (firstNonzero 0 weights) weights.length with h | h
    · exact h
    · obtain ⟨w, hm, hn⟩ := hw
      rw [List.take_of_length_le h] at h1
      exact absurd (h1 w hm) hn
  unfold average
  generalize hs : firstNonzero 0 weights = s at *
  have hne : weights.length ≠ 0 := by omega
  rw [Out.assert_true (by omega), Out.bind_ok, Out.assert_true (Or.inl hl), Out.bind_ok]
  dsimp only
  rw [Out.assert_true (by omega), Out.bind_ok, List.getElem?_eq_getElem (by omega : s < values.length)]
  dsimp only
  have hwa : weightAt weights s = .ok |weights[s]| := by
    unfold weightAt
    rw [if_pos hne, List.getElem?_eq_getElem hlt]
  have hnz : weights[s] ≠ 0 := h3 _ (List.getElem?_eq_getElem hlt)
  rw [hwa, Out.bind_ok, Out.assert_true (abs_pos.2 hnz), Out.bind_ok]
  obtain ⟨r, e1, e2, e3⟩ := averageLoop_spec weights hne (values.drop (s + 1)) (s + 1)
    (values[s]'(by omega)) |weights[s]| (abs_pos.2 hnz) (by rw [List.length_drop]; omega)
  have dw : weights = weights.take s ++ weights[s] :: weights.drop (s + 1) := by
    rw [← List.drop_eq_getElem_cons hlt, List.take_append_drop]
  have dv : values = values.take s ++ values[s] :: values.drop (s + 1) := by
    rw [← List.drop_eq_getElem_cons (by omega : s < values.length), List.take_append_drop]
  have hlen : (values.take s).length = (weights.take s).length := by
    rw [List.length_take, List.length_take]; omega
  refine ⟨r, e1, ?_, ?_⟩
  · have t1 : (weights.map (|·|)).sum = |weights[s]| + ((weights.drop (s + 1)).map (|·|)).sum := by
      conv_lhs => rw [dw]
      rw [List.map_append, List.sum_append, List.map_cons, List.sum_cons, sum_abs_zero _ h1, zero_add]
    have t2 : (List.zipWith (fun v w => |w| * v) values weights).sum =
        |weights[s]| * values[s] +
          (List.zipWith (fun v w => |w| * v) (values.drop (s + 1)) (weights.drop (s + 1))).sum := by
      conv_lhs => rw [dw, dv]
      rw [List.zipWith_append hlen, List.sum_append, List.zipWith_cons_cons, List.sum_cons,
        sum_zip_zero _ _ h1, zero_add]
    rw [t1, t2, e2]
    ring
  · intro lo hi hall
    have hz : values.zip weights = (values.take s).zip (weights.take s) ++
        (values[s], weights[s]) :: (values.drop (s + 1)).zip (weights.drop (s + 1)) := by
      conv_lhs => rw [dw, dv]
      rw [List.zip_append hlen, List.zip_cons_cons]
    rw [hz] at hall
    have hv := hall (values[s], weights[s]) (by simp) hnz
    exact e3 lo hi hv.1 hv.2 (fun p hp => hall p (by simp [hp]))

/-- Without weights the average times the number of values is their sum, and it lies between the smallest and
the largest value. -/
theorem C48_unweighted (values : List K) (hl : values ≠ []) :
    ∃ r, average values [] = .ok r ∧ r * (values.length : K) = values.sum ∧
      ∀ lo hi : K, (∀ v ∈ values, lo ≤ v ∧ v ≤ hi) → lo ≤ r ∧ r ≤ hi := by
  cases values with
  | nil => exact absurd rfl hl
  | cons v vs =>
    have ev : average (v :: vs) [] = averageLoop [] vs 1 v 1 := by
      unfold average
      rw [Out.assert_true (by simp), Out.bind_ok, Out.assert_true (by simp), Out.bind_ok]
      dsimp only
      rw [Out.assert_true (by simp [firstNonzero]), Out.bind_ok]
      have hwa : weightAt ([] : List K) 0 = .ok 1 := rfl
      show (do let w ← weightAt ([] : List K) 0; _) = _
      rw [hwa, Out.bind_ok, Out.assert_true zero_lt_one, Out.bind_ok]
      rfl
    obtain ⟨r, h1, h2, h3⟩ := averageLoop_plain vs 1 v (1 : K) zero_lt_one
    refine ⟨r, ev.trans h1, ?_, ?_⟩
    · rw [List.length_cons, List.sum_cons]
      push_cast
      linear_combination h2
    · intro lo hi h
      have hv := h v (List.mem_cons_self ..)
      exact h3 lo hi hv.1 hv.2 (fun x hx => h x (List.mem_cons_of_mem _ hx))

/-- Averaging fails an assertion exactly for no values, a wrong number of weights, or weights that are all
zero; there is no other outcome than that and a result. -/
theorem C48_aborts (values weights : List K) :
    (average values weights = .abort ↔
      values = [] ∨ (weights ≠ [] ∧ (weights.length ≠ values.length ∨ ∀ w ∈ weights, w = 0))) ∧
    (average values weights ≠ .abort → ∃ r, average values weights = .ok r) ∧
    averageRevolute values weights = average values weights := by
  have key : average values weights = .abort ∨ ∃ r, average values weights = .ok r := by
    by_cases h0 : values = []
    · left; subst h0; rfl
    · by_cases h1 : weights = []
      · right; subst h1
        obtain ⟨r, h, -⟩ := C48_unweighted values h0
        exact ⟨r, h⟩
      · by_cases h2 : weights.length = values.length
        · by_cases h3 : ∃ w ∈ weights, w ≠ 0
          · right
            obtain ⟨r, h, -⟩ := C48_weighted values weights h2 h3
            exact ⟨r, h⟩
          · left
            have hz : ∀ w ∈ weights, w = 0 := fun w hw => by
              by_contra hn
              exact h3 ⟨w, hw, hn⟩
            obtain ⟨f1, f2, f3⟩ := firstNonzero_spec weights
            have : ¬ firstNonzero 0 weights < values.length := by
              intro hlt
              rw [← h2] at hlt
              exact f3 _ (List.getElem?_eq_getElem hlt) (hz _ (List.getElem_mem hlt))
            unfold average
            rw [Out.assert_true (List.length_pos_iff.2 h0), Out.bind_ok, Out.assert_true (Or.inl h2), Out.bind_ok]
            dsimp only
            rw [Out.assert_false this]
            rfl
        · left
          unfold average
          rw [Out.assert_true (List.length_pos_iff.2 h0), Out.bind_ok, Out.assert_false]
          · rfl
          · rintro (h | h)
            · exact h2 h
            · exact h1 (List.length_eq_zero_iff.1 h)
  refine ⟨⟨fun h => ?_, fun h => ?_⟩, fun h => key.resolve_left h, rfl⟩
  · by_contra hn
    rw [not_or, not_and_or, not_or] at hn
    obtain ⟨h0, hn⟩ := hn
    by_cases h1 : weights = []
    · subst h1
      obtain ⟨r, hr, -⟩ := C48_unweighted values h0
      rw [hr] at h; cases h
    · have hn := hn.resolve_left (fun h => h h1)
      have h3 : ∃ w ∈ weights, w ≠ 0 := by
        by_contra hc
        exact hn.2 fun w hw => by
          by_contra hz
          exact hc ⟨w, hw, hz⟩
      obtain ⟨r, hr, -⟩ := C48_weighted values weights (by
        by_contra hc
        exact hn.1 hc) h3
      rw [hr] at h; cases h
  · rcases h with h | ⟨h1, h⟩
    · subst h; rfl
    · by_cases h0 : values = []
      · subst h0; rfl
      · refine key.resolve_right ?_
        rintro ⟨r, hr⟩
        unfold average at hr
        rw [Out.assert_true (List.length_pos_iff.2 h0), Out.bind_ok] at hr
        by_cases h2 : weights.length = values.length
        · rw [Out.assert_true (Or.inl h2), Out.bind_ok] at hr
          dsimp only at hr
          have hz := h.resolve_left (fun h => h h2)
          obtain ⟨f1, f2, f3⟩ := firstNonzero_spec weights
          have : ¬ firstNonzero 0 weights < values.length := by
            intro hlt
            rw [← h2] at hlt
            exact f3 _ (List.getElem?_eq_getElem hlt) (hz _ (List.getElem_mem hlt))
          rw [Out.assert_false this] at hr
          cases hr
        · rw [Out.assert_false] at hr
          · cases hr
          · rintro (h | h)
            · exact h2 h
            · exact h1 (List.length_eq_zero_iff.1 h)

/-- the outcome of applying a function to a result -/
def mapOut {A B : Type} (f : A → B) : Out A → Out B
  | .ok a => .ok (f a)
  | .throws e => .throws e
  | .abort => .abort
  | .ub => .ub

theorem averageVecLoop_map {V : Type} [AddCommGroup V] [Module K V] (f : V →ₗ[K] K) (weights : List K) :
    ∀ (vs : List V) (i : Nat) (avg : V) (sum : K),
    averageLoop weights (vs.map f) i (f avg) sum = mapOut f (averageVecLoop weights vs i avg sum) := by
  intro vs
  induction vs with
  | nil => intro i avg sum; rfl
  | cons v vs ih =>
    intro i avg sum
    rw [List.map_cons, averageLoop, averageVecLoop]
    cases weightAt weights i with
    | ok w =>
      rw [Out.bind_ok, Out.bind_ok, ← ih, map_add, map_smul, map_sub, smul_eq_mul]
    | throws e => rfl
    | abort => rfl
    | ub => rfl

/-- Averaging vectors averages each component: for every linear functional the average of its values is its
value at the average, and the outcomes (a result or an assertion failure) are the same. -/
theorem C48_vectors {V : Type} [AddCommGroup V] [Module K V] (f : V →ₗ[K] K) (vectors : List V)
    (weights : List K) :
    average (vectors.map f) weights = mapOut f (averageVec vectors weights) := by
  unfold average averageVec
  rw [List.length_map]
  by_cases h1 : 0 < vectors.length
  · rw [Out.assert_true h1, Out.bind_ok, Out.bind_ok]
    by_cases h2 : weights.length = vectors.length ∨ weights.length = 0
    · rw [Out.assert_true h2, Out.bind_ok, Out.bind_ok]
      dsimp only
      by_cases h3 : firstNonzero 0 weights < vectors.length
      · rw [Out.assert_true h3, Out.bind_ok, Out.bind_ok, List.getElem?_map]
        cases vectors[firstNonzero 0 weights]? with
        | none => rfl
        | some first =>
          dsimp only [Option.map]
          cases weightAt weights (firstNonzero 0 weights) with
          | ok w =>
            rw [Out.bind_ok, Out.bind_ok]
            by_cases h4 : 0 < w
            · rw [Out.assert_true h4, Out.bind_ok, Out.bind_ok, ← averageVecLoop_map, List.map_drop]
            · rw [Out.assert_false h4]; rfl
          | throws e => rfl
          | abort => rfl
          | ub => rfl
      · rw [Out.assert_false h3]; rfl
    · rw [Out.assert_false h2]; rfl
  · rw [Out.assert_false h1]; rfl

theorem deviationLoop_eq (mean sum : K) (vs : List K) :
    deviationLoop mean sum vs = sum + (vs.map fun v => (v - mean) ^ 2).sum := by
  induction vs generalizing sum with
  | nil => simp [deviationLoop]
  | cons v vs ih => rw [deviationLoop, ih, List.map_cons, List.sum_cons]; ring

/-- The standard deviation is the root of the sum of squared differences from the mean divided by one less than
the number of values; it is 0 for one value and an assertion failure for none. -/
theorem C48_deviation (sqrt : K → K) (values : List K) :
    (values = [] → stdDev sqrt values = .abort ∧ ∀ m, stdDevWithMean sqrt values m = .abort) ∧
    (values.length = 1 → stdDev sqrt values = .ok 0 ∧ ∀ m, stdDevWithMean sqrt values m = .ok 0) ∧
    (2 ≤ values.length →
      (∀ m, stdDevWithMean sqrt values m =
        .ok (sqrt ((values.map fun v => (v - m) ^ 2).sum / ((values.length : K) - 1)))) ∧
      ∃ m, m * (values.length : K) = values.sum ∧
        stdDev sqrt values = .ok (sqrt ((values.map fun v => (v - m) ^ 2).sum / ((values.length : K) - 1)))) := by
  refine ⟨?_, ?_, ?_⟩
  · rintro rfl
    exact ⟨rfl, fun _ => rfl⟩
  · intro h
    have h0 : values ≠ [] := by rintro rfl; simp at h
    have g : ∀ m, stdDevWithMean sqrt values m = .ok 0 := by
      intro m
      unfold stdDevWithMean
      rw [Out.assert_true (by omega), Out.bind_ok, if_pos h]
    obtain ⟨m, hm, -⟩ := C48_unweighted values h0
    refine ⟨?_, g⟩
    unfold stdDev
    rw [hm, Out.bind_ok, g]
  · intro h
    have h0 : values ≠ [] := by rintro rfl; simp at h
    have g : ∀ m, stdDevWithMean sqrt values m =
        .ok (sqrt ((values.map fun v => (v - m) ^ 2).sum / ((values.length : K) - 1))) := by
      intro m
      unfold stdDevWithMean
      rw [Out.assert_true (by omega), Out.bind_ok, if_neg (by omega), deviationLoop_eq, zero_add,
        Nat.cast_sub (by omega), Nat.cast_one, ← div_eq_mul_one_div]
    refine ⟨g, ?_⟩
    obtain ⟨m, hm, hs, -⟩ := C48_unweighted values h0
    refine ⟨m, hs, ?_⟩
    unfold stdDev
    rw [hm, Out.bind_ok, g]

/-! ## Distances -/

theorem squaredLoop_eq (p q : List K) (s : K) (h : p.length = q.length) :
    squaredLoop s p q = .ok (s + (List.zipWith (fun x y => (y - x) ^ 2) p q).sum) := by
  induction p generalizing q s with
  | nil => simp [squaredLoop]
  | cons x p ih =>
    cases q with
    | nil => simp at h
    | cons y q =>
      rw [squaredLoop, ih q _ (by simpa using h), List.zipWith_cons_cons, List.sum_cons]
      congr 1
      ring

theorem sq_sum_nonneg (p q : List K) : 0 ≤ (List.zipWith (fun x y => (y - x) ^ 2) p q).sum := by
  induction p generalizing q with
  | nil => simp
  | cons x p ih =>
    cases q with
    | nil => simp
    | cons y q =>
      rw [List.zipWith_cons_cons, List.sum_cons]
      have := ih q
      positivity

theorem sq_sum_zero (p q : List K) (h : p.length = q.length) :
    (List.zipWith (fun x y => (y - x) ^ 2) p q).sum = 0 ↔ p = q := by
  induction p generalizing q with
  | nil => cases q with
    | nil => simp
    | cons y q => simp at h
  | cons x p ih =>
    cases q with
    | nil => simp at h
    | cons y q =>
      rw [List.zipWith_cons_cons, List.sum_cons]
      have h1 := sq_sum_nonneg p q
      have h2 : 0 ≤ (y - x) ^ 2 := sq_nonneg _
      constructor
      · intro e
        have e1 : (y - x) ^ 2 = 0 := by linarith
        have e2 : (List.zipWith (fun x y => (y - x) ^ 2) p q).sum = 0 := by linarith
        rw [(ih q (by simpa using h)).1 e2, sub_eq_zero.1 (pow_eq_zero_iff (two_ne_zero) |>.1 e1)]
      · intro e
        injection e with e1 e2
        rw [e1, (ih q (by simpa using h)).2 e2]
        ring

theorem sq_sum_comm (p q : List K) :
    (List.zipWith (fun x y => (y - x) ^ 2) p q).sum = (List.zipWith (fun x y => (y - x) ^ 2) q p).sum := by
  induction p generalizing q with
  | nil => simp
  | cons x p ih =>
    cases q with
    | nil => simp
    | cons y q =>
      rw [List.zipWith_cons_cons, List.sum_cons, List.zipWith_cons_cons, List.sum_cons, ih]
      ring

/-- `SquaredDistance` is the sum of the squared differences for vectors of the same size and infinite for
others. -/
theorem C73_squared (p q : List K) :
    squaredDistance p q = .ok (if p.length = q.length then
      some (List.zipWith (fun x y => (y - x) ^ 2) p q).sum else none) := by
  unfold squaredDistance
  split
  · next h => rw [squaredLoop_eq p q 0 h, Out.bind_ok, zero_add]
  · rfl

theorem totalLoop_eq {T : Type} (dist : T → T → K) (path : List T) :
    ∀ (n i : Nat) (total : K), i + n + 1 = path.length →
    totalLoop dist path n i total =
      .ok (total + (List.zipWith dist (path.drop i) (path.drop (i + 1))).sum) := by
  intro n
  induction n with
  | zero =>
    intro i total h
    have e : path.drop (i + 1) = [] := List.drop_eq_nil_of_le (by omega)
    rw [totalLoop, e]; simp
  | succ n ih =>
    intro i total h
    rw [totalLoop, List.getElem?_eq_getElem (by omega : i < path.length),
      List.getElem?_eq_getElem (by omega : i + 1 < path.length)]
    dsimp only
    rw [ih (i + 1) _ (by omega), List.drop_eq_getElem_cons (by omega : i < path.length),
      List.drop_eq_getElem_cons (by omega : i + 1 < path.length), List.zipWith_cons_cons, List.sum_cons,
      ← List.drop_eq_getElem_cons (by omega : i + 1 < path.length), add_assoc]

/-- the sum of the distances of consecutive points -/
theorem totalDistance_eq {T : Type} (dist : T → T → K) (path : List T) :
    totalDistance dist path = .ok (List.zipWith dist path path.tail).sum := by
  cases path with
  | nil => simp [totalDistance, totalLoop]
  | cons a path =>
    unfold totalDistance
    rw [totalLoop_eq dist (a :: path) _ 0 0 (by simp)]
    simp

/-- `CalculateTotalDistance` adds up the distances of consecutive points: 0 for at most one point; the total of
a path is the sum of the totals of two parts that share a point; and if the distance satisfies the triangle
inequality the total is at least the distance from the first point to the last. -/
theorem C73_total {T : Type} (dist : T → T → K) :
    (∀ path : List T, path.length ≤ 1 → totalDistance dist path = .ok 0) ∧
    (∀ (a b : T) (path : List T) r, totalDistance dist (b :: path) = .ok r →
      totalDistance dist (a :: b :: path) = .ok (dist a b + r)) ∧
    (∀ (front : List T) (x : T) (back : List T), ∃ r s,
      totalDistance dist (front ++ [x]) = .ok r ∧ totalDistance dist (x :: back) = .ok s ∧
      totalDistance dist (front ++ x :: back) = .ok (r + s)) ∧
    ((∀ a, dist a a = 0) → (∀ a b c, dist a c ≤ dist a b + dist b c) →
      ∀ (a : T) (path : List T), ∃ r, totalDistance dist (a :: path) = .ok r ∧
        dist a ((a :: path).getLast (List.cons_ne_nil _ _)) ≤ r) := by
  refine ⟨?_, ?_, ?_, ?_⟩
  · intro path h
    rw [totalDistance_eq]
    match path, h with
    | [], _ => simp
    | [_], _ => simp
  · intro a b path r h
    rw [totalDistance_eq] at h ⊢
    injection h with h
    rw [← h]; simp
  · intro front x back
    refine ⟨_, _, totalDistance_eq .., totalDistance_eq .., ?_⟩
    rw [totalDistance_eq]
    congr 1
    induction front with
    | nil => simp
    | cons a front ih =>
      cases front with
      | nil => simp
      | cons b front =>
        simp only [List.cons_append, List.tail_cons, List.zipWith_cons_cons, List.sum_cons] at ih ⊢
        rw [ih]; ring
  · intro h0 htri a path
    refine ⟨_, totalDistance_eq .., ?_⟩
    induction path generalizing a with
    | nil => simp [h0]
    | cons b path ih =>
      have := ih b
      rw [List.getLast_cons (List.cons_ne_nil _ _)]
      simp only [List.tail_cons, List.zipWith_cons_cons, List.sum_cons] at this ⊢
      linarith [htri a b ((b :: path).getLast (List.cons_ne_nil _ _))]

end

theorem two_triangle (x y A B : ℝ) :
    Real.sqrt ((x + y) ^ 2 + (A + B) ^ 2) ≤ Real.sqrt (x ^ 2 + A ^ 2) + Real.sqrt (y ^ 2 + B ^ 2) := by
  have h1 := Real.sqrt_nonneg (x ^ 2 + A ^ 2)
  have h2 := Real.sqrt_nonneg (y ^ 2 + B ^ 2)
  have e1 := Real.sq_sqrt (by positivity : 0 ≤ x ^ 2 + A ^ 2)
  have e2 := Real.sq_sqrt (by positivity : 0 ≤ y ^ 2 + B ^ 2)
  rw [Real.sqrt_le_left (by linarith)]
  have key : x * y + A * B ≤ Real.sqrt (x ^ 2 + A ^ 2) * Real.sqrt (y ^ 2 + B ^ 2) := by
    rw [← Real.sqrt_mul (by positivity)]
    refine (le_abs_self _).trans (Real.abs_le_sqrt ?_)
    nlinarith [sq_nonneg (x * B - y * A)]
  nlinarith

theorem list_triangle : ∀ p q r : List ℝ, p.length = q.length → q.length = r.length →
    Real.sqrt (List.zipWith (fun x y => (y - x) ^ 2) p r).sum ≤
      Real.sqrt (List.zipWith (fun x y => (y - x) ^ 2) p q).sum +
      Real.sqrt (List.zipWith (fun x y => (y - x) ^ 2) q r).sum := by
  intro p
  induction p with
  | nil => intro q r h1 h2; simp
  | cons x p ih =>
    intro q r h1 h2
    cases q with
    | nil => simp at h1
    | cons y q =>
      cases r with
      | nil => simp at h2
      | cons z r =>
        have h := ih q r (by simpa using h1) (by simpa using h2)
        simp only [List.zipWith_cons_cons, List.sum_cons]
        have n1 := sq_sum_nonneg p r
        have n2 := sq_sum_nonneg p q
        have n3 := sq_sum_nonneg q r
        generalize (List.zipWith (fun x y => (y - x) ^ 2) p r).sum = S at *
        generalize (List.zipWith (fun x y => (y - x) ^ 2) p q).sum = A at *
        generalize (List.zipWith (fun x y => (y - x) ^ 2) q r).sum = B at *
        have t := two_triangle (y - x) (z - y) (Real.sqrt A) (Real.sqrt B)
        rw [Real.sq_sqrt n2, Real.sq_sqrt n3] at t
        refine le_trans (Real.sqrt_le_sqrt ?_) t
        have hS : S ≤ (Real.sqrt A + Real.sqrt B) ^ 2 := by
          rw [← Real.sq_sqrt n1]
          exact pow_le_pow_left₀ (Real.sqrt_nonneg _) h 2
        have : y - x + (z - y) = z - x := by ring
        rw [this]
        linarith

/-- `Distance` is a metric on the vectors of each size and infinite between vectors of different sizes. -/
theorem C73_distance (p q r : List ℝ) :
    (p.length ≠ q.length → distance p q = .ok none) ∧
    (p.length = q.length → ∃ d, 0 ≤ d ∧ distance p q = .ok (some d) ∧ distance q p = .ok (some d) ∧
      (d = 0 ↔ p = q) ∧ d ^ 2 = (List.zipWith (fun x y => (y - x) ^ 2) p q).sum) ∧
    (∀ d e f, distance p q = .ok (some d) → distance q r = .ok (some e) → distance p r = .ok (some f) →
      f ≤ d + e) := by
  have ev : ∀ p q : List ℝ, distance p q = .ok (if p.length = q.length then
      some (Real.sqrt (List.zipWith (fun x y => (y - x) ^ 2) p q).sum) else none) := by
    intro p q
    unfold distance
    by_cases h : p.length = q.length
    · rw [if_pos h, if_pos h, C73_squared, if_pos h, Out.bind_ok]; rfl
    · rw [if_neg h, if_neg h]
  refine ⟨fun h => by rw [ev, if_neg h], fun h => ?_, fun d e f h1 h2 h3 => ?_⟩
  · refine ⟨Real.sqrt (List.zipWith (fun x y => (y - x) ^ 2) p q).sum, Real.sqrt_nonneg _,
      by rw [ev, if_pos h], by rw [ev, if_pos h.symm, sq_sum_comm], ?_, Real.sq_sqrt (sq_sum_nonneg p q)⟩
    rw [Real.sqrt_eq_zero (sq_sum_nonneg p q), sq_sum_zero p q h]
  · rw [ev] at h1 h2 h3
    have l1 : p.length = q.length := by
      by_contra hn; rw [if_neg hn] at h1; cases h1
    have l2 : q.length = r.length := by
      by_contra hn; rw [if_neg hn] at h2; cases h2
    rw [if_pos l1] at h1
    rw [if_pos l2] at h2
    rw [if_pos (l1.trans l2)] at h3
    injection h1 with h1; injection h1 with h1
    injection h2 with h2; injection h2 with h2
    injection h3 with h3; injection h3 with h3
    rw [← h1, ← h2, ← h3]
    exact list_triangle p q r l1 l2

/-- Examples: a weighted average whose first weight is zero and whose second is negative; a deviation (of the
squared kind); a total distance. -/
example : average [(7 : ℚ), 1, 4] [0, -1, 2] = .ok 3 ∧ average [(1 : ℚ), 2, 6] [] = .ok 3 ∧
    average [(1 : ℚ), 2] [0, 0] = .abort ∧ stdDev id [(1 : ℚ), 2, 6] = .ok 7 ∧
    totalDistance (fun a b : ℚ => |b - a|) [0, 3, 1] = .ok 5 ∧
    squaredDistance [(1 : ℚ), 2] [4, 6] = .ok (some 25) ∧ squaredDistance [(1 : ℚ), 2] [4] = .ok none := by
  decide +kernel

end Verif.Averages
