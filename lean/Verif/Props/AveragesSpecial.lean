import Verif.Props.AnglesSpecial

/-!
# C190: distances, averages and standard deviations with special doubles
-/
namespace Verif.MathSpecial
open Verif

variable (A : Ieee)

/-! ## Distances -/

/-- Not a number, or not negative. -/
def Unsigned (d : Dbl) : Prop := d = .nan ∨ d = .inf false ∨ ∃ x, d = .num x ∧ 0 ≤ x

theorem round_unsigned {x : ℝ} (h : 0 ≤ x) : Unsigned (A.round x) ∧ A.round x ≠ .nan := by
  by_cases k : |A.R.rd x| ≤ A.top
  · rw [A.round_eq k]
    exact ⟨.inr (.inr ⟨_, rfl, A.R.nonneg h⟩), by simp⟩
  · rw [A.round_over (not_le.1 k), decide_eq_false (not_lt.2 h)]
    exact ⟨.inr (.inl rfl), by simp⟩

theorem round_not_nan (x : ℝ) : A.round x ≠ .nan := by
  unfold Ieee.round
  split <;> simp

theorem sub_incomparable (a b : Dbl) : A.sub b a = .nan ↔ Incomparable a b := by
  unfold Incomparable
  cases a with
  | nan => cases b <;> simp [Ieee.sub]
  | inf s =>
    cases b with
    | nan => simp [Ieee.sub]
    | inf t => cases s <;> cases t <;> simp [Ieee.sub]
    | num y => simp [Ieee.sub]
  | num x =>
    cases b with
    | nan => simp [Ieee.sub]
    | inf t => simp [Ieee.sub]
    | num y => simp [Ieee.sub, round_not_nan]

theorem square_unsigned (d : Dbl) : Unsigned (A.mul d d) ∧ (A.mul d d = .nan ↔ d = .nan) ∧
    ((A.mul d d).Finite → d.Finite) := by
  cases d with
  | nan => exact ⟨.inl rfl, by simp [Ieee.mul], fun ⟨_, h⟩ => by cases h⟩
  | inf s => exact ⟨.inr (.inl (by cases s <;> rfl)), by simp [Ieee.mul], fun ⟨_, h⟩ => by cases h⟩
  | num x =>
    obtain ⟨h1, h2⟩ := round_unsigned A (mul_self_nonneg x)
    exact ⟨h1, by simpa [Ieee.mul] using h2, fun _ => ⟨x, rfl⟩⟩

theorem add_unsigned {a b : Dbl} (ha : Unsigned a) (hb : Unsigned b) : Unsigned (A.add a b) ∧
    (A.add a b = .nan ↔ a = .nan ∨ b = .nan) := by
  rcases ha with rfl | rfl | ⟨x, rfl, hx⟩
  · exact ⟨.inl rfl, by simp [Ieee.add]⟩
  · rcases hb with rfl | rfl | ⟨y, rfl, hy⟩
    · exact ⟨.inl rfl, by simp [Ieee.add]⟩
    · exact ⟨.inr (.inl (by simp [Ieee.add])), by simp [Ieee.add]⟩
    · exact ⟨.inr (.inl rfl), by simp [Ieee.add]⟩
  · rcases hb with rfl | rfl | ⟨y, rfl, hy⟩
    · exact ⟨.inl rfl, by simp [Ieee.add]⟩
    · exact ⟨.inr (.inl rfl), by simp [Ieee.add]⟩
    · obtain ⟨h1, h2⟩ := round_unsigned A (add_nonneg hx hy)
      exact ⟨h1, by simpa [Ieee.add] using h2⟩

theorem squaredLoop_special : ∀ (p q : List Dbl) (sum : Dbl), p.length = q.length → Unsigned sum →
    ∃ d, squaredLoop A sum p q = .ok d ∧ Unsigned d ∧
      (d = .nan ↔ sum = .nan ∨ ∃ c ∈ p.zip q, Incomparable c.1 c.2) ∧
      (d.Finite → sum.Finite ∧ (∀ a ∈ p, a.Finite) ∧ ∀ b ∈ q, b.Finite)
  | [], [], sum, _, h => ⟨sum, rfl, h, by simp, fun h => ⟨h, by simp, by simp⟩⟩
  | [], _ :: _, _, h, _ => by simp at h
  | _ :: _, [], _, h, _ => by simp at h
  | a :: p, b :: q, sum, hl, hs => by
    obtain ⟨s1, s2, s3⟩ := square_unsigned A (A.sub b a)
    obtain ⟨t1, t2⟩ := add_unsigned A hs s1
    obtain ⟨d, e, u, n, f⟩ := squaredLoop_special p q _ (by simpa using hl) t1
    refine ⟨d, e, u, ?_, fun hd => ?_⟩
    · rw [n, t2, s2, sub_incomparable]
      simp only [List.zip_cons_cons, List.mem_cons, exists_eq_or_imp]
      exact or_assoc
    · obtain ⟨g1, g2, g3⟩ := f hd
      obtain ⟨k1, k2⟩ := A.add_finite g1
      obtain ⟨k3, k4⟩ := A.sub_finite (s3 k2)
      refine ⟨k1, ?_, ?_⟩
      · intro c hc; rcases List.mem_cons.1 hc with rfl | hc
        · exact k4
        · exact g2 c hc
      · intro c hc; rcases List.mem_cons.1 hc with rfl | hc
        · exact k3
        · exact g3 c hc

theorem squaredLoop_agrees : ∀ (p q : List ℝ) (sum s : ℝ), p.length = q.length → 0 ≤ sum →
    squaredLoop A (.num sum) (p.map .num) (q.map .num) = .ok (.num s) →
    RoundedMath.squaredLoop A.R sum p q = .ok s
  | [], q, sum, s, _, _, h => by
    simp only [List.map_nil, squaredLoop, Out.ok.injEq, Dbl.num.injEq] at h
    rw [RoundedMath.squaredLoop, h]
  | _ :: _, [], _, _, hl, _, _ => by simp at hl
  | x :: p, y :: q, sum, s, hl, h0, h => by
    simp only [List.map_cons, squaredLoop] at h
    have hl' : p.length = q.length := by simpa using hl
    obtain ⟨s1, _, _⟩ := square_unsigned A (A.sub (.num y) (.num x))
    obtain ⟨t1, _⟩ := add_unsigned A (.inr (.inr ⟨sum, rfl, h0⟩)) s1
    obtain ⟨d, e, _, _, f⟩ := squaredLoop_special A (p.map .num) (q.map .num) _ (by simpa using hl') t1
    rw [h] at e
    cases e
    obtain ⟨⟨z, hz⟩, _⟩ := f ⟨s, rfl⟩
    obtain ⟨a, b, ea, eb, ez⟩ := A.add_num hz
    cases ea
    obtain ⟨u, v, eu, ev, ew⟩ := A.mul_num eb
    rw [eu] at ev
    cases ev
    have eu' := A.round_num eu
    rw [hz, ez, ew, eu'] at h
    unfold RoundedMath.squaredLoop
    have hb : 0 ≤ A.R.rd (A.R.rd (y - x) * A.R.rd (y - x)) := A.R.nonneg (mul_self_nonneg _)
    exact squaredLoop_agrees p q _ s hl' (A.R.nonneg (add_nonneg h0 hb)) h

/-- **C190.** The squared distance of vectors of the same length is not a number exactly if two coordinates are
incomparable; otherwise it is not negative, infinite if a coordinate is or something overflows, and else what rounding
gives. Vectors of different lengths are infinitely far apart, whatever they contain. -/
theorem C190_squared (p q : List Dbl) :
    (p.length ≠ q.length → squaredDistance A p q = .ok (.inf false)) ∧
    (p.length = q.length → ∃ d, squaredDistance A p q = .ok d ∧
      (d = .nan ↔ ∃ c ∈ p.zip q, Incomparable c.1 c.2) ∧
      (d = .nan ∨ d = .inf false ∨ ∃ s, d = .num s ∧ 0 ≤ s) ∧
      ∀ s, d = .num s → ∃ xs ys, p = xs.map .num ∧ q = ys.map .num ∧
        RoundedMath.squaredDistance A.R xs ys = .ok (some s)) := by
  have lift : ∀ l : List Dbl, (∀ a ∈ l, a.Finite) → ∃ xs : List ℝ, l = xs.map .num := by
    intro l h
    induction l with
    | nil => exact ⟨[], rfl⟩
    | cons a l ih =>
      obtain ⟨x, hx⟩ := h a (by simp)
      obtain ⟨xs, hxs⟩ := ih fun b hb => h b (by simp [hb])
      exact ⟨x :: xs, by rw [hx, hxs]; rfl⟩
  refine ⟨fun h => by unfold squaredDistance; rw [if_neg h], fun h => ?_⟩
  obtain ⟨d, e, u, n, f⟩ := squaredLoop_special A p q (.num 0) h (.inr (.inr ⟨0, rfl, le_refl _⟩))
  unfold squaredDistance
  rw [if_pos h]
  refine ⟨d, e, by rw [n]; simp, u, ?_⟩
  rintro s rfl
  obtain ⟨_, f1, f2⟩ := f ⟨s, rfl⟩
  obtain ⟨xs, rfl⟩ := lift p f1
  obtain ⟨ys, rfl⟩ := lift q f2
  have hl : xs.length = ys.length := by simpa using h
  refine ⟨xs, ys, rfl, rfl, ?_⟩
  unfold RoundedMath.squaredDistance
  rw [if_pos hl, squaredLoop_agrees A xs ys 0 s hl (le_refl _) e]
  rfl

/-- **C190.** The same for the distance. -/
theorem C190_distance (p q : List Dbl) :
    (p.length ≠ q.length → distance A p q = .ok (.inf false)) ∧
    (p.length = q.length → ∃ d, distance A p q = .ok d ∧
      (d = .nan ↔ ∃ c ∈ p.zip q, Incomparable c.1 c.2) ∧
      (d = .nan ∨ d = .inf false ∨ ∃ s, d = .num s ∧ 0 ≤ s) ∧
      ∀ s, d = .num s → ∃ xs ys, p = xs.map .num ∧ q = ys.map .num ∧
        RoundedMath.distance A.R xs ys = .ok (some s)) := by
  refine ⟨fun h => by unfold distance; rw [if_neg h], fun h => ?_⟩
  obtain ⟨d, e, n, u, f⟩ := (C190_squared A p q).2 h
  unfold distance
  rw [if_pos h, e, Out.bind_ok]
  refine ⟨_, rfl, ?_⟩
  rcases u with rfl | rfl | ⟨s, rfl, hs⟩
  · rw [show A.sqrt .nan = .nan from rfl]
    exact ⟨by rw [← n], .inl rfl, fun s h => by cases h⟩
  · rw [show A.sqrt (.inf false) = .inf false by simp [Ieee.sqrt]]
    exact ⟨by rw [← n], .inr (.inl rfl), fun s h => by cases h⟩
  · have hq : A.sqrt (.num s) = A.round (Real.sqrt s) := by
      simp only [Ieee.sqrt]; rw [if_neg (not_lt.2 hs)]
    obtain ⟨u1, u2⟩ := round_unsigned A (Real.sqrt_nonneg s)
    rw [hq]
    refine ⟨?_, u1, fun r hr => ?_⟩
    · rw [← n]; simp [u2]
    · obtain ⟨xs, ys, e1, e2, e3⟩ := f s rfl
      refine ⟨xs, ys, e1, e2, ?_⟩
      have hl : xs.length = ys.length := by rw [e1, e2] at h; simpa using h
      unfold RoundedMath.distance
      rw [if_pos hl, e3, Out.bind_ok, A.round_num hr]
      rfl

/-! ## Averages -/

theorem first_spec (weights : List Dbl) : ∀ (i : Nat), ∃ k, firstNonzero i weights = i + k ∧ k ≤ weights.length ∧
    (∀ w ∈ weights.take k, w = .num 0) ∧ (∀ h : k < weights.length, weights[k] ≠ .num 0) := by
  induction weights with
  | nil => intro i; exact ⟨0, rfl, by simp, by simp, by simp⟩
  | cons w ws ih =>
    intro i
    unfold firstNonzero
    by_cases h : w = .num 0
    · rw [if_pos h]
      obtain ⟨k, h1, h2, h3, h4⟩ := ih (i + 1)
      refine ⟨k + 1, by rw [h1]; omega, by simpa using h2, ?_, ?_⟩
      · intro v hv
        rw [List.take_succ_cons] at hv
        rcases List.mem_cons.1 hv with rfl | hv
        · exact h
        · exact h3 v hv
      · intro hk
        simpa using h4 (by simpa using hk)
    · rw [if_neg h]
      exact ⟨0, rfl, by simp, by simp, by simpa using h⟩

/-- The loop always ends with a result, if there is a weight for every value. -/
theorem averageLoop_ok (weights : List Dbl) : ∀ (rest : List Dbl) (i : Nat) (avg sum : Dbl),
    (weights = [] ∨ i + rest.length ≤ weights.length) → ∃ r, averageLoop A weights rest i avg sum = .ok r
  | [], _, avg, _, _ => ⟨avg, rfl⟩
  | c :: rest, i, avg, sum, h => by
    unfold averageLoop
    have hw : ∃ w, weightAt weights i = .ok w := by
      unfold weightAt
      rcases h with rfl | h
      · exact ⟨_, by simp; rfl⟩
      · have hi : i < weights.length := by simp at h; omega
        rw [if_pos (by omega), List.getElem?_eq_getElem hi]
        exact ⟨_, rfl⟩
    obtain ⟨w, hw⟩ := hw
    rw [hw, Out.bind_ok]
    exact averageLoop_ok weights rest (i + 1) _ _ (h.imp id fun h => by simp at h; omega)

theorem one_positive : Ieee.lt (.num 0) (.num 1) := by show (0 : ℝ) < 1; norm_num

/-- **C190.** When the average is refused: no values, a number of weights that is neither zero nor that of the values, only
weights that are zero, or a first weight other than zero that is not a number. Otherwise there is a result, whatever
the values are. -/
theorem C190_refused (values weights : List Dbl) :
    (values = [] ∨ weights ≠ [] ∧ (weights.length ≠ values.length ∨
      ∃ k, (∀ w ∈ weights.take k, w = .num 0) ∧ (weights.length ≤ k ∨ weights[k]? = some .nan)) →
      average A values weights = .abort) ∧
    (values ≠ [] → (weights ≠ [] → weights.length = values.length ∧
      ∃ k w, (∀ u ∈ weights.take k, u = .num 0) ∧ weights[k]? = some w ∧ w ≠ .num 0 ∧ w ≠ .nan) →
      ∃ r, average A values weights = .ok r) := by
  classical
  obtain ⟨k, f1, f2, f3, f4⟩ := first_spec weights 0
  rw [Nat.zero_add] at f1
  have uniq : ∀ j w, (∀ u ∈ weights.take j, u = Dbl.num 0) → weights[j]? = some w → w ≠ .num 0 → j = k := by
    intro j w h1 h2 h3
    obtain ⟨hj, e⟩ := List.getElem?_eq_some_iff.1 h2
    rcases Nat.lt_trichotomy j k with h | h | h
    · exact absurd (f3 w (List.mem_take_iff_getElem.2 ⟨j, by omega, e⟩)) h3
    · exact h
    · have hk : k < weights.length := by omega
      exact absurd (h1 weights[k] (List.mem_take_iff_getElem.2 ⟨k, by omega, rfl⟩)) (f4 hk)
  constructor
  · intro h
    unfold average
    by_cases hv : 0 < values.length
    · rw [Out.assert_true hv, Out.bind_ok]
      have h' := h.resolve_left (by rintro rfl; simp at hv)
      obtain ⟨hw, h⟩ := h'
      by_cases hl : weights.length = values.length
      · rw [Out.assert_true (.inl hl), Out.bind_ok]
        obtain ⟨j, h1, h2⟩ := h.resolve_left (not_not.2 hl)
        dsimp only
        rw [f1]
        by_cases hk : k < values.length
        · rw [Out.assert_true hk, Out.bind_ok]
          have hkw : k < weights.length := by omega
          have hj : j = k := by
            rcases h2 with h2 | h2
            · exact absurd (h1 weights[k] (List.mem_take_iff_getElem.2 ⟨k, by omega, rfl⟩)) (f4 hkw)
            · exact uniq j _ h1 h2 (by simp)
          subst hj
          have h2 := h2.resolve_left (by omega)
          rw [List.getElem?_eq_getElem hk]
          dsimp only
          unfold weightAt
          rw [if_pos (by omega), h2]
          dsimp only
          rw [Out.bind_ok, Out.assert_false (by simp [Ieee.abs, Ieee.lt])]
          rfl
        · rw [Out.assert_false hk]; rfl
      · rw [Out.assert_false (by
          rintro (h | h)
          · exact hl h
          · exact hw (List.length_eq_zero_iff.1 h))]
        rfl
    · rw [Out.assert_false hv]; rfl
  · intro hv hw
    have hv' : 0 < values.length := List.length_pos_iff.2 hv
    unfold average
    rw [Out.assert_true hv', Out.bind_ok]
    by_cases hz : weights = []
    · subst hz
      rw [Out.assert_true (.inr rfl), Out.bind_ok]
      have hk : k = 0 := by simpa using f2
      subst hk
      dsimp only
      rw [f1, Out.assert_true hv', Out.bind_ok, List.getElem?_eq_getElem hv']
      dsimp only
      rw [show weightAt [] 0 = .ok (.num 1) from rfl, Out.bind_ok,
        Out.assert_true one_positive, Out.bind_ok]
      exact averageLoop_ok A [] _ _ _ _ (.inl rfl)
    · obtain ⟨hl, j, w, h1, h2, h3, h4⟩ := hw hz
      obtain rfl := uniq j w h1 h2 h3
      obtain ⟨hj, e⟩ := List.getElem?_eq_some_iff.1 h2
      have hjv : j < values.length := by omega
      rw [Out.assert_true (.inl hl), Out.bind_ok]
      dsimp only
      rw [f1, Out.assert_true hjv, Out.bind_ok, List.getElem?_eq_getElem hjv]
      dsimp only
      have hwt : weightAt weights j = .ok (Ieee.abs w) := by
        unfold weightAt
        rw [if_pos (by omega), h2]
      have hpos : Ieee.lt (.num 0) (Ieee.abs w) := by
        cases w with
        | nan => exact absurd rfl h4
        | inf s => exact rfl
        | num x => exact abs_pos.2 fun h => h3 (by rw [h])
      rw [hwt, Out.bind_ok, Out.assert_true hpos, Out.bind_ok]
      exact averageLoop_ok A weights _ _ _ _ (.inr (by simp; omega))

theorem div_inf_not (a : Dbl) (s : Bool) (h : ¬ a.Finite) : ¬ (A.div a (.inf s)).Finite := by
  cases a with
  | nan => rintro ⟨_, h⟩; cases h
  | inf t => rintro ⟨_, h⟩; cases h
  | num x => exact absurd ⟨x, rfl⟩ h

/-- A finite result comes from finite values and finite further weights. -/
theorem averageLoop_finite (weights : List Dbl) : ∀ (rest : List Dbl) (i : Nat) (avg sum : Dbl) (r : ℝ),
    averageLoop A weights rest i avg sum = .ok (.num r) →
    avg.Finite ∧ (∀ v ∈ rest, v.Finite) ∧
    (∀ j, i ≤ j → j < i + rest.length → ∃ w, weightAt weights j = .ok w ∧ w.Finite)
  | [], i, avg, sum, r, h => by
    simp only [averageLoop, Out.ok.injEq] at h
    exact ⟨⟨r, h⟩, by simp, fun j h1 h2 => by simp at h2; omega⟩
  | c :: rest, i, avg, sum, r, h => by
    unfold averageLoop at h
    obtain ⟨w, hw, h⟩ := Out.bind_eq_ok.1 h
    dsimp only at h
    obtain ⟨h1, h2, h3⟩ := averageLoop_finite weights rest (i + 1) _ _ r h
    obtain ⟨k1, k2⟩ := A.add_finite h1
    obtain ⟨k3, k4⟩ := A.mul_finite k2
    obtain ⟨k5, _⟩ := A.sub_finite k4
    have kw : w.Finite := by
      cases w with
      | nan => obtain ⟨_, h⟩ := k3; cases h
      | inf s =>
        exfalso
        obtain ⟨z, hz⟩ := k3
        cases sum with
        | nan => cases hz
        | inf t =>
          simp only [Ieee.add] at hz
          split at hz <;> cases hz
        | num y => cases hz
      | num x => exact ⟨x, rfl⟩
    refine ⟨k1, ?_, ?_⟩
    · intro v hv
      rcases List.mem_cons.1 hv with rfl | hv
      · exact k5
      · exact h2 v hv
    · intro j hj1 hj2
      by_cases hij : j = i
      · rw [hij]; exact ⟨w, hw, kw⟩
      · exact h3 j (by omega) (by simp at hj2; omega)

/-- **C190.** If an average is a number, then so is every value from the first on whose weight is not zero, even those
whose own weight is zero, and every weight after it. Values in front of it do not matter. -/
theorem C190_finite (values weights : List Dbl) (r : ℝ) (h : average A values weights = .ok (.num r)) :
    (weights = [] → ∀ v ∈ values, v.Finite) ∧
    (∀ k w, (∀ u ∈ weights.take k, u = .num 0) → weights[k]? = some w → w ≠ .num 0 →
      (∀ v ∈ values.drop k, v.Finite) ∧ ∀ u ∈ weights.drop (k + 1), u.Finite) := by
  obtain ⟨k, f1, f2, f3, f4⟩ := first_spec weights 0
  rw [Nat.zero_add] at f1
  unfold average at h
  obtain ⟨_, hv, h⟩ := Out.bind_eq_ok.1 h
  obtain ⟨_, hl, h⟩ := Out.bind_eq_ok.1 h
  dsimp only at h
  rw [f1] at h
  obtain ⟨_, hk, h⟩ := Out.bind_eq_ok.1 h
  have hk' : k < values.length := Classical.byContradiction fun hn => by rw [Out.assert_false hn] at hk; cases hk
  have hl' : weights.length = values.length ∨ weights.length = 0 :=
    Classical.byContradiction fun hn => by rw [Out.assert_false hn] at hl; cases hl
  rw [List.getElem?_eq_getElem hk'] at h
  dsimp only at h
  obtain ⟨w0, hw0, h⟩ := Out.bind_eq_ok.1 h
  obtain ⟨_, _, h⟩ := Out.bind_eq_ok.1 h
  obtain ⟨g1, g2, g3⟩ := averageLoop_finite A weights _ _ _ _ r h
  have all : ∀ v ∈ values.drop k, v.Finite := by
    intro v hv
    rw [List.drop_eq_getElem_cons hk'] at hv
    rcases List.mem_cons.1 hv with rfl | hv
    · exact g1
    · exact g2 v hv
  refine ⟨?_, ?_⟩
  · rintro rfl
    have : k = 0 := by simpa using f2
    subst this
    simpa using all
  · intro j w h1 h2 h3
    obtain ⟨hj, e⟩ := List.getElem?_eq_some_iff.1 h2
    have hjk : j = k := by
      rcases Nat.lt_trichotomy j k with h | h | h
      · exact absurd (f3 w (List.mem_take_iff_getElem.2 ⟨j, by omega, e⟩)) h3
      · exact h
      · have hk : k < weights.length := by omega
        exact absurd (h1 weights[k] (List.mem_take_iff_getElem.2 ⟨k, by omega, rfl⟩)) (f4 hk)
    subst hjk
    refine ⟨all, fun u hu => ?_⟩
    obtain ⟨n, hn, e⟩ := List.mem_iff_getElem.1 hu
    rw [List.getElem_drop] at e
    rw [List.length_drop] at hn
    obtain ⟨v, hv, fv⟩ := g3 (j + 1 + n) (by omega) (by rw [List.length_drop]; omega)
    unfold weightAt at hv
    rw [if_pos (by omega), List.getElem?_eq_getElem (by omega), e] at hv
    dsimp only at hv
    cases hv
    cases u with
    | nan => obtain ⟨_, h⟩ := fv; cases h
    | inf s => obtain ⟨_, h⟩ := fv; cases h
    | num x => exact ⟨x, rfl⟩

/-- **C190.** Averages of numbers can overflow although every value is a number: with a value `M` more than half the
largest one, the average of `M` and `-M` is minus infinity, and that of `M`, `-M` and `M` is not a number. -/
theorem C190_overflow (M : ℝ) (h0 : 0 < M) (h : A.top < A.R.rd (2 * M)) :
    average A [.num M, .num (-M)] [] = .ok (.inf true) ∧
    average A [.num M, .num (-M), .num M] [] = .ok .nan := by
  classical
  have p2 : A.add (.num 1) (.num 1) = .num 2 := by
    simp only [Ieee.add]
    rw [A.round_small (by norm_num)]
    have := A.R.int 2 (by norm_num)
    norm_num at this ⊢
    exact this
  have p3 : A.add (.num 2) (.num 1) = .num 3 := by
    simp only [Ieee.add]
    rw [A.round_small (by norm_num)]
    have := A.R.int 3 (by norm_num)
    norm_num at this ⊢
    exact this
  have q : ∀ y : ℝ, 1 ≤ y → ∃ z, A.div (.num 1) (.num y) = .num z ∧ 0 < z := by
    intro y hy
    refine ⟨A.R.rd (1 / y), ?_, ?_⟩
    · simp only [Ieee.div]
      rw [if_neg (by linarith), A.round_small]
      rw [abs_of_pos (by positivity)]
      calc 1 / y ≤ 1 := by rw [div_le_one (by linarith)]; exact hy
        _ ≤ 2 ^ 64 := by norm_num
    · have : (0 : ℝ) < 1 / y := by positivity
      exact lt_of_le_of_ne (A.R.nonneg this.le) fun h => this.ne' (A.R.eq_zero.1 h.symm)
  obtain ⟨z2, d2, hz2⟩ := q 2 (by norm_num)
  obtain ⟨z3, d3, hz3⟩ := q 3 (by norm_num)
  have s1 : A.sub (.num (-M)) (.num M) = .inf true := by
    simp only [Ieee.sub]
    rw [show -M - M = -(2 * M) by ring, A.round_over, decide_eq_true (by linarith)]
    rw [A.R.odd, abs_neg]
    exact lt_of_lt_of_le h (le_abs_self _)
  have m1 : A.mul (.num z2) (.inf true) = .inf true := by
    simp only [Ieee.mul]
    rw [if_neg hz2.ne', decide_eq_false (not_lt.2 hz2.le)]
    rfl
  have m2 : A.mul (.num z3) (.inf false) = .inf false := by
    simp only [Ieee.mul]
    rw [if_neg hz3.ne', decide_eq_false (not_lt.2 hz3.le)]
    rfl
  have start : ∀ rest, average A (.num M :: rest) [] = averageLoop A [] rest 1 (.num M) (.num 1) := by
    intro rest
    unfold average
    rw [Out.assert_true (by simp), Out.bind_ok, Out.assert_true (.inr rfl), Out.bind_ok]
    dsimp only [firstNonzero]
    rw [Out.assert_true (by simp), Out.bind_ok]
    simp only [List.getElem?_cons_zero]
    rw [show weightAt [] 0 = .ok (.num 1) from rfl, Out.bind_ok,
      Out.assert_true one_positive, Out.bind_ok]
    rfl
  have w : ∀ i, weightAt [] i = .ok (.num 1) := fun i => rfl
  constructor
  · rw [start]
    simp only [averageLoop, w, Out.bind_ok, p2, d2, s1, m1]
    rfl
  · rw [start]
    simp only [averageLoop, w, Out.bind_ok, p2, d2, s1, m1, p3, d3]
    rw [show A.add (.num M) (.inf true) = .inf true from rfl, show A.sub (.num M) (.inf true) = .inf false from rfl, m2]
    rfl

theorem weightAt_map (weights : List ℝ) (hw : ∀ w ∈ weights, |w| ≤ 1) (i : Nat) (w' : Dbl)
    (h : weightAt (weights.map .num) i = .ok w') :
    ∃ w, w' = .num w ∧ Averages.weightAt weights i = .ok w ∧ 0 ≤ w ∧ w ≤ 1 := by
  unfold weightAt at h
  unfold Averages.weightAt
  rw [List.length_map] at h
  by_cases hl : weights.length ≠ 0
  · rw [if_pos hl] at h ⊢
    rw [List.getElem?_map] at h
    cases hi : weights[i]? with
    | none => rw [hi] at h; cases h
    | some w =>
      rw [hi] at h
      simp only [Option.map_some, Out.ok.injEq] at h
      exact ⟨|w|, h.symm, rfl, abs_nonneg _, hw w (List.mem_of_getElem? hi)⟩
  · rw [if_neg hl] at h ⊢
    cases h
    exact ⟨1, rfl, rfl, by norm_num, le_refl _⟩

theorem averageLoop_agrees (weights : List ℝ) (hw : ∀ w ∈ weights, |w| ≤ 1) :
    ∀ (rest : List ℝ) (i k : Nat) (avg sum r : ℝ), 0 < sum → sum ≤ k → k + rest.length ≤ 2 ^ 53 →
    averageLoop A (weights.map .num) (rest.map .num) i (.num avg) (.num sum) = .ok (.num r) →
    RoundedMath.averageLoop A.R weights rest i avg sum = .ok r
  | [], i, k, avg, sum, r, _, _, _, h => by
    simp only [List.map_nil, averageLoop, Out.ok.injEq, Dbl.num.injEq] at h
    rw [RoundedMath.averageLoop, h]
  | c :: rest, i, k, avg, sum, r, h0, hk, hn, h => by
    simp only [List.map_cons, averageLoop] at h
    obtain ⟨w', hw', h⟩ := Out.bind_eq_ok.1 h
    obtain ⟨w, rfl, e, w0, w1⟩ := weightAt_map weights hw i w' hw'
    have hk1 : (((k + 1 : Nat) : ℤ) : ℝ) = (k : ℝ) + 1 := by push_cast; ring
    have hk2 : |((k + 1 : Nat) : ℤ)| ≤ 2 ^ 53 := by
      rw [abs_of_nonneg (by omega)]
      simp only [List.length_cons] at hn
      have : k + 1 ≤ 2 ^ 53 := by omega
      exact_mod_cast this
    obtain ⟨s1, s2⟩ := small A (x := sum + w) ((k + 1 : Nat) : ℤ) hk2
      (by rw [hk1, abs_of_nonneg (by linarith)]; linarith)
    have hpos : 0 < A.R.rd (sum + w) :=
      lt_of_le_of_ne (A.R.nonneg (by linarith)) fun h => by have := A.R.eq_zero.1 h.symm; linarith
    have hsum : A.add (.num sum) (.num w) = .num (A.R.rd (sum + w)) := s1
    rw [hsum] at h
    obtain ⟨⟨z, hz⟩, _, _⟩ := averageLoop_finite A _ _ _ _ _ r h
    obtain ⟨a, b, ea, eb, ez⟩ := A.add_num hz
    cases ea
    obtain ⟨u, v, eu, ev, ew⟩ := A.mul_num eb
    have ev' := A.round_num ev
    simp only [Ieee.div] at eu
    rw [if_neg hpos.ne'] at eu
    have eu' := A.round_num eu
    rw [hz, ez, ew, ev', eu'] at h
    unfold RoundedMath.averageLoop
    rw [e, Out.bind_ok]
    dsimp only
    refine averageLoop_agrees weights hw rest (i + 1) (k + 1) _ _ r hpos ?_ (by simp at hn; omega) h
    have := le_trans (le_abs_self _) s2
    rw [hk1] at this
    push_cast
    exact this

theorem first_map (weights : List ℝ) : ∀ i, firstNonzero i (weights.map .num) = Averages.firstNonzero i weights := by
  induction weights with
  | nil => intro i; rfl
  | cons w ws ih =>
    intro i
    simp only [List.map_cons, firstNonzero, Averages.firstNonzero, Dbl.num.injEq]
    by_cases h : w = 0
    · rw [if_pos h, if_pos h]; exact ih _
    · rw [if_neg h, if_neg h]

/-- **C190.** An average of numbers that is a number is what rounding gives, for weights of at most one. -/
theorem C190_agrees (values weights : List ℝ) (hn : values.length ≤ 2 ^ 53) (hw : ∀ w ∈ weights, |w| ≤ 1) (r : ℝ)
    (h : average A (values.map .num) (weights.map .num) = .ok (.num r)) :
    RoundedMath.average A.R values weights = .ok r := by
  classical
  unfold average at h
  obtain ⟨_, hv, h⟩ := Out.bind_eq_ok.1 h
  obtain ⟨_, hl, h⟩ := Out.bind_eq_ok.1 h
  dsimp only at h
  rw [first_map] at h
  obtain ⟨_, hk, h⟩ := Out.bind_eq_ok.1 h
  rw [List.length_map] at hv hl hk
  rw [List.length_map] at hl
  have hv' : 0 < values.length := Classical.byContradiction fun hn => by rw [Out.assert_false hn] at hv; cases hv
  have hk' : Averages.firstNonzero 0 weights < values.length :=
    Classical.byContradiction fun hn => by rw [Out.assert_false hn] at hk; cases hk
  have hl' : weights.length = values.length ∨ weights.length = 0 :=
    Classical.byContradiction fun hn => by rw [Out.assert_false hn] at hl; cases hl
  unfold RoundedMath.average
  rw [Out.assert_true hv', Out.bind_ok, Out.assert_true hl', Out.bind_ok]
  dsimp only
  rw [Out.assert_true hk', Out.bind_ok, List.getElem?_eq_getElem hk']
  rw [List.getElem?_map, List.getElem?_eq_getElem hk'] at h
  simp only [Option.map_some] at h
  dsimp only
  obtain ⟨w', hw', h⟩ := Out.bind_eq_ok.1 h
  obtain ⟨w, rfl, e, w0, w1⟩ := weightAt_map weights hw _ w' hw'
  obtain ⟨_, hp, h⟩ := Out.bind_eq_ok.1 h
  have hp' : 0 < w := Classical.byContradiction fun hn => by
    rw [Out.assert_false (show ¬ Ieee.lt (.num 0) (.num w) from hn)] at hp; cases hp
  rw [e, Out.bind_ok, Out.assert_true hp', Out.bind_ok]
  rw [← List.map_drop] at h
  refine averageLoop_agrees A weights hw _ _ 1 _ w r hp' (by simpa using w1) ?_ h
  rw [List.length_drop]
  omega

/-! ## Standard deviations -/

theorem deviationLoop_special (mean : Dbl) : ∀ (values : List Dbl) (sum : Dbl), Unsigned sum →
    Unsigned (deviationLoop A mean sum values) ∧
      (deviationLoop A mean sum values = .nan ↔ sum = .nan ∨ ∃ v ∈ values, Incomparable mean v) ∧
      ((deviationLoop A mean sum values).Finite → ∀ v ∈ values, v.Finite ∧ mean.Finite) ∧
      ((deviationLoop A mean sum values).Finite → sum.Finite)
  | [], sum, h => ⟨h, by simp [deviationLoop], by simp, id⟩
  | v :: values, sum, hs => by
    obtain ⟨s1, s2, s3⟩ := square_unsigned A (A.sub v mean)
    obtain ⟨t1, t2⟩ := add_unsigned A hs s1
    obtain ⟨u, n, f, g⟩ := deviationLoop_special mean values _ t1
    unfold deviationLoop
    refine ⟨u, ?_, fun hd => ?_, fun hd => (A.add_finite (g hd)).1⟩
    · rw [n, t2, s2, sub_incomparable]
      simp only [List.mem_cons, exists_eq_or_imp]
      exact or_assoc
    · intro c hc
      rcases List.mem_cons.1 hc with rfl | hc
      · exact A.sub_finite (s3 (A.add_finite (g hd)).2)
      · exact f hd c hc

/-- **C190.** The standard deviation about a given mean: refused for no values, zero for one value, whatever it and the
mean are, and otherwise not a number exactly if a value and the mean are incomparable. It is never negative, and a
number only if the mean and all values are. -/
theorem C190_deviation_given (values : List Dbl) (mean : Dbl) (hn : values.length ≤ 2 ^ 53) :
    (values = [] → stdDevWithMean A values mean = .abort) ∧
    (values.length = 1 → stdDevWithMean A values mean = .ok (.num 0)) ∧
    (2 ≤ values.length → ∃ d, stdDevWithMean A values mean = .ok d ∧
      (d = .nan ↔ ∃ v ∈ values, Incomparable mean v) ∧
      (d = .nan ∨ d = .inf false ∨ ∃ s, d = .num s ∧ 0 ≤ s) ∧
      (d.Finite → mean.Finite ∧ ∀ v ∈ values, v.Finite)) := by
  refine ⟨by rintro rfl; rfl, fun h => ?_, fun h => ?_⟩
  · unfold stdDevWithMean
    rw [Out.assert_true (by omega), Out.bind_ok, if_pos h]
  · obtain ⟨u, n, f, _⟩ := deviationLoop_special A mean values (.num 0) (.inr (.inr ⟨0, rfl, le_refl _⟩))
    have hm1 : (1 : ℝ) ≤ ((values.length - 1 : Nat) : ℝ) := by exact_mod_cast (by omega : 1 ≤ values.length - 1)
    have hr : A.R.rd ((values.length - 1 : Nat) : ℝ) = ((values.length - 1 : Nat) : ℝ) := by
      have := A.R.int ((values.length - 1 : Nat) : ℤ) (by
        rw [abs_of_nonneg (by omega)]
        exact_mod_cast (by omega : values.length - 1 ≤ 2 ^ 53))
      simpa using this
    have hround : A.round ((values.length - 1 : Nat) : ℝ) = .num ((values.length - 1 : Nat) : ℝ) := by
      rw [A.round_small, hr]
      rw [abs_of_nonneg (by linarith)]
      exact_mod_cast (by omega : values.length - 1 ≤ 2 ^ 64)
    have hdiv : ∃ c, A.div (.num 1) (A.round ((values.length - 1 : Nat) : ℝ)) = .num c ∧ 0 < c := by
      rw [hround]
      generalize ((values.length - 1 : Nat) : ℝ) = m at *
      have hp : (0 : ℝ) < 1 / m := by positivity
      refine ⟨A.R.rd (1 / m), ?_, lt_of_le_of_ne (A.R.nonneg hp.le) fun h => hp.ne' (A.R.eq_zero.1 h.symm)⟩
      simp only [Ieee.div]
      rw [if_neg (by linarith), A.round_small]
      rw [abs_of_pos hp]
      calc 1 / m ≤ 1 := by rw [div_le_one (by linarith)]; exact hm1
        _ ≤ 2 ^ 64 := by norm_num
    obtain ⟨c, hc, c0⟩ := hdiv
    unfold stdDevWithMean
    rw [Out.assert_true (by omega), Out.bind_ok, if_neg (by omega)]
    dsimp only
    rw [hc]
    refine ⟨_, rfl, ?_⟩
    have hne : values ≠ [] := by rintro rfl; simp at h
    generalize deviationLoop A mean (.num 0) values = s at *
    have nan_iff : s = .nan ↔ ∃ v ∈ values, Incomparable mean v := by rw [n]; simp
    have fin : s.Finite → mean.Finite ∧ ∀ v ∈ values, v.Finite := by
      intro hs
      refine ⟨?_, fun v hv => (f hs v hv).1⟩
      obtain ⟨v, hv⟩ := List.exists_mem_of_ne_nil _ hne
      exact (f hs v hv).2
    rcases u with rfl | rfl | ⟨x, rfl, hx⟩
    · rw [nan_mul, show A.sqrt .nan = .nan from rfl]
      exact ⟨nan_iff, .inl rfl, fun ⟨_, h⟩ => by cases h⟩
    · have hmul : A.mul (.inf false) (.num c) = .inf false := by
        simp only [Ieee.mul]
        rw [if_neg c0.ne', decide_eq_false (not_lt.2 c0.le)]
        rfl
      rw [hmul, show A.sqrt (.inf false) = .inf false by simp [Ieee.sqrt]]
      exact ⟨nan_iff, .inr (.inl rfl), fun ⟨_, h⟩ => by cases h⟩
    · have key : Unsigned (A.sqrt (A.mul (.num x) (.num c))) ∧ A.sqrt (A.mul (.num x) (.num c)) ≠ .nan := by
        simp only [Ieee.mul]
        obtain ⟨u1, u2⟩ := round_unsigned A (mul_nonneg hx c0.le)
        rcases u1 with h | h | ⟨y, h, hy⟩
        · exact absurd h u2
        · rw [h]; simp [Ieee.sqrt, Unsigned]
        · rw [h]
          simp only [Ieee.sqrt]
          rw [if_neg (not_lt.2 hy)]
          exact round_unsigned A (Real.sqrt_nonneg y)
      refine ⟨?_, key.1, fun _ => fin ⟨x, rfl⟩⟩
      rw [← nan_iff]
      exact iff_of_false key.2 (by simp)

/-- **C190.** The standard deviation: a single value has deviation zero even if it is not a number; with more values,
the result is a number only if all values are. -/
theorem C190_deviation (values : List Dbl) (hn : values.length ≤ 2 ^ 53) :
    (values = [] → stdDev A values = .abort) ∧
    (values.length = 1 → stdDev A values = .ok (.num 0)) ∧
    (2 ≤ values.length → ∃ d, stdDev A values = .ok d ∧
      (d = .nan ∨ d = .inf false ∨ ∃ s, d = .num s ∧ 0 ≤ s) ∧
      (d.Finite → ∀ v ∈ values, v.Finite)) := by
  have mean : values ≠ [] → ∃ m, average A values [] = .ok m := fun h =>
    (C190_refused A values []).2 h fun h => absurd rfl h
  refine ⟨by rintro rfl; rfl, fun h => ?_, fun h => ?_⟩
  · obtain ⟨m, hm⟩ := mean (by rintro rfl; simp at h)
    unfold stdDev
    rw [hm, Out.bind_ok]
    exact (C190_deviation_given A values m hn).2.1 h
  · obtain ⟨m, hm⟩ := mean (by rintro rfl; simp at h)
    obtain ⟨d, e, _, u, f⟩ := (C190_deviation_given A values m hn).2.2 h
    unfold stdDev
    rw [hm, Out.bind_ok]
    exact ⟨d, e, u, fun hd => (f hd).2⟩

theorem deviationLoop_agrees (mean : ℝ) : ∀ (values : List ℝ) (sum s : ℝ), 0 ≤ sum →
    deviationLoop A (.num mean) (.num sum) (values.map .num) = .num s →
    RoundedMath.deviationLoop A.R mean sum values = s
  | [], sum, s, _, h => by
    simp only [List.map_nil, deviationLoop, Dbl.num.injEq] at h
    rw [RoundedMath.deviationLoop, h]
  | v :: values, sum, s, h0, h => by
    simp only [List.map_cons, deviationLoop] at h
    obtain ⟨s1, _, _⟩ := square_unsigned A (A.sub (.num v) (.num mean))
    obtain ⟨t1, _⟩ := add_unsigned A (.inr (.inr ⟨sum, rfl, h0⟩)) s1
    obtain ⟨_, _, _, g⟩ := deviationLoop_special A (.num mean) (values.map .num) _ t1
    obtain ⟨z, hz⟩ := g ⟨s, h⟩
    obtain ⟨a, b, ea, eb, ez⟩ := A.add_num hz
    cases ea
    obtain ⟨u, w, eu, ev, ew⟩ := A.mul_num eb
    rw [eu] at ev
    cases ev
    have eu' := A.round_num eu
    rw [hz, ez, ew, eu'] at h
    unfold RoundedMath.deviationLoop
    have hb : 0 ≤ A.R.rd (A.R.rd (v - mean) * A.R.rd (v - mean)) := A.R.nonneg (mul_self_nonneg _)
    exact deviationLoop_agrees mean values _ s (A.R.nonneg (add_nonneg h0 hb)) h

/-- **C190.** A standard deviation of numbers that is a number is what rounding gives. -/
theorem C190_deviation_agrees (values : List ℝ) (hn : values.length ≤ 2 ^ 53) (s : ℝ) :
    (∀ m, stdDevWithMean A (values.map .num) (.num m) = .ok (.num s) →
      RoundedMath.stdDevWithMean A.R values m = .ok s) ∧
    (2 ≤ values.length → stdDev A (values.map .num) = .ok (.num s) → RoundedMath.stdDev A.R values = .ok s) := by
  have given : ∀ m, stdDevWithMean A (values.map .num) (.num m) = .ok (.num s) →
      RoundedMath.stdDevWithMean A.R values m = .ok s := by
    intro m h
    unfold stdDevWithMean at h
    unfold RoundedMath.stdDevWithMean
    rw [List.length_map] at h
    by_cases hv : 0 < values.length
    · rw [Out.assert_true hv, Out.bind_ok] at h ⊢
      by_cases h1 : values.length = 1
      · rw [if_pos h1] at h ⊢
        cases h
        rfl
      · rw [if_neg h1] at h ⊢
        dsimp only at h ⊢
        obtain ⟨u, _, _, _⟩ := deviationLoop_special A (.num m) (values.map .num) (.num 0)
          (.inr (.inr ⟨0, rfl, le_refl _⟩))
        have hsq : ∀ d : Dbl, A.sqrt d = .num s → ∃ x, d = .num x ∧ s = A.R.rd (Real.sqrt x) := by
          intro d hd
          cases d with
          | nan => cases hd
          | inf t => cases t <;> simp [Ieee.sqrt] at hd
          | num x =>
            simp only [Ieee.sqrt] at hd
            split at hd
            · cases hd
            · exact ⟨x, rfl, A.round_num hd⟩
        obtain ⟨x, hx, hs⟩ := hsq _ (by injection h)
        obtain ⟨a, b, ea, eb, ex⟩ := A.mul_num hx
        have e1 := deviationLoop_agrees A m values 0 a (le_refl _) ea
        have hm1 : (1 : ℝ) ≤ ((values.length - 1 : Nat) : ℝ) := by exact_mod_cast (by omega : 1 ≤ values.length - 1)
        have hr : A.R.rd ((values.length - 1 : Nat) : ℝ) = ((values.length - 1 : Nat) : ℝ) := by
          have := A.R.int ((values.length - 1 : Nat) : ℤ) (by
            rw [abs_of_nonneg (by omega)]
            exact_mod_cast (by omega : values.length - 1 ≤ 2 ^ 53))
          simpa using this
        have hround : A.round ((values.length - 1 : Nat) : ℝ) = .num ((values.length - 1 : Nat) : ℝ) := by
          rw [A.round_small, hr]
          rw [abs_of_nonneg (by linarith)]
          exact_mod_cast (by omega : values.length - 1 ≤ 2 ^ 64)
        rw [hround] at eb
        simp only [Ieee.div] at eb
        rw [if_neg (by linarith)] at eb
        have e2 := A.round_num eb
        rw [e1, hr, ← e2, ← ex, ← hs]
    · rw [Out.assert_false hv] at h; cases h
  refine ⟨given, fun h2 h => ?_⟩
  have hm := h
  unfold stdDev at hm
  obtain ⟨m, h1, h3⟩ := Out.bind_eq_ok.1 hm
  obtain ⟨d, e, _, _, f⟩ := (C190_deviation_given A (values.map .num) m (by simpa using hn)).2.2 (by simpa using h2)
  rw [h3] at e
  cases e
  obtain ⟨⟨x, rfl⟩, _⟩ := f ⟨s, rfl⟩
  unfold RoundedMath.stdDev
  rw [C190_agrees A values [] hn (by simp) x (by simpa using h1), Out.bind_ok]
  exact given x h3

/-! ## Cases that meet the hypotheses -/

/-- Two incomparable coordinates among others: the distance is not a number. -/
example : ∃ d, distance exIeee [.num 1, .inf true] [.inf false, .inf true] = .ok d ∧ d = .nan := by
  obtain ⟨d, h1, h2, _⟩ := (C190_distance exIeee [.num 1, .inf true] [.inf false, .inf true]).2 rfl
  exact ⟨d, h1, h2.2 ⟨(.inf true, .inf true), by simp, .inr (.inr ⟨_, rfl, rfl⟩)⟩⟩

/-- A value that is not a number does not matter in front, if its weight is zero. -/
example : ∃ r, average exIeee [.nan, .num 3] [.num 0, .num 1] = .ok r ∧ r = .num 3 := by
  classical
  refine ⟨_, ?_, rfl⟩
  unfold average
  rw [Out.assert_true (by simp), Out.bind_ok, Out.assert_true (.inl rfl), Out.bind_ok]
  have : firstNonzero 0 [Dbl.num 0, .num 1] = 1 := by simp [firstNonzero]
  dsimp only
  rw [this, Out.assert_true (by simp), Out.bind_ok]
  simp only [List.getElem?_cons_succ, List.getElem?_cons_zero]
  rw [show weightAt [Dbl.num 0, .num 1] 1 = .ok (.num 1) by simp [weightAt, Ieee.abs], Out.bind_ok,
    Out.assert_true one_positive, Out.bind_ok]
  rfl

/-- A number more than half the largest one. -/
example : exIeee.top < exIeee.R.rd (2 * (2 : ℝ) ^ (1023 : ℤ)) := by
  rw [show (2 : ℝ) * 2 ^ (1023 : ℤ) = ((1 : ℤ) : ℝ) * 2 ^ (1024 : ℤ) by
    rw [Int.cast_one, one_mul, show (1024 : ℤ) = 1 + 1023 from rfl, zpow_add₀ (by norm_num), zpow_one]]
  rw [exIeee.R.fixed 1 1024 (by norm_num), Int.cast_one, one_mul]
  exact sub_lt_self _ (by positivity)

end Verif.MathSpecial
