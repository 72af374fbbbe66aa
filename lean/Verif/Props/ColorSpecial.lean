import Verif.Spec.ColorSpecial

/-!
# Properties of colors with infinite values and values that are not a number: C201
-/
namespace Verif.ColorSpecial
open Verif Verif.Colors

theorem channel_bounds (v : Dbl) : 0 ≤ channel v ∧ channel v ≤ 1 := by
  cases v with
  | nan => simp [channel]
  | inf s => cases s <;> simp [channel]
  | num x => exact ⟨le_max_left _ _, max_le zero_le_one (min_le_left _ _)⟩

theorem channel_shade (v : Dbl) : Shade (.num (channel v)) := ⟨_, rfl, channel_bounds v⟩

/-- **C201, channels.** A value is cut off at 0 and 1, infinities too; what is not a number becomes 0. -/
theorem C201_trim (v : Dbl) : trim v = .ok (.num (channel v)) := by
  classical
  unfold trim clampValue
  rw [Out.assert_true (show Ieee.le (.num 0) (.num 1) from zero_le_one)]
  simp only [Out.bind_ok, Out.ok.injEq]
  unfold MathSpecial.stdMin stdMax
  cases v with
  | nan => simp [Ieee.lt, channel]
  | inf s => cases s <;> simp [Ieee.lt, channel]
  | num x =>
    simp only [channel]
    by_cases h0 : 0 < x
    · rw [if_pos (show Ieee.lt (.num 0) (.num x) from h0)]
      by_cases h1 : x < 1
      · rw [if_pos (show Ieee.lt (.num x) (.num 1) from h1), min_eq_right h1.le, max_eq_right h0.le]
      · rw [if_neg (show ¬ Ieee.lt (.num x) (.num 1) from h1), min_eq_left (not_lt.1 h1), max_eq_right zero_le_one]
    · rw [if_neg (show ¬ Ieee.lt (.num 0) (.num x) from h0),
        if_pos (show Ieee.lt (.num 0) (.num 1) from zero_lt_one (α := ℝ)),
        max_eq_left ((min_le_right _ _).trans (not_lt.1 h0))]

/-- **C201, colors from floats.** -/
theorem C201_make (r g b a : Dbl) : makeFromFloatColors r g b a =
      .ok ⟨.num (channel r), .num (channel g), .num (channel b), .num (channel a)⟩ ∧
    Valid ⟨.num (channel r), .num (channel g), .num (channel b), .num (channel a)⟩ := by
  refine ⟨?_, channel_shade _, channel_shade _, channel_shade _, channel_shade _⟩
  unfold makeFromFloatColors
  simp only [C201_trim, Out.bind_ok]

variable (A : Ieee) (F : Single)

theorem single_one : F.rd 1 = 1 := by simpa using F.whole 1 (by norm_num)

theorem single_zero : F.rd 0 = 0 := by simpa using F.whole 0 (by norm_num)

theorem single_small {x : ℝ} (h : |F.rd x| ≤ 2 ^ 64) : F.round x = .num (F.rd x) := by
  unfold Single.round
  rw [if_pos (h.trans F.large)]

theorem conv_zero : F.conv (.num 0) = .num 0 := by
  show F.round 0 = _
  rw [single_small F (by rw [single_zero]; norm_num), single_zero]

theorem conv_one : F.conv (.num 1) = .num 1 := by
  show F.round 1 = _
  rw [single_small F (by rw [single_one]; norm_num), single_one]

/-- **C201, bytes.** `ColorChannelToHex` is defined for every `float`. It gives 0 for what is not a number, for minus
infinity and up to 0, and 255 for infinity and from 1 on. -/
theorem C201_to_hex (v : Dbl) :
    ∃ h, channelToHex F v = .ok h ∧ (channel v = 0 → h = 0) ∧ (channel v = 1 → h = 255) := by
  have hb := channel_bounds v
  have h255 : F.rd 255 = 255 := by simpa using F.whole 255 (by norm_num)
  have l : 0 ≤ F.rd (channel v * 255) := by
    have := F.mono (x := 0) (y := channel v * 255) (by linarith)
    rwa [single_zero] at this
  have u : F.rd (channel v * 255) ≤ 255 := by
    have := F.mono (x := channel v * 255) (y := 255) (by linarith)
    rwa [h255] at this
  have hm : F.mul (.num (channel v)) (.num 255) = .num (F.rd (channel v * 255)) := by
    show F.round _ = _
    rw [single_small F]
    rw [abs_of_nonneg l]
    exact u.trans (by norm_num)
  have hr0 : 0 ≤ roundAway (F.rd (channel v * 255)) := by
    unfold roundAway
    rw [if_pos l]
    exact Int.floor_nonneg.2 (by linarith)
  have hr1 : roundAway (F.rd (channel v * 255)) < 256 := by
    unfold roundAway
    rw [if_pos l]
    apply Int.floor_lt.2
    norm_num
    linarith
  refine ⟨BitVec.ofInt 8 (roundAway (F.rd (channel v * 255))), ?_, ?_, ?_⟩
  · unfold channelToHex
    rw [C201_trim, Out.bind_ok, hm]
    simp only [toUint8]
    rw [if_pos ⟨hr0, hr1⟩]
  · intro h
    have : roundAway (F.rd (channel v * 255)) = 0 := by
      rw [h, zero_mul, single_zero]
      unfold roundAway
      norm_num
    rw [this]
    rfl
  · intro h
    have : roundAway (F.rd (channel v * 255)) = 255 := by
      rw [h, one_mul, h255]
      unfold roundAway
      norm_num
    rw [this]
    rfl

/-! ## Multiply -/

/-- **C201, products.** `Multiply` trims the products and copies alpha, whatever it is. A factor that is not a number
gives black; an infinite factor makes every channel of a valid color that is not 0 full, and keeps those that are. -/
theorem C201_multiply (c : Color Dbl) (factor : Dbl) :
    multiply F c factor = .ok ⟨.num (channel (F.mul factor c.r)), .num (channel (F.mul factor c.g)),
      .num (channel (F.mul factor c.b)), c.a⟩ ∧
    multiply F c .nan = .ok ⟨.num 0, .num 0, .num 0, c.a⟩ ∧
    (∀ r g b : ℝ, 0 ≤ r → 0 ≤ g → 0 ≤ b → multiply F ⟨.num r, .num g, .num b, c.a⟩ (.inf false) =
      .ok ⟨.num (if r = 0 then 0 else 1), .num (if g = 0 then 0 else 1), .num (if b = 0 then 0 else 1), c.a⟩) := by
  have key : ∀ (c : Color Dbl) (factor : Dbl), multiply F c factor =
      .ok ⟨.num (channel (F.mul factor c.r)), .num (channel (F.mul factor c.g)),
      .num (channel (F.mul factor c.b)), c.a⟩ := by
    intro c factor
    unfold multiply
    simp only [C201_trim, Out.bind_ok]
  refine ⟨key c factor, ?_, ?_⟩
  · rw [key]
    simp [Single.mul, channel]
  · intro r g b hr hg hb
    have h : ∀ x : ℝ, 0 ≤ x → channel (F.mul (.inf false) (.num x)) = if x = 0 then 0 else 1 := by
      intro x hx
      unfold Single.mul
      by_cases h0 : x = 0
      · simp [h0, channel]
      · simp [h0, channel, not_lt.2 hx]
    rw [key]
    simp only [h r hr, h g hg, h b hb]

/-- what the trimmed product of a factor and a channel is -/
noncomputable def product (factor v : Dbl) : ℝ := channel (F.mul factor v)

open Classical in
/-- **C201, factors and channels.** The product of any factor and any channel, after trimming: 0 if one of them is not a
number or one is 0 and the other infinite; otherwise 1 if one is infinite and they have the same sign, and 0 if they have
not; for two numbers the rounded product between 0 and 1, where a product that is too large counts as infinite. -/
theorem C201_product (c : Color Dbl) (factor : Dbl) :
    multiply F c factor = .ok ⟨.num (product F factor c.r), .num (product F factor c.g), .num (product F factor c.b), c.a⟩ ∧
    ∀ s t (x y : ℝ),
      product F .nan (.num x) = 0 ∧ product F (.num x) .nan = 0 ∧ product F .nan .nan = 0 ∧
      product F (.inf s) .nan = 0 ∧ product F .nan (.inf s) = 0 ∧
      product F (.inf s) (.inf t) = (if s = t then 1 else 0) ∧
      product F (.num x) (.inf false) = (if 0 < x then 1 else 0) ∧
      product F (.num x) (.inf true) = (if x < 0 then 1 else 0) ∧
      product F (.inf false) (.num x) = (if 0 < x then 1 else 0) ∧
      product F (.inf true) (.num x) = (if x < 0 then 1 else 0) ∧
      product F (.num x) (.num y) = (if |F.rd (x * y)| ≤ F.top then max 0 (min 1 (F.rd (x * y))) else
        if x * y < 0 then 0 else 1) := by
  refine ⟨(C201_multiply F c factor).1, fun s t x y => ⟨rfl, rfl, rfl, rfl, rfl, ?_, ?_, ?_, ?_, ?_, ?_⟩⟩
  · cases s <;> cases t <;> simp [product, Single.mul, channel]
  · rcases lt_trichotomy x 0 with h | h | h
    · simp [product, Single.mul, channel, h, h.ne, not_lt.2 h.le]
    · simp [product, Single.mul, channel, h]
    · simp [product, Single.mul, channel, h, h.ne', not_lt.2 h.le]
  · rcases lt_trichotomy x 0 with h | h | h
    · simp [product, Single.mul, channel, h, h.ne]
    · simp [product, Single.mul, channel, h]
    · simp [product, Single.mul, channel, h.ne', not_lt.2 h.le]
  · rcases lt_trichotomy x 0 with h | h | h
    · simp [product, Single.mul, channel, h, h.ne, not_lt.2 h.le]
    · simp [product, Single.mul, channel, h]
    · simp [product, Single.mul, channel, h, h.ne', not_lt.2 h.le]
  · rcases lt_trichotomy x 0 with h | h | h
    · simp [product, Single.mul, channel, h, h.ne]
    · simp [product, Single.mul, channel, h]
    · simp [product, Single.mul, channel, h.ne', not_lt.2 h.le]
  · unfold product Single.mul
    simp only
    unfold Single.round
    split
    · rfl
    · by_cases h : x * y < 0 <;> simp [channel, h]

/-! ## InterpolateColor -/

theorem interpolate_eq (c1 c2 : Color Dbl) (ratio : Dbl) :
    interpolateColor A F c1 c2 ratio = .ok (⟨.num (channel (mix A F c1.r c2.r (realRatio ratio).1)),
      .num (channel (mix A F c1.g c2.g (realRatio ratio).1)), .num (channel (mix A F c1.b c2.b (realRatio ratio).1)),
      .num (channel (mix A F c1.a c2.a (realRatio ratio).1))⟩, (realRatio ratio).2) := by
  unfold interpolateColor
  simp only [C201_trim, Out.bind_ok]

theorem add_nan (a : Dbl) : A.add a .nan = .nan := by cases a <;> rfl

theorem mul_nan (a : Dbl) : A.mul a .nan = .nan := by cases a <;> rfl

/-- **C201, mixtures.** The result is a valid color for any colors and any ratio. A ratio that is not a number gives
transparent black without a message. Ratios outside of [0, 1], infinite ones too, act as 0 and 1, with a message. -/
theorem C201_interpolate (c1 c2 : Color Dbl) (ratio : Dbl) :
    (∃ c m, interpolateColor A F c1 c2 ratio = .ok (c, m) ∧ Valid c ∧
      (m = true ↔ Ieee.lt ratio (.num 0) ∨ Ieee.lt (.num 1) ratio) ∧
      (Ieee.lt ratio (.num 0) → interpolateColor A F c1 c2 (.num 0) = .ok (c, false)) ∧
      (Ieee.lt (.num 1) ratio → interpolateColor A F c1 c2 (.num 1) = .ok (c, false))) ∧
    interpolateColor A F c1 c2 .nan = .ok (nothing, false) := by
  have r0 : realRatio (.num 0) = (.num 0, false) := by
    simp [realRatio, Ieee.lt, not_lt.2 (zero_le_one (α := ℝ))]
  have r1 : realRatio (.num 1) = (.num 1, false) := by
    simp [realRatio, Ieee.lt, not_lt.2 (zero_le_one (α := ℝ))]
  constructor
  · refine ⟨_, _, interpolate_eq A F c1 c2 ratio,
      ⟨channel_shade _, channel_shade _, channel_shade _, channel_shade _⟩, ?_, ?_, ?_⟩
    · unfold realRatio
      split
      · next h => simp [h]
      · next h =>
        split
        · next h' => simp [h']
        · next h' => simp [h, h']
    · intro h
      have : realRatio ratio = (.num 0, true) := by unfold realRatio; rw [if_pos h]
      rw [interpolate_eq, r0, this]
    · intro h
      have hn : ¬ Ieee.lt ratio (.num 0) := by
        cases ratio with
        | nan => exact id
        | inf s => simp only [Ieee.lt] at h ⊢; simp [h]
        | num x => simp only [Ieee.lt] at h ⊢; linarith
      have : realRatio ratio = (.num 1, true) := by unfold realRatio; rw [if_neg hn, if_pos h]
      rw [interpolate_eq, r1, this]
  · have : realRatio .nan = (.nan, false) := by simp [realRatio, Ieee.lt]
    have hm : ∀ x y, mix A F x y .nan = .nan := by
      intro x y
      unfold mix
      rw [mul_nan, add_nan]
      rfl
    rw [interpolate_eq, this]
    simp only [hm]
    rfl

/-- One end of a mixture: the other color still counts. -/
theorem mix_end (x : ℝ) (hx : Exact A F x) (h1 : 0 ≤ x ∧ x ≤ 1) (y : Dbl) :
    channel (mix A F (.num x) y (.num 0)) = (match y with | .num _ => x | _ => 0) ∧
    channel (mix A F y (.num x) (.num 1)) = (match y with | .num _ => x | _ => 0) := by
  have o : A.sub (.num 1) (.num 0) = .num 1 := by
    show A.round (1 - 0) = _
    rw [sub_zero, A.round_small (by norm_num), A.R.fp_one]
  have z : A.sub (.num 1) (.num 1) = .num 0 := by
    show A.round (1 - 1) = _
    rw [sub_self, A.round_small (by norm_num), A.R.zero]
  have small : |x| ≤ 2 ^ 64 := by rw [abs_of_nonneg h1.1]; exact h1.2.trans (by norm_num)
  have rx : A.round x = .num x := by rw [A.round_small small, hx.1]
  have m1 : A.mul (.num x) (.num 1) = .num x := by
    show A.round (x * 1) = _
    rw [mul_one, rx]
  have m0 : ∀ y : ℝ, A.mul (.num y) (.num 0) = .num 0 := by
    intro y
    show A.round (y * 0) = _
    rw [mul_zero, A.round_small (by norm_num), A.R.zero]
  have cx : F.conv (.num x) = .num x := by
    show F.round x = _
    rw [single_small F (by rw [hx.2]; exact small), hx.2]
  have hc : channel (.num x) = x := by
    simp only [channel]
    rw [min_eq_right h1.2, max_eq_right h1.1]
  unfold mix
  rw [o, z, m1]
  cases y with
  | nan => exact ⟨rfl, rfl⟩
  | inf s =>
    have mi : A.mul (.inf s) (.num 0) = .nan := by simp [Ieee.mul]
    rw [mi]
    exact ⟨rfl, rfl⟩
  | num y =>
    rw [m0]
    constructor
    · show channel (F.conv (A.round (x + 0))) = x
      rw [add_zero, rx, cx, hc]
    · show channel (F.conv (A.round (0 + x))) = x
      rw [zero_add, rx, cx, hc]

/-- **C201, ends.** With ratio 0 a channel of the first color comes back, with ratio 1 one of the second, as long as
the other color's channel is a finite number. If that one is infinite or not a number, the result's channel is 0. -/
theorem C201_ends (c o : Color Dbl) (r g b a : ℝ) (hc : c = ⟨.num r, .num g, .num b, .num a⟩) (hv : Valid c)
    (hr : Exact A F r) (hg : Exact A F g) (hb : Exact A F b) (ha : Exact A F a) :
    ∃ d, interpolateColor A F c o (.num 0) = .ok (d, false) ∧ interpolateColor A F o c (.num 1) = .ok (d, false) ∧
      d.r = (match o.r with | .num _ => .num r | _ => .num 0) ∧
      d.g = (match o.g with | .num _ => .num g | _ => .num 0) ∧
      d.b = (match o.b with | .num _ => .num b | _ => .num 0) ∧
      d.a = (match o.a with | .num _ => .num a | _ => .num 0) := by
  have r0 : realRatio (.num 0) = (.num 0, false) := by simp [realRatio, Ieee.lt, not_lt.2 (zero_le_one (α := ℝ))]
  have r1 : realRatio (.num 1) = (.num 1, false) := by simp [realRatio, Ieee.lt, not_lt.2 (zero_le_one (α := ℝ))]
  subst hc
  have bd : ∀ {x : ℝ}, Shade (.num x) → 0 ≤ x ∧ x ≤ 1 := by
    rintro x ⟨y, h, h'⟩
    injection h with h
    rw [h]; exact h'
  obtain ⟨v1, v2, v3, v4⟩ := hv
  have e1 := mix_end A F r hr (bd v1) o.r
  have e2 := mix_end A F g hg (bd v2) o.g
  have e3 := mix_end A F b hb (bd v3) o.b
  have e4 := mix_end A F a ha (bd v4) o.a
  refine ⟨_, (interpolate_eq A F _ o (.num 0)).trans (by rw [r0]), ?_, ?_, ?_, ?_, ?_⟩
  · rw [interpolate_eq, r1]
    simp only [e1.1, e1.2, e2.1, e2.2, e3.1, e3.2, e4.1, e4.2]
  · simp only [e1.1]; cases o.r <;> rfl
  · simp only [e2.1]; cases o.g <;> rfl
  · simp only [e3.1]; cases o.b <;> rfl
  · simp only [e4.1]; cases o.a <;> rfl

/-! ## InterpolateHotToCold -/

/-- **C201, bounds.** Without a lower bound less than the upper one, so also if one is not a number, the assertion
fails. -/
theorem C201_bounds (value min max : Dbl) (h : ¬ Ieee.lt min max) :
    interpolateHotToCold A F value min max = .abort := by
  classical
  unfold interpolateHotToCold
  rw [Out.assert_false h]
  rfl

theorem le_of_lt {a b : Dbl} (h : Ieee.lt a b) : Ieee.le a b := by
  cases a <;> cases b <;> simp only [Ieee.lt, Ieee.le] at h ⊢
  · exact .inl h.1
  · exact h
  · exact h
  · exact h.le

/-- the value used -/
noncomputable def cutTo (value min max : Dbl) : Dbl := MathSpecial.stdMin max (stdMax min value)

theorem clamp_eq {value min max : Dbl} (h : Ieee.lt min max) :
    clampValue value min max = .ok (cutTo value min max) := by
  classical
  unfold clampValue
  rw [Out.assert_true (le_of_lt h)]
  rfl

theorem cut_low {value min max : Dbl} (h : Ieee.lt min max) (hv : ¬ Ieee.lt min value) :
    cutTo value min max = min := by
  unfold cutTo stdMax MathSpecial.stdMin
  rw [if_neg hv, if_pos h]

theorem cut_high {value min max : Dbl} (h : Ieee.lt min max) (hv : Ieee.lt max value) :
    cutTo value min max = max := by
  have h1 : Ieee.lt min value := by
    cases min <;> cases max <;> cases value <;> simp_all [Ieee.lt]
    linarith
  have h2 : ¬ Ieee.lt value max := by
    cases max <;> cases value <;> simp_all [Ieee.lt]
    linarith
  unfold cutTo stdMax MathSpecial.stdMin
  rw [if_pos h1, if_neg h2]

theorem cut_max {min max : Dbl} (h : Ieee.lt min max) : cutTo max min max = max := by
  have h2 : ¬ Ieee.lt max max := by
    cases max <;> simp [Ieee.lt]
  unfold cutTo stdMax MathSpecial.stdMin
  rw [if_pos h, if_neg h2]

theorem hot_congr {value value' min max : Dbl} (h : Ieee.lt min max)
    (hc : cutTo value min max = cutTo value' min max) :
    interpolateHotToCold A F value min max = interpolateHotToCold A F value' min max := by
  unfold interpolateHotToCold
  rw [clamp_eq h, clamp_eq h, hc]

/-- **C201, values outside.** The result is an opaque valid color. A value that is not a number or below the lower
bound is taken for the lower bound, one above the upper bound for that one. -/
theorem C201_outside (value min max : Dbl) (h : Ieee.lt min max) :
    (∃ c, interpolateHotToCold A F value min max = .ok c ∧ Valid c ∧ c.a = .num 1) ∧
    (value = .nan ∨ Ieee.lt value min →
      interpolateHotToCold A F value min max = interpolateHotToCold A F min min max) ∧
    (Ieee.lt max value → interpolateHotToCold A F value min max = interpolateHotToCold A F max min max) := by
  refine ⟨?_, ?_, ?_⟩
  · have mk : ∀ r g b, ∃ c, makeFromFloatColors r g b (.num 1) = .ok c ∧ Valid c ∧ c.a = .num 1 := by
      intro r g b
      refine ⟨_, (C201_make r g b (.num 1)).1, (C201_make r g b (.num 1)).2, ?_⟩
      simp [channel]
    classical
    unfold interpolateHotToCold
    rw [Out.assert_true h, clamp_eq h]
    simp only [Out.bind_ok]
    split
    · exact mk _ _ _
    · split
      · exact mk _ _ _
      · split
        · exact mk _ _ _
        · exact mk _ _ _
  · intro hv
    apply hot_congr A F h
    have self : ¬ Ieee.lt min min := by cases min <;> simp [Ieee.lt]
    rw [cut_low h self]
    apply cut_low h
    rcases hv with rfl | hv
    · cases min <;> exact id
    · intro h2
      cases min <;> cases value <;> simp_all [Ieee.lt]
      linarith
  · intro hv
    apply hot_congr A F h
    rw [cut_high h hv, cut_max h]

theorem quarter_inf {q : ℝ} (hq : 0 < q) : A.mul (.num q) (.inf false) = .inf false := by
  simp [Ieee.mul, ne_of_gt hq, not_lt.2 hq.le]

theorem over_inf (a : Dbl) : channel (F.conv (A.div a (.inf false))) = 0 := by
  cases a with
  | nan => rfl
  | inf s => rfl
  | num x =>
    show channel (F.conv (.num 0)) = 0
    rw [conv_zero]
    simp [channel]

open Classical in
/-- **C201, infinite ranges.** If the difference of the bounds is infinite, also because it overflows, the color does
not show the value any more. With minus infinity as lower bound every value is red. Otherwise every value is
blue, except infinity if it is the upper bound, which is red. -/
theorem C201_infinite_range (value min max : Dbl) (h : Ieee.lt min max) (hi : A.sub max min = .inf false) :
    interpolateHotToCold A F value min max =
      .ok (if min = .inf true ∨ value = .inf false ∧ max = .inf false then red else blue) := by
  have e0 : channel (F.conv (.num 0)) = 0 := by rw [conv_zero]; simp [channel]
  have e1 : channel (F.conv (.num 1)) = 1 := by rw [conv_one]; simp [channel]
  have c1 : channel (.num 1) = 1 := by simp [channel]
  have q1 := quarter_inf A (q := 1 / 4) (by norm_num)
  have q2 := quarter_inf A (q := 1 / 2) (by norm_num)
  have q3 := quarter_inf A (q := 3 / 4) (by norm_num)
  have nn : channel (F.conv (A.add (.num 1) .nan)) = 0 := rfl
  classical
  unfold interpolateHotToCold
  rw [Out.assert_true h, clamp_eq h]
  simp only [Out.bind_ok]
  rw [hi, q1, q2, q3]
  cases min with
  | nan => cases max <;> cases h
  | inf s =>
    cases s with
    | false => cases max <;> simp [Ieee.lt] at h
    | true =>
      have hn : A.add (.inf true) (.inf false) = .nan := by simp [Ieee.add]
      have hl : ∀ a, ¬ Ieee.lt a .nan := by intro a; cases a <;> exact id
      have hs : ∀ v, A.sub .nan v = .nan := by intro v; cases v <;> rfl
      have hm : A.div (A.mul (.num 4) .nan) (.inf false) = .nan := rfl
      rw [hn, if_neg (hl _), if_neg (hl _), if_neg (hl _), hs, hm, (C201_make _ _ _ _).1, nn, e0, e1, c1,
        if_pos (.inl rfl)]
      rfl
  | num lo =>
    have hn : A.add (.num lo) (.inf false) = .inf false := rfl
    rw [hn]
    have hcut : ∀ v, (∃ x, v = .num x) → Ieee.lt v (.inf false) := by
      rintro v ⟨x, rfl⟩; rfl
    by_cases hv : value = .inf false ∧ max = .inf false
    · obtain ⟨rfl, rfl⟩ := hv
      have hl : ¬ Ieee.lt (.inf false) (.inf false) := by simp [Ieee.lt]
      have hs : A.sub (.inf false) (.inf false) = .nan := by simp [Ieee.sub]
      have hm : A.div (A.mul (.num 4) .nan) (.inf false) = .nan := rfl
      rw [cut_max h, if_neg hl, if_neg hl, if_neg hl, hs, hm, (C201_make _ _ _ _).1, nn, e0, e1, c1,
        if_pos (.inr ⟨rfl, rfl⟩)]
      rfl
    · have hf : ∃ x, cutTo value (.num lo) max = .num x := by
        unfold cutTo stdMax MathSpecial.stdMin
        cases value with
        | nan =>
          cases max with
          | nan => cases h
          | inf t => simp [Ieee.lt] at h; simp [Ieee.lt, h]
          | num y => simp only [Ieee.lt] at h; simp [Ieee.lt, h]
        | inf s =>
          cases max with
          | nan => cases h
          | inf t =>
            have ht : t = false := h
            subst ht
            cases s with
            | false => exact absurd ⟨rfl, rfl⟩ hv
            | true => simp [Ieee.lt]
          | num y => simp only [Ieee.lt] at h; cases s <;> simp [Ieee.lt, h]
        | num x =>
          cases max with
          | nan => cases h
          | inf t =>
            have ht : t = false := h
            subst ht
            by_cases hx : lo < x <;> simp [Ieee.lt, hx]
          | num y =>
            by_cases hx : lo < x
            · by_cases hy : x < y <;> simp [Ieee.lt, hx, hy]
            · simp only [Ieee.lt] at h; simp [Ieee.lt, hx, h]
      rw [if_pos (hcut _ hf), (C201_make _ _ _ _).1, over_inf, e0, e1, c1, if_neg]
      · rfl
      · rintro (h' | h')
        · cases h'
        · exact hv h'

/-! ## Concrete cases -/

/-- Arithmetic without rounding up to a bound is a format. -/
noncomputable def exactSingle : Single :=
  ⟨id, fun h => h, fun _ _ => rfl, fun _ _ => by simp, 2 ^ 64, le_refl _⟩

open Classical in
/-- rounding to steps of `2 ^ -23` up to `2 ^ 24`, and to even numbers beyond -/
noncomputable def coarse (x : ℝ) : ℝ :=
  if |x| ≤ 2 ^ 24 then (⌊x * 2 ^ 23 + 1 / 2⌋ : ℝ) / 2 ^ 23 else (⌊x / 2 + 1 / 2⌋ : ℝ) * 2

theorem coarse_mono {x y : ℝ} (h : x ≤ y) : coarse x ≤ coarse y := by
  have inner : ∀ z : ℝ, |z| ≤ 2 ^ 24 → -2 ^ 24 ≤ (⌊z * 2 ^ 23 + 1 / 2⌋ : ℝ) / 2 ^ 23 ∧
      (⌊z * 2 ^ 23 + 1 / 2⌋ : ℝ) / 2 ^ 23 ≤ 2 ^ 24 := by
    intro z hz
    obtain ⟨h1, h2⟩ := abs_le.1 hz
    constructor
    · rw [le_div_iff₀ (by norm_num)]
      have : (-2 ^ 47 : ℤ) ≤ ⌊z * 2 ^ 23 + 1 / 2⌋ := Int.le_floor.2 (by push_cast; nlinarith)
      have : ((-2 ^ 47 : ℤ) : ℝ) ≤ ⌊z * 2 ^ 23 + 1 / 2⌋ := by exact_mod_cast this
      push_cast at this
      linarith
    · rw [div_le_iff₀ (by norm_num)]
      have : ⌊z * 2 ^ 23 + 1 / 2⌋ < (2 ^ 47 + 1 : ℤ) := Int.floor_lt.2 (by push_cast; nlinarith)
      have : ⌊z * 2 ^ 23 + 1 / 2⌋ ≤ (2 ^ 47 : ℤ) := by omega
      have : (⌊z * 2 ^ 23 + 1 / 2⌋ : ℝ) ≤ ((2 ^ 47 : ℤ) : ℝ) := by exact_mod_cast this
      push_cast at this
      linarith
  have above : ∀ z : ℝ, 2 ^ 24 < z → 2 ^ 24 ≤ (⌊z / 2 + 1 / 2⌋ : ℝ) * 2 := by
    intro z hz
    have : (2 ^ 23 : ℤ) ≤ ⌊z / 2 + 1 / 2⌋ := Int.le_floor.2 (by push_cast; linarith)
    have : ((2 ^ 23 : ℤ) : ℝ) ≤ ⌊z / 2 + 1 / 2⌋ := by exact_mod_cast this
    push_cast at this
    linarith
  have below : ∀ z : ℝ, z < -2 ^ 24 → (⌊z / 2 + 1 / 2⌋ : ℝ) * 2 ≤ -2 ^ 24 := by
    intro z hz
    have : ⌊z / 2 + 1 / 2⌋ < (-2 ^ 23 + 1 : ℤ) := Int.floor_lt.2 (by push_cast; linarith)
    have : ⌊z / 2 + 1 / 2⌋ ≤ (-2 ^ 23 : ℤ) := by omega
    have : (⌊z / 2 + 1 / 2⌋ : ℝ) ≤ ((-2 ^ 23 : ℤ) : ℝ) := by exact_mod_cast this
    push_cast at this
    linarith
  unfold coarse
  by_cases hx : |x| ≤ 2 ^ 24 <;> by_cases hy : |y| ≤ 2 ^ 24
  · rw [if_pos hx, if_pos hy]
    have : (⌊x * 2 ^ 23 + 1 / 2⌋ : ℝ) ≤ ⌊y * 2 ^ 23 + 1 / 2⌋ := by
      exact_mod_cast Int.floor_le_floor (by linarith)
    exact div_le_div_of_nonneg_right this (by norm_num)
  · rw [if_pos hx, if_neg hy]
    have hy' : 2 ^ 24 < y := by
      rcases lt_abs.1 (not_le.1 hy) with k | k
      · exact k
      · have := (abs_le.1 hx).1; linarith
    exact le_trans (inner x hx).2 (above y hy')
  · rw [if_neg hx, if_pos hy]
    have hx' : x < -2 ^ 24 := by
      rcases lt_abs.1 (not_le.1 hx) with k | k
      · have := (abs_le.1 hy).2; linarith
      · linarith
    exact le_trans (below x hx') (inner y hy).1
  · rw [if_neg hx, if_neg hy]
    have : (⌊x / 2 + 1 / 2⌋ : ℝ) ≤ ⌊y / 2 + 1 / 2⌋ := by
      exact_mod_cast Int.floor_le_floor (by linarith)
    linarith

/-- A format in which, as in `float`, whole numbers up to `2 ^ 24` are exact and the next one is not. -/
noncomputable def coarseSingle : Single where
  rd := coarse
  mono := coarse_mono
  whole := by
    intro n hn
    have hn' : (n : ℝ) ≤ 2 ^ 24 := by exact_mod_cast hn
    unfold coarse
    rw [if_pos (by rw [abs_of_nonneg (Nat.cast_nonneg n)]; exact hn')]
    have : ⌊(n : ℝ) * 2 ^ 23 + 1 / 2⌋ = (n * 2 ^ 23 : ℤ) := by
      rw [Int.floor_eq_iff]
      push_cast
      constructor <;> linarith
    rw [this]
    push_cast
    field_simp
    norm_num
  err := by
    intro x hx
    unfold coarse
    rw [if_pos (le_trans hx (by norm_num))]
    have h1 := Int.floor_le (x * 2 ^ 23 + 1 / 2)
    have h2 := Int.lt_floor_add_one (x * 2 ^ 23 + 1 / 2)
    rw [abs_le]
    constructor
    · have : x - 1 / 2 ^ 24 ≤ (⌊x * 2 ^ 23 + 1 / 2⌋ : ℝ) / 2 ^ 23 := by
        rw [le_div_iff₀ (by norm_num)]; linarith
      linarith
    · have : (⌊x * 2 ^ 23 + 1 / 2⌋ : ℝ) / 2 ^ 23 ≤ x + 1 / 2 ^ 24 := by
        rw [div_le_iff₀ (by norm_num)]; linarith
      linarith
  top := 2 ^ 64
  large := le_refl _

example : coarseSingle.rd (2 ^ 24 + 1) ≠ 2 ^ 24 + 1 := by
  show coarse (2 ^ 24 + 1) ≠ _
  unfold coarse
  rw [if_neg (by norm_num)]
  have : ⌊((2 : ℝ) ^ 24 + 1) / 2 + 1 / 2⌋ = (2 ^ 23 + 1 : ℤ) := by
    rw [Int.floor_eq_iff]
    push_cast
    constructor <;> norm_num
  rw [this]
  norm_num

example : Exact A exactSingle 1 := ⟨A.R.fp_one, rfl⟩

example : Valid red := ⟨⟨1, rfl, by norm_num⟩, ⟨0, rfl, by norm_num⟩, ⟨0, rfl, by norm_num⟩, ⟨1, rfl, by norm_num⟩⟩

example : Ieee.lt (.num 0) (.inf false) ∧ A.sub (.inf false) (.num 0) = .inf false := ⟨rfl, rfl⟩

example : Ieee.lt (.num 0) (.num 1) := zero_lt_one

example : ¬ Ieee.lt (.num 0) .nan := id

/-- Not a number is blue, like 0. -/
example : interpolateHotToCold A F .nan (.num 0) (.inf false) = .ok blue := by
  rw [C201_infinite_range A F .nan (.num 0) (.inf false) (show Ieee.lt (.num 0) (.inf false) from rfl) rfl, if_neg]
  rintro (h | ⟨h, -⟩) <;> cases h

end Verif.ColorSpecial
