import Mathlib.Data.Rat.Floor
import Mathlib.Tactic.Linarith
import Mathlib.Tactic.FieldSimp
import Mathlib.Tactic.Ring
import Mathlib.Tactic.NormNum
import Mathlib.Tactic.Positivity
import Verif.Spec.Color
import Verif.Props.Clamp

/-!
# C44, C66: colors
-/
namespace Verif.Colors
open Verif Verif.Clamp

set_option linter.unusedSectionVars false

section
variable {K : Type} [Field K] [LinearOrder K] [IsStrictOrderedRing K]

theorem trim_eq (v : K) : trim v = .ok (cut v) := clamp_eq zero_le_one

theorem cut_bounds (v : K) : 0 ≤ cut v ∧ cut v ≤ 1 := by
  unfold cut
  split
  · exact ⟨le_refl _, zero_le_one⟩
  · split
    · exact ⟨zero_le_one, le_refl _⟩
    · constructor <;> linarith

theorem cut_of_mem {v : K} (h0 : 0 ≤ v) (h1 : v ≤ 1) : cut v = v := by
  unfold cut; rw [if_neg (not_lt.2 h0), if_neg (not_lt.2 h1)]

theorem cut_of_neg {v : K} (h0 : v ≤ 0) : cut v = 0 := by
  unfold cut
  split
  · rfl
  · split
    · linarith
    · linarith

theorem cut_of_big {v : K} (h0 : 1 ≤ v) : cut v = 1 := by
  unfold cut
  split
  · linarith
  · split
    · rfl
    · linarith

theorem cut_mono {v w : K} (h : v ≤ w) : cut v ≤ cut w := by
  unfold cut
  have := zero_le_one (α := K)
  split_ifs <;> linarith

theorem makeFloat_eq (r g b a : K) : makeFromFloatColors r g b a = .ok ⟨cut r, cut g, cut b, cut a⟩ := by
  unfold makeFromFloatColors
  simp only [trim_eq, Out.bind_ok]

theorem makeMixed_eq (rnd : K → K) (r g b : BitVec 8) (a : K) : makeFromMixedColors rnd r g b a =
    .ok ⟨cut (channelFromHex rnd r), cut (channelFromHex rnd g), cut (channelFromHex rnd b), cut (cut a)⟩ := by
  unfold makeFromMixedColors
  simp only [trim_eq, Out.bind_ok, makeFloat_eq]

theorem fromHex_bounds {rnd : K → K} (hr : FloatRounding rnd) (h : BitVec 8) :
    0 ≤ channelFromHex rnd h ∧ channelFromHex rnd h ≤ 1 := by
  have e0 := hr.exact 0 (by omega)
  have e1 := hr.exact 1 (by omega)
  simp only [Nat.cast_zero, Nat.cast_one] at e0 e1
  have hlt : h.toNat ≤ 255 := by have := h.isLt; omega
  have hc : ((h.toNat : Nat) : K) ≤ 255 := by exact_mod_cast hlt
  unfold channelFromHex
  constructor
  · rw [← e0]; exact hr.mono _ _ (by positivity)
  · rw [← e1]; exact hr.mono _ _ (by rw [div_le_one (by norm_num)]; exact hc)

/-- the error of the channel obtained from a byte -/
theorem fromHex_error {rnd : K → K} (hr : FloatRounding rnd) (h : BitVec 8) :
    |channelFromHex rnd h - (h.toNat : K) / 255| ≤ 1 / 2 ^ 24 := by
  have hlt : h.toNat ≤ 255 := by have := h.isLt; omega
  have hc : ((h.toNat : Nat) : K) ≤ 255 := by exact_mod_cast hlt
  unfold channelFromHex
  by_cases h0 : h.toNat = 0
  · have e0 := hr.exact 0 (by omega)
    simp only [Nat.cast_zero] at e0
    rw [h0]
    simp only [Nat.cast_zero, zero_div, e0, sub_self, abs_zero]
    positivity
  · have h1 : (1 : K) ≤ (h.toNat : K) := by exact_mod_cast Nat.one_le_iff_ne_zero.2 h0
    have hq : (h.toNat : K) / 255 ≤ 1 := by rw [div_le_one (by norm_num)]; exact hc
    have hq' : (1 : K) / 1000 ≤ (h.toNat : K) / 255 := by
      rw [div_le_div_iff₀ (by norm_num) (by norm_num)]; linarith
    refine (hr.error _ hq' (by linarith)).trans ?_
    gcongr

/-- different bytes give different channels -/
theorem fromHex_injective {rnd : K → K} (hr : FloatRounding rnd) {h k : BitVec 8}
    (e : channelFromHex rnd h = channelFromHex rnd k) : h = k := by
  have h1 := abs_le.1 (fromHex_error hr h)
  have h2 := abs_le.1 (fromHex_error hr k)
  rw [e] at h1
  have c1 : (h.toNat : K) / 255 - (k.toNat : K) / 255 ≤ 2 / 2 ^ 24 := by
    have : (2 : K) / 2 ^ 24 = 1 / 2 ^ 24 + 1 / 2 ^ 24 := by ring
    linarith [h1.1, h1.2, h2.1, h2.2]
  have c2 : (k.toNat : K) / 255 - (h.toNat : K) / 255 ≤ 2 / 2 ^ 24 := by
    have : (2 : K) / 2 ^ 24 = 1 / 2 ^ 24 + 1 / 2 ^ 24 := by ring
    linarith [h1.1, h1.2, h2.1, h2.2]
  have d1 : (h.toNat : K) < (k.toNat : K) + 1 := by
    have := mul_le_mul_of_nonneg_right c1 (show (0 : K) ≤ 255 by norm_num)
    have e1 : ((h.toNat : K) / 255 - (k.toNat : K) / 255) * 255 = (h.toNat : K) - k.toNat := by field_simp
    rw [e1] at this
    have : (2 : K) / 2 ^ 24 * 255 < 1 := by norm_num
    linarith
  have d2 : (k.toNat : K) < (h.toNat : K) + 1 := by
    have := mul_le_mul_of_nonneg_right c2 (show (0 : K) ≤ 255 by norm_num)
    have e1 : ((k.toNat : K) / 255 - (h.toNat : K) / 255) * 255 = (k.toNat : K) - h.toNat := by field_simp
    rw [e1] at this
    have : (2 : K) / 2 ^ 24 * 255 < 1 := by norm_num
    linarith
  have f1 : h.toNat < k.toNat + 1 := by exact_mod_cast d1
  have f2 : k.toNat < h.toNat + 1 := by exact_mod_cast d2
  exact BitVec.eq_of_toNat_eq (by omega)

section
variable [FloorRing K]

theorem roundAway_of_near {x : K} {n : Nat} (h : |x - n| < 1 / 2) (h0 : 0 ≤ x) : roundAway x = n := by
  have := abs_lt.1 h
  unfold roundAway
  rw [if_pos h0, Int.floor_eq_iff]
  constructor
  · push_cast; linarith [this.1]
  · push_cast; linarith [this.2]

theorem roundAway_mono {x y : K} (hx : 0 ≤ x) (h : x ≤ y) : roundAway x ≤ roundAway y := by
  unfold roundAway
  rw [if_pos hx, if_pos (hx.trans h)]
  exact Int.floor_le_floor (by linarith)

/-- what `ColorChannelToHex` computes -/
theorem toHex_eq {rnd : K → K} (hr : FloatRounding rnd) (v : K) :
    ∃ n : Nat, n < 256 ∧ roundAway (rnd (cut v * 255)) = n ∧ 0 ≤ rnd (cut v * 255) ∧
      channelToHex rnd v = .ok (BitVec.ofNat 8 n) := by
  have hb := cut_bounds v
  have e0 := hr.exact 0 (by omega)
  have e255 := hr.exact 255 (by omega)
  simp only [Nat.cast_zero] at e0
  have h0 : 0 ≤ rnd (cut v * 255) := by
    rw [← e0]; exact hr.mono _ _ (mul_nonneg hb.1 (by norm_num))
  have h255 : rnd (cut v * 255) ≤ ((255 : Nat) : K) := by
    rw [← e255]; refine hr.mono _ _ ?_
    push_cast; nlinarith [hb.2]
  have z0 : roundAway (0 : K) = (0 : Nat) := roundAway_of_near (by norm_num) (le_refl _)
  have z1 : roundAway ((255 : Nat) : K) = (255 : Nat) :=
    roundAway_of_near (by norm_num) (by positivity)
  have b0 : 0 ≤ roundAway (rnd (cut v * 255)) := by
    have := roundAway_mono (le_refl (0 : K)) h0; rw [z0] at this; exact_mod_cast this
  have b1 : roundAway (rnd (cut v * 255)) ≤ 255 := by
    have := roundAway_mono h0 h255; rw [z1] at this; exact_mod_cast this
  refine ⟨(roundAway (rnd (cut v * 255))).toNat, by omega, by omega, h0, ?_⟩
  unfold channelToHex toUint8
  rw [trim_eq, Out.bind_ok, if_pos ⟨b0, by omega⟩]
  congr 1
  conv_lhs => rw [← Int.toNat_of_nonneg b0]
  exact BitVec.ofInt_natCast 8 _

/-- Every byte survives the conversion to a channel and back; channels from bytes lie in `[0, 1]`, are
different for different bytes, and differ from `h / 255` by at most 2^-24. -/
theorem C44_roundtrip (rnd : K → K) (hr : FloatRounding rnd) (h : BitVec 8) :
    channelToHex rnd (channelFromHex rnd h) = .ok h ∧
    0 ≤ channelFromHex rnd h ∧ channelFromHex rnd h ≤ 1 ∧
    |channelFromHex rnd h - (h.toNat : K) / 255| ≤ 1 / 2 ^ 24 ∧
    ∀ k, channelFromHex rnd h = channelFromHex rnd k → h = k := by
  have hb := fromHex_bounds hr h
  refine ⟨?_, hb.1, hb.2, fromHex_error hr h, fun k => fromHex_injective hr⟩
  obtain ⟨n, hn, hrn, h0, he⟩ := toHex_eq hr (channelFromHex rnd h)
  rw [he]
  congr 1
  rw [cut_of_mem hb.1 hb.2] at hrn h0
  have hlt : h.toNat ≤ 255 := by have := h.isLt; omega
  have hc : ((h.toNat : Nat) : K) ≤ 255 := by exact_mod_cast hlt
  suffices hh : roundAway (rnd (channelFromHex rnd h * 255)) = (h.toNat : Nat) by
    rw [hh] at hrn
    have : h.toNat = n := by exact_mod_cast hrn
    rw [← this]; exact BitVec.eq_of_toNat_eq (by rw [BitVec.toNat_ofNat]; exact Nat.mod_eq_of_lt h.isLt)
  refine roundAway_of_near ?_ h0
  by_cases hz : h.toNat = 0
  · have e0 := hr.exact 0 (by omega)
    simp only [Nat.cast_zero] at e0
    have : channelFromHex rnd h = 0 := by
      unfold channelFromHex; rw [hz]; simp only [Nat.cast_zero, zero_div, e0]
    rw [this, hz]
    simp only [zero_mul, e0, Nat.cast_zero, sub_self, abs_zero]
    norm_num
  · have h1 : (1 : K) ≤ (h.toNat : K) := by exact_mod_cast Nat.one_le_iff_ne_zero.2 hz
    have er := abs_le.1 (fromHex_error hr h)
    have p1 : |channelFromHex rnd h * 255 - (h.toNat : K)| ≤ 255 / 2 ^ 24 := by
      have q : channelFromHex rnd h * 255 - (h.toNat : K)
          = (channelFromHex rnd h - (h.toNat : K) / 255) * 255 := by field_simp
      have q2 : (255 : K) / 2 ^ 24 = 1 / 2 ^ 24 * 255 := by ring
      rw [q, q2, abs_mul, abs_of_pos (show (0 : K) < 255 by norm_num)]
      exact mul_le_mul_of_nonneg_right (fromHex_error hr h) (by norm_num)
    have p1' := abs_le.1 p1
    have small : (255 : K) / 2 ^ 24 < 1 / 10 := by norm_num
    have er2 := hr.error (channelFromHex rnd h * 255) (by linarith [p1'.1]) (by linarith [p1'.2])
    have : channelFromHex rnd h * 255 / 2 ^ 24 < 1 / 10 := by
      have : channelFromHex rnd h * 255 / 2 ^ 24 ≤ 1000 / 2 ^ 24 := by
        gcongr; linarith [p1'.2]
      refine lt_of_le_of_lt this (by norm_num)
    have er2' := abs_le.1 er2
    rw [abs_lt]
    constructor <;> linarith [er2'.1, er2'.2, p1'.1, p1'.2]

/-- `ColorChannelToHex` is defined for every number: it gives 0 up to 0, 255 from 1 on, and keeps the
order. -/
theorem C44_to_hex (rnd : K → K) (hr : FloatRounding rnd) (v w : K) (hvw : v ≤ w) :
    ∃ h k, channelToHex rnd v = .ok h ∧ channelToHex rnd w = .ok k ∧ h.toNat ≤ k.toNat ∧
      (v ≤ 0 → h.toNat = 0) ∧ (1 ≤ w → k.toNat = 255) := by
  obtain ⟨n, hn, hrn, h0, he⟩ := toHex_eq hr v
  obtain ⟨m, hm, hrm, h0', he'⟩ := toHex_eq hr w
  refine ⟨_, _, he, he', ?_, ?_, ?_⟩
  · rw [BitVec.toNat_ofNat, BitVec.toNat_ofNat, Nat.mod_eq_of_lt hn, Nat.mod_eq_of_lt hm]
    have := roundAway_mono h0 (hr.mono _ _ (mul_le_mul_of_nonneg_right (cut_mono hvw)
      (show (0 : K) ≤ 255 by norm_num)))
    rw [hrn, hrm] at this
    exact_mod_cast this
  · intro hv
    rw [BitVec.toNat_ofNat, Nat.mod_eq_of_lt hn]
    have e0 := hr.exact 0 (by omega)
    simp only [Nat.cast_zero] at e0
    rw [cut_of_neg hv, zero_mul, e0, roundAway_of_near (n := 0) (by norm_num) (le_refl _)] at hrn
    exact_mod_cast hrn.symm
  · intro hv
    rw [BitVec.toNat_ofNat, Nat.mod_eq_of_lt hm]
    have e1 := hr.exact 255 (by omega)
    rw [cut_of_big hv, one_mul] at hrm
    have e2 : rnd (255 : K) = ((255 : Nat) : K) := by rw [← e1]; norm_num
    rw [e2, roundAway_of_near (n := 255) (by norm_num) (by positivity)] at hrm
    exact_mod_cast hrm.symm

/-- In exact arithmetic the byte is the nearest one: it differs from the channel by at most half a step. -/
theorem C44_nearest (v : K) (h0 : 0 ≤ v) (h1 : v ≤ 1) :
    ∃ h, channelToHex id v = .ok h ∧ |(h.toNat : K) / 255 - v| ≤ 1 / 510 := by
  have hr : FloatRounding (id : K → K) := ⟨fun _ _ h => h, fun _ _ => rfl, fun x hx _ => by
    simp only [id, sub_self, abs_zero]
    have : (0 : K) ≤ x := le_trans (by norm_num) hx
    positivity⟩
  obtain ⟨n, hn, hrn, h0', he⟩ := toHex_eq hr v
  refine ⟨_, he, ?_⟩
  rw [BitVec.toNat_ofNat, Nat.mod_eq_of_lt hn]
  rw [cut_of_mem h0 h1] at hrn h0'
  simp only [id] at hrn h0'
  unfold roundAway at hrn
  rw [if_pos h0', Int.floor_eq_iff] at hrn
  obtain ⟨a, b⟩ := hrn
  push_cast at a b
  have hq : (n : K) / 255 - v = ((n : K) - v * 255) / 255 := by field_simp
  rw [hq, abs_div, abs_of_pos (show (0 : K) < 255 by norm_num), div_le_div_iff₀ (by norm_num) (by norm_num)]
  have : |(n : K) - v * 255| ≤ 1 / 2 := by rw [abs_le]; constructor <;> linarith
  linarith

end

/-! ## Building colors -/

/-- Every way of building a color and every history of setters from a valid color gives a valid one; each
channel built from floats is the argument cut off at 0 and 1. -/
theorem C44_valid (rnd : K → K) (hr : FloatRounding rnd) :
    (∀ r g b a : K, makeFromFloatColors r g b a = .ok ⟨cut r, cut g, cut b, cut a⟩ ∧
      Valid (⟨cut r, cut g, cut b, cut a⟩ : Color K)) ∧
    (∀ r g b a, makeFromHexColors rnd r g b a = .ok (rgbaFromHex rnd r g b a) ∧
      Valid (rgbaFromHex rnd r g b a)) ∧
    (∀ r g b (a : K), ∃ c, makeFromMixedColors rnd r g b a = .ok c ∧ rgbaFromMixed rnd r g b a = .ok c ∧
      Valid c ∧ c.a = cut a ∧ c.rgb = (channelFromHex rnd r, channelFromHex rnd g, channelFromHex rnd b)) ∧
    (∀ c : Color K, Valid c → convertColor c = .ok c) ∧
    (∀ (c : Color K) ops, Valid c → ∃ c', applySets rnd c ops = .ok c' ∧ Valid c') := by
  refine ⟨?_, ?_, ?_, ?_, ?_⟩
  · intro r g b a
    exact ⟨makeFloat_eq r g b a, cut_bounds _, cut_bounds _, cut_bounds _, cut_bounds _⟩
  · intro r g b a
    have b1 := fromHex_bounds hr r
    have b2 := fromHex_bounds hr g
    have b3 := fromHex_bounds hr b
    have b4 := fromHex_bounds hr a
    refine ⟨?_, b1, b2, b3, b4⟩
    unfold makeFromHexColors rgbaFromHex
    rw [makeFloat_eq, cut_of_mem b1.1 b1.2, cut_of_mem b2.1 b2.2, cut_of_mem b3.1 b3.2, cut_of_mem b4.1 b4.2]
  · intro r g b a
    have b1 := fromHex_bounds hr r
    have b2 := fromHex_bounds hr g
    have b3 := fromHex_bounds hr b
    have b4 := cut_bounds a
    refine ⟨⟨channelFromHex rnd r, channelFromHex rnd g, channelFromHex rnd b, cut a⟩, ?_, ?_,
      ⟨b1, b2, b3, b4⟩, rfl, rfl⟩
    · rw [makeMixed_eq, cut_of_mem b1.1 b1.2, cut_of_mem b2.1 b2.2, cut_of_mem b3.1 b3.2,
        cut_of_mem b4.1 b4.2]
    · unfold rgbaFromMixed
      rw [trim_eq, Out.bind_ok]
  · rintro ⟨r, g, b, a⟩ ⟨h1, h2, h3, h4⟩
    unfold convertColor
    rw [makeFloat_eq, cut_of_mem h1.1 h1.2, cut_of_mem h2.1 h2.2, cut_of_mem h3.1 h3.2, cut_of_mem h4.1 h4.2]
  · intro c ops
    induction ops generalizing c with
    | nil => intro h; exact ⟨c, rfl, h⟩
    | cons op ops ih =>
      intro h
      have step : ∃ c', applySet rnd c op = .ok c' ∧ Valid c' := by
        obtain ⟨h1, h2, h3, h4⟩ := h
        cases op <;> simp only [applySet, trim_eq, Out.bind_ok]
        · exact ⟨_, rfl, cut_bounds _, h2, h3, h4⟩
        · exact ⟨_, rfl, h1, cut_bounds _, h3, h4⟩
        · exact ⟨_, rfl, h1, h2, cut_bounds _, h4⟩
        · exact ⟨_, rfl, h1, h2, h3, cut_bounds _⟩
        · exact ⟨_, rfl, fromHex_bounds hr _, h2, h3, h4⟩
        · exact ⟨_, rfl, h1, fromHex_bounds hr _, h3, h4⟩
        · exact ⟨_, rfl, h1, h2, fromHex_bounds hr _, h4⟩
        · exact ⟨_, rfl, h1, h2, h3, fromHex_bounds hr _⟩
      obtain ⟨c', e, hv⟩ := step
      obtain ⟨c'', e', hv'⟩ := ih c' hv
      exact ⟨c'', by simp only [applySets, e, Out.bind_ok, e'], hv'⟩

/-- Each setter changes one channel, to the argument cut off at 0 and 1 or to the byte's channel. -/
theorem C44_setters (rnd : K → K) (c : Color K) (v : K) (h : BitVec 8) :
    applySet rnd c (.r v) = .ok ⟨cut v, c.g, c.b, c.a⟩ ∧ applySet rnd c (.g v) = .ok ⟨c.r, cut v, c.b, c.a⟩ ∧
    applySet rnd c (.b v) = .ok ⟨c.r, c.g, cut v, c.a⟩ ∧ applySet rnd c (.a v) = .ok ⟨c.r, c.g, c.b, cut v⟩ ∧
    applySet rnd c (.rHex h) = .ok ⟨channelFromHex rnd h, c.g, c.b, c.a⟩ ∧
    applySet rnd c (.gHex h) = .ok ⟨c.r, channelFromHex rnd h, c.b, c.a⟩ ∧
    applySet rnd c (.bHex h) = .ok ⟨c.r, c.g, channelFromHex rnd h, c.a⟩ ∧
    applySet rnd c (.aHex h) = .ok ⟨c.r, c.g, c.b, channelFromHex rnd h⟩ := by
  simp only [applySet, trim_eq, Out.bind_ok, and_self]

/-! ## Unique colors -/

theorem table_length : colorTable.length = 20 := by decide

theorem table_nodup : colorTable.Nodup := by decide

theorem table_not_black : ∀ c ∈ colorTable, c ≠ (0, 0, 0) := by decide

/-- what `GenerateUniqueColor` gives for a code of the table -/
theorem unique_table {rnd : K → K} (hr : FloatRounding rnd) (code : BitVec 32) (alpha : K)
    (h0 : code ≠ 0) {e : BitVec 8 × BitVec 8 × BitVec 8} (he : colorTable[code.toNat - 1]? = some e) :
    generateUniqueColor rnd code alpha =
      .ok ⟨channelFromHex rnd e.1, channelFromHex rnd e.2.1, channelFromHex rnd e.2.2, cut alpha⟩ := by
  have b1 := fromHex_bounds hr e.1
  have b2 := fromHex_bounds hr e.2.1
  have b3 := fromHex_bounds hr e.2.2
  have b4 := cut_bounds alpha
  unfold generateUniqueColor
  rw [if_neg h0, he]
  simp only [makeMixed_eq]
  rw [cut_of_mem b1.1 b1.2, cut_of_mem b2.1 b2.2, cut_of_mem b3.1 b3.2, cut_of_mem b4.1 b4.2]

theorem toNat_ne_zero {code : BitVec 32} (h0 : code ≠ 0) : code.toNat ≠ 0 := fun h =>
  h0 (BitVec.eq_of_toNat_eq (by rw [h]; rfl))

/-- `GenerateUniqueColor` always gives a valid color: transparent white for code 0, black with the given
alpha for codes above 20, and for codes 1 to 20 colors that have the given alpha, are not black, and
differ from each other in red, green or blue. -/
theorem C44_unique (rnd : K → K) (hr : FloatRounding rnd) (alpha : K) (code : BitVec 32) :
    ∃ c, generateUniqueColor rnd code alpha = .ok c ∧ Valid c ∧
      (code.toNat = 0 → c = ⟨1, 1, 1, 0⟩) ∧ (20 < code.toNat → c = ⟨0, 0, 0, cut alpha⟩) ∧
      (1 ≤ code.toNat → code.toNat ≤ 20 → c.a = cut alpha ∧ c.rgb ≠ (0, 0, 0) ∧
        ∀ code' alpha' c', generateUniqueColor rnd code' alpha' = .ok c' → 1 ≤ code'.toNat →
          code'.toNat ≤ 20 → c'.rgb = c.rgb → code' = code) := by
  have c0 : cut (0 : K) = 0 := cut_of_neg (le_refl _)
  have c1 : cut (1 : K) = 1 := cut_of_big (le_refl _)
  by_cases h0 : code = 0
  · refine ⟨⟨1, 1, 1, 0⟩, ?_, ?_, fun _ => rfl, ?_, ?_⟩
    · unfold generateUniqueColor; rw [if_pos h0, makeFloat_eq, c0, c1]
    · unfold Valid; simp
    · intro h; subst h0; exact absurd h (by decide)
    · intro h; subst h0; exact absurd h (by decide)
  · have hz := toNat_ne_zero h0
    cases he : colorTable[code.toNat - 1]? with
    | none =>
      have hl := List.getElem?_eq_none_iff.1 he
      rw [table_length] at hl
      refine ⟨⟨0, 0, 0, cut alpha⟩, ?_, ?_, fun h => absurd h hz, fun _ => rfl, ?_⟩
      · unfold generateUniqueColor; rw [if_neg h0, he]; simp only [makeFloat_eq, c0]
      · unfold Valid; simp [cut_bounds alpha]
      · intro _ h; omega
    | some e =>
      have hl : code.toNat - 1 < colorTable.length := (List.getElem?_eq_some_iff.1 he).1
      have hl' := hl
      rw [table_length] at hl'
      refine ⟨_, unique_table hr code alpha h0 he, ⟨fromHex_bounds hr _, fromHex_bounds hr _,
        fromHex_bounds hr _, cut_bounds _⟩, fun h => absurd h hz, fun h => absurd h (by omega), ?_⟩
      intro _ _
      have zero : channelFromHex rnd 0 = 0 := by
        have e0 := hr.exact 0 (by omega)
        simp only [Nat.cast_zero] at e0
        unfold channelFromHex
        simp [e0]
      refine ⟨rfl, ?_, ?_⟩
      · intro h
        simp only [Color.rgb, Prod.mk.injEq] at h
        rw [← zero] at h
        obtain ⟨r1, r2, r3⟩ := h
        exact table_not_black e (List.mem_of_getElem? he)
          (Prod.ext (fromHex_injective hr r1) (Prod.ext (fromHex_injective hr r2) (fromHex_injective hr r3)))
      · intro code' alpha' c' hc' hlo hhi heq
        have h0' : code' ≠ 0 := by intro h; subst h; exact absurd hlo (by decide)
        have hl2 : code'.toNat - 1 < colorTable.length := by rw [table_length]; omega
        have he' := List.getElem?_eq_getElem hl2
        rw [unique_table hr code' alpha' h0' he'] at hc'
        injection hc' with hc'
        subst hc'
        simp only [Color.rgb, Prod.mk.injEq] at heq
        obtain ⟨r1, r2, r3⟩ := heq
        have ee : colorTable[code'.toNat - 1] = e :=
          Prod.ext (fromHex_injective hr r1) (Prod.ext (fromHex_injective hr r2) (fromHex_injective hr r3))
        rw [ee, ← he] at he'
        have := (List.getElem?_inj hl2 table_nodup).1 he'
        refine BitVec.eq_of_toNat_eq ?_
        omega

/-! ## The generator -/

/-- the generator after `k` calls -/
theorem take_eq {rnd : K → K} (hr : FloatRounding rnd) (alpha : K) (n : Nat) (i : BitVec 32) :
    ∃ cs : List (Color K), Generator.take rnd n ⟨i, alpha⟩ = .ok (cs, ⟨i + BitVec.ofNat 32 n, alpha⟩) ∧
      cs.length = n ∧ ∀ k, k < n → ∃ c, cs[k]? = some c ∧
        generateUniqueColor rnd (i + BitVec.ofNat 32 k) alpha = .ok c := by
  induction n generalizing i with
  | zero => exact ⟨[], by simp [Generator.take], rfl, fun k h => absurd h (by omega)⟩
  | succ n ih =>
    obtain ⟨c, hc, -⟩ := C44_unique rnd hr alpha i
    obtain ⟨cs, h1, h2, h3⟩ := ih (i + 1)
    refine ⟨c :: cs, ?_, by simp [h2], ?_⟩
    · simp only [Generator.take, Generator.next, hc, Out.bind_ok, h1]
      have : i + 1 + BitVec.ofNat 32 n = i + BitVec.ofNat 32 (n + 1) := by
        apply BitVec.eq_of_toNat_eq; simp only [BitVec.toNat_add, BitVec.toNat_ofNat, BitVec.ofNat_eq_ofNat]; omega
      rw [this]
    · intro k hk
      cases k with
      | zero => exact ⟨c, rfl, by simpa using hc⟩
      | succ k =>
        obtain ⟨d, hd, hg⟩ := h3 k (by omega)
        refine ⟨d, by simpa using hd, ?_⟩
        have : i + BitVec.ofNat 32 (k + 1) = i + 1 + BitVec.ofNat 32 k := by
          apply BitVec.eq_of_toNat_eq; simp only [BitVec.toNat_add, BitVec.toNat_ofNat, BitVec.ofNat_eq_ofNat]; omega
        rw [this]; exact hg

/-- A new generator yields, call after call, `GenerateUniqueColor` of 1, 2, 3, … modulo 2^32: any two of the
first twenty colors differ in red, green or blue. -/
theorem C69_generator_partial (rnd : K → K) (hr : FloatRounding rnd) (alpha : K) (n : Nat) :
    ∃ cs g, Generator.take rnd n (Generator.construct alpha) = .ok (cs, g) ∧ cs.length = n ∧
      (∀ k c, cs[k]? = some c → generateUniqueColor rnd (BitVec.ofNat 32 (k + 1)) alpha = .ok c) ∧
      (∀ j k c d, j < k → k < 20 → cs[j]? = some c → cs[k]? = some d → c.rgb ≠ d.rgb) := by
  obtain ⟨cs, h1, h2, h3⟩ := take_eq hr alpha n 1
  have key : ∀ k c, cs[k]? = some c → generateUniqueColor rnd (BitVec.ofNat 32 (k + 1)) alpha = .ok c := by
    intro k c hk
    have hlt := (List.getElem?_eq_some_iff.1 hk).1
    obtain ⟨d, hd, hg⟩ := h3 k (by omega)
    rw [hk] at hd
    injection hd with hd
    subst hd
    have : BitVec.ofNat 32 (k + 1) = 1 + BitVec.ofNat 32 k := by
      apply BitVec.eq_of_toNat_eq; simp only [BitVec.toNat_add, BitVec.toNat_ofNat, BitVec.ofNat_eq_ofNat]; omega
    rw [this]; exact hg
  refine ⟨cs, _, h1, h2, key, ?_⟩
  intro j k c d hjk hk hc hd heq
  have gc := key j c hc
  have gd := key k d hd
  obtain ⟨c', e1, -, -, -, hu⟩ := C44_unique rnd hr alpha (BitVec.ofNat 32 (j + 1))
  rw [gc] at e1
  injection e1 with e1
  subst e1
  have tj : (BitVec.ofNat 32 (j + 1)).toNat = j + 1 := by rw [BitVec.toNat_ofNat]; omega
  have tk : (BitVec.ofNat 32 (k + 1)).toNat = k + 1 := by rw [BitVec.toNat_ofNat]; omega
  have := (hu (by omega) (by omega)).2.2 _ _ _ gd (by omega) (by omega) heq.symm
  have := congrArg BitVec.toNat this
  omega

/-- The generator does not go on to be unique, although its documentation says so: the 21st and 22nd colors
are both black, and the 2^32-th is transparent white whatever alpha was asked for. -/
theorem C69_generator_repeats (rnd : K → K) (hr : FloatRounding rnd) (alpha : K) (n : Nat) (cs : List (Color K))
    (g : Generator K) (h : Generator.take rnd n (Generator.construct alpha) = .ok (cs, g)) :
    (∀ k c, 20 ≤ k → k < 2 ^ 32 - 1 → cs[k]? = some c → c = ⟨0, 0, 0, cut alpha⟩) ∧
    (∀ c, cs[2 ^ 32 - 1]? = some c → c = ⟨1, 1, 1, 0⟩) := by
  obtain ⟨cs', g', h1, -, key, -⟩ := C69_generator_partial rnd hr alpha n
  rw [h] at h1
  injection h1 with h1
  injection h1 with h1 _
  subst h1
  constructor
  · intro k c h20 hlt hk
    obtain ⟨c', e1, -, -, hb, -⟩ := C44_unique rnd hr alpha (BitVec.ofNat 32 (k + 1))
    rw [key k c hk] at e1
    injection e1 with e1
    subst e1
    refine hb ?_
    rw [BitVec.toNat_ofNat, Nat.mod_eq_of_lt (by omega)]
    omega
  · intro c hk
    obtain ⟨c', e1, -, hb, -⟩ := C44_unique rnd hr alpha (BitVec.ofNat 32 (2 ^ 32 - 1 + 1))
    rw [key _ c hk] at e1
    injection e1 with e1
    subst e1
    refine hb ?_
    rw [BitVec.toNat_ofNat]
    norm_num

/-! ## Interpolation -/

theorem hotToCold_eq (value min max : K) (h : min < max) :
    interpolateHotToCold value min max = .ok (hotToCold (cut ((value - min) / (max - min)))) := by
  have hp : 0 < max - min := sub_pos.2 h
  have hne : max - min ≠ 0 := ne_of_gt hp
  unfold interpolateHotToCold
  rw [Out.assert_true h, Out.bind_ok, clamp_eq h.le, Out.bind_ok]
  set v := if value < min then min else if max < value then max else value with hv
  set t := cut ((value - min) / (max - min)) with ht
  have hvt : v = min + t * (max - min) := by
    rw [hv, ht]
    unfold cut
    by_cases c1 : value < min
    · rw [if_pos c1, if_pos (div_neg_of_neg_of_pos (by linarith) hp)]; ring
    · rw [if_neg c1, if_neg (not_lt.2 (div_nonneg (by linarith) hp.le))]
      by_cases c2 : max < value
      · rw [if_pos c2, if_pos (by rw [one_lt_div hp]; linarith)]; ring
      · rw [if_neg c2, if_neg (by rw [one_lt_div hp]; linarith)]; field_simp; ring
  have hb : 0 ≤ t ∧ t ≤ 1 := cut_bounds _
  have lt_iff : ∀ q : K, (v < min + q * (max - min)) ↔ t < q := by
    intro q; rw [hvt, add_lt_add_iff_left, mul_lt_mul_iff_left₀ hp]
  have c0 : cut (0 : K) = 0 := cut_of_neg (le_refl _)
  have c1 : cut (1 : K) = 1 := cut_of_big (le_refl _)
  simp only [lt_iff, makeFloat_eq, c0, c1]
  unfold hotToCold
  have e1 : 4 * (v - min) / (max - min) = 4 * t := by rw [hvt]; field_simp; ring
  have e2 : 1 + 4 * (min + 1 / 4 * (max - min) - v) / (max - min) = 2 - 4 * t := by
    rw [hvt]; field_simp; ring
  have e3 : 4 * (v - min - 1 / 2 * (max - min)) / (max - min) = 4 * t - 2 := by
    rw [hvt]; field_simp; ring
  have e4 : 1 + 4 * (min + 3 / 4 * (max - min) - v) / (max - min) = 4 - 4 * t := by
    rw [hvt]; field_simp; ring
  rw [e1, e2, e3, e4]
  by_cases d1 : t < 1 / 4
  · rw [if_pos d1, if_pos d1, cut_of_mem (by linarith) (by linarith)]
  · rw [if_neg d1, if_neg d1]
    by_cases d2 : t < 1 / 2
    · rw [if_pos d2, if_pos d2, cut_of_mem (by linarith) (by linarith)]
    · rw [if_neg d2, if_neg d2]
      by_cases d3 : t < 3 / 4
      · rw [if_pos d3, if_pos d3, cut_of_mem (by linarith) (by linarith)]
      · rw [if_neg d3, if_neg d3, cut_of_mem (by linarith) (by linarith)]

/-- `InterpolateHotToCold` with `min < max`: the color runs at constant speed from blue over cyan, green and
yellow to red as the value goes from `min` to `max`, and stays blue below and red above. It is opaque and
fully saturated (some channel is 0, another 1), and different values in the range have different colors.
Without `min < max` it fails an assertion. -/
theorem C66_hot_to_cold (min max : K) :
    (min < max → ∀ value, ∃ c, interpolateHotToCold value min max = .ok c ∧
      c = hotToCold (cut ((value - min) / (max - min))) ∧ Valid c ∧ c.a = 1 ∧
      (c.r = 0 ∨ c.b = 0) ∧ (c.r = 1 ∨ c.g = 1 ∨ c.b = 1) ∧
      (value ≤ min → c = ⟨0, 0, 1, 1⟩) ∧ (max ≤ value → c = ⟨1, 0, 0, 1⟩) ∧
      ∀ value', min ≤ value → value ≤ max → min ≤ value' → value' ≤ max →
        interpolateHotToCold value' min max = .ok c → value' = value) ∧
    (max ≤ min → ∀ value, interpolateHotToCold value min max = .abort) := by
  constructor
  · intro h value
    have hp : 0 < max - min := sub_pos.2 h
    have hb := cut_bounds ((value - min) / (max - min))
    refine ⟨_, hotToCold_eq value min max h, rfl, ?_⟩
    have shape : ∀ t : K, 0 ≤ t → t ≤ 1 → Valid (hotToCold t) ∧ (hotToCold t).a = 1 ∧
        ((hotToCold t).r = 0 ∨ (hotToCold t).b = 0) ∧
        ((hotToCold t).r = 1 ∨ (hotToCold t).g = 1 ∨ (hotToCold t).b = 1) ∧
        (hotToCold t).r + (1 - (hotToCold t).b) + (if t < 1 / 2 then (hotToCold t).g
          else 2 - (hotToCold t).g) = 4 * t := by
      intro t h0 h1
      have l0 := zero_le_one (α := K)
      unfold hotToCold Valid
      by_cases d1 : t < 1 / 4
      · simp only [if_pos d1, if_pos (show t < 1 / 2 by linarith)]
        refine ⟨⟨⟨?_, ?_⟩, ⟨?_, ?_⟩, ⟨?_, ?_⟩, ?_, ?_⟩, trivial, .inl trivial, .inr (.inr trivial), ?_⟩ <;> linarith
      · by_cases d2 : t < 1 / 2
        · simp only [if_neg d1, if_pos d2]
          refine ⟨⟨⟨?_, ?_⟩, ⟨?_, ?_⟩, ⟨?_, ?_⟩, ?_, ?_⟩, trivial, .inl trivial, .inr (.inl trivial), ?_⟩ <;> linarith
        · by_cases d3 : t < 3 / 4
          · simp only [if_neg d1, if_neg d2, if_pos d3]
            refine ⟨⟨⟨?_, ?_⟩, ⟨?_, ?_⟩, ⟨?_, ?_⟩, ?_, ?_⟩, trivial, .inr trivial, .inr (.inl trivial), ?_⟩ <;> linarith
          · simp only [if_neg d1, if_neg d2, if_neg d3]
            refine ⟨⟨⟨?_, ?_⟩, ⟨?_, ?_⟩, ⟨?_, ?_⟩, ?_, ?_⟩, trivial, .inr trivial, .inl trivial, ?_⟩ <;> linarith
    obtain ⟨s1, s2, s3, s4, s5⟩ := shape _ hb.1 hb.2
    refine ⟨s1, s2, s3, s4, ?_, ?_, ?_⟩
    · intro hv
      rw [cut_of_neg (div_nonpos_of_nonpos_of_nonneg (by linarith) hp.le)]
      unfold hotToCold
      rw [if_pos (by norm_num), mul_zero]
    · intro hv
      rw [cut_of_big (by rw [one_le_div hp]; linarith)]
      unfold hotToCold
      rw [if_neg (by norm_num), if_neg (by norm_num), if_neg (by norm_num), mul_one, sub_self]
    · intro value' h1 h2 h3 h4 e
      rw [hotToCold_eq value' min max h] at e
      injection e with e
      have i1 : cut ((value - min) / (max - min)) = (value - min) / (max - min) :=
        cut_of_mem (div_nonneg (by linarith) hp.le) (by rw [div_le_one hp]; linarith)
      have i2 : cut ((value' - min) / (max - min)) = (value' - min) / (max - min) :=
        cut_of_mem (div_nonneg (by linarith) hp.le) (by rw [div_le_one hp]; linarith)
      have inj : ∀ t u : K, hotToCold t = hotToCold u → t = u := by
        intro t u
        unfold hotToCold
        split_ifs <;> simp only [Color.mk.injEq] <;> rintro ⟨e1, e2, e3, -⟩ <;> linarith
      have := inj _ _ e
      rw [i1, i2] at this
      field_simp at this
      linarith
  · intro h value
    unfold interpolateHotToCold
    rw [Out.assert_false (not_lt.2 h)]
    rfl

/-- `InterpolateColor` of two valid colors is valid, is the first color for ratios up to 0 and the second
from 1 on, and lies channel by channel the given fraction of the way between them. -/
theorem C66_interpolate (c1 c2 : Color K) (h1 : Valid c1) (h2 : Valid c2) (ratio : K) :
    ∃ c, interpolateColor c1 c2 ratio = .ok c ∧ Valid c ∧
      (ratio ≤ 0 → c = c1) ∧ (1 ≤ ratio → c = c2) ∧
      (0 ≤ ratio → ratio ≤ 1 → c = ⟨c1.r + ratio * (c2.r - c1.r), c1.g + ratio * (c2.g - c1.g),
        c1.b + ratio * (c2.b - c1.b), c1.a + ratio * (c2.a - c1.a)⟩) := by
  have hb := cut_bounds ratio
  have ht : realRatio ratio = cut ratio := rfl
  have mid : ∀ x y : K, (0 ≤ x ∧ x ≤ 1) → (0 ≤ y ∧ y ≤ 1) →
      0 ≤ x * (1 - cut ratio) + y * cut ratio ∧ x * (1 - cut ratio) + y * cut ratio ≤ 1 := by
    intro x y hx hy
    constructor
    · exact add_nonneg (mul_nonneg hx.1 (by linarith [hb.2])) (mul_nonneg hy.1 hb.1)
    · nlinarith [mul_le_mul_of_nonneg_right hx.2 (show 0 ≤ 1 - cut ratio by linarith [hb.2]),
        mul_le_mul_of_nonneg_right hy.2 hb.1]
  obtain ⟨r1, g1, b1, a1⟩ := h1
  obtain ⟨r2, g2, b2, a2⟩ := h2
  have mr := mid _ _ r1 r2
  have mg := mid _ _ g1 g2
  have mb := mid _ _ b1 b2
  have ma := mid _ _ a1 a2
  refine ⟨⟨c1.r * (1 - cut ratio) + c2.r * cut ratio, c1.g * (1 - cut ratio) + c2.g * cut ratio,
    c1.b * (1 - cut ratio) + c2.b * cut ratio, c1.a * (1 - cut ratio) + c2.a * cut ratio⟩, ?_,
    ⟨mr, mg, mb, ma⟩, ?_, ?_, ?_⟩
  · unfold interpolateColor
    simp only [ht, trim_eq, Out.bind_ok]
    rw [cut_of_mem mr.1 mr.2, cut_of_mem mg.1 mg.2, cut_of_mem mb.1 mb.2, cut_of_mem ma.1 ma.2]
  · intro h
    rw [cut_of_neg h]
    simp
  · intro h
    rw [cut_of_big h]
    simp
  · intro h0 h1
    rw [cut_of_mem h0 h1]
    simp only [Color.mk.injEq]
    refine ⟨?_, ?_, ?_, ?_⟩ <;> ring

/-- `Multiply` scales red, green and blue, cut off at 0 and 1, and keeps alpha. -/
theorem C66_multiply (c : Color K) (factor : K) :
    multiply c factor = .ok ⟨cut (factor * c.r), cut (factor * c.g), cut (factor * c.b), c.a⟩ := by
  unfold multiply
  simp only [trim_eq, Out.bind_ok]

end

/-! ## Concrete cases -/

/-- Exact arithmetic is a rounding in the sense of the theorems. -/
example : FloatRounding (id : ℚ → ℚ) := ⟨fun _ _ h => h, fun _ _ => rfl, fun x hx _ => by
  simp only [id, sub_self, abs_zero]
  have : (0 : ℚ) ≤ x := le_trans (by norm_num) hx
  positivity⟩

example : channelToHex (id : ℚ → ℚ) (1 / 2) = .ok 128 ∧ channelToHex (id : ℚ → ℚ) (-3) = .ok 0 ∧
    interpolateHotToCold (3 / 8 : ℚ) 0 1 = .ok ⟨0, 1, 1 / 2, 1⟩ ∧
    interpolateHotToCold (2 : ℚ) 1 1 = .abort ∧
    interpolateColor (⟨0, 1, 1, 1⟩ : Color ℚ) ⟨1, 0, 1, 1⟩ (1 / 4) = .ok ⟨1 / 4, 3 / 4, 1, 1⟩ ∧
    generateUniqueColor (id : ℚ → ℚ) 21 (1 / 2) = .ok ⟨0, 0, 0, 1 / 2⟩ := by
  refine ⟨?_, ?_, ?_, ?_, ?_, ?_⟩ <;> decide +kernel

end Verif.Colors
