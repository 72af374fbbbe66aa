import Verif.Props.Prng
import Verif.Spec.PrngSequence

/-!
# C40: the generators produce the published sequences
-/
namespace Verif.Prng
open Verif Verif.PrngSequence

theorem toNat_right (k : Nat) (x : BitVec 64) : (x ^^^ (x >>> k)).toNat = right k x.toNat := by
  rw [BitVec.toNat_xor, BitVec.toNat_ushiftRight, Nat.shiftRight_eq_div_pow]
  rfl

theorem toNat_left (k : Nat) (x : BitVec 64) : (x ^^^ (x <<< k)).toNat = left k x.toNat := by
  rw [BitVec.toNat_xor, BitVec.toNat_shiftLeft, Nat.shiftLeft_eq]
  rfl

theorem toNat_mul (x c : BitVec 64) : (x * c).toNat = low (x.toNat * c.toNat) := BitVec.toNat_mul ..

theorem mix_toNat (s : BitVec 64) (i : Nat) :
    (mix (s + BitVec.ofNat 64 (i + 1) * gamma)).toNat = splitmix s.toNat i := by
  unfold mix splitmix
  simp only [toNat_right, toNat_mul]
  have e : (s + BitVec.ofNat 64 (i + 1) * gamma).toNat = low (s.toNat + (i + 1) * 0x9E3779B97F4A7C15) := by
    rw [BitVec.toNat_add, BitVec.toNat_mul, BitVec.toNat_ofNat]
    have : gamma.toNat = 0x9E3779B97F4A7C15 := by decide
    rw [this]
    unfold low
    rw [Nat.mod_mul_mod, Nat.add_mod_mod]
  have c1 : (0xBF58476D1CE4E5B9#64).toNat = 0xBF58476D1CE4E5B9 := by decide +kernel
  have c2 : (0x94D049BB133111EB#64).toNat = 0x94D049BB133111EB := by decide +kernel
  rw [e, c1, c2]

theorem twist_toNat (a b : Nat) (x : BitVec 64) : (twist a b x).toNat = right b (left a x.toNat) := by
  unfold twist
  rw [toNat_right, toNat_left]

/-- Number `i` of the results of `SplitMix64PRNG` is number `i` of splitmix64 started at the seed. -/
theorem C40_splitmix_sequence (raw : SplitMix) (s : BitVec 64) (n : Nat) :
    (draws SplitMix.next n (raw.construct s)).1.map BitVec.toNat =
      (List.range n).map (splitmix s.toNat) := by
  apply List.ext_getElem?
  intro i
  rw [List.getElem?_map, (splitmix_draws n _).2 i, List.getElem?_map]
  by_cases h : i < n
  · rw [if_pos h, List.getElem?_range h]
    exact congrArg some (mix_toNat s i)
  · rw [if_neg h, List.getElem?_eq_none (by simpa using h)]
    rfl

theorem range_shift (f : Nat → Nat) (k n : Nat) : ((List.range (n + 1)).map fun i => f (k + i)) =
    f k :: (List.range n).map fun i => f (k + 1 + i) := by
  rw [List.range_succ_eq_map, List.map_cons, List.map_map, Nat.add_zero]
  refine congrArg (f k :: ·) (List.map_congr_left fun i _ => ?_)
  simp only [Function.comp]
  rw [show k + 1 + i = k + Nat.succ i from by omega]

theorem xs128_draws (s : Nat) (n : Nat) : ∀ (k : Nat) (g : Xs128), g.state1.toNat = word128 s k →
    g.state2.toNat = word128 s (k + 1) →
    (draws Xs128.next n g).1.map BitVec.toNat = (List.range n).map fun i => xorshift128 s (k + i) := by
  induction n with
  | zero => intro k g _ _; rfl
  | succ n ih =>
    intro k g h1 h2
    have e := step128 g
    have w : (twist 23 18 g.state1 ^^^ (g.state2 ^^^ (g.state2 >>> 5))).toNat = word128 s (k + 2) := by
      rw [BitVec.toNat_xor, twist_toNat, toNat_right, h1, h2, word128]
    have out : g.next.1 = g.next.2.state2 + g.state2 := rfl
    have hd : g.next.1.toNat = xorshift128 s k := by
      rw [out, e, BitVec.toNat_add, w, h2]
      rfl
    have := ih (k + 1) g.next.2 (by rw [e]; exact h2) (by rw [e]; exact w)
    rw [range_shift, ← this, ← hd]
    rfl

/-- Number `i` of the results of `XorShift128PlusPRNG` is number `i` of xorshift128+ started from the seed. -/
theorem C40_xorshift128_sequence (raw : Xs128) (s : BitVec 64) (n : Nat) :
    (draws Xs128.next n (raw.construct s)).1.map BitVec.toNat =
      (List.range n).map (xorshift128 s.toNat) := by
  have h1 : (raw.construct s).state1 = mix (s + BitVec.ofNat 64 (0 + 1) * gamma) := by
    rw [Nat.zero_add, BitVec.one_mul]; rfl
  have h2 : (raw.construct s).state2 = mix (s + BitVec.ofNat 64 (1 + 1) * gamma) := by
    rw [BitVec.ofNat_add, BitVec.add_mul, BitVec.one_mul, ← BitVec.add_assoc]; rfl
  have := xs128_draws s.toNat n 0 (raw.construct s) (by rw [h1, mix_toNat]; rfl) (by rw [h2, mix_toNat]; rfl)
  simpa using this

theorem word1024_succ (s k : Nat) : word1024 s (k + 16) =
    right 11 (left 31 (word1024 s k)) ^^^ right 30 (word1024 s (k + 15)) := by
  rw [word1024, if_neg (by omega), if_neg (by omega), Nat.add_sub_cancel,
    show k + 16 - 1 = k + 15 from by omega]

theorem xs1024_draws (s : Nat) (n : Nat) : ∀ (k : Nat) (g : Xs1024), g.p.toNat < 16 →
    (∀ i, i < 16 → ∃ v, g.state[(g.p.toNat + 1 + i) % 16]? = some v ∧ v.toNat = word1024 s (k + i)) →
    ∃ vs g', drawsOut Xs1024.next n g = .ok (vs, g') ∧
      vs.map BitVec.toNat = (List.range n).map fun i => xorshift1024 s (k + i) := by
  induction n with
  | zero => intro k g _ _; exact ⟨[], g, rfl, rfl⟩
  | succ n ih =>
    intro k g hp hw
    obtain ⟨s0, s1, a0, a1, e⟩ := next1024 hp
    have hs := succ16_toNat g.p
    have hlt : (succ16 g.p).toNat < 16 := by omega
    obtain ⟨v0, b0, c0⟩ := hw 15 (by omega)
    obtain ⟨v1, b1, c1⟩ := hw 0 (by omega)
    rw [show (g.p.toNat + 1 + 15) % 16 = g.p.toNat from by omega, a0] at b0
    rw [show (g.p.toNat + 1 + 0) % 16 = (succ16 g.p).toNat from by omega, a1] at b1
    injection b0 with b0
    injection b1 with b1
    subst b0 b1
    have w : (twist 31 11 s1 ^^^ (s0 ^^^ (s0 >>> 30))).toNat = word1024 s (k + 16) := by
      rw [BitVec.toNat_xor, twist_toNat, toNat_right, c0, c1, word1024_succ, Nat.add_zero]
    generalize twist 31 11 s1 ^^^ (s0 ^^^ (s0 >>> 30)) = x at w e
    obtain ⟨vs, g', h1, h2⟩ := ih (k + 1) ⟨g.state.setIfInBounds (succ16 g.p).toNat x, succ16 g.p⟩ hlt (by
      intro i hi
      show ∃ v, (g.state.setIfInBounds (succ16 g.p).toNat x)[((succ16 g.p).toNat + 1 + i) % 16]? = some v ∧ _
      by_cases h15 : i = 15
      · subst h15
        refine ⟨x, ?_, by rw [w, show k + 1 + 15 = k + 16 from by omega]⟩
        rw [show ((succ16 g.p).toNat + 1 + 15) % 16 = (succ16 g.p).toNat from by omega]
        exact Vector.getElem?_setIfInBounds_self_of_lt hlt
      · obtain ⟨v, d1, d2⟩ := hw (i + 1) (by omega)
        refine ⟨v, ?_, by rw [d2]; congr 1; omega⟩
        rw [show ((succ16 g.p).toNat + 1 + i) % 16 = (g.p.toNat + 1 + (i + 1)) % 16 from by omega,
          Vector.getElem?_setIfInBounds_ne (by omega)]
        exact d1)
    refine ⟨x * 1181783497276652981#64 :: vs, g', by simp only [drawsOut, e, Out.bind_ok, h1], ?_⟩
    have hd : (x * 1181783497276652981#64).toNat = xorshift1024 s k := by
      have c : (1181783497276652981#64).toNat = 1181783497276652981 := by decide +kernel
      rw [toNat_mul, w, c, xorshift1024]
    rw [List.map_cons, hd, h2, range_shift]

/-- Number `i` of the results of `XorShift1024StarPRNG` is number `i` of xorshift1024* started from the
seed. -/
theorem C40_xorshift1024_sequence (raw : Xs1024) (s : BitVec 64) (n : Nat) :
    ∃ vs g, drawsOut Xs1024.next n (raw.construct s) = .ok (vs, g) ∧
      vs.map BitVec.toNat = (List.range n).map (xorshift1024 s.toNat) := by
  have hp : (raw.construct s).p.toNat = 0 := by rw [construct_p]; rfl
  obtain ⟨vs, g, h1, h2⟩ := xs1024_draws s.toNat n 0 (raw.construct s) (by rw [hp]; omega) (by
    intro i hi
    rw [hp, construct_state]
    refine ⟨_, seed_get raw s _ (Nat.mod_lt _ (by omega)), ?_⟩
    simp only [Nat.zero_add]
    rw [mix_toNat, word1024]
    by_cases h : i < 15
    · rw [if_pos h]; congr 1; omega
    · rw [if_neg h, if_pos (by omega)]; congr 1; omega)
  exact ⟨vs, g, h1, by simpa using h2⟩

/-- the first number of splitmix64 started at 0 -/
example : splitmix 0 0 = 0xE220A8397B1DCDAF := by decide +kernel

end Verif.Prng
