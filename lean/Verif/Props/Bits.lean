import Verif.Model.Bits

/-!
# C42: bit helpers
-/
namespace Verif.Bits
open Verif

theorem updateMask_bit {w k : Nat} (hk : k < promoted w) : ∃ m, updateMask w k = .ok m ∧
    ∀ j, m.getLsbD j = (decide (j < w) && decide (j = k)) := by
  refine ⟨_, by rw [updateMask, if_pos hk], ?_⟩
  intro j
  rw [BitVec.getLsbD_setWidth, BitVec.getLsbD_shiftLeft, BitVec.getLsbD_ofNat]
  have hp : w ≤ promoted w := Nat.le_max_left _ _
  have hp' : 32 ≤ promoted w := Nat.le_max_right _ _
  by_cases hj : j < w
  · by_cases h1 : j < k
    · simp [h1, Nat.ne_of_lt h1]
    · by_cases h2 : j = k
      · subst h2
        simp [hj, hk]
        omega
      · have h3 : j - k ≠ 0 := by omega
        have : Nat.testBit 1 (j - k) = false := by
          rw [show (1 : Nat) = 2 ^ 0 from rfl, Nat.testBit_two_pow_of_ne (by omega)]
        simp [hj, h1, h2, this]
  · simp [hj]

/-- `SetBit(x, k, b)` with `k` below the width gives the bit `k` the value `b` and leaves all other bits
as they were. -/
theorem C42_set_bit {w : Nat} (x : BitVec w) (k : Nat) (hk : k < w) (b : Bool) :
    ∃ r, setBit x k b = .ok r ∧ r.getLsbD k = b ∧ ∀ j, j ≠ k → r.getLsbD j = x.getLsbD j := by
  have hp : w ≤ promoted w := Nat.le_max_left _ _
  obtain ⟨m, e, hm⟩ := updateMask_bit (w := w) (k := k) (by omega)
  unfold setBit
  rw [e]
  cases b with
  | true =>
    refine ⟨_, rfl, ?_, ?_⟩
    · rw [BitVec.getLsbD_or, hm]; simp [hk]
    · intro j hj; rw [BitVec.getLsbD_or, hm]; simp [hj]
  | false =>
    refine ⟨_, rfl, ?_, ?_⟩
    · rw [BitVec.getLsbD_and, BitVec.getLsbD_not, hm]; simp [hk]
    · intro j hj
      rw [BitVec.getLsbD_and, BitVec.getLsbD_not, hm]
      by_cases hw : j < w
      · simp [hj, hw]
      · rw [BitVec.getLsbD_of_ge x j (by omega)]; simp

/-- For `k` at or above the width: a position below 32 leaves a narrow value unchanged, every other
position is an undefined shift. -/
theorem C42_set_bit_beyond {w : Nat} (x : BitVec w) (k : Nat) (hk : w ≤ k) (b : Bool) :
    (k < 32 → setBit x k b = .ok x) ∧ (32 ≤ k → setBit x k b = .ub) := by
  constructor
  · intro h
    obtain ⟨m, e, hm⟩ := updateMask_bit (w := w) (k := k) (Nat.lt_of_lt_of_le h (Nat.le_max_right _ _))
    have hz : m = 0#w := by
      apply BitVec.eq_of_getLsbD_eq
      intro j hj
      rw [hm, BitVec.getLsbD_zero]
      have : j ≠ k := by omega
      simp [this]
    unfold setBit
    rw [e, hz]
    cases b <;> simp
  · intro h
    unfold setBit updateMask promoted
    rw [if_neg (by omega)]
    rfl

/-- The exact result of `GetBit`: the bit, if the position is below both the width and 32; `false` for all
other positions whose shift is defined; undefined otherwise. -/
theorem C42_get_bit {w : Nat} (x : BitVec w) (k : Nat) :
    getBit x k = if k < promoted w then .ok (decide (k < 32) && x.getLsbD k) else .ub := by
  unfold getBit setBit
  by_cases hk : k < promoted w
  · rw [if_pos hk]
    obtain ⟨m, e, hm⟩ := updateMask_bit (w := w) (k := k) hk
    rw [e]
    simp only [Out.bind_ok, if_true]
    congr 1
    have hp : w ≤ promoted w := Nat.le_max_left _ _
    have hp' : 32 ≤ promoted w := Nat.le_max_right _ _
    have hbit : ∀ j, ((((0 : BitVec w) ||| m).setWidth 32).setWidth (promoted w) &&&
        x.setWidth (promoted w)).getLsbD j = (decide (j = k) && decide (k < 32) && x.getLsbD k) := by
      intro j
      rw [BitVec.getLsbD_and, BitVec.getLsbD_setWidth, BitVec.getLsbD_setWidth, BitVec.getLsbD_setWidth,
        BitVec.getLsbD_or, hm]
      by_cases h : j = k
      · subst h
        by_cases hw : j < w
        · simp [hw, hk]
        · rw [BitVec.getLsbD_of_ge x j (by omega)]; simp
      · simp [h]
    cases hx : (decide (k < 32) && x.getLsbD k) with
    | false =>
      have hz : ((((0 : BitVec w) ||| m).setWidth 32).setWidth (promoted w) &&&
        x.setWidth (promoted w)) = 0#(promoted w) := by
        apply BitVec.eq_of_getLsbD_eq
        intro j _
        rw [hbit, BitVec.getLsbD_zero, Bool.and_assoc, hx, Bool.and_false]
      rw [hz]
      simp
    | true =>
      rw [decide_eq_true_iff]
      apply Nat.pos_of_ne_zero
      intro h0
      have hb := hbit k
      rw [Bool.and_assoc, hx] at hb
      simp only [BitVec.getLsbD, h0, decide_true, Bool.true_and, Nat.zero_testBit] at hb
      cases hb
  · rw [if_neg hk]
    unfold updateMask
    rw [if_neg hk]
    rfl

/-- For positions below the width and below 32, `GetBit` after `SetBit` gives the value that was set, and
the other bits read as before. -/
theorem C42_set_then_get_partial {w : Nat} (x : BitVec w) (k : Nat) (hk : k < w) (h32 : k < 32) (b : Bool) :
    ∃ r, setBit x k b = .ok r ∧ getBit r k = .ok b ∧ ∀ j, j ≠ k → getBit r j = getBit x j := by
  obtain ⟨r, e, h1, h2⟩ := C42_set_bit x k hk b
  refine ⟨r, e, ?_, ?_⟩
  · rw [C42_get_bit, if_pos (show k < promoted _ from Nat.lt_of_lt_of_le hk (Nat.le_max_left _ _)), h1]
    simp [h32]
  · intro j hj
    rw [C42_get_bit, C42_get_bit, h2 j hj]

/-- For 64-bit values and positions from 32 up, `GetBit` answers `false` even right after `SetBit` set the
bit. -/
theorem C42_high_bits_unreadable (x : BitVec 64) (k : Nat) (h32 : 32 ≤ k) (hk : k < 64) :
    ∃ r, setBit x k true = .ok r ∧ r.getLsbD k = true ∧ getBit r k = .ok false := by
  obtain ⟨r, e, h1, _⟩ := C42_set_bit x k hk true
  refine ⟨r, e, h1, ?_⟩
  rw [C42_get_bit, if_pos (show k < promoted _ from Nat.lt_of_lt_of_le hk (Nat.le_max_left _ _))]
  have : ¬ k < 32 := by omega
  simp [this]

example : setBit (0x10#8) 3 true = .ok 0x18#8 ∧ getBit (0x18#8) 3 = .ok true ∧
    setBit (0x18#8) 4 false = .ok 0x08#8 ∧ getBit (0x10#8) 40 = .ub := by decide

end Verif.Bits
