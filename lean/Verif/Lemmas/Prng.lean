import Mathlib.Data.Fintype.EquivFin
import Verif.Spec.Prng

/-! # Xor-shifts and odd multiplications are injective -/
namespace Verif.Prng
open Verif

theorem shr_fix {w : Nat} {z : BitVec w} {k : Nat} (hk : 0 < k) (h : z = z >>> k) : z = 0 := by
  have key : ∀ m, z = z >>> (k * m) := by
    intro m
    induction m with
    | zero => simp
    | succ m ih =>
      rw [Nat.mul_succ, BitVec.shiftRight_add, ← ih]
      exact h
  have h1 := key w
  have : w ≤ k * w := Nat.le_mul_of_pos_left w hk
  rw [h1]
  apply BitVec.eq_of_toNat_eq
  rw [BitVec.toNat_ushiftRight]
  simp only [BitVec.ofNat_eq_ofNat, BitVec.toNat_ofNat, Nat.zero_mod]
  rw [Nat.shiftRight_eq_div_pow]
  apply Nat.div_eq_of_lt
  exact Nat.lt_of_lt_of_le z.isLt (Nat.pow_le_pow_right (by omega) this)

theorem shl_fix {w : Nat} {z : BitVec w} {k : Nat} (hk : 0 < k) (h : z = z <<< k) : z = 0 := by
  have key : ∀ m, z = z <<< (k * m) := by
    intro m
    induction m with
    | zero => simp
    | succ m ih =>
      rw [Nat.mul_succ, BitVec.shiftLeft_add, ← ih]
      exact h
  have h1 := key w
  have : w ≤ k * w := Nat.le_mul_of_pos_left w hk
  rw [h1]
  exact BitVec.shiftLeft_eq_zero this

theorem xor_cancel {w : Nat} {a b c d : BitVec w} (h : a ^^^ b = c ^^^ d) : a ^^^ c = b ^^^ d := by
  have := congrArg (fun t => t ^^^ (b ^^^ c)) h
  beta_reduce at this
  calc a ^^^ c = (a ^^^ b) ^^^ (b ^^^ c) := by
        rw [BitVec.xor_assoc, ← BitVec.xor_assoc b b c, BitVec.xor_self, BitVec.zero_xor]
    _ = (c ^^^ d) ^^^ (b ^^^ c) := this
    _ = b ^^^ d := by
        rw [BitVec.xor_comm c d, BitVec.xor_comm b c, BitVec.xor_assoc, ← BitVec.xor_assoc c c b,
          BitVec.xor_self, BitVec.zero_xor, BitVec.xor_comm]

theorem xor_eq_zero {w : Nat} {a b : BitVec w} (h : a ^^^ b = 0) : a = b := by
  have := congrArg (fun t => t ^^^ b) h
  simpa [BitVec.xor_assoc] using this

theorem xorShr_inj {w k : Nat} (hk : 0 < k) {x y : BitVec w} (h : x ^^^ (x >>> k) = y ^^^ (y >>> k)) :
    x = y := by
  apply xor_eq_zero
  apply shr_fix hk
  rw [BitVec.ushiftRight_xor_distrib]
  exact xor_cancel h

theorem xorShl_inj {w k : Nat} (hk : 0 < k) {x y : BitVec w} (h : x ^^^ (x <<< k) = y ^^^ (y <<< k)) :
    x = y := by
  apply xor_eq_zero
  apply shl_fix hk
  rw [BitVec.shiftLeft_xor_distrib]
  exact xor_cancel h

theorem mul_inj {w : Nat} {c d : BitVec w} (hc : c * d = 1) {x y : BitVec w} (h : x * c = y * c) : x = y := by
  have := congrArg (fun t => t * d) h
  simpa [BitVec.mul_assoc, hc] using this

theorem mix_inj {x y : BitVec 64} (h : mix x = mix y) : x = y := by
  unfold mix at h
  have h1 := xorShr_inj (by omega) h
  have h2 := mul_inj (d := 0x319642b2d24d8ec3#64) (by decide +kernel) h1
  have h3 := xorShr_inj (by omega) h2
  have h4 := mul_inj (d := 0x96de1b173f119089#64) (by decide +kernel) h3
  exact xorShr_inj (by omega) h4

theorem gamma_inv : ∃ d, gamma * d = 1 := ⟨0xf1de83e19937733d#64, by decide +kernel⟩

/-- the two words the seeds start with differ -/
theorem two_words (s : BitVec 64) : mix (s + gamma) ≠ mix (s + gamma + gamma) := by
  intro h
  have h1 := mix_inj h
  have h2 : s + gamma + 0#64 = s + gamma + gamma := by rw [BitVec.add_zero]; exact h1
  have h3 := (BitVec.add_right_inj _).1 h2
  exact absurd h3 (by decide)

/-- the word function of the `XorShift` generators -/
def twist (a b : Nat) (s : BitVec 64) : BitVec 64 := (s ^^^ (s <<< a)) ^^^ ((s ^^^ (s <<< a)) >>> b)

theorem twist_inj {a b : Nat} (ha : 0 < a) (hb : 0 < b) {x y : BitVec 64} (h : twist a b x = twist a b y) :
    x = y := xorShl_inj ha (xorShr_inj hb h)

theorem twist_surj {a b : Nat} (ha : 0 < a) (hb : 0 < b) (y : BitVec 64) : ∃ x, twist a b x = y := by
  have hf : Finite (BitVec 64) := Finite.of_injective BitVec.toFin (fun x y h => by
    cases x; cases y; simp_all)
  exact (Finite.injective_iff_surjective (f := twist a b)).1 (fun _ _ h => twist_inj ha hb h) y

theorem xor4 {w : Nat} (a b c d : BitVec w) : a ^^^ b ^^^ c ^^^ d = (a ^^^ c) ^^^ (b ^^^ d) := by
  rw [BitVec.xor_assoc a b c, BitVec.xor_comm b c, ← BitVec.xor_assoc a c b, BitVec.xor_assoc]

theorem step128 (g : Xs128) :
    g.next.2 = ⟨g.state2, twist 23 18 g.state1 ^^^ (g.state2 ^^^ (g.state2 >>> 5))⟩ := by
  unfold Xs128.next twist
  show Xs128.mk _ _ = _
  rw [xor4]

theorem xor_right_inj {w : Nat} {a b c : BitVec w} (h : a ^^^ c = b ^^^ c) : a = b := by
  have := congrArg (fun t => t ^^^ c) h
  simpa [BitVec.xor_assoc] using this

/-- the position after `p` -/
def succ16 (p : BitVec 32) : BitVec 32 := (p + 1) &&& 15

theorem succ16_toNat (p : BitVec 32) : (succ16 p).toNat = (p.toNat + 1) % 16 := by
  unfold succ16
  rw [BitVec.toNat_and, BitVec.toNat_add]
  have : ((15 : BitVec 32)).toNat = 2 ^ 4 - 1 := by decide
  rw [this, Nat.and_two_pow_sub_one_eq_mod]
  have : ((1 : BitVec 32)).toNat = 1 := by decide
  rw [this]
  omega

theorem next1024 {g : Xs1024} (h : g.p.toNat < 16) : ∃ s0 s1, g.state[g.p.toNat]? = some s0 ∧
    g.state[(succ16 g.p).toNat]? = some s1 ∧
    g.next = .ok ((twist 31 11 s1 ^^^ (s0 ^^^ (s0 >>> 30))) * 1181783497276652981#64,
      ⟨g.state.setIfInBounds (succ16 g.p).toNat (twist 31 11 s1 ^^^ (s0 ^^^ (s0 >>> 30))), succ16 g.p⟩) := by
  have h' : (succ16 g.p).toNat < 16 := by rw [succ16_toNat]; omega
  refine ⟨g.state[g.p.toNat], g.state[(succ16 g.p).toNat], Vector.getElem?_eq_getElem h,
    Vector.getElem?_eq_getElem h', ?_⟩
  have e : ∀ s1 s0 : BitVec 64, s1 ^^^ s1 <<< 31 ^^^ s0 ^^^ (s1 ^^^ s1 <<< 31) >>> 11 ^^^ s0 >>> 30 =
      twist 31 11 s1 ^^^ (s0 ^^^ (s0 >>> 30)) := by
    intro s1 s0; unfold twist; rw [xor4]
  unfold Xs1024.next Xs1024.read
  rw [Vector.getElem?_eq_getElem h]
  simp only [Out.bind_ok]
  rw [show (g.p + 1) &&& 15 = succ16 g.p from rfl, Vector.getElem?_eq_getElem h']
  simp only [Out.bind_ok, e]

theorem seedLoop_get (s : BitVec 64) (n : Nat) : ∀ (idx : Nat) (st : Vector (BitVec 64) 16),
    idx + n = 16 → ∀ i : Nat, i < 16 →
    (seedLoop n idx ⟨s + BitVec.ofNat 64 idx * gamma⟩ st)[i]? =
      if idx ≤ i then some (mix (s + BitVec.ofNat 64 (i + 1) * gamma)) else st[i]? := by
  induction n with
  | zero => intro idx st h i hi; rw [if_neg (by omega)]; rfl
  | succ n ih =>
    intro idx st h i hi
    have e : s + BitVec.ofNat 64 idx * gamma + gamma = s + BitVec.ofNat 64 (idx + 1) * gamma := by
      rw [BitVec.add_assoc, BitVec.ofNat_add, BitVec.add_mul, BitVec.one_mul]
    simp only [seedLoop, SplitMix.next, e]
    rw [ih (idx + 1) _ (by omega) i hi]
    by_cases h1 : idx + 1 ≤ i
    · rw [if_pos h1, if_pos (by omega)]
    · rw [if_neg h1]
      by_cases h2 : i = idx
      · subst h2
        rw [if_pos (by omega), Vector.getElem?_setIfInBounds_self_of_lt hi]
      · rw [if_neg (by omega), Vector.getElem?_setIfInBounds_ne (by omega)]

theorem seed_get (g : Xs1024) (s : BitVec 64) (i : Nat) (hi : i < 16) :
    (g.seed s).state[i]? = some (mix (s + BitVec.ofNat 64 (i + 1) * gamma)) := by
  have := seedLoop_get s 16 0 g.state (by omega) i hi
  simp only [BitVec.zero_mul, BitVec.add_zero, Nat.zero_le, if_true] at this
  exact this

theorem seed_state (g g' : Xs1024) (s : BitVec 64) : (g.seed s).state = (g'.seed s).state := by
  apply Vector.ext
  intro i hi
  have h1 := seed_get g s i hi
  have h2 := seed_get g' s i hi
  rw [Vector.getElem?_eq_getElem hi] at h1 h2
  rw [← h2] at h1
  injection h1

theorem seed_p (g : Xs1024) (s : BitVec 64) : (g.seed s).p = g.p := by
  simp only [Xs1024.seed]
theorem construct_p (g : Xs1024) (s : BitVec 64) : (g.construct s).p = 0 := by
  simp only [Xs1024.construct]
theorem construct_state (g : Xs1024) (s : BitVec 64) : (g.construct s).state = (g.seed s).state := by
  simp only [Xs1024.construct]

theorem construct_eq (g g' : Xs1024) (s : BitVec 64) : g.construct s = g'.construct s := by
  have h : ∀ a b : Xs1024, a.state = b.state → a.p = b.p → a = b := by
    intro a b h1 h2; cases a; cases b; simp only at h1 h2; rw [h1, h2]
  apply h
  · rw [construct_state, construct_state, seed_state g g']
  · rw [construct_p, construct_p]

/-- The first output of a generator with a freshly seeded array. -/
theorem first_output (g : Xs1024) (s : BitVec 64) (k : Nat) (hk : k < 15) (hp : g.p = BitVec.ofNat 32 k)
    (hg : ∀ i : Nat, i < 16 → g.state[i]? = some (mix (s + BitVec.ofNat 64 (i + 1) * gamma))) :
    ∃ g', g.next = .ok ((twist 31 11 (mix (s + BitVec.ofNat 64 (k + 2) * gamma)) ^^^
      (mix (s + BitVec.ofNat 64 (k + 1) * gamma) ^^^ (mix (s + BitVec.ofNat 64 (k + 1) * gamma) >>> 30))) *
      1181783497276652981#64, g') := by
  have hn : g.p.toNat = k := by rw [hp, BitVec.toNat_ofNat]; omega
  obtain ⟨s0, s1, a0, a1, e⟩ := next1024 (g := g) (by omega)
  have hs := succ16_toNat g.p
  have hs' : (succ16 g.p).toNat = k + 1 := by omega
  rw [hn, hg k (by omega)] at a0
  rw [hs', hg (k + 1) (by omega)] at a1
  injection a0 with a0
  injection a1 with a1
  subst a0 a1
  exact ⟨_, e⟩

end Verif.Prng
