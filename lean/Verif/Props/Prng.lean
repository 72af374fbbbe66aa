import Verif.Lemmas.Prng

/-!
# C40, C41: the pseudo-random generators
-/
namespace Verif.Prng
open Verif

theorem discardLoop_eq {σ : Type} (next : σ → BitVec 64 × σ) (n : Nat) : ∀ g : σ,
    discardLoop next n g = (draws next n g).2 := by
  induction n with
  | zero => intro g; rfl
  | succ n ih => intro g; exact ih (next g).2

theorem discardLoopOut_eq {σ : Type} (next : σ → Out (BitVec 64 × σ)) (n : Nat) : ∀ g : σ,
    discardLoopOut next n g = (drawsOut next n g >>= fun r => .ok r.2) := by
  induction n with
  | zero => intro g; rfl
  | succ n ih =>
    intro g
    unfold discardLoopOut drawsOut
    cases h : next g with
    | ok r =>
      simp only [Out.bind_ok]
      rw [ih r.2]
      cases drawsOut next n r.2 <;> rfl
    | throws x => rfl
    | abort => rfl
    | ub => rfl

/-- `discard(n)` leaves each generator as `n` calls do. -/
theorem C40_discard (n : Nat) (a : SplitMix) (b : Xs128) (c : Xs1024) :
    a.discard n = (draws SplitMix.next n a).2 ∧ b.discard n = (draws Xs128.next n b).2 ∧
    c.discard n = (drawsOut Xs1024.next n c >>= fun r => .ok r.2) :=
  ⟨discardLoop_eq _ n a, discardLoop_eq _ n b, discardLoopOut_eq _ n c⟩

/-- a generator that adds a constant to its state and outputs a function of the new state -/
theorem counter_draws (f : BitVec 64 → BitVec 64) (c : BitVec 64) (n : Nat) : ∀ (g : SplitMix),
    (draws (fun g : SplitMix => (f (g.state + c), ⟨g.state + c⟩)) n g).2.state =
      g.state + BitVec.ofNat 64 n * c ∧
    ∀ i, (draws (fun g : SplitMix => (f (g.state + c), ⟨g.state + c⟩)) n g).1[i]? =
      if i < n then some (f (g.state + BitVec.ofNat 64 (i + 1) * c)) else none := by
  induction n with
  | zero =>
    intro g
    simp only [draws, BitVec.zero_mul, BitVec.add_zero, true_and]
    intro i
    rw [if_neg (by omega)]
    rfl
  | succ n ih =>
    intro g
    obtain ⟨h1, h2⟩ := ih ⟨g.state + c⟩
    dsimp only at h1 h2
    have e : ∀ k, g.state + c + BitVec.ofNat 64 k * c = g.state + BitVec.ofNat 64 (k + 1) * c := by
      intro k
      rw [BitVec.ofNat_add, BitVec.add_mul, BitVec.one_mul, BitVec.add_assoc, BitVec.add_comm c]
    refine ⟨?_, ?_⟩
    · simp only [draws, h1]
      rw [e n]
    · intro i
      cases i with
      | zero =>
        simp only [draws, List.getElem?_cons_zero]
        rw [if_pos (by omega), Nat.zero_add, BitVec.one_mul]
      | succ i =>
        simp only [draws, List.getElem?_cons_succ, h2]
        by_cases hi : i < n
        · rw [if_pos hi, if_pos (by omega), e (i + 1)]
        · rw [if_neg hi, if_neg (by omega)]

theorem splitmix_draws (n : Nat) (g : SplitMix) :
    (draws SplitMix.next n g).2.state = g.state + BitVec.ofNat 64 n * gamma ∧
    ∀ i, (draws SplitMix.next n g).1[i]? =
      if i < n then some (mix (g.state + BitVec.ofNat 64 (i + 1) * gamma)) else none :=
  counter_draws mix gamma n g

/-- The outputs of `SplitMix64PRNG` repeat with period exactly `2^64`, whatever the seed: the results
number `i` and `j` are equal exactly when `i` and `j` differ by a multiple of `2^64`. -/
theorem C40_splitmix_period (raw : SplitMix) (s : BitVec 64) (n i j : Nat) (hi : i < n) (hj : j < n) :
    (draws SplitMix.next n (SplitMix.construct raw s)).1.length = n ∧
    ((draws SplitMix.next n (SplitMix.construct raw s)).1[i]? =
      (draws SplitMix.next n (SplitMix.construct raw s)).1[j]? ↔ i % 2 ^ 64 = j % 2 ^ 64) := by
  have hlen : ∀ n (g : SplitMix), (draws SplitMix.next n g).1.length = n := by
    intro n
    induction n with
    | zero => intro g; rfl
    | succ n ih => intro g; simp [draws, ih]
  refine ⟨hlen n _, ?_⟩
  have h2 := (splitmix_draws n (SplitMix.construct raw s)).2
  rw [h2 i, h2 j, if_pos hi, if_pos hj]
  simp only [Option.some.injEq]
  constructor
  · intro h
    have h3 := mix_inj h
    have h4 := (BitVec.add_right_inj _).1 h3
    obtain ⟨d, hd⟩ := gamma_inv
    have h5 := congrArg BitVec.toNat (mul_inj hd h4)
    simp only [BitVec.toNat_ofNat] at h5
    omega
  · intro h
    have : BitVec.ofNat 64 (i + 1) = BitVec.ofNat 64 (j + 1) := by
      apply BitVec.eq_of_toNat_eq
      simp only [BitVec.toNat_ofNat]
      omega
    rw [this]

/-- The state update of `XorShift128PlusPRNG` is a bijection: no two states merge and every state has a
predecessor. -/
theorem C40_xorshift128_bijective : (∀ a b : Xs128, a.next.2 = b.next.2 → a = b) ∧
    ∀ b : Xs128, ∃ a : Xs128, a.next.2 = b := by
  constructor
  · intro a b h
    rw [step128, step128] at h
    injection h with h1 h2
    rw [h1] at h2
    have h3 := twist_inj (by omega) (by omega) (xor_right_inj h2)
    cases a; cases b
    simp only at h1 h3
    rw [h1, h3]
  · intro b
    obtain ⟨x, hx⟩ := twist_surj (a := 23) (b := 18) (by omega) (by omega)
      (b.state2 ^^^ (b.state1 ^^^ (b.state1 >>> 5)))
    refine ⟨⟨x, b.state1⟩, ?_⟩
    rw [step128]
    simp only [hx, BitVec.xor_assoc, BitVec.xor_self, BitVec.xor_zero]

/-- For every seed, `XorShift128PlusPRNG` is never in the all-zero state, after any number of draws. -/
theorem C40_xorshift128_never_zero (raw : Xs128) (s : BitVec 64) (n : Nat) :
    (draws Xs128.next n (Xs128.construct raw s)).2 ≠ ⟨0, 0⟩ := by
  have key : ∀ n (g : Xs128), g ≠ ⟨0, 0⟩ → (draws Xs128.next n g).2 ≠ ⟨0, 0⟩ := by
    intro n
    induction n with
    | zero => intro g h; exact h
    | succ n ih =>
      intro g h
      refine ih g.next.2 ?_
      intro h'
      apply h
      apply C40_xorshift128_bijective.1
      rw [h']
      decide +kernel
  apply key
  intro h
  simp only [Xs128.construct, Xs128.seed, SplitMix.construct, SplitMix.seed, SplitMix.next,
    Xs128.mk.injEq] at h
  exact two_words s (h.1.trans h.2.symm)

/-- Only the all-zero state is a fixed point of getting stuck at zero: the all-zero state would stay. -/
example : (Xs128.mk 0 0).next = (0, ⟨0, 0⟩) := by decide +kernel

/-- The state update of `XorShift1024StarPRNG` is a bijection on the states with a position below 16. -/
theorem C40_xorshift1024_bijective :
    (∀ a b : Xs1024, a.p.toNat < 16 → b.p.toNat < 16 →
      ∀ va vb c, a.next = .ok (va, c) → b.next = .ok (vb, c) → a = b) ∧
    (∀ c : Xs1024, c.p.toNat < 16 → ∃ (a : Xs1024) (v : BitVec 64), a.p.toNat < 16 ∧ a.next = .ok (v, c)) := by
  constructor
  · intro a b ha hb va vb c h1 h2
    obtain ⟨s0, s1, a0, a1, an⟩ := next1024 ha
    obtain ⟨t0, t1, b0, b1, bn⟩ := next1024 hb
    rw [an] at h1
    rw [bn] at h2
    simp only [Out.ok.injEq, Prod.mk.injEq] at h1 h2
    have h := h1.2.trans h2.2.symm
    injection h with hs hp
    have ea := succ16_toNat a.p
    have eb := succ16_toNat b.p
    have hpn : a.p.toNat = b.p.toNat := by
      rw [hp] at ea
      omega
    have hp' : a.p = b.p := BitVec.eq_of_toNat_eq hpn
    have hne : a.p.toNat ≠ (succ16 a.p).toNat := by omega
    have hlt : (succ16 a.p).toNat < 16 := by omega
    rw [← hp'] at hs b0 b1
    have get : ∀ i : Nat, i < 16 → i ≠ (succ16 a.p).toNat → a.state[i]? = b.state[i]? := by
      intro i hi hne
      have := congrArg (fun v : Vector (BitVec 64) 16 => v[i]?) hs
      simpa [Vector.getElem?_setIfInBounds_ne (Ne.symm hne)] using this
    have e0 : s0 = t0 := by
      have := get a.p.toNat ha hne
      rw [a0, b0] at this
      injection this
    subst e0
    have e1 : s1 = t1 := by
      have := congrArg (fun v : Vector (BitVec 64) 16 => v[(succ16 a.p).toNat]?) hs
      simp only [Vector.getElem?_setIfInBounds_self_of_lt hlt, Option.some.injEq] at this
      exact twist_inj (by omega) (by omega) (xor_right_inj this)
    subst e1
    have est : a.state = b.state := by
      apply Vector.ext
      intro i hi
      have : a.state[i]? = b.state[i]? := by
        by_cases h : i = (succ16 a.p).toNat
        · rw [h, a1, b1]
        · exact get i hi h
      rw [Vector.getElem?_eq_getElem hi, Vector.getElem?_eq_getElem hi] at this
      injection this
    cases a; cases b
    simp only at est hp'
    rw [est, hp']
  · intro c hc
    let p : BitVec 32 := BitVec.ofNat 32 ((c.p.toNat + 15) % 16)
    have hpn : p.toNat = (c.p.toNat + 15) % 16 := by
      simp only [p, BitVec.toNat_ofNat]; omega
    have hs : succ16 p = c.p := by
      apply BitVec.eq_of_toNat_eq
      rw [succ16_toNat, hpn]
      omega
    have hp16 : p.toNat < 16 := by omega
    obtain ⟨x, hx⟩ := twist_surj (a := 31) (b := 11) (by omega) (by omega)
      (c.state[c.p.toNat] ^^^ (c.state[p.toNat] ^^^ (c.state[p.toNat] >>> 30)))
    have hne : c.p.toNat ≠ p.toNat := by omega
    obtain ⟨s0, s1, a0, a1, an⟩ := next1024 (g := ⟨c.state.setIfInBounds c.p.toNat x, p⟩) hp16
    simp only [hs] at a0 a1 an
    rw [Vector.getElem?_setIfInBounds_ne hne, Vector.getElem?_eq_getElem hp16] at a0
    rw [Vector.getElem?_setIfInBounds_self_of_lt hc] at a1
    injection a0 with a0
    injection a1 with a1
    subst a0 a1
    refine ⟨⟨c.state.setIfInBounds c.p.toNat x, p⟩,
      (twist 31 11 x ^^^ (c.state[p.toNat] ^^^ c.state[p.toNat] >>> 30)) * 1181783497276652981#64, hp16, ?_⟩
    rw [an, hx, BitVec.xor_assoc, BitVec.xor_self, BitVec.xor_zero]
    congr 2
    cases c with
    | mk st q =>
      simp only [Xs1024.mk.injEq, and_true]
      apply Vector.ext
      intro i hi
      simp only at hc
      by_cases h : i = q.toNat
      · subst h; simp
      · simp [Vector.getElem_setIfInBounds, Ne.symm h]

/-- Every draw from a `XorShift1024StarPRNG` that was constructed, drawn from and re-seeded in any way
succeeds without reading outside its array, and the generator is never in the all-zero state. -/
theorem C40_xorshift1024_never_zero (g : Xs1024) (h : Xs1024.Reachable g) :
    g.p.toNat < 16 ∧ (∃ v g', g.next = .ok (v, g')) ∧ ∃ i : Nat, ∃ v, g.state[i]? = some v ∧ v ≠ 0 := by
  suffices hs : g.p.toNat < 16 ∧ ∃ i : Nat, ∃ v, g.state[i]? = some v ∧ v ≠ 0 by
    obtain ⟨s0, s1, _, _, e⟩ := next1024 hs.1
    exact ⟨hs.1, ⟨_, _, e⟩, hs.2⟩
  have fresh : ∀ (g : Xs1024) (s : BitVec 64), ∃ i : Nat, ∃ v, (g.seed s).state[i]? = some v ∧ v ≠ 0 := by
    intro g s
    by_cases h0 : mix (s + BitVec.ofNat 64 (0 + 1) * gamma) = 0
    · refine ⟨1, _, seed_get g s 1 (by omega), ?_⟩
      intro h1
      apply two_words s
      have e1 : s + BitVec.ofNat 64 (0 + 1) * gamma = s + gamma := by simp
      have e2 : s + BitVec.ofNat 64 (1 + 1) * gamma = s + gamma + gamma := by
        rw [BitVec.ofNat_add, BitVec.add_mul, BitVec.one_mul, BitVec.add_assoc]
      rw [← e2, h1, ← e1, h0]
    · exact ⟨0, _, seed_get g s 0 (by omega), h0⟩
  induction h with
  | construct raw s => exact ⟨by rw [construct_p]; decide, by rw [construct_state]; exact fresh raw s⟩
  | seed s _ ih => exact ⟨by rw [seed_p]; exact ih.1, fresh _ s⟩
  | @draw g g' v hr hn ih =>
    obtain ⟨hp, i, w, hw, hw0⟩ := ih
    obtain ⟨s0, s1, a0, a1, e⟩ := next1024 hp
    rw [e] at hn
    simp only [Out.ok.injEq, Prod.mk.injEq] at hn
    obtain ⟨_, rfl⟩ := hn
    have hsp := succ16_toNat g.p
    have hlt : (succ16 g.p).toNat < 16 := by omega
    refine ⟨hlt, ?_⟩
    by_cases hz : s0 = 0
    · by_cases hi : i = (succ16 g.p).toNat
      · subst hi
        rw [a1] at hw
        injection hw with hw
        subst hw
        refine ⟨_, _, Vector.getElem?_setIfInBounds_self_of_lt hlt, ?_⟩
        intro h
        apply hw0
        subst hz
        have : twist 31 11 s1 = twist 31 11 0 := by
          rw [show (0 : BitVec 64) ^^^ (0 : BitVec 64) >>> 30 = 0#64 from by decide, BitVec.xor_zero] at h
          rw [h]
          decide +kernel
        exact twist_inj (by omega) (by omega) this
      · exact ⟨i, w, by rw [Vector.getElem?_setIfInBounds_ne (Ne.symm hi)]; exact hw, hw0⟩
    · exact ⟨g.p.toNat, s0, by rw [Vector.getElem?_setIfInBounds_ne (by omega)]; exact a0, hz⟩

example (raw : Xs1024) : Xs1024.Reachable (Xs1024.construct raw 42) := .construct raw 42

/-- Equal seeds give equal outputs forever: construction overwrites everything that was in memory. -/
theorem C40_reproducible (n : Nat) (s : BitVec 64) (a a' : SplitMix) (b b' : Xs128) (c c' : Xs1024) :
    draws SplitMix.next n (a.construct s) = draws SplitMix.next n (a'.construct s) ∧
    draws Xs128.next n (b.construct s) = draws Xs128.next n (b'.construct s) ∧
    drawsOut Xs1024.next n (c.construct s) = drawsOut Xs1024.next n (c'.construct s) := by
  refine ⟨rfl, rfl, ?_⟩
  rw [construct_eq c c' s]

/-- Re-seeding `SplitMix64PRNG` and `XorShift128PlusPRNG` after any number of draws gives the freshly
constructed generator. -/
theorem C41_reseed_partial (n : Nat) (s0 s : BitVec 64) (a a' : SplitMix) (b b' : Xs128) :
    ((draws SplitMix.next n (a.construct s0)).2).seed s = a'.construct s ∧
    ((draws Xs128.next n (b.construct s0)).2).seed s = b'.construct s := ⟨rfl, rfl⟩

theorem draws1024_p (n : Nat) : ∀ (g : Xs1024) (vs : List (BitVec 64)) (g' : Xs1024), g.p.toNat < 16 →
    drawsOut Xs1024.next n g = .ok (vs, g') → g'.p.toNat = (g.p.toNat + n) % 16 := by
  induction n with
  | zero =>
    intro g vs g' hp h
    simp only [drawsOut, Out.ok.injEq, Prod.mk.injEq] at h
    rw [← h.2]; omega
  | succ n ih =>
    intro g vs g' hp h
    obtain ⟨s0, s1, _, _, e⟩ := next1024 hp
    simp only [drawsOut, e, Out.bind_ok, Out.bind_eq_ok] at h
    obtain ⟨r, hr, h2⟩ := h
    simp only [Out.ok.injEq, Prod.mk.injEq] at h2
    have hs := succ16_toNat g.p
    have := ih ⟨g.state.setIfInBounds (succ16 g.p).toNat
        (twist 31 11 s1 ^^^ (s0 ^^^ (s0 >>> 30))), succ16 g.p⟩ r.1 r.2
      (by show (succ16 g.p).toNat < 16; omega) (by rw [hr])
    have this' : r.2.p.toNat = ((succ16 g.p).toNat + n) % 16 := this
    rw [← h2.2, this']
    omega

/-- Re-seeding `XorShift1024StarPRNG` keeps its position: after `n` draws it gives the freshly constructed
generator with the position moved to `n` modulo 16, so it restarts exactly if `n` is a multiple of 16. -/
theorem C41_reseed_1024 (n : Nat) (s0 s : BitVec 64) (raw raw' : Xs1024) :
    ∃ vs g, drawsOut Xs1024.next n (raw.construct s0) = .ok (vs, g) ∧
      g.seed s = { raw'.construct s with p := BitVec.ofNat 32 (n % 16) } ∧
      (g.seed s = raw'.construct s ↔ n % 16 = 0) := by
  have run : ∀ n (g : Xs1024), g.p.toNat < 16 → ∃ vs g', drawsOut Xs1024.next n g = .ok (vs, g') := by
    intro n
    induction n with
    | zero => intro g _; exact ⟨[], g, rfl⟩
    | succ n ih =>
      intro g hp
      obtain ⟨s0, s1, _, _, e⟩ := next1024 hp
      have hs := succ16_toNat g.p
      obtain ⟨vs, g', h⟩ := ih ⟨g.state.setIfInBounds (succ16 g.p).toNat
        (twist 31 11 s1 ^^^ (s0 ^^^ (s0 >>> 30))), succ16 g.p⟩ (by show (succ16 g.p).toNat < 16; omega)
      exact ⟨(twist 31 11 s1 ^^^ (s0 ^^^ (s0 >>> 30))) * 1181783497276652981#64 :: vs, g',
        by simp only [drawsOut, e, Out.bind_ok, h]⟩
  obtain ⟨vs, g, h⟩ := run n (raw.construct s0) (by rw [construct_p]; decide)
  have hp := draws1024_p n _ _ _ (by rw [construct_p]; decide) h
  have hp0 : (raw.construct s0).p.toNat = 0 := by rw [construct_p]; rfl
  rw [hp0, Nat.zero_add] at hp
  have hpe : g.p = BitVec.ofNat 32 (n % 16) := by
    apply BitVec.eq_of_toNat_eq
    rw [hp, BitVec.toNat_ofNat]; omega
  have e : g.seed s = { raw'.construct s with p := BitVec.ofNat 32 (n % 16) } := by
    rw [← hpe]
    show Xs1024.mk (g.seed s).state g.p = Xs1024.mk (raw'.seed s).state g.p
    rw [seed_state g raw' s]
  refine ⟨vs, g, h, e, ?_⟩
  rw [e]
  show Xs1024.mk (raw'.seed s).state _ = Xs1024.mk (raw'.seed s).state 0 ↔ _
  rw [Xs1024.mk.injEq]
  simp only [true_and]
  constructor
  · intro h
    have := congrArg BitVec.toNat h
    simp only [BitVec.toNat_ofNat] at this
    have z : (0 : BitVec 32).toNat = 0 := rfl
    omega
  · intro h
    rw [h]
    rfl

/-- Re-seeding after a single draw gives a different first number than a new generator. -/
theorem C41_reseed_1024_wrong : ∃ raw g g1 g2 : Xs1024, ∃ v v1 v2 : BitVec 64,
    (Xs1024.construct raw 0).next = .ok (v, g) ∧
    (g.seed 0).next = .ok (v1, g1) ∧ (Xs1024.construct raw 0).next = .ok (v2, g2) ∧ v1 ≠ v2 := by
  let raw : Xs1024 := ⟨Vector.replicate 16 0, 0⟩
  obtain ⟨g, e⟩ := first_output (raw.construct 0) 0 0 (by omega) (construct_p _ _)
    (fun i hi => by rw [construct_state]; exact seed_get raw 0 i hi)
  obtain ⟨s0, s1, _, _, e'⟩ := next1024 (g := raw.construct 0) (by rw [construct_p]; decide)
  have hp : g.p = BitVec.ofNat 32 1 := by
    rw [e'] at e
    injection e with e
    injection e with _ e
    rw [← e]
    show succ16 (raw.construct 0).p = _
    rw [construct_p]
    decide
  obtain ⟨g1, e1⟩ := first_output (g.seed 0) 0 1 (by omega) (by rw [seed_p]; exact hp)
    (fun i hi => seed_get g 0 i hi)
  exact ⟨raw, g, g1, g, _, _, _, e, e1, e, by decide +kernel⟩

end Verif.Prng
