import Verif.Base.Outcome

/-!
# Model of the pseudo-random generators of include/arc_utilities/arc_helpers.hpp (lines 821-933)

`uint64_t` is `BitVec 64`: addition and multiplication wrap around, shifts fill with zeros.
-/
namespace Verif.Prng
open Verif

/-- arc_helpers.hpp:826: the increment of `SplitMix64PRNG` -/
def gamma : BitVec 64 := 0x9E3779B97F4A7C15#64

/-- arc_helpers.hpp:827-829: the output of `SplitMix64PRNG` as a function of the new state -/
def mix (z0 : BitVec 64) : BitVec 64 :=
  let z1 := (z0 ^^^ (z0 >>> 30)) * 0xBF58476D1CE4E5B9#64
  let z2 := (z1 ^^^ (z1 >>> 27)) * 0x94D049BB133111EB#64
  z2 ^^^ (z2 >>> 31)

/-- arc_helpers.hpp:821-823 `SplitMix64PRNG` -/
structure SplitMix where
  state : BitVec 64
  deriving DecidableEq

/-- arc_helpers.hpp:825-830 `next` -/
def SplitMix.next (g : SplitMix) : BitVec 64 × SplitMix :=
  let z := g.state + gamma
  (mix z, ⟨z⟩)

/-- arc_helpers.hpp:839 `seed` -/
def SplitMix.seed (g : SplitMix) (s : BitVec 64) : SplitMix := { g with state := s }

/-- arc_helpers.hpp:833: the constructor; `raw` is the memory before it runs -/
def SplitMix.construct (raw : SplitMix) (s : BitVec 64) : SplitMix := raw.seed s

/-- arc_helpers.hpp:844-847, 883-886: the loop of `discard`, which calls `next` `n` times -/
def discardLoop {σ : Type} (next : σ → BitVec 64 × σ) : Nat → σ → σ
  | 0, g => g
  | n + 1, g => discardLoop next n (next g).2

/-- arc_helpers.hpp:841-848 `discard` -/
def SplitMix.discard (n : Nat) (g : SplitMix) : SplitMix := discardLoop SplitMix.next n g

/-- arc_helpers.hpp:853-856 `XorShift128PlusPRNG` -/
structure Xs128 where
  state1 : BitVec 64
  state2 : BitVec 64
  deriving DecidableEq

/-- arc_helpers.hpp:858-865 `next` -/
def Xs128.next (g : Xs128) : BitVec 64 × Xs128 :=
  let s1 := g.state1
  let s0 := g.state2
  let s1 := s1 ^^^ (s1 <<< 23)
  let n := s1 ^^^ s0 ^^^ (s1 >>> 18) ^^^ (s0 >>> 5)
  (n + s0, ⟨s0, n⟩)

/-- arc_helpers.hpp:874-878 `seed` -/
def Xs128.seed (g : Xs128) (s : BitVec 64) : Xs128 :=
  let t := SplitMix.construct ⟨0⟩ s
  let a := t.next
  let b := a.2.next
  { g with state1 := a.1, state2 := b.1 }

/-- arc_helpers.hpp:868: the constructor; `raw` is the memory before it runs -/
def Xs128.construct (raw : Xs128) (s : BitVec 64) : Xs128 := raw.seed s

/-- arc_helpers.hpp:880-887 `discard` -/
def Xs128.discard (n : Nat) (g : Xs128) : Xs128 := discardLoop Xs128.next n g

/-- arc_helpers.hpp:892-895 `XorShift1024StarPRNG`; `p` is an `int32_t` -/
structure Xs1024 where
  state : Vector (BitVec 64) 16
  p : BitVec 32
  deriving DecidableEq

/-- `state_[(size_t)p]`: out of range is undefined. Used for arc_helpers.hpp:897-904. -/
def Xs1024.read (g : Xs1024) (p : BitVec 32) : Out (BitVec 64) :=
  match g.state[p.toNat]? with
  | some v => .ok v
  | none => .ub

/-- arc_helpers.hpp:897-904 `next` -/
def Xs1024.next (g : Xs1024) : Out (BitVec 64 × Xs1024) := do
  let s0 ← g.read g.p
  let p := (g.p + 1) &&& 15
  let s1 ← g.read p
  let s1 := s1 ^^^ (s1 <<< 31)
  let n := s1 ^^^ s0 ^^^ (s1 >>> 11) ^^^ (s0 >>> 30)
  .ok (n * 1181783497276652981#64, ⟨g.state.setIfInBounds p.toNat n, p⟩)

/-- arc_helpers.hpp:918-921: the loop over the state array -/
def seedLoop : Nat → Nat → SplitMix → Vector (BitVec 64) 16 → Vector (BitVec 64) 16
  | 0, _, _, st => st
  | n + 1, idx, t, st => seedLoop n (idx + 1) t.next.2 (st.setIfInBounds idx t.next.1)

/-- arc_helpers.hpp:916-921 `seed`: `p` is left as it was -/
def Xs1024.seed (g : Xs1024) (s : BitVec 64) : Xs1024 :=
  { g with state := seedLoop 16 0 (SplitMix.construct ⟨0⟩ s) g.state }

/-- arc_helpers.hpp:907-910: the constructor; `raw` is the memory before it runs -/
def Xs1024.construct (raw : Xs1024) (s : BitVec 64) : Xs1024 :=
  { raw.seed s with p := 0 }

/-- arc_helpers.hpp:926-929: the loop of `discard` -/
def discardLoopOut {σ : Type} (next : σ → Out (BitVec 64 × σ)) : Nat → σ → Out σ
  | 0, g => .ok g
  | n + 1, g => do
    let r ← next g
    discardLoopOut next n r.2

/-- arc_helpers.hpp:923-930 `discard` -/
def Xs1024.discard (n : Nat) (g : Xs1024) : Out Xs1024 := discardLoopOut Xs1024.next n g

end Verif.Prng
