import Verif.Model.Prng

/-! # Draws from a generator, and the states a `XorShift1024StarPRNG` can be in -/
namespace Verif.Prng
open Verif

/-- `n` calls of a generator: the results in order, and the generator afterwards. -/
def draws {σ : Type} (next : σ → BitVec 64 × σ) : Nat → σ → List (BitVec 64) × σ
  | 0, g => ([], g)
  | n + 1, g =>
    let r := next g
    let rs := draws next n r.2
    (r.1 :: rs.1, rs.2)

/-- `n` calls of a generator whose calls can fail. -/
def drawsOut {σ : Type} (next : σ → Out (BitVec 64 × σ)) : Nat → σ → Out (List (BitVec 64) × σ)
  | 0, g => .ok ([], g)
  | n + 1, g => do
    let r ← next g
    let rs ← drawsOut next n r.2
    .ok (r.1 :: rs.1, rs.2)

/-- The generators that construction, draws and re-seeding can produce. -/
inductive Xs1024.Reachable : Xs1024 → Prop
  | construct (raw : Xs1024) (s : BitVec 64) : Reachable (Xs1024.construct raw s)
  | draw {g g' : Xs1024} {v : BitVec 64} : Reachable g → g.next = .ok (v, g') → Reachable g'
  | seed {g : Xs1024} (s : BitVec 64) : Reachable g → Reachable (g.seed s)

end Verif.Prng
