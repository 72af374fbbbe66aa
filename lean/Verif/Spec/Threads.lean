/-! # Accesses of threads to a variable -/
namespace Verif.Threads

/-- The accesses to the variable in `GetNumOMPThreads`: its initialization, the assignment of each thread, and the read
after the region. -/
inductive Access where
  | init
  | assign (i : Nat)
  | result
  deriving DecidableEq

/-- The access changes the variable. -/
def Access.writes : Access → Bool
  | .result => false
  | _ => true

/-- One access is ordered before another: by the start of the region, by its end, or as statements of the thread
around it. -/
inductive Before : Access → Access → Prop
  | fork (i) : Before .init (.assign i)
  | join (i) : Before (.assign i) .result
  | around : Before .init .result

/-- The accesses of a team of `n` threads. -/
def Access.of (n : Nat) : Access → Prop
  | .assign i => i < n
  | _ => True

/-- Two different accesses to the variable of which one writes are not ordered: a data race. -/
def Race (n : Nat) : Prop :=
  ∃ a b : Access, a.of n ∧ b.of n ∧ a ≠ b ∧ (a.writes = true ∨ b.writes = true) ∧ ¬ Before a b ∧ ¬ Before b a

end Verif.Threads
