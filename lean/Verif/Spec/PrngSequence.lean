/-!
# The published random sequences, in natural numbers

splitmix64, xorshift128+ and xorshift1024* (Vigna), each started from a 64-bit seed by splitmix64.
-/
namespace Verif.PrngSequence

/-- The number without what does not fit into 64 bits. -/
def low (n : Nat) : Nat := n % 2 ^ 64

/-- `x` with itself shifted left by `k` xored in -/
def left (k x : Nat) : Nat := x ^^^ low (x * 2 ^ k)

/-- `x` with itself shifted right by `k` xored in -/
def right (k x : Nat) : Nat := x ^^^ (x / 2 ^ k)

/-- Number `i` of splitmix64 started at `s` -/
def splitmix (s i : Nat) : Nat :=
  right 31 (low (right 27 (low (right 30 (low (s + (i + 1) * 0x9E3779B97F4A7C15)) *
    0xBF58476D1CE4E5B9)) * 0x94D049BB133111EB))

/-- The words of xorshift128+ -/
def word128 (s : Nat) : Nat → Nat
  | 0 => splitmix s 0
  | 1 => splitmix s 1
  | n + 2 => right 18 (left 23 (word128 s n)) ^^^ right 5 (word128 s (n + 1))

/-- Number `i` of xorshift128+ -/
def xorshift128 (s i : Nat) : Nat := low (word128 s (i + 2) + word128 s (i + 1))

/-- The words of xorshift1024*: the first word of the seed counts as the latest of the sixteen -/
def word1024 (s : Nat) (n : Nat) : Nat :=
  if n < 15 then splitmix s (n + 1)
  else if n = 15 then splitmix s 0
  else right 11 (left 31 (word1024 s (n - 16))) ^^^ right 30 (word1024 s (n - 1))
termination_by n

/-- Number `i` of xorshift1024* -/
def xorshift1024 (s i : Nat) : Nat := low (word1024 s (i + 16) * 1181783497276652981)

end Verif.PrngSequence
