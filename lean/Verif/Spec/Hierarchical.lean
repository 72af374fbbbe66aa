import Verif.Model.Hierarchical

/-!
# Specification of hierarchical clustering

A clustering of `n` data is a list of parts, each a list of positions of data.
-/
namespace Verif.Hierarchical

variable {W : Type} [LinearOrder W]

/-- The link distance of two parts: the largest (complete link) or smallest (single link) distance of a
member of the one and a member of the other. -/
def IsLink (strategy : Strategy) (D : Nat → Nat → W) (A B : List Nat) (d : W) : Prop :=
  (∃ a ∈ A, ∃ b ∈ B, D a b = d) ∧
  match strategy with
  | .complete => ∀ a ∈ A, ∀ b ∈ B, D a b ≤ d
  | .single => ∀ a ∈ A, ∀ b ∈ B, d ≤ D a b

/-- Each position in exactly one part, once, and no part is empty. -/
def Partition (n : Nat) (parts : List (List Nat)) : Prop :=
  parts.flatten.Perm (List.range n) ∧ ∀ p ∈ parts, p ≠ []

/-- `A` and `B` are two different parts. -/
def Two (parts : List (List Nat)) (A B : List Nat) : Prop :=
  ∃ rest, parts.Perm (A :: B :: rest)

/-- Positions are connected by steps of at most `m` inside a part. -/
inductive Chain (D : Nat → Nat → W) (m : W) (part : List Nat) : Nat → Nat → Prop
  | refl {i} (hi : i ∈ part) : Chain D m part i i
  | step {i j k} (hj : j ∈ part) (hd : D i j ≤ m) (hi : i ∈ part) (h : Chain D m part j k) :
      Chain D m part i k

/-- Every schedule assigns each iteration to exactly one thread. -/
def Valid : Exec → Prop
  | .serial => True
  | .parallel schedule => ∀ n, (schedule n).flatten.Perm (List.range n)

/-- What a clustering of `n` data with the threshold `m` has to be, and the distance `d` returned with
it. -/
structure Clustering (n : Nat) (strategy : Strategy) (D : Nat → Nat → W) (m inf : W)
    (parts : List (List Nat)) (d : W) : Prop where
  /-- each datum is in exactly one part, and no part is empty -/
  partition : Partition n parts
  /-- complete link: any two data of a part are at most `m` apart -/
  diameter : strategy = .complete → ∀ P ∈ parts, ∀ a ∈ P, ∀ b ∈ P, a ≠ b → D a b ≤ m
  /-- single link: any two data of a part are connected by steps of at most `m` inside the part -/
  chain : strategy = .single → ∀ P ∈ parts, ∀ a ∈ P, ∀ b ∈ P, Chain D m P a b
  /-- any two parts are at least `d` apart -/
  separated : ∀ A B, Two parts A B → ∀ e, IsLink strategy D A B e → d ≤ e
  /-- which is more than the threshold -/
  above : m < d
  /-- and if `d` is finite, it is the distance of two parts -/
  attained : d < inf → ∃ A B, Two parts A B ∧ IsLink strategy D A B d

/-- The data at the positions in the parts. -/
def DataOf {α : Type} (data : List α) (parts : List (List Nat)) (out : List (List α)) : Prop :=
  out.map (·.map some) = parts.map (·.map (fun i => data[i]?))

end Verif.Hierarchical
