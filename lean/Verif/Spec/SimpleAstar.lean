import Verif.Model.SimpleAstar

/-!
# Specification of the grid A* planner
-/
namespace Verif.SimpleAstar

variable {S K : Type}

/-- `p` lists the states of a walk from `u` to `t`, each a neighbour of the one before. -/
inductive Walk (next : S → List S) : S → List S → S → Prop
  | here (u : S) : Walk next u [u] u
  | cons {u v t : S} {p : List S} : v ∈ next u → Walk next v p t → Walk next u (u :: p) t

/-- `t` can be reached from `u`. -/
def Reachable (next : S → List S) (u t : S) : Prop := ∃ p, Walk next u p t

/-- The sum of the distances between consecutive states. -/
def length [Add K] [Zero K] (d : S → S → K) : List S → K
  | u :: v :: p => d u v + length d (v :: p)
  | _ => 0

/-- The heuristic drops by at most the distance along every step, and is zero at the goals. -/
def Consistent [Add K] [Zero K] [LE K] (P : Problem S K) : Prop :=
  (∀ u, ∀ v ∈ P.neighbours u, P.heuristic u ≤ P.distance u v + P.heuristic v) ∧
  ∀ t, P.goal t = true → P.heuristic t = 0

/-- The entries that the queue can hold: a state that can be reached without visiting a state twice, with the
length of a way to it plus its heuristic value. -/
def Entry [Add K] [Zero K] (P : Problem S K) (start : S) (x : S × K) : Prop :=
  ∃ p, Walk P.neighbours start p x.1 ∧ p.Nodup ∧ x.2 = length P.distance p + P.heuristic x.1

/-- No two priorities are nearly but not exactly equal. -/
def Separated [Field K] [LinearOrder K] (P : Problem S K) (start : S) : Prop :=
  ∀ x y, Entry P start x → Entry P start y → |y.2 - x.2| ≤ min |x.2| |y.2| / 10 ^ 10 → x.2 = y.2

/-- The priority queue does what it promises for a comparator that is an order: the entry taken out does not
come after another one of the queue. -/
def TakesBest [Field K] [LinearOrder K] (P : Problem S K) (start : S) (pick : Nat → List (S × K) → Nat) :
    Prop :=
  ∀ k q, (∀ x ∈ q, Entry P start x) → ∀ x, q[pick k q % q.length]? = some x →
    ∀ y ∈ q, after P x y = false

/-- The comparator is a strict weak order on a set of entries, as the priority queue requires. -/
def StrictWeakOrder {α : Type} (lt : α → α → Bool) (A : α → Prop) : Prop :=
  (∀ x, A x → lt x x = false) ∧
  (∀ x y z, A x → A y → A z → lt x y = true → lt y z = true → lt x z = true) ∧
  (∀ x y z, A x → A y → A z → lt x y = false → lt y x = false → lt y z = false → lt z y = false →
    lt x z = false ∧ lt z x = false)

end Verif.SimpleAstar
