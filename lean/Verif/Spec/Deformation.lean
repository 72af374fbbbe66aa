/-!
# Specification: king moves on a grid
-/
namespace Verif.Deformation

/-- The cell lies in the grid. -/
def InGrid (rows cols : Int) (c : Int × Int) : Prop := 0 ≤ c.1 ∧ c.1 < rows ∧ 0 ≤ c.2 ∧ c.2 < cols

/-- One king move onto a valid cell of the grid. -/
def Move (rows cols : Int) (valid : Int → Int → Bool) (a b : Int × Int) : Prop :=
  a ≠ b ∧ -1 ≤ b.1 - a.1 ∧ b.1 - a.1 ≤ 1 ∧ -1 ≤ b.2 - a.2 ∧ b.2 - a.2 ≤ 1 ∧ InGrid rows cols b ∧ valid b.1 b.2 = true

/-- Every cell of the list follows from the one before it by a move. -/
def Chain (rows cols : Int) (valid : Int → Int → Bool) : List (Int × Int) → Prop
  | [] => True
  | [_] => True
  | a :: b :: l => Move rows cols valid a b ∧ Chain rows cols valid (b :: l)

/-- A path: begins at the corner (0, 0), ends at the opposite corner and makes only valid moves. -/
def IsPath (rows cols : Int) (valid : Int → Int → Bool) (p : List (Int × Int)) : Prop :=
  p.head? = some (0, 0) ∧ p.getLast? = some (rows - 1, cols - 1) ∧ Chain rows cols valid p

end Verif.Deformation
