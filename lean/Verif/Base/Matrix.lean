import Verif.Base.Outcome

/-!
# Dense matrices

Not a model of a particular file: `Eigen::MatrixXd` as the code uses it. Entries are `none` until
they are written; reading such an entry or indexing outside the matrix is undefined (Eigen asserts
on the latter in debug builds only).
-/
namespace Verif

/-- A matrix with its dimensions. -/
structure Mat (V : Type) where
  rows : Nat
  cols : Nat
  get : Nat → Nat → Option V

namespace Mat

variable {V : Type}

/-- `MatrixXd(rows, cols)`, uninitialised -/
def uninit (rows cols : Nat) : Mat V := ⟨rows, cols, fun _ _ => none⟩

/-- `MatrixXd::Zero(rows, cols)` and the like -/
def constant (rows cols : Nat) (v : V) : Mat V := ⟨rows, cols, fun _ _ => some v⟩

/-- `m(r, c)` -/
def read (m : Mat V) (r c : Nat) : Out V :=
  if r < m.rows ∧ c < m.cols then
    match m.get r c with
    | some v => .ok v
    | none => .ub
  else .ub

/-- `m(r, c) = v` -/
def write (m : Mat V) (r c : Nat) (v : V) : Out (Mat V) :=
  if r < m.rows ∧ c < m.cols then
    .ok ⟨m.rows, m.cols, fun r' c' => if r' = r ∧ c' = c then some v else m.get r' c'⟩
  else .ub

/-- A write that stays inside the matrix. -/
def put (m : Mat V) (r c : Nat) (v : V) : Mat V :=
  ⟨m.rows, m.cols, fun r' c' => if r' = r ∧ c' = c then some v else m.get r' c'⟩

theorem write_ok (m : Mat V) {r c : Nat} (v : V) (hr : r < m.rows) (hc : c < m.cols) :
    m.write r c v = .ok (m.put r c v) := by
  unfold write
  rw [if_pos ⟨hr, hc⟩]
  rfl

theorem write_ub (m : Mat V) {r c : Nat} (v : V) (h : ¬ (r < m.rows ∧ c < m.cols)) :
    m.write r c v = .ub := by
  unfold write
  rw [if_neg h]

theorem read_ok (m : Mat V) {r c : Nat} {v : V} (hr : r < m.rows) (hc : c < m.cols)
    (h : m.get r c = some v) : m.read r c = .ok v := by
  unfold read
  rw [if_pos ⟨hr, hc⟩, h]

theorem put_get (m : Mat V) (r c r' c' : Nat) (v : V) :
    (m.put r c v).get r' c' = if r' = r ∧ c' = c then some v else m.get r' c' := rfl

@[simp] theorem put_rows (m : Mat V) (r c : Nat) (v : V) : (m.put r c v).rows = m.rows := rfl
@[simp] theorem put_cols (m : Mat V) (r c : Nat) (v : V) : (m.put r c v).cols = m.cols := rfl

end Mat
end Verif
