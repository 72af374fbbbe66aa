import Mathlib.Analysis.Real.Sqrt

/-!
# Model of include/arc_utilities/aligned_eigen_types.hpp

`Scalar` is the reals: exact arithmetic. A division by zero and a root of a negative number, which give infinity or
NaN, end the computation with `notFinite`. `asserts` says whether `eigen_assert` is compiled in.
-/
namespace Verif.Aligned

/-- Why there is no finite result. Used for aligned_eigen_types.hpp:141, 143-146. -/
inductive Stop where
  /-- an `eigen_assert` failed -/
  | aborted
  /-- infinity or NaN -/
  | notFinite
  deriving DecidableEq

/-- aligned_eigen_types.hpp:45-47 `Aligned4Vector3`: the four coefficients -/
@[ext] structure Vec where
  x : ℝ
  y : ℝ
  z : ℝ
  w : ℝ

/-- aligned_eigen_types.hpp:71 the constructor with three numbers -/
def ofXyz (x y z : ℝ) : Vec := ⟨x, y, z, 1⟩

/-- aligned_eigen_types.hpp:73 the default constructor -/
def zero : Vec := ⟨0, 0, 0, 1⟩

/-- aligned_eigen_types.hpp:80-86, 96-99, 106-110 construction from, and assignment of, an expression with four
coefficients -/
def assign4 (src : Vec) : Vec := { src with w := 1 }

/-- aligned_eigen_types.hpp:88-94, 96-99, 106-110 construction from, and assignment of, an expression with three
coefficients -/
def assign3 (x y z : ℝ) : Vec := { x := x, y := y, z := z, w := 1 }

/-- The sum of two vectors with four coefficients (Eigen). Used for aligned_eigen_types.hpp:112-114, 116-119. -/
def coeffAdd (a b : Vec) : Vec := ⟨a.x + b.x, a.y + b.y, a.z + b.z, a.w + b.w⟩

/-- The difference of two vectors with four coefficients (Eigen). Used for aligned_eigen_types.hpp:121-123, 125-128. -/
def coeffSub (a b : Vec) : Vec := ⟨a.x - b.x, a.y - b.y, a.z - b.z, a.w - b.w⟩

/-- The product of a vector with four coefficients and a number (Eigen). Used for aligned_eigen_types.hpp:130-134,
136-139. -/
def coeffMul (a : Vec) (s : ℝ) : Vec := ⟨a.x * s, a.y * s, a.z * s, a.w * s⟩

open Classical in
/-- The quotient of a vector with four coefficients and a number (Eigen). Used for aligned_eigen_types.hpp:141,
143-146. -/
noncomputable def coeffDiv (a : Vec) (s : ℝ) : Except Stop Vec :=
  if s = 0 then .error .notFinite else .ok ⟨a.x / s, a.y / s, a.z / s, a.w / s⟩

/-- aligned_eigen_types.hpp:112-114 `operator+` -/
def add (a b : Vec) : Vec := assign4 (coeffAdd a b)

/-- aligned_eigen_types.hpp:116-119 `operator+=` -/
def addAssign (a b : Vec) : Vec := coeffAdd a b

/-- aligned_eigen_types.hpp:121-123 `operator-` -/
def sub (a b : Vec) : Vec := assign4 (coeffSub a b)

/-- aligned_eigen_types.hpp:125-128 `operator-=`: the object afterwards -/
def subAssign (a b : Vec) : Vec := coeffSub a b

/-- aligned_eigen_types.hpp:130-134 `operator*` from both sides -/
def mul (a : Vec) (s : ℝ) : Vec := assign4 (coeffMul a s)

/-- aligned_eigen_types.hpp:136-139 `operator*=` -/
def mulAssign (a : Vec) (s : ℝ) : Vec := coeffMul a s

/-- aligned_eigen_types.hpp:141 `operator/` -/
noncomputable def div (a : Vec) (s : ℝ) : Except Stop Vec := do
  let c ← coeffDiv a s
  pure (assign4 c)

/-- aligned_eigen_types.hpp:143-146 `operator/=` -/
noncomputable def divAssign (a : Vec) (s : ℝ) : Except Stop Vec := coeffDiv a s

open Classical in
/-- `eigen_assert(m_coeffs.w() == Scalar(1))`. Used for aligned_eigen_types.hpp:148-152, 158-161. -/
noncomputable def assertOne (asserts : Bool) (a : Vec) : Except Stop Unit :=
  if asserts ∧ a.w ≠ 1 then .error .aborted else .ok ()

/-- aligned_eigen_types.hpp:148-152 `dot` -/
noncomputable def dot (asserts : Bool) (a b : Vec) : Except Stop ℝ := do
  assertOne asserts a
  assertOne asserts b
  pure (a.x * b.x + a.y * b.y + a.z * b.z + a.w * b.w - 1)

/-- aligned_eigen_types.hpp:158-161 `sum` -/
noncomputable def sum (asserts : Bool) (a : Vec) : Except Stop ℝ := do
  assertOne asserts a
  pure (a.x + a.y + a.z + a.w - 1)

/-- aligned_eigen_types.hpp:163-166 `squaredNorm` -/
noncomputable def squaredNorm (asserts : Bool) (a : Vec) : Except Stop ℝ := do
  assertOne asserts a
  pure (a.x * a.x + a.y * a.y + a.z * a.z + a.w * a.w - 1)

open Classical in
/-- aligned_eigen_types.hpp:168-171 `norm` -/
noncomputable def norm (asserts : Bool) (a : Vec) : Except Stop ℝ := do
  let s ← squaredNorm asserts a
  if s < 0 then .error .notFinite else pure (Real.sqrt s)

/-- aligned_eigen_types.hpp:154 `normalize` -/
noncomputable def normalize (asserts : Bool) (a : Vec) : Except Stop Vec := do
  let n ← norm asserts a
  coeffDiv a n

/-- aligned_eigen_types.hpp:156 `normalized` -/
noncomputable def normalized (asserts : Bool) (a : Vec) : Except Stop Vec := do
  let n ← norm asserts a
  let c ← coeffDiv a n
  pure (assign4 c)

/-- aligned_eigen_types.hpp:173-175 `cross`; `cross3` of Eigen sets the last coefficient to zero -/
def cross (a b : Vec) : Vec :=
  assign4 ⟨a.y * b.z - a.z * b.y, a.z * b.x - a.x * b.z, a.x * b.y - a.y * b.x, 0⟩

open Classical in
/-- aligned_eigen_types.hpp:177-180 `isApprox` with a vector of three coefficients: Eigen compares the square of the
distance with the square of the tolerance times the smaller squared norm -/
noncomputable def isApprox (a : Vec) (x y z eps : ℝ) : Bool :=
  decide ((a.x - x) * (a.x - x) + (a.y - y) * (a.y - y) + (a.z - z) * (a.z - z) ≤
    eps * eps * min (a.x * a.x + a.y * a.y + a.z * a.z) (x * x + y * y + z * z))

/-! ## Programs -/

/-- Expressions made of the operators that give a new vector. Used for aligned_eigen_types.hpp:71-175. -/
inductive Expr where
  | xyz (x y z : ℝ)
  | default
  | add (a b : Expr)
  | sub (a b : Expr)
  | mul (a : Expr) (s : ℝ)
  | div (a : Expr) (s : ℝ)
  | cross (a b : Expr)
  | normalized (a : Expr)

/-- The value of an expression, by the operators above (aligned_eigen_types.hpp:71-175). -/
noncomputable def eval (asserts : Bool) : Expr → Except Stop Vec
  | .xyz x y z => .ok (ofXyz x y z)
  | .default => .ok zero
  | .add a b => do let u ← eval asserts a; let v ← eval asserts b; pure (add u v)
  | .sub a b => do let u ← eval asserts a; let v ← eval asserts b; pure (sub u v)
  | .mul a s => do let u ← eval asserts a; pure (mul u s)
  | .div a s => do let u ← eval asserts a; div u s
  | .cross a b => do let u ← eval asserts a; let v ← eval asserts b; pure (cross u v)
  | .normalized a => do let u ← eval asserts a; normalized asserts u

/-- What can be done to a vector in place, with the operand at hand. Used for aligned_eigen_types.hpp:116-146. -/
inductive Op where
  | add (b : Vec)
  | sub (b : Vec)
  | mul (s : ℝ)
  | div (s : ℝ)

/-- One operation in place (aligned_eigen_types.hpp:116-146). -/
noncomputable def step (a : Vec) : Op → Except Stop Vec
  | .add b => .ok (addAssign a b)
  | .sub b => .ok (subAssign a b)
  | .mul s => .ok (mulAssign a s)
  | .div s => divAssign a s

/-- Operations in place, one after the other. Used for aligned_eigen_types.hpp:116-146. -/
noncomputable def run (a : Vec) : List Op → Except Stop Vec
  | [] => .ok a
  | op :: rest => do
    let b ← step a op
    run b rest

/-- aligned_eigen_types.hpp:125-128 `(a -= b) += c`: the operator returns a copy, to which `c` is added. The object
afterwards, and the copy. -/
def subThenAdd (a b c : Vec) : Vec × Vec := (subAssign a b, addAssign (subAssign a b) c)

/-- aligned_eigen_types.hpp:116-119 `(a += b) -= c`: the operator returns the object itself. The object afterwards,
and the result. -/
def addThenSub (a b c : Vec) : Vec × Vec := (subAssign (addAssign a b) c, subAssign (addAssign a b) c)

end Verif.Aligned
