import Verif.Base.Matrix
import Verif.Base.Cost
import Verif.Base.NotANumber

/-!
# Model of dynamic time warping with distances that may not be a number

include/arc_utilities/simple_dtw.hpp, as in `Verif.Model.Dtw`, but the distance function may return NaN
(`none`), and so may the matrix hold it. The evaluator object is its matrix. Simplification: the sum
`index_cost + prev_cost` is written with the operands swapped (IEEE addition is commutative).
-/
namespace Verif.NanDtw
open Verif Verif.NotANumber

variable {α β W : Type} [Cost W]

/-- simple_dtw.hpp:28-30 -/
def initColumn : List Nat → Mat (Option W) → Out (Mat (Option W))
  | [], m => .ok m
  | row :: rest, m => do
    let m ← m.write row 0 (some Cost.inf)
    initColumn rest m

/-- simple_dtw.hpp:31-33 -/
def initRow : List Nat → Mat (Option W) → Out (Mat (Option W))
  | [], m => .ok m
  | col :: rest, m => do
    let m ← m.write 0 col (some Cost.inf)
    initRow rest m

/-- simple_dtw.hpp:22-36 `InitializeMatrix` -/
def initializeMatrix (m : Mat (Option W)) (firstSize secondSize : Nat) : Out (Mat (Option W)) :=
  if m.rows < firstSize + 1 ∨ m.cols < secondSize + 1 then
    if firstSize + 1 > 1 ∧ secondSize + 1 > 1 then do
      let m ← initColumn (List.range' 1 firstSize) (Mat.constant (firstSize + 1) (secondSize + 1) (some 0))
      initRow (List.range' 1 secondSize) m
    else .ok (Mat.constant (firstSize + 1) (secondSize + 1) (some 0))
  else .ok m

/-- simple_dtw.hpp:41 the default constructor; the member matrix starts out 0 × 0 -/
def new : Out (Mat (Option W)) := initializeMatrix (Mat.uninit 0 0) 0 0

/-- simple_dtw.hpp:43-45 the constructor with sizes -/
def newSized (firstSize secondSize : Nat) : Out (Mat (Option W)) :=
  initializeMatrix (Mat.uninit 0 0) firstSize secondSize

/-- simple_dtw.hpp:63-69: which of the three neighbouring values is used -/
def previousCost (im1j im1jm1 ijm1 : Option W) : Option W :=
  if lt im1j im1jm1 ∧ lt im1j ijm1 then im1j
  else if lt ijm1 im1j ∧ lt ijm1 im1jm1 then ijm1
  else im1jm1

/-- simple_dtw.hpp:55-72: the body of the loop, with `i` and `j` from 1 -/
def updateCell (indexCost : Option W) (i j : Nat) (m : Mat (Option W)) : Out (Mat (Option W)) := do
  let im1j ← m.read (i - 1) j
  let im1jm1 ← m.read (i - 1) (j - 1)
  let ijm1 ← m.read i (j - 1)
  m.write i j (add (previousCost im1j im1jm1 ijm1) indexCost)

/-- simple_dtw.hpp:54-73: the inner loop -/
def innerLoop (distance : α → β → Option W) (first : α) (i : Nat) : List β → Nat → Mat (Option W) → Out (Mat (Option W))
  | [], _, m => .ok m
  | second :: rest, j, m => do
    let m ← updateCell (distance first second) i j m
    innerLoop distance first i rest (j + 1) m

/-- simple_dtw.hpp:52-74: the outer loop -/
def outerLoop (distance : α → β → Option W) (seconds : List β) : List α → Nat → Mat (Option W) → Out (Mat (Option W))
  | [], _, m => .ok m
  | first :: rest, i, m => do
    let m ← innerLoop distance first i seconds 1 m
    outerLoop distance seconds rest (i + 1) m

/-- simple_dtw.hpp:47-78 `EvaluateWarpingCost`: the cost and the evaluator afterwards -/
def evaluateWarpingCost (m : Mat (Option W)) (firsts : List α) (seconds : List β) (distance : α → β → Option W) :
    Out (Option W × Mat (Option W)) := do
  let m ← initializeMatrix m firsts.length seconds.length
  let m ← outerLoop distance seconds firsts 1 m
  let cost ← m.read firsts.length seconds.length
  .ok (cost, m)

/-- simple_dtw.hpp:85-90 `ComputeDTWDistance` -/
def computeDTWDistance (firsts : List α) (seconds : List β) (distance : α → β → Option W) : Out (Option W) := do
  let m ← new
  let r ← evaluateWarpingCost m firsts seconds distance
  .ok r.1

end Verif.NanDtw
