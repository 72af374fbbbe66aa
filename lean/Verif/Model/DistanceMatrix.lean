import Verif.Base.Matrix
import Verif.Base.Cost

/-!
# Model of the distance matrices

include/arc_utilities/arc_helpers.hpp:484-560. An execution of the loops is a list of the inner
iterations `(idx, jdx)` in the order in which they are executed. The serial functions execute them in
program order. In the parallel functions, `#pragma omp parallel for` distributes the rows `idx` over
threads, so the iterations of different rows may be interleaved in any way.
-/
namespace Verif.DistanceMatrix
open Verif

variable {α β W : Type} [Zero W]

/-- arc_helpers.hpp:493-501 and 532-540: one inner iteration, one set. -/
def iteration (data : List α) (distance : α → α → W) (idx jdx : Nat) (m : Mat W) : Out (Mat W) :=
  match data[idx]?, data[jdx]? with
  | some x, some y =>
    if idx ≠ jdx then do
      let m ← m.write idx jdx (distance x y)
      m.write jdx idx (distance x y)
    else do
      let m ← m.write idx jdx 0
      m.write jdx idx 0
  | _, _ => .ub

/-- The loops, with the iterations in the given order. Used for arc_helpers.hpp:526-544, 484-505. -/
def run (data : List α) (distance : α → α → W) : List (Nat × Nat) → Mat W → Out (Mat W)
  | [], m => .ok m
  | (i, j) :: rest, m => do
    let m ← iteration data distance i j m
    run data distance rest m

/-- The iterations of the loops over one set, in program order (arc_helpers.hpp:491-492). -/
def iterations (n : Nat) : List (Nat × Nat) :=
  (List.range n).flatMap fun idx => (List.range' idx (n - idx)).map fun jdx => (idx, jdx)

/-- arc_helpers.hpp:526-544 `BuildDistanceMatrixSerial`, one set -/
def serial (data : List α) (distance : α → α → W) : Out (Mat W) :=
  run data distance (iterations data.length) (Mat.uninit data.length data.length)

/-- arc_helpers.hpp:484-505 `BuildDistanceMatrixParallel`, one set, with the iterations executed in
the given order -/
def parallel (order : List (Nat × Nat)) (data : List α) (distance : α → α → W) : Out (Mat W) :=
  run data distance order (Mat.uninit data.length data.length)

/-! ## Two sets -/

omit [Zero W] in
/-- arc_helpers.hpp:518-520 and 554-556: one inner iteration, two sets. -/
def iteration2 (data1 : List α) (data2 : List β) (distance : α → β → W) (idx jdx : Nat) (m : Mat W) :
    Out (Mat W) :=
  match data1[idx]?, data2[jdx]? with
  | some x, some y => do
    let m ← m.write idx jdx (distance x y)
    m.write jdx idx (distance x y)
  | _, _ => .ub

omit [Zero W] in
/-- The loops, with the iterations in the given order. Used for arc_helpers.hpp:546-560, 507-524. -/
def run2 (data1 : List α) (data2 : List β) (distance : α → β → W) :
    List (Nat × Nat) → Mat W → Out (Mat W)
  | [], m => .ok m
  | (i, j) :: rest, m => do
    let m ← iteration2 data1 data2 distance i j m
    run2 data1 data2 distance rest m

/-- The iterations of the loops over two sets, in program order (arc_helpers.hpp:516-517). -/
def iterations2 (n1 n2 : Nat) : List (Nat × Nat) :=
  (List.range n1).flatMap fun idx => (List.range n2).map fun jdx => (idx, jdx)

/-- arc_helpers.hpp:546-560 `BuildDistanceMatrixSerial`, two sets. The matrix has the size of the
first set in both dimensions, as in the code. -/
def serial2 (data1 : List α) (data2 : List β) (distance : α → β → W) : Out (Mat W) :=
  run2 data1 data2 distance (iterations2 data1.length data2.length)
    (Mat.uninit data1.length data1.length)

/-- arc_helpers.hpp:507-524 `BuildDistanceMatrixParallel`, two sets, with the iterations executed in
the given order -/
def parallel2 (order : List (Nat × Nat)) (data1 : List α) (data2 : List β) (distance : α → β → W) :
    Out (Mat W) :=
  run2 data1 data2 distance order (Mat.uninit data1.length data1.length)

end Verif.DistanceMatrix
