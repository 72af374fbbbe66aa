import Mathlib.Algebra.Order.Field.Basic

/-!
# Model of the grid neighbours (include/arc_utilities/get_neighbours.hpp)

Configurations are pairs and triples of numbers from an ordered field: arithmetic is exact.
-/
namespace Verif.GetNeighbours

variable {K : Type} [Field K] [LinearOrder K]

/-- get_neighbours.hpp:28, 30: the offsets, in the order of the loops -/
def offsets : List Int := [-1, 0, 1]

/-- get_neighbours.hpp:34-36: the test -/
def accept2 (config low high neighbour : K × K) (valid : K × K → Bool) : Bool :=
  decide (low.1 ≤ neighbour.1) && decide (neighbour.1 ≤ high.1) && decide (low.2 ≤ neighbour.2) &&
    decide (neighbour.2 ≤ high.2) && (decide (neighbour.1 ≠ config.1) || decide (neighbour.2 ≠ config.2)) &&
    valid neighbour

/-- get_neighbours.hpp:10-44 `TwoDimensional8Connected` -/
def twoDimensional (config : K × K) (minX maxX minY maxY step : K) (round : K × K → K × K)
    (valid : K × K → Bool) : List (K × K) :=
  let low := round (max minX (config.1 - step), max minY (config.2 - step))
  let high := round (min maxX (config.1 + step), min maxY (config.2 + step))
  offsets.flatMap fun dx : Int =>
    offsets.filterMap fun dy : Int =>
      let neighbour := round (config.1 + step * dx, config.2 + step * dy)
      if accept2 config low high neighbour valid then some neighbour else none

/-- get_neighbours.hpp:75-78: the test -/
def accept3 (config low high neighbour : K × K × K) (valid : K × K × K → Bool) : Bool :=
  decide (low.1 ≤ neighbour.1) && decide (neighbour.1 ≤ high.1) && decide (low.2.1 ≤ neighbour.2.1) &&
    decide (neighbour.2.1 ≤ high.2.1) && decide (low.2.2 ≤ neighbour.2.2) &&
    decide (neighbour.2.2 ≤ high.2.2) &&
    (decide (neighbour.1 ≠ config.1) || decide (neighbour.2.1 ≠ config.2.1) ||
      decide (neighbour.2.2 ≠ config.2.2)) &&
    valid neighbour

/-- get_neighbours.hpp:46-87 `ThreeDimensional8Connected` -/
def threeDimensional (config : K × K × K) (minX maxX minY maxY minZ maxZ step : K)
    (round : K × K × K → K × K × K) (valid : K × K × K → Bool) : List (K × K × K) :=
  let low := round (max minX (config.1 - step), max minY (config.2.1 - step), max minZ (config.2.2 - step))
  let high := round (min maxX (config.1 + step), min maxY (config.2.1 + step), min maxZ (config.2.2 + step))
  offsets.flatMap fun dx : Int =>
    offsets.flatMap fun dy : Int =>
      offsets.filterMap fun dz : Int =>
        let neighbour := round (config.1 + step * dx, config.2.1 + step * dy, config.2.2 + step * dz)
        if accept3 config low high neighbour valid then some neighbour else none

end Verif.GetNeighbours
