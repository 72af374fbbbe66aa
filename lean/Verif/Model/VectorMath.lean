import Verif.Base.Outcome
import Mathlib.Data.Rat.Floor
import Mathlib.Data.Int.Log

/-!
# Model of include/arc_utilities/vector_math.hpp

The functions are templates; the arithmetic of the element type is a parameter. `words` gives the arithmetic of the
integer types with `w` bits, `exact` that of exact numbers.
-/
namespace Verif.VectorMath
open Verif

/-- What the templates ask of the element type `T` and of `double`, here `D`. Division, and the conversion of a
number to `T`, may be undefined. Used for vector_math.hpp:15-18, 20-23. -/
structure Arith (T D : Type) where
  abs : T → Out T
  add : T → T → Out T
  sub : T → T → Out T
  mul : T → T → Out T
  div : T → T → Out T
  toDouble : T → D
  ofDouble : D → Out T
  mulD : D → D → D
  /-- `1.0 / x` -/
  invD : D → D
  zero : T

variable {T D : Type}

/-- `Abs` of a pair (include/arc_utilities/vector_math.hpp:15-18), both of one type here and below -/
def absPair (A : Arith T D) (p : T × T) : Out (T × T) := do
  let x ← A.abs p.1
  let y ← A.abs p.2
  pure (x, y)

/-- `Multiply` of a pair and a number (include/arc_utilities/vector_math.hpp:20-23), all of one type -/
def multiplyPairScalar (A : Arith T D) (p : T × T) (s : T) : Out (T × T) := do
  let x ← A.mul p.1 s
  let y ← A.mul p.2 s
  pure (x, y)

/-- `Multiply` of two pairs (include/arc_utilities/vector_math.hpp:25-28) -/
def multiplyPairs (A : Arith T D) (p q : T × T) : Out (T × T) := do
  let x ← A.mul p.1 q.1
  let y ← A.mul p.2 q.2
  pure (x, y)

/-- `Divide` of a pair by a number (include/arc_utilities/vector_math.hpp:30-33), all of one type -/
def dividePairScalar (A : Arith T D) (p : T × T) (s : T) : Out (T × T) := do
  let x ← A.div p.1 s
  let y ← A.div p.2 s
  pure (x, y)

/-- `Divide` of two pairs (include/arc_utilities/vector_math.hpp:35-38) -/
def dividePairs (A : Arith T D) (p q : T × T) : Out (T × T) := do
  let x ← A.div p.1 q.1
  let y ← A.div p.2 q.2
  pure (x, y)

/-- `Add` of two pairs (include/arc_utilities/vector_math.hpp:40-43) -/
def addPairs (A : Arith T D) (p q : T × T) : Out (T × T) := do
  let x ← A.add p.1 q.1
  let y ← A.add p.2 q.2
  pure (x, y)

/-- `Sub` of two pairs (include/arc_utilities/vector_math.hpp:45-48) -/
def subPairs (A : Arith T D) (p q : T × T) : Out (T × T) := do
  let x ← A.sub p.1 q.1
  let y ← A.sub p.2 q.2
  pure (x, y)

/-- `vec[idx]`: undefined outside. Used for vector_math.hpp:54-61, 63-71. -/
def at' (vec : List T) (idx : Nat) : Out T :=
  match vec[idx]? with
  | some x => .ok x
  | none => .ub

/-- `out[idx] = …` for `idx` from `idx` while it is below `out.size()` (for example
include/arc_utilities/vector_math.hpp:57-59) -/
def fill (value : Nat → Out T) (idx : Nat) (out : List T) : Out (List T) :=
  if h : idx < out.length then do
    let x ← value idx
    fill value (idx + 1) (out.set idx x)
  else .ok out
termination_by out.length - idx
decreasing_by simp only [List.length_set]; omega

/-- `Abs` of a vector (include/arc_utilities/vector_math.hpp:54-61) -/
def absVec (A : Arith T D) (vec : List T) : Out (List T) :=
  fill (fun idx => do A.abs (← at' vec idx)) 0 (List.replicate vec.length A.zero)

/-- `Multiply` of a vector and a `double` (include/arc_utilities/vector_math.hpp:63-71) -/
def multiplyDouble (A : Arith T D) (vec : List T) (scalar : D) : Out (List T) :=
  fill (fun idx => do
    let element ← at' vec idx
    A.ofDouble (A.mulD (A.toDouble element) scalar)) 0 (List.replicate vec.length A.zero)

/-- `Multiply` of a vector and a number of the element type, which becomes a `double` in the product
(include/arc_utilities/vector_math.hpp:63-71) -/
def multiplyScalar (A : Arith T D) (vec : List T) (scalar : T) : Out (List T) :=
  multiplyDouble A vec (A.toDouble scalar)

/-- `Multiply` of two vectors (include/arc_utilities/vector_math.hpp:73-86) -/
def multiplyVecs (A : Arith T D) (vec1 vec2 : List T) : Out (List T) :=
  if vec1.length = vec2.length then
    fill (fun idx => do
      let element1 ← at' vec1 idx
      let element2 ← at' vec2 idx
      A.ofDouble (A.mulD (A.toDouble element1) (A.toDouble element2))) 0 (List.replicate vec1.length A.zero)
  else .ok []

/-- `Divide` of a vector by a number of the element type (include/arc_utilities/vector_math.hpp:88-92) -/
def divideScalar (A : Arith T D) (vec : List T) (scalar : T) : Out (List T) :=
  let invScalar := A.invD (A.toDouble scalar)
  multiplyDouble A vec invScalar

/-- `Divide` of two vectors (include/arc_utilities/vector_math.hpp:94-107) -/
def divideVecs (A : Arith T D) (vec1 vec2 : List T) : Out (List T) :=
  if vec1.length = vec2.length then
    fill (fun idx => do
      let element1 ← at' vec1 idx
      let element2 ← at' vec2 idx
      A.div element1 element2) 0 (List.replicate vec1.length A.zero)
  else .ok []

/-- `Add` of a vector and a number of the element type (include/arc_utilities/vector_math.hpp:109-116) -/
def addScalar (A : Arith T D) (vec : List T) (scalar : T) : Out (List T) :=
  fill (fun idx => do
    let element ← at' vec idx
    A.add element scalar) 0 (List.replicate vec.length A.zero)

/-- `Add` of two vectors (include/arc_utilities/vector_math.hpp:118-131), which compiles for `double` only -/
def addVecs (A : Arith T D) (vec1 vec2 : List T) : Out (List T) :=
  if vec1.length = vec2.length then
    fill (fun idx => do
      let element1 ← at' vec1 idx
      let element2 ← at' vec2 idx
      A.add element1 element2) 0 (List.replicate vec1.length A.zero)
  else .ok []

/-- `Sub` of a vector and a number of the element type (include/arc_utilities/vector_math.hpp:133-140) -/
def subScalar (A : Arith T D) (vec : List T) (scalar : T) : Out (List T) :=
  fill (fun idx => do
    let element ← at' vec idx
    A.sub element scalar) 0 (List.replicate vec.length A.zero)

/-- `Sub` of two vectors (include/arc_utilities/vector_math.hpp:142-155) -/
def subVecs (A : Arith T D) (vec1 vec2 : List T) : Out (List T) :=
  if vec1.length = vec2.length then
    fill (fun idx => do
      let element1 ← at' vec1 idx
      let element2 ← at' vec2 idx
      A.sub element1 element2) 0 (List.replicate vec1.length A.zero)
  else .ok []

/-- The loop of `Sum` (include/arc_utilities/vector_math.hpp:160-163) -/
def sumLoop (A : Arith T D) : List T → T → Out T
  | [], sum => .ok sum
  | element :: rest, sum => do
    let sum ← A.add sum element
    sumLoop A rest sum

/-- `Sum` (include/arc_utilities/vector_math.hpp:157-165) -/
def sum (A : Arith T D) (vec : List T) : Out T := sumLoop A vec A.zero

/-! ### Integers -/

/-- A result of signed integer arithmetic with `w` bits: undefined when it does not fit. Used for
vector_math.hpp:15-165. -/
def fit (w : Nat) (x : Int) : Out Int :=
  if -2 ^ (w - 1) ≤ x ∧ x < 2 ^ (w - 1) then .ok x else .ub

/-- Rounding to the nearest integer, ties to the even one (IEEE 754). Used for vector_math.hpp:15-165. -/
def nearest (x : ℚ) : Int :=
  if x - ⌊x⌋ < 1 / 2 then ⌊x⌋
  else if 1 / 2 < x - ⌊x⌋ then ⌊x⌋ + 1
  else if ⌊x⌋ % 2 = 0 then ⌊x⌋
  else ⌊x⌋ + 1

/-- Rounding to a `double` with 53 binary digits (IEEE 754). Numbers are supposed to lie between the least and the
greatest normal `double`, which is so of products and inverses of integers with 64 bits. Used for
vector_math.hpp:15-165. -/
def roundDouble (x : ℚ) : ℚ :=
  if x = 0 then 0
  else
    let ulp : ℚ := 2 ^ (Int.log 2 |x| - 52)
    nearest (x / ulp) * ulp

/-- A finite `double`, or an infinity or a NaN. Used for vector_math.hpp:15-165. -/
abbrev Double := Option ℚ

/-- The conversion of a `double` to a signed integer type drops the fraction; it is undefined when the result does
not fit, or the number is not finite. Used for vector_math.hpp:15-165. -/
def truncate (w : Nat) : Double → Out Int
  | none => .ub
  | some x => fit w (if 0 ≤ x then ⌊x⌋ else ⌈x⌉)

/-- Signed integers of `w` bits, at least as wide as `int`. `std::abs` negates, which is undefined for the least
integer. Used for vector_math.hpp:15-165. -/
def words (w : Nat) : Arith Int Double where
  abs x := if x < 0 then fit w (-x) else .ok x
  add x y := fit w (x + y)
  sub x y := fit w (x - y)
  mul x y := fit w (x * y)
  div x y := if y = 0 then .ub else fit w (x.tdiv y)
  toDouble x := some (roundDouble x)
  ofDouble := truncate w
  mulD x y :=
    match x, y with
    | some x, some y => some (roundDouble (x * y))
    | _, _ => none
  invD x :=
    match x with
    | some x => if x = 0 then none else some (roundDouble (1 / x))
    | none => none
  zero := 0

/-- `double` without rounding. Division by zero, which gives an infinity or a NaN, is not modelled. Used for
vector_math.hpp:15-165. -/
def exact {K : Type} [Field K] [LinearOrder K] : Arith K K where
  abs x := .ok |x|
  add x y := .ok (x + y)
  sub x y := .ok (x - y)
  mul x y := .ok (x * y)
  div x y := .ok (x / y)
  toDouble x := x
  ofDouble := .ok
  mulD x y := x * y
  invD x := 1 / x
  zero := 0

end Verif.VectorMath
