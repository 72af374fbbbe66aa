/-!
# Model of `include/arc_utilities/pretty_print.hpp`

The types that can be printed are described by `Ty`, their values by `Val`. A number, a string or another streamable
value is given by its text, as `operator<<` writes it (pretty_print.hpp:22-30). Sets and maps are lists in the order of
their iterators. Left out: `VectorXd` and `MatrixXd` (192-220), whose text is laid out by Eigen, and `forward_list`
(344-372), which does not compile because the container has no `size`.
-/
namespace Verif.PrettyPrint

/-- A text. Used for pretty_print.hpp:276-289, 276, 297, 318, 378, 408, 440, 472, 502, 532, 564, 596. -/
abbrev Text := List Char

/-- The types (pretty_print.hpp:22, 37-128): `seq` is `array`, `vector`, `list` and `deque`, `map` also `multimap` and the
unordered ones, `set` also `multiset` and the unordered ones -/
inductive Ty where
  | atom
  | bool
  | vector2
  | vector3
  | vector4
  | quaternion
  | isometry
  | pair (a b : Ty)
  | seq (a : Ty)
  | map (a b : Ty)
  | set (a : Ty)

/-- The values of a type; those of a quaternion are in the order x, y, z, w. Used for pretty_print.hpp:22-30, 135-190,
222-343, 374-650. -/
def Val : Ty → Type
  | .atom => Text
  | .bool => Bool
  | .vector2 => Text × Text
  | .vector3 => Text × Text × Text
  | .vector4 => Text × Text × Text × Text
  | .quaternion => Text × Text × Text × Text
  | .isometry => (Text × Text × Text) × (Text × Text × Text × Text)
  | .pair a b => Val a × Val b
  | .seq a => List (Val a)
  | .map a b => List (Val a × Val b)
  | .set a => List (Val a)

/-- The loop over a container: the separator stands before each element but the first (pretty_print.hpp:276-289,
297-310, 318-340, 378-400, 408-432, 440-464, 472-494, 502-524 and so on) -/
def elements {α : Type} (p : α → Text) (sep : Text) (first : Bool) : List α → Text
  | [] => []
  | x :: xs => (if first then p x else sep ++ p x) ++ elements p sep false xs

/-- A container: nothing at all if it is empty (pretty_print.hpp:276, 297, 318, 378, 408, 440, 472, 502, 532, 564, 596,
626) -/
def container {α : Type} (p : α → Text) (opening closing : Char) (delimiters : Bool) (sep : Text) (l : List α) : Text :=
  if l.length > 0 then
    if delimiters then opening :: elements p sep true l ++ [closing] else elements p sep true l
  else []

/-- A truth value (pretty_print.hpp:135-144) -/
def boolText (b : Bool) : Text := if b then "true".toList else "false".toList

/-- A pair (pretty_print.hpp:258-270) -/
def pairText (delimiters : Bool) (a b : Text) : Text :=
  if delimiters then "<".toList ++ a ++ ": ".toList ++ b ++ ">".toList else a ++ ": ".toList ++ b

/-- `PrettyPrint` (pretty_print.hpp:22-30, 135-190, 222-343, 374-650) -/
def prettyPrint (delimiters : Bool) (sep : Text) : (t : Ty) → Val t → Text
  | .atom, v => v
  | .bool, v => boolText v
  | .vector2, (x, y) =>
    if delimiters then "Vector2d: <x: ".toList ++ x ++ " y: ".toList ++ y ++ ">".toList else x ++ ", ".toList ++ y
  | .vector3, (x, y, z) =>
    if delimiters then "Vector3d: <x: ".toList ++ x ++ " y: ".toList ++ y ++ " z: ".toList ++ z ++ ">".toList
    else x ++ ", ".toList ++ y ++ ", ".toList ++ z
  | .vector4, (x, y, z, w) =>
    if delimiters then
      "Vector4d: <x: ".toList ++ x ++ " y: ".toList ++ y ++ " z: ".toList ++ z ++ " w: ".toList ++ w ++ ">".toList
    else x ++ ", ".toList ++ y ++ ", ".toList ++ z ++ ", ".toList ++ w
  | .quaternion, (x, y, z, w) =>
    if delimiters then
      "Quaterniond <x: ".toList ++ x ++ " y: ".toList ++ y ++ " z: ".toList ++ z ++ " w: ".toList ++ w ++ ">".toList
    else x ++ ", ".toList ++ y ++ ", ".toList ++ z ++ ", ".toList ++ w
  | .isometry, ((x, y, z), (qx, qy, qz, qw)) =>
    if delimiters then
      "Isometry3d <x: ".toList ++ x ++ " y: ".toList ++ y ++ " z: ".toList ++ z ++ ">, <x: ".toList ++ qx ++
        " y: ".toList ++ qy ++ " z: ".toList ++ qz ++ " w: ".toList ++ qw ++ ">".toList
    else x ++ ", ".toList ++ y ++ ", ".toList ++ z ++ " : ".toList ++ qx ++ ", ".toList ++ qy ++ ", ".toList ++ qz ++
      ", ".toList ++ qw
  | .pair a b, (x, y) => pairText delimiters (prettyPrint delimiters sep a x) (prettyPrint delimiters sep b y)
  | .seq a, l => container (prettyPrint delimiters sep a) '[' ']' delimiters sep l
  | .map a b, l =>
    container (fun e => pairText delimiters (prettyPrint delimiters sep a e.1) (prettyPrint delimiters sep b e.2)) '{' '}'
      delimiters sep l
  | .set a, l => container (prettyPrint delimiters sep a) '(' ')' delimiters sep l

end Verif.PrettyPrint
