/-!
# Model of the time strings of include/arc_utilities/arc_helpers.hpp

Lines 1350-1374. The conversion of the time to local time is an argument. Times before 1970 are not modelled.
-/
namespace Verif.Timestamps

/-- The fields of `std::tm` that are printed, with the year and the month as they are written. Used for
arc_helpers.hpp:1352-1359, 1363-1373. -/
structure Civil where
  year : Nat
  month : Nat
  day : Nat
  hour : Nat
  minute : Nat
  second : Nat
deriving DecidableEq

/-- A decimal digit. Used for arc_helpers.hpp:1363-1373, 1352-1359. -/
def digit (d : Nat) : Char := Char.ofNat (48 + d)

/-- A number without leading zeros, as `%Y` and the stream operator write it. Used for arc_helpers.hpp:1363-1373. -/
def decimal (n : Nat) : List Char :=
  if _h : n < 10 then [digit n] else decimal (n / 10) ++ [digit (n % 10)]
termination_by n

/-- A number below 100 with two digits, as `%m`, `%d`, `%H`, `%M` and `%S` write it. Used for
arc_helpers.hpp:1352-1359, 1363-1373. -/
def two (n : Nat) : List Char := [digit (n / 10), digit (n % 10)]

/-- `std::put_time` with the format of lines 1356 and 1369. Used for arc_helpers.hpp:1352-1359, 1363-1373. -/
def putTime (t : Civil) : List Char :=
  decimal t.year ++ '-' :: (two t.month ++ '-' :: (two t.day ++ '_' :: '_' ::
    (two t.hour ++ '-' :: (two t.minute ++ '-' :: two t.second))))

/-- arc_helpers.hpp:1352-1359 `GetCurrentTimeAsString`; `now` are the milliseconds since 1970 -/
def timeString (localtime : Nat → Civil) (now : Nat) : List Char := putTime (localtime (now / 1000))

/-- arc_helpers.hpp:1363-1373 `GetCurrentTimeAsStringWithMilliseconds` -/
def timeStringMilliseconds (localtime : Nat → Civil) (now : Nat) : List Char :=
  putTime (localtime (now / 1000)) ++ '-' :: decimal (now % 1000)

end Verif.Timestamps
