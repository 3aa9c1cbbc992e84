import Verif.Model.Dict
import Verif.Model.Bitmap

/-!
# Model of `datetime.datetime` as far as `round_datetime` uses it, and of `round_datetime`
-/

namespace Hyperreal

/-- A `datetime.datetime`; `offset` is the UTC offset in seconds of an aware one.  The `fold` attribute is not modelled. -/
structure Datetime where
  year : Nat
  month : Nat
  day : Nat
  hour : Nat
  minute : Nat
  second : Nat
  micro : Nat
  offset : Option Int
  deriving DecidableEq, Repr

namespace Datetime

/-- Leap years of the Gregorian calendar. -/
def leap (y : Nat) : Bool := (y % 4 = 0 && y % 100 ≠ 0) || y % 400 = 0

/-- The number of days of a month. -/
def daysIn (y m : Nat) : Nat :=
  if m = 2 then (if leap y then 29 else 28)
  else if m = 4 ∨ m = 6 ∨ m = 9 ∨ m = 11 then 30 else 31

/-- What the constructor of `datetime` checks. -/
def valid (d : Datetime) : Bool :=
  1 ≤ d.year && d.year ≤ 9999 && 1 ≤ d.month && d.month ≤ 12 && 1 ≤ d.day && d.day ≤ daysIn d.year d.month &&
  d.hour ≤ 23 && d.minute ≤ 59 && d.second ≤ 59 && d.micro ≤ 999999

/-- `datetime.replace(...)`: the changed copy, checked by the constructor (`ValueError` otherwise). -/
def replace (f : Datetime → Datetime) (d : Datetime) : Except Err Datetime :=
  if (f d).valid then .ok (f d) else .error .valueError

end Datetime

/-- `round_datetime` (utilities.py:79-86). -/
def roundDatetime (t : Datetime) : Except Err (List (String × Datetime)) := do
  let minute ← t.replace (fun d => { d with second := 0, micro := 0 })
  let hour ← minute.replace (fun d => { d with minute := 0 })
  let day ← hour.replace (fun d => { d with hour := 0 })
  let month ← day.replace (fun d => { d with day := 1 })
  let year ← month.replace (fun d => { d with month := 1 })
  return [("minute", minute), ("hour", hour), ("day", day), ("month", month), ("year", year)]

end Hyperreal
