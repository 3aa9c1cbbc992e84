import Verif.Model.Datetime
import Mathlib.Algebra.BigOperators.Group.List.Basic

/-!
# Specification of datetime rounding
-/

namespace Hyperreal.Spec

/-- The components of a datetime, from coarse to fine. -/
def parts (d : Datetime) : List Nat := [d.year, d.month, d.day, d.hour, d.minute, d.second, d.micro]

/-- The granularities and how many components each keeps. -/
def granularities : List (String × Nat) := [("year", 1), ("month", 2), ("day", 3), ("hour", 4), ("minute", 5)]

/-- Is `r` the datetime `d` truncated to its first `n` components?  The others have their least value: 1 for month
and day, 0 for the rest. -/
def Truncates (n : Nat) (d r : Datetime) : Prop :=
  parts r = (parts d).take n ++ [1, 1, 1, 0, 0, 0, 0].drop n ∧ r.offset = d.offset

/-- Comparison component by component. -/
def lexLe : List Nat → List Nat → Prop
  | [], _ => True
  | _ :: _, [] => False
  | a :: as, b :: bs => a < b ∨ (a = b ∧ lexLe as bs)

/-- Python's order of datetimes in the same timezone (or without one): by the components. -/
def notLater (a b : Datetime) : Prop := lexLe (parts a) (parts b)

/-- The day number in the proleptic Gregorian calendar (`date.toordinal`). -/
def ordinal (d : Datetime) : Nat :=
  365 * (d.year - 1) + (d.year - 1) / 4 - (d.year - 1) / 100 + (d.year - 1) / 400 +
    ((List.range (d.month - 1)).map (fun m => Datetime.daysIn d.year (m + 1))).sum + d.day

/-- The instant of an aware datetime, in microseconds; Python compares aware datetimes of different timezones this way. -/
def instant (d : Datetime) : Int :=
  ((((ordinal d * 24 + d.hour) * 60 + d.minute) * 60 + d.second : Nat) - d.offset.getD 0) * 1000000 + d.micro

end Hyperreal.Spec
