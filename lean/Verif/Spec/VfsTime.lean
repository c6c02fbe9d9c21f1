import Verif.Spec.VfsDisk

/-!
# Specification: dates

The Gregorian calendar in closed form.
-/

namespace Verif.Spec

/-- A leap year. -/
def Leap (y : Int) : Prop := 4 ∣ y ∧ (¬ 100 ∣ y ∨ 400 ∣ y)

instance (y : Int) : Decidable (Leap y) := inferInstanceAs (Decidable (_ ∧ _))

/-- The number of days in front of a month (1 to 12) in a year that is no leap year. -/
def daysBefore : List Int := [0, 31, 59, 90, 120, 151, 181, 212, 243, 273, 304, 334, 365]

/-- The number of days in front of a month (1 to 13) of a year. -/
def daysBeforeIn (y : Int) (m : Nat) : Int :=
  (daysBefore[m - 1]?).getD 0 + if m > 2 ∧ Leap y then 1 else 0

/-- A date and a time of day in UTC; months and days are counted from 1. -/
structure Moment where
  year : Int
  month : Nat
  day : Nat
  hour : Nat
  minute : Nat
  second : Nat
  deriving DecidableEq, Repr

/-- A date that exists. -/
def Moment.Valid (d : Moment) : Prop :=
  1 ≤ d.month ∧ d.month ≤ 12 ∧ 1 ≤ d.day ∧ (d.day : Int) ≤ daysBeforeIn d.year (d.month + 1) - daysBeforeIn d.year d.month ∧
    d.hour < 24 ∧ d.minute < 60 ∧ d.second < 60

instance (d : Moment) : Decidable d.Valid := inferInstanceAs (Decidable (_ ∧ _))

/-- The days from the start of the calendar to the start of a year. -/
def yearStart (y : Int) : Int := 365 * (y - 1) + (y - 1) / 4 - (y - 1) / 100 + (y - 1) / 400

/-- Seconds since the start of 1970. -/
def Moment.seconds (d : Moment) : Int :=
  (yearStart d.year - yearStart 1970 + daysBeforeIn d.year d.month + (d.day - 1)) * 86400 +
    d.hour * 3600 + d.minute * 60 + d.second

/-- The first and the last moment that have a place in the DOS format. -/
def dosFirst : Int := (Moment.seconds ⟨1980, 1, 1, 0, 0, 0⟩)
def dosLast : Int := (Moment.seconds ⟨2107, 12, 31, 23, 59, 59⟩)

end Verif.Spec
