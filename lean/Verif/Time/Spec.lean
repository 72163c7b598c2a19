import Verif.Time.Model

/-!
# The Gregorian calendar

The calendar is given by its rule for the next day.
-/

namespace Blackhole.Time

/-- A date; months and days are counted from 1. -/
structure Date where
  year : Nat
  month : Nat
  day : Nat
  deriving DecidableEq, Repr

def LeapYear (y : Nat) : Prop := y % 4 = 0 ∧ (y % 100 ≠ 0 ∨ y % 400 = 0)

instance (y : Nat) : Decidable (LeapYear y) := by unfold LeapYear; exact inferInstance

/-- The number of days of a month. -/
def monthDays (y m : Nat) : Nat :=
  if m = 2 then (if LeapYear y then 29 else 28)
  else if m = 4 ∨ m = 6 ∨ m = 9 ∨ m = 11 then 30
  else 31

/-- The day after. -/
def Date.next (d : Date) : Date :=
  if d.day < monthDays d.year d.month then { d with day := d.day + 1 }
  else if d.month < 12 then { year := d.year, month := d.month + 1, day := 1 }
  else { year := d.year + 1, month := 1, day := 1 }

/-- The `n`th day after 1 January 1970. -/
def dateOn : Nat → Date
  | 0 => { year := 1970, month := 1, day := 1 }
  | n + 1 => (dateOn n).next

/-- The weekday of the `n`th day after 1 January 1970, a Thursday; 0 is Sunday. -/
def weekdayOn : Nat → Nat
  | 0 => 4
  | n + 1 => if weekdayOn n = 6 then 0 else weekdayOn n + 1

/-- The days of the year before the month. -/
def daysBefore (y : Nat) : Nat → Nat
  | 0 => 0
  | 1 => 0
  | m + 2 => daysBefore y (m + 1) + monthDays y (m + 1)

/-- The day of the year; 1 January is 0. -/
def Date.yearDay (d : Date) : Nat := daysBefore d.year d.month + (d.day - 1)

/-- The fields say: the date `d`, `s` seconds after its midnight, the weekday `w`. -/
structure Says (tm : Tm) (d : Date) (s w : Nat) : Prop where
  clock : tm.hour * 3600 + tm.min * 60 + tm.sec = s
  hour : 0 ≤ tm.hour ∧ tm.hour < 24
  min : 0 ≤ tm.min ∧ tm.min < 60
  sec : 0 ≤ tm.sec ∧ tm.sec < 60
  day : tm.mday = d.day
  month : tm.mon = d.month - 1
  yearDay : tm.yday = d.yearDay
  weekday : tm.wday = w
  summer : tm.isdst = 0

end Blackhole.Time
