/-
The Gregorian calendar, independent of the code: leap years, month lengths, the successor of a
date, and the Julian day number of a date.
-/
import Mathlib.Data.Rat.Floor

namespace Celest.Calendar

/-- Gregorian leap years. -/
def leap (y : ℤ) : Bool := y % 4 = 0 ∧ (y % 100 ≠ 0 ∨ y % 400 = 0)

/-- Number of days of a month. -/
def monthLength (y m : ℤ) : ℤ :=
  if m = 2 then (if leap y then 29 else 28)
  else if m = 4 ∨ m = 6 ∨ m = 9 ∨ m = 11 then 30 else 31

/-- A calendar date. -/
structure Date where
  year : ℤ
  month : ℤ
  day : ℤ
deriving DecidableEq

/-- The date exists. -/
def Date.Valid (t : Date) : Prop :=
  1 ≤ t.month ∧ t.month ≤ 12 ∧ 1 ≤ t.day ∧ t.day ≤ monthLength t.year t.month

instance (t : Date) : Decidable t.Valid := by unfold Date.Valid; infer_instance

/-- The day after. -/
def Date.next (t : Date) : Date :=
  if t.day < monthLength t.year t.month then ⟨t.year, t.month, t.day + 1⟩
  else if t.month < 12 then ⟨t.year, t.month + 1, 1⟩
  else ⟨t.year + 1, 1, 1⟩

/-- Days of the year before the first of the month, in a common year. -/
def beforeMonth (m : ℤ) : ℤ :=
  if m = 1 then 0 else if m = 2 then 31 else if m = 3 then 59 else if m = 4 then 90
  else if m = 5 then 120 else if m = 6 then 151 else if m = 7 then 181 else if m = 8 then 212
  else if m = 9 then 243 else if m = 10 then 273 else if m = 11 then 304 else 334

/-- Position of the date in its year, counted from 1. -/
def Date.ordinal (t : Date) : ℤ :=
  beforeMonth t.month + t.day + if leap t.year ∧ 2 < t.month then 1 else 0

/-- Julian day number of the date: the Julian date at its noon.  1 January 2000 is 2451545. -/
def Date.dayNumber (t : Date) : ℤ :=
  365 * (t.year - 1) + (t.year - 1) / 4 - (t.year - 1) / 100 + (t.year - 1) / 400 +
    t.ordinal + 1721425

/-- Number of leap days dropped by the Gregorian rule among `k` centuries. -/
def dropped (k : ℤ) : ℤ := k - k / 4

/-- Centuries (of 36524.25 days) since 1 March of the year 400, by day number. -/
def century (n : ℤ) : ℤ := (4 * n - 7468865) / 146097

/-- The same with centuries of 36525 days. -/
def longCentury (n : ℤ) : ℤ := (4 * n - 7468865) / 146100

end Celest.Calendar
