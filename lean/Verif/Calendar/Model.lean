/-
Model of `from_julian` and `day_of_year` (celest/coordinates/astronomical_quantities.py) and of
`Time.datetime` (celest/time.py).

Floats are exact rationals; NumPy arrays are lists.
-/
import Verif.Py
import Mathlib.Data.Rat.Floor
import Mathlib.Algebra.Order.Floor.Ring

namespace Celest.Calendar

/-- `.astype(int)` on a float: truncation towards zero. -/
def trunc (q : ℚ) : ℤ := if 0 ≤ q then ⌊q⌋ else ⌈q⌉

/-- `x % 1`. -/
def fracPart (q : ℚ) : ℚ := q - ⌊q⌋

/-- The shift of one element selected by `ind` (astronomical_quantities.py 406-407). -/
def gregorianShift (a : ℤ) : ℤ :=
  let alpha := trunc ((a - 186721625 / 100 : ℚ) / 36525)
  a + 1 + alpha - trunc ((alpha : ℚ) / 4)

/-- Year, month and decimal day from the shifted day number `a` and the fraction `f`
(astronomical_quantities.py 409-428), elementwise.  Both masks of lines 417-418 are taken before
`month` changes; line 424 reads the changed `month`. -/
def calendarDate (a : ℤ) (f : ℚ) : ℤ × ℤ × ℚ :=
  let b := a + 1524
  let c := trunc ((b - 1221 / 10 : ℚ) / (36525 / 100))
  let d := trunc ((36525 / 100 : ℚ) * c)
  let e := trunc ((b - d : ℚ) / (306001 / 10000))
  let day : ℚ := b - d - trunc ((306001 / 10000 : ℚ) * e) + f
  let month := if e < 14 then e - 1 else if e = 14 ∨ e = 15 then e - 13 else e
  let year := if month > 2 then c - 4716 else if month = 1 ∨ month = 2 then c - 4715 else c
  (year, month, day)

/-- Elements selected by line 405. -/
def late (a : ℤ) : Bool := 2291161 ≤ a

/-- `from_julian` (astronomical_quantities.py 399-428) on a one-dimensional array.  Line 407
assigns an array computed from *all* of `a` and the selected `alpha`: NumPy accepts the shapes
only if every element is selected, or if there is a single element. -/
def fromJulian (julian : List ℚ) : Py (List (ℤ × ℤ × ℚ)) :=
  let jd := julian.map (· + 1 / 2)
  let a := jd.map trunc
  if a.all late then
    .ok (List.zipWith (fun a x => calendarDate (gregorianShift a) (fracPart x)) a jd)
  else if a.length = 1 then
    .ok (List.zipWith (fun a x => calendarDate a (fracPart x)) a jd)
  else .error .valueError

/-- One element of `day_of_year` (astronomical_quantities.py 463-469). -/
def dayOfYearOf (date : ℤ × ℤ × ℚ) : ℤ :=
  let k : ℤ := if date.1 % 4 = 0 then 1 else 2
  let n := trunc ((275 * date.2.1 : ℚ) / 9)
  trunc (n - k * trunc ((date.2.1 + 9 : ℚ) / 12) + date.2.2 - 30)

/-- `day_of_year` (astronomical_quantities.py 431-469). -/
def dayOfYear (julian : List ℚ) : Py (List ℤ) := (fromJulian julian).map (·.map dayOfYearOf)

/-- The constructor `datetime(year, month, day)` of the standard library: `ValueError` outside
the years 1 to 9999 and for days that do not exist. -/
def pyDate (y m d : ℤ) : Py (ℤ × ℤ × ℤ) :=
  let leap : Bool := y % 4 = 0 ∧ (y % 100 ≠ 0 ∨ y % 400 = 0)
  let len : ℤ := if m = 2 then (if leap then 29 else 28)
    else if m = 4 ∨ m = 6 ∨ m = 9 ∨ m = 11 then 30 else 31
  if 1 ≤ y ∧ y ≤ 9999 ∧ 1 ≤ m ∧ m ≤ 12 ∧ 1 ≤ d ∧ d ≤ len then .ok (y, m, d)
  else .error .valueError

/-- `Time.datetime` (time.py 368-377): the date and the fraction of a day added to it.
Simplified: `timedelta` rounds the fraction to microseconds, here it is kept exact. -/
def datetimes (julian : List ℚ) : Py (List ((ℤ × ℤ × ℤ) × ℚ)) :=
  match fromJulian julian with
  | .error e => .error e
  | .ok l => l.mapM fun t => (pyDate t.1 t.2.1 (trunc t.2.2)).map fun d => (d, fracPart t.2.2)

end Celest.Calendar
