/-
The calendar functions of `Verif/Calendar/Model.lean` with floating-point rounding: `fl` is applied
to every decimal constant and to the result of every float operation.  `%` by 1 and `.astype(int)`
are exact; integers below 2^53 convert to floats exactly.
-/
import Verif.Calendar.Model
import Verif.Rounding

namespace Celest.Calendar.Rounded

variable (fl : ℚ → ℚ)

/-- The shift of one element selected by `ind` (astronomical_quantities.py 406-407). -/
def gregorianShift (a : ℤ) : ℤ :=
  let alpha := trunc (fl (fl (a - fl (186721625 / 100)) / 36525))
  a + 1 + alpha - trunc (fl ((alpha : ℚ) / 4))

/-- Year, month and decimal day (astronomical_quantities.py 409-428). -/
def calendarDate (a : ℤ) (f : ℚ) : ℤ × ℤ × ℚ :=
  let b := a + 1524
  let c := trunc (fl (fl (b - fl (1221 / 10)) / fl (36525 / 100)))
  let d := trunc (fl (fl (36525 / 100) * c))
  let e := trunc (fl ((b - d : ℚ) / fl (306001 / 10000)))
  let day := fl ((b - d - trunc (fl (fl (306001 / 10000) * e)) : ℚ) + f)
  let month := if e < 14 then e - 1 else if e = 14 ∨ e = 15 then e - 13 else e
  let year := if month > 2 then c - 4716 else if month = 1 ∨ month = 2 then c - 4715 else c
  (year, month, day)

/-- `from_julian` (astronomical_quantities.py 399-428). -/
def fromJulian (julian : List ℚ) : Py (List (ℤ × ℤ × ℚ)) :=
  let jd := julian.map fun x => fl (x + fl (1 / 2))
  let a := jd.map trunc
  if a.all late then
    .ok (List.zipWith (fun a x => calendarDate fl (gregorianShift fl a) (fracPart x)) a jd)
  else if a.length = 1 then
    .ok (List.zipWith (fun a x => calendarDate fl a (fracPart x)) a jd)
  else .error .valueError

/-- One element of `day_of_year` (astronomical_quantities.py 463-469). -/
def dayOfYearOf (date : ℤ × ℤ × ℚ) : ℤ :=
  let k : ℤ := if date.1 % 4 = 0 then 1 else 2
  let n := trunc (fl ((275 * date.2.1 : ℚ) / 9))
  trunc (fl (fl (n - k * trunc (fl ((date.2.1 + 9 : ℚ) / 12)) + date.2.2) - 30))

/-- `day_of_year` (astronomical_quantities.py 431-469). -/
def dayOfYear (julian : List ℚ) : Py (List ℤ) :=
  (fromJulian fl julian).map (·.map (dayOfYearOf fl))

/-- `timedelta(days=f)` of the standard library for a fraction `0 ≤ f < 1` of a day, in
microseconds: the product with the length of a day, rounded to a whole number, ties to even. -/
def microseconds (f : ℚ) : ℤ := nearestEven (fl (86400000000 * f))

/-- `Time.datetime` (time.py 368-377): the date and the microseconds added to it. -/
def datetimes (julian : List ℚ) : Py (List ((ℤ × ℤ × ℤ) × ℤ)) :=
  match fromJulian fl julian with
  | .error e => .error e
  | .ok l => l.mapM fun t =>
    (pyDate t.1 t.2.1 (trunc t.2.2)).map fun d => (d, microseconds fl (fracPart t.2.2))

end Celest.Calendar.Rounded
