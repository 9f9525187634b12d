/-
The text of angles and ground locations as floating-point arithmetic produces it.
-/
import Verif.Text.Model

namespace Celest.Text

namespace Rounded

variable (fl : ℚ → ℚ)

/-- `_get_sexagesimal_string` (angle_strings.py 42-63) of a nonnegative angle: the two products
are rounded; `int`, `% 60` (of a nonnegative number) and `"%.2f"` are exact. -/
def sexagesimal (x : ℚ) : Str :=
  let y := fl (x * 60)
  let z := fl (x * 3600)
  let deg := (zfill 2 (natStr ⌊x⌋₊)).take 3
  let mn := (zfill 2 (natStr ⌊y - 60 * ⌊y / 60⌋₊⌋₊)).take 2
  let sec := zfill 5 (fmtFixed 2 (z - 60 * ⌊z / 60⌋₊))
  deg ++ ['°'] ++ mn ++ ['′'] ++ sec ++ ['″']

/-- `_get_latitude_string` (angle_strings.py 35-39); `deg` is what `to(u.deg)` returned, `raw`
the number stored in the quantity. -/
def latitudeString (deg raw : ℚ) : Str :=
  sexagesimal fl |deg| ++ (if 0 ≤ raw then ['N'] else ['S'])

/-- `_get_longitude_string` (angle_strings.py 66-70). -/
def longitudeString (deg raw : ℚ) : Str :=
  sexagesimal fl |deg| ++ (if 0 ≤ raw then ['E'] else ['W'])

/-- `_ISO6709_representation` (angle_strings.py 12-32), which is `str` of a ground location
(ground_location.py 82-87). -/
def iso6709 (latDeg latRaw lonDeg lonRaw height : ℚ) (unit : Str) : Str :=
  List.intercalate [' '] [latitudeString fl latDeg latRaw, longitudeString fl lonDeg lonRaw,
    heightString height unit]

end Rounded

end Celest.Text
