/-
Conversion between ITRS and WGS84 as floating-point arithmetic carries it out.
-/
import Verif.Frames.RoundedAltitude
import Verif.Frames.RoundedTime

namespace Celest.Frames

namespace Rounded

variable (M : Machine) (pw : ℝ → ℕ → ℝ) (E : Extra) (A : Trig)

/-- Latitude of `_itrs_to_wgs84`, radians, of a point in kilometres (transforms.py 185).
Simplified: the point does not lie on the polar axis, where NumPy would divide by zero. -/
noncomputable def latitude (v : Vec) : ℝ := E.arctan (M.fl (v 2 / axisDistance M pw v))

/-- Longitude of `_itrs_to_wgs84`, radians (transforms.py 186). -/
noncomputable def longitude (v : Vec) : ℝ := A.arctan2 (v 1) (v 0)

/-- `_itrs_to_wgs84` returns `r` for points in kilometres: latitudes and longitudes in radians and
heights in kilometres (transforms.py 157-189). -/
def Wgs84Returns (pts : List Vec) (r : List (ℝ × ℝ × ℝ)) : Prop :=
  ∃ hs, AltitudeReturns M pw E pts hs ∧
    r = List.zipWith (fun v h => (latitude M pw E v, longitude A v, h)) pts hs

/-- `n` in `_wgs84_to_itrs` for a latitude in radians (transforms.py 295-296). -/
noncomputable def primeVerticalAt (lat : ℝ) : ℝ :=
  let fl := M.fl
  fl (fl axisA / fl (Real.sqrt (fl (1 - fl (pw (fl ecc) 2 * pw (M.sin lat) 2)))))

/-- One row of `_wgs84_to_itrs`, radians and kilometres (transforms.py 295-302). -/
noncomputable def wgs84ToItrs1 (lat lon height : ℝ) : Vec :=
  let fl := M.fl
  let n := primeVerticalAt M pw lat
  ![fl (fl (fl (n + height) * M.cos lat) * M.cos lon),
    fl (fl (fl (n + height) * M.cos lat) * M.sin lon),
    fl (fl (fl (n * fl (1 - pw (fl ecc) 2)) + height) * M.sin lat)]

end Rounded

end Celest.Frames
