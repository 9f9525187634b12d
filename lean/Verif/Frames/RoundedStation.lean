/-
Model of the Earth-fixed coordinates of a ground location in floating-point arithmetic.
-/
import Verif.Frames.RoundedAngles

namespace Celest.Frames

open Celest.TimeScale

/-- A ground location as given by the user: degrees and kilometres (ground_location.py 78-80). -/
structure Site where
  lat : ℝ
  lon : ℝ
  height : ℝ

/-- The location without rounding. -/
noncomputable def Site.ground (s : Site) : Ground := ⟨rad s.lat, rad s.lon, s.height⟩

namespace Rounded

variable (M : Machine) (pw : ℝ → ℕ → ℝ)

/-- `radius_of_curvature_in_prime_vertical`, kilometres (astronomical_quantities.py 613-615).
Simplified: `math.sin` and `math.cos` are those of the machine. -/
noncomputable def primeVertical (lat : ℝ) : ℝ :=
  let fl := M.fl
  fl (fl axisA / fl (Real.sqrt (fl (1 - fl (pw (fl ecc) 2 * pw (M.sin (degToRad M lat)) 2)))))

/-- `GroundLocation.itrs_x`, `itrs_y` and `itrs_z`, kilometres (ground_location.py 141-169). -/
noncomputable def itrs (s : Site) : Vec :=
  let fl := M.fl
  let m := primeVertical M pw s.lat
  let lat := degToRad M s.lat
  let lon := degToRad M s.lon
  ![fl (fl (fl (m + s.height) * M.cos lat) * M.cos lon),
    fl (fl (fl (m + s.height) * M.cos lat) * M.sin lon),
    fl (fl (fl (m * fl (1 - pw (fl ecc) 2)) + s.height) * M.sin lat)]

end Rounded

end Celest.Frames
