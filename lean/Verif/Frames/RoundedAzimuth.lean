/-
`GroundLocation.radius` and `_azimuth` as floating-point arithmetic carries them out.
-/
import Verif.Frames.RoundedAttitude

namespace Celest.Frames

namespace Rounded

variable (M : Machine) (pw : ℝ → ℕ → ℝ)

/-- `GroundLocation.radius`, kilometres (ground_location.py 128-137). -/
noncomputable def radius (site : Site) : ℝ :=
  let fl := M.fl
  let c := M.cos (degToRad M site.lat)
  let s := M.sin (degToRad M site.lat)
  let numerator := fl (pw (fl (pw (fl axisA) 2 * c)) 2 + pw (fl (pw (fl axisB) 2 * s)) 2)
  let denominator := fl (pw (fl (fl axisA * c)) 2 + pw (fl (fl axisB * s)) 2)
  fl (fl (Real.sqrt (fl (numerator / denominator))) + site.height)

/-- `surface_tangent` (transforms.py 361-362). -/
noncomputable def surfaceTangent (site : Site) : Vec :=
  let g := itrs M pw site
  ![M.fl (0 - g 0), M.fl (0 - g 1),
    M.fl (M.fl (radius M pw site / M.sin (degToRad M site.lat)) - g 2)]

/-- `ground_to_sat_on_plane` (transforms.py 359-367), from the coordinates of the satellite in
kilometres. -/
noncomputable def onPlane (sat : Vec) (site : Site) : Vec :=
  let g := itrs M pw site
  let d : Vec := fun i => M.fl (sat i - g i)
  let n := M.fl (M.dot d g / pw (radius M pw site) 2)
  fun i => M.fl (d i - M.fl (n * g i))

open Classical in
/-- `_azimuth` of one row, degrees (transforms.py 349-376), from the coordinates of the satellite in
kilometres.  `none` is NaN; if the sine of the latitude is zero the tangent is infinite, and so is
the denominator of `_get_ang`.  Line 374 subtracts the angle from 360 where the condition holds and
is exact elsewhere. -/
noncomputable def azimuth (sat : Vec) (site : Site) : Option ℝ :=
  if M.sin (degToRad M site.lat) = 0 then none
  else
    let direction := cross M (surfaceTangent M pw site) (itrs M pw site)
    (getAng M (surfaceTangent M pw site) (onPlane M pw sat site)).map fun a =>
      if M.dot (onPlane M pw sat site) direction < 0 then M.fl (360 - a) else a

end Rounded

end Celest.Frames
