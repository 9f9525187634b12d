/-
`Satellite.distance` and `Satellite.look_angle` as floating-point arithmetic carries them out.
-/
import Verif.Frames.Rounded

namespace Celest.Frames

namespace Rounded

variable (M : Machine)

/-- One value of `Satellite.distance` in kilometres, from the coordinates of the satellite and of
the location in kilometres (satellite.py 215-221). -/
noncomputable def distance (sat ground : Vec) : ℝ := vnorm M fun i => M.fl (sat i - ground i)

/-- One value of `Satellite.look_angle` in degrees, from the coordinates of the satellite and of
the location in kilometres (satellite.py 240-253). -/
noncomputable def lookAngle (sat ground : Vec) : Option ℝ :=
  getAng M (fun i => M.fl (sat i - ground i)) sat

end Rounded

end Celest.Frames
