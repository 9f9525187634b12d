/-
`Satellite.attitude` and the LVLH frame as floating-point arithmetic carries them out.
-/
import Verif.Frames.RoundedStation
import Verif.Frames.RoundedTime

namespace Celest.Frames

namespace Rounded

variable (M : Machine) (pw : ℝ → ℕ → ℝ) (A : Trig) (arcsin : ℝ → ℝ)

/-- `np.cross` of two vectors of three coordinates. -/
noncomputable def cross (a b : Vec) : Vec :=
  let fl := M.fl
  ![fl (fl (a 1 * b 2) - fl (a 2 * b 1)), fl (fl (a 2 * b 0) - fl (a 0 * b 2)),
    fl (fl (a 0 * b 1) - fl (a 1 * b 0))]

/-- A vector divided by its length: `v / np.linalg.norm(v)`. -/
noncomputable def normalize (v : Vec) : Vec := fun i => M.fl (v i / vnorm M v)

/-- The length of the vector the code divides by its length is the length of its negative: NumPy
squares the coordinates (transforms.py 527-528, satellite.py 180-181). -/
noncomputable def negNormalize (v : Vec) : Vec := fun i => M.fl (-v i / vnorm M v)

/-- `_gcrs_to_lvlh_matrix` for one sample (transforms.py 523-536). -/
noncomputable def lvlhMatrix (r v : Vec) : Mat :=
  let z := negNormalize M r
  let y := negNormalize M (cross M r v)
  Matrix.of ![cross M y z, y, z]

/-- Roll, pitch and yaw in radians from the satellite and the target in the LVLH frame
(satellite.py 180-196); `none` if a length or `1 + c` is zero or the arcsine does not exist, where
NumPy returns NaN or infinities.  NumPy squares by a multiplication. -/
noncomputable def attitudeOf (position ground : Vec) : Option (ℝ × ℝ × ℝ) :=
  let fl := M.fl
  let s := negNormalize M position
  let d : Vec := fun i => fl (ground i - position i)
  let g := normalize M d
  let v := cross M s g
  let c1 := fl (1 + M.dot s g)
  let a32 := fl (v 0 + fl (fl (v 1 * v 2) / c1))
  let a31 := fl (-v 1 + fl (fl (v 0 * v 2) / c1))
  let a33 := fl (1 - fl (fl (fl (v 0 * v 0) + fl (v 1 * v 1)) / c1))
  let a12 := fl (-v 2 + fl (fl (v 0 * v 1) / c1))
  let a22 := fl (1 - fl (fl (fl (v 0 * v 0) + fl (v 2 * v 2)) / c1))
  open Classical in
  if vnorm M position = 0 ∨ vnorm M d = 0 ∨ c1 = 0 ∨ 1 < |a32| then none
  else some (-arcsin a32, A.arctan2 a31 a33, A.arctan2 a12 a22)

/-- `Satellite.attitude` for one sample, from the stored ITRS position in kilometres, velocity in
metres per second, and the location (satellite.py 141-199); `none` also if the LVLH matrix does not
exist.  Between equal units the conversion factor is exactly one, so the matrix of lines 170-173 is
the one `_gcrs_to_lvlh` uses at 147-150. -/
noncomputable def attitude (jd : ℝ) (position velocity : Vec) (site : Site) :
    Option (ℝ × ℝ × ℝ) :=
  let r := itrsToGcrs1 M (angles M pw jd) position
  let v := itrsToGcrs1 M (angles M pw jd) velocity
  let m := lvlhMatrix M r v
  let ground := apply M m (itrsToGcrs1 M (angles M pw jd) (itrs M pw site))
  open Classical in
  if vnorm M r = 0 ∨ vnorm M (cross M r v) = 0 then none
  else attitudeOf M A arcsin (apply M m r) ground

end Rounded

end Celest.Frames
