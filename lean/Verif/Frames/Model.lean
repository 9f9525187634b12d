/-
Model of celest/coordinates/transforms.py, nutation_precession_matrices.py, ground_location.py
and of the geometry of celest/satellite.py.

Floats are real numbers, a sample is an instant (Julian date) with a vector, and NumPy's
operations along the first axis are maps over samples.  Where NumPy would produce NaN because of
a zero denominator, the result is `none`.  Rounding is not modelled.
-/
import Verif.Py
import Verif.TimeScale.Model
import Mathlib.LinearAlgebra.CrossProduct
import Mathlib.LinearAlgebra.Matrix.NonsingularInverse
import Mathlib.Analysis.SpecialFunctions.Trigonometric.Arctan
import Mathlib.Analysis.SpecialFunctions.Trigonometric.Inverse

namespace Celest.Frames

open Matrix Celest.TimeScale

/-- Cartesian coordinates. -/
abbrev Vec := Fin 3 → ℝ

/-- 3 by 3 matrices. -/
abbrev Mat := Matrix (Fin 3) (Fin 3) ℝ

/-- `np.linalg.norm` of one vector. -/
noncomputable def vnorm (v : Vec) : ℝ := Real.sqrt (v ⬝ᵥ v)

/-- Arcseconds to radians. -/
noncomputable def arcsec (x : ℝ) : ℝ := rad (x / 3600)

/-! ### Bias, precession, nutation -/

/-- The matrix filled in at nutation_precession_matrices.py 42-53. -/
noncomputable def biasOf (a1 a2 a3 : ℝ) : Mat :=
  let s1 := Real.sin a1; let c1 := Real.cos a1
  let s2 := Real.sin a2; let c2 := Real.cos a2
  let s3 := Real.sin a3; let c3 := Real.cos a3
  !![c1 * c2, s1 * c2, -s2;
     -s1 * c3 + c1 * s2 * s3, c1 * c3 + s1 * s2 * s3, c2 * s3;
     s1 * s3 + c1 * s2 * c3, -c1 * s3 + s1 * s2 * c3, c2 * c3]

/-- `bias_matrix` (nutation_precession_matrices.py 32-55). -/
noncomputable def biasMatrix : Mat :=
  biasOf (arcsec (-0.01460)) (arcsec (-0.0166170)) (arcsec (-(-0.0068192)))

/-- The matrix filled in at nutation_precession_matrices.py 92-102. -/
noncomputable def precessionOf (a1 a2 a3 : ℝ) : Mat :=
  let s1 := Real.sin a1; let c1 := Real.cos a1
  let s2 := Real.sin a2; let c2 := Real.cos a2
  let s3 := Real.sin a3; let c3 := Real.cos a3
  !![-s1 * s3 + c1 * c2 * c3, c1 * s3 + s1 * c2 * c3, -s2 * c3;
     -s1 * c3 - c1 * c2 * s3, c1 * c3 - s1 * c2 * s3, s2 * s3;
     c1 * s2, s1 * s2, c2]

/-- `precession_matrix` at one instant (nutation_precession_matrices.py 82-104). -/
noncomputable def precessionMatrix (jd : ℝ) : Mat :=
  precessionOf (arcsec (zetaPrecession jd)) (arcsec (thetaPrecession jd))
    (-arcsec (zPrecession jd))

/-- The matrix filled in at nutation_precession_matrices.py 143-153. -/
noncomputable def nutationOf (a1 a2 a3 : ℝ) : Mat :=
  let s1 := Real.sin a1; let c1 := Real.cos a1
  let s2 := Real.sin a2; let c2 := Real.cos a2
  let s3 := Real.sin a3; let c3 := Real.cos a3
  !![c2, s1 * s2, -c1 * s2;
     s2 * s3, c1 * c3 - s1 * c2 * s3, s1 * c3 + c1 * c2 * s3;
     s2 * c3, -c1 * s3 - s1 * c2 * c3, -s1 * s3 + c1 * c2 * c3]

/-- `eps_A`, arcseconds (nutation_precession_matrices.py 133). -/
noncomputable def epsA (jd : ℝ) : ℝ :=
  let t := centuries jd
  meanObliquity jd * 3600 - 46.84024 * t - 0.00059 * t ^ 2 + 0.001813 * t ^ 3

/-- `nutation_matrix` at one instant (nutation_precession_matrices.py 131-155). -/
noncomputable def nutationMatrix (jd : ℝ) : Mat :=
  nutationOf (rad (epsA jd / 3600)) (-arcsec (nutationComponents jd).1)
    (-rad (epsA jd / 3600 + (nutationComponents jd).2 / 3600))

/-! ### GCRS and ITRS -/

/-- `_rotate_by_earth_rotation_angle` on one row, angle in degrees (transforms.py 94-102). -/
noncomputable def rotateEra (v : Vec) (deg : ℝ) : Vec :=
  let c := Real.cos (rad deg); let s := Real.sin (rad deg)
  ![c * v 0 - s * v 1, s * v 0 + c * v 1, v 2]

/-- One row of `_gcrs_to_itrs` (transforms.py 64-73). -/
noncomputable def gcrsToItrs1 (jd : ℝ) (v : Vec) : Vec :=
  rotateEra (nutationMatrix jd *ᵥ (precessionMatrix jd *ᵥ (biasMatrix *ᵥ v)))
    (-earthRotationAngle jd)

/-- One row of `_itrs_to_gcrs` (transforms.py 143-152). -/
noncomputable def itrsToGcrs1 (jd : ℝ) (v : Vec) : Vec :=
  biasMatrix⁻¹ *ᵥ ((precessionMatrix jd)⁻¹ *ᵥ ((nutationMatrix jd)⁻¹ *ᵥ
    rotateEra v (earthRotationAngle jd)))

/-- The classes of position data (celest/coordinates/frames). -/
inductive FrameName
  | gcrs | itrs | wgs84 | azel | lvlh | attitude
deriving DecidableEq

/-- A GCRS, ITRS or LVLH object: the unit of its coordinates (given by its size in kilometres,
or kilometres per second for velocities) and its samples.  Simplified: the four arrays of the
object have one length (see C57 for the constructor). -/
structure Cartesian where
  unit : ℝ
  samples : List (ℝ × Vec)

/-- `_gcrs_to_itrs` (transforms.py 26-75): the unit is kept. -/
noncomputable def gcrsToItrs (g : Cartesian) : Cartesian :=
  ⟨g.unit, g.samples.map fun p => (p.1, gcrsToItrs1 p.1 p.2)⟩

/-- `_itrs_to_gcrs` (transforms.py 105-154). -/
noncomputable def itrsToGcrs (g : Cartesian) : Cartesian :=
  ⟨g.unit, g.samples.map fun p => (p.1, itrsToGcrs1 p.1 p.2)⟩

/-! ### LVLH -/

/-- One slice of `_gcrs_to_lvlh_matrix` (transforms.py 523-536). -/
noncomputable def lvlhMatrix (r v : Vec) : Mat :=
  let z : Vec := -((vnorm r)⁻¹ • r)
  let y : Vec := -((vnorm (r ⨯₃ v))⁻¹ • (r ⨯₃ v))
  let x : Vec := y ⨯₃ z
  Matrix.of ![x, y, z]

/-- One row of `_gcrs_to_lvlh` (transforms.py 478-490): position and velocity. -/
noncomputable def gcrsToLvlh1 (r v : Vec) : Vec × Vec :=
  (lvlhMatrix r v *ᵥ r, lvlhMatrix r v *ᵥ v)

/-! ### Geographic coordinates -/

/-- `WGS84_MAJOR_AXIS_KM` (constants.py). -/
noncomputable def axisA : ℝ := 6378.137

/-- `WGS84_MINOR_AXIS_KM` (constants.py). -/
noncomputable def axisB : ℝ := 6356.752314245

/-- `WGS83_FIRST_ECCENTRICITY` (constants.py). -/
noncomputable def ecc : ℝ := 0.08181919084296284

/-- Radius of curvature in the prime vertical, latitude in radians (transforms.py 296;
astronomical_quantities.py 613-615). -/
noncomputable def primeVertical (lat : ℝ) : ℝ :=
  axisA / Real.sqrt (1 - ecc ^ 2 * Real.sin lat ^ 2)

/-- One row of `_wgs84_to_itrs`, radians and kilometres (transforms.py 295-302). -/
noncomputable def wgs84ToItrs1 (lat lon height : ℝ) : Vec :=
  let n := primeVertical lat
  ![(n + height) * Real.cos lat * Real.cos lon, (n + height) * Real.cos lat * Real.sin lon,
    (n * (1 - ecc ^ 2) + height) * Real.sin lat]

/-- Latitude of `_itrs_to_wgs84`, radians (transforms.py 185).  On the polar axis NumPy divides
by zero: the quotient is ±inf and its arctangent ±π/2, or NaN at the centre. -/
noncomputable def itrsLatitude (v : Vec) : Option ℝ :=
  let p := Real.sqrt (v 0 ^ 2 + v 1 ^ 2)
  if p = 0 then
    if v 2 = 0 then none else some (if 0 < v 2 then Real.pi / 2 else -(Real.pi / 2))
  else some (Real.arctan (v 2 / p))

/-- Longitude of `_itrs_to_wgs84`, radians (transforms.py 186). -/
noncomputable def itrsLongitude (v : Vec) : ℝ := arctan2 (v 1) (v 0)

/-- `new_vals` inside `_altitude` (transforms.py 238-243). -/
noncomputable def altStep (p z phi : ℝ) : ℝ × ℝ :=
  let e2 := Real.sqrt (1 - axisB ^ 2 / axisA ^ 2) ^ 2
  let N := axisA / Real.sqrt (Real.cos phi ^ 2 + axisB ^ 2 / axisA ^ 2 * Real.sin phi ^ 2)
  let h := p / Real.cos phi - N
  (h, Real.arctan (z / p * (1 - e2 * N / (N + h))⁻¹))

/-- Distance of a point from the polar axis (transforms.py 233). -/
noncomputable def axisDistance (v : Vec) : ℝ := Real.sqrt (v 0 ^ 2 + v 1 ^ 2)

/-- Start values `(h, phi)` of `_altitude` for one point (transforms.py 232-236). -/
noncomputable def altStart (v : Vec) : ℝ × ℝ :=
  let e2 := Real.sqrt (1 - axisB ^ 2 / axisA ^ 2) ^ 2
  let p := axisDistance v
  let h := Real.sqrt (v 0 ^ 2 + v 1 ^ 2 + v 2 ^ 2) - Real.sqrt (axisA * axisB)
  (h, Real.arctan (v 2 / p * (1 - e2 * axisA / (axisA + h))⁻¹))

/-- The arrays `(h, phi)` after `k` passes through the loop body (transforms.py 245-249).
Simplified: no point lies on the polar axis, where NumPy would divide by zero. -/
noncomputable def altState (pts : List Vec) : ℕ → List (ℝ × ℝ)
  | 0 => pts.map altStart
  | k + 1 => List.zipWith (fun v s => altStep (axisDistance v) (v 2) s.2) pts (altState pts k)

/-- `np.mean`. -/
noncomputable def mean (l : List ℝ) : ℝ := l.sum / l.length

/-- The loop condition after `k` passes (transforms.py 247), with `tol = 10e-10`. -/
def altContinue (pts : List Vec) (k : ℕ) : Prop :=
  axisA * (10 * 10 ^ (-10 : ℤ)) <
    mean (List.zipWith (· - ·) ((altState pts (k + 1)).map (·.1)) ((altState pts k).map (·.1))) ∨
  10 * 10 ^ (-10 : ℤ) <
    mean (List.zipWith (· - ·) ((altState pts (k + 1)).map (·.2)) ((altState pts k).map (·.2)))

/-- `_altitude` returns `r` for points in kilometres (transforms.py 192-251): the value of `h`,
not of `hp`, at the first time the loop condition fails. -/
def AltitudeReturns (pts : List Vec) (r : List ℝ) : Prop :=
  ∃ k, (∀ j < k, altContinue pts j) ∧ ¬ altContinue pts k ∧ r = (altState pts k).map (·.1)

/-! ### Ground locations -/

/-- A ground location: latitude and longitude in radians, height in kilometres. -/
structure Ground where
  lat : ℝ
  lon : ℝ
  height : ℝ

/-- `GroundLocation.__init__` (ground_location.py 73-80); the units are given by their sizes in
radians and in kilometres.  The bounds are checked on the numbers as given. -/
noncomputable def Ground.make (latitude longitude height angularUnit lengthUnit : ℝ) : Py Ground :=
  if latitude < -90 ∨ 90 < latitude then .error .valueError
  else if longitude < -180 ∨ 180 < longitude then .error .valueError
  else .ok ⟨latitude * angularUnit, longitude * angularUnit, height * lengthUnit⟩

/-- `GroundLocation.radius`, kilometres (ground_location.py 110-139). -/
noncomputable def Ground.radius (g : Ground) : ℝ :=
  let c := Real.cos g.lat; let s := Real.sin g.lat
  Real.sqrt (((axisA ^ 2 * c) ^ 2 + (axisB ^ 2 * s) ^ 2) / ((axisA * c) ^ 2 + (axisB * s) ^ 2)) +
    g.height

/-- `GroundLocation.itrs_x`, `itrs_y`, `itrs_z`, kilometres (ground_location.py 141-169). -/
noncomputable def Ground.itrs (g : Ground) : Vec :=
  let m := primeVertical g.lat
  ![(m + g.height) * Real.cos g.lat * Real.cos g.lon,
    (m + g.height) * Real.cos g.lat * Real.sin g.lon,
    (m * (1 - ecc ^ 2) + g.height) * Real.sin g.lat]

/-! ### Angles -/

/-- `_get_ang` for two vectors, degrees (transforms.py 396-403); NaN if one is zero. -/
noncomputable def getAng (u v : Vec) : Option ℝ :=
  if vnorm u * vnorm v = 0 then none
  else some (Real.arccos (u ⬝ᵥ v / (vnorm u * vnorm v)) * (180 / Real.pi))

/-- `_elevation`, degrees (transforms.py 422-429). -/
noncomputable def elevation (sat : Vec) (g : Ground) : Option ℝ :=
  (getAng (sat - g.itrs) g.itrs).map fun a => 90 - a

/-- `surface_tangent` (transforms.py 361-362). -/
noncomputable def surfaceTangent (g : Ground) : Vec :=
  ![0, 0, g.radius / Real.sin g.lat] - g.itrs

/-- `ground_to_sat_on_plane` (transforms.py 359-367). -/
noncomputable def onPlane (sat : Vec) (g : Ground) : Vec :=
  let d := sat - g.itrs
  d - (d ⬝ᵥ g.itrs / g.radius ^ 2) • g.itrs

/-- `_azimuth`, degrees (transforms.py 349-376).  At latitude zero line 361 divides by zero: the
tangent is infinite and `_get_ang` yields inf / inf, which is NaN. -/
noncomputable def azimuth (sat : Vec) (g : Ground) : Option ℝ :=
  if Real.sin g.lat = 0 then none
  else
    let direction := surfaceTangent g ⨯₃ g.itrs
    (getAng (surfaceTangent g) (onPlane sat g)).map fun a =>
      if onPlane sat g ⬝ᵥ direction < 0 then 360 - a else a

/-- `Satellite.distance`, kilometres (satellite.py 215-221). -/
noncomputable def distance (sat : Vec) (g : Ground) : ℝ := vnorm (sat - g.itrs)

/-- `Satellite.look_angle`, degrees (satellite.py 240-253). -/
noncomputable def lookAngle (sat : Vec) (g : Ground) : Option ℝ := getAng (sat - g.itrs) sat

/-! ### Attitude -/

/-- Roll, pitch and yaw in radians from the satellite and the target in the LVLH frame
(satellite.py 175-196). -/
noncomputable def attitudeOf (position ground : Vec) : ℝ × ℝ × ℝ :=
  let s : Vec := -((vnorm position)⁻¹ • position)
  let g : Vec := (vnorm (ground - position))⁻¹ • (ground - position)
  let v : Vec := s ⨯₃ g
  let c := s ⬝ᵥ g
  let a32 := v 0 + v 1 * v 2 / (1 + c)
  let a31 := -v 1 + v 0 * v 2 / (1 + c)
  let a33 := 1 - (v 0 ^ 2 + v 1 ^ 2) / (1 + c)
  let a12 := -v 2 + v 0 * v 1 / (1 + c)
  let a22 := 1 - (v 0 ^ 2 + v 2 ^ 2) / (1 + c)
  (-Real.arcsin a32, arctan2 a31 a33, arctan2 a12 a22)

/-- `Satellite.attitude` for one sample, from the satellite's ITRS position and velocity
(satellite.py 137-199).  The LVLH position is computed from the stored units, the matrix applied
to the target from kilometres and metres per second: `posUnit` and `velUnit` are the sizes of
the stored units in kilometres and metres per second. -/
noncomputable def attitude (jd posUnit velUnit : ℝ) (position velocity : Vec) (g : Ground) :
    ℝ × ℝ × ℝ :=
  let r := itrsToGcrs1 jd position
  let v := itrsToGcrs1 jd velocity
  let lvlhPosition := posUnit • (gcrsToLvlh1 r v).1
  let ground := lvlhMatrix (posUnit • r) (velUnit • v) *ᵥ itrsToGcrs1 jd g.itrs
  attitudeOf lvlhPosition ground

end Celest.Frames
