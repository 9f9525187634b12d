/-
Model of celest/coordinates/astronomical_quantities.py (except the calendar functions) and of
the time scales of celest/time.py.

Floats are real numbers; the functions are modelled for one instant (NumPy applies them to each
element of the array).  Angles converted with `.to(u.rad)` are multiplied by π/180.
-/
import Mathlib.Analysis.SpecialFunctions.Complex.Arg

namespace Celest.TimeScale

/-- Python's `x % m` for a positive modulus. -/
noncomputable def fmod (x m : ℝ) : ℝ := x - m * ⌊x / m⌋

/-- Degrees to radians. -/
noncomputable def rad (d : ℝ) : ℝ := d * (Real.pi / 180)

/-- `np.arctan2(y, x)`. -/
noncomputable def arctan2 (y x : ℝ) : ℝ := Complex.arg ⟨x, y⟩

/-- `earth_rotation_angle`, degrees (astronomical_quantities.py 53-56). -/
noncomputable def earthRotationAngle (jd : ℝ) : ℝ :=
  fmod (360.9856123035484 * (jd - 2451545) + 280.46) 360

/-- Centuries since J2000 (astronomical_quantities.py 125-127). -/
noncomputable def centuries (jd : ℝ) : ℝ := (jd - 2451545) / 36525

/-- `get_mean_elongation_moon_from_sun_deg` (astronomical_quantities.py 119-122). -/
noncomputable def meanElongation (jd : ℝ) : ℝ :=
  let t := centuries jd
  fmod (297.85036 + 445267.111480 * t - 0.0019142 * t ^ 2 + t ^ 3 / 189474) 360

/-- `get_mean_anomaly_of_sun`, degrees (astronomical_quantities.py 130-133). -/
noncomputable def sunAnomaly (jd : ℝ) : ℝ :=
  let t := centuries jd
  fmod (357.52772 + 35999.050340 * t - 0.0001603 * t ^ 2 - t ^ 3 / 300000) 360

/-- `get_mean_anomaly_of_moon_deg` (astronomical_quantities.py 136-139). -/
noncomputable def moonAnomaly (jd : ℝ) : ℝ :=
  let t := centuries jd
  fmod (134.96298 + 477198.867398 * t + 0.0086972 * t ^ 2 + t ^ 3 / 56250) 360

/-- `get_moons_argument_of_latitude_deg` (astronomical_quantities.py 142-145). -/
noncomputable def moonLatitudeArgument (jd : ℝ) : ℝ :=
  let t := centuries jd
  fmod (93.27191 + 483202.017538 * t - 0.0036825 * t ^ 2 + t ^ 3 / 327270) 360

/-- `get_longitude_of_ascending_node_deg` (astronomical_quantities.py 148-151). -/
noncomputable def ascendingNode (jd : ℝ) : ℝ :=
  let t := centuries jd
  fmod (125.04452 - 1934.136261 * t + 0.0020708 * t ^ 2 + t ^ 3 / 450000) 360

/-- `nutation_angles`, degrees (astronomical_quantities.py 110-116). -/
noncomputable def nutationAngles (jd : ℝ) : ℝ × ℝ × ℝ × ℝ × ℝ :=
  (meanElongation jd, sunAnomaly jd, moonAnomaly jd, moonLatitudeArgument jd, ascendingNode jd)

/-- `get_mean_longitude_of_sun`, degrees, not reduced (astronomical_quantities.py 198-200). -/
noncomputable def sunLongitude (jd : ℝ) : ℝ := 280.46645 + 36000.76983 * centuries jd

/-- `get_mean_longitude_of_moon`, degrees, not reduced (astronomical_quantities.py 203-205). -/
noncomputable def moonLongitude (jd : ℝ) : ℝ := 218.3165 + 481267.8813 * centuries jd

/-- `get_nutation_in_longitude`, arcseconds (astronomical_quantities.py 208-216). -/
noncomputable def nutationInLongitude (node sun moon : ℝ) : ℝ :=
  -17.20 * Real.sin (rad node) + -1.32 * Real.sin (2 * rad sun) +
    -0.23 * Real.sin (2 * rad moon) + 0.21 * Real.sin (2 * rad node)

/-- `get_nutation_in_obliquity`, arcseconds (astronomical_quantities.py 219-227). -/
noncomputable def nutationInObliquity (node sun moon : ℝ) : ℝ :=
  9.20 * Real.cos (rad node) + 0.57 * Real.cos (2 * rad sun) +
    0.10 * Real.cos (2 * rad moon) + -0.09 * Real.cos (2 * rad node)

/-- `nutation_components`, arcseconds (astronomical_quantities.py 154-195). -/
noncomputable def nutationComponents (jd : ℝ) : ℝ × ℝ :=
  (nutationInLongitude (ascendingNode jd) (sunLongitude jd) (moonLongitude jd),
    nutationInObliquity (ascendingNode jd) (sunLongitude jd) (moonLongitude jd))

/-- `_get_zeta_precession_angle`, arcseconds (astronomical_quantities.py 261-265). -/
noncomputable def zetaPrecession (jd : ℝ) : ℝ :=
  let t := centuries jd
  2.59796176 + 2306.0809506 * t + 0.3019015 * t ^ 2 + 0.0179663 * t ^ 3 - 0.0000327 * t ^ 4 -
    0.0000002 * t ^ 5

/-- `_get_theta_precession_angle`, arcseconds (astronomical_quantities.py 268-272). -/
noncomputable def thetaPrecession (jd : ℝ) : ℝ :=
  let t := centuries jd
  2004.1917476 * t - 0.4269353 * t ^ 2 - 0.0418251 * t ^ 3 - 0.0000601 * t ^ 4 -
    0.0000001 * t ^ 5

/-- `_get_z_precession_angle`, arcseconds (astronomical_quantities.py 275-279). -/
noncomputable def zPrecession (jd : ℝ) : ℝ :=
  let t := centuries jd;
  -2.5976176 + 2306.0803226 * t + 1.0947790 * t ^ 2 + 0.0182273 * t ^ 3 + 0.0000470 * t ^ 4 -
    0.0000003 * t ^ 5

/-- `mean_obliquity`, degrees (astronomical_quantities.py 317-324). -/
noncomputable def meanObliquity (jd : ℝ) : ℝ :=
  let U := centuries jd / 100
  (84381.448 - 4680.93 * U - 1.55 * U ^ 2 + 1999.25 * U ^ 3 - 51.38 * U ^ 4 - 249.67 * U ^ 5 -
    39.05 * U ^ 6 + 7.12 * U ^ 7 + 27.87 * U ^ 8 + 5.79 * U ^ 9 + 2.45 * U ^ 10) / 3600

/-- `apparent_obliquity`, degrees (astronomical_quantities.py 362-365). -/
noncomputable def apparentObliquity (jd : ℝ) : ℝ :=
  meanObliquity jd + (nutationComponents jd).2 / 3600

/-- `get_earth_eccentricity` (astronomical_quantities.py 518-521). -/
noncomputable def eccentricity (jd : ℝ) : ℝ :=
  let t := centuries jd
  0.016708634 - 0.000042037 * t - 0.0000001267 * t ^ 2

/-- `equation_of_time`, radians (astronomical_quantities.py 502-515). -/
noncomputable def equationOfTime (jd : ℝ) : ℝ :=
  let l := rad (sunLongitude jd)
  let m := rad (sunAnomaly jd)
  let e := eccentricity jd
  let y := Real.tan (rad (apparentObliquity jd) / 2) ^ 2
  y * Real.sin (2 * l) + -2 * e * Real.sin m + 4 * e * y * Real.sin m * Real.cos (2 * l) +
    -0.5 * y ^ 2 * Real.sin (4 * l) + -1.25 * e ^ 2 * Real.sin (2 * m)

/-- `equation_of_equinoxes`, arcseconds (astronomical_quantities.py 556-560). -/
noncomputable def equationOfEquinoxes (jd : ℝ) : ℝ :=
  (nutationComponents jd).1 * Real.cos (rad (apparentObliquity jd)) / 15

/-- Equation of the centre inside `sun_right_ascension`, degrees
(astronomical_quantities.py 599-602). -/
noncomputable def sunCentre (jd : ℝ) : ℝ :=
  let t := centuries jd
  let m := rad (sunAnomaly jd)
  (1.914602 - 0.004817 * t - 0.000014 * t ^ 2) * Real.sin m +
    (0.019993 - 0.000101 * t) * Real.sin (2 * m) + 0.000289 * Real.sin (3 * m)

/-- `sun_right_ascension`, radians (astronomical_quantities.py 596-610). -/
noncomputable def sunRightAscension (jd : ℝ) : ℝ :=
  let l := rad (sunLongitude jd + sunCentre jd)
  let o := rad (meanObliquity jd)
  fmod (arctan2 (Real.cos o * Real.sin l) (Real.cos l)) (2 * Real.pi)

/-! ### Time -/

/-- `utc_time`, hours (time.py 167, 212). -/
noncomputable def utcHours (jd : ℝ) : ℝ := 24 * fmod jd 1 - 12

/-- `Time.true_solar_time`, hours; longitude in degrees (time.py 166-170). -/
noncomputable def trueSolarTime (jd lon : ℝ) : ℝ :=
  fmod (utcHours jd + (lon + equationOfTime jd * (180 / Real.pi)) / 15) 24

/-- `Time.mean_solar_time` (time.py 212-215). -/
noncomputable def meanSolarTime (jd lon : ℝ) : ℝ := fmod (utcHours jd + lon / 15) 24

/-- `Time.true_hour_angle` (time.py 266-267). -/
noncomputable def trueHourAngle (jd lon : ℝ) : ℝ := fmod (trueSolarTime jd lon - 12) 24

/-- `Time.mean_hour_angle` (time.py 316-317). -/
noncomputable def meanHourAngle (jd lon : ℝ) : ℝ := fmod (meanSolarTime jd lon - 12) 24

/-- `Time.ut1` (time.py 349). -/
noncomputable def ut1 (jd : ℝ) : ℝ := meanSolarTime jd 0

/-- `Time.gmst`, hours (time.py 404-409). -/
noncomputable def gmst (jd : ℝ) : ℝ :=
  let t := centuries jd
  fmod (280.46 + 360.98564736629 * t * 36525 + 0.000387933 * t ^ 2 - t ^ 3 / 38710000) 360 / 15

/-- `sun_right_ascension(…).to(u.hourangle)`. -/
noncomputable def sunHours (jd : ℝ) : ℝ := sunRightAscension jd * (12 / Real.pi)

/-- `Time.lmst` (time.py 448-451). -/
noncomputable def lmst (jd lon : ℝ) : ℝ := fmod (meanHourAngle jd lon + sunHours jd) 24

/-- `Time.gast` (time.py 480-483): the sum is not reduced. -/
noncomputable def gast (jd : ℝ) : ℝ := gmst jd + equationOfEquinoxes jd / 3600

/-- `Time.last` (time.py 519-526). -/
noncomputable def last (jd lon : ℝ) : ℝ :=
  fmod (ut1 jd - 12 + sunHours jd + equationOfEquinoxes jd / 3600 + lon / 15) 24

end Celest.TimeScale
