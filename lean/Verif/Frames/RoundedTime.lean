/-
Model of the time scales of celest/time.py and of what they use of
celest/coordinates/astronomical_quantities.py in floating-point arithmetic.
-/
import Verif.Frames.RoundedAngles

namespace Celest.Frames

open Celest.TimeScale

/-- NumPy's tangent and `arctan2`. -/
structure Trig where
  tan : ℝ → ℝ
  arctan2 : ℝ → ℝ → ℝ

/-- What is assumed about them: the tangent of angles up to half a right angle is off by at most
`2u`, `arctan2` by at most `4u`. -/
structure Trig.Accurate (A : Trig) (u : ℝ) : Prop where
  tan : ∀ x, |x| ≤ Real.pi / 4 → |A.tan x - Real.tan x| ≤ 2 * u
  arctan2 : ∀ y x, |A.arctan2 y x - TimeScale.arctan2 y x| ≤ 4 * u

namespace Rounded

variable (M : Machine) (pw : ℝ → ℕ → ℝ) (A : Trig)

/-- `x % m`: the remainder is exact but for the addition of `m` to a negative one. -/
noncomputable def modulo (m x : ℝ) : ℝ := M.fl (fmod x m)

/-- `get_mean_anomaly_of_sun`, degrees (astronomical_quantities.py 130-133). -/
noncomputable def sunAnomaly (jd : ℝ) : ℝ :=
  let fl := M.fl
  let t := centuries M jd
  mod360 M (fl (fl (fl (fl 357.52772 + fl (fl 35999.050340 * pw t 1)) -
    fl (fl 0.0001603 * pw t 2)) - fl (pw t 3 / 300000)))

/-- `get_earth_eccentricity` (astronomical_quantities.py 518-521). -/
noncomputable def eccentricity (jd : ℝ) : ℝ :=
  let fl := M.fl
  let t := pw (centuries M jd) 1
  fl (fl (fl 0.016708634 - fl (fl 0.000042037 * t)) - fl (fl 0.0000001267 * pw t 2))

/-- `apparent_obliquity`, degrees (astronomical_quantities.py 362-365); the sum of two quantities
converts the second to the unit of the first (quantity.py 104-113). -/
noncomputable def apparentObliquity (jd : ℝ) : ℝ :=
  M.fl (meanObliquity M pw jd + arcsecToDeg M (nutationInObliquity M (ascendingNode M pw jd)
    (sunLongitude M pw jd) (moonLongitude M pw jd)))

/-- `equation_of_time`, radians (astronomical_quantities.py 502-515).  Multiplying by a power of two
is exact. -/
noncomputable def equationOfTime (jd : ℝ) : ℝ :=
  let fl := M.fl
  let l := degToRad M (sunLongitude M pw jd)
  let m := degToRad M (sunAnomaly M pw jd)
  let e := eccentricity M pw jd
  let y := pw (A.tan (degToRad M (apparentObliquity M pw jd) / 2)) 2
  let e1 := fl (y * M.sin (2 * l))
  let e2 := fl (-2 * e * M.sin m)
  let e3 := fl (fl (fl (4 * e * y) * M.sin m) * M.cos (2 * l))
  let e4 := fl (-0.5 * pw y 2 * M.sin (4 * l))
  let e5 := fl (fl (-1.25 * pw e 2) * M.sin (2 * m))
  fl (fl (fl (fl (e1 + e2) + e3) + e4) + e5)

/-- `equation_of_equinoxes`, arcseconds (astronomical_quantities.py 556-560). -/
noncomputable def equationOfEquinoxes (jd : ℝ) : ℝ :=
  M.fl (M.fl (nutationInLongitude M (ascendingNode M pw jd) (sunLongitude M pw jd)
    (moonLongitude M pw jd) * M.cos (degToRad M (apparentObliquity M pw jd))) / 15)

/-- Equation of the centre inside `sun_right_ascension`, degrees
(astronomical_quantities.py 599-602). -/
noncomputable def sunCentre (jd : ℝ) : ℝ :=
  let fl := M.fl
  let t := centuries M jd
  let m := degToRad M (sunAnomaly M pw jd)
  fl (fl (fl (fl (fl (fl 1.914602 - fl (fl 0.004817 * pw t 1)) - fl (fl 0.000014 * pw t 2)) *
      M.sin m) + fl (fl (fl 0.019993 - fl (fl 0.000101 * pw t 1)) * M.sin (2 * m))) +
    fl (fl 0.000289 * M.sin (fl (3 * m))))

/-- `sun_right_ascension`, radians (astronomical_quantities.py 596-610). -/
noncomputable def sunRightAscension (jd : ℝ) : ℝ :=
  let l := radians M (M.fl (sunLongitude M pw jd + sunCentre M pw jd))
  let o := degToRad M (meanObliquity M pw jd)
  modulo M (2 * M.fl Real.pi) (A.arctan2 (M.fl (M.cos o * M.sin l)) (M.cos l))

/-- `utc_time`, hours (time.py 167, 212). -/
noncomputable def utcHours (jd : ℝ) : ℝ := M.fl (M.fl (24 * modulo M 1 jd) - 12)

/-- `Time.true_solar_time`, hours; longitude in degrees (time.py 166-170).  One radian is
`radScale` degrees. -/
noncomputable def trueSolarTime (jd lon : ℝ) : ℝ :=
  modulo M 24 (M.fl (utcHours M jd +
    M.fl (M.fl (lon + M.fl (equationOfTime M pw A jd * radScale M)) / 15)))

/-- `Time.mean_solar_time` (time.py 212-215). -/
noncomputable def meanSolarTime (jd lon : ℝ) : ℝ :=
  modulo M 24 (M.fl (utcHours M jd + M.fl (lon / 15)))

/-- `Time.true_hour_angle` (time.py 266-267). -/
noncomputable def trueHourAngle (jd lon : ℝ) : ℝ :=
  modulo M 24 (M.fl (trueSolarTime M pw A jd lon - 12))

/-- `Time.mean_hour_angle` (time.py 316-317). -/
noncomputable def meanHourAngle (jd lon : ℝ) : ℝ :=
  modulo M 24 (M.fl (meanSolarTime M jd lon - 12))

/-- `Time.ut1` (time.py 349). -/
noncomputable def ut1 (jd : ℝ) : ℝ := meanSolarTime M jd 0

/-- `Time.gmst`, hours (time.py 404-409). -/
noncomputable def gmst (jd : ℝ) : ℝ :=
  let fl := M.fl
  let t := centuries M jd
  fl (mod360 M (fl (fl (fl (fl 280.46 + fl (fl (fl 360.98564736629 * pw t 1) * 36525)) +
    fl (fl 0.000387933 * pw t 2)) - fl (pw t 3 / 38710000))) / 15)

/-- `sun_right_ascension(…).to(u.hourangle)` (quantity.py 281-297; unit_initialization.py 36 and
39). -/
noncomputable def sunHours (jd : ℝ) : ℝ :=
  M.fl (sunRightAscension M pw A jd * M.fl (radScale M / 15))

/-- `Time.lmst` (time.py 448-451). -/
noncomputable def lmst (jd lon : ℝ) : ℝ :=
  modulo M 24 (M.fl (meanHourAngle M jd lon + sunHours M pw A jd))

/-- `Time.gast` (time.py 480-483): the sum is not reduced. -/
noncomputable def gast (jd : ℝ) : ℝ :=
  M.fl (gmst M pw jd + arcsecToDeg M (equationOfEquinoxes M pw jd))

/-- `Time.last` (time.py 519-526). -/
noncomputable def last (jd lon : ℝ) : ℝ :=
  modulo M 24 (M.fl (M.fl (M.fl (M.fl (ut1 M jd - 12) + sunHours M pw A jd) +
    arcsecToDeg M (equationOfEquinoxes M pw jd)) + M.fl (lon / 15)))

end Rounded

end Celest.Frames
