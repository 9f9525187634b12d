/-
Model of the angles of the conversion between GCRS and ITRS in floating-point arithmetic.
-/
import Verif.Frames.Rounded

namespace Celest.Frames.Rounded

open Celest.TimeScale

/-- `x ** n` on floats is off by at most one unit in the last place. -/
def AccuratePower (pw : ℝ → ℕ → ℝ) (u : ℝ) : Prop := ∀ x n, |pw x n - x ^ n| ≤ 2 * u * |x ^ n|

variable (M : Machine) (pw : ℝ → ℕ → ℝ)

/-- The scale of the radian (unit_initialization.py 36). -/
noncomputable def radScale : ℝ := M.fl 57.29577951308232

/-- The scale of the arcsecond (unit_initialization.py 37). -/
noncomputable def arcsecScale : ℝ := M.fl (1 / 3600)

/-- Degrees to radians: `Quantity.to(u.rad)` (quantity.py 281-297). -/
noncomputable def degToRad (x : ℝ) : ℝ := M.fl (x * M.fl (1 / radScale M))

/-- Arcseconds to radians: `Quantity.to(u.rad)` (quantity.py 281-297). -/
noncomputable def arcsecToRad (x : ℝ) : ℝ := M.fl (x * M.fl (arcsecScale M / radScale M))

/-- Arcseconds to degrees: `Quantity.to(u.deg)` (quantity.py 281-297); dividing by 1 is exact. -/
noncomputable def arcsecToDeg (x : ℝ) : ℝ := M.fl (x * arcsecScale M)

/-- Degrees to arcseconds: `Quantity.to(u.arcsec)` (quantity.py 281-297). -/
noncomputable def degToArcsec (x : ℝ) : ℝ := M.fl (x * M.fl (1 / arcsecScale M))

/-- `np.radians`. -/
noncomputable def radians (x : ℝ) : ℝ := M.fl (x * M.fl (M.fl Real.pi / 180))

/-- `x % 360`: the remainder is exact but for the addition of 360 to a negative one. -/
noncomputable def mod360 (x : ℝ) : ℝ := M.fl (fmod x 360)

/-- `julian.to(u.jd2000) - JD2000_DATE` (astronomical_quantities.py 53, 126). -/
noncomputable def days (jd : ℝ) : ℝ := M.fl (jd - 2451545)

/-- `centuries_since_jd2000` (astronomical_quantities.py 126). -/
noncomputable def centuries (jd : ℝ) : ℝ := M.fl (days M jd / 36525)

/-- `earth_rotation_angle`, degrees (astronomical_quantities.py 53-56). -/
noncomputable def earthRotationAngle (jd : ℝ) : ℝ :=
  mod360 M (M.fl (M.fl (M.fl 360.9856123035484 * days M jd) + M.fl 280.46))

/-- `get_longitude_of_ascending_node_deg` (astronomical_quantities.py 148-151). -/
noncomputable def ascendingNode (jd : ℝ) : ℝ :=
  let fl := M.fl
  let t := centuries M jd
  mod360 M (fl (fl (fl (fl 125.04452 - fl (fl 1934.136261 * pw t 1)) +
    fl (fl 0.0020708 * pw t 2)) + fl (pw t 3 / 450000)))

/-- `get_mean_longitude_of_sun`, degrees (astronomical_quantities.py 198-200). -/
noncomputable def sunLongitude (jd : ℝ) : ℝ :=
  M.fl (M.fl 280.46645 + M.fl (M.fl 36000.76983 * pw (centuries M jd) 1))

/-- `get_mean_longitude_of_moon`, degrees (astronomical_quantities.py 203-205). -/
noncomputable def moonLongitude (jd : ℝ) : ℝ :=
  M.fl (M.fl 218.3165 + M.fl (M.fl 481267.8813 * pw (centuries M jd) 1))

/-- `get_nutation_in_longitude`, arcseconds (astronomical_quantities.py 208-216).  Doubling is
exact. -/
noncomputable def nutationInLongitude (node sun moon : ℝ) : ℝ :=
  let fl := M.fl
  let p1 := fl (-fl 17.20 * M.sin (degToRad M node))
  let p2 := fl (-fl 1.32 * M.sin (2 * degToRad M sun))
  let p3 := fl (-fl 0.23 * M.sin (2 * degToRad M moon))
  let p4 := fl (fl 0.21 * M.sin (2 * degToRad M node))
  fl (fl (fl (p1 + p2) + p3) + p4)

/-- `get_nutation_in_obliquity`, arcseconds (astronomical_quantities.py 219-227). -/
noncomputable def nutationInObliquity (node sun moon : ℝ) : ℝ :=
  let fl := M.fl
  let e1 := fl (fl 9.20 * M.cos (degToRad M node))
  let e2 := fl (fl 0.57 * M.cos (2 * degToRad M sun))
  let e3 := fl (fl 0.10 * M.cos (2 * degToRad M moon))
  let e4 := fl (-fl 0.09 * M.cos (2 * degToRad M node))
  fl (fl (fl (e1 + e2) + e3) + e4)

/-- `_get_zeta_precession_angle`, arcseconds (astronomical_quantities.py 261-265). -/
noncomputable def zetaPrecession (jd : ℝ) : ℝ :=
  let fl := M.fl
  let t := centuries M jd
  fl (fl (fl (fl (fl (fl 2.59796176 + fl (fl 2306.0809506 * pw t 1)) + fl (fl 0.3019015 * pw t 2)) +
    fl (fl 0.0179663 * pw t 3)) - fl (fl 0.0000327 * pw t 4)) - fl (fl 0.0000002 * pw t 5))

/-- `_get_theta_precession_angle`, arcseconds (astronomical_quantities.py 268-272). -/
noncomputable def thetaPrecession (jd : ℝ) : ℝ :=
  let fl := M.fl
  let t := centuries M jd
  fl (fl (fl (fl (fl (fl 2004.1917476 * pw t 1) - fl (fl 0.4269353 * pw t 2)) -
    fl (fl 0.0418251 * pw t 3)) - fl (fl 0.0000601 * pw t 4)) - fl (fl 0.0000001 * pw t 5))

/-- `_get_z_precession_angle`, arcseconds (astronomical_quantities.py 275-279). -/
noncomputable def zPrecession (jd : ℝ) : ℝ :=
  let fl := M.fl
  let t := centuries M jd
  fl (fl (fl (fl (fl (-fl 2.5976176 + fl (fl 2306.0803226 * pw t 1)) + fl (fl 1.0947790 * pw t 2)) +
    fl (fl 0.0182273 * pw t 3)) + fl (fl 0.0000470 * pw t 4)) - fl (fl 0.0000003 * pw t 5))

/-- `mean_obliquity`, degrees (astronomical_quantities.py 317-324). -/
noncomputable def meanObliquity (jd : ℝ) : ℝ :=
  let fl := M.fl
  let U := fl (pw (centuries M jd) 1 / 100)
  let s := fl (fl 84381.448 - fl (fl 4680.93 * U))
  let s := fl (s - fl (fl 1.55 * pw U 2))
  let s := fl (s + fl (fl 1999.25 * pw U 3))
  let s := fl (s - fl (fl 51.38 * pw U 4))
  let s := fl (s - fl (fl 249.67 * pw U 5))
  let s := fl (s - fl (fl 39.05 * pw U 6))
  let s := fl (s + fl (fl 7.12 * pw U 7))
  let s := fl (s + fl (fl 27.87 * pw U 8))
  let s := fl (s + fl (fl 5.79 * pw U 9))
  let s := fl (s + fl (fl 2.45 * pw U 10))
  fl (s / 3600)

/-- `eps_A`, arcseconds (nutation_precession_matrices.py 133). -/
noncomputable def epsA (jd : ℝ) : ℝ :=
  let fl := M.fl
  let t := centuries M jd
  fl (fl (fl (degToArcsec M (meanObliquity M pw jd) - fl (fl 46.84024 * pw t 1)) -
    fl (fl 0.00059 * pw t 2)) + fl (fl 0.001813 * pw t 3))

/-- The angles of the conversion at one instant, in radians
(nutation_precession_matrices.py 32-36, 82-86 and 131-137; transforms.py 94).  Simplified: `(-era)`
and `era` are taken to be converted to opposite numbers, as rounding is symmetric. -/
noncomputable def angles (jd : ℝ) : Angles where
  bias := ![radians M (M.fl (-M.fl 0.01460 / 3600)), radians M (M.fl (-M.fl 0.0166170 / 3600)),
    radians M (M.fl (M.fl 0.0068192 / 3600))]
  precession := ![arcsecToRad M (zetaPrecession M pw jd), arcsecToRad M (thetaPrecession M pw jd),
    -arcsecToRad M (zPrecession M pw jd)]
  nutation :=
    let node := ascendingNode M pw jd
    let sun := sunLongitude M pw jd
    let moon := moonLongitude M pw jd
    let eps := M.fl (epsA M pw jd / 3600)
    ![radians M eps, -arcsecToRad M (nutationInLongitude M node sun moon),
      -radians M (M.fl (eps + arcsecToDeg M (nutationInObliquity M node sun moon)))]
  era := degToRad M (earthRotationAngle M jd)

end Celest.Frames.Rounded
