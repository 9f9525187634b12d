/-
C110: the mean motions of sun, moon and node, and precession.
-/
import Verif.TimeScale.PropsBounds

namespace Celest.TimeScale

/-- Two angles in degrees agree to within `tol`, up to full turns. -/
def SameAngle (a b tol : ℝ) : Prop := ∃ k : ℤ, |a - b - 360 * k| ≤ tol

/-- From 1900 to 2100 the angle, in degrees, grows by a full turn in `period` days, uniformly to
within `tol` (backwards, if the period is negative), and it is zero at `epoch`. -/
def Runs (angle : ℝ → ℝ) (period epoch tol : ℝ) : Prop :=
  ∀ jd, WithinCenturies 1 jd → SameAngle (angle jd) (360 * ((jd - epoch) / period)) tol

theorem pow_bounds {t : ℝ} (h : |t| ≤ 1) : (0 ≤ t ^ 2 ∧ t ^ 2 ≤ 1) ∧ (-1 ≤ t ^ 3 ∧ t ^ 3 ≤ 1) := by
  have h2 := abs_le.1 h
  refine ⟨⟨by positivity, by nlinarith⟩, ?_, ?_⟩
  · nlinarith [sq_nonneg t, sq_nonneg (t + 1)]
  · nlinarith [sq_nonneg t, sq_nonneg (t - 1)]

/-- An angle given by a cubic in the centuries since J2000. -/
theorem runs_cubic (angle : ℝ → ℝ) (a b c d period epoch tol : ℝ) (n : ℤ)
    (hangle : ∀ jd, ∃ k : ℤ, angle jd =
      a + b * centuries jd + c * centuries jd ^ 2 + d * centuries jd ^ 3 + 360 * k)
    (hp : period ≠ 0)
    (htol : |a - 360 * ((2451545 - epoch) / period) - 360 * n| + |b - 360 * 36525 / period| +
      |c| + |d| ≤ tol) : Runs angle period epoch tol := by
  intro jd hjd
  obtain ⟨k, hk⟩ := hangle jd
  have ht := hjd.centuries
  obtain ⟨⟨p1, p2⟩, p3, p4⟩ := pow_bounds ht
  refine ⟨n + k, ?_⟩
  have e : jd = 2451545 + 36525 * centuries jd := by unfold centuries; ring
  have e2 : angle jd - 360 * ((jd - epoch) / period) - 360 * ((n + k : ℤ) : ℝ) =
      (a - 360 * ((2451545 - epoch) / period) - 360 * n) +
      (b - 360 * 36525 / period) * centuries jd + c * centuries jd ^ 2 +
      d * centuries jd ^ 3 := by
    rw [hk]
    conv_lhs => rw [e]
    have : centuries (2451545 + 36525 * centuries jd) = centuries jd := by rw [← e]
    rw [this]
    push_cast
    field_simp
    ring
  rw [e2]
  have a1 : |(b - 360 * 36525 / period) * centuries jd| ≤ |b - 360 * 36525 / period| := by
    rw [abs_mul]; exact mul_le_of_le_one_right (abs_nonneg _) ht
  have a2 : |c * centuries jd ^ 2| ≤ |c| := by
    rw [abs_mul]
    exact mul_le_of_le_one_right (abs_nonneg _) (abs_le.2 ⟨by linarith, p2⟩)
  have a3 : |d * centuries jd ^ 3| ≤ |d| := by
    rw [abs_mul]
    exact mul_le_of_le_one_right (abs_nonneg _) (abs_le.2 ⟨p3, p4⟩)
  have b1 := abs_add_le ((a - 360 * ((2451545 - epoch) / period) - 360 * n) +
      (b - 360 * 36525 / period) * centuries jd + c * centuries jd ^ 2) (d * centuries jd ^ 3)
  have b2 := abs_add_le ((a - 360 * ((2451545 - epoch) / period) - 360 * n) +
      (b - 360 * 36525 / period) * centuries jd) (c * centuries jd ^ 2)
  have b3 := abs_add_le (a - 360 * ((2451545 - epoch) / period) - 360 * n)
    ((b - 360 * 36525 / period) * centuries jd)
  linarith

/-- **C110.** From 1900 to 2100, each of the five fundamental angles of `nutation_angles` runs
uniformly, to 0.02 degrees, with its observed period, through zero at the observed
instant: the phase of the moon in the synodic month from the mean new moon of 6 January 2000, the
anomaly of the sun in the anomalistic year from the perihelion of 3 January 2000, the anomaly of
the moon in the anomalistic month from a perigee, its distance from the node in the draconic month
from a passage through the node, and the node backwards in 18.6 years from the major standstill of
June 2006. -/
theorem C110_periods :
    Runs (fun jd => (nutationAngles jd).1) 29.530589 2451550.098 0.02 ∧
    Runs (fun jd => (nutationAngles jd).2.1) 365.259636 2451547.507 0.02 ∧
    Runs (fun jd => (nutationAngles jd).2.2.1) 27.55455 2451534.67 0.02 ∧
    Runs (fun jd => (nutationAngles jd).2.2.2.1) 27.2122208 2451565.162 0.02 ∧
    Runs (fun jd => (nutationAngles jd).2.2.2.2) (-6798.38) 2453906.4 0.02 := by
  refine ⟨runs_cubic _ 297.85036 445267.111480 (-0.0019142) (1 / 189474) _ _ _ 1 ?_ ?_ ?_,
    runs_cubic _ 357.52772 35999.050340 (-0.0001603) (-(1 / 300000)) _ _ _ 1 ?_ ?_ ?_,
    runs_cubic _ 134.96298 477198.867398 0.0086972 (1 / 56250) _ _ _ 0 ?_ ?_ ?_,
    runs_cubic _ 93.27191 483202.017538 (-0.0036825) (1 / 327270) _ _ _ 1 ?_ ?_ ?_,
    runs_cubic _ 125.04452 (-1934.136261) 0.0020708 (1 / 450000) _ _ _ 0 ?_ ?_ ?_⟩
  all_goals first
    | norm_num; done
    | skip
  · intro jd
    obtain ⟨k, hk⟩ := fmod_eq (297.85036 + 445267.111480 * centuries jd -
      0.0019142 * centuries jd ^ 2 + centuries jd ^ 3 / 189474) 360
    exact ⟨k, by simp only [nutationAngles, meanElongation]; rw [hk]; ring⟩
  · intro jd
    obtain ⟨k, hk⟩ := fmod_eq (357.52772 + 35999.050340 * centuries jd -
      0.0001603 * centuries jd ^ 2 - centuries jd ^ 3 / 300000) 360
    exact ⟨k, by simp only [nutationAngles, sunAnomaly]; rw [hk]; ring⟩
  · intro jd
    obtain ⟨k, hk⟩ := fmod_eq (134.96298 + 477198.867398 * centuries jd +
      0.0086972 * centuries jd ^ 2 + centuries jd ^ 3 / 56250) 360
    exact ⟨k, by simp only [nutationAngles, moonAnomaly]; rw [hk]; ring⟩
  · intro jd
    obtain ⟨k, hk⟩ := fmod_eq (93.27191 + 483202.017538 * centuries jd -
      0.0036825 * centuries jd ^ 2 + centuries jd ^ 3 / 327270) 360
    exact ⟨k, by simp only [nutationAngles, moonLatitudeArgument]; rw [hk]; ring⟩
  · intro jd
    obtain ⟨k, hk⟩ := fmod_eq (125.04452 - 1934.136261 * centuries jd +
      0.0020708 * centuries jd ^ 2 + centuries jd ^ 3 / 450000) 360
    exact ⟨k, by simp only [nutationAngles, ascendingNode]; rw [hk]; ring⟩

/-- The fundamental angles and the mean longitudes, coded separately, fit together from 1900 to
2100: the longitude of the moon is its distance from the node plus the longitude of the node, and
the elongation of the moon from the sun is the difference of their longitudes, to 0.01 degrees. -/
theorem C110_longitudes (jd : ℝ) (h : WithinCenturies 1 jd) :
    SameAngle (moonLatitudeArgument jd + ascendingNode jd) (moonLongitude jd) 0.01 ∧
    SameAngle (meanElongation jd) (moonLongitude jd - sunLongitude jd) 0.01 := by
  have ht := h.centuries
  have ht' := abs_le.1 ht
  obtain ⟨⟨p1, p2⟩, p3, p4⟩ := pow_bounds ht
  constructor
  · obtain ⟨k, hk⟩ := fmod_eq (93.27191 + 483202.017538 * centuries jd -
      0.0036825 * centuries jd ^ 2 + centuries jd ^ 3 / 327270) 360
    obtain ⟨l, hl⟩ := fmod_eq (125.04452 - 1934.136261 * centuries jd +
      0.0020708 * centuries jd ^ 2 + centuries jd ^ 3 / 450000) 360
    refine ⟨k + l, ?_⟩
    simp only [moonLatitudeArgument, ascendingNode, moonLongitude]
    rw [hk, hl, abs_le]
    push_cast
    constructor <;> linarith
  · obtain ⟨k, hk⟩ := fmod_eq (297.85036 + 445267.111480 * centuries jd -
      0.0019142 * centuries jd ^ 2 + centuries jd ^ 3 / 189474) 360
    refine ⟨k + 1, ?_⟩
    simp only [meanElongation, moonLongitude, sunLongitude]
    rw [hk, abs_le]
    push_cast
    constructor <;> linarith

/-- The mean longitudes of sun and moon run with the tropical year, from the mean equinox of 22 March
2000, and the tropical month. -/
theorem C110_tropical_year_and_month :
    Runs sunLongitude 365.2421897 2451625.69 0.02 ∧
    Runs moonLongitude 27.321582 2451528.4312 0.02 := by
  constructor
  · refine runs_cubic _ 280.46645 36000.76983 0 0 _ _ _ 1 (fun jd => ⟨0, ?_⟩) (by norm_num) ?_
    · unfold sunLongitude; push_cast; ring
    · norm_num
  · refine runs_cubic _ 218.3165 481267.8813 0 0 _ _ _ 0 (fun jd => ⟨0, ?_⟩) (by norm_num) ?_
    · unfold moonLongitude; push_cast; ring
    · norm_num

theorem tan_obliquity {d : ℝ} (h1 : 23.419 ≤ d) (h2 : d ≤ 23.46) :
    0.4307 ≤ Real.tan (rad d) ∧ Real.tan (rad d) ≤ 0.4367 := by
  obtain ⟨x, hx⟩ : ∃ x, x = rad d := ⟨_, rfl⟩
  have hp1 := Real.pi_gt_d4
  have hp2 := Real.pi_lt_d4
  have hx1 : 0.4087 ≤ x := by rw [hx]; unfold rad; nlinarith
  have hx2 : x ≤ 0.4096 := by rw [hx]; unfold rad; nlinarith
  have ha : |x| ≤ 1 := abs_le.2 ⟨by linarith, by linarith⟩
  have hs := abs_le.1 (Real.sin_bound ha)
  have hc := abs_le.1 (Real.cos_bound ha)
  have x2 : 0.16703 ≤ x ^ 2 ∧ x ^ 2 ≤ 0.16778 := by constructor <;> nlinarith
  have x3 : 0.06826 ≤ x ^ 3 ∧ x ^ 3 ≤ 0.06873 := by
    constructor <;> nlinarith [x2.1, x2.2, pow_succ x 2]
  have x4 : |x| ^ 4 ≤ 0.02816 := by
    rw [abs_of_nonneg (by linarith)]
    nlinarith [x2.1, x2.2]
  have x5 : |x| ^ 5 ≤ |x| ^ 4 := pow_le_pow_of_le_one (abs_nonneg _) ha (by norm_num)
  have hcos : 0 < Real.cos x := by linarith [hc.1, x2.2]
  rw [← hx, Real.tan_eq_sin_div_cos, le_div_iff₀ hcos, div_le_iff₀ hcos]
  constructor <;> linarith [hs.1, hs.2, hc.1, hc.2, x2.1, x2.2, x3.1, x3.2]

/-- Precession, from 1900 to 2100: the equinox moves by 50.3 arcseconds a year along the ecliptic,
so the pole moves by 20.04 arcseconds a year, and the part along the equator and the part towards
the pole are in the ratio of cosine and sine of the obliquity, to 20 arcseconds. -/
theorem C110_precession (jd : ℝ) (h : WithinCenturies 1 jd) :
    |thetaPrecession jd - 20.04 * ((jd - 2451545) / 365.25)| ≤ 0.7 ∧
    |thetaPrecession jd -
      (zetaPrecession jd + zPrecession jd) * Real.tan (rad (meanObliquity jd))| ≤ 20 := by
  have ht := h.centuries
  have ht' := abs_le.1 ht
  obtain ⟨⟨p1, p2⟩, p3, p4⟩ := pow_bounds ht
  have p5 : |centuries jd ^ 4| ≤ 1 := by rw [abs_pow]; exact pow_le_one₀ (abs_nonneg _) ht
  have p6 : |centuries jd ^ 5| ≤ 1 := by rw [abs_pow]; exact pow_le_one₀ (abs_nonneg _) ht
  have p5 := abs_le.1 p5
  have p6 := abs_le.1 p6
  have e : (jd - 2451545) / 365.25 = 100 * centuries jd := by unfold centuries; ring
  constructor
  · rw [e, abs_le]
    simp only [thetaPrecession]
    constructor <;> linarith
  · have ho := abs_le.1 (obliquity_bound h (by norm_num))
    obtain ⟨t1, t2⟩ := tan_obliquity (d := meanObliquity jd) (by linarith [ho.1]) (by linarith [ho.2])
    obtain ⟨T, hT⟩ : ∃ T, T = Real.tan (rad (meanObliquity jd)) := ⟨_, rfl⟩
    rw [← hT] at t1 t2 ⊢
    obtain ⟨S, hS⟩ : ∃ S, S = zetaPrecession jd + zPrecession jd := ⟨_, rfl⟩
    have hS' : |S| ≤ 4614 := by
      rw [hS, abs_le]
      simp only [zetaPrecession, zPrecession]
      constructor <;> linarith
    have hm : |S * (T - 0.4337)| ≤ 4614 * 0.003 := by
      rw [abs_mul]
      exact mul_le_mul hS' (abs_le.2 ⟨by linarith, by linarith⟩) (abs_nonneg _) (by norm_num)
    have hth : |thetaPrecession jd - S * 0.4337| ≤ 6 := by
      rw [hS, abs_le]
      simp only [zetaPrecession, zPrecession, thetaPrecession]
      constructor <;> linarith
    have hm := abs_le.1 hm
    have hth := abs_le.1 hth
    rw [← hS, abs_le]
    constructor <;> linarith [hm.1, hm.2, hth.1, hth.2]

example : WithinCenturies 1 2459450 := by unfold WithinCenturies; norm_num [abs_le]

end Celest.TimeScale
