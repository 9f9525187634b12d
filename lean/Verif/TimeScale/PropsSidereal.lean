/-
C73: local and Greenwich sidereal time.
-/
import Verif.TimeScale.Props
import Mathlib.Analysis.Real.Pi.Bounds
import Mathlib.Analysis.SpecialFunctions.Trigonometric.Bounds

namespace Celest.TimeScale

/-- C73 (partial): local apparent and local mean sidereal time differ by exactly what Greenwich
apparent and mean sidereal time differ by, modulo whole days.  Missing: that local mean time is
Greenwich mean time plus the longitude, which is false (`C73_lmst_is_not_gmst_plus_longitude`). -/
theorem C73_apparent_minus_mean_partial (jd lon : ℝ) :
    HoursLater (lmst jd lon) (last jd lon) (gast jd - gmst jd) := by
  unfold lmst last gast meanHourAngle ut1 meanSolarTime
  obtain ⟨a, ha⟩ := fmod_eq (utcHours jd + 0 / 15) 24
  obtain ⟨b, hb⟩ := fmod_eq (utcHours jd + lon / 15) 24
  obtain ⟨c, hc⟩ := fmod_eq (fmod (utcHours jd + lon / 15) 24 - 12) 24
  obtain ⟨d, hd⟩ := fmod_eq (fmod (fmod (utcHours jd + lon / 15) 24 - 12) 24 + sunHours jd) 24
  obtain ⟨e, he⟩ := fmod_eq (fmod (utcHours jd + 0 / 15) 24 - 12 + sunHours jd +
    equationOfEquinoxes jd / 3600 + lon / 15) 24
  refine ⟨a + e - b - c - d, ?_⟩
  rw [hd, he, hc, hb, ha]
  push_cast
  ring

/-- C73 (partial): the local mean sidereal time of the code is Greenwich mean sidereal time plus
longitude plus the excess of the right ascension of the true sun over that of the mean sun, the
latter being `280.46 + 0.98564736629 d` degrees (and two small terms) `d` days after J2000. -/
theorem C73_lmst_uses_true_sun_partial (jd lon : ℝ) :
    HoursLater (gmst jd) (lmst jd lon)
      (lon / 15 + (sunHours jd - (280.46 + 0.98564736629 * (jd - 2451545) +
        0.000387933 * centuries jd ^ 2 - centuries jd ^ 3 / 38710000) / 15)) := by
  unfold lmst gmst meanHourAngle meanSolarTime utcHours
  simp only
  obtain ⟨a, ha⟩ := fmod_eq jd 1
  obtain ⟨b, hb⟩ := fmod_eq (24 * fmod jd 1 - 12 + lon / 15) 24
  obtain ⟨c, hc⟩ := fmod_eq (fmod (24 * fmod jd 1 - 12 + lon / 15) 24 - 12) 24
  obtain ⟨d, hd⟩ := fmod_eq (fmod (fmod (24 * fmod jd 1 - 12 + lon / 15) 24 - 12) 24 +
    sunHours jd) 24
  obtain ⟨e, he⟩ := fmod_eq (280.46 + 360.98564736629 * centuries jd * 36525 +
    0.000387933 * centuries jd ^ 2 - centuries jd ^ 3 / 38710000) 360
  refine ⟨a + b + c + d - 1 - e + 2451545, ?_⟩
  rw [hd, hc, hb, ha, he]
  have hct : centuries jd * 36525 = jd - 2451545 := by unfold centuries; ring
  push_cast
  linear_combination (-(360.98564736629 / 15)) * hct

theorem meanObliquity_range {t : ℝ} (jd : ℝ) (hc : centuries jd = t) (t0 : 0 ≤ t) (t1 : t ≤ 1) :
    0 ≤ meanObliquity jd ∧ meanObliquity jd ≤ 30 := by
  unfold meanObliquity
  simp only [hc]
  have hu0 : 0 ≤ t / 100 := by positivity
  have hu1 : t / 100 ≤ 1 := by linarith
  have hp : ∀ n : ℕ, 0 ≤ (t / 100) ^ n ∧ (t / 100) ^ n ≤ 1 := fun n =>
    ⟨pow_nonneg hu0 n, pow_le_one₀ hu0 hu1⟩
  have p2 := hp 2
  have p3 := hp 3
  have p4 := hp 4
  have p5 := hp 5
  have p6 := hp 6
  have p7 := hp 7
  have p8 := hp 8
  have p9 := hp 9
  have p10 := hp 10
  constructor
  · apply div_nonneg _ (by norm_num)
    linarith [p2.2, p3.1, p4.2, p5.2, p6.2, p7.1, p8.1, p9.1, p10.1]
  · rw [div_le_iff₀ (by norm_num)]
    linarith [p2.1, p3.2, p4.1, p5.1, p6.1, p7.2, p8.2, p9.2, p10.2]

/-- The equation of the centre for a given anomaly and epoch. -/
noncomputable def centreOf (t m : ℝ) : ℝ :=
  (1.914602 - 0.004817 * t - 0.000014 * t ^ 2) * Real.sin m +
    (0.019993 - 0.000101 * t) * Real.sin (2 * m) + 0.000289 * Real.sin (3 * m)

theorem centreOf_bound {t : ℝ} (m : ℝ) (t0 : 0 ≤ t) (t1 : t ≤ 0.01) : |centreOf t m| ≤ 2 := by
  have a1 := abs_le.1 (Real.abs_sin_le_one m)
  have a2 := abs_le.1 (Real.abs_sin_le_one (2 * m))
  have a3 := abs_le.1 (Real.abs_sin_le_one (3 * m))
  have ht2 : 0 ≤ t ^ 2 ∧ t ^ 2 ≤ 0.01 := by constructor <;> nlinarith
  have c1 : 0 ≤ 1.914602 - 0.004817 * t - 0.000014 * t ^ 2 := by linarith [ht2.2]
  have c1' : 1.914602 - 0.004817 * t - 0.000014 * t ^ 2 ≤ 1.914602 := by linarith [ht2.1]
  have c2 : 0 ≤ 0.019993 - 0.000101 * t := by linarith
  have c2' : 0.019993 - 0.000101 * t ≤ 0.019993 := by linarith
  have k1 := mul_le_mul_of_nonneg_left a1.2 c1
  have k1' := mul_le_mul_of_nonneg_left a1.1 c1
  have k2 := mul_le_mul_of_nonneg_left a2.2 c2
  have k2' := mul_le_mul_of_nonneg_left a2.1 c2
  unfold centreOf
  rw [abs_le]
  constructor <;> linarith [a3.1, a3.2]

theorem centreOf_pos {t m : ℝ} (t0 : 0 ≤ t) (t1 : t ≤ 0.01) (h1 : rad 163 ≤ m) (h2 : m ≤ rad 171) :
    0.1 ≤ centreOf t m := by
  have hpi := Real.pi_pos
  unfold rad at h1 h2
  have hs : 0.1 ≤ Real.sin m := by
    rw [← Real.sin_pi_sub]
    have := Real.mul_le_sin (x := Real.pi - m) (by linarith) (by linarith)
    refine le_trans ?_ this
    rw [div_mul_eq_mul_div, le_div_iff₀ hpi]
    linarith
  have hc := abs_le.1 (Real.abs_cos_le_one m)
  have a3 := abs_le.1 (Real.abs_sin_le_one (3 * m))
  have ht2 : 0 ≤ t ^ 2 ∧ t ^ 2 ≤ 0.01 := by constructor <;> nlinarith
  unfold centreOf
  rw [Real.sin_two_mul]
  have e : (1.914602 - 0.004817 * t - 0.000014 * t ^ 2) * Real.sin m +
      (0.019993 - 0.000101 * t) * (2 * Real.sin m * Real.cos m) =
      Real.sin m * ((1.914602 - 0.004817 * t - 0.000014 * t ^ 2) +
        2 * ((0.019993 - 0.000101 * t) * Real.cos m)) := by ring
  rw [e]
  have c2 : 0 ≤ 0.019993 - 0.000101 * t := by linarith
  have c2' : 0.019993 - 0.000101 * t ≤ 0.019993 := by linarith
  have k := mul_le_mul_of_nonneg_left hc.1 c2
  have k1 : 1.8 ≤ (1.914602 - 0.004817 * t - 0.000014 * t ^ 2) +
        2 * ((0.019993 - 0.000101 * t) * Real.cos m) := by linarith [ht2.2]
  have := mul_le_mul hs k1 (by norm_num) (by linarith)
  linarith [a3.1]

/-- C73 is false: in mid June 2000 there is an instant at which, at every longitude, the local mean
sidereal time differs from Greenwich mean sidereal time plus longitude. -/
theorem C73_lmst_is_not_gmst_plus_longitude :
    ∃ jd : ℝ, 2451545 + 168 ≤ jd ∧ jd ≤ 2451545 + 175.4 ∧
      ∀ lon : ℝ, ¬ HoursLater (gmst jd) (lmst jd lon) (lon / 15) := by
  let mean : ℝ → ℝ := fun t => 357.52772 + 35999.050340 * t - 0.0001603 * t ^ 2 - t ^ 3 / 300000
  obtain ⟨t, ⟨t0, t1⟩, ht⟩ : ∃ t ∈ Set.Icc (0.0046 : ℝ) 0.0048,
      280.46645 + 36000.76983 * t + centreOf t (rad (mean t - 360)) = 450 := by
    have hcont : ContinuousOn (fun t : ℝ =>
        280.46645 + 36000.76983 * t + centreOf t (rad (mean t - 360))) (Set.Icc 0.0046 0.0048) := by
      unfold centreOf rad mean
      fun_prop
    have := intermediate_value_Icc (by norm_num : (0.0046 : ℝ) ≤ 0.0048) hcont
    apply this
    constructor
    · have := abs_le.1 (centreOf_bound (t := 0.0046) (rad (mean 0.0046 - 360)) (by norm_num)
        (by norm_num))
      linarith [this.2]
    · have := abs_le.1 (centreOf_bound (t := 0.0048) (rad (mean 0.0048 - 360)) (by norm_num)
        (by norm_num))
      linarith [this.1]
  have ht2 : 0 ≤ t ^ 2 ∧ t ^ 2 ≤ 0.0001 := by constructor <;> nlinarith
  have ht3 : 0 ≤ t ^ 3 ∧ t ^ 3 ≤ 0.0001 := by
    constructor
    · positivity
    · calc t ^ 3 ≤ 0.0048 ^ 3 := pow_le_pow_left₀ (by linarith) t1 3
        _ ≤ 0.0001 := by norm_num
  have hpi := Real.pi_pos
  set jd := 2451545 + 36525 * t with hjd
  have hcent : centuries jd = t := by unfold centuries; rw [hjd]; ring
  have hm1 : 163 ≤ mean t - 360 := by simp only [mean]; linarith [ht2.1, ht2.2, ht3.1, ht3.2]
  have hm2 : mean t - 360 ≤ 171 := by simp only [mean]; linarith [ht2.1, ht2.2, ht3.1, ht3.2]
  have hanom : sunAnomaly jd = mean t - 360 := by
    have h := fmod_add_int (mean t - 360) 360 (by norm_num) 1
    have hs : fmod (mean t - 360) 360 = mean t - 360 := fmod_self _ _ (by linarith) (by linarith)
    unfold sunAnomaly
    simp only [hcent]
    rw [← hs, ← h]
    congr 1
    simp only [mean]
    push_cast
    ring
  have hcentre : sunCentre jd = centreOf t (rad (mean t - 360)) := by
    unfold sunCentre centreOf
    simp only [hcent, hanom]
  have hlong : sunLongitude jd + sunCentre jd = 450 := by
    rw [hcentre, ← ht]
    unfold sunLongitude
    rw [hcent]
  have hra : sunRightAscension jd = Real.pi / 2 := by
    unfold sunRightAscension
    simp only [hlong]
    have h450 : rad 450 = Real.pi / 2 + 2 * Real.pi := by unfold rad; ring
    rw [h450, Real.sin_add_two_pi, Real.cos_add_two_pi, Real.sin_pi_div_two, Real.cos_pi_div_two]
    have ho := meanObliquity_range jd hcent (by linarith) (by linarith)
    have hcos : 0 < Real.cos (rad (meanObliquity jd)) := by
      apply Real.cos_pos_of_mem_Ioo
      unfold rad
      constructor <;> nlinarith [ho.1, ho.2]
    have harg : arctan2 (Real.cos (rad (meanObliquity jd)) * 1) 0 = Real.pi / 2 := by
      unfold arctan2
      rw [Complex.arg_eq_pi_div_two_iff]
      exact ⟨rfl, by simpa using hcos⟩
    rw [harg]
    exact fmod_self _ _ (by positivity) (by linarith)
  have hsun : sunHours jd = 6 := by
    unfold sunHours
    rw [hra]
    field_simp
    norm_num
  have hpos : 0.1 ≤ centreOf t (rad (mean t - 360)) := by
    apply centreOf_pos (by linarith) (by linarith)
    · unfold rad; nlinarith
    · unfold rad; nlinarith
  have hle := (abs_le.1 (centreOf_bound (rad (mean t - 360)) (by linarith : 0 ≤ t)
    (by linarith))).2
  refine ⟨jd, by linarith, by linarith, ?_⟩
  rintro lon ⟨k, hk⟩
  obtain ⟨k', hk'⟩ := C73_lmst_uses_true_sun_partial jd lon
  rw [hk, hsun, hcent] at hk'
  have hd : jd - 2451545 = 36525 * t := by rw [hjd]; ring
  rw [hd] at hk'
  have hkk : ((k - k' : ℤ) : ℝ) * 24 = 6 - (280.46 + 0.98564736629 * (36525 * t) +
      0.000387933 * t ^ 2 - t ^ 3 / 38710000) / 15 := by
    push_cast
    linarith
  have hlo : (-1 : ℝ) < ((k - k' : ℤ) : ℝ) := by linarith [ht2.1, ht2.2, ht3.1, ht3.2]
  have hhi : ((k - k' : ℤ) : ℝ) < 0 := by linarith [ht2.1, ht2.2, ht3.1, ht3.2]
  have h1 : (-1 : ℤ) < k - k' := by exact_mod_cast hlo
  have h2 : k - k' < (0 : ℤ) := by exact_mod_cast hhi
  omega

end Celest.TimeScale
