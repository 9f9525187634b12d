/-
C82-C84 and C73: how far nutation, the equation of time, the right ascension of the sun and local
sidereal time can stray.
-/
import Verif.TimeScale.PropsSidereal
import Mathlib.Analysis.SpecialFunctions.Trigonometric.Bounds
import Mathlib.Analysis.SpecialFunctions.Trigonometric.ArctanDeriv

namespace Celest.TimeScale

/-- The two numbers, as times of day in hours, are at most `h` hours apart on the clock. -/
def ClockWithin (a b h : ℝ) : Prop := ∃ k : ℤ, |a - b - 24 * k| ≤ h

/-- The instant lies within `n` Julian centuries of J2000. -/
def WithinCenturies (n jd : ℝ) : Prop := |jd - 2451545| ≤ 36525 * n

theorem WithinCenturies.centuries {n jd : ℝ} (h : WithinCenturies n jd) : |centuries jd| ≤ n := by
  unfold TimeScale.centuries
  rw [abs_div, abs_of_pos (by norm_num : (0 : ℝ) < 36525), div_le_iff₀ (by norm_num)]
  unfold WithinCenturies at h
  linarith

/-! ### C82 -/

/-- C82: at every instant the nutation in longitude is at most 18.96 and that in obliquity at most
9.96 arcseconds, so mean and apparent obliquity differ by less than 10 arcseconds; the five
fundamental angles are reduced to [0, 360) degrees. -/
theorem C82_nutation_bounded (jd : ℝ) :
    |(nutationComponents jd).1| ≤ 18.96 ∧ |(nutationComponents jd).2| ≤ 9.96 ∧
    |apparentObliquity jd - meanObliquity jd| ≤ 9.96 / 3600 ∧
    (∀ a ∈ [(nutationAngles jd).1, (nutationAngles jd).2.1, (nutationAngles jd).2.2.1,
      (nutationAngles jd).2.2.2.1, (nutationAngles jd).2.2.2.2], 0 ≤ a ∧ a < 360) := by
  have key : |(nutationComponents jd).2| ≤ 9.96 := by
    unfold nutationComponents nutationInObliquity
    simp only
    have a1 := abs_le.1 (Real.abs_cos_le_one (rad (ascendingNode jd)))
    have a2 := abs_le.1 (Real.abs_cos_le_one (2 * rad (sunLongitude jd)))
    have a3 := abs_le.1 (Real.abs_cos_le_one (2 * rad (moonLongitude jd)))
    have a4 := abs_le.1 (Real.abs_cos_le_one (2 * rad (ascendingNode jd)))
    rw [abs_le]
    constructor <;> linarith [a1.1, a1.2, a2.1, a2.2, a3.1, a3.2, a4.1, a4.2]
  refine ⟨?_, key, ?_, ?_⟩
  · unfold nutationComponents nutationInLongitude
    simp only
    have a1 := abs_le.1 (Real.abs_sin_le_one (rad (ascendingNode jd)))
    have a2 := abs_le.1 (Real.abs_sin_le_one (2 * rad (sunLongitude jd)))
    have a3 := abs_le.1 (Real.abs_sin_le_one (2 * rad (moonLongitude jd)))
    have a4 := abs_le.1 (Real.abs_sin_le_one (2 * rad (ascendingNode jd)))
    rw [abs_le]
    constructor <;> linarith [a1.1, a1.2, a2.1, a2.2, a3.1, a3.2, a4.1, a4.2]
  · unfold apparentObliquity
    rw [add_sub_cancel_left, abs_div, abs_of_pos (by norm_num : (0 : ℝ) < 3600)]
    exact div_le_div_of_nonneg_right key (by norm_num)
  · intro a ha
    have h360 : (0 : ℝ) < 360 := by norm_num
    simp only [nutationAngles, List.mem_cons, List.not_mem_nil, or_false] at ha
    rcases ha with rfl | rfl | rfl | rfl | rfl <;> exact fmod_range _ _ h360

/-- Non-vacuity for C82: the angles do need the reduction, and nutation does not vanish in
general. -/
example : 445267 < 297.85036 + 445267.111480 * centuries (2451545 + 36525) ∧
    nutationInObliquity 0 0 0 = 9.78 := by
  constructor
  · unfold centuries; norm_num
  · unfold nutationInObliquity rad; norm_num

/-! ### C83 -/

theorem obliquity_bound {n jd : ℝ} (h : WithinCenturies n jd) (hn : n ≤ 100) :
    |meanObliquity jd - 84381.448 / 3600| ≤ 0.02 * n := by
  have ht := h.centuries
  have hn0 : 0 ≤ n := le_trans (abs_nonneg _) ht
  unfold meanObliquity
  simp only
  set U := centuries jd / 100 with hU
  have hu : |U| ≤ n / 100 := by
    rw [hU, abs_div, abs_of_pos (by norm_num : (0 : ℝ) < 100)]
    exact div_le_div_of_nonneg_right ht (by norm_num)
  have hu1 : |U| ≤ 1 := by linarith
  have hp : ∀ k : ℕ, -(n / 100) ≤ U ^ (k + 1) ∧ U ^ (k + 1) ≤ n / 100 := by
    intro k
    apply abs_le.1
    rw [pow_succ, abs_mul, abs_pow]
    calc |U| ^ k * |U| ≤ 1 * |U| :=
          mul_le_mul_of_nonneg_right (pow_le_one₀ (abs_nonneg _) hu1) (abs_nonneg _)
      _ ≤ n / 100 := by linarith
  have p1 := hp 0
  have p2 := hp 1
  have p3 := hp 2
  have p4 := hp 3
  have p5 := hp 4
  have p6 := hp 5
  have p7 := hp 6
  have p8 := hp 7
  have p9 := hp 8
  have p10 := hp 9
  norm_num only at p1 p2 p3 p4 p5 p6 p7 p8 p9 p10
  rw [pow_one] at p1
  rw [abs_le]
  constructor
  · linarith [p1.1, p1.2, p2.1, p2.2, p3.1, p3.2, p4.1, p4.2, p5.1, p5.2, p6.1, p6.2, p7.1, p7.2,
      p8.1, p8.2, p9.1, p9.2, p10.1, p10.2]
  · linarith [p1.1, p1.2, p2.1, p2.2, p3.1, p3.2, p4.1, p4.2, p5.1, p5.2, p6.1, p6.2, p7.1, p7.2,
      p8.1, p8.2, p9.1, p9.2, p10.1, p10.2]

theorem eccentricity_bound {n jd : ℝ} (h : WithinCenturies n jd) (hn : n ≤ 100) :
    |eccentricity jd| ≤ 0.0168 + 0.000055 * n := by
  have ht := h.centuries
  have hn0 : 0 ≤ n := le_trans (abs_nonneg _) ht
  unfold eccentricity
  simp only
  have h2 : centuries jd ^ 2 ≤ 100 * n := by
    rw [← sq_abs]
    nlinarith [abs_nonneg (centuries jd)]
  have h0 := sq_nonneg (centuries jd)
  have := abs_le.1 ht
  rw [abs_le]
  constructor <;> linarith [this.1, this.2]

/-- `tan² (ε / 2)` in terms of the cosine. -/
theorem tan_half_sq (x : ℝ) (h : Real.cos (x / 2) ≠ 0) :
    Real.tan (x / 2) ^ 2 = (1 - Real.cos x) / (1 + Real.cos x) := by
  have hx : Real.cos x = 2 * Real.cos (x / 2) ^ 2 - 1 := by
    rw [← Real.cos_two_mul]; congr 1; ring
  rw [Real.tan_eq_sin_div_cos, div_pow, Real.sin_sq, hx]
  field_simp
  ring

theorem tan_half_bound {d m c : ℝ} (h : |d| ≤ m) (hm : m ≤ 30)
    (hc : (m * (3.1416 / 180)) ^ 2 / 2 ≤ c) (hc1 : c < 1) :
    0 ≤ Real.tan (rad d / 2) ^ 2 ∧ Real.tan (rad d / 2) ^ 2 ≤ c / (2 - c) ∧
      1 - c ≤ Real.cos (rad d) := by
  have hp := Real.pi_lt_d4
  have hp0 := Real.pi_gt_three
  have hm0 : 0 ≤ m := le_trans (abs_nonneg _) h
  have hrad : |rad d| ≤ m * (3.1416 / 180) := by
    unfold rad
    rw [abs_mul, abs_of_pos (by positivity : 0 < Real.pi / 180)]
    exact mul_le_mul h (by linarith) (by positivity) hm0
  have hcos : 1 - c ≤ Real.cos (rad d) := by
    have h1 := Real.one_sub_sq_div_two_le_cos (x := rad d)
    have h2 : rad d ^ 2 ≤ (m * (3.1416 / 180)) ^ 2 := by
      rw [← sq_abs]
      exact pow_le_pow_left₀ (abs_nonneg _) hrad 2
    linarith
  have hhalf : Real.cos (rad d / 2) ≠ 0 := by
    have := abs_le.1 hrad
    apply ne_of_gt
    apply Real.cos_pos_of_mem_Ioo
    constructor <;> nlinarith [this.1, this.2]
  refine ⟨sq_nonneg _, ?_, hcos⟩
  rw [tan_half_sq _ hhalf, div_le_div_iff₀ (by linarith) (by linarith)]
  nlinarith

theorem mul_bound {a b x y : ℝ} (ha : |a| ≤ x) (hb : |b| ≤ y) : |a * b| ≤ x * y := by
  rw [abs_mul]
  exact mul_le_mul ha hb (abs_nonneg _) (le_trans (abs_nonneg _) ha)

theorem eqTime_bound {jd y e : ℝ} (hy : |Real.tan (rad (apparentObliquity jd) / 2) ^ 2| ≤ y)
    (he : |eccentricity jd| ≤ e) :
    |equationOfTime jd| ≤ y + 2 * e + 4 * (e * y) + 0.5 * (y * y) + 1.25 * (e * e) := by
  unfold equationOfTime
  simp only
  set Y := Real.tan (rad (apparentObliquity jd) / 2) ^ 2
  set E := eccentricity jd
  set l := rad (sunLongitude jd)
  set m := rad (sunAnomaly jd)
  have b1 := abs_le.1 (mul_bound hy (Real.abs_sin_le_one (2 * l)))
  have b2 := abs_le.1 (mul_bound he (Real.abs_sin_le_one m))
  have b3 := abs_le.1 (mul_bound (mul_bound (mul_bound he hy) (Real.abs_sin_le_one m))
    (Real.abs_cos_le_one (2 * l)))
  have b4 := abs_le.1 (mul_bound (mul_bound hy hy) (Real.abs_sin_le_one (4 * l)))
  have b5 := abs_le.1 (mul_bound (mul_bound he he) (Real.abs_sin_le_one (2 * m)))
  have e1 : Y * Real.sin (2 * l) + -2 * E * Real.sin m + 4 * E * Y * Real.sin m * Real.cos (2 * l) +
      -0.5 * Y ^ 2 * Real.sin (4 * l) + -1.25 * E ^ 2 * Real.sin (2 * m) =
      Y * Real.sin (2 * l) - 2 * (E * Real.sin m) + 4 * (E * Y * Real.sin m * Real.cos (2 * l)) -
      0.5 * (Y * Y * Real.sin (4 * l)) - 1.25 * (E * E * Real.sin (2 * m)) := by ring
  rw [e1, abs_le]
  constructor <;> linarith [b1.1, b1.2, b2.1, b2.2, b3.1, b3.2, b4.1, b4.2, b5.1, b5.2]

theorem apparent_bound {n jd : ℝ} (h : WithinCenturies n jd) (hn : n ≤ 100) :
    |apparentObliquity jd| ≤ 23.443 + 0.02 * n := by
  have a := abs_le.1 (obliquity_bound h hn)
  have b := abs_le.1 (C82_nutation_bounded jd).2.2.1
  have hn0 : 0 ≤ n := le_trans (abs_nonneg _) h.centuries
  rw [abs_le]
  constructor <;> linarith [a.1, a.2, b.1, b.2]

theorem solar_within {jd h : ℝ} (he : |equationOfTime jd| ≤ h * 0.2617) (lon : ℝ) :
    ClockWithin (trueSolarTime jd lon) (meanSolarTime jd lon) h := by
  unfold trueSolarTime meanSolarTime
  obtain ⟨a, ha⟩ := fmod_eq (utcHours jd + (lon + equationOfTime jd * (180 / Real.pi)) / 15) 24
  obtain ⟨b, hb⟩ := fmod_eq (utcHours jd + lon / 15) 24
  refine ⟨a - b, ?_⟩
  rw [ha, hb]
  push_cast
  have : utcHours jd + (lon + equationOfTime jd * (180 / Real.pi)) / 15 + 24 * (a : ℝ) -
      (utcHours jd + lon / 15 + 24 * b) - 24 * (a - b) = equationOfTime jd * (12 / Real.pi) := by
    ring
  rw [this, abs_mul, abs_of_pos (by positivity : 0 < 12 / Real.pi), mul_div_assoc', div_le_iff₀
    Real.pi_pos]
  have hp := Real.pi_gt_d4
  have h0 : 0 ≤ h := by
    have := le_trans (abs_nonneg _) he
    nlinarith
  nlinarith

/-- C83: from 1900 to 2100 true and mean solar time are within 19 minutes of each other at every
longitude. -/
theorem C83_equation_of_time_this_century (jd lon : ℝ) (h : WithinCenturies 1 jd) :
    ClockWithin (trueSolarTime jd lon) (meanSolarTime jd lon) (19 / 60) := by
  apply solar_within
  have ha := apparent_bound h (by norm_num)
  have hy := tan_half_bound (c := 0.0839) ha (by norm_num) (by norm_num) (by norm_num)
  have he := eccentricity_bound h (by norm_num)
  have hy' : |Real.tan (rad (apparentObliquity jd) / 2) ^ 2| ≤ 0.0839 / (2 - 0.0839) := by
    rw [abs_of_nonneg hy.1]; exact hy.2.1
  refine le_trans (eqTime_bound hy' he) ?_
  norm_num

/-- C83: during the 10000 years on either side of J2000 for which the formulas are documented, the
obliquity lies between 21.4 and 25.5 degrees, and true and mean solar time are within 24 minutes
of each other at every longitude. -/
theorem C83_equation_of_time (jd lon : ℝ) (h : WithinCenturies 100 jd) :
    21.4 ≤ meanObliquity jd ∧ meanObliquity jd ≤ 25.5 ∧
    ClockWithin (trueSolarTime jd lon) (meanSolarTime jd lon) (24 / 60) := by
  have ho := abs_le.1 (obliquity_bound h le_rfl)
  refine ⟨by linarith [ho.1], by linarith [ho.2], ?_⟩
  apply solar_within
  have ha := apparent_bound h le_rfl
  have hy := tan_half_bound (c := 0.0987) ha (by norm_num) (by norm_num) (by norm_num)
  have he := eccentricity_bound h le_rfl
  have hy' : |Real.tan (rad (apparentObliquity jd) / 2) ^ 2| ≤ 0.0987 / (2 - 0.0987) := by
    rw [abs_of_nonneg hy.1]; exact hy.2.1
  refine le_trans (eqTime_bound hy' he) ?_
  norm_num

/-- Non-vacuity for C83: the year 2022, and a clock reading across midnight. -/
example : WithinCenturies 1 2459580.5 ∧ ClockWithin 0.1 23.9 (19 / 60) ∧
    ¬ ClockWithin 1 23.9 (19 / 60) := by
  refine ⟨by unfold WithinCenturies; norm_num [abs_le], ⟨-1, by norm_num [abs_le]⟩, ?_⟩
  rintro ⟨k, hk⟩
  have := abs_le.1 hk
  have h1 : (k : ℝ) < 0 := by linarith [this.1]
  have h2 : (-1 : ℝ) < k := by linarith [this.2]
  have h1' : k < 0 := by exact_mod_cast h1
  have h2' : -1 < k := by exact_mod_cast h2
  omega

/-! ### C84 -/

theorem sin_fmod (x : ℝ) : Real.sin (fmod x (2 * Real.pi)) = Real.sin x ∧
    Real.cos (fmod x (2 * Real.pi)) = Real.cos x := by
  obtain ⟨k, hk⟩ := fmod_eq x (2 * Real.pi)
  have e : fmod x (2 * Real.pi) = x + k * (2 * Real.pi) := by rw [hk]; ring
  rw [e]
  exact ⟨Real.sin_add_int_mul_two_pi x k, Real.cos_add_int_mul_two_pi x k⟩

theorem arctan2_direction (x y : ℝ) :
    let r := Real.sqrt (x ^ 2 + y ^ 2)
    r * Real.cos (arctan2 y x) = x ∧ r * Real.sin (arctan2 y x) = y := by
  intro r
  have hr : ‖(⟨x, y⟩ : ℂ)‖ = r := by
    rw [Complex.norm_eq_sqrt_sq_add_sq]
  unfold arctan2
  constructor
  · rw [← hr]; exact Complex.norm_mul_cos_arg _
  · rw [← hr]; exact Complex.norm_mul_sin_arg _

/-- The longitude of the true sun in degrees, not reduced. -/
noncomputable def trueSunLongitude (jd : ℝ) : ℝ := sunLongitude jd + sunCentre jd

/-- C84: at every instant of the 10000 years on either side of J2000 the right ascension of the sun
lies in [0, 2π) and is the direction, in the plane of the equator, of the point of the ecliptic at
the sun's true longitude. -/
theorem C84_sun_right_ascension (jd : ℝ) (h : WithinCenturies 100 jd) :
    0 ≤ sunRightAscension jd ∧ sunRightAscension jd < 2 * Real.pi ∧
    ∃ r > 0,
      r * Real.cos (sunRightAscension jd) = Real.cos (rad (trueSunLongitude jd)) ∧
      r * Real.sin (sunRightAscension jd) =
        Real.cos (rad (meanObliquity jd)) * Real.sin (rad (trueSunLongitude jd)) := by
  have ho := abs_le.1 (obliquity_bound h le_rfl)
  have hob : |meanObliquity jd| ≤ 25.5 := abs_le.2 ⟨by linarith [ho.1], by linarith [ho.2]⟩
  have hc := (tan_half_bound (c := 0.1) hob (by norm_num) (by norm_num) (by norm_num)).2.2
  have hra : sunRightAscension jd = fmod (arctan2 (Real.cos (rad (meanObliquity jd)) *
      Real.sin (rad (trueSunLongitude jd))) (Real.cos (rad (trueSunLongitude jd))))
      (2 * Real.pi) := rfl
  have hr := fmod_range (arctan2 (Real.cos (rad (meanObliquity jd)) *
      Real.sin (rad (trueSunLongitude jd))) (Real.cos (rad (trueSunLongitude jd))))
      (2 * Real.pi) (by positivity)
  rw [hra]
  refine ⟨hr.1, hr.2, Real.sqrt (Real.cos (rad (trueSunLongitude jd)) ^ 2 +
    (Real.cos (rad (meanObliquity jd)) * Real.sin (rad (trueSunLongitude jd))) ^ 2), ?_, ?_⟩
  rotate_left
  · rw [(sin_fmod _).1, (sin_fmod _).2]
    exact arctan2_direction _ _
  · apply Real.sqrt_pos.2
    have hs := Real.sin_sq_add_cos_sq (rad (trueSunLongitude jd))
    rcases eq_or_ne (Real.cos (rad (trueSunLongitude jd))) 0 with h0 | h0
    · rw [h0] at hs ⊢
      have : Real.sin (rad (trueSunLongitude jd)) ^ 2 = 1 := by linarith
      rw [mul_pow, this]
      positivity
    · positivity

/-- An angle in terms of its sine, if its cosine is positive. -/
theorem angle_near {x b : ℝ} (hc : 0 < Real.cos x) (ht : |Real.sin x| ≤ b * Real.cos x) :
    ∃ k : ℤ, |x - 2 * Real.pi * k| ≤ b := by
  let k := round (x / (2 * Real.pi))
  have hpi := Real.pi_pos
  refine ⟨k, ?_⟩
  set y := x - 2 * Real.pi * k with hy
  have hyx : x = y + k * (2 * Real.pi) := by rw [hy]; ring
  have hcy : Real.cos y = Real.cos x := by rw [hyx, Real.cos_add_int_mul_two_pi]
  have hsy : Real.sin y = Real.sin x := by rw [hyx, Real.sin_add_int_mul_two_pi]
  have hyle : |y| ≤ Real.pi := by
    have h1 := abs_sub_round (x / (2 * Real.pi))
    have h2 : y = (x / (2 * Real.pi) - k) * (2 * Real.pi) := by rw [hy]; field_simp
    rw [h2, abs_mul, abs_of_pos (by positivity : 0 < 2 * Real.pi)]
    calc _ ≤ 1 / 2 * (2 * Real.pi) := mul_le_mul_of_nonneg_right h1 (by positivity)
      _ = Real.pi := by ring
  have hlt : |y| < Real.pi / 2 := by
    by_contra hge
    rw [not_lt] at hge
    have : Real.cos |y| ≤ 0 := Real.cos_nonpos_of_pi_div_two_le_of_le hge (by linarith)
    rw [Real.cos_abs, hcy] at this
    linarith
  have htan : |y| ≤ Real.tan |y| := Real.le_tan (abs_nonneg _) hlt
  have : Real.tan |y| = |Real.sin x| / Real.cos x := by
    rw [Real.tan_eq_sin_div_cos, Real.cos_abs, hcy]
    congr 1
    rcases abs_cases y with ⟨e, h0⟩ | ⟨e, h0⟩
    · rw [e, hsy, abs_of_nonneg]
      rw [← hsy]
      exact Real.sin_nonneg_of_nonneg_of_le_pi h0 (by linarith [le_abs_self y])
    · rw [e, Real.sin_neg, hsy, abs_of_nonpos]
      rw [← hsy]
      have := Real.sin_nonneg_of_nonneg_of_le_pi (x := -y) (by linarith) (by linarith)
      rw [Real.sin_neg] at this
      linarith
  rw [this] at htan
  exact le_trans htan ((div_le_iff₀ hc).2 ht)

/-- The right ascension strays from the longitude by at most `y / (1 - y)`,
`y = (1 - cos ε) / (1 + cos ε)`. -/
theorem reduction_bound {jd c : ℝ} (hc1 : c < 1) (hob : 1 - c ≤ Real.cos (rad (meanObliquity jd))) :
    ∃ k : ℤ, |sunRightAscension jd - rad (trueSunLongitude jd) - 2 * Real.pi * k| ≤
      c / 2 / (1 - c) := by
  set a := arctan2 (Real.cos (rad (meanObliquity jd)) * Real.sin (rad (trueSunLongitude jd)))
    (Real.cos (rad (trueSunLongitude jd))) with ha
  have hra : sunRightAscension jd = fmod a (2 * Real.pi) := rfl
  set l := rad (trueSunLongitude jd) with hl
  set q := Real.cos (rad (meanObliquity jd)) with hq
  obtain ⟨k1, hk1⟩ := fmod_eq a (2 * Real.pi)
  have hd := arctan2_direction (Real.cos l) (q * Real.sin l)
  rw [← ha] at hd
  set r := Real.sqrt (Real.cos l ^ 2 + (q * Real.sin l) ^ 2) with hr
  obtain ⟨hcosa, hsina⟩ := hd
  have hr0 : 0 ≤ r := Real.sqrt_nonneg _
  have hls := Real.sin_sq_add_cos_sq l
  have hq1 : q ≤ 1 := Real.cos_le_one _
  have hc0 : 0 ≤ c := by linarith
  have hre : r * Real.cos (a - l) = Real.cos l ^ 2 + q * Real.sin l ^ 2 := by
    rw [Real.cos_sub]
    linear_combination Real.cos l * hcosa + Real.sin l * hsina
  have him : r * Real.sin (a - l) = -((1 - q) * (Real.sin l * Real.cos l)) := by
    rw [Real.sin_sub]
    linear_combination Real.cos l * hsina - Real.sin l * hcosa
  have hlow : 1 - c ≤ r * Real.cos (a - l) := by
    rw [hre]
    nlinarith [sq_nonneg (Real.sin l), sq_nonneg (Real.cos l)]
  have hrpos : 0 < r := by
    rcases hr0.lt_or_eq with h | h
    · exact h
    · rw [← h] at hlow; linarith
  have hcpos : 0 < Real.cos (a - l) := by
    by_contra hneg
    rw [not_lt] at hneg
    nlinarith
  have hup : |Real.sin l * Real.cos l| ≤ 1 / 2 := by
    rw [abs_le]
    constructor <;> nlinarith [sq_nonneg (Real.sin l - Real.cos l),
      sq_nonneg (Real.sin l + Real.cos l)]
  have hsin : |Real.sin (a - l)| ≤ c / 2 / (1 - c) * Real.cos (a - l) := by
    have h1 : r * |Real.sin (a - l)| ≤ c / 2 := by
      rw [← abs_of_pos hrpos, ← abs_mul, him, abs_neg, abs_mul,
        abs_of_nonneg (by linarith : 0 ≤ 1 - q)]
      calc (1 - q) * |Real.sin l * Real.cos l| ≤ c * (1 / 2) :=
            mul_le_mul (by linarith) hup (abs_nonneg _) hc0
        _ = c / 2 := by ring
    have h2 : c / 2 ≤ c / 2 / (1 - c) * (r * Real.cos (a - l)) := by
      have h3 : c / 2 = c / 2 / (1 - c) * (1 - c) := by
        rw [div_mul_cancel₀]; linarith
      calc c / 2 = c / 2 / (1 - c) * (1 - c) := h3
        _ ≤ _ := mul_le_mul_of_nonneg_left hlow (by
          apply div_nonneg <;> linarith)
    have h4 : r * |Real.sin (a - l)| ≤ r * (c / 2 / (1 - c) * Real.cos (a - l)) := by
      calc _ ≤ _ := le_trans h1 h2
        _ = _ := by ring
    exact le_of_mul_le_mul_left h4 hrpos
  obtain ⟨k2, hk2⟩ := angle_near hcpos hsin
  refine ⟨k1 + k2, ?_⟩
  rw [hra, hk1]
  push_cast
  convert hk2 using 2
  ring

theorem centre_bound {jd : ℝ} (h : WithinCenturies 1 jd) : |sunCentre jd| ≤ 1.94 := by
  have ht := h.centuries
  have ht' := abs_le.1 ht
  unfold sunCentre
  simp only
  set t := centuries jd
  set m := rad (sunAnomaly jd)
  have h2 : t ^ 2 ≤ 1 := by rw [← sq_abs]; exact pow_le_one₀ (abs_nonneg _) ht
  have h0 := sq_nonneg t
  have c1 : |1.914602 - 0.004817 * t - 0.000014 * t ^ 2| ≤ 1.919433 := by
    rw [abs_le]; constructor <;> linarith [ht'.1, ht'.2]
  have c2 : |0.019993 - 0.000101 * t| ≤ 0.020094 := by
    rw [abs_le]; constructor <;> linarith [ht'.1, ht'.2]
  have b1 := abs_le.1 (mul_bound c1 (Real.abs_sin_le_one m))
  have b2 := abs_le.1 (mul_bound c2 (Real.abs_sin_le_one (2 * m)))
  have b3 := abs_le.1 (Real.abs_sin_le_one (3 * m))
  rw [abs_le]
  constructor <;> linarith [b1.1, b1.2, b2.1, b2.2, b3.1, b3.2]

/-- C84: from 1900 to 2100 the right ascension of the sun is within 0.046 radians (2.64 degrees) of
its true longitude, and that within 1.94 degrees of the mean longitude. -/
theorem C84_near_longitude (jd : ℝ) (h : WithinCenturies 1 jd) :
    (∃ k : ℤ, |sunRightAscension jd - rad (trueSunLongitude jd) - 2 * Real.pi * k| ≤ 0.046) ∧
    |trueSunLongitude jd - sunLongitude jd| ≤ 1.94 := by
  have ho := abs_le.1 (obliquity_bound h (by norm_num))
  have hob : |meanObliquity jd| ≤ 23.46 := abs_le.2 ⟨by linarith [ho.1], by linarith [ho.2]⟩
  have hc := (tan_half_bound (c := 0.08385) hob (by norm_num) (by norm_num) (by norm_num)).2.2
  refine ⟨?_, ?_⟩
  · obtain ⟨k, hk⟩ := reduction_bound (by norm_num) hc
    exact ⟨k, le_trans hk (by norm_num)⟩
  · unfold trueSunLongitude
    rw [add_sub_cancel_left]
    exact centre_bound h

/-- C73 (partial): from 1900 to 2100 local mean sidereal time is within 19 minutes of Greenwich
mean sidereal time plus longitude, at every longitude.  Missing: equality, which is false
(`C73_lmst_is_not_gmst_plus_longitude`). -/
theorem C73_lmst_near_gmst_plus_longitude_partial (jd lon : ℝ) (h : WithinCenturies 1 jd) :
    ClockWithin (lmst jd lon) (gmst jd + lon / 15) (19 / 60) := by
  obtain ⟨k, hk⟩ := C73_lmst_uses_true_sun_partial jd lon
  obtain ⟨⟨j, hj⟩, hl⟩ := C84_near_longitude jd h
  have ht := h.centuries
  have ht' := abs_le.1 ht
  have hd : jd - 2451545 = 36525 * centuries jd := by unfold centuries; ring
  rw [hd] at hk
  set t := centuries jd with htdef
  have h2 : t ^ 2 ≤ 1 := by rw [← sq_abs]; exact pow_le_one₀ (abs_nonneg _) ht
  have h20 := sq_nonneg t
  have h3 : |t ^ 3| ≤ 1 := by rw [abs_pow]; exact pow_le_one₀ (abs_nonneg _) ht
  have h3' := abs_le.1 h3
  have hpi := Real.pi_pos
  have hp4 := Real.pi_gt_d4
  have hsun : |sunHours jd - trueSunLongitude jd / 15 - 24 * j| ≤ 0.1758 := by
    have e : sunHours jd - trueSunLongitude jd / 15 - 24 * j =
        (sunRightAscension jd - rad (trueSunLongitude jd) - 2 * Real.pi * j) * (12 / Real.pi) := by
      unfold sunHours rad
      field_simp
      ring
    rw [e, abs_mul, abs_of_pos (by positivity : 0 < 12 / Real.pi)]
    calc _ ≤ 0.046 * (12 / Real.pi) := mul_le_mul_of_nonneg_right hj (by positivity)
      _ ≤ 0.1758 := by
        rw [mul_div_assoc', div_le_iff₀ hpi]
        linarith
  have hlong : sunLongitude jd = 280.46645 + 36000.76983 * t := rfl
  have hs := abs_le.1 hsun
  have hl' := abs_le.1 hl
  refine ⟨j + k, ?_⟩
  rw [hk]
  push_cast
  rw [abs_le]
  constructor <;> linarith [hs.1, hs.2, hl'.1, hl'.2, ht'.1, ht'.2, h3'.1, h3'.2]

/-- Non-vacuity for C84 and C73: the year 2022, when the sun is far from its place at J2000. -/
example : WithinCenturies 1 2459580.5 ∧ 7000 < sunLongitude 2459580.5 := by
  constructor
  · unfold WithinCenturies; norm_num [abs_le]
  · unfold sunLongitude centuries; norm_num

end Celest.TimeScale
