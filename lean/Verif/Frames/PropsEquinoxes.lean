/-
C139: the equation of the equinoxes as an angle.
-/
import Verif.Frames.PropsRotation
import Verif.TimeScale.PropsBounds
import Mathlib.Analysis.SpecialFunctions.Trigonometric.Bounds

namespace Celest.Frames

open Matrix Celest.TimeScale

/-! ### Specification -/

/-- The mean equinox in coordinates of the true equator and equinox: it lies on the ecliptic, ahead
of the true equinox by the nutation in longitude, and the equator is inclined by the obliquity. -/
noncomputable def meanEquinox (jd : ℝ) : Vec :=
  let psi := arcsec (nutationComponents jd).1
  R1 (-rad (apparentObliquity jd)) *ᵥ ![Real.cos psi, Real.sin psi, 0]

/-- The equation of the equinoxes, radians: the right ascension of the mean equinox. -/
noncomputable def equinoxAngle (jd : ℝ) : ℝ := arctan2 (meanEquinox jd 1) (meanEquinox jd 0)

/-! ### Proofs -/

theorem sin_near (x : ℝ) (h : |x| ≤ 0.001) : |Real.sin x - x| ≤ 0.2 * |x| ^ 3 := by
  have h1 := Real.sin_bound (x := x) (h.trans (by norm_num))
  have h3 : |x| ^ 5 = |x| ^ 2 * |x| ^ 3 := by ring
  have h4 : |x| ^ 2 * |x| ^ 3 ≤ 0.001 ^ 2 * |x| ^ 3 :=
    mul_le_mul_of_nonneg_right (pow_le_pow_left₀ (abs_nonneg x) h 2) (by positivity)
  have e : Real.sin x - x = (Real.sin x - (x - x ^ 3 / 6)) + -(x ^ 3 / 6) := by ring
  rw [e]
  refine (abs_add_le _ _).trans ?_
  have e2 : |-(x ^ 3 / 6)| = |x| ^ 3 / 6 := by
    rw [abs_neg, abs_div, abs_pow, abs_of_pos (by norm_num : (0 : ℝ) < 6)]
  rw [e2]
  have := abs_nonneg x
  have hp : 0 ≤ |x| ^ 3 := by positivity
  linarith

theorem arctan2_scaled (c x : ℝ) (hc : |c| ≤ 1) (hx : |x| ≤ 1e-4) :
    |arctan2 (c * Real.sin x) (Real.cos x) - c * x| ≤ 3e-12 := by
  obtain ⟨r, hr⟩ : ∃ r, r = Real.sqrt (Real.cos x ^ 2 + (c * Real.sin x) ^ 2) := ⟨_, rfl⟩
  have hs := Real.sin_sq_add_cos_sq x
  have hc2 : c ^ 2 ≤ 1 := (sq_le_one_iff_abs_le_one c).2 hc
  have hx2 : x ^ 2 ≤ 1e-8 := by
    have := mul_le_mul hx hx (abs_nonneg x) (by norm_num)
    rw [← abs_mul, ← pow_two, abs_of_nonneg (sq_nonneg x)] at this
    linarith
  have hsx : Real.sin x ^ 2 ≤ x ^ 2 := by
    have := Real.abs_sin_le_abs (x := x)
    exact sq_le_sq.2 this
  have hcx : 1 - x ^ 2 / 2 ≤ Real.cos x := Real.one_sub_sq_div_two_le_cos
  have hr1 : r ≤ 1 := by
    rw [hr]
    apply Real.sqrt_le_one.2
    have : (c * Real.sin x) ^ 2 ≤ Real.sin x ^ 2 := by
      rw [mul_pow]
      have := mul_le_mul_of_nonneg_right hc2 (sq_nonneg (Real.sin x))
      linarith
    linarith
  have hr0 : 1 - x ^ 2 / 2 ≤ r := by
    refine hcx.trans ?_
    rw [hr]
    apply Real.le_sqrt_of_sq_le
    linarith [sq_nonneg (c * Real.sin x)]
  have hrp : 0 < r := by linarith
  have hrs : Real.cos x ^ 2 + (c * Real.sin x) ^ 2 = r ^ 2 := by
    rw [hr, Real.sq_sqrt (by positivity)]
  obtain ⟨A, hA⟩ : ∃ A, A = arctan2 (c * Real.sin x) (Real.cos x) := ⟨_, rfl⟩
  obtain ⟨p1, p2⟩ := arctan2_polar (c * Real.sin x) (Real.cos x) r hrp hrs
  rw [← hA] at p1 p2 ⊢
  have hcA : 0 < Real.cos A := by
    by_contra h
    have := mul_nonpos_of_nonneg_of_nonpos hrp.le (not_lt.1 h)
    linarith
  have hA2 : |A| ≤ Real.pi / 2 := by
    rw [hA]
    unfold arctan2
    apply Complex.abs_arg_le_pi_div_two_iff.2
    show 0 ≤ Real.cos x
    linarith
  have hsxa : |Real.sin x| ≤ 1e-4 := Real.abs_sin_le_abs.trans hx
  have hcsx : |c * Real.sin x| ≤ 1e-4 := by
    rw [abs_mul]
    have := mul_le_mul hc hsxa (abs_nonneg _) (by norm_num)
    linarith
  have hsA : |Real.sin A| ≤ 1.001e-4 := by
    have : r * |Real.sin A| ≤ 1e-4 := by
      rw [← abs_of_pos hrp, ← abs_mul, p2]
      exact hcsx
    have h2 : 0.99999 * |Real.sin A| ≤ r * |Real.sin A| :=
      mul_le_mul_of_nonneg_right (by linarith) (abs_nonneg _)
    linarith
  have hAb : |A| ≤ 1.6e-4 := by
    have h1 := Real.mul_abs_le_abs_sin hA2
    have hpi := Real.pi_lt_d4
    have hpp := Real.pi_pos
    have : |A| ≤ Real.pi / 2 * |Real.sin A| := by
      have := mul_le_mul_of_nonneg_left h1 (by positivity : 0 ≤ Real.pi / 2)
      have e : Real.pi / 2 * (2 / Real.pi * |A|) = |A| := by field_simp
      linarith
    have h2 : Real.pi / 2 * |Real.sin A| ≤ 1.5708 * 1.001e-4 :=
      mul_le_mul (by linarith) hsA (abs_nonneg _) (by norm_num)
    linarith
  have d1 : |Real.sin A - A| ≤ 8.3e-13 := by
    refine (sin_near A (by linarith)).trans ?_
    have : |A| ^ 3 ≤ 1.6e-4 ^ 3 := pow_le_pow_left₀ (abs_nonneg _) hAb 3
    linarith
  have d2 : |Real.sin x - x| ≤ 2e-13 := by
    refine (sin_near x (by linarith)).trans ?_
    have : |x| ^ 3 ≤ 1e-4 ^ 3 := pow_le_pow_left₀ (abs_nonneg _) hx 3
    linarith
  have d3 : |Real.sin A - c * Real.sin x| ≤ 5.1e-13 := by
    rw [← p2, show Real.sin A - r * Real.sin A = (1 - r) * Real.sin A by ring, abs_mul,
      abs_of_nonneg (by linarith)]
    have := mul_le_mul (show 1 - r ≤ 5e-9 by linarith) hsA (abs_nonneg _) (by norm_num)
    linarith
  have d4 : |c * (Real.sin x - x)| ≤ 2e-13 := by
    rw [abs_mul]
    have := mul_le_mul hc d2 (abs_nonneg _) (by norm_num)
    linarith
  have e : A - c * x = -(Real.sin A - A) + ((Real.sin A - c * Real.sin x) +
      c * (Real.sin x - x)) := by ring
  rw [e]
  refine (abs_add_le _ _).trans ?_
  rw [abs_neg]
  have := abs_add_le (Real.sin A - c * Real.sin x) (c * (Real.sin x - x))
  linarith

theorem arcsec_eq (x : ℝ) : arcsec x = Real.pi / 648000 * x := by
  unfold arcsec rad
  ring

/-- The angle is the nutation in longitude times the cosine of the obliquity, to a millionth of an
arcsecond. -/
theorem equinoxAngle_near (jd : ℝ) :
    |arcsec ((nutationComponents jd).1 * Real.cos (rad (apparentObliquity jd))) -
      equinoxAngle jd| ≤ arcsec 1e-6 := by
  obtain ⟨psi, hpsi⟩ : ∃ psi, psi = arcsec (nutationComponents jd).1 := ⟨_, rfl⟩
  have hx : |psi| ≤ 1e-4 := by
    rw [hpsi, arcsec_eq, abs_mul, abs_of_pos (by positivity)]
    have h1 := (C82_nutation_bounded jd).1
    have hp := Real.pi_lt_d4
    have := mul_le_mul (show Real.pi / 648000 ≤ 3.1416 / 648000 by linarith) h1 (abs_nonneg _)
      (by norm_num)
    norm_num at this ⊢
    linarith
  have e : equinoxAngle jd = arctan2 (Real.cos (rad (apparentObliquity jd)) * Real.sin psi)
      (Real.cos psi) := by
    unfold equinoxAngle meanEquinox
    simp only [← hpsi]
    simp [R1, Matrix.mulVec, dotProduct, Fin.sum_univ_three]
  have e2 : arcsec ((nutationComponents jd).1 * Real.cos (rad (apparentObliquity jd))) =
      Real.cos (rad (apparentObliquity jd)) * psi := by
    rw [hpsi, arcsec_eq, arcsec_eq]
    ring
  rw [e, e2, abs_sub_comm]
  refine (arctan2_scaled _ _ (Real.abs_cos_le_one _) hx).trans ?_
  rw [arcsec_eq]
  have := Real.pi_gt_d2
  norm_num at this ⊢
  linarith

/-- **C139 (failure).** At every instant the quantity returned by `equation_of_equinoxes`, an angle
in arcseconds, is one fifteenth of the angle along the equator between the two equinoxes, to a
millionth of an arcsecond: its number counts seconds of time. -/
theorem C139_one_fifteenth (jd : ℝ) :
    |15 * arcsec (equationOfEquinoxes jd) - equinoxAngle jd| ≤ arcsec 1e-6 := by
  have h := equinoxAngle_near jd
  have e : 15 * arcsec (equationOfEquinoxes jd) =
      arcsec ((nutationComponents jd).1 * Real.cos (rad (apparentObliquity jd))) := by
    rw [arcsec_eq, arcsec_eq]
    unfold equationOfEquinoxes
    ring
  rw [e]
  exact h

/-- **C139 (partial).** Apparent sidereal time is mean sidereal time plus the angle between the
equinoxes, to a millionth of an arcsecond, because the sum reads the number in degrees as hours. -/
theorem C139_sidereal_time_partial (jd : ℝ) :
    |rad (15 * (gast jd - gmst jd)) - equinoxAngle jd| ≤ arcsec 1e-6 := by
  have h := equinoxAngle_near jd
  have e : rad (15 * (gast jd - gmst jd)) =
      arcsec ((nutationComponents jd).1 * Real.cos (rad (apparentObliquity jd))) := by
    unfold gast equationOfEquinoxes arcsec rad
    ring
  rw [e]
  exact h

/-- **C139 (failure).** The returned angle is short of the true one by more than five arcseconds at
every instant from 1900 to 2100 at which the sine of the longitude of the moon's node is at least a
half in size, two thirds of the time. -/
theorem C139_five_arcseconds (jd : ℝ) (h : WithinCenturies 1 jd)
    (hnode : 1 / 2 ≤ |Real.sin (rad (ascendingNode jd))|) :
    arcsec 5 ≤ |arcsec (equationOfEquinoxes jd) - equinoxAngle jd| := by
  have hpp := Real.pi_pos
  have hpsi : 6.8 ≤ |(nutationComponents jd).1| := by
    obtain ⟨z, hz⟩ : ∃ z, z = Real.sin (rad (ascendingNode jd)) := ⟨_, rfl⟩
    obtain ⟨w, hw⟩ : ∃ w, w = Real.cos (rad (ascendingNode jd)) := ⟨_, rfl⟩
    obtain ⟨p, hp⟩ : ∃ p, p = Real.sin (2 * rad (sunLongitude jd)) := ⟨_, rfl⟩
    obtain ⟨q, hq⟩ : ∃ q, q = Real.sin (2 * rad (moonLongitude jd)) := ⟨_, rfl⟩
    have e : (nutationComponents jd).1 = z * (-17.20 + 0.42 * w) + (-1.32 * p + -0.23 * q) := by
      unfold nutationComponents nutationInLongitude
      simp only
      rw [Real.sin_two_mul (rad (ascendingNode jd)), ← hz, ← hw, ← hp, ← hq]
      ring
    have hw1 := abs_le.1 (hw ▸ Real.abs_cos_le_one (rad (ascendingNode jd)))
    have hp1 := abs_le.1 (hp ▸ Real.abs_sin_le_one (2 * rad (sunLongitude jd)))
    have hq1 := abs_le.1 (hq ▸ Real.abs_sin_le_one (2 * rad (moonLongitude jd)))
    rw [← hz] at hnode
    have h1 : 8.39 ≤ |z * (-17.20 + 0.42 * w)| := by
      rw [abs_mul, abs_of_neg (show -17.20 + 0.42 * w < 0 by linarith [hw1.2])]
      have := mul_le_mul hnode (show (16.78 : ℝ) ≤ -(-17.20 + 0.42 * w) by linarith [hw1.2])
        (by norm_num) (abs_nonneg z)
      linarith
    have h2 : |(-1.32 * p + -0.23 * q)| ≤ 1.55 := by
      rw [abs_le]
      constructor <;> linarith [hp1.1, hp1.2, hq1.1, hq1.2]
    rw [e]
    have := abs_sub_abs_le_abs_sub (z * (-17.20 + 0.42 * w)) (-(-1.32 * p + -0.23 * q))
    rw [abs_neg, sub_neg_eq_add] at this
    linarith
  have hcos : 0.9 ≤ Real.cos (rad (apparentObliquity jd)) := by
    have h1 := abs_le.1 (obliquity_bound h (by norm_num))
    have h2 := abs_le.1 (C82_nutation_bounded jd).2.2.1
    have h3 : |rad (apparentObliquity jd)| ≤ 0.42 := by
      have hpi := Real.pi_lt_d4
      have h4 : |apparentObliquity jd| ≤ 23.5 := by
        rw [abs_le]
        constructor <;> linarith [h1.1, h1.2, h2.1, h2.2]
      unfold rad
      rw [abs_mul, abs_of_pos (show 0 < Real.pi / 180 by positivity)]
      have := mul_le_mul h4 (show Real.pi / 180 ≤ 3.1416 / 180 by linarith) (by positivity)
        (by norm_num)
      linarith
    have h5 : Real.cos (rad (apparentObliquity jd)) ≥ 1 - rad (apparentObliquity jd) ^ 2 / 2 :=
      Real.one_sub_sq_div_two_le_cos
    have h6 : rad (apparentObliquity jd) ^ 2 ≤ 0.42 ^ 2 := by
      rw [← sq_abs]
      exact pow_le_pow_left₀ (abs_nonneg _) h3 2
    linarith
  obtain ⟨E, hE⟩ : ∃ E, E = arcsec (equationOfEquinoxes jd) := ⟨_, rfl⟩
  have h15 := C139_one_fifteenth jd
  have hEa : arcsec 5.7 ≤ |14 * E| := by
    have e : 14 * E = Real.pi / 648000 * (14 / 15 *
        ((nutationComponents jd).1 * Real.cos (rad (apparentObliquity jd)))) := by
      rw [hE, arcsec_eq]
      unfold equationOfEquinoxes
      ring
    rw [e, arcsec_eq, abs_mul, abs_of_pos (show 0 < Real.pi / 648000 by positivity)]
    apply mul_le_mul_of_nonneg_left _ (by positivity)
    rw [abs_mul, abs_mul, abs_of_pos (show 0 < Real.cos (rad (apparentObliquity jd)) by linarith),
      abs_of_pos (by norm_num : (0 : ℝ) < 14 / 15)]
    have := mul_le_mul hpsi hcos (by norm_num) (abs_nonneg _)
    linarith
  rw [← hE] at h15 ⊢
  have h6 : arcsec 5 + arcsec 1e-6 ≤ arcsec 5.7 := by
    rw [arcsec_eq, arcsec_eq, arcsec_eq, ← mul_add]
    exact mul_le_mul_of_nonneg_left (by norm_num) (by positivity)
  have := abs_sub_abs_le_abs_sub (14 * E) (15 * E - equinoxAngle jd)
  rw [show 14 * E - (15 * E - equinoxAngle jd) = -(E - equinoxAngle jd) by ring, abs_neg] at this
  linarith

/-- At J2000 the node is at 125.04 degrees, where the sine is more than a half. -/
example : WithinCenturies 1 2451545 ∧ 1 / 2 ≤ |Real.sin (rad (ascendingNode 2451545))| := by
  refine ⟨by unfold WithinCenturies; norm_num, ?_⟩
  have e : ascendingNode 2451545 = 125.04452 := by
    unfold ascendingNode centuries
    norm_num
    exact fmod_self _ _ (by norm_num) (by norm_num)
  rw [e]
  have hpi := Real.pi_pos
  have h : Real.cos (Real.pi / 3) ≤ Real.cos (rad 125.04452 - Real.pi / 2) := by
    apply Real.cos_le_cos_of_nonneg_of_le_pi
    · unfold rad; nlinarith
    · linarith
    · unfold rad; nlinarith
  rw [Real.cos_pi_div_three, Real.cos_sub_pi_div_two] at h
  exact h.trans (le_abs_self _)

end Celest.Frames
