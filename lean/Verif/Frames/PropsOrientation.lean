/-
C85-C87: sidereal time and Earth rotation, precession at J2000, and the axis of nutation.
-/
import Verif.Frames.Lemmas
import Verif.TimeScale.PropsBounds

namespace Celest.Frames

open Matrix Celest.TimeScale

/-! ### C85 -/

/-- C85: from 1900 to 2100 Greenwich mean sidereal time, as an angle, runs ahead of the Earth
rotation angle by the accumulated precession ζ + z, to within 0.0006 degrees (2.2 arcseconds). -/
theorem C85_sidereal_time_is_rotation_plus_precession (jd : ℝ) (h : WithinCenturies 1 jd) :
    ∃ k : ℤ, |15 * gmst jd - earthRotationAngle jd -
      (zetaPrecession jd + zPrecession jd) / 3600 - 360 * k| ≤ 0.0006 := by
  have ht := h.centuries
  have hd : jd - 2451545 = 36525 * centuries jd := by unfold centuries; ring
  unfold gmst earthRotationAngle zetaPrecession zPrecession
  simp only [hd]
  set t := centuries jd
  have hp : ∀ n : ℕ, -1 ≤ t ^ n ∧ t ^ n ≤ 1 := fun n =>
    abs_le.1 (by rw [abs_pow]; exact pow_le_one₀ (abs_nonneg _) ht)
  obtain ⟨a, ha⟩ := fmod_eq (280.46 + 360.98564736629 * t * 36525 + 0.000387933 * t ^ 2 -
    t ^ 3 / 38710000) 360
  obtain ⟨b, hb⟩ := fmod_eq (360.9856123035484 * (36525 * t) + 280.46) 360
  refine ⟨a - b, ?_⟩
  rw [ha, hb]
  push_cast
  have h1 := abs_le.1 ht
  have h2 := hp 2
  have h3 := hp 3
  have h4 := hp 4
  have h5 := hp 5
  rw [abs_le]
  constructor <;> linarith [h1.1, h1.2, h2.1, h2.2, h3.1, h3.2, h4.1, h4.2, h5.1, h5.2]

/-- Non-vacuity for C85: in 2050 the accumulated precession is more than half a degree. -/
example : WithinCenturies 1 (2451545 + 18262.5) ∧
    0.6 < (zetaPrecession (2451545 + 18262.5) + zPrecession (2451545 + 18262.5)) / 3600 := by
  constructor
  · unfold WithinCenturies; norm_num [abs_le]
  · unfold zetaPrecession zPrecession centuries; norm_num

/-! ### C86 -/

/-- The standard precession sequence: rotations by -ζ, θ and -z about the third, second and third
axes. -/
noncomputable def standardPrecession (zeta theta z : ℝ) : Mat := R3 (-z) * (R2 theta * R3 (-zeta))

theorem R3_add (a b : ℝ) : R3 a * R3 b = R3 (a + b) := by
  ext i j
  fin_cases i <;> fin_cases j <;>
    simp [R3, Matrix.mul_apply, Fin.sum_univ_three, Real.sin_add, Real.cos_add] <;> ring

theorem R2_zero : R2 0 = 1 := by
  ext i j
  fin_cases i <;> fin_cases j <;> simp [R2]

theorem R3_zero : R3 0 = 1 := by
  ext i j
  fin_cases i <;> fin_cases j <;> simp [R3]

theorem arcsec_small {x : ℝ} (h0 : x ≠ 0) (h1 : |x| ≤ 3600 * 100) :
    Real.sin (arcsec x) ≠ 0 := by
  have hp := Real.pi_pos
  have ha := abs_le.1 h1
  unfold arcsec rad
  intro h
  rw [Real.sin_eq_zero_iff_of_lt_of_lt (by nlinarith) (by nlinarith)] at h
  have : x / 3600 * (Real.pi / 180) ≠ 0 := by positivity
  exact this h

/-- C86 (failure): at J2000 the precession matrix is not the identity but a rotation by 5.2
arcseconds about the third axis. -/
theorem C86_not_identity_at_J2000 :
    precessionMatrix 2451545 = R3 (arcsec 5.19557936) ∧ precessionMatrix 2451545 ≠ 1 := by
  have h : precessionMatrix 2451545 = R3 (arcsec 5.19557936) := by
    unfold precessionMatrix
    rw [precessionOf_eq]
    have h0 : centuries 2451545 = 0 := by unfold centuries; norm_num
    have hth : arcsec (thetaPrecession 2451545) = 0 := by
      unfold thetaPrecession arcsec rad; rw [h0]; norm_num
    rw [hth, R2_zero, one_mul, R3_add]
    congr 1
    unfold zetaPrecession zPrecession arcsec rad
    simp only [h0]
    ring
  refine ⟨h, fun h1 => ?_⟩
  rw [h] at h1
  have := congrFun (congrFun h1 0) 1
  simp only [R3] at this
  simp at this
  exact arcsec_small (by norm_num) (by norm_num [abs_le]) this

/-- C86 (failure): at every instant from 2000 to 2100 the precession matrix differs from the
standard sequence for its own angles: ζ enters with the wrong sign. -/
theorem C86_not_standard_sequence (jd : ℝ) (h0 : 2451545 ≤ jd) (h1 : jd ≤ 2451545 + 36525) :
    precessionMatrix jd ≠ standardPrecession (arcsec (zetaPrecession jd))
      (arcsec (thetaPrecession jd)) (arcsec (zPrecession jd)) := by
  intro h
  unfold precessionMatrix at h
  rw [precessionOf_eq] at h
  unfold standardPrecession at h
  have hcancel : R3 (arcsec (zetaPrecession jd)) = R3 (-arcsec (zetaPrecession jd)) := by
    have e1 := congrArg (fun m => R3 (arcsec (zPrecession jd)) * m) h
    simp only [← Matrix.mul_assoc, R3_add, add_neg_cancel, R3_zero, one_mul] at e1
    have hu := (R2_rotation (arcsec (thetaPrecession jd))).inv_mulVec
    have e2 : ∀ v, R3 (arcsec (zetaPrecession jd)) *ᵥ v =
        R3 (-arcsec (zetaPrecession jd)) *ᵥ v := by
      intro v
      have := congrArg (fun m => (R2 (arcsec (thetaPrecession jd)))⁻¹ *ᵥ (m *ᵥ v)) e1
      simp only [← Matrix.mulVec_mulVec, hu] at this
      exact this
    ext i j
    have := congrFun (e2 (Pi.single j 1)) i
    simpa using this
  have ht : centuries jd = (jd - 2451545) / 36525 := rfl
  have ht0 : 0 ≤ centuries jd := by rw [ht]; apply div_nonneg <;> linarith
  have ht1 : centuries jd ≤ 1 := by rw [ht, div_le_one (by norm_num)]; linarith
  have hp : ∀ n : ℕ, 0 ≤ centuries jd ^ n ∧ centuries jd ^ n ≤ 1 := fun n =>
    ⟨pow_nonneg ht0 n, pow_le_one₀ ht0 ht1⟩
  have h2 := hp 2
  have h3 := hp 3
  have h4 := hp 4
  have h5 := hp 5
  have hz : 2 < zetaPrecession jd ∧ zetaPrecession jd ≤ 3000 := by
    unfold zetaPrecession
    simp only
    constructor <;> linarith [h2.1, h2.2, h3.1, h3.2, h4.1, h4.2, h5.1, h5.2]
  have := congrFun (congrFun hcancel 0) 1
  simp only [R3] at this
  simp only [Real.sin_neg, Matrix.of_apply, Matrix.cons_val', Matrix.cons_val_zero,
    Matrix.cons_val_one] at this
  apply arcsec_small (x := zetaPrecession jd) (by linarith [hz.1])
    (abs_le.2 ⟨by linarith [hz.1], by linarith [hz.2]⟩)
  linarith

/-- C86 (partial): the precession matrix takes the mean pole of date to the standard place up to
the sign of ζ: it is the sequence with -ζ replaced by ζ, and it moves the pole of J2000 by
exactly θ.  Missing: the sign. -/
theorem C86_sequence_partial (jd : ℝ) :
    precessionMatrix jd = standardPrecession (-arcsec (zetaPrecession jd))
      (arcsec (thetaPrecession jd)) (arcsec (zPrecession jd)) ∧
    (precessionMatrix jd *ᵥ ![0, 0, 1]) ⬝ᵥ ![0, 0, 1] = Real.cos (arcsec (thetaPrecession jd)) := by
  constructor
  · unfold precessionMatrix standardPrecession
    rw [precessionOf_eq, neg_neg]
  · unfold precessionMatrix precessionOf
    simp [Matrix.mulVec, dotProduct, Fin.sum_univ_three]

/-! ### C87 -/

/-- The pole of the ecliptic for an obliquity, in equatorial coordinates. -/
noncomputable def eclipticPole (eps : ℝ) : Vec := ![0, -Real.sin eps, Real.cos eps]

/-- The obliquity used by the nutation matrix, and the true obliquity, in radians. -/
noncomputable def meanEps (jd : ℝ) : ℝ := rad (epsA jd / 3600)

noncomputable def trueEps (jd : ℝ) : ℝ := rad (epsA jd / 3600 + (nutationComponents jd).2 / 3600)

theorem nutation_equinox (jd : ℝ) :
    (nutationMatrix jd *ᵥ ![1, 0, 0]) ⬝ᵥ eclipticPole (trueEps jd) =
      -Real.sin (arcsec (nutationComponents jd).1) ∧
    (nutationMatrix jd *ᵥ eclipticPole (meanEps jd)) ⬝ᵥ eclipticPole (trueEps jd) =
      Real.cos (arcsec (nutationComponents jd).1) := by
  unfold nutationMatrix
  have e : rad (epsA jd / 3600 + (nutationComponents jd).2 / 3600) = trueEps jd := rfl
  have e' : rad (epsA jd / 3600) = meanEps jd := rfl
  rw [e, e']
  have hs := Real.sin_sq_add_cos_sq (trueEps jd)
  have hm := Real.sin_sq_add_cos_sq (meanEps jd)
  unfold nutationOf eclipticPole
  simp only [Matrix.mulVec, dotProduct, Fin.sum_univ_three, Matrix.of_apply, Matrix.cons_val',
    Matrix.cons_val_zero, Matrix.cons_val_one, Matrix.cons_val, Real.sin_neg, Real.cos_neg]
  set s := Real.sin (trueEps jd)
  set c := Real.cos (trueEps jd)
  set u := Real.sin (meanEps jd)
  set w := Real.cos (meanEps jd)
  set p := Real.sin (arcsec (nutationComponents jd).1)
  set q := Real.cos (arcsec (nutationComponents jd).1)
  constructor
  · linear_combination -p * hs
  · linear_combination (q * (u ^ 2 + w ^ 2)) * hs + q * hm

/-- C87 (failure): whenever the nutation in longitude is not zero, the nutation matrix moves the
equinox out of the ecliptic, and moves the pole of the ecliptic. -/
theorem C87_equinox_leaves_ecliptic (jd : ℝ) (h : (nutationComponents jd).1 ≠ 0) :
    (nutationMatrix jd *ᵥ ![1, 0, 0]) ⬝ᵥ eclipticPole (trueEps jd) ≠ 0 ∧
    nutationMatrix jd *ᵥ eclipticPole (meanEps jd) ≠ eclipticPole (trueEps jd) := by
  have hb := (C82_nutation_bounded jd).1
  have hsin := arcsec_small h (le_trans hb (by norm_num))
  have hn := nutation_equinox jd
  constructor
  · rw [hn.1]; exact neg_ne_zero.2 hsin
  · intro he
    have h2 := hn.2
    rw [he] at h2
    have h3 : eclipticPole (trueEps jd) ⬝ᵥ eclipticPole (trueEps jd) = 1 := by
      simp only [eclipticPole, dotProduct, Fin.sum_univ_three, Matrix.cons_val_zero,
        Matrix.cons_val_one, Matrix.cons_val]
      linear_combination Real.sin_sq_add_cos_sq (trueEps jd)
    rw [h3] at h2
    have := Real.sin_sq_add_cos_sq (arcsec (nutationComponents jd).1)
    rw [← h2] at this
    apply hsin
    have : Real.sin (arcsec (nutationComponents jd).1) ^ 2 = 0 := by linarith
    exact pow_eq_zero_iff (two_ne_zero) |>.1 this

/-- C87 (partial): the pole of the ecliptic is displaced by exactly the nutation in longitude, which
is less than 19 arcseconds.  Missing: that it is not displaced. -/
theorem C87_pole_displacement_partial (jd : ℝ) :
    (nutationMatrix jd *ᵥ eclipticPole (meanEps jd)) ⬝ᵥ eclipticPole (trueEps jd) =
      Real.cos (arcsec (nutationComponents jd).1) ∧
    |(nutationComponents jd).1| < 19 :=
  ⟨(nutation_equinox jd).2, lt_of_le_of_lt (C82_nutation_bounded jd).1 (by norm_num)⟩

/-- Non-vacuity for C87: at J2000 the nutation in longitude is not zero. -/
example : (nutationComponents 2451545).1 < -8 := by
  have hp := Real.pi_pos
  have h0 : centuries 2451545 = 0 := by unfold centuries; norm_num
  have hn : ascendingNode 2451545 = 125.04452 := by
    unfold ascendingNode
    simp only [h0]
    rw [fmod_self] <;> norm_num
  unfold nutationComponents nutationInLongitude
  simp only [hn]
  have a2 := abs_le.1 (Real.abs_sin_le_one (2 * rad (sunLongitude 2451545)))
  have a3 := abs_le.1 (Real.abs_sin_le_one (2 * rad (moonLongitude 2451545)))
  have a4 := abs_le.1 (Real.abs_sin_le_one (2 * rad 125.04452))
  have hs : 0.6 ≤ Real.sin (rad 125.04452) := by
    have e : Real.sin (rad 125.04452) = Real.sin (rad 54.95548) := by
      rw [← Real.sin_pi_sub]; congr 1; unfold rad; ring
    rw [e]
    have := Real.mul_le_sin (x := rad 54.95548) (by unfold rad; positivity)
      (by unfold rad; linarith)
    refine le_trans ?_ this
    unfold rad
    rw [div_mul_eq_mul_div, le_div_iff₀ hp]
    linarith
  linarith [a2.1, a3.1, a4.2]

end Celest.Frames
