/-
C135: the obliquity in the nutation matrix.
-/
import Verif.Frames.PropsReduction

namespace Celest.Frames

open Matrix Celest.TimeScale

/-- The matrix of the code for the nutation angles of celest and the obliquities that
`mean_obliquity` and `apparent_obliquity` return for the instant. -/
noncomputable def nutationOfDate (jd : ℝ) : Mat :=
  R1 (-rad (apparentObliquity jd)) *
    (R2 (-arcsec (nutationComponents jd).1) * R1 (rad (meanObliquity jd)))

/-- C135 (failure): the decrease of the obliquity is applied twice: the obliquity in the nutation
matrix is 46.83 to 46.85 arcseconds a century off the mean obliquity of date, so from 1900 to 2100
they agree at J2000 only. -/
theorem C135_obliquity_decreased_twice (jd : ℝ) (h : WithinCenturies 1 jd) :
    46.83 * |centuries jd| ≤ |meanObliquity jd * 3600 - epsA jd| ∧
    |meanObliquity jd * 3600 - epsA jd| ≤ 46.85 * |centuries jd| := by
  have ht := h.centuries
  have e : meanObliquity jd * 3600 - epsA jd =
      centuries jd * (46.84024 + 0.00059 * centuries jd - 0.001813 * centuries jd ^ 2) := by
    unfold epsA; ring
  rw [e, abs_mul, mul_comm |centuries jd|]
  have h1 := abs_le.1 ht
  have h2 : centuries jd ^ 2 ≤ 1 := by nlinarith
  have h3 := sq_nonneg (centuries jd)
  rw [abs_of_nonneg (a := 46.84024 + 0.00059 * centuries jd - 0.001813 * centuries jd ^ 2)
    (by linarith)]
  constructor <;> apply mul_le_mul_of_nonneg_right _ (abs_nonneg _) <;> linarith

private theorem obliquities {jd : ℝ} (h : WithinCenturies 1 jd) :
    |rad (meanObliquity jd) - meanEps jd| ≤ 4.8482e-6 * 46.85 ∧
    (jd ≠ 2451545 → Real.sin (rad (meanObliquity jd)) ≠ Real.sin (meanEps jd)) := by
  obtain ⟨l, r⟩ := C135_obliquity_decreased_twice jd h
  have ht := h.centuries
  have e : rad (meanObliquity jd) - meanEps jd =
      Real.pi / 648000 * (meanObliquity jd * 3600 - epsA jd) := by
    unfold meanEps rad; ring
  have hp := Real.pi_pos
  have hp' := Real.pi_lt_d4
  constructor
  · rw [e, abs_mul, abs_of_pos (by positivity)]
    apply mul_le_mul _ (by linarith) (abs_nonneg _) (by norm_num)
    linarith
  · intro hj hs
    have hne : centuries jd ≠ 0 := by
      unfold centuries
      intro h0
      rcases div_eq_zero_iff.1 h0 with h0 | h0
      · exact hj (by linarith)
      · norm_num at h0
    have hd : meanObliquity jd * 3600 - epsA jd ≠ 0 := by
      intro h0
      rw [h0, abs_zero] at l
      have := abs_pos.2 hne
      linarith
    have ho := abs_le.1 (obliquity_bound h (by norm_num))
    have hu : rad (meanObliquity jd) ∈ Set.Icc (-(Real.pi / 2)) (Real.pi / 2) := by
      unfold rad; constructor <;> nlinarith
    have hw := abs_le.1 (r.trans (by linarith : _ ≤ (46.85 : ℝ)))
    have hv : meanEps jd ∈ Set.Icc (-(Real.pi / 2)) (Real.pi / 2) := by
      unfold meanEps rad; constructor <;> nlinarith
    have := Real.injOn_sin hu hv hs
    rw [this, sub_self] at e
    rcases mul_eq_zero.1 e.symm with h0 | h0
    · exact absurd h0 (by positivity)
    · exact hd h0

/-- C135 (failure): from 1900 to 2100, whenever there is nutation in longitude, and J2000 apart,
the nutation matrix is not the one for the obliquities of date. -/
theorem C135_not_the_obliquity_of_date (jd : ℝ) (h : WithinCenturies 1 jd) (hj : jd ≠ 2451545)
    (hn : (nutationComponents jd).1 ≠ 0) : nutationMatrix jd ≠ nutationOfDate jd := by
  intro e
  have hs := arcsec_small hn ((C82_nutation_bounded _).1.trans (by norm_num))
  have e1 := congrFun (congrFun e 0) 1
  unfold nutationOfDate at e1
  rw [← nutationOf_eq] at e1
  have e2 : Real.sin (meanEps jd) * Real.sin (-arcsec (nutationComponents jd).1) =
      Real.sin (rad (meanObliquity jd)) * Real.sin (-arcsec (nutationComponents jd).1) := by
    simpa [nutationMatrix, nutationOf, meanEps] using e1
  rw [Real.sin_neg] at e2
  exact (obliquities h).2 hj (mul_right_cancel₀ (neg_ne_zero.2 hs) e2).symm

/-- C135 (partial): the effect is below a foot in low orbits: from 1900 to 2100 the two matrices
move no vector further apart than 4.3e-8 of its length. -/
theorem C135_close_to_the_obliquity_of_date_partial (jd : ℝ) (h : WithinCenturies 1 jd) (v : Vec) :
    dist (toE (nutationMatrix jd *ᵥ v)) (toE (nutationOfDate jd *ᵥ v)) ≤ 4.3e-8 * ‖toE v‖ := by
  rw [dist_toE, norm_toE]
  set ψ := arcsec (nutationComponents jd).1
  set d := rad (meanObliquity jd) - meanEps jd
  have hd := (obliquities h).1
  have hψ : |ψ| ≤ 4.8482e-6 * 18.96 := by
    have e : ψ = Real.pi / 648000 * (nutationComponents jd).1 := by
      simp only [ψ]; unfold arcsec rad; ring
    have hp := Real.pi_pos
    have hp' := Real.pi_lt_d4
    rw [e, abs_mul, abs_of_pos (by positivity)]
    exact mul_le_mul (by linarith) (C82_nutation_bounded jd).1 (abs_nonneg _) (by norm_num)
  have e1 : nutationMatrix jd = R1 (-trueEps jd) * (R2 (-ψ) * R1 (meanEps jd)) := by
    unfold nutationMatrix; rw [nutationOf_eq]; rfl
  have e2 : nutationOfDate jd = R1 (-trueEps jd) * (R1 (-d) * (R2 (-ψ) * (R1 d * R1 (meanEps jd)))) := by
    have a : rad (apparentObliquity jd) = trueEps jd + d := by
      simp only [d]; unfold trueEps meanEps apparentObliquity rad; ring
    unfold nutationOfDate
    rw [a, R1_add, show d + meanEps jd = rad (meanObliquity jd) by simp only [d]; ring,
      ← mul_assoc (R1 (-trueEps jd)), R1_add]
    congr 2
    ring
  rw [e1, e2]
  simp only [← Matrix.mulVec_mulVec]
  rw [← Matrix.mulVec_sub, (R1_rotation _).vnorm]
  set y := R1 (meanEps jd) *ᵥ v
  have hy : vnorm y = vnorm v := (R1_rotation _).vnorm v
  -- apply the inverse of the rotation by -d and compare the orders of the two rotations
  have hc : vnorm (R2 (-ψ) *ᵥ y - R1 (-d) *ᵥ (R2 (-ψ) *ᵥ (R1 d *ᵥ y))) =
      vnorm (R1 d *ᵥ (R2 (-ψ) *ᵥ y) - R2 (-ψ) *ᵥ (R1 d *ᵥ y)) := by
    rw [← (R1_rotation d).vnorm (R2 (-ψ) *ᵥ y - _), Matrix.mulVec_sub,
      Matrix.mulVec_mulVec (R2 (-ψ) *ᵥ (R1 d *ᵥ y)), R1_add, add_neg_cancel, R1_zero,
      Matrix.one_mulVec]
  rw [hc]
  -- (A - 1)(B - 1) - (B - 1)(A - 1)
  have e3 : R1 d *ᵥ (R2 (-ψ) *ᵥ y) - R2 (-ψ) *ᵥ (R1 d *ᵥ y) =
      (R1 d *ᵥ (R2 (-ψ) *ᵥ y - y) - (R2 (-ψ) *ᵥ y - y)) +
        -(R2 (-ψ) *ᵥ (R1 d *ᵥ y - y) - (R1 d *ᵥ y - y)) := by
    simp only [Matrix.mulVec_sub]; abel
  have n1 : ∀ z, vnorm (R1 d *ᵥ z - z) ≤ |d| * vnorm z := fun z => by
    have := R1_near d 0 z
    rwa [R1_zero, Matrix.one_mulVec, sub_zero] at this
  have n2 : ∀ z, vnorm (R2 (-ψ) *ᵥ z - z) ≤ |ψ| * vnorm z := fun z => by
    have := R2_near (-ψ) 0 z
    rwa [R2_zero, Matrix.one_mulVec, sub_zero, abs_neg] at this
  have neg : ∀ z : Vec, vnorm (-z) = vnorm z := fun z => by
    rw [← norm_toE, ← norm_toE, show toE (-z) = -toE z from rfl, norm_neg]
  rw [e3]
  refine (vnorm_add_le _ _).trans ?_
  rw [neg]
  have m1 := (n1 (R2 (-ψ) *ᵥ y - y)).trans (mul_le_mul_of_nonneg_left (n2 y) (abs_nonneg d))
  have m2 := (n2 (R1 d *ᵥ y - y)).trans (mul_le_mul_of_nonneg_left (n1 y) (abs_nonneg ψ))
  rw [hy] at m1 m2
  have hprod : |d| * |ψ| ≤ 4.8482e-6 * 46.85 * (4.8482e-6 * 18.96) :=
    mul_le_mul hd hψ (abs_nonneg _) (by norm_num)
  have key : 2 * (|d| * |ψ|) ≤ 4.3e-8 := by linarith
  have := mul_le_mul_of_nonneg_right key (vnorm_nonneg v)
  linarith

/-- Non-vacuity for C135: at the end of 2000 the nutation in longitude is not zero. -/
example : WithinCenturies 1 (2451545 + 365.25) ∧ (2451545 + 365.25 : ℝ) ≠ 2451545 ∧
    (nutationComponents (2451545 + 365.25)).1 ≠ 0 := by
  refine ⟨by unfold WithinCenturies; norm_num [abs_le], by norm_num, ?_⟩
  have hp := Real.pi_pos
  obtain ⟨j, hj⟩ : ∃ j : ℝ, j = 2451545 + 365.25 := ⟨_, rfl⟩
  rw [← hj]
  have h0 : centuries j = 0.01 := by rw [hj]; unfold centuries; norm_num
  have hn : 105.7 ≤ ascendingNode j ∧ ascendingNode j ≤ 105.71 := by
    unfold ascendingNode
    simp only [h0]
    rw [fmod_self] <;> norm_num
  have a2 := abs_le.1 (Real.abs_sin_le_one (2 * rad (sunLongitude j)))
  have a3 := abs_le.1 (Real.abs_sin_le_one (2 * rad (moonLongitude j)))
  have a4 := abs_le.1 (Real.abs_sin_le_one (2 * rad (ascendingNode j)))
  have hs : 0.8 ≤ Real.sin (rad (ascendingNode j)) := by
    have e : Real.sin (rad (ascendingNode j)) = Real.sin (rad (180 - ascendingNode j)) := by
      rw [← Real.sin_pi_sub]; congr 1; unfold rad; ring
    rw [e]
    have := Real.mul_le_sin (x := rad (180 - ascendingNode j))
      (by unfold rad; exact mul_nonneg (by linarith [hn.2]) (by positivity))
      (by unfold rad; nlinarith [hn.1])
    refine le_trans ?_ this
    unfold rad
    rw [div_mul_eq_mul_div, le_div_iff₀ hp]
    nlinarith [hn.2]
  have : (nutationComponents j).1 < 0 := by
    unfold nutationComponents nutationInLongitude
    simp only
    linarith [a2.1, a3.1, a4.2]
  exact this.ne

end Celest.Frames
