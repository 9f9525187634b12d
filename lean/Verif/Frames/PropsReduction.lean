/-
C134: the conversion from GCRS to ITRS as a whole against the standard reduction.
-/
import Verif.Frames.LemmasVelocity
import Verif.Frames.PropsOrientation

namespace Celest.Frames

open Matrix Celest.TimeScale

/-! ### The specification -/

/-- The standard nutation sequence: from the mean equator to the ecliptic, along the ecliptic by
the nutation in longitude, and back to the true equator. -/
noncomputable def standardNutation (eps eps' dpsi : ℝ) : Mat := R1 (-eps') * (R3 (-dpsi) * R1 eps)

/-- The standard reduction of a GCRS position to ITRS, polar motion apart: frame bias, precession,
nutation, and a rotation by Greenwich apparent sidereal time, each for the values celest computes
for these quantities. -/
noncomputable def standardItrs (jd : ℝ) (v : Vec) : Vec :=
  R3 (rad (15 * gast jd)) *ᵥ
    (standardNutation (rad (meanObliquity jd)) (rad (apparentObliquity jd))
        (arcsec (nutationComponents jd).1) *ᵥ
      (standardPrecession (arcsec (zetaPrecession jd)) (arcsec (thetaPrecession jd))
        (arcsec (zPrecession jd)) *ᵥ (biasMatrix *ᵥ v)))

/-! ### Lemmas -/

theorem standardNutation_rotation (a b c : ℝ) : Rotation (standardNutation a b c) :=
  (R1_rotation _).mul ((R3_rotation _).mul (R1_rotation _))

theorem standardPrecession_rotation (a b c : ℝ) : Rotation (standardPrecession a b c) :=
  (R3_rotation _).mul ((R2_rotation _).mul (R3_rotation _))

private theorem vnorm_triangle (a b c : Vec) : vnorm (a - c) ≤ vnorm (a - b) + vnorm (b - c) := by
  have := vnorm_add_le (a - b) (b - c)
  rwa [sub_add_sub_cancel] at this

private theorem vnorm_comm (a b : Vec) : vnorm (a - b) = vnorm (b - a) := by
  rw [← dist_toE, ← dist_toE, dist_comm]

private theorem arcsec_le {x d : ℝ} (h : |x| ≤ d) : |arcsec x| ≤ 4.8482e-6 * d := by
  have e : arcsec x = Real.pi / 648000 * x := by unfold arcsec rad; ring
  have hp := Real.pi_lt_d4
  rw [e, abs_mul, abs_of_pos (by positivity)]
  have h0 := abs_nonneg x
  calc Real.pi / 648000 * |x| ≤ 4.8482e-6 * |x| :=
        mul_le_mul_of_nonneg_right (by linarith) h0
    _ ≤ _ := by linarith

theorem R1_add (a b : ℝ) : R1 a * R1 b = R1 (a + b) := by
  ext i j
  fin_cases i <;> fin_cases j <;>
    simp [R1, Matrix.mul_apply, Fin.sum_univ_three, Real.sin_add, Real.cos_add] <;> ring

theorem R1_zero : R1 0 = 1 := by
  ext i j
  fin_cases i <;> fin_cases j <;> simp [R1]

/-- A rotation through a small angle between two almost opposite ones moves vectors little. -/
private theorem sandwich {m : Mat} {d : ℝ} (eps eps' : ℝ)
    (hm : ∀ z, vnorm (m *ᵥ z - z) ≤ d * vnorm z) (x : Vec) :
    vnorm ((R1 (-eps') * (m * R1 eps)) *ᵥ x - x) ≤ (d + |eps - eps'|) * vnorm x := by
  simp only [← Matrix.mulVec_mulVec]
  have h1 := hm (R1 eps *ᵥ x)
  rw [(R1_rotation _).vnorm] at h1
  have h2 : vnorm (R1 (-eps') *ᵥ (m *ᵥ (R1 eps *ᵥ x)) - R1 (-eps') *ᵥ (R1 eps *ᵥ x)) ≤
      d * vnorm x := by
    rw [← Matrix.mulVec_sub, (R1_rotation _).vnorm]; exact h1
  have h3 : vnorm (R1 (-eps') *ᵥ (R1 eps *ᵥ x) - x) ≤ |eps - eps'| * vnorm x := by
    have := R1_near (-eps' + eps) 0 x
    rw [R1_zero, Matrix.one_mulVec, sub_zero, ← R1_add, ← Matrix.mulVec_mulVec] at this
    rwa [show -eps' + eps = eps - eps' by ring] at this
  have := vnorm_triangle (R1 (-eps') *ᵥ (m *ᵥ (R1 eps *ᵥ x))) (R1 (-eps') *ᵥ (R1 eps *ᵥ x)) x
  linarith

private theorem eps_near (jd : ℝ) : |meanEps jd - trueEps jd| ≤ 4.8482e-6 * 9.96 ∧
    |rad (meanObliquity jd) - rad (apparentObliquity jd)| ≤ 4.8482e-6 * 9.96 := by
  have e : meanEps jd - trueEps jd = -arcsec (nutationComponents jd).2 := by
    unfold meanEps trueEps arcsec rad; ring
  have e' : rad (meanObliquity jd) - rad (apparentObliquity jd) =
      -arcsec (nutationComponents jd).2 := by
    unfold apparentObliquity arcsec rad; ring
  rw [e, e', abs_neg]
  exact ⟨arcsec_le (C82_nutation_bounded jd).2.1, arcsec_le (C82_nutation_bounded jd).2.1⟩

/-- Both nutation matrices move vectors by less than 29 arcseconds. -/
private theorem nutation_small (jd : ℝ) (x : Vec) :
    vnorm (nutationMatrix jd *ᵥ x - x) ≤ 4.8482e-6 * 28.92 * vnorm x ∧
    vnorm (standardNutation (rad (meanObliquity jd)) (rad (apparentObliquity jd))
      (arcsec (nutationComponents jd).1) *ᵥ x - x) ≤ 4.8482e-6 * 28.92 * vnorm x := by
  have hp := arcsec_le (C82_nutation_bounded jd).1
  obtain ⟨he, he'⟩ := eps_near jd
  have h0 := vnorm_nonneg x
  constructor
  · have e : nutationMatrix jd = R1 (-trueEps jd) *
        (R2 (-arcsec (nutationComponents jd).1) * R1 (meanEps jd)) := by
      unfold nutationMatrix; rw [nutationOf_eq]; rfl
    rw [e]
    have hm : ∀ z, vnorm (R2 (-arcsec (nutationComponents jd).1) *ᵥ z - z) ≤
        |arcsec (nutationComponents jd).1| * vnorm z := fun z => by
      have := R2_near (-arcsec (nutationComponents jd).1) 0 z
      rwa [R2_zero, Matrix.one_mulVec, sub_zero, abs_neg] at this
    refine (sandwich _ _ hm x).trans (mul_le_mul_of_nonneg_right ?_ h0)
    linarith
  · have hm : ∀ z, vnorm (R3 (-arcsec (nutationComponents jd).1) *ᵥ z - z) ≤
        |arcsec (nutationComponents jd).1| * vnorm z := fun z => by
      have := R3_near (-arcsec (nutationComponents jd).1) 0 z
      rwa [R3_zero, Matrix.one_mulVec, sub_zero, abs_neg] at this
    refine (sandwich _ _ hm x).trans (mul_le_mul_of_nonneg_right ?_ h0)
    linarith

private theorem vnorm_le_of_dot {u v : Vec} {d : ℝ} (h : u ⬝ᵥ u ≤ d ^ 2 * (v ⬝ᵥ v)) :
    vnorm u ≤ |d| * vnorm v := by
  rw [← vnorm_smul]
  unfold vnorm
  apply Real.sqrt_le_sqrt
  rw [smul_dotProduct, dotProduct_smul, smul_eq_mul, smul_eq_mul]
  linarith

private theorem one_sub_cos_le {x m : ℝ} (h : |x| ≤ m) : |1 - Real.cos x| ≤ |x| * (m / 2) := by
  have h1 := Real.one_sub_sq_div_two_le_cos (x := x)
  have h2 := Real.cos_le_one x
  rw [abs_of_nonneg (by linarith)]
  have : x ^ 2 = |x| * |x| := by rw [← abs_mul, abs_of_nonneg (mul_self_nonneg x)]; ring
  have := mul_le_mul_of_nonneg_left h (abs_nonneg x)
  linarith

/-- Rotations by small angles about the second and third axes almost commute. -/
private theorem almost_commute {a b : ℝ} (ha : |a| ≤ 0.01) (hb : |b| ≤ 0.023) (x : Vec) :
    vnorm (R2 a *ᵥ (R3 b *ᵥ x) - R3 b *ᵥ (R2 a *ᵥ x)) ≤ 1.0165 * (|a| * |b|) * vnorm x := by
  set s := Real.sin a
  set S := Real.sin b
  set p := 1 - Real.cos a
  set q := 1 - Real.cos b
  have e : R2 a *ᵥ (R3 b *ᵥ x) - R3 b *ᵥ (R2 a *ᵥ x) =
      ![0, -(S * s) * x 2, S * s * x 1] + (![-(p * S) * x 1, -(p * S) * x 0, 0] +
        ![-(s * q) * x 2, 0, -(s * q) * x 0]) := by
    ext i
    fin_cases i <;>
      simp [R2, R3, Matrix.mulVec, dotProduct, Fin.sum_univ_three, s, S, p, q] <;> ring
  have xx : x ⬝ᵥ x = x 0 ^ 2 + x 1 ^ 2 + x 2 ^ 2 := by
    simp only [dotProduct, Fin.sum_univ_three]; ring
  have n1 : vnorm ![0, -(S * s) * x 2, S * s * x 1] ≤ |S * s| * vnorm x := by
    apply vnorm_le_of_dot
    rw [xx]
    simp only [dotProduct, Fin.sum_univ_three, Matrix.cons_val_zero, Matrix.cons_val_one,
      Matrix.cons_val]
    linarith [mul_nonneg (sq_nonneg (S * s)) (sq_nonneg (x 0))]
  have n2 : vnorm ![-(p * S) * x 1, -(p * S) * x 0, 0] ≤ |p * S| * vnorm x := by
    apply vnorm_le_of_dot
    rw [xx]
    simp only [dotProduct, Fin.sum_univ_three, Matrix.cons_val_zero, Matrix.cons_val_one,
      Matrix.cons_val]
    linarith [mul_nonneg (sq_nonneg (p * S)) (sq_nonneg (x 2))]
  have n3 : vnorm ![-(s * q) * x 2, 0, -(s * q) * x 0] ≤ |s * q| * vnorm x := by
    apply vnorm_le_of_dot
    rw [xx]
    simp only [dotProduct, Fin.sum_univ_three, Matrix.cons_val_zero, Matrix.cons_val_one,
      Matrix.cons_val]
    linarith [mul_nonneg (sq_nonneg (s * q)) (sq_nonneg (x 1))]
  have hs : |s| ≤ |a| := Real.abs_sin_le_abs
  have hS : |S| ≤ |b| := Real.abs_sin_le_abs
  have hp : |p| ≤ |a| * (0.01 / 2) := one_sub_cos_le ha
  have hq : |q| ≤ |b| * (0.023 / 2) := one_sub_cos_le hb
  have m1 : |S * s| ≤ |b| * |a| := by rw [abs_mul]; gcongr
  have m2 : |p * S| ≤ |a| * (0.01 / 2) * |b| := by rw [abs_mul]; gcongr
  have m3 : |s * q| ≤ |a| * (|b| * (0.023 / 2)) := by rw [abs_mul]; gcongr
  rw [e]
  refine (vnorm_add_le _ _).trans ?_
  have t := vnorm_add_le ![-(p * S) * x 1, -(p * S) * x 0, 0] ![-(s * q) * x 2, 0, -(s * q) * x 0]
  have key : |S * s| + |p * S| + |s * q| ≤ 1.0165 * (|a| * |b|) := by linarith
  have := mul_le_mul_of_nonneg_right key (vnorm_nonneg x)
  linarith

/-- The precession angles and the difference of two of them. -/
private theorem precession_angles {n jd : ℝ} (h : WithinCenturies n jd) (hn : n ≤ 1) :
    |zetaPrecession jd| ≤ 2.598 + 2306.402 * n ∧ |thetaPrecession jd| ≤ 2004.7 * n ∧
    |zetaPrecession jd - zPrecession jd| ≤ 6.1 := by
  have ht := h.centuries
  have n0 : 0 ≤ n := (abs_nonneg _).trans ht
  unfold zetaPrecession thetaPrecession zPrecession
  simp only
  set t := centuries jd
  have hp : ∀ k : ℕ, -n ≤ t ^ (k + 1) ∧ t ^ (k + 1) ≤ n := fun k =>
    abs_le.1 (by
      rw [abs_pow, pow_succ]
      calc |t| ^ k * |t| ≤ 1 * n := by
            gcongr
            exact pow_le_one₀ (abs_nonneg _) (ht.trans hn)
        _ = n := one_mul n)
  have h1 := abs_le.1 ht
  have h2 := hp 1
  have h3 := hp 2
  have h4 := hp 3
  have h5 := hp 4
  norm_num only at h2 h3 h4 h5
  refine ⟨?_, ?_, ?_⟩ <;> rw [abs_le] <;> constructor <;>
    linarith [h1.1, h1.2, h2.1, h2.2, h3.1, h3.2, h4.1, h4.2, h5.1, h5.2]

theorem R3_turn (a : ℝ) (k : ℤ) : R3 (a + 2 * Real.pi * k) = R3 a := by
  unfold R3
  rw [show a + 2 * Real.pi * k = a + k * (2 * Real.pi) by ring, Real.cos_add_int_mul_two_pi,
    Real.sin_add_int_mul_two_pi]

private theorem sidereal_angle {jd : ℝ} (h : WithinCenturies 1 jd) : ∃ (k : ℤ) (d : ℝ),
    |d| ≤ 4.8482e-6 * 21.12 ∧ rad (15 * gast jd) = rad (earthRotationAngle jd) +
      (arcsec (zetaPrecession jd) + arcsec (zPrecession jd)) + d + 2 * Real.pi * k := by
  obtain ⟨k, hk⟩ := C85_sidereal_time_is_rotation_plus_precession jd h
  refine ⟨k, arcsec (3600 * (15 * gmst jd - earthRotationAngle jd -
      (zetaPrecession jd + zPrecession jd) / 3600 - 360 * k) +
    (nutationComponents jd).1 * Real.cos (rad (apparentObliquity jd))), ?_, ?_⟩
  · apply arcsec_le
    refine (abs_add_le _ _).trans ?_
    rw [abs_mul, abs_mul, abs_of_pos (by norm_num : (0 : ℝ) < 3600)]
    have h1 := mul_le_mul (C82_nutation_bounded jd).1
      (Real.abs_cos_le_one (rad (apparentObliquity jd))) (abs_nonneg _) (by norm_num)
    linarith
  · unfold gast equationOfEquinoxes arcsec rad
    ring

/-! ### C134 -/

/-- C134: at every instant at most `n ≤ 1` centuries from J2000, and for every GCRS position, the
ITRS position that celest computes is within 0.00042 + 0.00023 n² radians (0.024 to 0.038 degrees)
of the one of the standard reduction: the wrong sign in the precession matrix (C86) makes up for the
Earth rotation angle that stands where sidereal time belongs (C85), and the wrong axis of nutation
(C87) costs less than a minute of arc. -/
theorem C134_near_standard_reduction_partial (n jd : ℝ) (h : WithinCenturies n jd) (hn : n ≤ 1)
    (v : Vec) :
    dist (toE (gcrsToItrs1 jd v)) (toE (standardItrs jd v)) ≤
      (0.00042 + 0.00023 * n ^ 2) * ‖toE v‖ := by
  have n0 : 0 ≤ n := (abs_nonneg _).trans h.centuries
  have h1 : WithinCenturies 1 jd := by unfold WithinCenturies at h ⊢; linarith
  obtain ⟨k, d, hd, hg⟩ := sidereal_angle h1
  obtain ⟨hz, ht, hzz⟩ := precession_angles h hn
  rw [dist_toE, norm_toE]
  set E := rad (earthRotationAngle jd)
  set ζ := arcsec (zetaPrecession jd)
  set z := arcsec (zPrecession jd)
  set θ := arcsec (thetaPrecession jd)
  have bζ : |ζ| ≤ 4.8482e-6 * (2.598 + 2306.402 * n) := arcsec_le hz
  have bθ : |θ| ≤ 4.8482e-6 * (2004.7 * n) := arcsec_le ht
  have bζz : |ζ - z| ≤ 4.8482e-6 * 6.1 := by
    have := arcsec_le hzz
    rwa [show arcsec (zetaPrecession jd - zPrecession jd) = ζ - z by
      simp only [ζ, z]; unfold arcsec rad; ring] at this
  set w := biasMatrix *ᵥ v
  have hw : vnorm w = vnorm v := bias_rotation.vnorm v
  set x := R3 ζ *ᵥ w
  have hx : vnorm x = vnorm v := ((R3_rotation _).vnorm w).trans hw
  -- the code
  have c0 : gcrsToItrs1 jd v = R3 E *ᵥ (nutationMatrix jd *ᵥ (precessionMatrix jd *ᵥ w)) := by
    unfold gcrsToItrs1
    rw [rotateEra_eq]
    congr 2
    simp only [E]; unfold rad; ring
  have c1 : precessionMatrix jd *ᵥ w = R3 (-z) *ᵥ (R2 θ *ᵥ x) := by
    unfold precessionMatrix
    rw [precessionOf_eq]
    simp only [← Matrix.mulVec_mulVec]
    rfl
  have c2 : vnorm (gcrsToItrs1 jd v - R3 (E - z) *ᵥ (R2 θ *ᵥ x)) ≤
      4.8482e-6 * 28.92 * vnorm v := by
    have e : R3 (E - z) *ᵥ (R2 θ *ᵥ x) = R3 E *ᵥ (precessionMatrix jd *ᵥ w) := by
      rw [c1, Matrix.mulVec_mulVec (R2 θ *ᵥ x), R3_add, ← sub_eq_add_neg]
    rw [c0, e, ← Matrix.mulVec_sub, (R3_rotation _).vnorm]
    have := (nutation_small jd (precessionMatrix jd *ᵥ w)).1
    rwa [(precession_rotation jd).vnorm, hw] at this
  -- the standard reduction
  set G := rad (15 * gast jd)
  have s1 : standardPrecession ζ θ z *ᵥ w = R3 (-z) *ᵥ (R2 θ *ᵥ (R3 (-(2 * ζ)) *ᵥ x)) := by
    unfold standardPrecession
    have e : R3 (-(2 * ζ)) *ᵥ x = R3 (-ζ) *ᵥ w := by
      rw [show -ζ = -(2 * ζ) + ζ by ring, ← R3_add, ← Matrix.mulVec_mulVec]
    rw [e]
    simp only [← Matrix.mulVec_mulVec]
  have s2 : vnorm (standardItrs jd v - R3 (G - z) *ᵥ (R2 θ *ᵥ (R3 (-(2 * ζ)) *ᵥ x))) ≤
      4.8482e-6 * 28.92 * vnorm v := by
    have e : R3 (G - z) *ᵥ (R2 θ *ᵥ (R3 (-(2 * ζ)) *ᵥ x)) =
        R3 G *ᵥ (standardPrecession ζ θ z *ᵥ w) := by
      rw [s1, Matrix.mulVec_mulVec (R2 θ *ᵥ _), R3_add, ← sub_eq_add_neg]
    rw [e]
    unfold standardItrs
    rw [← Matrix.mulVec_sub, (R3_rotation _).vnorm]
    have := (nutation_small jd (standardPrecession ζ θ z *ᵥ w)).2
    rwa [(standardPrecession_rotation _ _ _).vnorm, hw] at this
  have hζ2 : |-(2 * ζ)| = 2 * |ζ| := by rw [abs_neg, abs_mul]; norm_num
  have s3 : vnorm (R3 (G - z) *ᵥ (R2 θ *ᵥ (R3 (-(2 * ζ)) *ᵥ x)) -
      R3 (G - z - 2 * ζ) *ᵥ (R2 θ *ᵥ x)) ≤ 1.0165 * (|θ| * (2 * |ζ|)) * vnorm v := by
    rw [sub_eq_add_neg (G - z), ← R3_add, ← Matrix.mulVec_mulVec, ← Matrix.mulVec_sub,
      (R3_rotation _).vnorm, ← hx, ← hζ2]
    apply almost_commute
    · linarith
    · rw [hζ2]; linarith
  have s4 : vnorm (R3 (G - z - 2 * ζ) *ᵥ (R2 θ *ᵥ x) - R3 (E - z) *ᵥ (R2 θ *ᵥ x)) ≤
      4.8482e-6 * 27.22 * vnorm v := by
    have e : G - z - 2 * ζ = (E - ζ + d) + 2 * Real.pi * k := by rw [hg]; ring
    rw [e, R3_turn]
    refine (R3_near _ _ _).trans ?_
    rw [(R2_rotation _).vnorm, hx]
    apply mul_le_mul_of_nonneg_right _ (vnorm_nonneg v)
    have := abs_sub d (ζ - z)
    rw [show E - ζ + d - (E - z) = d - (ζ - z) by ring]
    linarith
  have hc : |θ| * |ζ| ≤ 4.8482e-6 * (2004.7 * n) * (4.8482e-6 * (2.598 + 2306.402 * n)) :=
    mul_le_mul bθ bζ (abs_nonneg _) (by positivity)
  have t1 := vnorm_triangle (gcrsToItrs1 jd v) (R3 (E - z) *ᵥ (R2 θ *ᵥ x)) (standardItrs jd v)
  have t2 := vnorm_triangle (R3 (E - z) *ᵥ (R2 θ *ᵥ x)) (R3 (G - z - 2 * ζ) *ᵥ (R2 θ *ᵥ x))
    (standardItrs jd v)
  have t3 := vnorm_triangle (R3 (G - z - 2 * ζ) *ᵥ (R2 θ *ᵥ x))
    (R3 (G - z) *ᵥ (R2 θ *ᵥ (R3 (-(2 * ζ)) *ᵥ x))) (standardItrs jd v)
  rw [vnorm_comm] at s4 s3 s2
  have key : 4.8482e-6 * 28.92 + 4.8482e-6 * 27.22 + 1.0165 * (|θ| * (2 * |ζ|)) +
      4.8482e-6 * 28.92 ≤ 0.00042 + 0.00023 * n ^ 2 := by
    nlinarith
  have := mul_le_mul_of_nonneg_right key (vnorm_nonneg v)
  linarith

/-- C134: the same for the way back: the GCRS position computed from the ITRS position of the
standard reduction is as near to the position started from. -/
theorem C134_near_standard_reduction_back_partial (n jd : ℝ) (h : WithinCenturies n jd)
    (hn : n ≤ 1) (v : Vec) :
    dist (toE (itrsToGcrs1 jd (standardItrs jd v))) (toE v) ≤
      (0.00042 + 0.00023 * n ^ 2) * ‖toE v‖ := by
  obtain ⟨-, -, -, -, -, hd, -⟩ := C47_rotations jd
  have e := hd (standardItrs jd v) (gcrsToItrs1 jd v)
  rw [gcrs_itrs1] at e
  rw [e, dist_comm]
  exact C134_near_standard_reduction_partial n jd h hn v

private theorem nutation_at_J2000 : (nutationComponents 2451545).1 < -8 := by
  have hp := Real.pi_pos
  have h0 : centuries 2451545 = 0 := by unfold centuries; norm_num
  have hn : ascendingNode 2451545 = 125.04452 := by
    unfold ascendingNode
    simp only [h0]
    rw [fmod_self] <;> norm_num
  unfold nutationComponents nutationInLongitude
  simp only [hn]
  have a2 := abs_le.1 (Real.abs_sin_le_one (2 * rad (sunLongitude 2451545)))
  have a3 := abs_le.1 (Real.abs_sin_le_one (2 * rad (moonLongitude 2451545)))
  have a4 := abs_le.1 (Real.abs_sin_le_one (2 * rad 125.04452))
  have hs : 0.6 ≤ Real.sin (rad 125.04452) := by
    have e : Real.sin (rad 125.04452) = Real.sin (rad 54.95548) := by
      rw [← Real.sin_pi_sub]; congr 1; unfold rad; ring
    rw [e]
    have := Real.mul_le_sin (x := rad 54.95548) (by unfold rad; positivity)
      (by unfold rad; linarith)
    refine le_trans ?_ this
    unfold rad
    rw [div_mul_eq_mul_div, le_div_iff₀ hp]
    linarith
  linarith [a2.1, a3.1, a4.2]

/-- C134 (failure): the two are not the same: at J2000 the position over the mean pole, at any
distance, gets another third coordinate than by the standard reduction. -/
theorem C134_not_the_standard_reduction (r : ℝ) (hr : r ≠ 0) (v : Vec)
    (hv : biasMatrix *ᵥ v = ![0, 0, r]) :
    gcrsToItrs1 2451545 v 2 ≠ standardItrs 2451545 v 2 := by
  have h0 : centuries 2451545 = 0 := by unfold centuries; norm_num
  have hθ : arcsec (thetaPrecession 2451545) = 0 := by
    unfold thetaPrecession arcsec rad; rw [h0]; norm_num
  have hm : meanEps 2451545 = rad (meanObliquity 2451545) := by
    unfold meanEps epsA; rw [h0]; congr 1; ring
  have ht : trueEps 2451545 = rad (apparentObliquity 2451545) := by
    unfold trueEps epsA apparentObliquity; rw [h0]; congr 1; ring
  have hmo : meanObliquity 2451545 = 84381.448 / 3600 := by
    unfold meanObliquity; simp only [h0]; norm_num
  have hax : ∀ a, R3 a *ᵥ ![0, 0, r] = ![0, 0, r] := fun a => by
    ext i; fin_cases i <;> simp [R3, Matrix.mulVec, dotProduct, Fin.sum_univ_three]
  have hth : ∀ a (w : Vec), (R3 a *ᵥ w) 2 = w 2 := fun a w => by
    simp [R3, Matrix.mulVec, dotProduct, Fin.sum_univ_three]
  set ψ := arcsec (nutationComponents 2451545).1
  have hψ : Real.sin ψ ≠ 0 := arcsec_small (by linarith [nutation_at_J2000])
    ((C82_nutation_bounded _).1.trans (by norm_num))
  set ε := rad (meanObliquity 2451545)
  set ε' := rad (apparentObliquity 2451545)
  have c : gcrsToItrs1 2451545 v 2 = r * (Real.sin ε * Real.sin ε' +
      Real.cos ψ * (Real.cos ε * Real.cos ε')) := by
    unfold gcrsToItrs1
    rw [rotateEra_eq, hth, hv]
    unfold precessionMatrix nutationMatrix
    rw [precessionOf_eq, hθ, R2_zero, one_mul, R3_add, hax, nutationOf_eq]
    change ((R1 (-trueEps 2451545) * (R2 (-ψ) * R1 (meanEps 2451545))) *ᵥ ![0, 0, r]) 2 = _
    rw [hm, ht]
    simp only [← Matrix.mulVec_mulVec]
    simp [R1, R2, Matrix.mulVec, dotProduct, Fin.sum_univ_three]
    ring
  have d : standardItrs 2451545 v 2 = r * (Real.cos ψ * (Real.sin ε * Real.sin ε') +
      Real.cos ε * Real.cos ε') := by
    unfold standardItrs
    rw [hth, hv]
    unfold standardPrecession standardNutation
    rw [hθ, R2_zero, one_mul, R3_add, hax]
    simp only [← Matrix.mulVec_mulVec]
    simp [R1, R3, Matrix.mulVec, dotProduct, Fin.sum_univ_three]
    ring
  rw [c, d]
  intro e
  have e := mul_left_cancel₀ hr e
  have hcos : 0 < Real.cos (ε + ε') := by
    have hn := abs_le.1 (C82_nutation_bounded 2451545).2.1
    have hp := Real.pi_pos
    have hε' : ε' = (84381.448 + (nutationComponents 2451545).2) / 3600 * (Real.pi / 180) := by
      simp only [ε']; unfold apparentObliquity rad; rw [hmo]; ring
    have hε : ε = 84381.448 / 3600 * (Real.pi / 180) := by simp only [ε]; rw [hmo]; rfl
    apply Real.cos_pos_of_mem_Ioo
    rw [hε, hε']
    constructor <;> nlinarith
  have h1 : (1 - Real.cos ψ) * Real.cos (ε + ε') = 0 := by
    rw [Real.cos_add]; linear_combination -e
  rcases mul_eq_zero.1 h1 with h2 | h2
  · have := Real.sin_sq_add_cos_sq ψ
    rw [← sub_eq_zero.1 h2] at this
    exact hψ (by nlinarith)
  · exact hcos.ne' h2

/-- Non-vacuity for C134: there is such a position, and the instants range over two centuries. -/
example : (∃ v : Vec, biasMatrix *ᵥ v = ![0, 0, 7000]) ∧ WithinCenturies 1 (2451545 - 36525) :=
  ⟨⟨biasMatrix⁻¹ *ᵥ ![0, 0, 7000], bias_rotation.mulVec_inv _⟩, by
    unfold WithinCenturies; norm_num [abs_le]⟩

/-- C86 (failure): by itself the precession matrix is far from the standard one: it puts a
position off by 2 sin ζ times its distance from the polar axis of J2000. -/
theorem C86_displacement (jd : ℝ) (v : Vec) :
    dist (toE (precessionMatrix jd *ᵥ v)) (toE (standardPrecession (arcsec (zetaPrecession jd))
      (arcsec (thetaPrecession jd)) (arcsec (zPrecession jd)) *ᵥ v)) =
      2 * |Real.sin (arcsec (zetaPrecession jd))| * √(v 0 ^ 2 + v 1 ^ 2) := by
  unfold precessionMatrix standardPrecession
  rw [precessionOf_eq, dist_toE]
  simp only [← Matrix.mulVec_mulVec]
  rw [← Matrix.mulVec_sub, (R3_rotation _).vnorm, ← Matrix.mulVec_sub, (R2_rotation _).vnorm]
  set s := Real.sin (arcsec (zetaPrecession jd)) with hs
  unfold vnorm
  have e : (R3 (arcsec (zetaPrecession jd)) *ᵥ v - R3 (-arcsec (zetaPrecession jd)) *ᵥ v) ⬝ᵥ
      (R3 (arcsec (zetaPrecession jd)) *ᵥ v - R3 (-arcsec (zetaPrecession jd)) *ᵥ v) =
      (2 * s) ^ 2 * (v 0 ^ 2 + v 1 ^ 2) := by
    simp [R3, dotProduct, Fin.sum_univ_three, Real.sin_neg, Real.cos_neg, ← hs]; ring
  rw [e, Real.sqrt_mul (sq_nonneg _), Real.sqrt_sq_eq_abs, abs_mul, abs_two]

/-- C86 (failure): the displacement is large: at every instant from 2020 to 2100 it exceeds 0.0044 times the
distance from the axis, 30 km for an equatorial orbit at 7000 km. -/
theorem C86_displacement_large (jd : ℝ) (h0 : 2451545 + 7305 ≤ jd)
    (h1 : jd ≤ 2451545 + 36525) (v : Vec) :
    0.0044 * √(v 0 ^ 2 + v 1 ^ 2) ≤
      dist (toE (precessionMatrix jd *ᵥ v)) (toE (standardPrecession (arcsec (zetaPrecession jd))
        (arcsec (thetaPrecession jd)) (arcsec (zPrecession jd)) *ᵥ v)) := by
  rw [C86_displacement]
  apply mul_le_mul_of_nonneg_right _ (Real.sqrt_nonneg _)
  have ht0 : 0.2 ≤ centuries jd := by
    unfold centuries; rw [le_div_iff₀ (by norm_num)]; linarith
  have ht1 : centuries jd ≤ 1 := by
    unfold centuries; rw [div_le_one (by norm_num)]; linarith
  have hz : 463 ≤ zetaPrecession jd ∧ zetaPrecession jd ≤ 2310 := by
    have hp : ∀ n : ℕ, 0 ≤ centuries jd ^ n ∧ centuries jd ^ n ≤ 1 := fun n =>
      ⟨pow_nonneg (by linarith) n, pow_le_one₀ (by linarith) ht1⟩
    have h2 := hp 2
    have h3 := hp 3
    have h4 := hp 4
    have h5 := hp 5
    unfold zetaPrecession
    simp only
    constructor <;> linarith [h2.1, h2.2, h3.1, h3.2, h4.1, h4.2, h5.1, h5.2]
  have e : arcsec (zetaPrecession jd) = Real.pi / 648000 * zetaPrecession jd := by
    unfold arcsec rad; ring
  have hp := Real.pi_gt_d4
  have hp' := Real.pi_lt_d4
  have l : 0.00224 ≤ arcsec (zetaPrecession jd) := by rw [e]; nlinarith
  have r : arcsec (zetaPrecession jd) ≤ 0.0113 := by rw [e]; nlinarith
  have := Real.sin_gt_sub_cube (x := arcsec (zetaPrecession jd)) (by linarith)
  have hs : 0.0022 ≤ Real.sin (arcsec (zetaPrecession jd)) := by
    set x := arcsec (zetaPrecession jd)
    have : x ^ 3 ≤ x * 0.0113 ^ 2 := by
      have := mul_le_mul_of_nonneg_left (pow_le_pow_left₀ (by linarith) r 2) (by linarith : 0 ≤ x)
      linarith
    linarith
  rw [abs_of_nonneg (by linarith)]
  linarith

end Celest.Frames
