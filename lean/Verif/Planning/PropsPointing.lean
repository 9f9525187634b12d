/-
C145: pointing and distance against the standard reduction.
-/
import Verif.Planning.PropsStandard
import Verif.Frames.PropsRoundedAttitude

namespace Celest.Windows

open Celest.Frames Celest.TimeScale Matrix

/-! ### Specification -/

/-- The inertial direction a camera looks along, for a satellite at inertial position `p` with
inertial velocity `w`, after turning by roll, pitch and yaw from nadir. -/
noncomputable def cameraDirection (p w : Vec) (a : ℝ × ℝ × ℝ) : Vec :=
  (lvlhMatrix p w)⁻¹ *ᵥ ((R3 a.2.2 * (R1 a.1 * R2 a.2.1)) *ᵥ ![0, 0, 1])

/-- The point at distance `d` along the line of sight of the camera. -/
noncomputable def cameraPoint (unit : ℝ) (p w : Vec) (a : ℝ × ℝ × ℝ) (d : ℝ) : Vec :=
  unit • p + d • cameraDirection p w a

/-! ### Lemmas -/

theorem standardItrs_rotation (t : ℝ) : ∃ m, Rotation m ∧ ∀ v, standardItrs t v = m *ᵥ v := by
  refine ⟨_, (R3_rotation (rad (15 * gast t))).mul ((standardNutation_rotation
    (rad (meanObliquity t)) (rad (apparentObliquity t)) (arcsec (nutationComponents t).1)).mul
    ((standardPrecession_rotation (arcsec (zetaPrecession t)) (arcsec (thetaPrecession t))
      (arcsec (zPrecession t))).mul bias_rotation)), fun v => ?_⟩
  simp only [← Matrix.mulVec_mulVec]
  rfl

theorem vnorm_standardItrs (t : ℝ) (v : Vec) : vnorm (standardItrs t v) = vnorm v := by
  obtain ⟨m, hm, he⟩ := standardItrs_rotation t
  rw [he, hm.vnorm]

/-- Where celest puts a station, against the standard reduction. -/
theorem station_standard {g : Ground} {t : ℝ} {q : Vec} (ht : ThisCentury t)
    (hq : standardItrs t q = g.itrs) :
    vnorm (stationAt g t - q) ≤ 0.00065 * vnorm g.itrs := by
  have h := C134_near_standard_reduction_back_partial 1 t
    (by unfold WithinCenturies; rw [mul_one]; exact ht) le_rfl q
  rw [hq, dist_toE, norm_toE, ← vnorm_standardItrs t q, hq] at h
  refine h.trans (le_of_eq ?_)
  norm_num

/-- The camera looks from the satellite at where celest puts the station. -/
theorem camera_exact (t posUnit velUnit : ℝ) (p w : Vec) (g : Ground) (hp : 0 < posUnit)
    (hv : 0 < velUnit) (hstate : p ⨯₃ w ≠ 0) (hfar : vnorm g.itrs < vnorm (posUnit • p)) :
    cameraDirection p w (attitude t posUnit velUnit (gcrsToItrs1 t p) (gcrsToItrs1 t w) g) =
      (vnorm (stationAt g t - posUnit • p))⁻¹ • (stationAt g t - posUnit • p) := by
  have e1 := gcrs_itrs1 t p
  have e2 := gcrs_itrs1 t w
  have hR := lvlh_rotation p w hstate
  obtain ⟨m, hm, he⟩ := gcrsToItrs1_rotation t
  have h7 := (C49_points_at_target t posUnit velUnit (gcrsToItrs1 t p) (gcrsToItrs1 t w) g hp hv
    (by rw [e1, e2]; exact hstate) (by
      rw [norm_toE, norm_toE, vnorm_smul, he, hm.vnorm, ← vnorm_smul]
      exact hfar)).1
  have e3 : lineOfSight t posUnit (gcrsToItrs1 t p) (gcrsToItrs1 t w) g =
      lvlhMatrix p w *ᵥ (stationAt g t - posUnit • p) := by
    unfold lineOfSight
    rw [itrsToGcrs1_linear, e1, e2]
    rfl
  unfold cameraDirection
  rw [h7, e3, norm_toE, hR.vnorm, Matrix.mulVec_smul, hR.inv_mulVec]

theorem stationAt_far {t posUnit : ℝ} {p : Vec} {g : Ground}
    (hfar : vnorm g.itrs < vnorm (posUnit • p)) : 0 < vnorm (stationAt g t - posUnit • p) := by
  apply vnorm_pos
  intro h
  rw [sub_eq_zero] at h
  rw [← h, stationAt, vnorm_itrsToGcrs1] at hfar
  exact lt_irrefl _ hfar

/-! ### Theorems -/

/-- **C145, partial.** Turned as `attitude` says, the camera of a satellite farther from the centre of
the Earth than the target looks at a point within 0.00065 of the distance of the target from the
centre of the Earth of where the standard reduction puts the target.  Missing: that leeway, about
4.2 km for a target on the ground. -/
theorem C145_aim_partial (t posUnit velUnit : ℝ) (p w : Vec) (g : Ground) (ht : ThisCentury t)
    (hp : 0 < posUnit) (hv : 0 < velUnit) (hstate : p ⨯₃ w ≠ 0)
    (hfar : ‖toE g.itrs‖ < ‖toE (posUnit • p)‖) (q : Vec) (hq : standardItrs t q = g.itrs) :
    ∃ d > 0, dist (toE (cameraPoint posUnit p w
      (attitude t posUnit velUnit (gcrsToItrs1 t p) (gcrsToItrs1 t w) g) d)) (toE q) ≤
        0.00065 * ‖toE g.itrs‖ := by
  rw [norm_toE, norm_toE] at hfar
  have hd := stationAt_far (t := t) hfar
  refine ⟨_, hd, ?_⟩
  unfold cameraPoint
  rw [camera_exact t posUnit velUnit p w g hp hv hstate hfar, smul_smul, mul_inv_cancel₀ hd.ne',
    one_smul, add_sub_cancel, dist_toE, norm_toE]
  exact station_standard ht hq

/-- **C145, partial.** The same in double precision, for a state given in ITRS: the camera looks at a
point that is farther off by at most `1.6e-8` of the distance of the satellite from the centre of the
Earth. -/
theorem C145_aim_rounded_partial {M : Machine} {pw : ℝ → ℕ → ℝ} {A : Trig}
    {arcsin : ℝ → ℝ} {jd : ℝ} {r v : Vec} {s : Site} (S : Setup M pw (1 / 2 ^ 53))
    (hA : A.Accurate (1 / 2 ^ 53))
    (has : ∀ x, |x| ≤ 1 → |arcsin x - Real.arcsin x| ≤ 4 * (1 / 2 ^ 53)) (hs : s.Valid)
    (ht : ThisCentury jd) (hv : v ≠ 0) (hh : vnorm r * vnorm v ≤ 2 * vnorm (r ⨯₃ v))
    (hfar : vnorm s.ground.itrs < vnorm r)
    (hnear : distance r s.ground ≤ vnorm r) (hrange : vnorm r ≤ 9000 * distance r s.ground)
    {l : ℝ} (hl : lookAngle r s.ground = some l) (hl78 : l ≤ 78)
    (q : Vec) (hq : standardItrs jd q = s.ground.itrs) :
    ∃ a, Rounded.attitude M pw A arcsin jd r v s = some a ∧ ∃ d > 0,
      dist (toE (cameraPoint 1 (itrsToGcrs1 jd r) (itrsToGcrs1 jd v) a d)) (toE q) ≤
        0.00065 * ‖toE s.ground.itrs‖ + 1.6 / 10 ^ 8 * ‖toE r‖ := by
  obtain ⟨a, ha, hb⟩ := C126_aim (jd := jd) S hA has hs hv hh hfar hnear hrange hl hl78
  have hne : r ≠ s.ground.itrs := by
    intro h0
    rw [h0] at hfar
    exact lt_irrefl _ hfar
  refine ⟨a, ha, distance r s.ground, vnorm_pos (sub_ne_zero.2 hne), ?_⟩
  have hr : r ≠ 0 := by
    rintro rfl
    rw [(vnorm_eq_zero 0).2 rfl] at hfar
    exact absurd hfar (not_lt.2 (vnorm_nonneg _))
  have hstate : itrsToGcrs1 jd r ⨯₃ itrsToGcrs1 jd v ≠ 0 := by
    have hR := (exactAngles jd).rotation_rotation.inv
    rw [exact_inverse, exact_inverse, ← hR.cross]
    intro h0
    have := hR.vnorm (r ⨯₃ v)
    rw [h0, (vnorm_eq_zero 0).2 rfl] at this
    exact (vnorm_pos (momentum_pos hr hv hh)).ne this
  have hR := lvlh_rotation _ _ hstate
  have e : lineOfSight jd 1 r v s.ground = lvlhMatrix (itrsToGcrs1 jd r) (itrsToGcrs1 jd v) *ᵥ
      (stationAt s.ground jd - itrsToGcrs1 jd r) := by
    unfold lineOfSight
    rw [itrsToGcrs1_linear, one_smul]
    rfl
  rw [dist_toE, norm_toE, norm_toE]
  have h1 := station_standard ht hq
  have h2 : vnorm (cameraPoint 1 (itrsToGcrs1 jd r) (itrsToGcrs1 jd v) a (distance r s.ground) -
      stationAt s.ground jd) ≤ 1.6 / 10 ^ 8 * vnorm r := by
    refine le_trans (le_of_eq ?_) hb
    rw [← hR.vnorm, e]
    congr 1
    unfold cameraPoint cameraDirection
    rw [one_smul, Matrix.mulVec_sub, Matrix.mulVec_add, Matrix.mulVec_smul, hR.mulVec_inv,
      Matrix.mulVec_sub]
    unfold aimed
    abel
  have h3 := vnorm_add_le (cameraPoint 1 (itrsToGcrs1 jd r) (itrsToGcrs1 jd v) a
    (distance r s.ground) - stationAt s.ground jd) (stationAt s.ground jd - q)
  rw [sub_add_sub_cancel] at h3
  linarith

/-- The further hypotheses of `C145_aim_rounded_partial` are those of `C126_aim`, which its example
meets at this instant and target. -/
example : ThisCentury 2460311.25 ∧ ∃ q, standardItrs 2460311.25 q = equator.ground.itrs := by
  obtain ⟨q, h, -⟩ := standardItrs_surjective 2460311.25 equator.ground.itrs
  exact ⟨by norm_num [ThisCentury, abs_le], q, h⟩

theorem distance_station (t : ℝ) (p : Vec) (g : Ground) :
    distance (gcrsToItrs1 t p) g = vnorm (p - stationAt g t) := by
  obtain ⟨m, hm, he⟩ := gcrsToItrs1_rotation t
  rw [distance, ← hm.vnorm (p - _), Matrix.mulVec_sub, ← he, ← he, stationAt, itrs_gcrs1]

/-- **C145, partial.** The distance celest reports is that to where the standard reduction puts the
target, but for 0.00065 of the distance of the target from the centre of the Earth. -/
theorem C145_distance_partial (t : ℝ) (p : Vec) (g : Ground) (ht : ThisCentury t) (q : Vec)
    (hq : standardItrs t q = g.itrs) :
    |distance (gcrsToItrs1 t p) g - dist (toE p) (toE q)| ≤ 0.00065 * ‖toE g.itrs‖ := by
  have h := station_standard ht hq
  have h1 := vnorm_add_le (p - stationAt g t) (stationAt g t - q)
  have h2 := vnorm_add_le (p - q) (q - stationAt g t)
  rw [sub_add_sub_cancel] at h1 h2
  rw [vnorm_sub_comm q] at h2
  rw [distance_station, dist_toE, norm_toE, abs_le]
  constructor <;> linarith

theorem lookAngle_station (t : ℝ) (p : Vec) (g : Ground) :
    lookAngle (gcrsToItrs1 t p) g = getAng (p - stationAt g t) p := by
  obtain ⟨m, hm, he⟩ := gcrsToItrs1_rotation t
  have e : gcrsToItrs1 t p - g.itrs = m *ᵥ (p - stationAt g t) := by
    rw [Matrix.mulVec_sub, ← he, ← he, stationAt, itrs_gcrs1]
  unfold lookAngle getAng
  rw [e, he, hm.vnorm, hm.vnorm, hm.dot]

/-- **C145, partial.** The look angle celest reports is that of where the standard reduction puts the
target, but for 0.0585 degrees times the ratio of the distances of the target from the centre of the
Earth and from the satellite. -/
theorem C145_look_angle_partial (t : ℝ) (p : Vec) (g : Ground) (ht : ThisCentury t) (hp : p ≠ 0)
    (q : Vec) (hq : standardItrs t q = g.itrs)
    (hfar : 0.00065 * ‖toE g.itrs‖ < dist (toE p) (toE q)) :
    ∃ a, lookAngle (gcrsToItrs1 t p) g = some a ∧
      |a - InnerProductGeometry.angle (toE p - toE q) (toE p) * (180 / Real.pi)| ≤
        0.0585 * (‖toE g.itrs‖ / dist (toE p) (toE q)) := by
  have hpi := Real.pi_pos
  have h := station_standard ht hq
  rw [norm_toE, dist_toE] at hfar ⊢
  have e0 : toE p - toE q = toE (p - q) := rfl
  have hne : p - stationAt g t ≠ 0 := by
    intro h0
    rw [sub_eq_zero] at h0
    rw [← h0] at h
    linarith
  rw [lookAngle_station, getAng_eq _ _ hne hp, e0]
  refine ⟨_, rfl, ?_⟩
  have h1 := angle_ratio (a := p - q) (b := p - stationAt g t) hfar (by
    rw [sub_sub_sub_cancel_left]
    exact h)
  rw [InnerProductGeometry.angle_comm] at h1
  have h2 := angle_diff (toE (p - stationAt g t)) (toE p) (toE (p - q)) (toE p)
  rw [InnerProductGeometry.angle_self (by
    intro h0
    apply (vnorm_pos hp).ne'
    rw [← norm_toE, h0, norm_zero]), add_zero] at h2
  rw [← sub_mul, abs_mul, abs_of_pos (a := 180 / Real.pi) (by positivity)]
  refine ((mul_le_mul_of_nonneg_right h2 (by positivity)).trans h1).trans (le_of_eq ?_)
  ring

/-- Concrete case for `C145_look_angle_partial`: geostationary distance, in every direction. -/
example (t : ℝ) (p : Vec) (ht : ThisCentury t) (hp : vnorm p = 42164) (q : Vec)
    (hq : standardItrs t q = equator.ground.itrs) :
    ∃ a, lookAngle (gcrsToItrs1 t p) equator.ground = some a ∧
      |a - InnerProductGeometry.angle (toE p - toE q) (toE p) * (180 / Real.pi)| ≤ 0.0109 := by
  have hg : vnorm equator.ground.itrs = 6378.137 := by
    rw [equator_itrs, vnorm_axis, abs_of_pos axisA_pos, axisA]
  have h1 := vnorm_add_le (p - q) q
  rw [sub_add_cancel, hp, ← vnorm_standardItrs t q, hq, hg] at h1
  obtain ⟨a, ha, h⟩ := C145_look_angle_partial t p equator.ground ht
    (by rintro rfl; simp [vnorm] at hp) q hq (by rw [norm_toE, dist_toE, hg]; linarith)
  refine ⟨a, ha, h.trans ?_⟩
  rw [norm_toE, dist_toE, hg, mul_div_assoc', div_le_iff₀ (by linarith)]
  linarith

/-- A station at the pole. -/
theorem pole_itrs {g : Ground} (hlat : g.lat = Real.pi / 2) (hh : 0 ≤ g.height) :
    ∃ r, 0 < r ∧ g.itrs = ![0, 0, r] := by
  refine ⟨primeVertical g.lat * (1 - ecc ^ 2) + g.height, ?_, ?_⟩
  · have h1 := primeVertical_pos g.lat
    have h2 := ecc_sq
    nlinarith
  · simp [Ground.itrs, hlat]

/-- Over the pole at noon on 1 January 2000 celest and the standard reduction put a station at
different places. -/
theorem pole_apart (g : Ground) {r : ℝ} (hr : 0 < r) (hg : g.itrs = ![0, 0, r]) (q : Vec)
    (hq : standardItrs 2451545 q = g.itrs) : stationAt g 2451545 ≠ q := by
  intro h
  obtain ⟨m, hm, he⟩ := standardItrs_rotation 2451545
  obtain ⟨m', hm', he'⟩ := gcrsToItrs1_rotation 2451545
  have hq' : gcrsToItrs1 2451545 q = g.itrs := by rw [← h, stationAt, itrs_gcrs1]
  apply C134_not_the_standard_reduction 1 one_ne_zero (biasMatrix⁻¹ *ᵥ ![0, 0, 1])
    (bias_rotation.mulVec_inv _)
  generalize biasMatrix⁻¹ *ᵥ ![0, 0, 1] = v
  have h1 := hm.dot q v
  have h2 := hm'.dot q v
  rw [← he, ← he, hq, hg] at h1
  rw [← he', ← he', hq', hg, ← h1] at h2
  simp [dotProduct, Fin.sum_univ_three] at h2
  rcases h2 with h2 | h2
  · exact h2
  · exact absurd h2 hr.ne'

/-- **C145 (failure).** On 1 January 2000 at noon, for a target at the pole, no satellite that is
higher than 0.06 degrees above the horizon of the target looks at where the standard reduction puts
the target, however far along the line of sight. -/
theorem C145_misses (posUnit velUnit : ℝ) (p w : Vec) (g : Ground) (hp : 0 < posUnit)
    (hv : 0 < velUnit) (hstate : p ⨯₃ w ≠ 0) (hfar : ‖toE g.itrs‖ < ‖toE (posUnit • p)‖)
    (hlat : g.lat = Real.pi / 2) (hh : 0 ≤ g.height)
    (hup : 0.001 * (‖toE (stationAt g 2451545)‖ *
        ‖toE (posUnit • p - stationAt g 2451545)‖) ≤
      stationAt g 2451545 ⬝ᵥ (posUnit • p - stationAt g 2451545))
    (q : Vec) (hq : standardItrs 2451545 q = g.itrs) (d : ℝ) :
    cameraPoint posUnit p w
      (attitude 2451545 posUnit velUnit (gcrsToItrs1 2451545 p) (gcrsToItrs1 2451545 w) g) d ≠ q := by
  intro h
  obtain ⟨r, hr, hg⟩ := pole_itrs hlat hh
  rw [norm_toE, norm_toE] at hfar
  have hd := stationAt_far (t := 2451545) hfar
  have hne := pole_apart g hr hg q hq
  have hnear := station_standard (by norm_num [ThisCentury]) hq
  have hnorm : vnorm (stationAt g 2451545) = vnorm q := by
    rw [← vnorm_standardItrs 2451545 q, hq, stationAt, vnorm_itrsToGcrs1]
  have hgs : vnorm g.itrs = vnorm (stationAt g 2451545) := by rw [stationAt, vnorm_itrsToGcrs1]
  have hpos : 0 < vnorm g.itrs := by
    apply vnorm_pos
    rw [hg]
    intro h0
    have := congrFun h0 2
    simp at this
    exact hr.ne' this
  unfold cameraPoint at h
  rw [camera_exact 2451545 posUnit velUnit p w g hp hv hstate hfar] at h
  rw [norm_toE, norm_toE, vnorm_sub_comm] at hup
  rw [hgs] at hnear hpos
  generalize stationAt g 2451545 = S at *
  generalize posUnit • p = P at *
  obtain ⟨D, hD⟩ : ∃ D, D = vnorm (S - P) := ⟨_, rfl⟩
  obtain ⟨R, hR⟩ : ∃ R, R = vnorm S := ⟨_, rfl⟩
  obtain ⟨c, hc⟩ : ∃ c, c = d / D - 1 := ⟨_, rfl⟩
  rw [← hD] at hd h hup
  rw [← hR] at hnear hpos hup
  have hqe : q = S + c • (S - P) := by
    rw [← h, smul_smul, hc, ← div_eq_mul_inv]
    module
  have hc0 : c ≠ 0 := by
    intro h0
    apply hne
    rw [hqe, h0, zero_smul, add_zero]
  have e1 : S - q = (-c) • (S - P) := by rw [hqe]; module
  rw [e1, vnorm_smul, abs_neg, ← hD] at hnear
  have e2 := vnorm_sq S
  have e3 := vnorm_sq q
  have e4 := vnorm_sq (S - P)
  rw [← hnorm, e2, hqe] at e3
  rw [← hD] at e4
  simp only [dotProduct_add, add_dotProduct, dotProduct_smul, smul_dotProduct, smul_eq_mul] at e3
  have e5 : S ⬝ᵥ (P - S) = -(S ⬝ᵥ (S - P)) := by rw [← dotProduct_neg, neg_sub]
  rw [dotProduct_comm (S - P) S, ← e4] at e3
  rw [e5] at hup
  generalize S ⬝ᵥ (S - P) = x at *
  have e6 : c * D ^ 2 = -2 * x := by
    apply mul_left_cancel₀ hc0
    linear_combination -e3
  have h8 : c * D ≤ 0.00065 * R := (mul_le_mul_of_nonneg_right (le_abs_self c) hd.le).trans hnear
  have h9 : c * D * D ≤ 0.00065 * R * D := mul_le_mul_of_nonneg_right h8 hd.le
  have h10 : 0 < R * D := mul_pos hpos hd
  norm_num at *
  nlinarith

/-- **C145 (failure).** On 1 January 2000 at noon, for a target at the pole and a satellite that celest
sees in the direction of the target from the centre of the Earth, the reported distance is shorter than
that to where the standard reduction puts the target. -/
theorem C145_distance_short (g : Ground) (hlat : g.lat = Real.pi / 2) (hh : 0 ≤ g.height) (k : ℝ)
    (hk : 0 < k) (q : Vec) (hq : standardItrs 2451545 q = g.itrs) :
    distance (gcrsToItrs1 2451545 (k • stationAt g 2451545)) g <
      dist (toE (k • stationAt g 2451545)) (toE q) := by
  obtain ⟨r, hr, hg⟩ := pole_itrs hlat hh
  have hne := pole_apart g hr hg q hq
  have hnorm : vnorm (stationAt g 2451545) = vnorm q := by
    rw [← vnorm_standardItrs 2451545 q, hq, stationAt, vnorm_itrsToGcrs1]
  rw [distance_station, dist_toE]
  generalize stationAt g 2451545 = S at *
  have h1 := vnorm_sq S
  have h2 := vnorm_sq q
  rw [← hnorm, h1] at h2
  have h3 : 0 < vnorm (S - q) := vnorm_pos (sub_ne_zero.2 hne)
  have h4 := vnorm_sq (S - q)
  have h5 := vnorm_sq (k • S - S)
  have h6 := vnorm_sq (k • S - q)
  simp only [dotProduct_sub, sub_dotProduct, dotProduct_smul, smul_dotProduct, smul_eq_mul] at h4 h5 h6
  rw [dotProduct_comm q S, ← h2] at h4 h6
  refine lt_of_pow_lt_pow_left₀ 2 (vnorm_nonneg _) ?_
  rw [h5, h6]
  nlinarith [mul_pos hk (pow_pos h3 2)]

/-! ### Concrete cases -/

theorem exists_cross {p : Vec} (hp : p ≠ 0) : ∃ w, p ⨯₃ w ≠ 0 := by
  by_contra h
  push Not at h
  apply hp
  have h0 := h ![1, 0, 0]
  have h1 := h ![0, 1, 0]
  have a1 := congrFun h0 1
  have a2 := congrFun h0 2
  have a3 := congrFun h1 2
  simp [cross_apply] at a1 a2 a3
  ext i
  fin_cases i <;> simp [a1, a2, a3]

/-- Non-vacuity for C145: a satellite over a station at the North Pole, twice as far from the centre of
the Earth, meets the hypotheses, with some velocity, and misses by at most 4.2 km. -/
example : ∃ p w q : Vec, ∃ d > 0,
    standardItrs 2451545 q = (Ground.mk (Real.pi / 2) 0 0).itrs ∧
    dist (toE (cameraPoint 1 p w (attitude 2451545 1 1 (gcrsToItrs1 2451545 p)
      (gcrsToItrs1 2451545 w) ⟨Real.pi / 2, 0, 0⟩) d)) (toE q) ≤
        0.00065 * ‖toE (Ground.mk (Real.pi / 2) 0 0).itrs‖ ∧
    cameraPoint 1 p w (attitude 2451545 1 1 (gcrsToItrs1 2451545 p)
      (gcrsToItrs1 2451545 w) ⟨Real.pi / 2, 0, 0⟩) d ≠ q := by
  obtain ⟨r, hr, hg⟩ := pole_itrs (g := ⟨Real.pi / 2, 0, 0⟩) rfl le_rfl
  have hS : 0 < vnorm (stationAt ⟨Real.pi / 2, 0, 0⟩ 2451545) := by
    rw [stationAt, vnorm_itrsToGcrs1]
    apply vnorm_pos
    rw [hg]
    intro h0
    have := congrFun h0 2
    simp at this
    exact hr.ne' this
  have hgs : vnorm (Ground.mk (Real.pi / 2) 0 0).itrs =
      vnorm (stationAt ⟨Real.pi / 2, 0, 0⟩ 2451545) := by rw [stationAt, vnorm_itrsToGcrs1]
  have h2 : vnorm ((2 : ℝ) • stationAt ⟨Real.pi / 2, 0, 0⟩ 2451545) =
      2 * vnorm (stationAt ⟨Real.pi / 2, 0, 0⟩ 2451545) := by
    rw [vnorm_smul, abs_of_pos (by norm_num)]
  have hfar : ‖toE (Ground.mk (Real.pi / 2) 0 0).itrs‖ <
      ‖toE ((1 : ℝ) • (2 : ℝ) • stationAt ⟨Real.pi / 2, 0, 0⟩ 2451545)‖ := by
    rw [one_smul, norm_toE, norm_toE, h2, hgs]
    linarith
  obtain ⟨w, hw⟩ := exists_cross (p := (2 : ℝ) • stationAt ⟨Real.pi / 2, 0, 0⟩ 2451545) (by
    intro h0
    rw [h0] at h2
    have : vnorm (0 : Vec) = 0 := by simp [vnorm]
    linarith)
  obtain ⟨q, hq, -⟩ := standardItrs_surjective 2451545 (Ground.mk (Real.pi / 2) 0 0).itrs
  obtain ⟨d, hd, h⟩ := C145_aim_partial 2451545 1 1 _ w ⟨Real.pi / 2, 0, 0⟩
    (by norm_num [ThisCentury]) one_pos one_pos hw hfar q hq
  refine ⟨_, w, q, d, hd, hq, h, C145_misses 1 1 _ w _ one_pos one_pos hw hfar rfl le_rfl ?_ q hq d⟩
  have e : (1 : ℝ) • (2 : ℝ) • stationAt ⟨Real.pi / 2, 0, 0⟩ 2451545 -
      stationAt ⟨Real.pi / 2, 0, 0⟩ 2451545 = stationAt ⟨Real.pi / 2, 0, 0⟩ 2451545 := by module
  rw [e, ← vnorm_sq, norm_toE]
  nlinarith

/-- Non-vacuity for the distances: over a station at the North Pole, at twice its distance from the
centre of the Earth, the distance is too short, by at most 0.00065 of the latter. -/
example : ∃ q : Vec, standardItrs 2451545 q = (Ground.mk (Real.pi / 2) 0 0).itrs ∧
    0 < dist (toE ((2 : ℝ) • stationAt ⟨Real.pi / 2, 0, 0⟩ 2451545)) (toE q) -
      distance (gcrsToItrs1 2451545 ((2 : ℝ) • stationAt ⟨Real.pi / 2, 0, 0⟩ 2451545))
        ⟨Real.pi / 2, 0, 0⟩ ∧
    dist (toE ((2 : ℝ) • stationAt ⟨Real.pi / 2, 0, 0⟩ 2451545)) (toE q) -
      distance (gcrsToItrs1 2451545 ((2 : ℝ) • stationAt ⟨Real.pi / 2, 0, 0⟩ 2451545))
        ⟨Real.pi / 2, 0, 0⟩ ≤ 0.00065 * ‖toE (Ground.mk (Real.pi / 2) 0 0).itrs‖ := by
  obtain ⟨q, hq, -⟩ := standardItrs_surjective 2451545 (Ground.mk (Real.pi / 2) 0 0).itrs
  refine ⟨q, hq, sub_pos.2 (C145_distance_short _ rfl le_rfl 2 two_pos q hq), ?_⟩
  have h := C145_distance_partial 2451545 ((2 : ℝ) • stationAt ⟨Real.pi / 2, 0, 0⟩ 2451545)
    ⟨Real.pi / 2, 0, 0⟩ (by norm_num [ThisCentury]) q hq
  rw [abs_sub_comm] at h
  exact (le_abs_self _).trans h

end Celest.Windows
