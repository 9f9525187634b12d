/-
C114 and C115: the conversion between GCRS and ITRS, and elevations, in floating-point arithmetic.
-/
import Verif.Frames.LemmasRounded

namespace Celest.Frames

open Celest.TimeScale Matrix

/-! ### Specification -/

/-- The elevation in degrees of `sat` seen from `ground`: the complement of the angle at the station
between the satellite and the radial direction. -/
noncomputable def trueElevation (sat ground : Vec) : ℝ :=
  90 - InnerProductGeometry.angle (toE (sat - ground)) (toE ground) * (180 / Real.pi)

/-- The ten angles of the conversion without rounding. -/
noncomputable def exactAngles (jd : ℝ) : Rounded.Angles where
  bias := ![arcsec (-0.01460), arcsec (-0.0166170), arcsec (-(-0.0068192))]
  precession := ![arcsec (zetaPrecession jd), arcsec (thetaPrecession jd), -arcsec (zPrecession jd)]
  nutation := ![rad (epsA jd / 3600), -arcsec (nutationComponents jd).1,
    -rad (epsA jd / 3600 + (nutationComponents jd).2 / 3600)]
  era := rad (earthRotationAngle jd)

/-- The error bound of the elevation in degrees. -/
noncomputable def elevationError (u : ℝ) : ℝ := 180 * Real.sqrt (7.5 * u) + 1000 * u

/-! ### The double-precision machine -/

/-- Double precision: every operation is the exact one followed by rounding to the nearest of 53
binary digits. -/
noncomputable def binary64 : Machine where
  fl := roundReal 53
  sin x := roundReal 53 (Real.sin x)
  cos x := roundReal 53 (Real.cos x)
  arccos x := roundReal 53 (Real.arccos x)
  dot a b := roundReal 53 (roundReal 53 (roundReal 53 (a 0 * b 0) + roundReal 53 (a 1 * b 1)) +
    roundReal 53 (a 2 * b 2))
  inv A := A⁻¹

/-- Matrices close to a rotation are invertible. -/
theorem isUnit_of_close {A R : Mat} {u : ℝ} (hu0 : 0 ≤ u) (hu : u ≤ 1 / 10 ^ 12) (hR : Rotation R)
    (hA : ∀ i j, |A i j - R i j| ≤ 20 * u) : IsUnit A.det := by
  rw [isUnit_iff_ne_zero]
  intro h0
  obtain ⟨v, hv, hAv⟩ := Matrix.exists_mulVec_eq_zero_iff.2 h0
  have h1 : vnorm (A *ᵥ v - R *ᵥ v) ≤ 3 * (20 * u) * vnorm v := by
    refine vnorm_of_coords (by positivity) fun i => ?_
    have e : (A *ᵥ v - R *ᵥ v) i = (A i 0 - R i 0) * v 0 + (A i 1 - R i 1) * v 1 +
        (A i 2 - R i 2) * v 2 := by
      simp only [Pi.sub_apply, Matrix.mulVec, dotProduct, Fin.sum_univ_three]
      ring
    rw [e]
    have p : ∀ k, |(A i k - R i k) * v k| ≤ 20 * u * |v k| := by
      intro k
      rw [abs_mul]
      exact mul_le_mul_of_nonneg_right (hA i k) (abs_nonneg _)
    have := abs_add_three ((A i 0 - R i 0) * v 0) ((A i 1 - R i 1) * v 1) ((A i 2 - R i 2) * v 2)
    have := p 0
    have := p 1
    have := p 2
    unfold size1
    linarith
  rw [hAv, vnorm_sub_comm, sub_zero, hR.vnorm] at h1
  have := vnorm_pos hv
  have : 3 * (20 * u) * vnorm v ≤ 1 / 2 * vnorm v := by
    gcongr
    linarith
  linarith

/-- The double-precision machine is accurate with `u = 2⁻⁵³`. -/
theorem binary64_accurate : binary64.Accurate (1 / 2 ^ 53) := by
  have hr : ∀ x : ℝ, |roundReal 53 x - x| ≤ 1 / 2 ^ 53 * |x| := roundReal_error
  have hone : ∀ x c : ℝ, |x| ≤ c → |roundReal 53 x - x| ≤ c * (1 / 2 ^ 53) := by
    intro x c h
    refine (hr x).trans ?_
    rw [mul_comm]
    gcongr
  refine ⟨by norm_num, by norm_num, hr, fun x => ?_, fun x => ?_, fun x _ => ?_, fun a b => ?_,
    fun A R hR hA i j => ?_⟩
  · exact (hone _ 1 (Real.abs_sin_le_one x)).trans (by norm_num)
  · exact (hone _ 1 (Real.abs_cos_le_one x)).trans (by norm_num)
  · refine hone _ 4 ?_
    rw [abs_of_nonneg (Real.arccos_nonneg _)]
    exact (Real.arccos_le_pi _).trans Real.pi_le_four
  · change |roundReal 53 (roundReal 53 (roundReal 53 (a 0 * b 0) + roundReal 53 (a 1 * b 1)) +
      roundReal 53 (a 2 * b 2)) - a ⬝ᵥ b| ≤ _
    rw [show a ⬝ᵥ b = a 0 * b 0 + a 1 * b 1 + a 2 * b 2 by
      simp [dotProduct, Fin.sum_univ_three]]
    generalize a 0 * b 0 = x
    generalize a 1 * b 1 = y
    generalize a 2 * b 2 = z
    obtain ⟨u, hu⟩ : ∃ u : ℝ, u = 1 / 2 ^ 53 := ⟨_, rfl⟩
    have hu0 : 0 ≤ u := by rw [hu]; norm_num
    have hu1 : u ≤ 1 / 1000 := by rw [hu]; norm_num
    have h1 := hr x
    have h2 := hr y
    have h3 := hr z
    have h4 := hr (roundReal 53 x + roundReal 53 y)
    have h5 := hr (roundReal 53 (roundReal 53 x + roundReal 53 y) + roundReal 53 z)
    rw [← hu] at *
    generalize roundReal 53 x = x' at *
    generalize roundReal 53 y = y' at *
    generalize roundReal 53 z = z' at *
    generalize roundReal 53 (x' + y') = s at *
    generalize roundReal 53 (s + z') = t at *
    have hx := abs_nonneg x
    have hy := abs_nonneg y
    have hz := abs_nonneg z
    have a1 : |x' + y' - (x + y)| ≤ u * (|x| + |y|) := by
      rw [show x' + y' - (x + y) = (x' - x) + (y' - y) by ring]
      have := abs_add_le (x' - x) (y' - y)
      linarith
    have a2 : |x' + y'| ≤ (1 + u) * (|x| + |y|) := by
      have := abs_sub_abs_le_abs_sub (x' + y') (x + y)
      have := abs_add_le x y
      linarith
    have a3 : |s - (x + y)| ≤ (2.1 * u) * (|x| + |y|) := by
      have t1 := abs_sub_le s (x' + y') (x + y)
      have t2 : u * |x' + y'| ≤ u * ((1 + u) * (|x| + |y|)) := by gcongr
      have t3 : u * ((1 + u) * (|x| + |y|)) ≤ u * (1.1 * (|x| + |y|)) := by
        gcongr
        linarith
      linarith
    have a4 : |s + z' - (x + y + z)| ≤ 2.1 * u * (|x| + |y| + |z|) := by
      rw [show s + z' - (x + y + z) = (s - (x + y)) + (z' - z) by ring]
      have := abs_add_le (s - (x + y)) (z' - z)
      have : 0 ≤ u * |z| := by positivity
      linarith
    have a5 : |s + z'| ≤ 1.1 * (|x| + |y| + |z|) := by
      have t1 := abs_sub_abs_le_abs_sub (s + z') (x + y + z)
      have t2 := abs_add_three x y z
      have t3 : 2.1 * u * (|x| + |y| + |z|) ≤ 0.1 * (|x| + |y| + |z|) := by
        gcongr
        linarith
      linarith
    have t1 := abs_sub_le t (s + z') (x + y + z)
    have t2 : u * |s + z'| ≤ u * (1.1 * (|x| + |y| + |z|)) := by gcongr
    have t3 : 0 ≤ u * (|x| + |y| + |z|) := by positivity
    linarith
  · have hinv : binary64.inv A * A = 1 := Matrix.nonsing_inv_mul _
      (isUnit_of_close (by norm_num) (by norm_num) hR hA)
    rw [hinv, sub_self, abs_zero]
    norm_num

/-! ### C114 -/

/-- **C114.** In floating-point arithmetic the conversion from GCRS to ITRS at one instant is a
rotation, the same for all positions, but for an error of at most `241 u` times the distance from
the centre of the Earth, and the conversion back is the inverse rotation but for `4600 u`. -/
theorem C114_rotation {M : Machine} {u : ℝ} (h : M.Accurate u) (g : Rounded.Angles) :
    ∃ R : Mat, Rotation R ∧
      (∀ v, vnorm (Rounded.gcrsToItrs1 M g v - R *ᵥ v) ≤ 241 * u * vnorm v) ∧
      ∀ v, vnorm (Rounded.itrsToGcrs1 M g v - R⁻¹ *ᵥ v) ≤ 4600 * u * vnorm v :=
  ⟨g.rotation, g.rotation_rotation, gcrsToItrs1_follows h g, itrsToGcrs1_follows h g⟩

theorem dist_of_follows {k : ℝ} {f : Vec → Vec} {R : Mat} (hR : Rotation R) (h : Follows k f R)
    (v w : Vec) : |vnorm (f v - f w) - vnorm (v - w)| ≤ k * (vnorm v + vnorm w) := by
  have h1 := h v
  have h2 := h w
  have e : vnorm (v - w) = vnorm (R *ᵥ v - R *ᵥ w) := by
    rw [← Matrix.mulVec_sub, hR.vnorm]
  have t1 := vnorm_sub_le (f v) (R *ᵥ v) (f w)
  have t2 := vnorm_sub_le (R *ᵥ v) (R *ᵥ w) (f w)
  have t3 := vnorm_sub_le (R *ᵥ v) (f v) (R *ᵥ w)
  have t4 := vnorm_sub_le (f v) (f w) (R *ᵥ w)
  rw [vnorm_sub_comm (R *ᵥ w) (f w)] at t2
  rw [vnorm_sub_comm (R *ᵥ v) (f v)] at t3
  rw [e, abs_le]
  constructor <;> linarith

/-- **C114.** Distances between simultaneous positions survive the conversion in floating-point
arithmetic but for the same small error. -/
theorem C114_distances {M : Machine} {u : ℝ} (h : M.Accurate u) (g : Rounded.Angles) (v w : Vec) :
    |vnorm (Rounded.gcrsToItrs1 M g v - Rounded.gcrsToItrs1 M g w) - vnorm (v - w)| ≤
        241 * u * (vnorm v + vnorm w) ∧
    |vnorm (Rounded.itrsToGcrs1 M g v - Rounded.itrsToGcrs1 M g w) - vnorm (v - w)| ≤
        4600 * u * (vnorm v + vnorm w) :=
  ⟨dist_of_follows g.rotation_rotation (gcrsToItrs1_follows h g) v w,
    dist_of_follows g.rotation_rotation.inv (itrsToGcrs1_follows h g) v w⟩

/-- **C114.** Converting to the other frame and back, at the same instant, returns every position
but for an error of at most `5000 u` times its distance from the centre of the Earth, however wrong
the angles are. -/
theorem C114_round_trip {M : Machine} {u : ℝ} (h : M.Accurate u) (g : Rounded.Angles) (v : Vec) :
    vnorm (Rounded.itrsToGcrs1 M g (Rounded.gcrsToItrs1 M g v) - v) ≤ 5000 * u * vnorm v ∧
    vnorm (Rounded.gcrsToItrs1 M g (Rounded.itrsToGcrs1 M g v) - v) ≤ 5000 * u * vnorm v := by
  have hu0 := h.nonneg
  have hu1 := h.small
  have hR := g.rotation_rotation
  have a := (gcrsToItrs1_follows h g).comp' hu0 hu1 (by norm_num) (by norm_num) (by norm_num) hR
    hR.inv (itrsToGcrs1_follows h g)
  have b := (itrsToGcrs1_follows h g).comp' hu0 hu1 (by norm_num) (by norm_num) (by norm_num) hR.inv
    hR (gcrsToItrs1_follows h g)
  rw [Matrix.nonsing_inv_mul _ hR.isUnit] at a
  rw [Matrix.mul_nonsing_inv _ hR.isUnit] at b
  have a' := (a.mono (l := 5000 * u) (by linarith)) v
  have b' := (b.mono (l := 5000 * u) (by linarith)) v
  rw [Matrix.one_mulVec] at a' b'
  exact ⟨a', b'⟩

theorem exact_rotation (jd : ℝ) (v : Vec) : gcrsToItrs1 jd v = (exactAngles jd).rotation *ᵥ v := by
  unfold gcrsToItrs1
  rw [rotateEra_eq]
  have e : -rad (-earthRotationAngle jd) = rad (earthRotationAngle jd) := by unfold rad; ring
  rw [e, Matrix.mulVec_mulVec, Matrix.mulVec_mulVec, Matrix.mulVec_mulVec]
  congr 1
  simp only [mul_assoc]
  rfl

/-- **C114.** The converted position differs from the exact one by at most `241 u` plus the total
error of the ten angles, times the distance from the centre of the Earth. -/
theorem C114_error {M : Machine} {u : ℝ} (h : M.Accurate u) (g : Rounded.Angles) (jd : ℝ)
    (v : Vec) :
    vnorm (Rounded.gcrsToItrs1 M g v - gcrsToItrs1 jd v) ≤
      (241 * u + g.gap (exactAngles jd)) * vnorm v := by
  have h1 := gcrsToItrs1_follows h g v
  have h2 := rotation_follows g (exactAngles jd) v
  rw [exact_rotation]
  have := vnorm_sub_le (Rounded.gcrsToItrs1 M g v) (g.rotation *ᵥ v)
    ((exactAngles jd).rotation *ᵥ v)
  linarith

/-- **C114.** In double precision, a position within 50 000 km of the centre of the Earth returns
from the other frame within 0.03 millimetres. -/
theorem C114_round_trip_binary64 {M : Machine} (h : M.Accurate (1 / 2 ^ 53)) (g : Rounded.Angles)
    (v : Vec) (hv : vnorm v ≤ 50000) :
    vnorm (Rounded.itrsToGcrs1 M g (Rounded.gcrsToItrs1 M g v) - v) ≤ 3 / 10 ^ 8 ∧
    vnorm (Rounded.gcrsToItrs1 M g (Rounded.itrsToGcrs1 M g v) - v) ≤ 3 / 10 ^ 8 := by
  obtain ⟨h1, h2⟩ := C114_round_trip h g v
  have : 5000 * (1 / 2 ^ 53) * vnorm v ≤ 5000 * (1 / 2 ^ 53) * 50000 := by gcongr
  have e : (5000 * (1 / 2 ^ 53) * 50000 : ℝ) ≤ 3 / 10 ^ 8 := by norm_num
  exact ⟨by linarith, by linarith⟩

/-- The hypotheses are met: double precision, a geostationary position. -/
example : binary64.Accurate (1 / 2 ^ 53) ∧ vnorm ![42164, 0, 0] ≤ 50000 := by
  refine ⟨binary64_accurate, ?_⟩
  unfold vnorm
  rw [Real.sqrt_le_left (by norm_num)]
  simp [dotProduct, Fin.sum_univ_three]
  norm_num

/-! ### C115 -/

/-- Rounding the coordinates of a vector turns it by little. -/
theorem angle_rounded {M : Machine} {u : ℝ} (h : M.Accurate u) {w : Vec} (hw : w ≠ 0) :
    (fun i => M.fl (w i)) ≠ 0 ∧
    InnerProductGeometry.angle (toE w) (toE fun i => M.fl (w i)) ≤ 1.6 * u := by
  have hu0 := h.nonneg
  have hu1 := h.small
  have hn := vnorm_pos hw
  have hd : vnorm (w - fun i => M.fl (w i)) ≤ u * vnorm w := by
    refine (abs_le_of_sq_le_sq' ?_ (by positivity)).2
    rw [mul_pow, vnorm_sq_coords, vnorm_sq_coords]
    have t : ∀ i, (w i - M.fl (w i)) ^ 2 ≤ u ^ 2 * w i ^ 2 := by
      intro i
      rw [← mul_pow, ← sq_abs, abs_sub_comm, ← sq_abs (u * w i), abs_mul, abs_of_nonneg hu0]
      exact pow_le_pow_left₀ (abs_nonneg _) (h.fl (w i)) 2
    have := t 0
    have := t 1
    have := t 2
    simp only [Pi.sub_apply]
    linarith
  have hlt : u * vnorm w < vnorm w := by nlinarith
  constructor
  · intro h0
    rw [h0, sub_zero] at hd
    linarith
  · have e : ‖toE w - toE (fun i => M.fl (w i))‖ = vnorm (w - fun i => M.fl (w i)) := by
      rw [← norm_toE]
      rfl
    have h1 := angle_le_arcsin (toE w) (toE fun i => M.fl (w i)) (vnorm w) (u * vnorm w) hn
      (by rw [norm_toE]) (by rw [e]; exact hd) hlt
    rw [mul_div_cancel_right₀ _ hn.ne'] at h1
    refine h1.trans ?_
    have hp : Real.pi < 3.15 := Real.pi_lt_d2
    have hp0 : 3 < Real.pi := Real.pi_gt_three
    rw [Real.arcsin_le_iff_le_sin ⟨by linarith, by linarith⟩ ⟨by linarith, by linarith⟩]
    have hj := Real.mul_le_sin (x := 1.6 * u) (by positivity) (by linarith)
    refine le_trans ?_ hj
    rw [div_mul_eq_mul_div, le_div_iff₀ Real.pi_pos]
    nlinarith

/-- The computed cosine of the zenith angle. -/
theorem zenith_cosine {M : Machine} {u : ℝ} (h : M.Accurate u) {sat ground : Vec}
    (hs : sat ≠ ground) (hg : ground ≠ 0) :
    |Rounded.cosine M (fun i => M.fl (sat i - ground i)) ground -
      Real.cos (InnerProductGeometry.angle (toE (sat - ground)) (toE ground))| ≤ 15 * u := by
  have hu0 := h.nonneg
  have hw : sat - ground ≠ 0 := sub_ne_zero.2 hs
  obtain ⟨h1, h2⟩ := angle_rounded h hw
  have h3 := cosine_close h h1 hg
  set w' : Vec := fun i => M.fl (sat i - ground i) with hw'
  change w' ≠ 0 at h1
  change InnerProductGeometry.angle (toE (sat - ground)) (toE w') ≤ _ at h2
  change |Rounded.cosine M w' ground - Real.cos (InnerProductGeometry.angle (toE w') (toE ground))|
    ≤ _ at h3
  have hne : ∀ v : Vec, v ≠ 0 → toE v ≠ 0 := by
    intro v hv h0
    apply hv
    have := norm_toE v
    rw [h0, norm_zero] at this
    exact (vnorm_eq_zero v).1 this.symm
  have t1 := InnerProductGeometry.angle_le_angle_add_angle (toE (sat - ground)) (toE w')
    (toE ground)
  have t2 := InnerProductGeometry.angle_le_angle_add_angle (toE w') (toE (sat - ground))
    (toE ground)
  rw [InnerProductGeometry.angle_comm (toE w') (toE (sat - ground))] at t2
  have t3 : |InnerProductGeometry.angle (toE w') (toE ground) -
      InnerProductGeometry.angle (toE (sat - ground)) (toE ground)| ≤ 1.6 * u := by
    rw [abs_le]
    constructor <;> linarith
  have t4 := Real.abs_cos_sub_cos_le (InnerProductGeometry.angle (toE w') (toE ground))
    (InnerProductGeometry.angle (toE (sat - ground)) (toE ground))
  have t5 := abs_sub_le (Rounded.cosine M w' ground)
    (Real.cos (InnerProductGeometry.angle (toE w') (toE ground)))
    (Real.cos (InnerProductGeometry.angle (toE (sat - ground)) (toE ground)))
  linarith

/-- **C115.** An elevation that comes out as a number is right to within `elevationError u`, and to
within `2700 u / cos e + 1000 u` degrees away from the zenith. -/
theorem C115_elevation_partial {M : Machine} {u : ℝ} (h : M.Accurate u) {sat ground : Vec}
    (hs : sat ≠ ground) (hg : ground ≠ 0) {x : ℝ}
    (hx : Rounded.elevation M sat ground = some x) :
    |x - trueElevation sat ground| ≤ elevationError u ∧
    (|x - trueElevation sat ground| - 1000 * u) * Real.cos (rad (trueElevation sat ground)) ≤
      2700 * u := by
  have hu0 := h.nonneg
  have hu1 := h.small
  have hpi := Real.pi_pos
  have hz := zenith_cosine h hs hg
  unfold Rounded.elevation at hx
  obtain ⟨a, ha, hxa⟩ := Option.map_eq_some_iff.1 hx
  obtain ⟨hc, h1, h2⟩ := getAng_close h ha
  set q := Rounded.cosine M (fun i => M.fl (sat i - ground i)) ground with hq
  set θ := InnerProductGeometry.angle (toE (sat - ground)) (toE ground) with hθ
  have hθ0 : 0 ≤ θ := InnerProductGeometry.angle_nonneg _ _
  have hθp : θ ≤ Real.pi := InnerProductGeometry.angle_le_pi _ _
  have hcos : Real.cos (Real.arccos q) = q := Real.cos_arccos (abs_le.1 hc).1 (abs_le.1 hc).2
  obtain ⟨m1, -, m2⟩ := angle_of_cos (Real.arccos_nonneg q) (Real.arccos_le_pi q) hθ0 hθp
    (δ := 15 * u) (by rw [hcos]; exact hz)
  set t := Real.arccos q with ht
  have hfl := h.fl (90 - a)
  have h90 : |90 - a| ≤ 91 := by
    have t0 := Real.arccos_nonneg q
    have tp := Real.arccos_le_pi q
    rw [← ht] at t0 tp
    have s1 : 0 ≤ t * (180 / Real.pi) := by positivity
    have s2 : t * (180 / Real.pi) ≤ 180 := by
      calc t * (180 / Real.pi) ≤ Real.pi * (180 / Real.pi) := by gcongr
        _ = 180 := by field_simp
    have := abs_le.1 h1
    rw [abs_le]
    constructor <;> linarith
  have hfl' : |x - (90 - a)| ≤ 91 * u := by
    rw [← hxa]
    refine hfl.trans ?_
    rw [mul_comm]
    gcongr
  have main : |x - trueElevation sat ground| ≤ |t - θ| * (180 / Real.pi) + 1000 * u := by
    have e : x - trueElevation sat ground =
        (x - (90 - a)) - (a - t * (180 / Real.pi)) - (t - θ) * (180 / Real.pi) := by
      unfold trueElevation
      rw [← hθ]
      ring
    have e2 : |(t - θ) * (180 / Real.pi)| = |t - θ| * (180 / Real.pi) := by
      rw [abs_mul, abs_of_pos (by positivity : 0 < 180 / Real.pi)]
    have := abs_sub (x - (90 - a) - (a - t * (180 / Real.pi))) ((t - θ) * (180 / Real.pi))
    have := abs_sub (x - (90 - a)) (a - t * (180 / Real.pi))
    rw [e]
    linarith
  constructor
  · refine main.trans ?_
    unfold elevationError
    have : |t - θ| * (180 / Real.pi) ≤ Real.pi * Real.sqrt (15 * u / 2) * (180 / Real.pi) := by
      gcongr
    have e : Real.pi * Real.sqrt (15 * u / 2) * (180 / Real.pi) = 180 * Real.sqrt (7.5 * u) := by
      rw [show 15 * u / 2 = 7.5 * u by ring]
      field_simp
    linarith
  · have e : Real.cos (rad (trueElevation sat ground)) = Real.sin θ := by
      unfold trueElevation rad
      rw [← hθ, ← Real.cos_pi_div_two_sub]
      congr 1
      field_simp
      ring
    have hsin : 0 ≤ Real.sin θ := Real.sin_nonneg_of_nonneg_of_le_pi hθ0 hθp
    rw [e]
    calc (|x - trueElevation sat ground| - 1000 * u) * Real.sin θ ≤
          |t - θ| * (180 / Real.pi) * Real.sin θ := by
            gcongr
            linarith
      _ = |t - θ| * Real.sin θ * (180 / Real.pi) := by ring
      _ ≤ Real.pi * (15 * u) * (180 / Real.pi) := by gcongr
      _ = 2700 * u := by
          field_simp
          ring

/-- **C115.** The elevation comes out as NaN only within `elevationError u` of the zenith or of the
nadir. -/
theorem C115_nan_only_at_zenith_partial {M : Machine} {u : ℝ} (h : M.Accurate u) {sat ground : Vec}
    (hs : sat ≠ ground) (hg : ground ≠ 0) (hx : Rounded.elevation M sat ground = none) :
    90 - |trueElevation sat ground| ≤ elevationError u := by
  have hu0 := h.nonneg
  have hu1 := h.small
  have hpi := Real.pi_pos
  have hz := zenith_cosine h hs hg
  unfold Rounded.elevation at hx
  rw [Option.map_eq_none_iff] at hx
  unfold Rounded.getAng at hx
  have hpos := lengths_pos h (angle_rounded h (sub_ne_zero.2 hs)).1 hg
  have hP := mul_pos (vnorm_pos (angle_rounded h (sub_ne_zero.2 hs)).1) (vnorm_pos hg)
  rw [if_neg (by
    have e : (fun i => M.fl (sat i - ground i)) = fun i => M.fl ((sat - ground) i) := rfl
    rw [e]
    linarith)] at hx
  split_ifs at hx with h1
  set q := Rounded.cosine M (fun i => M.fl (sat i - ground i)) ground with hq
  set θ := InnerProductGeometry.angle (toE (sat - ground)) (toE ground) with hθ
  have hθ0 : 0 ≤ θ := InnerProductGeometry.angle_nonneg _ _
  have hθp : θ ≤ Real.pi := InnerProductGeometry.angle_le_pi _ _
  have hz' := abs_le.1 hz
  have conv : Real.pi * Real.sqrt (15 * u / 2) * (180 / Real.pi) = 180 * Real.sqrt (7.5 * u) := by
    rw [show 15 * u / 2 = 7.5 * u by ring]
    field_simp
  have hu' : 0 ≤ 1000 * u := by positivity
  have hc1 := Real.cos_le_one θ
  have hc2 := Real.neg_one_le_cos θ
  unfold elevationError
  rcases lt_abs.1 h1 with h1 | h1
  · obtain ⟨m, -, -⟩ := angle_of_cos hθ0 hθp le_rfl hpi.le (δ := 15 * u) (by
      rw [Real.cos_zero, abs_le]
      constructor <;> linarith)
    rw [sub_zero, abs_of_nonneg hθ0] at m
    have m' : θ * (180 / Real.pi) ≤ Real.pi * Real.sqrt (15 * u / 2) * (180 / Real.pi) := by gcongr
    have := le_abs_self (trueElevation sat ground)
    have e : trueElevation sat ground = 90 - θ * (180 / Real.pi) := rfl
    linarith
  · obtain ⟨m, -, -⟩ := angle_of_cos hθ0 hθp hpi.le le_rfl (δ := 15 * u) (by
      rw [Real.cos_pi, abs_le]
      constructor <;> linarith)
    have m0 := neg_abs_le (θ - Real.pi)
    have m' : (Real.pi - θ) * (180 / Real.pi) ≤
        Real.pi * Real.sqrt (15 * u / 2) * (180 / Real.pi) := by
      gcongr
      linarith
    have m'' : (Real.pi - θ) * (180 / Real.pi) = 180 - θ * (180 / Real.pi) := by
      field_simp
    have := neg_le_abs (trueElevation sat ground)
    have e : trueElevation sat ground = 90 - θ * (180 / Real.pi) := rfl
    linarith

/-- In double precision the error is below a hundred-thousandth of a degree. -/
theorem elevationError_binary64 : elevationError (1 / 2 ^ 53) ≤ 1 / 10 ^ 5 := by
  have : Real.sqrt (7.5 * (1 / 2 ^ 53)) ≤ 3 / 10 ^ 8 := by
    rw [Real.sqrt_le_left (by norm_num)]
    norm_num
  unfold elevationError
  have : (1000 * (1 / 2 ^ 53) : ℝ) ≤ 1 / 10 ^ 6 := by norm_num
  linarith

/-- The arithmetic of double precision, and sums of three products of integers that need no
rounding, in whatever order they are added, with or without fused operations. -/
structure Machine.Doubles (M : Machine) : Prop where
  fl : M.fl = roundReal 53
  dot : ∀ a b : Fin 3 → ℤ, |a 0 * b 0| + |a 1 * b 1| + |a 2 * b 2| < 2 ^ 53 →
    M.dot (fun i => (a i : ℝ)) (fun i => (b i : ℝ)) = ((a 0 * b 0 + a 1 * b 1 + a 2 * b 2 : ℤ) : ℝ)

/-- Integers below 2⁵³ are not rounded. -/
theorem roundReal_int (n : ℤ) (h : |n| < 2 ^ 53) : roundReal 53 (n : ℝ) = n := by
  have h1 : roundReal 53 (((n : ℚ) : ℚ) : ℝ) = (binaryRound 53 (n : ℚ) : ℚ) := roundReal_cast 53 n
  have h2 : binaryRound 53 (n : ℚ) = n := by
    have := binaryRound_nearest (p := 53) (by norm_num) (n : ℚ) n 0 h.le
    rw [zpow_zero, mul_one, sub_self, abs_zero] at this
    exact sub_eq_zero.1 (abs_eq_zero.1 (le_antisymm this (abs_nonneg _)))
  rw [h2] at h1
  simpa using h1

theorem binary64_doubles : binary64.Doubles := by
  refine ⟨rfl, fun a b h => ?_⟩
  change roundReal 53 (roundReal 53 (roundReal 53 ((a 0 : ℝ) * b 0) + roundReal 53 ((a 1 : ℝ) * b 1))
    + roundReal 53 ((a 2 : ℝ) * b 2)) = _
  generalize ha : a 0 * b 0 = x at *
  generalize hb : a 1 * b 1 = y at *
  generalize hc : a 2 * b 2 = z at *
  have e0 : (a 0 : ℝ) * b 0 = x := by rw [← ha]; push_cast; ring
  have e1 : (a 1 : ℝ) * b 1 = y := by rw [← hb]; push_cast; ring
  have e2 : (a 2 : ℝ) * b 2 = z := by rw [← hc]; push_cast; ring
  have hx := abs_nonneg x
  have hy := abs_nonneg y
  have hz := abs_nonneg z
  have hxy := abs_add_le x y
  have hxyz := abs_add_three x y z
  rw [e0, e1, e2, roundReal_int x (by linarith), roundReal_int y (by linarith),
    roundReal_int z (by linarith), ← Int.cast_add, roundReal_int (x + y) (by linarith),
    ← Int.cast_add, roundReal_int (x + y + z) (by linarith)]

/-- A station 130 metres above the ellipsoid at 55 degrees north, in kilometres. -/
def zenithStation : Vec := ![1100, 3500, 5200]

theorem round_sqrt : roundReal 53 (Real.sqrt 40500000) = 6997249151944818 / 2 ^ 40 := by
  have h0 : (6363.961030678 : ℝ) ≤ Real.sqrt 40500000 := by
    apply Real.le_sqrt_of_sq_le
    norm_num
  have h1 : Real.sqrt 40500000 ≤ 6363.961030679 := by
    rw [Real.sqrt_le_left (by norm_num)]
    norm_num
  have h := roundReal_eq (p := 53) (Real.sqrt 40500000) 12 6997249151944818 (by norm_num; linarith)
    (by norm_num; linarith) (by
      have a : (6997249151944818 / 2 ^ 40 - 495 / 1000 / 2 ^ 40 : ℝ) ≤ Real.sqrt 40500000 := by
        apply Real.le_sqrt_of_sq_le
        norm_num
      have b : Real.sqrt 40500000 ≤ (6997249151944818 / 2 ^ 40 + 495 / 1000 / 2 ^ 40 : ℝ) := by
        rw [Real.sqrt_le_left (by norm_num)]
        norm_num
      rw [abs_lt]
      norm_num at a b ⊢
      constructor <;> linarith)
  rw [h]
  norm_num

/-- **C115.** In double precision the elevation of a satellite exactly at the zenith can come out as
NaN: at this station the rounded lengths multiply to less than the scalar product, and the
arccosine of the quotient does not exist. -/
theorem C115_zenith_nan {M : Machine} (h : M.Doubles) :
    trueElevation ((2 : ℝ) • zenithStation) zenithStation = 90 ∧
    Rounded.elevation M ((2 : ℝ) • zenithStation) zenithStation = none := by
  constructor
  · unfold trueElevation
    rw [show (2 : ℝ) • zenithStation - zenithStation = zenithStation by rw [two_smul]; abel,
      InnerProductGeometry.angle_self]
    · ring
    · intro h0
      have := congrFun (congrArg (fun x => x.ofLp) h0) 0
      simp [zenithStation] at this
  · have hint : zenithStation = fun i => ((![1100, 3500, 5200] : Fin 3 → ℤ) i : ℝ) := by
      ext i
      fin_cases i <;> simp [zenithStation]
    have hdiff : (fun i => M.fl (((2 : ℝ) • zenithStation) i - zenithStation i)) =
        zenithStation := by
      ext i
      have e : ((2 : ℝ) • zenithStation) i - zenithStation i = zenithStation i := by
        simp only [Pi.smul_apply, smul_eq_mul]
        ring
      rw [e, h.fl, hint]
      fin_cases i <;> exact roundReal_int _ (by norm_num)
    have hdot : M.dot zenithStation zenithStation = 40500000 := by
      rw [hint, h.dot _ _ (by simp)]
      norm_num [Matrix.cons_val_two]
    have hnorm : Rounded.vnorm M zenithStation = 6997249151944818 / 2 ^ 40 := by
      unfold Rounded.vnorm
      rw [hdot, h.fl, round_sqrt]
    have hden : M.fl (Rounded.vnorm M zenithStation * Rounded.vnorm M zenithStation) =
        5435817983999999 / 2 ^ 27 := by
      rw [hnorm, h.fl, roundReal_eq (p := 53) _ 25 5435817983999999 (by norm_num) (by norm_num)
        (by rw [abs_lt]; norm_num)]
      norm_num
    have hcos : Rounded.cosine M zenithStation zenithStation = 1 + 1 / 2 ^ 52 := by
      unfold Rounded.cosine
      rw [hden, hdot, h.fl, roundReal_eq (p := 53) _ 0 (2 ^ 52 + 1) (by norm_num) (by norm_num)
        (by rw [abs_lt]; norm_num)]
      norm_num
    unfold Rounded.elevation Rounded.getAng
    rw [hdiff, hden, hcos, if_neg (by norm_num), if_pos]
    · rfl
    · rw [abs_of_pos (by norm_num)]
      norm_num

end Celest.Frames
