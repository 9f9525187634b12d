/-
C46-C49: rotations between frames, the LVLH frame and attitude.
-/
import Verif.Frames.Lemmas
import Mathlib.Analysis.Real.Pi.Bounds

namespace Celest.Frames

open Matrix Celest.TimeScale

/-! ### C46 -/

theorem gcrs_itrs1 (jd : ℝ) (v : Vec) : itrsToGcrs1 jd (gcrsToItrs1 jd v) = v := by
  unfold itrsToGcrs1 gcrsToItrs1
  rw [rotateEra_inv, (nutation_rotation jd).inv_mulVec, (precession_rotation jd).inv_mulVec,
    bias_rotation.inv_mulVec]

theorem itrs_gcrs1 (jd : ℝ) (v : Vec) : gcrsToItrs1 jd (itrsToGcrs1 jd v) = v := by
  unfold itrsToGcrs1 gcrsToItrs1
  rw [bias_rotation.mulVec_inv, (precession_rotation jd).mulVec_inv,
    (nutation_rotation jd).mulVec_inv, rotateEra_inv']

/-- C46: converting GCRS to ITRS and back, or ITRS to GCRS and back, returns the original object,
for positions and velocities of any length and in any unit. -/
theorem C46_round_trip (p : Cartesian) :
    itrsToGcrs (gcrsToItrs p) = p ∧ gcrsToItrs (itrsToGcrs p) = p := by
  constructor
  · cases p
    simp [itrsToGcrs, gcrsToItrs, Function.comp_def, gcrs_itrs1]
  · cases p
    simp [itrsToGcrs, gcrsToItrs, Function.comp_def, itrs_gcrs1]

/-- The conversion is not the identity: at J2000 it turns the polar axis by the bias matrix and
the third coordinate of the first axis is the sine of a non-zero angle. -/
example : biasMatrix 0 2 ≠ 0 := by
  have hp := Real.pi_pos
  simp only [biasMatrix, biasOf, arcsec, rad]
  simp
  rw [Real.sin_eq_zero_iff_of_lt_of_lt] <;> nlinarith [Real.pi_gt_three, Real.pi_lt_four]

/-! ### C47 -/

/-- The vector conversion is multiplication by a proper rotation. -/
theorem gcrsToItrs1_rotation (jd : ℝ) : ∃ m : Mat, Rotation m ∧ ∀ v, gcrsToItrs1 jd v = m *ᵥ v := by
  refine ⟨R3 (-rad (-earthRotationAngle jd)) *
    (nutationMatrix jd * (precessionMatrix jd * biasMatrix)),
    (R3_rotation _).mul ((nutation_rotation jd).mul ((precession_rotation jd).mul bias_rotation)),
    fun v => ?_⟩
  unfold gcrsToItrs1
  rw [rotateEra_eq]
  simp only [Matrix.mulVec_mulVec]

/-- C47: the bias, precession and nutation matrices are proper rotations at every instant, and so
are both conversions: they keep distances and angles between simultaneous points. -/
theorem C47_rotations (jd : ℝ) :
    Rotation biasMatrix ∧ Rotation (precessionMatrix jd) ∧ Rotation (nutationMatrix jd) ∧
    (∃ m : Mat, Rotation m ∧ (∀ v, gcrsToItrs1 jd v = m *ᵥ v) ∧
      ∀ v, itrsToGcrs1 jd v = m⁻¹ *ᵥ v) ∧
    (∀ u v : Vec, dist (toE (gcrsToItrs1 jd u)) (toE (gcrsToItrs1 jd v)) = dist (toE u) (toE v)) ∧
    (∀ u v : Vec, dist (toE (itrsToGcrs1 jd u)) (toE (itrsToGcrs1 jd v)) = dist (toE u) (toE v)) ∧
    (∀ u v : Vec, InnerProductGeometry.angle (toE (gcrsToItrs1 jd u)) (toE (gcrsToItrs1 jd v)) =
      InnerProductGeometry.angle (toE u) (toE v)) := by
  obtain ⟨m, hm, h⟩ := gcrsToItrs1_rotation jd
  have h' : ∀ v, itrsToGcrs1 jd v = m⁻¹ *ᵥ v := by
    intro v
    have := congrArg (fun w => m⁻¹ *ᵥ w) (itrs_gcrs1 jd v)
    simp only [h, hm.inv_mulVec] at this
    exact this
  refine ⟨bias_rotation, precession_rotation jd, nutation_rotation jd, ⟨m, hm, h, h'⟩, ?_, ?_, ?_⟩
  · intro u v
    rw [h, h, dist_toE, dist_toE, ← Matrix.mulVec_sub, hm.vnorm]
  · intro u v
    rw [h', h', dist_toE, dist_toE, ← Matrix.mulVec_sub, hm.inv.vnorm]
  · intro u v
    unfold InnerProductGeometry.angle
    rw [h, h, inner_toE, inner_toE, norm_toE, norm_toE, norm_toE, norm_toE, hm.dot, hm.vnorm,
      hm.vnorm]

/-- C47: the bias matrix is the documented 3-2-1 sequence of rotations by -0.0146, -0.016617 and
0.0068192 arcseconds, and the conversion ends with a rotation by the Earth rotation angle about
the third axis. -/
theorem C47_sequence (jd : ℝ) (v : Vec) :
    biasMatrix = R1 (arcsec 0.0068192) * (R2 (arcsec (-0.0166170)) * R3 (arcsec (-0.01460))) ∧
    gcrsToItrs1 jd v = R3 (rad (earthRotationAngle jd)) *ᵥ
      (nutationMatrix jd *ᵥ (precessionMatrix jd *ᵥ (biasMatrix *ᵥ v))) := by
  constructor
  · unfold biasMatrix
    rw [biasOf_eq, neg_neg]
  · unfold gcrsToItrs1
    rw [rotateEra_eq]
    congr 2
    unfold rad; ring

example : Rotation biasMatrix ∧ biasMatrix ≠ 1 := by
  refine ⟨bias_rotation, fun h => ?_⟩
  have hp := Real.pi_pos
  have h2 := congrFun (congrFun h 0) 2
  simp only [biasMatrix, biasOf, arcsec, rad] at h2
  simp at h2
  rw [Real.sin_eq_zero_iff_of_lt_of_lt] at h2 <;> nlinarith [Real.pi_gt_three, Real.pi_lt_four]

/-! ### C48 -/

theorem lvlh_rows (r v : Vec) (h : r ⨯₃ v ≠ 0) :
    let z : Vec := -((vnorm r)⁻¹ • r)
    let y : Vec := -((vnorm (r ⨯₃ v))⁻¹ • (r ⨯₃ v))
    z ⬝ᵥ z = 1 ∧ y ⬝ᵥ y = 1 ∧ y ⬝ᵥ z = 0 := by
  intro z y
  have hr : r ≠ 0 := by
    rintro rfl
    exact h (by simp)
  have hr' := (vnorm_pos hr).ne'
  have hw' := (vnorm_pos h).ne'
  refine ⟨?_, ?_, ?_⟩
  · simp only [z, neg_dotProduct_neg, smul_dotProduct, dotProduct_smul, smul_eq_mul,
      ← vnorm_mul_self]
    field_simp
  · simp only [y, neg_dotProduct_neg, smul_dotProduct, dotProduct_smul, smul_eq_mul,
      ← vnorm_mul_self]
    field_simp
  · simp only [y, z, neg_dotProduct_neg, smul_dotProduct, dotProduct_smul, smul_eq_mul]
    rw [dotProduct_comm, dot_self_cross]
    ring

theorem lvlh_rotation (r v : Vec) (h : r ⨯₃ v ≠ 0) : Rotation (lvlhMatrix r v) := by
  obtain ⟨hz, hy, hyz⟩ := lvlh_rows r v h
  rw [rotation_iff]
  unfold lvlhMatrix
  simp only
  set z : Vec := -((vnorm r)⁻¹ • r)
  set y : Vec := -((vnorm (r ⨯₃ v))⁻¹ • (r ⨯₃ v))
  have hxx : (y ⨯₃ z) ⬝ᵥ (y ⨯₃ z) = 1 := by
    rw [cross_dot_cross, hz, hy, hyz, dotProduct_comm z y, hyz]; ring
  have hxy : (y ⨯₃ z) ⬝ᵥ y = 0 := by rw [dotProduct_comm, dot_self_cross]
  have hxz : (y ⨯₃ z) ⬝ᵥ z = 0 := by rw [dotProduct_comm, dot_cross_self]
  constructor
  · ext i j
    have e : ∀ m : Mat, (m * mᵀ) i j = m i ⬝ᵥ m j := fun m => rfl
    rw [e]
    fin_cases i <;> fin_cases j
    · exact hxx
    · exact hxy
    · exact hxz
    · exact (dotProduct_comm _ _).trans hxy
    · exact hy
    · exact hyz
    · exact (dotProduct_comm _ _).trans hxz
    · exact (dotProduct_comm _ _).trans hyz
    · exact hz
  · have := triple_product_eq_det (y ⨯₃ z) y z
    rw [hxx] at this
    exact this.symm

/-- C48: for every state with non-zero angular momentum the LVLH matrix is a proper rotation; it
maps the position to (0, 0, -r) and the velocity into the x-z plane with positive x component. -/
theorem C48_lvlh_frame (r v : Vec) (h : r ⨯₃ v ≠ 0) :
    Rotation (lvlhMatrix r v) ∧
    (gcrsToLvlh1 r v).1 = ![0, 0, -‖toE r‖] ∧
    (gcrsToLvlh1 r v).2 1 = 0 ∧ 0 < (gcrsToLvlh1 r v).2 0 := by
  have hr : r ≠ 0 := by
    rintro rfl
    exact h (by simp)
  have hr' := vnorm_pos hr
  have hw' := vnorm_pos h
  refine ⟨lvlh_rotation r v h, ?_, ?_, ?_⟩
  · rw [norm_toE]
    ext i
    fin_cases i
    · show ((-((vnorm (r ⨯₃ v))⁻¹ • (r ⨯₃ v))) ⨯₃ (-((vnorm r)⁻¹ • r))) ⬝ᵥ r = 0
      rw [dotProduct_comm, ← triple_product_permutation, ← triple_product_permutation]
      simp
    · show (-((vnorm (r ⨯₃ v))⁻¹ • (r ⨯₃ v))) ⬝ᵥ r = 0
      rw [neg_dotProduct, smul_dotProduct, dotProduct_comm, dot_self_cross]
      simp
    · show (-((vnorm r)⁻¹ • r)) ⬝ᵥ r = -vnorm r
      rw [neg_dotProduct, smul_dotProduct, ← vnorm_mul_self]
      rw [smul_eq_mul]
      field_simp
  · show (-((vnorm (r ⨯₃ v))⁻¹ • (r ⨯₃ v))) ⬝ᵥ v = 0
    rw [neg_dotProduct, smul_dotProduct, dotProduct_comm, dot_cross_self]
    simp
  · show 0 < ((-((vnorm (r ⨯₃ v))⁻¹ • (r ⨯₃ v))) ⨯₃ (-((vnorm r)⁻¹ • r))) ⬝ᵥ v
    have e : ((-((vnorm (r ⨯₃ v))⁻¹ • (r ⨯₃ v))) ⨯₃ (-((vnorm r)⁻¹ • r))) ⬝ᵥ v =
        (vnorm (r ⨯₃ v))⁻¹ * (vnorm r)⁻¹ * ((r ⨯₃ v) ⬝ᵥ (r ⨯₃ v)) := by
      rw [dotProduct_comm, triple_product_permutation]
      simp only [map_neg, map_smul, LinearMap.neg_apply, LinearMap.smul_apply, neg_dotProduct,
        smul_dotProduct, dotProduct_neg, dotProduct_smul, smul_eq_mul, neg_neg]
      ring
    rw [e, ← vnorm_mul_self]
    positivity

/-- C48: the matrix depends only on the directions of position and velocity. -/
theorem C48_scale_invariant (r v : Vec) (a b : ℝ) (ha : 0 < a) (hb : 0 < b) :
    lvlhMatrix (a • r) (b • v) = lvlhMatrix r v := by
  have e1 : (vnorm (a • r))⁻¹ • (a • r) = (vnorm r)⁻¹ • r := by
    rw [vnorm_smul, abs_of_pos ha, smul_smul]
    congr 1
    field_simp
  have hab : (a • r) ⨯₃ (b • v) = (a * b) • (r ⨯₃ v) := by
    rw [map_smul, map_smul, LinearMap.smul_apply, smul_smul, mul_comm b a]
  have e2 : (vnorm ((a • r) ⨯₃ (b • v)))⁻¹ • ((a • r) ⨯₃ (b • v)) =
      (vnorm (r ⨯₃ v))⁻¹ • (r ⨯₃ v) := by
    rw [hab, vnorm_smul, abs_of_pos (mul_pos ha hb), smul_smul]
    congr 1
    have := mul_pos ha hb
    field_simp
  unfold lvlhMatrix
  simp only [e1, e2]

/-- A state with non-zero angular momentum. -/
example : (![7000, 0, 0] : Vec) ⨯₃ ![0, 7.5, 1] ≠ 0 := by
  intro h
  have := congrFun h 2
  simp [cross_apply] at this
  norm_num at this

/-! ### C49 -/

theorem arctan2_polar (y x r : ℝ) (hr : 0 < r) (h : x ^ 2 + y ^ 2 = r ^ 2) :
    r * Real.cos (arctan2 y x) = x ∧ r * Real.sin (arctan2 y x) = y := by
  have hne : (⟨x, y⟩ : ℂ) ≠ 0 := by
    intro h0
    have hx : x = 0 := congrArg Complex.re h0
    have hy : y = 0 := congrArg Complex.im h0
    rw [hx, hy] at h
    nlinarith [pow_pos hr 2]
  have hn : ‖(⟨x, y⟩ : ℂ)‖ = r := by
    rw [Complex.norm_def, Complex.normSq_mk, ← pow_two, ← pow_two, h, Real.sqrt_sq hr.le]
  unfold arctan2
  rw [Complex.cos_arg hne, Complex.sin_arg, hn]
  constructor <;> field_simp

/-- Roll, pitch and yaw for a satellite on the negative third axis. -/
theorem attitudeOf_eq (rho : ℝ) (hrho : 0 < rho) (ground : Vec)
    (g : Vec) (hg : g = (vnorm (ground - ![0, 0, -rho]))⁻¹ • (ground - ![0, 0, -rho])) :
    attitudeOf ![0, 0, -rho] ground =
      (Real.arcsin (g 1), arctan2 (-g 0) (1 - (g 1 ^ 2 + g 0 ^ 2) / (1 + g 2)),
        arctan2 (-(g 1) * g 0 / (1 + g 2)) (1 - g 1 ^ 2 / (1 + g 2))) := by
  have hs : -((vnorm (![0, 0, -rho] : Vec))⁻¹ • (![0, 0, -rho] : Vec)) = ![0, 0, 1] := by
    have : vnorm (![0, 0, -rho] : Vec) = rho := by
      unfold vnorm
      simp [dotProduct, Fin.sum_univ_three, Real.sqrt_mul_self hrho.le]
    rw [this]
    ext i
    fin_cases i <;> simp [hrho.ne']
  unfold attitudeOf
  simp only [hs, ← hg]
  simp [cross_apply, dotProduct, Fin.sum_univ_three, Real.arcsin_neg]

/-- The rotation given by the three returned angles, in the order pitch, roll, yaw. -/
noncomputable def attitudeMatrix (angles : ℝ × ℝ × ℝ) : Mat :=
  R3 angles.2.2 * (R1 angles.1 * R2 angles.2.1)

theorem attitude_core (g : Vec) (hunit : g ⬝ᵥ g = 1) (hup : g 2 ≠ -1) (hside : g 1 ^ 2 < 1) :
    let angles := (Real.arcsin (g 1), arctan2 (-g 0) (1 - (g 1 ^ 2 + g 0 ^ 2) / (1 + g 2)),
      arctan2 (-(g 1) * g 0 / (1 + g 2)) (1 - g 1 ^ 2 / (1 + g 2)))
    attitudeMatrix angles *ᵥ ![0, 0, 1] = g ∧
      (attitudeMatrix angles)ᵀ *ᵥ ![0, 0, 1] = ![-g 0, -g 1, g 2] ∧
      Real.cos angles.1 * Real.cos angles.2.1 = g 2 := by
  intro angles
  have hu : g 0 ^ 2 + g 1 ^ 2 + g 2 ^ 2 = 1 := by
    simp only [dotProduct, Fin.sum_univ_three] at hunit
    linarith
  have h1 : (1 + g 2) ≠ 0 := fun h => hup (by linarith)
  have hb : -1 ≤ g 1 ∧ g 1 ≤ 1 := by
    constructor <;> nlinarith
  have hsin : Real.sin (Real.arcsin (g 1)) = g 1 := Real.sin_arcsin hb.1 hb.2
  have hcos : Real.cos (Real.arcsin (g 1)) = Real.sqrt (1 - g 1 ^ 2) := Real.cos_arcsin _
  have hcp : 0 < Real.sqrt (1 - g 1 ^ 2) := Real.sqrt_pos.2 (by linarith)
  have hcsq : Real.sqrt (1 - g 1 ^ 2) ^ 2 = 1 - g 1 ^ 2 := Real.sq_sqrt (by linarith)
  have ha33 : 1 - (g 1 ^ 2 + g 0 ^ 2) / (1 + g 2) = g 2 := by
    field_simp
    linear_combination -hu
  have hpitch := arctan2_polar (-g 0) (1 - (g 1 ^ 2 + g 0 ^ 2) / (1 + g 2)) _ hcp
    (by rw [ha33, hcsq]; linear_combination hu)
  have hyaw := arctan2_polar (-(g 1) * g 0 / (1 + g 2)) (1 - g 1 ^ 2 / (1 + g 2)) _ hcp (by
    rw [hcsq]
    field_simp
    linear_combination g 1 ^ 2 * hu)
  rw [ha33] at hpitch
  simp only [angles]
  rw [ha33]
  set c := Real.sqrt (1 - g 1 ^ 2)
  have hc0 := hcp.ne'
  obtain ⟨p1, p2⟩ := hpitch
  obtain ⟨y1, y2⟩ := hyaw
  set P := arctan2 (-g 0) (g 2)
  set Y := arctan2 (-(g 1) * g 0 / (1 + g 2)) (1 - g 1 ^ 2 / (1 + g 2))
  have p1' : Real.cos P = g 2 / c := by rw [← p1]; field_simp
  have p2' : Real.sin P = -g 0 / c := by rw [← p2]; field_simp
  have y1' : Real.cos Y = (1 - g 1 ^ 2 / (1 + g 2)) / c := by rw [← y1]; field_simp
  have y2' : Real.sin Y = (-(g 1) * g 0 / (1 + g 2)) / c := by rw [← y2]; field_simp
  have hc2 : c ^ 2 = 1 - g 1 ^ 2 := hcsq
  refine ⟨?_, ?_, ?_⟩
  · ext i
    fin_cases i
    · simp [attitudeMatrix, R1, R2, R3, Matrix.mulVec, dotProduct, Fin.sum_univ_three,
        Matrix.mul_apply, hsin, hcos, p1', p2', y1', y2']
      field_simp
      rw [hc2]
      ring
    · simp [attitudeMatrix, R1, R2, R3, Matrix.mulVec, dotProduct, Fin.sum_univ_three,
        Matrix.mul_apply, hsin, hcos, p1', p2', y1', y2']
      field_simp
      rw [hc2]
      linear_combination g 1 * hu
    · simp [attitudeMatrix, R1, R2, R3, Matrix.mulVec, dotProduct, Fin.sum_univ_three,
        Matrix.mul_apply, hsin, hcos, p1', p2', y1', y2']
      field_simp
  · ext i
    fin_cases i
    · simp [attitudeMatrix, R1, R2, R3, Matrix.mulVec, dotProduct, Fin.sum_univ_three,
        Matrix.mul_apply, hsin, hcos, p1', p2', y1', y2', Matrix.transpose_apply]
      field_simp
    · simp [attitudeMatrix, R1, R2, R3, Matrix.mulVec, dotProduct, Fin.sum_univ_three,
        Matrix.mul_apply, hsin, hcos, p1', p2', y1', y2', Matrix.transpose_apply]
    · simp [attitudeMatrix, R1, R2, R3, Matrix.mulVec, dotProduct, Fin.sum_univ_three,
        Matrix.mul_apply, hsin, hcos, p1', p2', y1', y2', Matrix.transpose_apply]
      field_simp
  · rw [hcos, p1']
    field_simp

/-- The line of sight from the satellite to the target, in the LVLH frame and in kilometres. -/
noncomputable def lineOfSight (jd posUnit : ℝ) (position velocity : Vec) (g : Ground) : Vec :=
  lvlhMatrix (itrsToGcrs1 jd position) (itrsToGcrs1 jd velocity) *ᵥ
    itrsToGcrs1 jd (g.itrs - posUnit • position)

theorem itrsToGcrs1_linear (jd : ℝ) (u v : Vec) (a : ℝ) :
    itrsToGcrs1 jd (u - a • v) = itrsToGcrs1 jd u - a • itrsToGcrs1 jd v := by
  obtain ⟨m, -, -, h'⟩ := (C47_rotations jd).2.2.2.1
  rw [h', h', h', Matrix.mulVec_sub, Matrix.mulVec_smul]

theorem attitude_eq (jd posUnit velUnit : ℝ) (position velocity : Vec) (g : Ground)
    (hp : 0 < posUnit) (hv : 0 < velUnit)
    (hstate : itrsToGcrs1 jd position ⨯₃ itrsToGcrs1 jd velocity ≠ 0) :
    let n := lineOfSight jd posUnit position velocity g
    let los := ‖toE n‖⁻¹ • n
    attitude jd posUnit velUnit position velocity g =
      (Real.arcsin (los 1), arctan2 (-los 0) (1 - (los 1 ^ 2 + los 0 ^ 2) / (1 + los 2)),
        arctan2 (-(los 1) * los 0 / (1 + los 2)) (1 - los 1 ^ 2 / (1 + los 2))) := by
  intro n los
  have hr : itrsToGcrs1 jd position ≠ 0 := by
    intro h
    rw [h] at hstate
    exact hstate (by simp)
  have hpos := (C48_lvlh_frame _ _ hstate).2.1
  have hrho : 0 < posUnit * ‖toE (itrsToGcrs1 jd position)‖ := by
    rw [norm_toE]
    exact mul_pos hp (vnorm_pos hr)
  have e1 : posUnit • (gcrsToLvlh1 (itrsToGcrs1 jd position) (itrsToGcrs1 jd velocity)).1 =
      ![0, 0, -(posUnit * ‖toE (itrsToGcrs1 jd position)‖)] := by
    rw [hpos]
    ext i
    fin_cases i <;> simp
  unfold attitude
  simp only
  rw [e1, C48_scale_invariant _ _ _ _ hp hv]
  apply attitudeOf_eq _ hrho
  have e2 : lvlhMatrix (itrsToGcrs1 jd position) (itrsToGcrs1 jd velocity) *ᵥ
      itrsToGcrs1 jd g.itrs - ![0, 0, -(posUnit * ‖toE (itrsToGcrs1 jd position)‖)] = n := by
    rw [← e1]
    simp only [n, lineOfSight, gcrsToLvlh1]
    rw [itrsToGcrs1_linear, Matrix.mulVec_sub, Matrix.mulVec_smul]
  rw [e2, ← norm_toE]

theorem los_unit (n : Vec) (hn : n ≠ 0) : (‖toE n‖⁻¹ • n) ⬝ᵥ (‖toE n‖⁻¹ • n) = 1 := by
  have := (vnorm_pos hn).ne'
  rw [norm_toE, smul_dotProduct, dotProduct_smul, ← vnorm_mul_self, smul_eq_mul, smul_eq_mul]
  field_simp

/-- C49: at every instant, for every state with non-zero angular momentum and every target other
than the satellite itself, if the line of sight is not straight up and not along the orbit normal,
the rotation by pitch, then roll, then yaw carries the nadir axis onto the line of sight, and
`cos roll * cos pitch` is the cosine of the off-nadir angle.  The excluded directions are those
where the code divides by zero or roll is ±90 degrees. -/
theorem C49_points_at_target_partial (jd posUnit velUnit : ℝ) (position velocity : Vec) (g : Ground)
    (hp : 0 < posUnit) (hv : 0 < velUnit)
    (hstate : itrsToGcrs1 jd position ⨯₃ itrsToGcrs1 jd velocity ≠ 0)
    (htarget : g.itrs ≠ posUnit • position)
    (los : Vec)
    (hlos : los = ‖toE (lineOfSight jd posUnit position velocity g)‖⁻¹ •
      lineOfSight jd posUnit position velocity g)
    (hup : los 2 ≠ -1) (hside : los 1 ^ 2 < 1) :
    let a := attitude jd posUnit velUnit position velocity g
    (R3 a.2.2 * (R1 a.1 * R2 a.2.1)) *ᵥ ![0, 0, 1] = los ∧
    Real.cos a.1 * Real.cos a.2.1 = los 2 := by
  have hn : lineOfSight jd posUnit position velocity g ≠ 0 := by
    intro h
    apply htarget
    have h1 := congrArg (fun w => (lvlhMatrix (itrsToGcrs1 jd position)
      (itrsToGcrs1 jd velocity))⁻¹ *ᵥ w) h
    simp only [lineOfSight, (lvlh_rotation _ _ hstate).inv_mulVec, Matrix.mulVec_zero] at h1
    have h2 := congrArg (gcrsToItrs1 jd) h1
    rw [itrs_gcrs1] at h2
    obtain ⟨m, -, h3, -⟩ := (C47_rotations jd).2.2.2.1
    rw [h3, Matrix.mulVec_zero] at h2
    exact sub_eq_zero.1 h2
  have hunit : los ⬝ᵥ los = 1 := by rw [hlos]; exact los_unit _ hn
  have h := attitude_core los hunit hup hside
  intro a
  have ha := attitude_eq jd posUnit velUnit position velocity g hp hv hstate
  simp only [← hlos] at ha
  have ha' : a = _ := ha
  rw [ha']
  exact ⟨h.1, h.2.2⟩

/-- C49: read as the attitude matrix of the body (rows are the body axes in the LVLH frame) the
same angles point the body's third axis at the mirror image of the target through the nadir
axis. -/
theorem C49_body_axis_mirrored (jd posUnit velUnit : ℝ) (position velocity : Vec) (g : Ground)
    (hp : 0 < posUnit) (hv : 0 < velUnit)
    (hstate : itrsToGcrs1 jd position ⨯₃ itrsToGcrs1 jd velocity ≠ 0)
    (los : Vec)
    (hlos : los = ‖toE (lineOfSight jd posUnit position velocity g)‖⁻¹ •
      lineOfSight jd posUnit position velocity g)
    (hunit : los ⬝ᵥ los = 1)
    (hup : los 2 ≠ -1) (hside : los 1 ^ 2 < 1) :
    let a := attitude jd posUnit velUnit position velocity g
    (R3 a.2.2 * (R1 a.1 * R2 a.2.1)) 2 = ![-los 0, -los 1, los 2] := by
  have h := attitude_core los hunit hup hside
  intro a
  have ha := attitude_eq jd posUnit velUnit position velocity g hp hv hstate
  simp only [← hlos] at ha
  have ha' : a = _ := ha
  rw [ha']
  refine Eq.trans ?_ h.2.1
  ext i
  simp [Matrix.mulVec, dotProduct, Fin.sum_univ_three, attitudeMatrix]

/-- C49: a target straight below the satellite needs zero roll, pitch and yaw. -/
theorem C49_nadir (jd posUnit velUnit : ℝ) (position velocity : Vec) (g : Ground)
    (hp : 0 < posUnit) (hv : 0 < velUnit)
    (hstate : itrsToGcrs1 jd position ⨯₃ itrsToGcrs1 jd velocity ≠ 0)
    (k : ℝ) (hk : k < 1) (hnadir : g.itrs = k • (posUnit • position)) :
    attitude jd posUnit velUnit position velocity g = (0, 0, 0) := by
  have hr : itrsToGcrs1 jd position ≠ 0 := by
    intro h
    rw [h] at hstate
    exact hstate (by simp)
  set rho := ‖toE (itrsToGcrs1 jd position)‖ with hrho
  have hrp : 0 < rho := by rw [hrho, norm_toE]; exact vnorm_pos hr
  have hn : lineOfSight jd posUnit position velocity g = ![0, 0, (1 - k) * posUnit * rho] := by
    unfold lineOfSight
    obtain ⟨m, -, -, h'⟩ := (C47_rotations jd).2.2.2.1
    have e : g.itrs - posUnit • position = ((k - 1) * posUnit) • position := by
      rw [hnadir]; ext i; simp; ring
    have hpos : lvlhMatrix _ _ *ᵥ itrsToGcrs1 jd position = _ := (C48_lvlh_frame _ _ hstate).2.1
    have e' : itrsToGcrs1 jd (((k - 1) * posUnit) • position) =
        ((k - 1) * posUnit) • itrsToGcrs1 jd position := by
      rw [h', h', Matrix.mulVec_smul]
    rw [e, e', Matrix.mulVec_smul, hpos]
    ext i
    fin_cases i <;> simp
    ring
  have hc : 0 < (1 - k) * posUnit * rho := mul_pos (mul_pos (by linarith) hp) hrp
  have hnn : ‖toE (![0, 0, (1 - k) * posUnit * rho] : Vec)‖ = (1 - k) * posUnit * rho := by
    rw [norm_toE]
    unfold vnorm
    simp only [dotProduct, Fin.sum_univ_three]
    simp [Real.sqrt_mul_self hc.le]
  have ha := attitude_eq jd posUnit velUnit position velocity g hp hv hstate
  simp only [hn, hnn] at ha
  rw [ha]
  have a1 : arctan2 0 1 = 0 := by
    unfold arctan2
    exact Complex.arg_one
  have hk1 : (1 - k) ≠ 0 := by linarith
  simp [hc.ne', hp.ne', hrp.ne', hk1, a1]

/-- A satellite farther from the centre of the Earth than the target sees it below its local
horizontal plane, away from the excluded directions. -/
theorem los_down (jd posUnit : ℝ) (position velocity : Vec) (g : Ground)
    (hstate : itrsToGcrs1 jd position ⨯₃ itrsToGcrs1 jd velocity ≠ 0)
    (hfar : ‖toE g.itrs‖ < ‖toE (posUnit • position)‖) (hp : 0 < posUnit) :
    0 < lineOfSight jd posUnit position velocity g 2 := by
  obtain ⟨m, hm, -, h'⟩ := (C47_rotations jd).2.2.2.1
  have hr : itrsToGcrs1 jd position ≠ 0 := by
    intro h
    rw [h] at hstate
    exact hstate (by simp)
  unfold lineOfSight
  rw [itrsToGcrs1_linear]
  have hG : vnorm (itrsToGcrs1 jd g.itrs) = ‖toE g.itrs‖ := by rw [h', hm.inv.vnorm, norm_toE]
  have hR : posUnit * vnorm (itrsToGcrs1 jd position) = ‖toE (posUnit • position)‖ := by
    rw [h', hm.inv.vnorm, norm_toE, vnorm_smul, abs_of_pos hp]
  generalize itrsToGcrs1 jd position = r at *
  generalize itrsToGcrs1 jd velocity = v at *
  generalize itrsToGcrs1 jd g.itrs = G at *
  have hrp := vnorm_pos hr
  show 0 < (-((vnorm r)⁻¹ • r)) ⬝ᵥ (G - posUnit • r)
  have hcs : r ⬝ᵥ G ≤ vnorm r * vnorm G := by
    have := real_inner_le_norm (toE G) (toE r)
    rw [inner_toE, norm_toE, norm_toE] at this
    rw [dotProduct_comm]
    linarith
  have e : (-((vnorm r)⁻¹ • r)) ⬝ᵥ (G - posUnit • r) =
      (vnorm r)⁻¹ * (posUnit * (vnorm r * vnorm r) - r ⬝ᵥ G) := by
    rw [neg_dotProduct, smul_dotProduct, dotProduct_sub, dotProduct_smul, ← vnorm_mul_self]
    simp only [smul_eq_mul]
    ring
  rw [e]
  refine mul_pos (inv_pos.2 hrp) ?_
  rw [← hG, ← hR] at hfar
  nlinarith

/-- C49: at every instant, for every state with non-zero angular momentum and every target closer
to the centre of the Earth than the satellite, the rotation by pitch, then roll, then yaw carries
the nadir axis onto the line of sight. -/
theorem C49_points_at_target (jd posUnit velUnit : ℝ) (position velocity : Vec) (g : Ground)
    (hp : 0 < posUnit) (hv : 0 < velUnit)
    (hstate : itrsToGcrs1 jd position ⨯₃ itrsToGcrs1 jd velocity ≠ 0)
    (hfar : ‖toE g.itrs‖ < ‖toE (posUnit • position)‖) :
    let n := lineOfSight jd posUnit position velocity g
    let a := attitude jd posUnit velUnit position velocity g
    (R3 a.2.2 * (R1 a.1 * R2 a.2.1)) *ᵥ ![0, 0, 1] = ‖toE n‖⁻¹ • n ∧
    Real.cos a.1 * Real.cos a.2.1 = ‖toE n‖⁻¹ * n 2 := by
  intro n
  have hd : 0 < n 2 := los_down jd posUnit position velocity g hstate hfar hp
  have hn : n ≠ 0 := by
    intro h
    rw [h] at hd
    exact lt_irrefl _ hd
  have hpos : 0 < ‖toE n‖ := by rw [norm_toE]; exact vnorm_pos hn
  have hd' : 0 < (‖toE n‖⁻¹ • n) 2 := mul_pos (inv_pos.2 hpos) hd
  have hu := los_unit n hn
  simp only [dotProduct, Fin.sum_univ_three] at hu
  refine C49_points_at_target_partial jd posUnit velUnit position velocity g hp hv hstate
    (fun h => ?_) (‖toE n‖⁻¹ • n) rfl (by linarith) ?_
  · rw [h] at hfar
    exact lt_irrefl _ hfar
  · nlinarith [mul_pos hd' hd', mul_self_nonneg ((‖toE n‖⁻¹ • n) 0)]

/-- Roll and pitch alone are not enough: without the yaw rotation the nadir axis reaches the line
of sight only if the target is in the orbital plane or straight ahead. -/
theorem C49_needs_yaw (g : Vec) (hunit : g ⬝ᵥ g = 1) (hup : g 2 ≠ -1) (hside : g 1 ^ 2 < 1)
    (h0 : g 0 ≠ 0) (h1 : g 1 ≠ 0) :
    (R1 (Real.arcsin (g 1)) * R2 (arctan2 (-g 0) (1 - (g 1 ^ 2 + g 0 ^ 2) / (1 + g 2)))) *ᵥ
      ![0, 0, 1] ≠ g := by
  have hu : g 0 ^ 2 + g 1 ^ 2 + g 2 ^ 2 = 1 := by
    simp only [dotProduct, Fin.sum_univ_three] at hunit
    linarith
  have h1' : (1 + g 2) ≠ 0 := fun h => hup (by linarith)
  have hb : -1 ≤ g 1 ∧ g 1 ≤ 1 := by
    constructor <;> nlinarith
  have hcp : 0 < Real.sqrt (1 - g 1 ^ 2) := Real.sqrt_pos.2 (by linarith)
  have hcsq : Real.sqrt (1 - g 1 ^ 2) ^ 2 = 1 - g 1 ^ 2 := Real.sq_sqrt (by linarith)
  have ha33 : 1 - (g 1 ^ 2 + g 0 ^ 2) / (1 + g 2) = g 2 := by
    field_simp
    linear_combination -hu
  rw [ha33]
  have hpitch := arctan2_polar (-g 0) (g 2) _ hcp (by rw [hcsq]; linear_combination hu)
  intro h
  have e0 := congrFun h 0
  simp [R1, R2, Matrix.mulVec, dotProduct, Fin.sum_univ_three, Matrix.mul_apply] at e0
  have : Real.sqrt (1 - g 1 ^ 2) * g 0 = g 0 := by
    have h2 := hpitch.2
    have e1 : Real.sin (arctan2 (-g 0) (g 2)) = -g 0 := by linarith
    rw [e1] at h2
    linarith
  have hc1 : Real.sqrt (1 - g 1 ^ 2) = 1 := by
    have := mul_right_cancel₀ h0 (this.trans (one_mul _).symm)
    exact this
  rw [hc1] at hcsq
  exact h1 (pow_eq_zero_iff (two_ne_zero) |>.1 (by linarith))

/-- Instance of the hypotheses: at every instant, a state at 7000 km and a target on the equator
that is in general not at nadir. -/
example (jd : ℝ) : ∃ position velocity : Vec,
    itrsToGcrs1 jd position ⨯₃ itrsToGcrs1 jd velocity ≠ 0 ∧
    ‖toE (Ground.itrs ⟨0, 0, 0⟩)‖ < ‖toE ((1 : ℝ) • position)‖ := by
  refine ⟨gcrsToItrs1 jd ![7000, 0, 0], gcrsToItrs1 jd ![0, 7, 0], ?_, ?_⟩
  · rw [gcrs_itrs1, gcrs_itrs1]
    intro h
    have := congrFun h 2
    simp [cross_apply] at this
  · obtain ⟨m, hm, h3, -⟩ := (C47_rotations jd).2.2.2.1
    rw [one_smul, norm_toE, norm_toE, h3, hm.vnorm]
    unfold vnorm
    apply Real.sqrt_lt_sqrt
    · simp only [dotProduct, Fin.sum_univ_three]
      nlinarith [mul_self_nonneg (Ground.itrs ⟨0, 0, 0⟩ 0),
        mul_self_nonneg (Ground.itrs ⟨0, 0, 0⟩ 1), mul_self_nonneg (Ground.itrs ⟨0, 0, 0⟩ 2)]
    · simp [Ground.itrs, primeVertical, axisA, dotProduct, Fin.sum_univ_three]
      norm_num

end Celest.Frames
