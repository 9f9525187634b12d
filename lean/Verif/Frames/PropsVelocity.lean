/-
C131: velocities and the rotation of the Earth.
-/
import Verif.Frames.LemmasVelocity
import Verif.Frames.PropsSatellite
import Verif.Frames.PropsGeo
import Verif.Frames.LemmasRoundedAttitude

namespace Celest.Frames

open Matrix Celest.TimeScale

/-! ### The rate of change of the converted position -/

private theorem rotateEra_add (u v : Vec) (a : ℝ) :
    rotateEra (u + v) a = rotateEra u a + rotateEra v a := by
  rw [rotateEra_eq, rotateEra_eq, rotateEra_eq, Matrix.mulVec_add]

private theorem vnorm_rotateEra (v : Vec) (a : ℝ) : vnorm (rotateEra v a) = vnorm v := by
  rw [rotateEra_eq, (R3_rotation _).vnorm]

theorem vnorm_gcrsToItrs1 (t : ℝ) (v : Vec) : vnorm (gcrsToItrs1 t v) = vnorm v := by
  obtain ⟨m, hm, h⟩ := gcrsToItrs1_rotation t
  rw [h, hm.vnorm]

/-- **C131.** What the rate of change of the ITRS position is.  If a point moves with velocity `v`
in the GCRS frame, its ITRS position has a rate of change, and this is the rotated velocity plus the
velocity due to the rotation of the Earth, up to precession and nutation, which turn by less than
2.2 microradians a day. -/
theorem C131_rate (p : ℝ → Vec) (t : ℝ) (v : Vec) (hp : Rate p t v)
    (ht : |t - 2451545| < 365250) :
    let r := gcrsToItrs1 t (p t)
    ∃ w, Rate (fun τ => gcrsToItrs1 τ (p τ)) t w ∧
      ‖toE (w - (gcrsToItrs1 t v + rad 360.9856123035484 • ![r 1, -r 0, 0]))‖ ≤
        2.2e-6 * ‖toE r‖ := by
  intro r
  have hy : Rate (fun τ => biasMatrix *ᵥ p τ) t (biasMatrix *ᵥ v) := fun i => by
    have g := fun j => (hp j).const_mul (biasMatrix i j)
    have := ((g 0).add (g 1)).add (g 2)
    simp only [Matrix.mulVec, dotProduct, Fin.sum_univ_three]
    exact this
  obtain ⟨d, hx, hd⟩ := pn_rate hy ht
  have eF : ∀ τ u, gcrsToItrs1 τ u = rotateEra ((nutationMatrix τ * precessionMatrix τ) *ᵥ
      (biasMatrix *ᵥ u)) (-earthRotationAngle τ) := fun τ u => by
    unfold gcrsToItrs1; rw [Matrix.mulVec_mulVec]
  set x : ℝ → Vec := fun τ => (nutationMatrix τ * precessionMatrix τ) *ᵥ (biasMatrix *ᵥ p τ)
    with hxdef
  set x' : Vec := (nutationMatrix t * precessionMatrix t) *ᵥ (biasMatrix *ᵥ v) + d with hx'
  set a : ℝ → ℝ := fun τ => earthSpin * (τ - 2451545) + rad 280.46 with ha
  have da : HasDerivAt a earthSpin t := by
    have := (((hasDerivAt_id t).sub_const 2451545).const_mul earthSpin).add_const (rad 280.46)
    simpa [ha] using this
  have dc := da.cos
  have ds := da.sin
  refine ⟨rotateEra x' (-earthRotationAngle t) + earthSpin • ![r 1, -r 0, 0], fun i => ?_, ?_⟩
  · have e : (fun τ => gcrsToItrs1 τ (p τ) i) = fun τ =>
        (![Real.cos (a τ) * x τ 0 + Real.sin (a τ) * x τ 1,
          -Real.sin (a τ) * x τ 0 + Real.cos (a τ) * x τ 1, x τ 2] : Vec) i := by
      funext τ
      rw [eF, rotateEra_raw]
    have er : r = ![Real.cos (a t) * x t 0 + Real.sin (a t) * x t 1,
          -Real.sin (a t) * x t 0 + Real.cos (a t) * x t 1, x t 2] := by
      show gcrsToItrs1 t (p t) = _
      rw [eF, rotateEra_raw]
    rw [e, rotateEra_raw, er]
    fin_cases i
    · have := (dc.mul (hx 0)).add (ds.mul (hx 1))
      simp only [Fin.zero_eta, Fin.isValue, Matrix.cons_val_zero]
      refine this.congr_deriv ?_
      simp [ha]
      ring
    · have := (ds.neg.mul (hx 0)).add (dc.mul (hx 1))
      simp only [Fin.mk_one, Fin.isValue, Matrix.cons_val_one, Matrix.cons_val_zero]
      refine this.congr_deriv ?_
      simp [ha]
      ring
    · have := hx 2
      simp only [Fin.reduceFinMk, Fin.isValue, Matrix.cons_val]
      refine this.congr_deriv ?_
      simp
  · have e : rotateEra x' (-earthRotationAngle t) + earthSpin • ![r 1, -r 0, 0] -
        (gcrsToItrs1 t v + rad 360.9856123035484 • ![r 1, -r 0, 0]) =
        rotateEra d (-earthRotationAngle t) := by
      rw [hx', rotateEra_add, eF t v, show rad 360.9856123035484 = earthSpin from rfl]
      abel
    rw [e, norm_toE, norm_toE, vnorm_rotateEra]
    refine hd.trans (le_of_eq ?_)
    rw [bias_rotation.vnorm, show vnorm r = vnorm (p t) from vnorm_gcrsToItrs1 t (p t)]

/-- A point has only one velocity. -/
theorem Rate.unique {p : ℝ → Vec} {t : ℝ} {v w : Vec} (hv : Rate p t v) (hw : Rate p t w) : v = w :=
  funext fun i => (hv i).unique (hw i)

theorem spin_bounds : 6.3 ≤ rad 360.9856123035484 ∧ rad 360.9856123035484 ≤ 6.301 := by
  unfold rad
  constructor <;> linarith [Real.pi_gt_d4, Real.pi_lt_d4]

/-- The stored velocity is off from the rate of change of the stored position by the velocity of
the Earth's rotation. -/
theorem velocity_off {p : ℝ → Vec} {t : ℝ} {v w : Vec} (hp : Rate p t v)
    (ht : |t - 2451545| < 365250) (hw : Rate (fun τ => gcrsToItrs1 τ (p τ)) t w) :
    let r := gcrsToItrs1 t (p t)
    6.3 * axisDistance r - 2.2e-6 * ‖toE r‖ ≤ ‖toE (gcrsToItrs1 t v - w)‖ := by
  intro r
  obtain ⟨w', hw', hb⟩ := C131_rate p t v hp ht
  rw [hw'.unique hw] at hb
  change ‖toE (w - (gcrsToItrs1 t v + rad 360.9856123035484 • ![r 1, -r 0, 0]))‖ ≤
    2.2e-6 * ‖toE r‖ at hb
  have hn : ‖toE ((![r 1, -r 0, 0] : Vec))‖ = axisDistance r := by
    rw [norm_toE]
    unfold vnorm axisDistance
    congr 1
    simp [dotProduct, Fin.sum_univ_three]
    ring
  have e : rad 360.9856123035484 • ![r 1, -r 0, 0] =
      (w - gcrsToItrs1 t v) - (w - (gcrsToItrs1 t v + rad 360.9856123035484 • ![r 1, -r 0, 0])) := by
    abel
  have h1 : rad 360.9856123035484 * axisDistance r ≤ ‖toE (w - gcrsToItrs1 t v)‖ +
      ‖toE (w - (gcrsToItrs1 t v + rad 360.9856123035484 • ![r 1, -r 0, 0]))‖ := by
    have h := norm_sub_le (toE (w - gcrsToItrs1 t v))
      (toE (w - (gcrsToItrs1 t v + rad 360.9856123035484 • ![r 1, -r 0, 0])))
    have e' : toE (w - gcrsToItrs1 t v) -
        toE (w - (gcrsToItrs1 t v + rad 360.9856123035484 • ![r 1, -r 0, 0])) =
        rad 360.9856123035484 • toE ((![r 1, -r 0, 0] : Vec)) := by
      rw [← WithLp.toLp_sub, ← e, WithLp.toLp_smul]
    rw [e', norm_smul, hn, Real.norm_eq_abs, abs_of_pos (by linarith [spin_bounds.1])] at h
    exact h
  have h2 : ‖toE (w - gcrsToItrs1 t v)‖ = ‖toE (gcrsToItrs1 t v - w)‖ := by
    rw [norm_toE, norm_toE, ← vnorm_neg]; congr 1; abel
  have a0 : 0 ≤ axisDistance r := Real.sqrt_nonneg _
  have h3 := mul_le_mul_of_nonneg_right spin_bounds.1 a0
  linarith

/-- **C131 is false.** Build a satellite from GCRS samples of a moving point and of its velocity.
The velocities the satellite stores (and saves) are not the rates of change of the positions it
stores: unless the point is within a ten-millionth of the axis of the Earth, each is off by the
speed of the Earth's rotation at that place, 6.3 times the distance from the axis per day. -/
theorem C131_stored_velocity_wrong (p v : ℝ → Vec) (times : List ℝ) (unit velUnit : ℝ)
    (s : Satellite)
    (h : Satellite.make (.gcrs ⟨unit, times.map fun t => (t, p t)⟩)
      (some (.gcrs ⟨velUnit, times.map fun t => (t, v t)⟩)) = .ok s) :
    ∃ stored : ℝ → Vec,
      s.position = ⟨unit, times.map fun t => (t, gcrsToItrs1 t (p t))⟩ ∧
      s.velocity = some ⟨velUnit, times.map fun t => (t, stored t)⟩ ∧
      ∀ t ∈ times, |t - 2451545| < 365250 → Rate p t (v t) →
        ∃ w, Rate (fun τ => gcrsToItrs1 τ (p τ)) t w ∧
          6.3 * axisDistance (gcrsToItrs1 t (p t)) - 2.2e-6 * ‖toE (gcrsToItrs1 t (p t))‖ ≤
            ‖toE (stored t - w)‖ ∧
          (4e-7 * ‖toE (gcrsToItrs1 t (p t))‖ < axisDistance (gcrsToItrs1 t (p t)) →
            stored t ≠ w) := by
  simp only [Satellite.make, toItrs, gcrsToItrs, List.map_map, Except.ok.injEq] at h
  refine ⟨fun t => gcrsToItrs1 t (v t), ?_, ?_, fun t _ ht hp => ?_⟩
  · rw [← h]; rfl
  · rw [← h]; rfl
  · obtain ⟨w, hw, -⟩ := C131_rate p t (v t) hp ht
    have hb := velocity_off hp ht hw
    refine ⟨w, hw, hb, fun hax he => ?_⟩
    simp only at he
    rw [he, sub_self] at hb
    simp only [WithLp.toLp_zero, norm_zero] at hb
    linarith [norm_nonneg (toE (gcrsToItrs1 t (p t)))]

/-! ### Attitudes -/

/-- The roll angle: the sine is the component of the line of sight along the orbit normal. -/
theorem roll_eq (t posUnit velUnit : ℝ) (q w : Vec) (g : Ground) (hp : 0 < posUnit)
    (hv : 0 < velUnit) (hqw : q ⨯₃ w ≠ 0) :
    (attitude t posUnit velUnit q w g).1 = Real.arcsin
      (-((q ⨯₃ w) ⬝ᵥ g.itrs) / (‖toE (q ⨯₃ w)‖ * ‖toE (g.itrs - posUnit • q)‖)) := by
  obtain ⟨m, hm, -, h'⟩ := (C47_rotations t).2.2.2.1
  have hm' := hm.inv
  have hc : itrsToGcrs1 t q ⨯₃ itrsToGcrs1 t w = m⁻¹ *ᵥ (q ⨯₃ w) := by
    rw [h', h', hm'.cross]
  have hs : itrsToGcrs1 t q ⨯₃ itrsToGcrs1 t w ≠ 0 := by
    intro e
    apply hqw
    rw [← vnorm_eq_zero, ← hm'.vnorm, ← hc, e, vnorm_eq_zero]
  rw [attitude_eq t posUnit velUnit q w g hp hv hs]
  simp only
  have hn : ‖toE (lineOfSight t posUnit q w g)‖ = ‖toE (g.itrs - posUnit • q)‖ := by
    unfold lineOfSight
    rw [norm_toE, norm_toE, (lvlh_rotation _ _ hs).vnorm, h', hm'.vnorm]
  have h1 : lineOfSight t posUnit q w g 1 =
      -((q ⨯₃ w) ⬝ᵥ g.itrs) / ‖toE (q ⨯₃ w)‖ := by
    unfold lineOfSight
    show (-((vnorm (itrsToGcrs1 t q ⨯₃ itrsToGcrs1 t w))⁻¹ •
      (itrsToGcrs1 t q ⨯₃ itrsToGcrs1 t w))) ⬝ᵥ itrsToGcrs1 t (g.itrs - posUnit • q) = _
    rw [hc, hm'.vnorm, h', neg_dotProduct, smul_dotProduct, hm'.dot, dotProduct_sub,
      dotProduct_smul, dotProduct_comm (q ⨯₃ w) q, dot_self_cross, norm_toE, smul_eq_mul, smul_zero,
      sub_zero]
    ring
  rw [Pi.smul_apply, h1, hn, smul_eq_mul]
  congr 1
  rw [← div_eq_inv_mul, div_div]

/-- **C131 (partial).** A satellite given in the GCRS frame is pointed with respect to its inertial
motion: the roll angle is zero exactly for targets in the plane through the centre of the Earth, the
satellite and its GCRS velocity.  Missing: the same for a satellite given in the ITRS frame, where
it is false. -/
theorem C131_inertial_attitude_partial (t posUnit velUnit : ℝ) (r v : Vec) (g : Ground)
    (hp : 0 < posUnit) (hv : 0 < velUnit) (hrv : r ⨯₃ v ≠ 0)
    (htarget : g.itrs ≠ posUnit • gcrsToItrs1 t r) :
    (attitude t posUnit velUnit (gcrsToItrs1 t r) (gcrsToItrs1 t v) g).1 = 0 ↔
      (r ⨯₃ v) ⬝ᵥ itrsToGcrs1 t g.itrs = 0 := by
  obtain ⟨m, hm, h, h'⟩ := (C47_rotations t).2.2.2.1
  have hc : gcrsToItrs1 t r ⨯₃ gcrsToItrs1 t v = m *ᵥ (r ⨯₃ v) := by rw [h, h, hm.cross]
  have hne : gcrsToItrs1 t r ⨯₃ gcrsToItrs1 t v ≠ 0 := by
    intro e
    apply hrv
    rw [← vnorm_eq_zero, ← hm.vnorm, ← hc, e, vnorm_eq_zero]
  have hd : (gcrsToItrs1 t r ⨯₃ gcrsToItrs1 t v) ⬝ᵥ g.itrs =
      (r ⨯₃ v) ⬝ᵥ itrsToGcrs1 t g.itrs := by
    rw [hc, h']
    conv_lhs => rw [← hm.mulVec_inv g.itrs]
    rw [hm.dot]
  rw [roll_eq t posUnit velUnit _ _ g hp hv hne, Real.arcsin_eq_zero_iff, hd, div_eq_zero_iff,
    neg_eq_zero]
  refine or_iff_left (mul_ne_zero ?_ ?_)
  · rw [norm_toE]; exact (vnorm_pos hne).ne'
  · rw [norm_toE]; exact (vnorm_pos (sub_ne_zero.2 htarget)).ne'

/-- **C131 is false for attitudes.** The same motion given in two frames is pointed differently.
Take a satellite moving inertially towards a target in its plane of motion, so that, given in the
GCRS frame, its roll is zero.  Given in the ITRS frame, by its ITRS position and the rate of change
of that position, it is told to roll, by an angle whose sine is the rotation of the Earth seen across
the line of sight — unless the target lies due east or west.  Here `north` points north at the
satellite, perpendicular to its position vector, and has the length of the squared distance times
the cosine of the latitude. -/
theorem C131_earth_fixed_roll (p : ℝ → Vec) (t posUnit velUnit : ℝ) (v w : Vec) (g : Ground)
    (hu : 0 < posUnit) (hv : 0 < velUnit) (hp : Rate p t v) (ht : |t - 2451545| < 365250)
    (hw : Rate (fun τ => gcrsToItrs1 τ (p τ)) t w)
    (hplane : (p t ⨯₃ v) ⬝ᵥ itrsToGcrs1 t g.itrs = 0)
    (q : Vec) (hq : q = gcrsToItrs1 t (p t)) (north : Vec)
    (hnorth : north = ![-q 2 * q 0, -q 2 * q 1, q 0 ^ 2 + q 1 ^ 2]) :
    6.3 * |north ⬝ᵥ g.itrs| - 2.2e-6 * ‖toE q‖ ^ 2 * ‖toE g.itrs‖ ≤ |(q ⨯₃ w) ⬝ᵥ g.itrs| ∧
    (4e-7 * ‖toE q‖ ^ 2 * ‖toE g.itrs‖ < |north ⬝ᵥ g.itrs| → g.itrs ≠ posUnit • q →
      (attitude t posUnit velUnit q w g).1 ≠ 0 ∧
      |Real.sin (attitude t posUnit velUnit q w g).1| =
        |(q ⨯₃ w) ⬝ᵥ g.itrs| / (‖toE (q ⨯₃ w)‖ * ‖toE (g.itrs - posUnit • q)‖)) := by
  obtain ⟨w', hw', hb⟩ := C131_rate p t v hp ht
  rw [hw'.unique hw] at hb
  simp only [← hq] at hb
  set e : Vec := w - (gcrsToItrs1 t v + rad 360.9856123035484 • ![q 1, -q 0, 0]) with he
  obtain ⟨m, hm, h, h'⟩ := (C47_rotations t).2.2.2.1
  have hzero : (q ⨯₃ gcrsToItrs1 t v) ⬝ᵥ g.itrs = 0 := by
    rw [hq, h, h, ← hm.cross]
    conv_lhs => rw [← hm.mulVec_inv g.itrs]
    rw [hm.dot, ← h', hplane]
  have hsum : w = gcrsToItrs1 t v + rad 360.9856123035484 • ![q 1, -q 0, 0] + e := by
    rw [he]; abel
  have hx : (q ⨯₃ (![q 1, -q 0, 0] : Vec)) = -north := by
    rw [hnorth]
    ext i
    fin_cases i <;> simp [cross_apply] <;> ring
  have key : (q ⨯₃ w) ⬝ᵥ g.itrs =
      -(rad 360.9856123035484 * (north ⬝ᵥ g.itrs)) + (q ⨯₃ e) ⬝ᵥ g.itrs := by
    rw [hsum, map_add, map_add, LinearMap.map_smul, hx, add_dotProduct, add_dotProduct, hzero,
      smul_dotProduct, neg_dotProduct, smul_eq_mul]
    ring
  have hsmall : |(q ⨯₃ e) ⬝ᵥ g.itrs| ≤ 2.2e-6 * ‖toE q‖ ^ 2 * ‖toE g.itrs‖ := by
    refine (abs_dot_le_vnorm _ _).trans ?_
    rw [← norm_toE g.itrs]
    refine mul_le_mul_of_nonneg_right ((vnorm_cross_le _ _).trans ?_) (norm_nonneg _)
    rw [← norm_toE, ← norm_toE]
    have := mul_le_mul_of_nonneg_left hb (norm_nonneg (toE q))
    linarith
  have first : 6.3 * |north ⬝ᵥ g.itrs| - 2.2e-6 * ‖toE q‖ ^ 2 * ‖toE g.itrs‖ ≤
      |(q ⨯₃ w) ⬝ᵥ g.itrs| := by
    have h1 : rad 360.9856123035484 * |north ⬝ᵥ g.itrs| ≤
        |(q ⨯₃ w) ⬝ᵥ g.itrs| + |(q ⨯₃ e) ⬝ᵥ g.itrs| := by
      have := abs_sub ((q ⨯₃ e) ⬝ᵥ g.itrs) ((q ⨯₃ w) ⬝ᵥ g.itrs)
      rw [key] at this ⊢
      rw [show (q ⨯₃ e) ⬝ᵥ g.itrs - (-(rad 360.9856123035484 * (north ⬝ᵥ g.itrs)) +
        (q ⨯₃ e) ⬝ᵥ g.itrs) = rad 360.9856123035484 * (north ⬝ᵥ g.itrs) by ring, abs_mul,
        abs_of_pos (by linarith [spin_bounds.1] : 0 < rad 360.9856123035484)] at this
      linarith
    have := mul_le_mul_of_nonneg_right spin_bounds.1 (abs_nonneg (north ⬝ᵥ g.itrs))
    linarith
  refine ⟨first, fun hbig htarget => ?_⟩
  have hpos : 0 < |(q ⨯₃ w) ⬝ᵥ g.itrs| := by
    have : 0 ≤ ‖toE q‖ ^ 2 * ‖toE g.itrs‖ := by positivity
    linarith
  have hqw : q ⨯₃ w ≠ 0 := by
    intro e0
    rw [e0, zero_dotProduct, abs_zero] at hpos
    exact lt_irrefl _ hpos
  have c1 : 0 < ‖toE (q ⨯₃ w)‖ := by rw [norm_toE]; exact vnorm_pos hqw
  have c2 : 0 < ‖toE (g.itrs - posUnit • q)‖ := by
    rw [norm_toE]; exact vnorm_pos (sub_ne_zero.2 htarget)
  have er := roll_eq t posUnit velUnit q w g hu hv hqw
  have hle : |(q ⨯₃ w) ⬝ᵥ g.itrs| ≤ ‖toE (q ⨯₃ w)‖ * ‖toE (g.itrs - posUnit • q)‖ := by
    have := abs_dot_le_vnorm (q ⨯₃ w) (g.itrs - posUnit • q)
    rw [dotProduct_sub, dotProduct_smul, dotProduct_comm (q ⨯₃ w) q, dot_self_cross, smul_zero,
      sub_zero] at this
    rwa [norm_toE, norm_toE]
  have habs : |(-((q ⨯₃ w) ⬝ᵥ g.itrs) / (‖toE (q ⨯₃ w)‖ * ‖toE (g.itrs - posUnit • q)‖))| =
      |(q ⨯₃ w) ⬝ᵥ g.itrs| / (‖toE (q ⨯₃ w)‖ * ‖toE (g.itrs - posUnit • q)‖) := by
    rw [abs_div, abs_neg, abs_of_pos (mul_pos c1 c2)]
  have hrange := abs_le.1 (habs.le.trans ((div_le_one (mul_pos c1 c2)).2 hle))
  refine ⟨?_, ?_⟩
  · rw [er, Ne, Real.arcsin_eq_zero_iff, div_eq_zero_iff, not_or]
    exact ⟨fun h0 => by rw [neg_eq_zero.1 h0, abs_zero] at hpos; exact lt_irrefl _ hpos,
      (mul_pos c1 c2).ne'⟩
  · rw [er, Real.sin_arcsin hrange.1 hrange.2, habs]

/-! ### A satellite over the equator going north -/

/-- A point moving in a straight line. -/
theorem Rate.line (t : ℝ) (r v : Vec) : Rate (fun τ => r + (τ - t) • v) t v := fun i => by
  have := (((hasDerivAt_id t).sub_const t).mul_const (v i)).const_add (r i)
  simpa using this

/-- The motion, in the GCRS frame: over the equator and the zero meridian at noon on 1 January 2000,
7000 kilometres from the centre of the Earth, going north at 600000 kilometres a day. -/
noncomputable def northbound (τ : ℝ) : Vec :=
  itrsToGcrs1 2451545 ![7000, 0, 0] + (τ - 2451545) • itrsToGcrs1 2451545 ![0, 0, 600000]

/-- A target 30 degrees north on the zero meridian. -/
noncomputable def ahead : Ground := ⟨Real.pi / 6, 0, 0⟩

theorem northbound_now : gcrsToItrs1 2451545 (northbound 2451545) = ![7000, 0, 0] := by
  unfold northbound
  rw [sub_self, zero_smul, add_zero, itrs_gcrs1]

theorem ahead_itrs : ahead.itrs = ![primeVertical (Real.pi / 6) * (Real.sqrt 3 / 2), 0,
    primeVertical (Real.pi / 6) * (1 - ecc ^ 2) / 2] := by
  unfold Ground.itrs ahead
  simp only [Real.cos_pi_div_six, Real.sin_pi_div_six, Real.cos_zero, Real.sin_zero]
  ext i
  fin_cases i <;> simp
  ring

/-- Its stored velocity is not the rate of change of its stored position. -/
example : ∃ s w, Satellite.make (.gcrs ⟨1, [(2451545, northbound 2451545)]⟩)
      (some (.gcrs ⟨1, [(2451545, itrsToGcrs1 2451545 ![0, 0, 600000])]⟩)) = .ok s ∧
    Rate (fun τ => gcrsToItrs1 τ (northbound τ)) 2451545 w ∧
    s.velocity = some ⟨1, [(2451545, ![0, 0, 600000])]⟩ ∧ w ≠ ![0, 0, 600000] := by
  obtain ⟨st, -, hv, h⟩ := C131_stored_velocity_wrong northbound
    (fun _ => itrsToGcrs1 2451545 ![0, 0, 600000]) [2451545] 1 1 _ rfl
  obtain ⟨w, hw, -, hne⟩ := h 2451545 (by simp) (by norm_num) (Rate.line _ _ _)
  have e : st 2451545 = ![0, 0, 600000] := by
    have := hv
    simp only [gcrsToItrs, List.map_cons, List.map_nil, itrs_gcrs1, Option.some.injEq,
      Cartesian.mk.injEq, List.cons.injEq, Prod.mk.injEq, true_and, and_true] at this
    exact this.symm
  refine ⟨_, w, rfl, hw, ?_, fun hw' => ?_⟩
  · simp only [gcrsToItrs, List.map_cons, List.map_nil, itrs_gcrs1]
  · refine hne ?_ (by rw [e, hw'])
    rw [northbound_now, norm_toE]
    have h1 : vnorm (![7000, 0, 0] : Vec) = 7000 := by
      unfold vnorm
      simp [dotProduct, Fin.sum_univ_three, Real.sqrt_mul_self]
    have h2 : axisDistance (![7000, 0, 0] : Vec) = 7000 := by
      unfold axisDistance
      simp [Real.sqrt_sq]
    rw [h1, h2]
    norm_num

/-- Given in the GCRS frame it needs no roll to point ahead; given in the ITRS frame, with the rate
of change of its ITRS position, it is told to roll. -/
example : ∃ w, Rate (fun τ => gcrsToItrs1 τ (northbound τ)) 2451545 w ∧
    (attitude 2451545 1 1 ![7000, 0, 0] ![0, 0, 600000] ahead).1 = 0 ∧
    (attitude 2451545 1 1 ![7000, 0, 0] w ahead).1 ≠ 0 := by
  have hr : Rate northbound 2451545 (itrsToGcrs1 2451545 ![0, 0, 600000]) := Rate.line _ _ _
  obtain ⟨w, hw, -⟩ := C131_rate northbound 2451545 _ hr (by norm_num)
  have hm := primeVertical_pos (Real.pi / 6)
  have hq0 : (![7000, 0, 0] : Vec) ⨯₃ ![0, 0, 600000] = ![0, -4200000000, 0] := by
    ext i
    fin_cases i <;> simp [cross_apply]
    norm_num
  obtain ⟨m, hmr, -, h'⟩ := (C47_rotations 2451545).2.2.2.1
  have hnow : northbound 2451545 = itrsToGcrs1 2451545 ![7000, 0, 0] := by
    unfold northbound; rw [sub_self, zero_smul, add_zero]
  have hplane : (northbound 2451545 ⨯₃ itrsToGcrs1 2451545 ![0, 0, 600000]) ⬝ᵥ
      itrsToGcrs1 2451545 ahead.itrs = 0 := by
    rw [hnow, h', h', h', ← hmr.inv.cross, hmr.inv.dot, hq0, ahead_itrs]
    simp [dotProduct, Fin.sum_univ_three]
  have htarget : ahead.itrs ≠ (1 : ℝ) • (![7000, 0, 0] : Vec) := by
    intro e
    have := congrFun e 2
    rw [ahead_itrs] at this
    simp at this
    rcases this with h | h
    · exact hm.ne' h
    · linarith [ecc_sq.2]
  refine ⟨w, hw, ?_, ?_⟩
  · have := (C131_inertial_attitude_partial 2451545 1 1 (itrsToGcrs1 2451545 ![7000, 0, 0])
      (itrsToGcrs1 2451545 ![0, 0, 600000]) ahead one_pos one_pos ?_ ?_).2 (by rw [← hnow, hplane])
    · rwa [itrs_gcrs1, itrs_gcrs1] at this
    · rw [h', h', ← hmr.inv.cross, hq0]
      intro e
      have := hmr.inv.vnorm (![0, -4200000000, 0] : Vec)
      rw [e, (vnorm_eq_zero _).2 rfl] at this
      have h0 := (vnorm_eq_zero _).1 this.symm
      have := congrFun h0 1
      norm_num at this
    · rw [itrs_gcrs1]; exact htarget
  · refine ((C131_earth_fixed_roll northbound 2451545 1 1 _ w ahead one_pos one_pos hr
      (by norm_num) hw hplane ![7000, 0, 0] northbound_now.symm _ rfl).2 ?_ htarget).1
    have h1 : vnorm (![7000, 0, 0] : Vec) = 7000 := by
      unfold vnorm
      simp [dotProduct, Fin.sum_univ_three, Real.sqrt_mul_self]
    have e2 := ecc_sq
    have hg : vnorm ahead.itrs ≤ primeVertical (Real.pi / 6) := by
      rw [ahead_itrs]
      unfold vnorm
      rw [Real.sqrt_le_left hm.le]
      simp only [dotProduct, Fin.sum_univ_three, Matrix.cons_val_zero, Matrix.cons_val_one,
        Matrix.cons_val]
      have s3 : Real.sqrt 3 * Real.sqrt 3 = 3 := Real.mul_self_sqrt (by norm_num)
      have k : (1 - ecc ^ 2) * (1 - ecc ^ 2) ≤ 1 := by nlinarith
      have m2 : 0 ≤ primeVertical (Real.pi / 6) * primeVertical (Real.pi / 6) := by positivity
      have := mul_le_mul_of_nonneg_left k m2
      have e : primeVertical (Real.pi / 6) * (Real.sqrt 3 / 2) *
          (primeVertical (Real.pi / 6) * (Real.sqrt 3 / 2)) =
          primeVertical (Real.pi / 6) * primeVertical (Real.pi / 6) *
            (Real.sqrt 3 * Real.sqrt 3) / 4 := by ring
      rw [e, s3]
      linarith
    have hd : (![-(![7000, 0, 0] : Vec) 2 * (![7000, 0, 0] : Vec) 0,
        -(![7000, 0, 0] : Vec) 2 * (![7000, 0, 0] : Vec) 1,
        (![7000, 0, 0] : Vec) 0 ^ 2 + (![7000, 0, 0] : Vec) 1 ^ 2] : Vec) ⬝ᵥ ahead.itrs =
        49000000 * (primeVertical (Real.pi / 6) * (1 - ecc ^ 2) / 2) := by
      rw [ahead_itrs]
      simp [dotProduct, Fin.sum_univ_three]
      norm_num
    have pos : 0 < primeVertical (Real.pi / 6) * (1 - ecc ^ 2) :=
      mul_pos hm (by linarith)
    rw [hd, norm_toE, norm_toE, h1, abs_of_pos (by linarith)]
    have := mul_lt_mul_of_pos_left e2.2 hm
    linarith

end Celest.Frames
