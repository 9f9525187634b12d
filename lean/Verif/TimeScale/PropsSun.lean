/-
C111, C112: the sun follows Kepler's laws, and solar time agrees with sidereal time.
-/
import Verif.TimeScale.PropsElements
import Mathlib.Analysis.SpecialFunctions.Complex.LogBounds
import Mathlib.Analysis.SpecialFunctions.Complex.CircleMap

namespace Celest.TimeScale

/-! ### directions -/

theorem arg_one_add {z : ℂ} (hz : ‖z‖ < 1) :
    |Complex.arg (1 + z) - (z - z ^ 2 / 2).im| ≤ ‖z‖ ^ 3 * (1 - ‖z‖)⁻¹ / 3 := by
  have h := Complex.norm_log_sub_logTaylor_le 2 hz
  have e : Complex.logTaylor (2 + 1) z = z - z ^ 2 / 2 := by
    simp [Complex.logTaylor, Finset.sum_range_succ]
    ring
  rw [e] at h
  have h2 := (Complex.abs_im_le_norm _).trans h
  rw [Complex.sub_im, Complex.log_im] at h2
  norm_num at h2 ⊢
  exact h2

theorem one_add_ne_zero {z : ℂ} (hz : ‖z‖ < 1) : 1 + z ≠ 0 := by
  intro h
  have : z = -1 := by linear_combination h
  rw [this] at hz
  norm_num at hz

/-- The direction of a product. -/
theorem arg_rotate (r θ : ℝ) (hr : 0 < r) {w : ℂ} (hw : w ≠ 0) :
    ∃ k : ℤ, Complex.arg (r * (Complex.cos θ + Complex.sin θ * Complex.I) * w) =
      θ + Complex.arg w + 2 * Real.pi * k := by
  have h1 : (r : ℂ) * (Complex.cos θ + Complex.sin θ * Complex.I) ≠ 0 := by
    refine mul_ne_zero (by exact_mod_cast hr.ne') ?_
    rw [← Complex.exp_mul_I]
    exact Complex.exp_ne_zero _
  have h2 : (Complex.arg ((r : ℂ) * (Complex.cos θ + Complex.sin θ * Complex.I)) : Real.Angle) =
      (θ : ℝ) := by
    rw [Complex.arg_real_mul _ hr]
    have := Complex.arg_cos_add_sin_mul_I_coe_angle (θ : Real.Angle)
    simpa using this
  have h3 := Complex.arg_mul_coe_angle h1 hw
  rw [h2, ← Real.Angle.coe_add, Real.Angle.angle_eq_iff_two_pi_dvd_sub] at h3
  obtain ⟨k, hk⟩ := h3
  exact ⟨k, by linarith⟩

theorem norm_polar {y a : ℝ} {z : ℂ} (hy : 0 ≤ y) (hz : z = ⟨y * Real.cos a, -(y * Real.sin a)⟩) :
    ‖z‖ = y := by
  rw [hz, Complex.norm_eq_sqrt_sq_add_sq]
  have : (y * Real.cos a) ^ 2 + (-(y * Real.sin a)) ^ 2 = y ^ 2 := by
    have := Real.sin_sq_add_cos_sq a
    linear_combination y ^ 2 * this
  simp only [this]
  exact Real.sqrt_sq hy

/-- The direction of `(cos λ, c sin λ)`, with `y = (1 - c) / (1 + c)`. -/
theorem arctan2_tilt (l c : ℝ) (hc0 : 0 < c) (hc1 : c ≤ 1) :
    let y := (1 - c) / (1 + c)
    ∃ k : ℤ, |arctan2 (c * Real.sin l) (Real.cos l) -
      (l - y * Real.sin (2 * l) + y ^ 2 / 2 * Real.sin (4 * l)) - 2 * Real.pi * k| ≤
        y ^ 3 * (1 - y)⁻¹ / 3 := by
  intro y
  have hy0 : 0 ≤ y := div_nonneg (by linarith) (by linarith)
  have hy1 : y < 1 := by rw [div_lt_one (by linarith)]; linarith
  obtain ⟨z, hz⟩ : ∃ z : ℂ, z = ⟨y * Real.cos (2 * l), -(y * Real.sin (2 * l))⟩ := ⟨_, rfl⟩
  have hnorm : ‖z‖ = y := norm_polar hy0 hz
  have hzn : ‖z‖ < 1 := by rw [hnorm]; exact hy1
  obtain ⟨k, hk⟩ := arg_rotate ((1 + c) / 2) l (by linarith) (one_add_ne_zero hzn)
  have hprod : ((1 + c) / 2 : ℝ) * (Complex.cos l + Complex.sin l * Complex.I) * (1 + z) =
      (⟨Real.cos l, c * Real.sin l⟩ : ℂ) := by
    have hyc : (1 + c) * y = 1 - c := by
      rw [mul_div_cancel₀ _ (by linarith : (1 + c) ≠ 0)]
    have hs := Real.sin_sq_add_cos_sq l
    clear_value y
    rw [hz, ← Complex.ofReal_cos, ← Complex.ofReal_sin]
    apply Complex.ext
    · simp [-Complex.ofReal_cos, -Complex.ofReal_sin, Real.cos_two_mul, Real.sin_two_mul]
      linear_combination (Real.cos l * (2 * Real.cos l ^ 2 - 1) / 2 +
        Real.sin l ^ 2 * Real.cos l) * hyc + (1 - c) * Real.cos l * hs
    · simp [-Complex.ofReal_cos, -Complex.ofReal_sin, Real.cos_two_mul, Real.sin_two_mul]
      linear_combination (Real.sin l * (2 * Real.cos l ^ 2 - 1) / 2 -
        Real.sin l * Real.cos l ^ 2) * hyc
  rw [hprod] at hk
  refine ⟨k, ?_⟩
  unfold arctan2
  rw [hk]
  have him : (z - z ^ 2 / 2).im = - y * Real.sin (2 * l) + y ^ 2 / 2 * Real.sin (4 * l) := by
    rw [hz, show 4 * l = 2 * (2 * l) by ring, Real.sin_two_mul (2 * l)]
    simp [pow_two]
    ring
  have := arg_one_add hzn
  rw [him, hnorm] at this
  convert this using 2
  ring

theorem arg_mul_turns {a b : ℂ} (ha : a ≠ 0) (hb : b ≠ 0) :
    ∃ k : ℤ, Complex.arg (a * b) = Complex.arg a + Complex.arg b + 2 * Real.pi * k := by
  have h := Complex.arg_mul_coe_angle ha hb
  rw [← Real.Angle.coe_add, Real.Angle.angle_eq_iff_two_pi_dvd_sub] at h
  obtain ⟨k, hk⟩ := h
  exact ⟨k, by linarith⟩

/-! ### Kepler's equation -/

/-- The true anomaly of the point of a Kepler orbit of eccentricity `e` with eccentric anomaly
`E`: the direction from the focus, measured from the pericentre. -/
noncomputable def trueAnomaly (e E : ℝ) : ℝ :=
  arctan2 (Real.sqrt (1 - e ^ 2) * Real.sin E) (Real.cos E - e)

theorem trueAnomaly_series (e E : ℝ) (h0 : 0 ≤ e) (h1 : e < 1) :
    let b := e / (1 + Real.sqrt (1 - e ^ 2))
    ∃ k : ℤ, |trueAnomaly e E - (E + 2 * b * Real.sin E + b ^ 2 * Real.sin (2 * E)) -
      2 * Real.pi * k| ≤ 2 * (b ^ 3 * (1 - b)⁻¹ / 3) := by
  intro b
  obtain ⟨q, hq⟩ : ∃ q, q = Real.sqrt (1 - e ^ 2) := ⟨_, rfl⟩
  have he2 : 0 < 1 - e ^ 2 := by nlinarith
  have hq0 : 0 < q := by rw [hq]; exact Real.sqrt_pos.2 he2
  have hq2 : q ^ 2 = 1 - e ^ 2 := by rw [hq]; exact Real.sq_sqrt he2.le
  have hb : b = e / (1 + q) := by rw [hq]
  have b1 : (1 + q) * b = e := by rw [hb]; field_simp
  have b2 : (1 + q) * (1 + b ^ 2) = 2 := by
    rw [hb]; field_simp; nlinarith
  have b3 : (1 + q) * (1 - b ^ 2) = 2 * q := by
    rw [hb]; field_simp; nlinarith
  have hb0 : 0 ≤ b := by rw [hb]; positivity
  have hb1 : b < 1 := by
    rw [hb, div_lt_one (by linarith)]; linarith
  clear_value b
  obtain ⟨z, hz⟩ : ∃ z : ℂ, z = ⟨b * Real.cos (E + Real.pi), -(b * Real.sin (E + Real.pi))⟩ :=
    ⟨_, rfl⟩
  have hnorm : ‖z‖ = b := norm_polar hb0 hz
  have hzn : ‖z‖ < 1 := by rw [hnorm]; exact hb1
  have hw := one_add_ne_zero hzn
  obtain ⟨k, hk⟩ := arg_rotate ((1 + q) / 2) E (by linarith) (mul_ne_zero hw hw)
  obtain ⟨l, hl⟩ := arg_mul_turns hw hw
  have hprod : ((1 + q) / 2 : ℝ) * (Complex.cos E + Complex.sin E * Complex.I) *
      ((1 + z) * (1 + z)) = (⟨Real.cos E - e, q * Real.sin E⟩ : ℂ) := by
    have hs := Real.sin_sq_add_cos_sq E
    rw [hz, ← Complex.ofReal_cos, ← Complex.ofReal_sin]
    apply Complex.ext
    · simp [-Complex.ofReal_cos, -Complex.ofReal_sin]
      linear_combination Real.cos E / 2 * b2 - b1 +
        ((1 + q) / 2 * (b ^ 2 * Real.cos E - 2 * b)) * hs
    · simp [-Complex.ofReal_cos, -Complex.ofReal_sin]
      linear_combination Real.sin E / 2 * b3 - ((1 + q) / 2 * b ^ 2 * Real.sin E) * hs
  rw [hprod] at hk
  refine ⟨k + l, ?_⟩
  unfold trueAnomaly arctan2
  rw [← hq, hk, hl]
  have him : (z - z ^ 2 / 2).im = b * Real.sin E + b ^ 2 / 2 * Real.sin (2 * E) := by
    rw [hz, Real.sin_two_mul]
    simp [pow_two]
    ring
  have := arg_one_add hzn
  rw [him, hnorm] at this
  have e1 : E + ((1 + z).arg + (1 + z).arg + 2 * Real.pi * l) + 2 * Real.pi * k -
      (E + 2 * b * Real.sin E + b ^ 2 * Real.sin (2 * E)) - 2 * Real.pi * ((k + l : ℤ) : ℝ) =
      2 * ((1 + z).arg - (b * Real.sin E + b ^ 2 / 2 * Real.sin (2 * E))) := by
    push_cast; ring
  rw [e1, abs_mul, abs_of_pos (by norm_num : (0 : ℝ) < 2)]
  linarith

theorem sin_add_bound (x h : ℝ) (hh : |h| ≤ 1) :
    |Real.sin (x + h) - Real.sin x - h * Real.cos x| ≤ h ^ 2 / 2 + |h| ^ 3 / 5 := by
  have e : Real.sin (x + h) - Real.sin x - h * Real.cos x =
      Real.sin x * (Real.cos h - 1) + Real.cos x * (Real.sin h - h) := by
    rw [Real.sin_add]; ring
  have h1 : |Real.cos h - 1| ≤ h ^ 2 / 2 := by
    rw [abs_le]
    constructor <;> linarith [Real.one_sub_sq_div_two_le_cos (x := h), Real.cos_le_one h, sq_nonneg h]
  have h2 : |Real.sin h - h| ≤ |h| ^ 3 / 5 := by
    have hb := Real.sin_bound hh
    have h3 : |h| ^ 5 ≤ |h| ^ 3 := pow_le_pow_of_le_one (abs_nonneg _) hh (by norm_num)
    have h4 : Real.sin h - h = (Real.sin h - (h - h ^ 3 / 6)) - h ^ 3 / 6 := by ring
    have h5 : |h ^ 3 / 6| = |h| ^ 3 / 6 := by rw [abs_div, abs_pow]; norm_num
    have h6 := abs_sub (Real.sin h - (h - h ^ 3 / 6)) (h ^ 3 / 6)
    rw [← h4, h5] at h6
    linarith [pow_nonneg (abs_nonneg h) 3]
  rw [e]
  refine (abs_add_le _ _).trans (add_le_add ?_ ?_)
  · rw [abs_mul]
    exact (mul_le_of_le_one_left (abs_nonneg _) (Real.abs_sin_le_one x)).trans h1
  · rw [abs_mul]
    exact (mul_le_of_le_one_left (abs_nonneg _) (Real.abs_cos_le_one x)).trans h2

/-- Equation of the centre: the first terms of the series in the eccentricity. -/
theorem equation_of_centre (e M E : ℝ) (h0 : 0 ≤ e) (h1 : e ≤ 0.02)
    (hE : E - e * Real.sin E = M) :
    ∃ k : ℤ, |trueAnomaly e E - (M + 2 * e * Real.sin M + 5 / 4 * e ^ 2 * Real.sin (2 * M)) -
      2 * Real.pi * k| ≤ 4.5 * e ^ 3 := by
  obtain ⟨k, hk⟩ := trueAnomaly_series e E h0 (by linarith)
  obtain ⟨q, hq⟩ : ∃ q, q = Real.sqrt (1 - e ^ 2) := ⟨_, rfl⟩
  rw [← hq] at hk
  obtain ⟨b, hb⟩ : ∃ b, b = e / (1 + q) := ⟨_, rfl⟩
  rw [← hb] at hk
  have he2 : 0 < 1 - e ^ 2 := by nlinarith
  have hq2 : q ^ 2 = 1 - e ^ 2 := by rw [hq]; exact Real.sq_sqrt he2.le
  have hq0 : 0 ≤ q := by rw [hq]; exact Real.sqrt_nonneg _
  have hq1 : q ≤ 1 := by nlinarith
  have hq3 : 1 - e ^ 2 ≤ q := by nlinarith
  have b1 : (1 + q) * b = e := by rw [hb]; field_simp
  have b0 : 0 ≤ b := by rw [hb]; positivity
  have b2 : e / 2 ≤ b := by nlinarith
  have e4 : e ^ 4 ≤ 0.02 * e ^ 3 := by
    have := mul_le_mul_of_nonneg_right h1 (pow_nonneg h0 3)
    linarith [pow_succ e 3]
  have e3 := pow_nonneg h0 3
  have b3 : b ≤ e / 2 + 0.26 * e ^ 3 := by
    have c1 : e ^ 2 ≤ 0.0004 := by nlinarith
    have c2 : (2 - e ^ 2) * b ≤ e := by nlinarith
    have c3 : e ≤ (2 - e ^ 2) * (e / 2 + 0.26 * e ^ 3) := by
      have : e ^ 2 * e ^ 3 ≤ 0.0004 * e ^ 3 := mul_le_mul_of_nonneg_right c1 e3
      nlinarith
    have c4 : (2 - e ^ 2) * b ≤ (2 - e ^ 2) * (e / 2 + 0.26 * e ^ 3) := c2.trans c3
    exact le_of_mul_le_mul_left c4 (by linarith)
  have e3e : e ^ 3 ≤ 0.0004 * e := by nlinarith [mul_nonneg h0 (sub_nonneg.2 h1)]
  have b4 : b ≤ 0.5002 * e := by linarith
  obtain ⟨s, hs⟩ : ∃ s, s = Real.sin E := ⟨_, rfl⟩
  have s1 : |s| ≤ 1 := by rw [hs]; exact Real.abs_sin_le_one _
  have hEM : E = M + e * s := by rw [hs]; linarith
  have hh : |e * s| ≤ e := by
    rw [abs_mul, abs_of_nonneg h0]; exact mul_le_of_le_one_right h0 s1
  -- the remainders
  have rA : |2 * e * (s - Real.sin M - e * s * Real.cos M)| ≤ 2 * e * (e ^ 2 / 2 + e ^ 3 / 5) := by
    rw [abs_mul, abs_of_nonneg (by linarith)]
    refine mul_le_mul_of_nonneg_left ?_ (by linarith)
    have h3 := sin_add_bound M (e * s) (by linarith)
    rw [← hEM, ← hs] at h3
    have k1 : (e * s) ^ 2 ≤ e ^ 2 := by
      rw [← sq_abs]; exact pow_le_pow_left₀ (abs_nonneg _) hh 2
    have k2 : |e * s| ^ 3 ≤ e ^ 3 := pow_le_pow_left₀ (abs_nonneg _) hh 3
    linarith
  have rB : |2 * e ^ 2 * Real.cos M * (s - Real.sin M)| ≤ 2 * e ^ 2 * e := by
    rw [abs_mul, abs_mul, abs_of_nonneg (by positivity : 0 ≤ 2 * e ^ 2)]
    have h3 := Real.abs_sin_sub_sin_le E M
    rw [← hs, show E - M = e * s by rw [hEM]; ring] at h3
    refine mul_le_mul ?_ (h3.trans hh) (abs_nonneg _) (by positivity)
    exact mul_le_of_le_one_right (by positivity) (Real.abs_cos_le_one M)
  have rC : |(2 * b - e) * s| ≤ 0.52 * e ^ 3 := by
    rw [abs_mul, abs_of_nonneg (by linarith)]
    exact (mul_le_of_le_one_right (by linarith) s1).trans (by linarith)
  have rD : |(b ^ 2 - e ^ 2 / 4) * Real.sin (2 * E)| ≤ 0.3 * e ^ 4 := by
    have k1 : e ^ 2 / 4 ≤ b ^ 2 := by nlinarith
    have k2 : b ^ 2 - e ^ 2 / 4 ≤ 0.3 * e ^ 4 := by
      have : b ^ 2 - e ^ 2 / 4 = (b - e / 2) * (b + e / 2) := by ring
      rw [this]
      have k3 : (b - e / 2) * (b + e / 2) ≤ (0.26 * e ^ 3) * (1.0002 * e) :=
        mul_le_mul (by linarith) (by linarith) (by linarith) (by positivity)
      have : e ^ 3 * e = e ^ 4 := by ring
      nlinarith [pow_nonneg h0 4]
    rw [abs_mul, abs_of_nonneg (by linarith)]
    exact (mul_le_of_le_one_right (by linarith) (Real.abs_sin_le_one _)).trans k2
  have rF : |e ^ 2 / 4 * (Real.sin (2 * E) - Real.sin (2 * M))| ≤ e ^ 2 / 4 * (2 * e) := by
    rw [abs_mul, abs_of_nonneg (by positivity)]
    refine mul_le_mul_of_nonneg_left ?_ (by positivity)
    have h3 := Real.abs_sin_sub_sin_le (2 * E) (2 * M)
    rw [show 2 * E - 2 * M = 2 * (e * s) by rw [hEM]; ring, abs_mul,
      abs_of_pos (by norm_num : (0 : ℝ) < 2)] at h3
    linarith
  have rR : 2 * (b ^ 3 * (1 - b)⁻¹ / 3) ≤ 0.1 * e ^ 3 := by
    have k1 : b ^ 3 ≤ 0.126 * e ^ 3 := by
      have := pow_le_pow_left₀ b0 b4 3
      rw [mul_pow] at this
      norm_num at this ⊢
      linarith
    have k2 : (1 - b)⁻¹ ≤ 1.02 := by
      rw [inv_le_comm₀ (by linarith) (by norm_num)]
      norm_num
      linarith
    have k3 : b ^ 3 * (1 - b)⁻¹ ≤ 0.126 * e ^ 3 * 1.02 :=
      mul_le_mul k1 k2 (inv_nonneg.2 (by linarith)) (by positivity)
    linarith
  refine ⟨k, ?_⟩
  have split : trueAnomaly e E - (M + 2 * e * Real.sin M + 5 / 4 * e ^ 2 * Real.sin (2 * M)) -
      2 * Real.pi * k =
      (trueAnomaly e E - (E + 2 * b * Real.sin E + b ^ 2 * Real.sin (2 * E)) - 2 * Real.pi * k) +
      2 * e * (s - Real.sin M - e * s * Real.cos M) + 2 * e ^ 2 * Real.cos M * (s - Real.sin M) +
      (2 * b - e) * s + (b ^ 2 - e ^ 2 / 4) * Real.sin (2 * E) +
      e ^ 2 / 4 * (Real.sin (2 * E) - Real.sin (2 * M)) := by
    rw [← hs, Real.sin_two_mul M]
    linear_combination hEM
  rw [split]
  have rA := abs_le.1 rA
  have rB := abs_le.1 rB
  have rC := abs_le.1 rC
  have rD := abs_le.1 rD
  have rF := abs_le.1 rF
  have rK := abs_le.1 (hk.trans rR)
  have t1 : 2 * e * (e ^ 2 / 2 + e ^ 3 / 5) = e ^ 3 + 0.4 * e ^ 4 := by ring
  have t2 : 2 * e ^ 2 * e = 2 * e ^ 3 := by ring
  have t3 : e ^ 2 / 4 * (2 * e) = 0.5 * e ^ 3 := by ring
  rw [t1] at rA
  rw [t2] at rB
  rw [t3] at rF
  rw [abs_le]
  constructor <;> linarith [rA.1, rA.2, rB.1, rB.2, rC.1, rC.2, rD.1, rD.2, rF.1, rF.2, rK.1, rK.2]

/-! ### the sun -/

theorem degree_bounds : |Real.pi / 180 - 0.01745329| ≤ 0.00000001 := by
  have h1 := Real.pi_gt_d6
  have h2 := Real.pi_lt_d6
  rw [abs_le]
  constructor <;> linarith

theorem eccentricity_range {jd : ℝ} (h : WithinCenturies 1 jd) :
    0.01666 ≤ eccentricity jd ∧ eccentricity jd ≤ 0.01676 := by
  have ht := abs_le.1 h.centuries
  obtain ⟨⟨p1, p2⟩, -, -⟩ := pow_bounds h.centuries
  unfold eccentricity
  simp only
  constructor <;> linarith [ht.1, ht.2]

/-- The coded equation of the centre against the series of Kepler's equation. -/
theorem sunCentre_series {jd : ℝ} (h : WithinCenturies 1 jd) :
    |rad (sunCentre jd) - (2 * eccentricity jd * Real.sin (rad (sunAnomaly jd)) +
      5 / 4 * eccentricity jd ^ 2 * Real.sin (2 * rad (sunAnomaly jd)))| ≤ 0.0000125 := by
  have ht' := h.centuries
  have ht := abs_le.1 ht'
  obtain ⟨⟨p1, p2⟩, -, -⟩ := pow_bounds ht'
  obtain ⟨e1, e2⟩ := eccentricity_range h
  have hk := degree_bounds
  obtain ⟨K, hK⟩ : ∃ K, K = Real.pi / 180 := ⟨_, rfl⟩
  obtain ⟨m, hm⟩ : ∃ m, m = rad (sunAnomaly jd) := ⟨_, rfl⟩
  obtain ⟨t, htt⟩ : ∃ t, t = centuries jd := ⟨_, rfl⟩
  obtain ⟨e, he⟩ : ∃ e, e = eccentricity jd := ⟨_, rfl⟩
  have he' : e = 0.016708634 - 0.000042037 * t - 0.0000001267 * t ^ 2 := by
    rw [he, htt]; rfl
  have hC : rad (sunCentre jd) = ((1.914602 - 0.004817 * t - 0.000014 * t ^ 2) * Real.sin m +
      (0.019993 - 0.000101 * t) * Real.sin (2 * m) + 0.000289 * Real.sin (3 * m)) * K := by
    rw [hm, htt, hK]; rfl
  rw [← hm, ← he, hC]
  rw [← hK] at hk
  rw [← he] at e1 e2
  rw [← htt] at ht p1 p2 ht'
  have q1 : |(1.914602 - 0.004817 * t - 0.000014 * t ^ 2) * (K - 0.01745329)| ≤ 2 * 0.00000001 :=
    mul_bound (abs_le.2 ⟨by linarith [ht.1, ht.2], by linarith [ht.1, ht.2]⟩) hk
  have q2 : |(0.019993 - 0.000101 * t) * (K - 0.01745329)| ≤ 1 * 0.00000001 :=
    mul_bound (abs_le.2 ⟨by linarith [ht.1, ht.2], by linarith [ht.1, ht.2]⟩) hk
  have q1 := abs_le.1 q1
  have q2 := abs_le.1 q2
  have hk := abs_le.1 hk
  have s1 : |((1.914602 - 0.004817 * t - 0.000014 * t ^ 2) * K - 2 * e) * Real.sin m| ≤
      0.0000013 * 1 := by
    refine mul_bound (abs_le.2 ?_) (Real.abs_sin_le_one _)
    constructor <;> linarith [q1.1, q1.2, ht.1, ht.2]
  have s2 : |((0.019993 - 0.000101 * t) * K - 5 / 4 * e ^ 2) * Real.sin (2 * m)| ≤
      0.000006 * 1 := by
    refine mul_bound (abs_le.2 ?_) (Real.abs_sin_le_one _)
    have k1 : 0.01666 ^ 2 ≤ e ^ 2 := pow_le_pow_left₀ (by norm_num) e1 2
    have k2 : e ^ 2 ≤ 0.01676 ^ 2 := pow_le_pow_left₀ (by linarith) e2 2
    norm_num at k1 k2
    constructor <;> linarith [q2.1, q2.2, ht.1, ht.2]
  have s3 : |0.000289 * K * Real.sin (3 * m)| ≤ 0.0000051 * 1 := by
    refine mul_bound (abs_le.2 ?_) (Real.abs_sin_le_one _)
    constructor <;> linarith [hk.1, hk.2]
  have s1 := abs_le.1 s1
  have s2 := abs_le.1 s2
  have s3 := abs_le.1 s3
  rw [abs_le]
  constructor <;> linarith [s1.1, s1.2, s2.1, s2.2, s3.1, s3.2]

/-- Kepler's equation has a solution. -/
theorem kepler_solvable (e M : ℝ) (h0 : 0 ≤ e) (h1 : e < 1) : ∃ E, E - e * Real.sin E = M := by
  have hc : Continuous fun E : ℝ => E - e * Real.sin E := by fun_prop
  have := intermediate_value_Icc (a := M - 1) (b := M + 1) (by linarith) hc.continuousOn
  obtain ⟨E, -, hE⟩ := this ⟨by
    have := (abs_le.1 (Real.abs_sin_le_one (M - 1))).1
    show M - 1 - e * Real.sin (M - 1) ≤ M
    nlinarith, by
    have := (abs_le.1 (Real.abs_sin_le_one (M + 1))).2
    show M ≤ M + 1 - e * Real.sin (M + 1)
    nlinarith⟩
  exact ⟨E, hE⟩

/-- **C111.** From 1900 to 2100 the sun moves as Kepler's laws say: for the eccentric anomaly `E`
that solves Kepler's equation for the coded mean anomaly and eccentricity, the angle from the
perihelion that `sun_right_ascension` uses (mean anomaly plus equation of the centre) is within
0.002 degrees of the true anomaly on the ellipse. -/
theorem C111_kepler (jd : ℝ) (h : WithinCenturies 1 jd) (E : ℝ)
    (hE : E - eccentricity jd * Real.sin E = rad (sunAnomaly jd)) :
    ∃ k : ℤ, |rad (sunAnomaly jd + sunCentre jd) - trueAnomaly (eccentricity jd) E -
      2 * Real.pi * k| ≤ rad 0.002 := by
  obtain ⟨e1, e2⟩ := eccentricity_range h
  obtain ⟨k, hk⟩ := equation_of_centre _ _ E (by linarith) (by linarith) hE
  have hs := abs_le.1 (sunCentre_series h)
  have hd := abs_le.1 degree_bounds
  have hk := abs_le.1 hk
  have e3 : eccentricity jd ^ 3 ≤ 0.01676 ^ 3 := pow_le_pow_left₀ (by linarith) e2 3
  norm_num at e3
  have hr : rad (sunAnomaly jd + sunCentre jd) = rad (sunAnomaly jd) + rad (sunCentre jd) := by
    unfold rad; ring
  refine ⟨-k, ?_⟩
  rw [hr, abs_le]
  have : rad 0.002 = 0.002 * (Real.pi / 180) := rfl
  rw [this]
  push_cast
  constructor <;> linarith [hs.1, hs.2, hd.1, hd.2, hk.1, hk.2]

example : WithinCenturies 1 2459450 ∧
    ∃ E, E - eccentricity 2459450 * Real.sin E = rad (sunAnomaly 2459450) := by
  have h : WithinCenturies 1 2459450 := by unfold WithinCenturies; norm_num [abs_le]
  obtain ⟨e1, e2⟩ := eccentricity_range h
  exact ⟨h, kepler_solvable _ _ (by linarith) (by linarith)⟩

theorem tilt_bounds {d : ℝ} (h : |d| ≤ 23.465) :
    0.9161 ≤ Real.cos (rad d) ∧
      Real.tan (rad d / 2) ^ 2 = (1 - Real.cos (rad d)) / (1 + Real.cos (rad d)) ∧
      0 ≤ (1 - Real.cos (rad d)) / (1 + Real.cos (rad d)) ∧
      (1 - Real.cos (rad d)) / (1 + Real.cos (rad d)) ≤ 0.0438 := by
  have h1 := tan_half_bound (c := 0.0839) h (by norm_num) (by norm_num) (by norm_num)
  have h2 := Real.cos_le_one (rad d)
  refine ⟨by linarith [h1.2.2], tan_half_sq _ ?_, ?_, ?_⟩
  · have hp := Real.pi_gt_three
    have hp2 := Real.pi_lt_d4
    have ha := abs_le.1 h
    apply ne_of_gt
    apply Real.cos_pos_of_mem_Ioo
    unfold rad
    constructor <;> nlinarith [ha.1, ha.2]
  · exact div_nonneg (by linarith) (by linarith [h1.2.2])
  · rw [div_le_iff₀ (by linarith [h1.2.2])]
    linarith [h1.2.2]

/-- The equation of time from 1900 to 2100: the value of `equation_of_time` is the mean longitude
of the sun minus its right ascension as `sun_right_ascension` has it, to within 6 seconds of
time, up to full turns. -/
theorem C111_equation_of_time (jd : ℝ) (h : WithinCenturies 1 jd) :
    ∃ k : ℤ, |equationOfTime jd - (rad (sunLongitude jd) - sunRightAscension jd) -
      2 * Real.pi * k| ≤ 6 / 86400 * (2 * Real.pi) := by
  obtain ⟨e1, e2⟩ := eccentricity_range h
  have hd := abs_le.1 degree_bounds
  have hob := abs_le.1 (obliquity_bound h (by norm_num))
  have hnut := abs_le.1 (C82_nutation_bounded jd).2.2.1
  have hm : |meanObliquity jd| ≤ 23.465 := abs_le.2 ⟨by linarith [hob.1], by linarith [hob.2]⟩
  have ha : |apparentObliquity jd| ≤ 23.465 :=
    abs_le.2 ⟨by linarith [hob.1, hnut.1], by linarith [hob.2, hnut.2]⟩
  obtain ⟨c1, -, y0, y1⟩ := tilt_bounds hm
  obtain ⟨c2, hY, Y0, Y1⟩ := tilt_bounds ha
  obtain ⟨k, hk⟩ := arctan2_tilt (rad (sunLongitude jd + sunCentre jd))
    (Real.cos (rad (meanObliquity jd))) (by linarith) (Real.cos_le_one _)
  obtain ⟨n, hn⟩ := fmod_eq (arctan2 (Real.cos (rad (meanObliquity jd)) *
    Real.sin (rad (sunLongitude jd + sunCentre jd)))
    (Real.cos (rad (sunLongitude jd + sunCentre jd)))) (2 * Real.pi)
  have hS := sunCentre_series h
  have hal : sunRightAscension jd = _ := hn
  rw [hal]
  simp only [equationOfTime, hY]
  clear hal hn hY hob hm ha
  have hr : rad (sunLongitude jd + sunCentre jd) = rad (sunLongitude jd) + rad (sunCentre jd) := by
    unfold rad; ring
  rw [hr] at hk ⊢
  -- names
  obtain ⟨c, hc⟩ : ∃ c, c = Real.cos (rad (meanObliquity jd)) := ⟨_, rfl⟩
  obtain ⟨c', hc'⟩ : ∃ c', c' = Real.cos (rad (apparentObliquity jd)) := ⟨_, rfl⟩
  have hcc : |c' - c| ≤ 0.00005 := by
    rw [hc, hc']
    refine (Real.abs_cos_sub_cos_le _ _).trans ?_
    have : rad (apparentObliquity jd) - rad (meanObliquity jd) =
        (apparentObliquity jd - meanObliquity jd) * (Real.pi / 180) := by unfold rad; ring
    rw [this]
    have hpi : |Real.pi / 180| ≤ 0.0175 := by
      rw [abs_of_pos (by positivity)]
      linarith [hd.2]
    exact (mul_bound (abs_le.2 hnut) hpi).trans (by norm_num)
  clear hnut
  rw [← hc] at hk c1 y0 y1 ⊢
  rw [← hc'] at c2 Y0 Y1 ⊢
  obtain ⟨y, hy⟩ : ∃ y, y = (1 - c) / (1 + c) := ⟨_, rfl⟩
  obtain ⟨Y, hY⟩ : ∃ Y, Y = (1 - c') / (1 + c') := ⟨_, rfl⟩
  have hyY : |y - Y| ≤ 0.00003 := by
    have : y - Y = 2 * (c' - c) / ((1 + c) * (1 + c')) := by
      rw [hy, hY]
      have : 1 + c ≠ 0 := by linarith
      have : 1 + c' ≠ 0 := by linarith
      field_simp
      ring
    have hden : 3.67 ≤ (1 + c) * (1 + c') := by nlinarith
    rw [this, abs_div, abs_mul, abs_of_pos (by linarith : 0 < (1 + c) * (1 + c')),
      div_le_iff₀ (by linarith), abs_of_pos (by norm_num : (0 : ℝ) < 2)]
    linarith
  rw [← hy] at hk y0 y1
  rw [← hY] at Y0 Y1 ⊢
  clear hc hc' hy hY hcc c1 c2
  obtain ⟨a, haa⟩ : ∃ a, a = arctan2 (c * Real.sin (rad (sunLongitude jd) + rad (sunCentre jd)))
    (Real.cos (rad (sunLongitude jd) + rad (sunCentre jd))) := ⟨_, rfl⟩
  rw [← haa] at hk ⊢
  clear haa
  obtain ⟨l, hl⟩ : ∃ l, l = rad (sunLongitude jd) := ⟨_, rfl⟩
  obtain ⟨C, hC⟩ : ∃ C, C = rad (sunCentre jd) := ⟨_, rfl⟩
  obtain ⟨m, hm⟩ : ∃ m, m = rad (sunAnomaly jd) := ⟨_, rfl⟩
  obtain ⟨e, he⟩ : ∃ e, e = eccentricity jd := ⟨_, rfl⟩
  rw [← hl, ← hC] at hk
  rw [← hC, ← hm, ← he] at hS
  rw [← he] at e1 e2
  rw [← hl, ← hm, ← he]
  clear hl hC hm he hr
  -- the equation of the centre
  have hee : 5 / 4 * e ^ 2 ≤ 0.000352 := by nlinarith
  have hS2 : |5 / 4 * e ^ 2 * Real.sin (2 * m)| ≤ 0.000352 * 1 :=
    mul_bound (by rw [abs_of_nonneg (by positivity)]; exact hee) (Real.abs_sin_le_one _)
  have hS1 : |2 * e * Real.sin m| ≤ 0.03352 * 1 :=
    mul_bound (by rw [abs_of_nonneg (by linarith)]; linarith) (Real.abs_sin_le_one _)
  have hS' := abs_le.1 hS
  have hS1' := abs_le.1 hS1
  have hS2' := abs_le.1 hS2
  have hCb : |C| ≤ 0.0339 := by
    rw [abs_le]
    constructor <;> linarith [hS'.1, hS'.2, hS1'.1, hS1'.2, hS2'.1, hS2'.2]
  have hC1 : |2 * e * Real.sin m - C| ≤ 0.000365 := by
    rw [abs_le]
    constructor <;> linarith [hS'.1, hS'.2, hS2'.1, hS2'.2]
  -- the remainders
  have h2C : |2 * C| ≤ 0.0678 := by
    rw [abs_mul, abs_of_pos (by norm_num : (0 : ℝ) < 2)]; linarith
  have r1 : |Y * (Real.sin (2 * l + 2 * C) - Real.sin (2 * l) - 2 * C * Real.cos (2 * l))| ≤
      0.0438 * 0.00237 := by
    refine mul_bound (by rw [abs_of_nonneg Y0]; exact Y1) ?_
    refine (sin_add_bound (2 * l) (2 * C) (by linarith)).trans ?_
    have k1 : (2 * C) ^ 2 ≤ 0.0678 ^ 2 := by
      rw [← sq_abs]; exact pow_le_pow_left₀ (abs_nonneg _) h2C 2
    have k2 : |2 * C| ^ 3 ≤ 0.0678 ^ 3 := pow_le_pow_left₀ (abs_nonneg _) h2C 3
    norm_num at k1 k2 ⊢
    linarith
  have r2 : |2 * Y * Real.cos (2 * l) * (2 * e * Real.sin m - C)| ≤ 0.0876 * 1 * 0.000365 := by
    refine mul_bound (mul_bound ?_ (Real.abs_cos_le_one _)) hC1
    rw [abs_of_nonneg (by linarith)]; linarith
  have r3 : |1 / 2 * Y ^ 2 * (Real.sin (4 * l + 4 * C) - Real.sin (4 * l))| ≤ 0.00096 * 0.1356 := by
    refine mul_bound ?_ ?_
    · rw [abs_of_nonneg (by positivity)]; nlinarith
    · refine (Real.abs_sin_sub_sin_le _ _).trans ?_
      rw [add_sub_cancel_left, abs_mul, abs_of_pos (by norm_num : (0 : ℝ) < 4)]
      linarith
  have r4 : |(y - Y) * Real.sin (2 * l + 2 * C)| ≤ 0.00003 * 1 :=
    mul_bound hyY (Real.abs_sin_le_one _)
  have r5 : |1 / 2 * ((y - Y) * (y + Y)) * Real.sin (4 * l + 4 * C)| ≤
      1 / 2 * (0.00003 * 0.0876) * 1 := by
    refine mul_bound (mul_bound (by norm_num [abs_of_pos]) (mul_bound hyY ?_))
      (Real.abs_sin_le_one _)
    rw [abs_of_nonneg (by linarith)]; linarith
  have r6 : y ^ 3 * (1 - y)⁻¹ / 3 ≤ 0.00003 := by
    have k1 : y ^ 3 ≤ 0.0438 ^ 3 := pow_le_pow_left₀ y0 y1 3
    have k2 : (1 - y)⁻¹ ≤ 1.05 := by
      rw [inv_le_comm₀ (by linarith) (by norm_num)]
      norm_num
      linarith
    have k3 : y ^ 3 * (1 - y)⁻¹ ≤ 0.0438 ^ 3 * 1.05 :=
      mul_le_mul k1 k2 (inv_nonneg.2 (by linarith)) (by positivity)
    norm_num at k3 ⊢
    linarith
  refine ⟨k + n, ?_⟩
  have split : Y * Real.sin (2 * l) + -2 * e * Real.sin m +
      4 * e * Y * Real.sin m * Real.cos (2 * l) + -0.5 * Y ^ 2 * Real.sin (4 * l) +
      -1.25 * e ^ 2 * Real.sin (2 * m) - (l - (a + 2 * Real.pi * n)) -
      2 * Real.pi * ((k + n : ℤ) : ℝ) =
      (a - (l + C - y * Real.sin (2 * (l + C)) + y ^ 2 / 2 * Real.sin (4 * (l + C))) -
        2 * Real.pi * k) +
      (C - (2 * e * Real.sin m + 5 / 4 * e ^ 2 * Real.sin (2 * m))) -
      Y * (Real.sin (2 * l + 2 * C) - Real.sin (2 * l) - 2 * C * Real.cos (2 * l)) +
      2 * Y * Real.cos (2 * l) * (2 * e * Real.sin m - C) +
      1 / 2 * Y ^ 2 * (Real.sin (4 * l + 4 * C) - Real.sin (4 * l)) -
      (y - Y) * Real.sin (2 * l + 2 * C) +
      1 / 2 * ((y - Y) * (y + Y)) * Real.sin (4 * l + 4 * C) := by
    rw [mul_add 2 l C, mul_add 4 l C]
    push_cast
    ring
  rw [split]
  have hk := abs_le.1 (hk.trans r6)
  have r1 := abs_le.1 r1
  have r2 := abs_le.1 r2
  have r3 := abs_le.1 r3
  have r4 := abs_le.1 r4
  have r5 := abs_le.1 r5
  rw [abs_le]
  constructor <;> linarith [hk.1, hk.2, r1.1, r1.2, r2.1, r2.2, r3.1, r3.2, r4.1, r4.2, r5.1, r5.2,
    hS'.1, hS'.2, hd.1, hd.2]

/-- **C112.** From 1900 to 2100, at every longitude, the hour angle of the true sun given by
`true_hour_angle` is the Greenwich mean sidereal time plus the longitude minus the right
ascension of the sun, to within 8 seconds on the clock. -/
theorem C112_true_hour_angle (jd lon : ℝ) (h : WithinCenturies 1 jd) :
    ClockWithin (trueHourAngle jd lon) (gmst jd + lon / 15 - sunHours jd) (8 / 3600) := by
  obtain ⟨k, hk⟩ := C111_equation_of_time jd h
  have ht := abs_le.1 h.centuries
  obtain ⟨⟨p1, p2⟩, p3, p4⟩ := pow_bounds h.centuries
  have hp := Real.pi_pos
  obtain ⟨r, hr⟩ : ∃ r, r = equationOfTime jd - (rad (sunLongitude jd) - sunRightAscension jd) -
    2 * Real.pi * k := ⟨_, rfl⟩
  rw [← hr] at hk
  have hE : equationOfTime jd * (180 / Real.pi) =
      sunLongitude jd - 15 * sunHours jd + 360 * k + r * (180 / Real.pi) := by
    rw [hr]
    unfold rad sunHours
    field_simp
    ring
  have hrb : |r * (180 / Real.pi)| ≤ 6 / 240 := by
    rw [abs_mul, abs_of_pos (by positivity : 0 < 180 / Real.pi)]
    calc _ ≤ 6 / 86400 * (2 * Real.pi) * (180 / Real.pi) := by gcongr
      _ = 6 / 240 := by field_simp; norm_num
  have hrb := abs_le.1 hrb
  obtain ⟨a, ha⟩ := fmod_eq (trueSolarTime jd lon - 12) 24
  obtain ⟨b, hb⟩ := fmod_eq (utcHours jd + (lon + equationOfTime jd * (180 / Real.pi)) / 15) 24
  obtain ⟨c, hc⟩ := fmod_eq jd 1
  obtain ⟨d, hd⟩ := fmod_eq (280.46 + 360.98564736629 * centuries jd * 36525 +
    0.000387933 * centuries jd ^ 2 - centuries jd ^ 3 / 38710000) 360
  have h1 : trueHourAngle jd lon = 24 * (jd + c) - 12 + (lon + (sunLongitude jd -
      15 * sunHours jd + 360 * k + r * (180 / Real.pi))) / 15 + 24 * b - 12 + 24 * a := by
    unfold trueHourAngle
    rw [ha]
    unfold trueSolarTime
    rw [hb, hE]
    unfold utcHours
    rw [hc]
    ring
  have h2 : gmst jd = (280.46 + 360.98564736629 * centuries jd * 36525 +
    0.000387933 * centuries jd ^ 2 - centuries jd ^ 3 / 38710000 + 360 * d) / 15 := by
    unfold gmst
    simp only
    rw [hd]
  have hj : jd = 2451545 + 36525 * centuries jd := by unfold centuries; ring
  refine ⟨c + k + b + a - d + 2451544, ?_⟩
  rw [h1, h2]
  unfold sunLongitude
  push_cast
  rw [abs_le]
  constructor <;> linarith [hrb.1, hrb.2, ht.1, ht.2]

/-- C73 (how wrong `lmst` is): from 1900 to 2100 local mean sidereal time falls short of Greenwich
mean sidereal time plus longitude by the equation of time, to within 8 seconds. -/
theorem C73_lmst_error_is_equation_of_time (jd lon : ℝ) (h : WithinCenturies 1 jd) :
    ClockWithin (lmst jd lon) (gmst jd + lon / 15 - equationOfTime jd * (12 / Real.pi))
      (8 / 3600) := by
  obtain ⟨k, hk⟩ := C112_true_hour_angle jd lon h
  obtain ⟨a, ha⟩ := fmod_eq (trueSolarTime jd lon - 12) 24
  obtain ⟨b, hb⟩ := fmod_eq (utcHours jd + (lon + equationOfTime jd * (180 / Real.pi)) / 15) 24
  obtain ⟨c, hc⟩ := fmod_eq (meanHourAngle jd lon + sunHours jd) 24
  obtain ⟨d, hd⟩ := fmod_eq (meanSolarTime jd lon - 12) 24
  obtain ⟨f, hf⟩ := fmod_eq (utcHours jd + lon / 15) 24
  refine ⟨k - a - b + c + d + f, ?_⟩
  convert hk using 2
  unfold lmst trueHourAngle
  rw [hc, ha]
  unfold meanHourAngle trueSolarTime
  rw [hd, hb]
  unfold meanSolarTime
  rw [hf]
  push_cast
  ring

/-- C73 is false at every instant from 1900 to 2100 at which the equation of time exceeds 8 seconds,
at every longitude. -/
theorem C73_wrong_whenever_equation_of_time (jd lon : ℝ) (h : WithinCenturies 1 jd)
    (hE : 8 / 3600 < |equationOfTime jd| * (12 / Real.pi)) :
    ¬ HoursLater (gmst jd) (lmst jd lon) (lon / 15) := by
  rintro ⟨m, hm⟩
  obtain ⟨k, hk⟩ := C73_lmst_error_is_equation_of_time jd lon h
  have hpos : 0 < 12 / Real.pi := by positivity
  have hle : |equationOfTime jd * (12 / Real.pi)| ≤ 1 / 2 := by
    have ha := apparent_bound h (by norm_num)
    have hy := tan_half_bound (c := 0.0839) ha (by norm_num) (by norm_num) (by norm_num)
    have he := eccentricity_bound h (by norm_num)
    have hy' : |Real.tan (rad (apparentObliquity jd) / 2) ^ 2| ≤ 0.0839 / (2 - 0.0839) := by
      rw [abs_of_nonneg hy.1]; exact hy.2.1
    have h1 : |equationOfTime jd| ≤ 0.1 := le_trans (eqTime_bound hy' he) (by norm_num)
    rw [abs_mul, abs_of_pos hpos, mul_div_assoc', div_le_iff₀ Real.pi_pos]
    linarith [Real.pi_gt_three]
  rw [← abs_of_pos hpos, ← abs_mul] at hE
  rw [hm] at hk
  obtain ⟨k1, k2⟩ := abs_le.1 hk
  obtain ⟨e1, e2⟩ := abs_le.1 hle
  have h1 : ((m - k : ℤ) : ℝ) < 1 := by push_cast; linarith
  have h2 : (-1 : ℝ) < ((m - k : ℤ) : ℝ) := by push_cast; linarith
  have h3 : m - k < 1 := by exact_mod_cast h1
  have h4 : -1 < m - k := by exact_mod_cast h2
  have h5 : m = k := by omega
  subst h5
  have : gmst jd + lon / 15 + 24 * (m : ℝ) - (gmst jd + lon / 15 - equationOfTime jd *
      (12 / Real.pi)) - 24 * m = equationOfTime jd * (12 / Real.pi) := by ring
  rw [this] at hk
  linarith

/-- Non-vacuity for C73: the start of 4 January 2000, when the earth is closest to the sun. -/
example : WithinCenturies 1 2451547.5 ∧
    8 / 3600 < |equationOfTime 2451547.5| * (12 / Real.pi) := by
  have hW : WithinCenturies 1 2451547.5 := by unfold WithinCenturies; norm_num [abs_le]
  refine ⟨hW, ?_⟩
  have hpi := Real.pi_gt_d4
  have hpi' := Real.pi_lt_d4
  have hc : centuries 2451547.5 = 1 / 14610 := by unfold centuries; norm_num
  -- the mean anomaly is almost a full turn
  obtain ⟨m, hm, hm0, hm1⟩ : ∃ m, m = rad (sunAnomaly 2451547.5) ∧ -0.0002 ≤ m - 2 * Real.pi ∧
      m - 2 * Real.pi ≤ 0 := by
    refine ⟨_, rfl, ?_⟩
    have : sunAnomaly 2451547.5 =
        357.52772 + 35999.050340 * (1 / 14610) - 0.0001603 * (1 / 14610) ^ 2 -
          (1 / 14610) ^ 3 / 300000 := by
      unfold sunAnomaly
      simp only [hc]
      exact fmod_self _ _ (by norm_num) (by norm_num)
    rw [this]
    unfold rad
    constructor <;> norm_num <;> nlinarith
  have hs : |Real.sin m| ≤ 0.0002 := by
    rw [← Real.sin_sub_two_pi]
    exact le_trans Real.abs_sin_le_abs (abs_le.2 ⟨hm0, by linarith⟩)
  have hs2 : |Real.sin (2 * m)| ≤ 0.0004 := by
    rw [Real.sin_two_mul, mul_right_comm, abs_mul, abs_mul, abs_two]
    have := mul_le_mul_of_nonneg_left (Real.abs_cos_le_one m) (abs_nonneg (Real.sin m))
    nlinarith
  -- twice the longitude is 25.9 degrees past half a turn
  have hl : Real.sin (2 * rad (sunLongitude 2451547.5)) ≤ -0.28 := by
    have e : 2 * rad (sunLongitude 2451547.5) = rad (2 * sunLongitude 2451547.5 - 540) +
        Real.pi + 2 * Real.pi := by unfold rad; ring
    rw [e, Real.sin_add_two_pi, Real.sin_add_pi]
    have hd : 25.8 ≤ 2 * sunLongitude 2451547.5 - 540 ∧
        2 * sunLongitude 2451547.5 - 540 ≤ 25.9 := by
      unfold sunLongitude
      rw [hc]
      constructor <;> norm_num
    have := Real.mul_le_sin (x := rad (2 * sunLongitude 2451547.5 - 540))
      (by unfold rad; have := hd.1; positivity) (by unfold rad; nlinarith [hd.2])
    have h2 : 2 / Real.pi * rad (2 * sunLongitude 2451547.5 - 540) =
        (2 * sunLongitude 2451547.5 - 540) / 90 := by
      unfold rad; field_simp; ring
    rw [h2] at this
    linarith [hd.1]
  have ha := apparent_bound hW (by norm_num)
  have hy := tan_half_bound (c := 0.0839) ha (by norm_num) (by norm_num) (by norm_num)
  have hY : Real.tan (rad (apparentObliquity 2451547.5) / 2) ^ 2 ≤ 0.0438 :=
    hy.2.1.trans (by norm_num)
  have hY' : 0.04 ≤ Real.tan (rad (apparentObliquity 2451547.5) / 2) ^ 2 := by
    have o := abs_le.1 (obliquity_bound hW (by norm_num))
    have b := abs_le.1 (C82_nutation_bounded 2451547.5).2.2.1
    have hb : 23 ≤ apparentObliquity 2451547.5 := by linarith [o.1, b.1]
    have hb' := (abs_le.1 ha).2
    have h1 : 0.2 ≤ rad (apparentObliquity 2451547.5) / 2 := by unfold rad; nlinarith
    have h2 := Real.lt_tan (x := rad (apparentObliquity 2451547.5) / 2) (by linarith)
      (by unfold rad; nlinarith)
    nlinarith
  have hE : equationOfTime 2451547.5 ≤ -0.01 := by
    have he := eccentricity_bound hW (by norm_num)
    unfold equationOfTime
    simp only
    rw [← hm]
    generalize Real.tan (rad (apparentObliquity 2451547.5) / 2) ^ 2 = Y at *
    generalize eccentricity 2451547.5 = E at *
    have he' : |E| ≤ 0.02 := he.trans (by norm_num)
    have hYa : |Y| ≤ 0.0438 := by rw [abs_of_nonneg (by linarith)]; exact hY
    have b1 : Y * Real.sin (2 * rad (sunLongitude 2451547.5)) ≤ Y * -0.28 :=
      mul_le_mul_of_nonneg_left hl (by linarith)
    have b2 := abs_le.1 (mul_bound he' hs)
    have b3 := abs_le.1 (mul_bound (mul_bound (mul_bound he' hYa) hs)
      (Real.abs_cos_le_one (2 * rad (sunLongitude 2451547.5))))
    have b4 := abs_le.1 (mul_bound (mul_bound hYa hYa)
      (Real.abs_sin_le_one (4 * rad (sunLongitude 2451547.5))))
    have b5 := abs_le.1 (mul_bound (mul_bound he' he') hs2)
    norm_num at b2 b3 b4 b5 ⊢
    nlinarith [b2.1, b3.2, b4.1, b5.1]
  have hab : 0.01 ≤ |equationOfTime 2451547.5| := by
    rw [abs_of_neg (by linarith)]; linarith
  rw [mul_div_assoc', lt_div_iff₀ Real.pi_pos]
  nlinarith

end Celest.TimeScale
