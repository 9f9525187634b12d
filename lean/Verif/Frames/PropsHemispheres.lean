/-
C52: what the altitude of a position is worth, by hemisphere.
-/
import Verif.Frames.PropsPasses

namespace Celest.Frames

open Matrix Celest.TimeScale

/-! ### the specification: heights above the ellipsoid are unique -/

/-- C52: a position outside the ellipsoid has one height, so that "the height of the position" in
the statements below means one number. -/
theorem C52_height_unique (v : Vec) (t t' : ℝ) (ht : 0 ≤ t) (ht' : 0 ≤ t')
    (h : IsHeight (axisA ^ 2) (axisB ^ 2) v t) (h' : IsHeight (axisA ^ 2) (axisB ^ 2) v t') :
    t = t' := by
  have hb : 0 < axisB := by unfold axisB; norm_num
  have key : ∀ s s' : Vec, OnEllipsoid (axisA ^ 2) (axisB ^ 2) s →
      OnEllipsoid (axisA ^ 2) (axisB ^ 2) s' →
      (s' 0 - s 0) * (s 0 / axisA ^ 2) + (s' 1 - s 1) * (s 1 / axisA ^ 2) +
        (s' 2 - s 2) * (s 2 / axisB ^ 2) ≤ 0 := by
    intro s s' h1 h2
    unfold OnEllipsoid at h1 h2
    have e0 := div_nonneg (sq_nonneg (s 0 - s' 0)) (sq_nonneg axisA)
    have e1 := div_nonneg (sq_nonneg (s 1 - s' 1)) (sq_nonneg axisA)
    have e2 := div_nonneg (sq_nonneg (s 2 - s' 2)) (sq_nonneg axisB)
    have e : (s' 0 - s 0) * (s 0 / axisA ^ 2) + (s' 1 - s 1) * (s 1 / axisA ^ 2) +
        (s' 2 - s 2) * (s 2 / axisB ^ 2) =
        (s' 0 ^ 2 / axisA ^ 2 + s' 1 ^ 2 / axisA ^ 2 + s' 2 ^ 2 / axisB ^ 2 -
          (s 0 ^ 2 / axisA ^ 2 + s 1 ^ 2 / axisA ^ 2 + s 2 ^ 2 / axisB ^ 2)) / 2 -
        ((s 0 - s' 0) ^ 2 / axisA ^ 2 + (s 1 - s' 1) ^ 2 / axisA ^ 2 +
          (s 2 - s' 2) ^ 2 / axisB ^ 2) / 2 := by
      ring
    rw [e, h1, h2]
    linarith
  obtain ⟨s, hs, n, hn, ⟨k, hk, hnk⟩, hv⟩ := h
  obtain ⟨s', hs', n', hn', ⟨k', hk', hnk'⟩, hv'⟩ := h'
  have k1 := mul_le_mul_of_nonneg_left (key s s' hs hs') (mul_nonneg ht hk.le)
  have k2 := mul_le_mul_of_nonneg_left (key s' s hs' hs) (mul_nonneg ht' hk'.le)
  have c : ∀ i, s i + t * (k * ellipsoidGradient (axisA ^ 2) (axisB ^ 2) s i) =
      s' i + t' * (k' * ellipsoidGradient (axisA ^ 2) (axisB ^ 2) s' i) := by
    intro i
    have := congrFun (hv.symm.trans hv') i
    rw [hnk, hnk'] at this
    simpa using this
  have c0 := c 0
  have c1 := c 1
  have c2 := c 2
  simp only [ellipsoidGradient, Matrix.cons_val_zero, Matrix.cons_val_one, Matrix.cons_val] at c0 c1 c2
  have hsum : (s 0 - s' 0) ^ 2 + (s 1 - s' 1) ^ 2 + (s 2 - s' 2) ^ 2 ≤ 0 := by
    have e : (s 0 - s' 0) ^ 2 + (s 1 - s' 1) ^ 2 + (s 2 - s' 2) ^ 2 =
        t * k * ((s' 0 - s 0) * (s 0 / axisA ^ 2) + (s' 1 - s 1) * (s 1 / axisA ^ 2) +
          (s' 2 - s 2) * (s 2 / axisB ^ 2)) +
        t' * k' * ((s 0 - s' 0) * (s' 0 / axisA ^ 2) + (s 1 - s' 1) * (s' 1 / axisA ^ 2) +
          (s 2 - s' 2) * (s' 2 / axisB ^ 2)) := by
      linear_combination (s 0 - s' 0) * c0 + (s 1 - s' 1) * c1 + (s 2 - s' 2) * c2
    rw [e]
    linarith
  have q0 : s 0 = s' 0 := by nlinarith [sq_nonneg (s 0 - s' 0), sq_nonneg (s 1 - s' 1), sq_nonneg (s 2 - s' 2)]
  have q1 : s 1 = s' 1 := by nlinarith [sq_nonneg (s 0 - s' 0), sq_nonneg (s 1 - s' 1), sq_nonneg (s 2 - s' 2)]
  have q2 : s 2 = s' 2 := by nlinarith [sq_nonneg (s 0 - s' 0), sq_nonneg (s 1 - s' 1), sq_nonneg (s 2 - s' 2)]
  have hss : s = s' := by
    ext i
    fin_cases i
    · exact q0
    · exact q1
    · exact q2
  have e1 : t • n = t' • n' := by
    rw [hv, hss] at hv'
    exact add_left_cancel hv'
  have e2 : ‖toE (t • n)‖ = ‖toE (t' • n')‖ := by rw [e1]
  have e3 : ∀ (a : ℝ) (m : Vec), ‖toE m‖ = 1 → 0 ≤ a → ‖toE (a • m)‖ = a := by
    intro a m hm ha
    have : toE (a • m) = a • toE m := rfl
    rw [this, norm_smul, hm, mul_one, Real.norm_eq_abs, abs_of_nonneg ha]
  rwa [e3 t n hn ht, e3 t' n' hn' ht'] at e2

/-! ### the first check of the loop -/

theorem gm_tight : 6367.43 < Real.sqrt (axisA * axisB) ∧ Real.sqrt (axisA * axisB) < 6367.44 := by
  constructor
  · rw [Real.lt_sqrt (by norm_num)]
    unfold axisA axisB
    norm_num
  · rw [Real.sqrt_lt' (by norm_num)]
    unfold axisA axisB
    norm_num

theorem ratio_tight : 0.9933 < ratio ^ 2 ∧ ratio ^ 2 < 0.993306 := by
  unfold ratio axisA axisB
  constructor <;> norm_num

theorem shift_tight : 42.69 < shift ∧ shift < 42.7 := by
  unfold shift ratio axisA axisB
  constructor <;> norm_num

/-- The start height exceeds the height of the limit by the difference between the support
distance of the ellipsoid and the geometric mean of its axes, up to 170 m. -/
theorem Regular.start_difference {p z x : ℝ} (h : Regular p z) (hx : |z| / p ≤ |x|)
    (hf : nextTan p z x = x) :
    axisA * (root x / Real.sqrt (1 + x ^ 2)) - Real.sqrt (axisA * axisB) ≤
        Real.sqrt (p ^ 2 + z ^ 2) - Real.sqrt (axisA * axisB) - heightOf p x ∧
      Real.sqrt (p ^ 2 + z ^ 2) - Real.sqrt (axisA * axisB) - heightOf p x ≤
        axisA * (root x / Real.sqrt (1 + x ^ 2)) - Real.sqrt (axisA * axisB) + 0.17 := by
  have hp := h.1
  have hr6 := h.r_ge
  have hr2 : Real.sqrt (p ^ 2 + z ^ 2) ^ 2 = p ^ 2 + z ^ 2 := Real.sq_sqrt (by positivity)
  have hden := (h.denominator hx).1
  have hw := root_pos x
  have hw2 := root_sq x
  have hratio := ratio_bounds
  have hs := shift_bounds
  have hwx := Frames.root_ge x
  set r := Real.sqrt (p ^ 2 + z ^ 2)
  set T := Real.sqrt (1 + x ^ 2) with hT
  have hT0 : 0 < T := Real.sqrt_pos.2 (by positivity)
  have hTsq : T ^ 2 = 1 + x ^ 2 := Real.sq_sqrt (by positivity)
  have hT1' : 1 ≤ T := by
    rw [hT, Real.one_le_sqrt]
    nlinarith [sq_nonneg x]
  have hD : 0 < p - shift / root x := by nlinarith
  have hz : z = x * (p - shift / root x) := by
    rw [nextTan, div_eq_iff hD.ne'] at hf
    exact hf
  have hsh : shift = (1 - ratio ^ 2) * axisA := rfl
  have hA : heightOf p x = (p + z * x) / T - axisA * (root x / T) := by
    have e : (p + z * x) / T - axisA * (root x / T) =
        p * T - axisA * T / root x + ((p + z * x) - p * T ^ 2 - axisA * root x +
          axisA * T ^ 2 / root x) / T := by
      field_simp
      ring
    have e0 : (p + z * x) - p * T ^ 2 - axisA * root x + axisA * T ^ 2 / root x = 0 := by
      rw [hTsq, hz, hsh]
      field_simp
      linear_combination (-axisA) * hw2
    rw [e, e0]
    simp [heightOf, hT]
  have hB : (z - p * x) / T = -(shift * (x / root x) / T) := by
    rw [hz]
    field_simp
    ring
  have hBsq : ((z - p * x) / T) ^ 2 ≤ 1900 := by
    have h1 : |x / root x| ≤ 1.005 := by
      rw [abs_div, abs_of_pos hw, div_le_iff₀ hw]
      rw [abs_mul, abs_of_pos (by linarith : 0 < ratio)] at hwx
      nlinarith [abs_nonneg x]
    have h2 : (x / root x) ^ 2 ≤ 1.02 := by
      rw [← sq_abs]
      nlinarith [abs_nonneg (x / root x)]
    rw [hB]
    exact tangential_bound hs h2 hT1'
  have hsum := (rotated_sq p z x T hT0 hTsq).trans hr2.symm
  have hApos : 0 ≤ (p + z * x) / T := by
    have hzx : z * x = x ^ 2 * (p - shift / root x) := by
      conv_lhs => rw [hz]
      ring
    have := mul_nonneg (sq_nonneg x) hD.le
    exact div_nonneg (by linarith) hT0.le
  obtain ⟨hA1, hA2⟩ := sq_sum_bounds hr6 hApos hBsq hsum
  rw [hA]
  constructor <;> linarith

/-- The support distance in terms of the geocentric latitude, whose squared sine is `S`. -/
theorem support_ge {p z x S : ℝ} (hp : 0 < p) (hx : |x| * p ≤ |z| / 0.99)
    (hS : z ^ 2 ≤ S * (p ^ 2 + z ^ 2)) (hS0 : 0 ≤ S) (hS1 : S ≤ 0.5) :
    6378.13 - 22 * S ≤ axisA * (root x / Real.sqrt (1 + x ^ 2)) := by
  have hT0 : 0 < Real.sqrt (1 + x ^ 2) := Real.sqrt_pos.2 (by positivity)
  have hTsq : Real.sqrt (1 + x ^ 2) ^ 2 = 1 + x ^ 2 := Real.sq_sqrt (by positivity)
  have hw := root_pos x
  have hw2 := root_sq x
  obtain ⟨hr1, hr2⟩ := ratio_tight
  have hA : axisA = 6378.137 := rfl
  have hxp : x ^ 2 * p ^ 2 * 0.9801 ≤ z ^ 2 := by
    rw [le_div_iff₀ (by norm_num)] at hx
    have := mul_self_le_mul_self (mul_nonneg (mul_nonneg (abs_nonneg x) hp.le) (by norm_num)) hx
    rw [abs_mul_abs_self] at this
    have e : |x| * p * 0.99 * (|x| * p * 0.99) = x ^ 2 * p ^ 2 * 0.9801 := by
      rw [← sq_abs x]
      ring
    rw [e] at this
    linarith
  have hp2 : 0 < p ^ 2 := by positivity
  -- the squared sine of the geodetic latitude
  have hsin : 0.9801 * x ^ 2 ≤ S * (1 + x ^ 2) := by
    have h1 : z ^ 2 * (1 - S) ≤ S * p ^ 2 := by linarith
    have h2 : 0.9801 * x ^ 2 * (1 - S) * p ^ 2 ≤ S * p ^ 2 := by
      have := mul_le_mul_of_nonneg_right hxp (show 0 ≤ 1 - S by linarith)
      linarith
    have h3 : 0.9801 * x ^ 2 * (1 - S) ≤ S := le_of_mul_le_mul_right h2 hp2
    nlinarith [mul_nonneg hS0 (sq_nonneg x)]
  rw [hA, ← mul_div_assoc, le_div_iff₀ hT0]
  apply le_of_sq_le_sq _ (by positivity)
  rw [mul_pow, mul_pow, hTsq, hw2, mul_pow]
  have hsq : (6378.13 - 22 * S) ^ 2 ≤ 6378.13 ^ 2 - 280395 * S := by
    nlinarith [mul_nonneg hS0 (show (0:ℝ) ≤ 0.5 - S by linarith)]
  have h1 := mul_le_mul_of_nonneg_right hsq (show 0 ≤ 1 + x ^ 2 by positivity)
  refine h1.trans ?_
  have h2 : 0.9933 * x ^ 2 ≤ ratio ^ 2 * x ^ 2 :=
    mul_le_mul_of_nonneg_right hr1.le (sq_nonneg x)
  nlinarith [sq_nonneg x]

/-- The support distance from above. -/
theorem support_le {p z x : ℝ} (hp : 0 < p) (hx : |z| / p ≤ |x|) :
    axisA * (root x / Real.sqrt (1 + x ^ 2)) ≤ 6378.137 - 21.34 * (z ^ 2 / (p ^ 2 + z ^ 2)) := by
  have hT0 : 0 < Real.sqrt (1 + x ^ 2) := Real.sqrt_pos.2 (by positivity)
  have hTsq : Real.sqrt (1 + x ^ 2) ^ 2 = 1 + x ^ 2 := Real.sq_sqrt (by positivity)
  have hw2 := root_sq x
  obtain ⟨hr1, hr2⟩ := ratio_tight
  have hA : axisA = 6378.137 := rfl
  have hp2 : 0 < p ^ 2 := by positivity
  have hr : 0 < p ^ 2 + z ^ 2 := by positivity
  set S := z ^ 2 / (p ^ 2 + z ^ 2) with hS
  have hS0 : 0 ≤ S := by positivity
  have hS1 : S ≤ 1 := by
    rw [hS, div_le_one hr]
    linarith
  have hSz : S * (p ^ 2 + z ^ 2) = z ^ 2 := by rw [hS]; field_simp
  have hxp : z ^ 2 ≤ x ^ 2 * p ^ 2 := by
    rw [div_le_iff₀ hp] at hx
    have := mul_self_le_mul_self (abs_nonneg z) hx
    rw [abs_mul_abs_self] at this
    have e : |x| * p * (|x| * p) = x ^ 2 * p ^ 2 := by
      rw [← sq_abs x]
      ring
    linarith
  have hsin : S * (1 + x ^ 2) ≤ x ^ 2 := by
    have h1 : S * p ^ 2 = z ^ 2 * (1 - S) := by linarith
    have h2 : S * p ^ 2 ≤ x ^ 2 * (1 - S) * p ^ 2 := by
      rw [h1]
      have := mul_le_mul_of_nonneg_right hxp (show 0 ≤ 1 - S by linarith)
      linarith
    have h3 := le_of_mul_le_mul_right h2 hp2
    linarith
  rw [hA, ← mul_div_assoc, div_le_iff₀ hT0]
  apply le_of_sq_le_sq _ (mul_nonneg (by linarith) hT0.le)
  rw [mul_pow, mul_pow, hTsq, hw2, mul_pow]
  have hsq : 6378.137 ^ 2 - 272219 * S ≤ (6378.137 - 21.34 * S) ^ 2 := by
    nlinarith [mul_nonneg hS0 hS0]
  have h1 := mul_le_mul_of_nonneg_right hsq (show 0 ≤ 1 + x ^ 2 by positivity)
  refine le_trans ?_ h1
  have h2 : ratio ^ 2 * x ^ 2 ≤ 0.993306 * x ^ 2 :=
    mul_le_mul_of_nonneg_right hr2.le (sq_nonneg x)
  nlinarith [sq_nonneg x]

/-- What the start latitude is computed with. -/
noncomputable def startRadius (p z : ℝ) : ℝ :=
  axisA + (Real.sqrt (p ^ 2 + z ^ 2) - Real.sqrt (axisA * axisB))

theorem startTan_eq (p z : ℝ) : startTan p z = z / (p * (1 - shift / startRadius p z)) := by
  unfold startTan startRadius
  rw [show (1 - ratio ^ 2) * axisA = shift from rfl, ← div_eq_mul_inv, div_div]

theorem startRadius_bounds (p z : ℝ) : Real.sqrt (p ^ 2 + z ^ 2) + 10.69 < startRadius p z ∧
    startRadius p z < Real.sqrt (p ^ 2 + z ^ 2) + 10.71 := by
  have := gm_tight
  have hA : axisA = 6378.137 := rfl
  unfold startRadius
  constructor <;> linarith

/-- The radius of the first pass, in terms of the geocentric latitude. -/
theorem Regular.first_radius {p z c : ℝ} (h : Regular p z) (hc : 0 ≤ c)
    (hq : ratio ^ 2 * Real.sqrt (p ^ 2 + z ^ 2) ^ 2 ≤
      (Real.sqrt (p ^ 2 + z ^ 2) + 2 * c) * (Real.sqrt (p ^ 2 + z ^ 2) - 85.4)) :
    root (startTan p z) * p ≤
      Real.sqrt (p ^ 2 + z ^ 2) + c * (z ^ 2 / (p ^ 2 + z ^ 2)) := by
  have hp := h.1
  have hr6 := h.r_ge
  have hr2 : Real.sqrt (p ^ 2 + z ^ 2) ^ 2 = p ^ 2 + z ^ 2 := Real.sq_sqrt (by positivity)
  have hD := (startRadius_bounds p z).1
  have hs := shift_tight
  have hx := startTan_eq p z
  have hw2 := root_sq (startTan p z)
  have hw := root_pos (startTan p z)
  set r := Real.sqrt (p ^ 2 + z ^ 2) with hr
  set D := startRadius p z
  suffices root (startTan p z) * p ≤ r + c * (z ^ 2 / r ^ 2) by rwa [hr2] at this
  have hr0 : 0 < r := by linarith
  have hy : shift / D ≤ 42.7 / r := by
    rw [div_le_div_iff₀ (by linarith) hr0]
    nlinarith
  have hy1 : 42.7 / r ≤ 0.0072 := by
    rw [div_le_iff₀ hr0]
    linarith
  have hd : 0 < 1 - shift / D := by linarith
  have hd2 : 1 - 85.4 / r ≤ (1 - shift / D) ^ 2 := by
    have : (85.4 : ℝ) / r = 2 * (42.7 / r) := by ring
    nlinarith [sq_nonneg (shift / D)]
  have hxp : (startTan p z * p) ^ 2 = z ^ 2 / (1 - shift / D) ^ 2 := by
    rw [hx, ← div_pow]
    congr 1
    field_simp
  have hkey : ratio ^ 2 * (z ^ 2 / (1 - shift / D) ^ 2) ≤ z ^ 2 * (1 + 2 * c / r) := by
    rw [← mul_div_assoc, div_le_iff₀ (by positivity)]
    have h1 : ratio ^ 2 ≤ (1 + 2 * c / r) * (1 - 85.4 / r) := by
      have e : (1 + 2 * c / r) * (1 - 85.4 / r) = (r + 2 * c) * (r - 85.4) / r ^ 2 := by
        field_simp
      rw [e, le_div_iff₀ (by positivity)]
      exact hq
    have h2 : (1 + 2 * c / r) * (1 - 85.4 / r) ≤ (1 + 2 * c / r) * (1 - shift / D) ^ 2 :=
      mul_le_mul_of_nonneg_left hd2 (by positivity)
    have := mul_le_mul_of_nonneg_left (h1.trans h2) (sq_nonneg z)
    linarith
  apply le_of_sq_le_sq _ (by positivity)
  have e : (root (startTan p z) * p) ^ 2 =
      p ^ 2 + ratio ^ 2 * (z ^ 2 / (1 - shift / D) ^ 2) := by
    rw [mul_pow, hw2, ← hxp]
    ring
  have e2 : (r + c * (z ^ 2 / r ^ 2)) ^ 2 =
      r ^ 2 + z ^ 2 * (2 * c / r) + (c * (z ^ 2 / r ^ 2)) ^ 2 := by
    field_simp
    ring
  rw [e, e2]
  have := sq_nonneg (c * (z ^ 2 / r ^ 2))
  linarith

/-- How far the first pass moves the tangent of the latitude. -/
theorem Regular.first_move {p z : ℝ} (h : Regular p z) :
    nextTan p z (startTan p z) - startTan p z =
      z * shift * (startRadius p z - root (startTan p z) * p) /
        (startRadius p z * (root (startTan p z) * p)) /
        (p * ((1 - shift / (root (startTan p z) * p)) * (1 - shift / startRadius p z))) ∧
    0.99 ≤ 1 - shift / (root (startTan p z) * p) ∧ 1 - shift / (root (startTan p z) * p) ≤ 1 ∧
    0.99 ≤ 1 - shift / startRadius p z ∧ 1 - shift / startRadius p z ≤ 1 := by
  have hp := h.1
  have hr6 := h.r_ge
  have hD := (startRadius_bounds p z).1
  have hs := shift_tight
  have hR := h.root_ge h.start_ge
  have hratio := ratio_bounds
  have hw := root_pos (startTan p z)
  have hR0 : 5976 ≤ root (startTan p z) * p := by nlinarith
  have hA : 0.99 ≤ 1 - shift / (root (startTan p z) * p) := by
    have : shift / (root (startTan p z) * p) ≤ 0.01 := by
      rw [div_le_iff₀ (by linarith)]
      linarith
    linarith
  have hB : 0.99 ≤ 1 - shift / startRadius p z := by
    have : shift / startRadius p z ≤ 0.01 := by
      rw [div_le_iff₀ (by linarith)]
      linarith
    linarith
  have hA0 : 0 ≤ shift / (root (startTan p z) * p) := div_nonneg (by linarith) (by linarith)
  have hB0 : 0 ≤ shift / startRadius p z := div_nonneg (by linarith) (by linarith)
  refine ⟨?_, hA, by linarith, hB, by linarith⟩
  rw [← tan_difference p z shift (startRadius p z) (root (startTan p z) * p) hp.ne'
    (by linarith) (by linarith) (by linarith) (by linarith)]
  rw [← startTan_eq]
  congr 1
  unfold nextTan
  congr 1
  field_simp

/-- South of the equator and below 37 degrees, the first pass moves the latitude south. -/
theorem Regular.south_move {p z : ℝ} (h : Regular p z) (hz : z ≤ 0)
    (hS : z ^ 2 ≤ 0.36 * (p ^ 2 + z ^ 2)) : nextTan p z (startTan p z) ≤ startTan p z := by
  obtain ⟨e, hA, -, hB, -⟩ := h.first_move
  have hp := h.1
  have hr6 := h.r_ge
  have hw := root_pos (startTan p z)
  have hs := shift_tight
  have hD := (startRadius_bounds p z).1
  have hr0 := ratio_tight
  have hR := h.first_radius (c := 23) (by norm_num) (by nlinarith)
  have hS' : z ^ 2 / (p ^ 2 + z ^ 2) ≤ 0.36 := by
    rw [div_le_iff₀ (by positivity)]
    exact hS
  have hle : root (startTan p z) * p ≤ startRadius p z := by linarith
  rw [← sub_nonpos, e]
  apply div_nonpos_of_nonpos_of_nonneg
  · apply div_nonpos_of_nonpos_of_nonneg
    · apply mul_nonpos_of_nonpos_of_nonneg
      · exact mul_nonpos_of_nonpos_of_nonneg hz (by linarith)
      · linarith
    · exact mul_nonneg (by linarith) (mul_pos hw hp).le
  · exact mul_nonneg hp.le (mul_nonneg (by linarith) (by linarith))

theorem arctan_sub_gt {x y : ℝ} (hx : 0 ≤ x) (hy : 0 ≤ y) (h : 2 / 10 ^ 9 * (1 + y * x) ≤ y - x) :
    10 * 10 ^ (-10 : ℤ) < Real.arctan y - Real.arctan x := by
  have hxy : 0 ≤ y * x := mul_nonneg hy hx
  have h1 := Real.arctan_add (x := y) (y := -x) (by linarith)
  rw [Real.arctan_neg, ← sub_eq_add_neg, ← sub_eq_add_neg, mul_neg, sub_neg_eq_add] at h1
  rw [h1]
  have h2 : (2 : ℝ) / 10 ^ 9 ≤ (y - x) / (1 + y * x) := by
    rw [le_div_iff₀ (by linarith)]
    exact h
  refine lt_of_lt_of_le ?_ (Real.arctan_mono h2)
  have h3 := Real.sin_le (Real.arctan_nonneg.2 (show (0 : ℝ) ≤ 2 / 10 ^ 9 by norm_num))
  rw [Real.sin_arctan] at h3
  refine lt_of_lt_of_le ?_ h3
  rw [lt_div_iff₀ (Real.sqrt_pos.2 (by positivity))]
  have h4 : Real.sqrt (1 + ((2 : ℝ) / 10 ^ 9) ^ 2) < 1.5 := by
    rw [Real.sqrt_lt' (by norm_num)]
    norm_num
  have : (10 : ℝ) * 10 ^ (-10 : ℤ) = 1 / 10 ^ 9 := by norm_num
  rw [this]
  nlinarith

theorem north_gap {z r D R S : ℝ} (hr0 : 0 < r) (hz : r ≤ 50 * z) (hS : S * r ^ 2 = z ^ 2)
    (hS1 : S ≤ 0.462) (h1 : 10.69 - 21.8 * S ≤ D - R) : 0.165 * r ≤ z * (D - R) := by
  have hz0 : 0 < z := by linarith
  rcases le_total (0.3 * r) z with h3 | h3
  · have h2 : 0.6 ≤ D - R := by linarith
    have := mul_le_mul h3 h2 (by norm_num) hz0.le
    linarith
  · have h4 : S ≤ 0.09 := by
      apply le_of_mul_le_mul_right _ (show 0 < r ^ 2 by positivity)
      rw [hS]
      have := mul_le_mul h3 h3 hz0.le (by linarith)
      linarith
    have h2 : 8.7 ≤ D - R := by linarith
    have := mul_le_mul_of_nonneg_left h2 hz0.le
    linarith

theorem north_ratio {z r p D R s A B : ℝ} (hr0 : 0 < r) (hp : 0 < p) (hs : 42.69 < s)
    (hgap : 0.165 * r ≤ z * (D - R)) (hD : 0 < D) (hR : 0 < R) (hDR : D * R ≤ 1.0035 * r ^ 2)
    (hA : 0 < A) (hA1 : A ≤ 1) (hB : 0 < B) (hB1 : B ≤ 1) :
    7.01 / (r * p) ≤ z * s * (D - R) / (D * R) / (p * (A * B)) := by
  rw [div_div, div_le_div_iff₀ (mul_pos hr0 hp) (mul_pos (mul_pos hD hR)
    (mul_pos hp (mul_pos hA hB)))]
  have hAB : A * B ≤ 1 := by
    have := mul_le_mul hA1 hB1 hB.le (by norm_num)
    linarith
  have h1 : D * R * (A * B) ≤ 1.0035 * r ^ 2 * 1 :=
    mul_le_mul hDR hAB (mul_pos hA hB).le (by positivity)
  have h2 : 42.69 * (0.165 * r) ≤ s * (z * (D - R)) :=
    mul_le_mul hs.le hgap (by positivity) (by linarith)
  calc 7.01 * (D * R * (p * (A * B)))
      = 7.01 * p * (D * R * (A * B)) := by ring
    _ ≤ 7.01 * p * (1.0035 * r ^ 2 * 1) := mul_le_mul_of_nonneg_left h1 (by positivity)
    _ ≤ 42.69 * (0.165 * r) * (r * p) := by linarith [mul_pos hp (pow_pos hr0 2)]
    _ ≤ s * (z * (D - R)) * (r * p) := mul_le_mul_of_nonneg_right h2 (by positivity)
    _ = _ := by ring

theorem north_product {p z x y : ℝ} (hp : 0 < p) (hz : 0 < z) (hx : 0 ≤ x) (hy : 0 ≤ y)
    (h0 : x * p ≤ z / 0.99) (h1 : y * p ≤ z / 0.99) :
    1 + y * x ≤ 1.0204 * (p ^ 2 + z ^ 2) / p ^ 2 := by
  rw [le_div_iff₀ (by positivity)]
  have h1 := mul_le_mul h1 h0 (mul_nonneg hx hp.le) (by positivity)
  have h2 : z / 0.99 * (z / 0.99) ≤ 1.0204 * z ^ 2 := by
    rw [div_mul_div_comm, div_le_iff₀ (by norm_num)]
    linarith [sq_nonneg z]
  linarith [sq_nonneg p]

theorem north_final {p r : ℝ} (hp : 0 < p) (hr0 : 0 < r) (hpr : 0.73 * r ≤ p) (hr : r ≤ 48000) :
    2 / 10 ^ 9 * (1.0204 * r ^ 2 / p ^ 2) ≤ 7.01 / (r * p) := by
  rw [← mul_div_assoc, div_le_div_iff₀ (by positivity) (mul_pos hr0 hp)]
  have h1 : r ^ 2 ≤ 48000 ^ 2 := pow_le_pow_left₀ hr0.le hr 2
  have h2 : 2.0408 / 10 ^ 9 * r ^ 3 ≤ 7.01 * p := by
    have : r ^ 3 ≤ 48000 ^ 2 * r := by
      have := mul_le_mul_of_nonneg_right h1 hr0.le
      linarith
    norm_num at this ⊢
    linarith
  have := mul_le_mul_of_nonneg_right h2 hp.le
  norm_num at this ⊢
  linarith

/-- North of the equator and below 42 degrees, the first pass moves the latitude north by more
than the tolerance of the loop. -/
theorem Regular.north_move {p z : ℝ} (h : Regular p z)
    (hr1 : 6350 ≤ Real.sqrt (p ^ 2 + z ^ 2)) (hr2 : Real.sqrt (p ^ 2 + z ^ 2) ≤ 48000)
    (hz : Real.sqrt (p ^ 2 + z ^ 2) ≤ 50 * z)
    (hS : z ^ 2 ≤ 0.462 * (p ^ 2 + z ^ 2)) :
    10 * 10 ^ (-10 : ℤ) <
      Real.arctan (nextTan p z (startTan p z)) - Real.arctan (startTan p z) := by
  obtain ⟨e, hA, hA1, hB, hB1⟩ := h.first_move
  have hp := h.1
  have hw := root_pos (startTan p z)
  have hs := shift_tight
  obtain ⟨hD1, hD2⟩ := startRadius_bounds p z
  have hR := h.first_radius (c := 21.8) (by norm_num) (by
    have := ratio_tight
    nlinarith)
  have hrr : Real.sqrt (p ^ 2 + z ^ 2) ^ 2 = p ^ 2 + z ^ 2 := Real.sq_sqrt (by positivity)
  have b0 := h.start_bounds
  have b1 := h.next_bounds h.start_ge
  set x := startTan p z
  set y := nextTan p z x
  set r := Real.sqrt (p ^ 2 + z ^ 2)
  set D := startRadius p z
  set R := root x * p with hRd
  have hz0 : 0 < z := by linarith
  have hR0 : 0 < R := mul_pos hw hp
  have hx0 : 0 ≤ x := nonneg_of_mul_nonneg_left b0.sign hz0
  have hy0 : 0 ≤ y := nonneg_of_mul_nonneg_left b1.sign hz0
  apply arctan_sub_gt hx0 hy0
  have hSr : z ^ 2 / (p ^ 2 + z ^ 2) * (p ^ 2 + z ^ 2) = z ^ 2 :=
    div_mul_cancel₀ _ (by positivity)
  set S := z ^ 2 / (p ^ 2 + z ^ 2)
  have hr0 : 0 < r := by linarith
  have hS1 : S ≤ 0.462 := by
    apply le_of_mul_le_mul_right _ (show 0 < p ^ 2 + z ^ 2 by positivity)
    linarith
  have hgap : 0.165 * r ≤ z * (D - R) :=
    north_gap hr0 hz (by rw [hrr]; exact hSr) hS1 (by linarith)
  have hpr : 0.73 * r ≤ p := by
    apply le_of_sq_le_sq _ hp.le
    rw [mul_pow]
    linarith [sq_nonneg r]
  have hRD : R ≤ D := by linarith
  have hDr : D ≤ 1.0017 * r := by linarith
  have hDR : D * R ≤ 1.0035 * r ^ 2 := by
    have := mul_le_mul hDr (hRD.trans hDr) hR0.le (by linarith)
    linarith [sq_nonneg r]
  have hyx : 7.01 / (r * p) ≤ y - x := by
    rw [e]
    exact north_ratio hr0 hp hs.1 hgap (by linarith) hR0 hDR (by linarith) hA1 (by linarith) hB1
  have h0 := b0.le
  have h1 := b1.le
  rw [abs_of_nonneg hx0, abs_of_pos hz0] at h0
  rw [abs_of_nonneg hy0, abs_of_pos hz0] at h1
  have hxy := north_product hp hz0 hx0 hy0 h0 h1
  rw [← hrr] at hxy
  exact le_trans (mul_le_mul_of_nonneg_left hxy (by norm_num))
    (le_trans (north_final hp hr0 hpr hr2) hyx)

/-! ### the theorems -/

theorem NearOrAboveEarth.after {v : Vec} (h : NearOrAboveEarth v) :
    ∃ t, IsHeight (axisA ^ 2) (axisB ^ 2) v t ∧ |heightSeq v 0 - t| ≤ 11 ∧
      ∀ k, |heightSeq v (k + 1) - t| ≤ 1.01 := by
  obtain ⟨x, -, -, hx, hf⟩ := h.limits
  refine ⟨_, isHeight_of_fixed h hx hf, ?_, ?_⟩
  · simp only [heightSeq]
    rw [norm_eq_sqrt]
    exact h.regular.start_error hx hf
  · intro k
    simp only [heightSeq, tanOf]
    refine (h.regular.later_error hx hf k).trans ?_
    have : ((1 : ℝ) / 100) ^ k ≤ 1 := pow_le_one₀ (by norm_num) (by norm_num)
    linarith

/-- C52: for every array of positions, either every altitude returned is the distance from the
centre of the Earth less the geometric mean of the axes of the ellipsoid, or every altitude is
within 1.01 km of the height of its position. -/
theorem C52_first_guess_or_accurate_partial (pts : List Vec)
    (h : ∀ v ∈ pts, NearOrAboveEarth v) (r : List ℝ) (hr : AltitudeReturns pts r) :
    r = pts.map (fun v => ‖toE v‖ - Real.sqrt (axisA * axisB)) ∨
    List.Forall₂ (fun v x => ∃ t, IsHeight (axisA ^ 2) (axisB ^ 2) v t ∧ |x - t| ≤ 1.01) pts r := by
  have hd : ∀ v ∈ pts, 0 < axisDistance v := fun v hv => axisDistance_pos (h v hv).1
  obtain ⟨k, -, -, rfl⟩ := hr
  rw [altState_eq pts hd, List.map_map]
  cases k with
  | zero => exact Or.inl rfl
  | succ k =>
    right
    rw [List.forall₂_map_right_iff, List.forall₂_same]
    intro v hv
    obtain ⟨t, ht, -, he⟩ := (h v hv).after
    exact ⟨t, ht, he k⟩

theorem mean_nonpos {l : List ℝ} (h : ∀ x ∈ l, x ≤ 0) : mean l ≤ 0 := by
  unfold mean
  apply div_nonpos_of_nonpos_of_nonneg _ (Nat.cast_nonneg _)
  have := List.sum_le_card_nsmul l 0 h
  simpa using this

theorem mean_gt {l : List ℝ} (hne : l ≠ []) {e : ℝ} (h : ∀ x ∈ l, e < x) : e < mean l := by
  unfold mean
  have h0 : 0 < l.length := List.length_pos_of_ne_nil hne
  rw [lt_div_iff₀ (by exact_mod_cast h0)]
  clear h0
  induction l with
  | nil => exact absurd rfl hne
  | cons a l ih =>
    have ha := h a (by simp)
    rcases eq_or_ne l [] with rfl | hl
    · simpa using ha
    · have := ih hl fun x hx => h x (by simp [hx])
      simp only [List.sum_cons, List.length_cons]
      push_cast
      linarith

theorem sq_div_norm (v : Vec) : v 2 ^ 2 / ‖toE v‖ ^ 2 =
    v 2 ^ 2 / (axisDistance v ^ 2 + v 2 ^ 2) := by
  rw [norm_eq_sqrt, Real.sq_sqrt (by positivity)]

/-- What the start value of a position at a low latitude is worth. -/
theorem NearOrAboveEarth.low {v : Vec} (h : NearOrAboveEarth v) (hl : |v 2| ≤ 0.6 * ‖toE v‖) :
    ∃ t, IsHeight (axisA ^ 2) (axisB ^ 2) v t ∧
      10.6 - 22 * (v 2 / ‖toE v‖) ^ 2 < heightSeq v 0 - t ∧ heightSeq v 0 - t ≤ 11 ∧
      ∀ k, |heightSeq v (k + 1) - t| ≤ 1.01 := by
  obtain ⟨x, -, -, hx, hf⟩ := h.limits
  have hr := h.regular
  have hp := hr.1
  have hden := (hr.denominator hx).1
  refine ⟨_, isHeight_of_fixed h hx hf, ?_, ?_, ?_⟩
  · have h1 := (hr.start_difference hx hf).1
    have hxp : |x| * axisDistance v ≤ |v 2| / 0.99 := by
      have hD0 : 0 < axisDistance v - shift / root x := by linarith
      rw [nextTan, div_eq_iff hD0.ne'] at hf
      rw [le_div_iff₀ (by norm_num), hf, abs_mul, abs_of_pos hD0]
      have := mul_le_mul_of_nonneg_left hden (abs_nonneg x)
      linarith
    have hn : 0 < ‖toE v‖ := by linarith [h.2]
    have hsq : ‖toE v‖ ^ 2 = axisDistance v ^ 2 + v 2 ^ 2 := by
      rw [norm_eq_sqrt, Real.sq_sqrt (by positivity)]
    have hS : v 2 ^ 2 ≤ (v 2 / ‖toE v‖) ^ 2 * (axisDistance v ^ 2 + v 2 ^ 2) := by
      rw [← hsq, div_pow, div_mul_cancel₀ _ (by positivity)]
    have hS1 : (v 2 / ‖toE v‖) ^ 2 ≤ 0.36 := by
      rw [← sq_abs, abs_div, abs_of_pos hn]
      have h2 : |v 2| / ‖toE v‖ ≤ 0.6 := by
        rw [div_le_iff₀ hn]
        exact hl
      have := mul_le_mul h2 h2 (by positivity) (by norm_num)
      linarith
    have h2 := support_ge hp hxp hS (sq_nonneg _) (by linarith)
    have hg := gm_tight
    simp only [heightSeq]
    rw [norm_eq_sqrt] at hS1 h2 ⊢
    linarith
  · simp only [heightSeq]
    rw [norm_eq_sqrt]
    exact (le_abs_self _).trans (hr.start_error hx hf)
  · intro k
    simp only [heightSeq, tanOf]
    refine (hr.later_error hx hf k).trans ?_
    have : ((1 : ℝ) / 100) ^ k ≤ 1 := pow_le_one₀ (by norm_num) (by norm_num)
    linarith

theorem low_sq {v : Vec} (hl : |v 2| ≤ 0.6 * ‖toE v‖) :
    v 2 ^ 2 ≤ 0.36 * (axisDistance v ^ 2 + v 2 ^ 2) := by
  have hsq : ‖toE v‖ ^ 2 = axisDistance v ^ 2 + v 2 ^ 2 := by
    rw [norm_eq_sqrt, Real.sq_sqrt (by positivity)]
  have := mul_self_le_mul_self (abs_nonneg _) hl
  rw [abs_mul_abs_self] at this
  rw [← hsq]
  linarith

theorem altContinue_zero (pts : List Vec) (hd : ∀ v ∈ pts, 0 < axisDistance v) :
    altContinue pts 0 ↔
      axisA * (10 * 10 ^ (-10 : ℤ)) < mean (pts.map fun v => heightSeq v 1 - heightSeq v 0) ∨
      10 * 10 ^ (-10 : ℤ) <
        mean (pts.map fun v => Real.arctan (tanOf v 1) - Real.arctan (tanOf v 0)) := by
  unfold altContinue
  rw [altState_eq pts hd, altState_eq pts hd]
  simp only [List.map_map, Function.comp_def, List.zipWith_map, List.zipWith_self]

/-- C52 fails in the south: whatever positions between the equator and 36 degrees south are
converted together, each altitude is the distance from the centre less the geometric mean of the
axes, and too high by more than `10.6 - 22 sin²` kilometres of the geocentric latitude: more than
2.6 km everywhere in that zone, more than 8 km down to 20 degrees south. -/
theorem C52_wrong_in_the_south (pts : List Vec) (h : ∀ v ∈ pts, NearOrAboveEarth v)
    (hsouth : ∀ v ∈ pts, v 2 ≤ 0 ∧ -v 2 ≤ 0.6 * ‖toE v‖) (r : List ℝ)
    (hr : AltitudeReturns pts r) :
    r = pts.map (fun v => ‖toE v‖ - Real.sqrt (axisA * axisB)) ∧
    List.Forall₂ (fun v x => ∃ t, IsHeight (axisA ^ 2) (axisB ^ 2) v t ∧
      10.6 - 22 * (v 2 / ‖toE v‖) ^ 2 < x - t ∧ 2.6 < x - t ∧ x - t ≤ 11) pts r := by
  have hd : ∀ v ∈ pts, 0 < axisDistance v := fun v hv => axisDistance_pos (h v hv).1
  have hl : ∀ v ∈ pts, |v 2| ≤ 0.6 * ‖toE v‖ := fun v hv => by
    rw [abs_of_nonpos (hsouth v hv).1]
    exact (hsouth v hv).2
  have hsq : ∀ v ∈ pts, (v 2 / ‖toE v‖) ^ 2 ≤ 0.36 := by
    intro v hv
    have hn : 0 < ‖toE v‖ := by linarith [(h v hv).2]
    rw [← sq_abs, abs_div, abs_of_pos hn]
    have h2 : |v 2| / ‖toE v‖ ≤ 0.6 := by
      rw [div_le_iff₀ hn]
      exact hl v hv
    have := mul_le_mul h2 h2 (by positivity) (by norm_num)
    linarith
  have hstop : ¬ altContinue pts 0 := by
    rw [altContinue_zero pts hd]
    push Not
    constructor
    · refine (mean_nonpos ?_).trans (mul_nonneg axisA_pos.le (by norm_num))
      intro x hx
      obtain ⟨v, hv, rfl⟩ := List.mem_map.1 hx
      obtain ⟨t, -, h1, -, h2⟩ := (h v hv).low (hl v hv)
      have := (abs_le.1 (h2 0)).2
      have := hsq v hv
      simp only [zero_add] at *
      linarith
    · refine (mean_nonpos ?_).trans (by norm_num)
      intro x hx
      obtain ⟨v, hv, rfl⟩ := List.mem_map.1 hx
      have := (h v hv).regular.south_move (hsouth v hv).1 (low_sq (hl v hv))
      rw [sub_nonpos]
      exact Real.arctan_mono this
  obtain ⟨k, hk, -, rfl⟩ := hr
  cases k with
  | succ k => exact absurd (hk 0 (Nat.succ_pos k)) hstop
  | zero =>
    rw [altState_eq pts hd, List.map_map]
    refine ⟨rfl, ?_⟩
    rw [List.forall₂_map_right_iff, List.forall₂_same]
    intro v hv
    obtain ⟨t, ht, h1, h2, -⟩ := (h v hv).low (hl v hv)
    have := hsq v hv
    exact ⟨t, ht, h1, by simp only [Function.comp_def]; linarith, h2⟩

/-- C52 holds to 1.01 km in the north at low latitudes: an array of positions up to 36 degrees
north of the equator and at least 1.2 degrees from it, from the ground to beyond the
geostationary orbit, has every altitude within 1.01 km of the height. -/
theorem C52_low_north_partial (pts : List Vec) (hne : pts ≠ [])
    (h : ∀ v ∈ pts, (v 0 ≠ 0 ∨ v 1 ≠ 0) ∧ 6350 ≤ ‖toE v‖ ∧ ‖toE v‖ ≤ 48000)
    (hnorth : ∀ v ∈ pts, ‖toE v‖ ≤ 50 * v 2 ∧ v 2 ≤ 0.6 * ‖toE v‖) (r : List ℝ)
    (hr : AltitudeReturns pts r) :
    List.Forall₂ (fun v x => ∃ t, IsHeight (axisA ^ 2) (axisB ^ 2) v t ∧ |x - t| ≤ 1.01) pts r := by
  have hn : ∀ v ∈ pts, NearOrAboveEarth v := fun v hv =>
    ⟨(h v hv).1, by linarith [(h v hv).2.1]⟩
  have hd : ∀ v ∈ pts, 0 < axisDistance v := fun v hv => axisDistance_pos (h v hv).1
  have hgo : altContinue pts 0 := by
    rw [altContinue_zero pts hd]
    right
    apply mean_gt (by simpa using hne)
    intro x hx
    obtain ⟨v, hv, rfl⟩ := List.mem_map.1 hx
    obtain ⟨-, h1, h2⟩ := h v hv
    obtain ⟨h3, h4⟩ := hnorth v hv
    have h5 := low_sq (v := v) (by rw [abs_of_nonneg (by linarith)]; exact h4)
    rw [norm_eq_sqrt] at h1 h2 h3
    refine (hn v hv).regular.north_move h1 h2 h3 ?_
    have : 0 ≤ axisDistance v ^ 2 + v 2 ^ 2 := by positivity
    linarith
  obtain ⟨k, hk, hstop, rfl⟩ := hr
  cases k with
  | zero => exact absurd hgo hstop
  | succ k =>
    rw [altState_eq pts hd, List.map_map, List.forall₂_map_right_iff, List.forall₂_same]
    intro v hv
    obtain ⟨t, ht, -, he⟩ := (hn v hv).after
    exact ⟨t, ht, he k⟩

/-- C52 holds to 1.02 km for a single position anywhere in the north (off the polar axis, at least
1.2 degrees from the equator, from the ground to beyond the geostationary orbit). -/
theorem C52_single_north_partial (v : Vec) (h : v 0 ≠ 0 ∨ v 1 ≠ 0)
    (h1 : 6350 ≤ ‖toE v‖) (h2 : ‖toE v‖ ≤ 48000) (hnorth : ‖toE v‖ ≤ 50 * v 2) (r : List ℝ)
    (hr : AltitudeReturns [v] r) :
    ∃ x t, r = [x] ∧ IsHeight (axisA ^ 2) (axisB ^ 2) v t ∧ |x - t| ≤ 1.02 := by
  have hn : NearOrAboveEarth v := ⟨h, by linarith⟩
  have hd : ∀ w ∈ [v], 0 < axisDistance w := by
    intro w hw
    rw [List.mem_singleton.1 hw]
    exact axisDistance_pos h
  have hreg := hn.regular
  have hp := hreg.1
  obtain ⟨x, -, -, hx, hf⟩ := hn.limits
  have hlater : ∀ k, |heightSeq v (k + 1) - heightOf (axisDistance v) x| ≤ 1.01 := by
    intro k
    simp only [heightSeq, tanOf]
    refine (hreg.later_error hx hf k).trans ?_
    have : ((1 : ℝ) / 100) ^ k ≤ 1 := pow_le_one₀ (by norm_num) (by norm_num)
    linarith
  obtain ⟨k, hk, hstop, rfl⟩ := hr
  refine ⟨heightSeq v k, _, by rw [altState_eq _ hd]; rfl, isHeight_of_fixed hn hx hf, ?_⟩
  cases k with
  | succ k => linarith [hlater k]
  | zero =>
    rw [altContinue_zero _ hd] at hstop
    push Not at hstop
    obtain ⟨s1, s2⟩ := hstop
    simp only [List.map_cons, List.map_nil, mean, List.sum_cons, List.sum_nil, List.length_cons,
      List.length_nil, zero_add, Nat.cast_one, div_one, add_zero] at s1 s2
    have htol : axisA * (10 * 10 ^ (-10 : ℤ)) < 0.01 := by
      unfold axisA
      norm_num
    have hl := abs_le.1 (hlater 0)
    rw [zero_add] at hl
    have s3 := s1.trans htol.le
    rw [abs_le]
    refine ⟨by linarith, ?_⟩
    by_contra hcon
    rw [not_le] at hcon
    have hdiff := (hreg.start_difference hx hf).2
    have hup := support_le (z := v 2) hp hx
    have hg := gm_tight
    have hS : v 2 ^ 2 / (axisDistance v ^ 2 + v 2 ^ 2) ≤ 0.462 := by
      simp only [heightSeq] at hcon
      rw [norm_eq_sqrt] at hcon
      linarith
    rw [div_le_iff₀ (by positivity)] at hS
    rw [norm_eq_sqrt] at h1 h2 hnorth
    have := hreg.north_move h1 h2 hnorth hS
    exact absurd s2 (not_le.2 this)

/-- A low orbit over 30 degrees south and its mirror image in the north: the altitude of the first
is more than 5 km too high, that of the second within 1.01 km of the truth. -/
example (r r' : List ℝ) (h : AltitudeReturns [(![6062, 0, -3500] : Vec)] r)
    (h' : AltitudeReturns [(![6062, 0, 3500] : Vec)] r') :
    (∃ x t, r = [x] ∧ IsHeight (axisA ^ 2) (axisB ^ 2) ![6062, 0, -3500] t ∧ 5 < x - t) ∧
      ∃ x t, r' = [x] ∧ IsHeight (axisA ^ 2) (axisB ^ 2) ![6062, 0, 3500] t ∧ |x - t| ≤ 1.01 := by
  have hn : ‖toE (![6062, 0, -3500] : Vec)‖ = ‖toE (![6062, 0, 3500] : Vec)‖ := by
    rw [EuclideanSpace.norm_eq, EuclideanSpace.norm_eq]
    simp [Fin.sum_univ_three]
  have hb : 6999 < ‖toE (![6062, 0, 3500] : Vec)‖ ∧ ‖toE (![6062, 0, 3500] : Vec)‖ < 7000 := by
    rw [EuclideanSpace.norm_eq]
    constructor
    · rw [Real.lt_sqrt (by norm_num)]
      simp [Fin.sum_univ_three]
      norm_num
    · rw [Real.sqrt_lt' (by norm_num)]
      simp [Fin.sum_univ_three]
      norm_num
  constructor
  · have := (C52_wrong_in_the_south [![6062, 0, -3500]] (by
      intro v hv
      rw [List.mem_singleton.1 hv]
      exact ⟨Or.inl (by simp), by rw [hn]; linarith⟩) (by
      intro v hv
      rw [List.mem_singleton.1 hv, hn]
      simp
      linarith) r h).2
    rw [List.forall₂_cons_left_iff] at this
    obtain ⟨x, l, ⟨t, ht, h1, -⟩, hl, rfl⟩ := this
    rw [List.forall₂_nil_left_iff] at hl
    subst hl
    refine ⟨x, t, rfl, ht, ?_⟩
    rw [hn] at h1
    have h2 : ((![6062, 0, -3500] : Vec) 2 / ‖toE (![6062, 0, 3500] : Vec)‖) ^ 2 ≤ 0.2502 := by
      simp only [Matrix.cons_val]
      rw [div_pow, div_le_iff₀ (by nlinarith)]
      nlinarith
    linarith
  · have := C52_low_north_partial [![6062, 0, 3500]] (by simp) (by
      intro v hv
      rw [List.mem_singleton.1 hv]
      exact ⟨Or.inl (by simp), by linarith, by linarith⟩) (by
      intro v hv
      rw [List.mem_singleton.1 hv]
      simp
      constructor <;> linarith) r' h'
    rw [List.forall₂_cons_left_iff] at this
    obtain ⟨x, l, ⟨t, ht, h1⟩, hl, rfl⟩ := this
    rw [List.forall₂_nil_left_iff] at hl
    subst hl
    exact ⟨x, t, rfl, ht, h1⟩

end Celest.Frames
