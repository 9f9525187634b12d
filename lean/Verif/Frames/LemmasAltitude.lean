/-
The iteration inside `_altitude`, in terms of the tangent of the latitude: it is a contraction for
every point at least 6000 km from the centre of the Earth and off the polar axis.
-/
import Verif.Frames.PropsGeo
import Mathlib.Analysis.SpecificLimits.Basic
import Mathlib.Topology.Algebra.Monoid

namespace Celest.Frames

open Matrix Celest.TimeScale Filter Topology

/-- Ratio of the semi-axes. -/
noncomputable def ratio : ℝ := axisB / axisA

/-- `e² a`. -/
noncomputable def shift : ℝ := (1 - ratio ^ 2) * axisA

theorem ratio_bounds : 0.996 < ratio ∧ ratio < 1 := by
  unfold ratio axisA axisB
  constructor <;> norm_num

theorem shift_bounds : 42 < shift ∧ shift < 42.7 := by
  unfold shift ratio axisA axisB
  constructor <;> norm_num

theorem e2_eq : Real.sqrt (1 - axisB ^ 2 / axisA ^ 2) ^ 2 = 1 - ratio ^ 2 := by
  rw [Real.sq_sqrt, ratio, div_pow]
  unfold axisA axisB
  norm_num

/-- `sqrt (1 + (b/a)² x²)`. -/
noncomputable def root (x : ℝ) : ℝ := Real.sqrt (1 + (ratio * x) ^ 2)

theorem root_pos (x : ℝ) : 0 < root x := Real.sqrt_pos.2 (by positivity)

theorem root_sq (x : ℝ) : root x ^ 2 = 1 + (ratio * x) ^ 2 := Real.sq_sqrt (by positivity)

theorem root_ge (x : ℝ) : |ratio * x| ≤ root x := by
  unfold root
  rw [← Real.sqrt_sq_eq_abs]
  exact Real.sqrt_le_sqrt (by linarith)

theorem root_continuous : Continuous root := by
  unfold root
  fun_prop

theorem root_lipschitz (x y : ℝ) : |root x - root y| ≤ ratio * |x - y| := by
  have h1 := root_pos x
  have h2 := root_pos y
  have hr := ratio_bounds
  have key : |root x - root y| * (root x + root y) ≤ ratio * |x - y| * (root x + root y) := by
    have e : (root x - root y) * (root x + root y) = (ratio * (x - y)) * (ratio * x + ratio * y) := by
      linear_combination root_sq x - root_sq y
    calc |root x - root y| * (root x + root y)
        = |(root x - root y) * (root x + root y)| := by
          rw [abs_mul, abs_of_pos (by linarith : 0 < root x + root y)]
      _ = ratio * |x - y| * |ratio * x + ratio * y| := by
          rw [e, abs_mul, abs_mul, abs_of_pos (by linarith : 0 < ratio)]
      _ ≤ ratio * |x - y| * (root x + root y) := by
          apply mul_le_mul_of_nonneg_left
          · exact (abs_add_le _ _).trans (add_le_add (root_ge x) (root_ge y))
          · have := abs_nonneg (x - y)
            exact mul_nonneg (by linarith) this
  exact le_of_mul_le_mul_right key (by linarith)

/-- One pass of the iteration on the tangent of the latitude. -/
noncomputable def nextTan (p z x : ℝ) : ℝ := z / (p - shift / root x)

/-- The height computed from the tangent of the latitude. -/
noncomputable def heightOf (p x : ℝ) : ℝ :=
  p * Real.sqrt (1 + x ^ 2) - axisA * Real.sqrt (1 + x ^ 2) / root x

theorem radius_of_arctan (x : ℝ) :
    axisA / Real.sqrt (Real.cos (Real.arctan x) ^ 2 +
      axisB ^ 2 / axisA ^ 2 * Real.sin (Real.arctan x) ^ 2) =
      axisA * Real.sqrt (1 + x ^ 2) / root x := by
  have hs : 0 < Real.sqrt (1 + x ^ 2) := Real.sqrt_pos.2 (by positivity)
  have hs2 : Real.sqrt (1 + x ^ 2) ^ 2 = 1 + x ^ 2 := Real.sq_sqrt (by positivity)
  have h1 : Real.cos (Real.arctan x) ^ 2 + axisB ^ 2 / axisA ^ 2 * Real.sin (Real.arctan x) ^ 2 =
      (root x / Real.sqrt (1 + x ^ 2)) ^ 2 := by
    rw [Real.cos_arctan, Real.sin_arctan, div_pow (root x), root_sq, div_pow, div_pow, hs2, mul_pow,
      ratio, div_pow]
    field_simp
  rw [h1, Real.sqrt_sq (div_nonneg (root_pos x).le hs.le)]
  have := (root_pos x).ne'
  field_simp

theorem altStep_arctan (p z x : ℝ) (hp : p ≠ 0) :
    altStep p z (Real.arctan x) = (heightOf p x, Real.arctan (nextTan p z x)) := by
  have hs : 0 < Real.sqrt (1 + x ^ 2) := Real.sqrt_pos.2 (by positivity)
  have hw := root_pos x
  unfold altStep
  simp only [radius_of_arctan, e2_eq]
  have hc : p / Real.cos (Real.arctan x) = p * Real.sqrt (1 + x ^ 2) := by
    rw [Real.cos_arctan]
    field_simp
  rw [hc]
  refine Prod.ext rfl ?_
  simp only
  congr 1
  have h2 : axisA * Real.sqrt (1 + x ^ 2) / root x +
      (p * Real.sqrt (1 + x ^ 2) - axisA * Real.sqrt (1 + x ^ 2) / root x) =
      p * Real.sqrt (1 + x ^ 2) := by ring
  rw [h2]
  have h3 : 1 - (1 - ratio ^ 2) * (axisA * Real.sqrt (1 + x ^ 2) / root x) /
      (p * Real.sqrt (1 + x ^ 2)) = (p - shift / root x) / p := by
    unfold shift
    field_simp
  rw [h3, inv_div, nextTan, div_mul_div_comm, mul_comm p, mul_div_mul_right _ _ hp]

/-! ### the contraction -/

/-- A point the iteration is analysed for: off the polar axis and at least 6000 km from the
centre. -/
def Regular (p z : ℝ) : Prop := 0 < p ∧ 6000 ^ 2 ≤ p ^ 2 + z ^ 2

theorem Regular.z_le {p z : ℝ} (_h : Regular p z) : |z| ≤ Real.sqrt (p ^ 2 + z ^ 2) := by
  rw [← Real.sqrt_sq_eq_abs]
  exact Real.sqrt_le_sqrt (by nlinarith [sq_nonneg p])

theorem Regular.r_ge {p z : ℝ} (h : Regular p z) : 6000 ≤ Real.sqrt (p ^ 2 + z ^ 2) := by
  rw [Real.le_sqrt (by norm_num) (by positivity)]
  exact h.2

theorem Regular.root_ge {p z x : ℝ} (h : Regular p z) (hx : |z| / p ≤ |x|) :
    ratio * Real.sqrt (p ^ 2 + z ^ 2) ≤ root x * p := by
  obtain ⟨hp, -⟩ := h
  have hr := ratio_bounds
  have hr0 : 0 < ratio := by linarith
  have hrp : 0 ≤ root x * p := (mul_pos (root_pos x) hp).le
  apply le_of_sq_le_sq _ hrp
  rw [mul_pow, mul_pow, Real.sq_sqrt (by positivity), root_sq]
  have hz : z ^ 2 ≤ x ^ 2 * p ^ 2 := by
    rw [div_le_iff₀ hp] at hx
    have := mul_self_le_mul_self (abs_nonneg z) hx
    rw [abs_mul_abs_self] at this
    nlinarith [abs_mul_abs_self x]
  have h1 : ratio ^ 2 ≤ 1 := by nlinarith
  nlinarith [mul_le_mul_of_nonneg_left hz (sq_nonneg ratio),
    mul_le_mul_of_nonneg_right h1 (sq_nonneg p)]

theorem Regular.denominator {p z x : ℝ} (h : Regular p z) (hx : |z| / p ≤ |x|) :
    0.99 * p ≤ p - shift / root x ∧ p - shift / root x ≤ p := by
  have hp := h.1
  have hw := root_pos x
  have hr := ratio_bounds
  have hs := shift_bounds
  have h1 := h.root_ge hx
  have h2 := h.r_ge
  constructor
  · have : shift / root x ≤ 0.01 * p := by
      rw [div_le_iff₀ hw]
      have : 0.996 * 6000 ≤ root x * p := by nlinarith
      nlinarith
    linarith
  · have : 0 ≤ shift / root x := div_nonneg (by linarith) hw.le
    linarith

theorem Regular.next_ge {p z x : ℝ} (h : Regular p z) (hx : |z| / p ≤ |x|) :
    |z| / p ≤ |nextTan p z x| := by
  have hp := h.1
  obtain ⟨h1, h2⟩ := h.denominator hx
  unfold nextTan
  rw [abs_div, abs_of_pos (by linarith : 0 < p - shift / root x)]
  exact div_le_div_of_nonneg_left (abs_nonneg z) (by linarith) h2

theorem Regular.contraction {p z x y : ℝ} (h : Regular p z) (hx : |z| / p ≤ |x|)
    (hy : |z| / p ≤ |y|) : |nextTan p z x - nextTan p z y| ≤ 1 / 100 * |x - y| := by
  have hp := h.1
  have hr := ratio_bounds
  have hs := shift_bounds
  have hwx := root_pos x
  have hwy := root_pos y
  obtain ⟨dx1, dx2⟩ := h.denominator hx
  obtain ⟨dy1, dy2⟩ := h.denominator hy
  have hdx : 0 < p - shift / root x := by nlinarith
  have hdy : 0 < p - shift / root y := by nlinarith
  set r := Real.sqrt (p ^ 2 + z ^ 2) with hrdef
  have hr6 : 6000 ≤ r := h.r_ge
  have hzr : |z| ≤ r := h.z_le
  have rx := h.root_ge hx
  have ry := h.root_ge hy
  rw [← hrdef] at rx ry
  have e : nextTan p z x - nextTan p z y =
      z * shift * (root y - root x) / (root x * root y) /
        ((p - shift / root x) * (p - shift / root y)) := by
    unfold nextTan
    rw [div_sub_div _ _ hdx.ne' hdy.ne']
    congr 1
    field_simp
    ring
  rw [e, abs_div, abs_div, abs_mul, abs_mul, abs_of_pos (by linarith : 0 < shift),
    abs_of_pos (mul_pos hwx hwy), abs_of_pos (mul_pos hdx hdy), div_div,
    div_le_iff₀ (by positivity)]
  have hl := root_lipschitz y x
  rw [abs_sub_comm y x] at hl
  have hxy := abs_nonneg (x - y)
  -- numerator
  have hn : |z| * shift * |root y - root x| ≤ r * 42.7 * (ratio * |x - y|) := by
    apply mul_le_mul _ hl (abs_nonneg _) (by positivity)
    exact mul_le_mul hzr hs.2.le (by linarith) (by linarith)
  -- denominator
  have hd1 : (0.99 * p) * (0.99 * p) ≤ (p - shift / root x) * (p - shift / root y) :=
    mul_le_mul dx1 dy1 (by positivity) hdx.le
  have hd2 : (ratio * r) * (ratio * r) ≤ (root x * p) * (root y * p) :=
    mul_le_mul rx ry (by nlinarith) (by positivity)
  have hd : 0.98 * ((ratio * r) * (ratio * r)) ≤
      root x * root y * ((p - shift / root x) * (p - shift / root y)) := by
    calc 0.98 * ((ratio * r) * (ratio * r))
        ≤ 0.9801 * ((root x * p) * (root y * p)) := by
          have : 0 ≤ (ratio * r) * (ratio * r) := mul_self_nonneg _
          linarith
      _ = root x * root y * ((0.99 * p) * (0.99 * p)) := by ring
      _ ≤ _ := mul_le_mul_of_nonneg_left hd1 (mul_pos hwx hwy).le
  have hfin : r * 42.7 * ratio ≤ 1 / 100 * (0.98 * ((ratio * r) * (ratio * r))) := by
    have h1 : 0 < ratio * r := by nlinarith
    have h2 : 42.7 ≤ 1 / 100 * (0.98 * (ratio * r)) := by nlinarith
    nlinarith
  calc |z| * shift * |root y - root x| ≤ r * 42.7 * (ratio * |x - y|) := hn
    _ = (r * 42.7 * ratio) * |x - y| := by ring
    _ ≤ (1 / 100 * (0.98 * ((ratio * r) * (ratio * r)))) * |x - y| :=
        mul_le_mul_of_nonneg_right hfin hxy
    _ ≤ (1 / 100 * (root x * root y * ((p - shift / root x) * (p - shift / root y)))) * |x - y| := by
        apply mul_le_mul_of_nonneg_right _ hxy
        linarith
    _ = _ := by ring

/-! ### the sequence -/

/-- Tangent of the start latitude. -/
noncomputable def startTan (p z : ℝ) : ℝ :=
  z / p * (1 - (1 - ratio ^ 2) * axisA /
    (axisA + (Real.sqrt (p ^ 2 + z ^ 2) - Real.sqrt (axisA * axisB))))⁻¹

/-- Tangent of the latitude after `k` passes. -/
noncomputable def tanSeq (p z : ℝ) : ℕ → ℝ
  | 0 => startTan p z
  | k + 1 => nextTan p z (tanSeq p z k)

theorem Regular.start_ge {p z : ℝ} (h : Regular p z) : |z| / p ≤ |startTan p z| := by
  have hp := h.1
  have hr6 := h.r_ge
  have hs := shift_bounds
  have hgm : Real.sqrt (axisA * axisB) ≤ axisA := by
    rw [Real.sqrt_le_left axisA_pos.le]
    unfold axisA axisB
    norm_num
  set D := axisA + (Real.sqrt (p ^ 2 + z ^ 2) - Real.sqrt (axisA * axisB)) with hD
  have hD6 : 6000 ≤ D := by linarith
  have h1 : (1 - ratio ^ 2) * axisA / D < 1 := by
    rw [div_lt_one (by linarith)]
    have : (1 - ratio ^ 2) * axisA = shift := rfl
    linarith
  have h0 : 0 ≤ (1 - ratio ^ 2) * axisA / D :=
    div_nonneg (by have : (1 - ratio ^ 2) * axisA = shift := rfl
                   linarith) (by linarith)
  have hi : 0 < (1 - (1 - ratio ^ 2) * axisA / D)⁻¹ := inv_pos.2 (by linarith)
  unfold startTan
  rw [← hD, abs_mul, abs_div, abs_of_pos hp, abs_of_pos hi]
  have : 1 ≤ (1 - (1 - ratio ^ 2) * axisA / D)⁻¹ := by
    rw [one_le_inv₀ (by linarith)]
    linarith
  exact le_mul_of_one_le_right (by positivity) this

theorem Regular.seq_ge {p z : ℝ} (h : Regular p z) (k : ℕ) : |z| / p ≤ |tanSeq p z k| := by
  induction k with
  | zero => exact h.start_ge
  | succ k ih => exact h.next_ge ih

theorem Regular.seq_step {p z : ℝ} (h : Regular p z) (k : ℕ) :
    dist (tanSeq p z k) (tanSeq p z (k + 1)) ≤
      |tanSeq p z 0 - tanSeq p z 1| * (1 / 100) ^ k := by
  rw [Real.dist_eq]
  induction k with
  | zero => simp
  | succ k ih =>
    have := h.contraction (h.seq_ge k) (h.seq_ge (k + 1))
    calc |tanSeq p z (k + 1) - tanSeq p z (k + 1 + 1)|
        ≤ 1 / 100 * |tanSeq p z k - tanSeq p z (k + 1)| := this
      _ ≤ 1 / 100 * (|tanSeq p z 0 - tanSeq p z 1| * (1 / 100) ^ k) := by
          exact mul_le_mul_of_nonneg_left ih (by norm_num)
      _ = _ := by ring

theorem Regular.seq_tendsto {p z : ℝ} (h : Regular p z) :
    ∃ x, Tendsto (tanSeq p z) atTop (𝓝 x) ∧ |z| / p ≤ |x| ∧ nextTan p z x = x := by
  have hc : CauchySeq (tanSeq p z) :=
    cauchySeq_of_le_geometric (1 / 100) |tanSeq p z 0 - tanSeq p z 1| (by norm_num) h.seq_step
  obtain ⟨x, hx⟩ := cauchySeq_tendsto_of_complete hc
  have hge : |z| / p ≤ |x| :=
    ge_of_tendsto' (continuous_abs.continuousAt.tendsto.comp hx) h.seq_ge
  refine ⟨x, hx, hge, ?_⟩
  have h1 : Tendsto (fun k => tanSeq p z (k + 1)) atTop (𝓝 x) := (tendsto_add_atTop_iff_nat 1).2 hx
  have h2 : Tendsto (fun k => tanSeq p z (k + 1)) atTop (𝓝 (nextTan p z x)) := by
    have hcont : ContinuousAt (nextTan p z) x := by
      unfold nextTan
      apply ContinuousAt.div continuousAt_const
      · apply ContinuousAt.sub continuousAt_const
        exact continuousAt_const.div root_continuous.continuousAt (root_pos x).ne'
      · have := (h.denominator hge).1
        have hp := h.1
        nlinarith
    exact hcont.tendsto.comp hx
  exact tendsto_nhds_unique h2 h1

theorem heightOf_continuous (p : ℝ) : Continuous (heightOf p) := by
  unfold heightOf
  apply Continuous.sub (by fun_prop)
  exact Continuous.div (by fun_prop) root_continuous fun x => (root_pos x).ne'

/-! ### distance from the limit -/

theorem root_le_sqrt (x : ℝ) :
    ratio * Real.sqrt (1 + x ^ 2) ≤ root x ∧ root x ≤ Real.sqrt (1 + x ^ 2) := by
  have hr := ratio_bounds
  have ht : 0 ≤ Real.sqrt (1 + x ^ 2) := Real.sqrt_nonneg _
  have ht2 : Real.sqrt (1 + x ^ 2) ^ 2 = 1 + x ^ 2 := Real.sq_sqrt (by positivity)
  have h1 : ratio ^ 2 ≤ 1 := by nlinarith
  constructor
  · apply le_of_sq_le_sq _ (root_pos x).le
    rw [mul_pow, ht2, root_sq, mul_pow]
    nlinarith
  · apply le_of_sq_le_sq _ ht
    rw [ht2, root_sq, mul_pow]
    nlinarith [mul_le_mul_of_nonneg_right h1 (sq_nonneg x)]

theorem sq_sum_bounds {r A B : ℝ} (hr : 6000 ≤ r) (hA : 0 ≤ A) (hB : B ^ 2 ≤ 1900)
    (h : A ^ 2 + B ^ 2 = r ^ 2) : A ≤ r ∧ r - 0.17 ≤ A := by
  constructor
  · apply le_of_sq_le_sq _ (by linarith)
    nlinarith [sq_nonneg B]
  · apply le_of_sq_le_sq _ hA
    nlinarith

theorem tangential_bound {s y T : ℝ} (hs : 42 < s ∧ s < 42.7) (hy : y ^ 2 ≤ 1.02) (hT : 1 ≤ T) :
    (-(s * y / T)) ^ 2 ≤ 1900 := by
  have hT2 : 1 ≤ T ^ 2 := one_le_pow₀ hT
  rw [neg_sq, div_pow, mul_pow, div_le_iff₀ (by positivity)]
  have h3 : s ^ 2 ≤ 1824 := by nlinarith
  have h4 : s ^ 2 * y ^ 2 ≤ 1824 * 1.02 := mul_le_mul h3 hy (sq_nonneg y) (by norm_num)
  linarith

theorem radius_bound {p z x q w r : ℝ} (hp : 0 < p) (hq0 : 0 < q) (hq : q < 1)
    (hw : w ^ 2 = 1 + (q * x) ^ 2) (hr2 : r ^ 2 = p ^ 2 + z ^ 2) (hr : 0 ≤ r)
    (hxp : |x| * p ≤ |z| / 0.99) : w * p ≤ 1.0102 * r := by
  have h1 : (x * p) ^ 2 ≤ (1.0102) ^ 2 * z ^ 2 := by
    have := mul_self_le_mul_self (mul_nonneg (abs_nonneg x) hp.le) hxp
    have e1 : |x| * p * (|x| * p) = (x * p) ^ 2 := by
      rw [mul_pow, ← sq_abs x]
      ring
    have e2 : |z| / 0.99 * (|z| / 0.99) = z ^ 2 / 0.9801 := by
      rw [← sq_abs z]
      ring
    rw [e1, e2] at this
    refine this.trans ?_
    rw [div_le_iff₀ (by norm_num)]
    nlinarith [sq_nonneg z]
  have h2 : q ^ 2 ≤ 1 := by nlinarith
  have h3 : (q * x) ^ 2 * p ^ 2 ≤ (x * p) ^ 2 := by
    have : (q * x) ^ 2 * p ^ 2 = q ^ 2 * (x * p) ^ 2 := by ring
    rw [this]
    nlinarith [sq_nonneg (x * p)]
  apply le_of_sq_le_sq _ (by linarith)
  rw [mul_pow, mul_pow, hw, hr2]
  nlinarith [sq_nonneg p, sq_nonneg z]

theorem rotated_sq (p z x T : ℝ) (hT0 : 0 < T) (hT : T ^ 2 = 1 + x ^ 2) :
    ((p + z * x) / T) ^ 2 + ((z - p * x) / T) ^ 2 = p ^ 2 + z ^ 2 := by
  rw [div_pow, div_pow, ← add_div, div_eq_iff (by positivity), hT]
  ring

theorem tan_difference (p z s R D : ℝ) (hp : p ≠ 0) (hR : R ≠ 0) (hD : D ≠ 0)
    (hA : 1 - s / D ≠ 0) (hB : 1 - s / R ≠ 0) :
    z / (p * (1 - s / D)) - z / (p * (1 - s / R)) =
      z * s * (R - D) / (R * D) / (p * ((1 - s / D) * (1 - s / R))) := by
  have hA' : D - s ≠ 0 := by
    intro h
    apply hA
    rw [sub_eq_zero.1 h, div_self, sub_self]
    rwa [← sub_eq_zero.1 h]
  have hB' : R - s ≠ 0 := by
    intro h
    apply hB
    rw [sub_eq_zero.1 h, div_self, sub_self]
    rwa [← sub_eq_zero.1 h]
  have e1 : 1 - s / D = (D - s) / D := by field_simp
  have e2 : 1 - s / R = (R - s) / R := by field_simp
  rw [e1, e2]
  field_simp
  ring

/-- The start height is within 11 km of the height of the limit. -/
theorem Regular.start_error {p z x : ℝ} (h : Regular p z) (hx : |z| / p ≤ |x|)
    (hf : nextTan p z x = x) :
    |Real.sqrt (p ^ 2 + z ^ 2) - Real.sqrt (axisA * axisB) - heightOf p x| ≤ 11 := by
  have hp := h.1
  have hr6 := h.r_ge
  have hr2 : Real.sqrt (p ^ 2 + z ^ 2) ^ 2 = p ^ 2 + z ^ 2 := Real.sq_sqrt (by positivity)
  have hden := (h.denominator hx).1
  have hw := root_pos x
  have hw2 := root_sq x
  obtain ⟨hT1, hT2⟩ := root_le_sqrt x
  have hratio := ratio_bounds
  have hs := shift_bounds
  have hwx := Frames.root_ge x
  set r := Real.sqrt (p ^ 2 + z ^ 2)
  set T := Real.sqrt (1 + x ^ 2) with hT
  have hT0 : 0 < T := Real.sqrt_pos.2 (by positivity)
  have hTsq : T ^ 2 = 1 + x ^ 2 := Real.sq_sqrt (by positivity)
  have hT1' : 1 ≤ T := by
    rw [hT, Real.one_le_sqrt]
    nlinarith [sq_nonneg x]
  have hD : 0 < p - shift / root x := by nlinarith
  have hz : z = x * (p - shift / root x) := by
    rw [nextTan, div_eq_iff hD.ne'] at hf
    exact hf
  have hgm1 : axisA - 10.8 < Real.sqrt (axisA * axisB) := by
    rw [Real.lt_sqrt (by unfold axisA; norm_num)]
    unfold axisA axisB
    norm_num
  have hgm2 : Real.sqrt (axisA * axisB) < axisB + 10.8 := by
    rw [Real.sqrt_lt' (by unfold axisB; norm_num)]
    unfold axisA axisB
    norm_num
  have ha := axisA_pos
  have hab : axisB = ratio * axisA := by
    unfold ratio
    field_simp
  have hsh : shift = (1 - ratio ^ 2) * axisA := rfl
  have hA : heightOf p x = (p + z * x) / T - axisA * (root x / T) := by
    have e : (p + z * x) / T - axisA * (root x / T) =
        p * T - axisA * T / root x + ((p + z * x) - p * T ^ 2 - axisA * root x +
          axisA * T ^ 2 / root x) / T := by
      field_simp
      ring
    have e0 : (p + z * x) - p * T ^ 2 - axisA * root x + axisA * T ^ 2 / root x = 0 := by
      rw [hTsq, hz, hsh]
      field_simp
      linear_combination (-axisA) * hw2
    rw [e, e0]
    simp [heightOf, hT]
  have hW1 : axisB ≤ axisA * (root x / T) := by
    rw [hab, mul_comm ratio]
    apply mul_le_mul_of_nonneg_left _ ha.le
    rw [le_div_iff₀ hT0]
    exact hT1
  have hW2 : axisA * (root x / T) ≤ axisA := by
    have : root x / T ≤ 1 := by
      rw [div_le_one hT0]
      exact hT2
    nlinarith
  have hB : (z - p * x) / T = -(shift * (x / root x) / T) := by
    rw [hz]
    field_simp
    ring
  have hBsq : ((z - p * x) / T) ^ 2 ≤ 1900 := by
    have h1 : |x / root x| ≤ 1.005 := by
      rw [abs_div, abs_of_pos hw, div_le_iff₀ hw]
      rw [abs_mul, abs_of_pos (by linarith : 0 < ratio)] at hwx
      nlinarith [abs_nonneg x]
    have h2 : (x / root x) ^ 2 ≤ 1.02 := by
      rw [← sq_abs]
      nlinarith [abs_nonneg (x / root x)]
    rw [hB]
    exact tangential_bound hs h2 hT1'
  have hsum := (rotated_sq p z x T hT0 hTsq).trans hr2.symm
  have hApos : 0 ≤ (p + z * x) / T := by
    have hzx : z * x = x ^ 2 * (p - shift / root x) := by
      conv_lhs => rw [hz]
      ring
    have := mul_nonneg (sq_nonneg x) hD.le
    exact div_nonneg (by linarith) hT0.le
  obtain ⟨hA1, hA2⟩ := sq_sum_bounds hr6 hApos hBsq hsum
  rw [hA, abs_le]
  constructor <;> linarith

theorem heightOf_lipschitz (p x y : ℝ) (hp : 0 < p) :
    |heightOf p x - heightOf p y| ≤ (p + shift / (root x * root y)) * |x - y| := by
  have hs := shift_bounds
  have hwx := root_pos x
  have hwy := root_pos y
  have hwx2 := root_sq x
  have hwy2 := root_sq y
  set T := Real.sqrt (1 + x ^ 2) with hT
  set S := Real.sqrt (1 + y ^ 2) with hS
  have hT0 : 0 < T := Real.sqrt_pos.2 (by positivity)
  have hS0 : 0 < S := Real.sqrt_pos.2 (by positivity)
  have hT2 : T ^ 2 = 1 + x ^ 2 := Real.sq_sqrt (by positivity)
  have hS2 : S ^ 2 = 1 + y ^ 2 := Real.sq_sqrt (by positivity)
  have hTx : |x| ≤ T := by
    rw [hT, ← Real.sqrt_sq_eq_abs]
    exact Real.sqrt_le_sqrt (by linarith)
  have hSy : |y| ≤ S := by
    rw [hS, ← Real.sqrt_sq_eq_abs]
    exact Real.sqrt_le_sqrt (by linarith)
  have h1x : 1 ≤ root x := by
    unfold root
    rw [Real.one_le_sqrt]
    nlinarith [sq_nonneg (ratio * x)]
  have h1y : 1 ≤ root y := by
    unfold root
    rw [Real.one_le_sqrt]
    nlinarith [sq_nonneg (ratio * y)]
  have hxy := abs_nonneg (x - y)
  have hsum : |x + y| ≤ T + S := (abs_add_le _ _).trans (add_le_add hTx hSy)
  have hd1 : |T - S| ≤ |x - y| := by
    have key : |T - S| * (T + S) ≤ |x - y| * (T + S) := by
      have e : (T - S) * (T + S) = (x - y) * (x + y) := by linear_combination hT2 - hS2
      calc |T - S| * (T + S) = |(T - S) * (T + S)| := by
            rw [abs_mul, abs_of_pos (by linarith : 0 < T + S)]
        _ = |x - y| * |x + y| := by rw [e, abs_mul]
        _ ≤ |x - y| * (T + S) := mul_le_mul_of_nonneg_left hsum hxy
    exact le_of_mul_le_mul_right key (by linarith)
  have hd2 : |axisA * T / root x - axisA * S / root y| ≤ shift / (root x * root y) * |x - y| := by
    have e : axisA * T / root x - axisA * S / root y =
        axisA * (T * root y - S * root x) / (root x * root y) := by
      field_simp
    have ha := axisA_pos
    rw [e, abs_div, abs_of_pos (mul_pos hwx hwy), div_mul_eq_mul_div,
      div_le_div_iff_of_pos_right (mul_pos hwx hwy), abs_mul, abs_of_pos ha]
    have hq : 0 < T * root y + S * root x := by positivity
    have key : |T * root y - S * root x| * (T * root y + S * root x) ≤
        (1 - ratio ^ 2) * |x - y| * (T * root y + S * root x) := by
      have e2 : (T * root y - S * root x) * (T * root y + S * root x) =
          (1 - ratio ^ 2) * (x - y) * (x + y) := by
        have : (T * root y - S * root x) * (T * root y + S * root x) =
            T ^ 2 * root y ^ 2 - S ^ 2 * root x ^ 2 := by ring
        rw [this, hT2, hS2, hwx2, hwy2]
        ring
      have hk : 0 ≤ 1 - ratio ^ 2 := by
        have := ratio_bounds
        nlinarith
      calc |T * root y - S * root x| * (T * root y + S * root x)
          = |(T * root y - S * root x) * (T * root y + S * root x)| := by
            rw [abs_mul, abs_of_pos hq]
        _ = (1 - ratio ^ 2) * |x - y| * |x + y| := by
            rw [e2, abs_mul, abs_mul, abs_of_nonneg hk]
        _ ≤ (1 - ratio ^ 2) * |x - y| * (T * root y + S * root x) := by
            apply mul_le_mul_of_nonneg_left _ (mul_nonneg hk hxy)
            nlinarith
    have h3 : |T * root y - S * root x| ≤ (1 - ratio ^ 2) * |x - y| :=
      le_of_mul_le_mul_right key hq
    have hsh : shift = (1 - ratio ^ 2) * axisA := rfl
    rw [hsh]
    nlinarith
  have e : heightOf p x - heightOf p y =
      p * (T - S) - (axisA * T / root x - axisA * S / root y) := by
    simp only [heightOf, ← hT, ← hS]
    ring
  rw [e]
  calc |p * (T - S) - (axisA * T / root x - axisA * S / root y)|
      ≤ |p * (T - S)| + |axisA * T / root x - axisA * S / root y| := abs_sub _ _
    _ ≤ p * |x - y| + shift / (root x * root y) * |x - y| := by
        apply add_le_add _ hd2
        rw [abs_mul, abs_of_pos hp]
        exact mul_le_mul_of_nonneg_left hd1 hp.le
    _ = _ := by ring

/-- For admissible tangents heights differ by little more than `p` times the tangents. -/
theorem Regular.height_lipschitz {p z x y : ℝ} (h : Regular p z) (hx : |z| / p ≤ |x|) :
    |heightOf p x - heightOf p y| ≤ 1.01 * p * |x - y| := by
  have hp := h.1
  refine (heightOf_lipschitz p x y hp).trans ?_
  apply mul_le_mul_of_nonneg_right _ (abs_nonneg _)
  have hwx := root_pos x
  have hwy : 1 ≤ root y := by
    unfold root
    rw [Real.one_le_sqrt]
    nlinarith [sq_nonneg (ratio * y)]
  have hd := (h.denominator hx).1
  have hs := shift_bounds
  have : shift / (root x * root y) ≤ shift / root x :=
    div_le_div_of_nonneg_left (by linarith) hwx (by nlinarith)
  linarith

/-- The start tangent is close to the limit. -/
theorem Regular.start_tan_error {p z x : ℝ} (h : Regular p z) (hx : |z| / p ≤ |x|)
    (hf : nextTan p z x = x) : p * |startTan p z - x| ≤ 1 := by
  have hp := h.1
  have hr6 := h.r_ge
  have hzr := h.z_le
  have hr2 : Real.sqrt (p ^ 2 + z ^ 2) ^ 2 = p ^ 2 + z ^ 2 := Real.sq_sqrt (by positivity)
  obtain ⟨hd1, hd2⟩ := h.denominator hx
  have hroot := h.root_ge hx
  have hw := root_pos x
  have hw2 := root_sq x
  have hs := shift_bounds
  have hratio := ratio_bounds
  set r := Real.sqrt (p ^ 2 + z ^ 2)
  have hgm1 : axisA - 10.8 < Real.sqrt (axisA * axisB) := by
    rw [Real.lt_sqrt (by unfold axisA; norm_num)]
    unfold axisA axisB
    norm_num
  have hgm2 : Real.sqrt (axisA * axisB) ≤ axisA := by
    rw [Real.sqrt_le_left axisA_pos.le]
    unfold axisA axisB
    norm_num
  have hsh : (1 - ratio ^ 2) * axisA = shift := rfl
  set D := axisA + (r - Real.sqrt (axisA * axisB)) with hD
  have hD1 : r ≤ D := by linarith
  have hD2 : D ≤ r + 10.8 := by linarith
  have hDp : 0 < D := by linarith
  set R := root x * p with hR
  have hRp : 0 < R := mul_pos hw hp
  -- upper bound for R
  have hxp : |x| * p ≤ |z| / 0.99 := by
    have hD0 : 0 < p - shift / root x := by nlinarith
    rw [nextTan, div_eq_iff hD0.ne'] at hf
    rw [le_div_iff₀ (by norm_num), hf, abs_mul, abs_of_pos hD0]
    nlinarith [abs_nonneg x]
  have hR2 : R ≤ 1.0102 * r :=
    radius_bound hp (by linarith) hratio.2 hw2 hr2 (by linarith) hxp
  have hR1 : 0.996 * r ≤ R := by nlinarith
  have hdiff : |R - D| ≤ 0.0103 * r := by
    rw [abs_le]
    constructor <;> linarith
  have halpha : shift / D ≤ 0.01 := by
    rw [div_le_iff₀ hDp]
    linarith
  have hbeta : shift / R ≤ 0.01 := by
    rw [div_le_iff₀ hRp]
    linarith
  have e0 : startTan p z = z / (p * (1 - shift / D)) := by
    unfold startTan
    rw [hsh, ← hD, ← div_eq_mul_inv, div_div]
  have e1 : x = z / (p * (1 - shift / R)) := by
    have : p * (1 - shift / R) = p - shift / root x := by
      rw [hR]
      field_simp
    rw [this]
    exact hf.symm
  have hA : 0.99 ≤ 1 - shift / D := by linarith
  have hB : 0.99 ≤ 1 - shift / R := by linarith
  have e2 : startTan p z - x =
      z * shift * (R - D) / (R * D) / (p * ((1 - shift / D) * (1 - shift / R))) := by
    have hA' : (1 - shift / D) ≠ 0 := by linarith
    have hB' : (1 - shift / R) ≠ 0 := by linarith
    rw [e0]
    conv_lhs => rw [e1]
    exact tan_difference p z shift R D hp.ne' hRp.ne' hDp.ne' hA' hB'
  have hAB : 0 < (1 - shift / D) * (1 - shift / R) := mul_pos (by linarith) (by linarith)
  have hABge : 0.98 ≤ (1 - shift / D) * (1 - shift / R) := by nlinarith
  rw [e2, abs_div, abs_div, abs_mul, abs_mul, abs_of_pos (by linarith : 0 < shift),
    abs_of_pos (mul_pos hRp hDp), abs_of_pos (mul_pos hp hAB)]
  have hn : |z| * shift * |R - D| ≤ r * 42.7 * (0.0103 * r) := by
    apply mul_le_mul _ hdiff (abs_nonneg _) (by positivity)
    exact mul_le_mul hzr hs.2.le (by linarith) (by linarith)
  have hRD : 0.996 * r * r ≤ R * D := mul_le_mul hR1 hD1 (by linarith) hRp.le
  rw [div_div, ← mul_div_assoc, div_le_one (by positivity)]
  have hfin : r * 42.7 * (0.0103 * r) ≤ 0.996 * r * r * 0.98 := by
    linarith [mul_self_nonneg r]
  have hmul : 0.996 * r * r * 0.98 ≤ R * D * ((1 - shift / D) * (1 - shift / R)) :=
    mul_le_mul hRD hABge (by norm_num) (mul_pos hRp hDp).le
  have := mul_le_mul_of_nonneg_left ((hn.trans hfin).trans hmul) hp.le
  rw [mul_left_comm (R * D)]
  exact this

/-- The tangents approach the limit. -/
theorem Regular.tan_error {p z x : ℝ} (h : Regular p z) (hx : |z| / p ≤ |x|)
    (hf : nextTan p z x = x) (k : ℕ) : p * |tanSeq p z k - x| ≤ (1 / 100) ^ k := by
  have hp := h.1
  induction k with
  | zero => simpa [tanSeq] using h.start_tan_error hx hf
  | succ k ih =>
    have := h.contraction (h.seq_ge k) hx
    rw [hf] at this
    calc p * |tanSeq p z (k + 1) - x| ≤ p * (1 / 100 * |tanSeq p z k - x|) :=
          mul_le_mul_of_nonneg_left this hp.le
      _ = 1 / 100 * (p * |tanSeq p z k - x|) := by ring
      _ ≤ 1 / 100 * (1 / 100) ^ k := mul_le_mul_of_nonneg_left ih (by norm_num)
      _ = _ := by ring

/-- Every height computed after the start is within 1.01 km of the height of the limit. -/
theorem Regular.later_error {p z x : ℝ} (h : Regular p z) (hx : |z| / p ≤ |x|)
    (hf : nextTan p z x = x) (k : ℕ) :
    |heightOf p (tanSeq p z k) - heightOf p x| ≤ 1.01 * (1 / 100) ^ k := by
  have hk := h.tan_error hx hf k
  calc _ ≤ 1.01 * p * |tanSeq p z k - x| := h.height_lipschitz (h.seq_ge k)
    _ = 1.01 * (p * |tanSeq p z k - x|) := by ring
    _ ≤ 1.01 * (1 / 100) ^ k := mul_le_mul_of_nonneg_left hk (by norm_num)

end Celest.Frames
