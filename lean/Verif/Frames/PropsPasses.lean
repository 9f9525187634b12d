/-
C75: how many passes the altitude loop takes.
-/
import Verif.Frames.PropsAltitude

namespace Celest.Frames

open Matrix Celest.TimeScale

/-- The tangent of the latitude stays within these bounds. -/
structure TanBounds (p z x : ℝ) : Prop where
  ge : |z| / p ≤ |x|
  le : |x| * p ≤ |z| / 0.99
  sign : 0 ≤ x * z

theorem Regular.start_bounds {p z : ℝ} (h : Regular p z) : TanBounds p z (startTan p z) := by
  have hp := h.1
  have hr6 := h.r_ge
  have hs := shift_bounds
  have hgm : Real.sqrt (axisA * axisB) ≤ axisA := by
    rw [Real.sqrt_le_left axisA_pos.le]
    unfold axisA axisB
    norm_num
  have he : startTan p z = z / p * (1 - shift /
      (axisA + (Real.sqrt (p ^ 2 + z ^ 2) - Real.sqrt (axisA * axisB))))⁻¹ := rfl
  set D := axisA + (Real.sqrt (p ^ 2 + z ^ 2) - Real.sqrt (axisA * axisB)) with hD
  have h1 : shift / D ≤ 0.01 := by
    rw [div_le_iff₀ (by linarith)]
    linarith
  have hd : 0 < 1 - shift / D := by linarith
  refine ⟨h.start_ge, ?_, ?_⟩
  · rw [he, ← div_eq_mul_inv, abs_div, abs_div, abs_of_pos hp, abs_of_pos hd, div_mul_eq_mul_div,
      div_mul_cancel₀ _ hp.ne']
    exact div_le_div_of_nonneg_left (abs_nonneg z) (by norm_num) (by linarith)
  · rw [he, ← div_eq_mul_inv, div_mul_eq_mul_div, div_mul_eq_mul_div]
    exact div_nonneg (div_nonneg (mul_self_nonneg z) hp.le) hd.le

theorem Regular.next_bounds {p z x : ℝ} (h : Regular p z) (hx : |z| / p ≤ |x|) :
    TanBounds p z (nextTan p z x) := by
  have hp := h.1
  obtain ⟨h1, h2⟩ := h.denominator hx
  have hd : 0 < p - shift / root x := by linarith
  refine ⟨h.next_ge hx, ?_, ?_⟩
  · unfold nextTan
    rw [abs_div, abs_of_pos hd, div_mul_eq_mul_div, div_le_div_iff₀ hd (by norm_num)]
    have := mul_le_mul_of_nonneg_left h1 (abs_nonneg z)
    linarith
  · unfold nextTan
    rw [div_mul_eq_mul_div]
    exact div_nonneg (mul_self_nonneg z) hd.le

theorem Regular.seq_bounds {p z : ℝ} (h : Regular p z) (k : ℕ) : TanBounds p z (tanSeq p z k) := by
  cases k with
  | zero => exact h.start_bounds
  | succ k => exact h.next_bounds (h.seq_ge k)

theorem abs_arctan_le (x : ℝ) : |Real.arctan x| ≤ |x| := by
  have key : ∀ x : ℝ, 0 ≤ x → Real.arctan x ≤ x := by
    intro x hx
    have := Real.le_tan (Real.arctan_nonneg.2 hx) (Real.arctan_lt_pi_div_two x)
    rwa [Real.tan_arctan] at this
  rcases le_total 0 x with h | h
  · rw [abs_of_nonneg h, abs_of_nonneg (Real.arctan_nonneg.2 h)]
    exact key x h
  · have := key (-x) (by linarith)
    rw [Real.arctan_neg] at this
    rw [abs_of_nonpos h, abs_of_nonpos (Real.arctan_le_zero.2 h)]
    exact this

/-- Differences of arctangents. -/
theorem arctan_diff {x y : ℝ} (h : 0 ≤ x * y) :
    |Real.arctan x - Real.arctan y| ≤ |x - y| / (1 + x * y) := by
  have h1 := Real.arctan_add (x := x) (y := -y) (by linarith)
  rw [Real.arctan_neg, ← sub_eq_add_neg, ← sub_eq_add_neg, mul_neg, sub_neg_eq_add] at h1
  rw [h1]
  conv_rhs => rw [← abs_of_pos (show 0 < 1 + x * y by linarith), ← abs_div]
  exact abs_arctan_le _

/-- Two tangents within the bounds multiply to at least the square of `z / p`. -/
theorem TanBounds.mul_ge {p z x y : ℝ} (hp : 0 < p) (hx : TanBounds p z x)
    (hy : TanBounds p z y) : z ^ 2 / p ^ 2 ≤ x * y := by
  have h1 : |z| / p * (|z| / p) ≤ |x| * |y| :=
    mul_le_mul hx.ge hy.ge (by positivity) (abs_nonneg _)
  have h2 : |z| / p * (|z| / p) = z ^ 2 / p ^ 2 := by
    rw [← sq_abs z]
    field_simp
  have h3 : 0 ≤ x * y := by
    by_cases hz : z = 0
    · have := hx.le
      rw [hz, abs_zero, zero_div] at this
      have : |x| = 0 := le_antisymm (by
        by_contra h
        have := mul_pos (not_le.1 h) hp
        linarith) (abs_nonneg _)
      rw [abs_eq_zero.1 this, zero_mul]
    · have : 0 ≤ (x * y) * (z * z) := by
        have := mul_nonneg hx.sign hy.sign
        linarith
      exact nonneg_of_mul_nonneg_left this (mul_self_pos.2 hz)
  rw [← abs_mul, abs_of_nonneg h3] at h1
  linarith

/-- From one pass to the next after the fourth the height changes by less than two millimetres and
the latitude by less than a thousandth of the tolerance. -/
theorem NearOrAboveEarth.late {v : Vec} (h : NearOrAboveEarth v) :
    |heightSeq v 5 - heightSeq v 4| ≤ 1.03 / 10 ^ 6 ∧
      |Real.arctan (tanOf v 5) - Real.arctan (tanOf v 4)| ≤ 1 / 10 ^ 11 := by
  obtain ⟨x, -, -, hx, hf⟩ := h.limits
  have hr := h.regular
  have hp := hr.1
  constructor
  · have h1 := hr.later_error hx hf 4
    have h2 := hr.later_error hx hf 3
    simp only [heightSeq, tanOf]
    have := abs_sub_le (heightOf (axisDistance v) (tanSeq (axisDistance v) (v 2) 4))
      (heightOf (axisDistance v) x) (heightOf (axisDistance v) (tanSeq (axisDistance v) (v 2) 3))
    rw [abs_sub_comm (heightOf (axisDistance v) x)] at this
    norm_num at h1 h2 ⊢
    linarith
  · have h1 := hr.tan_error hx hf 5
    have h2 := hr.tan_error hx hf 4
    have b1 := hr.seq_bounds 5
    have b2 := hr.seq_bounds 4
    simp only [tanOf]
    set p := axisDistance v with hpd
    set y := tanSeq p (v 2) 5
    set w := tanSeq p (v 2) 4
    have hm := b1.mul_ge hp b2
    have h0 : 0 ≤ v 2 ^ 2 / p ^ 2 := by positivity
    refine (arctan_diff (h0.trans hm)).trans ?_
    have h3 := abs_sub_le y x w
    rw [abs_sub_comm x] at h3
    have h4 : p * |y - w| ≤ 1.01 / 10 ^ 8 := by
      have := mul_le_mul_of_nonneg_left h3 hp.le
      norm_num at h1 h2 ⊢
      linarith
    rw [div_le_iff₀ (by linarith)]
    have h5 : 6000 ^ 2 ≤ p ^ 2 * (1 + y * w) := by
      have e : p ^ 2 * (1 + v 2 ^ 2 / p ^ 2) = p ^ 2 + v 2 ^ 2 := by field_simp
      have := mul_le_mul_of_nonneg_left (add_le_add_right hm 1) (sq_nonneg p)
      have := hr.2
      linarith
    have h6 : 6000 ≤ p * (1 + y * w) := by
      rcases le_total 6000 p with hp6 | hp6
      · have : p * 1 ≤ p * (1 + y * w) := mul_le_mul_of_nonneg_left (by linarith) hp.le
        linarith
      · have h7 : p * (p * (1 + y * w)) ≤ 6000 * (p * (1 + y * w)) :=
          mul_le_mul_of_nonneg_right hp6 (mul_nonneg hp.le (by linarith))
        have e : p ^ 2 * (1 + y * w) = p * (p * (1 + y * w)) := by ring
        linarith
    refine le_of_mul_le_mul_left ?_ hp
    rw [mul_left_comm]
    norm_num at h4 ⊢
    linarith

/-- C75: after four passes the mean changes are below the tolerances, so the loop ends after at
most four, however many positions there are and wherever they are. -/
theorem C75_at_most_four_passes (pts : List Vec) (h : ∀ v ∈ pts, NearOrAboveEarth v) :
    ∃ k ≤ 4, (∀ j < k, altContinue pts j) ∧ ¬ altContinue pts k := by
  classical
  have hd : ∀ v ∈ pts, 0 < axisDistance v := fun v hv => axisDistance_pos (h v hv).1
  have mean_le : ∀ (f : Vec → ℝ) (B : ℝ), 0 ≤ B → (∀ v ∈ pts, |f v| ≤ B) →
      mean (pts.map f) ≤ B := by
    intro f B hB hf
    unfold mean
    rw [List.length_map]
    have h1 : (pts.map f).sum ≤ pts.length • B := by
      have := List.sum_le_card_nsmul (pts.map f) B (by
        intro x hx
        obtain ⟨v, hv, rfl⟩ := List.mem_map.1 hx
        exact (le_abs_self _).trans (hf v hv))
      rwa [List.length_map] at this
    rw [nsmul_eq_mul] at h1
    rcases Nat.eq_zero_or_pos pts.length with h0 | h0
    · rw [h0]
      simpa using hB
    · rw [div_le_iff₀ (by exact_mod_cast h0)]
      linarith
  have hstop : ¬ altContinue pts 4 := by
    unfold altContinue
    rw [altState_eq pts hd, altState_eq pts hd]
    simp only [List.map_map, Function.comp_def, List.zipWith_map, List.zipWith_self]
    push Not
    constructor
    · refine (mean_le _ _ (by norm_num) fun v hv => ((h v hv).late).1).trans ?_
      unfold axisA
      norm_num
    · refine (mean_le _ _ (by norm_num) fun v hv => ((h v hv).late).2).trans ?_
      norm_num
  have hex : ∃ k, ¬ altContinue pts k := ⟨4, hstop⟩
  exact ⟨Nat.find hex, Nat.find_min' hex hstop, fun j hj => not_not.1 (Nat.find_min hex hj),
    Nat.find_spec hex⟩

end Celest.Frames
