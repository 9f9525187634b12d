/-
Angles: the angle enclosed by nearby vectors, and how much the arccosine magnifies an error.
-/
import Mathlib.Geometry.Euclidean.Angle.Unoriented.TriangleInequality
import Mathlib.Analysis.SpecialFunctions.Trigonometric.Bounds

namespace Celest.Frames

/-- Two vectors of which one is long and that differ by little enclose a small angle. -/
theorem angle_le_arcsin {E : Type*} [NormedAddCommGroup E] [InnerProductSpace ℝ E] (a b : E)
    (d δ : ℝ) (hd : 0 < d) (ha : d ≤ ‖a‖) (hab : ‖a - b‖ ≤ δ) (hδ : δ < d) :
    InnerProductGeometry.angle a b ≤ Real.arcsin (δ / d) := by
  set θ := InnerProductGeometry.angle a b with hθ
  have h0 : 0 ≤ θ := InnerProductGeometry.angle_nonneg a b
  have hpi : θ ≤ Real.pi := InnerProductGeometry.angle_le_pi a b
  have hin : Real.cos θ * (‖a‖ * ‖b‖) = inner ℝ a b :=
    InnerProductGeometry.cos_angle_mul_norm_mul_norm a b
  have hn : ‖a - b‖ ^ 2 = ‖a‖ ^ 2 - 2 * inner ℝ a b + ‖b‖ ^ 2 := norm_sub_sq_real a b
  have hna := norm_nonneg a
  have hnb := norm_nonneg b
  have hδ0 : 0 ≤ δ := (norm_nonneg _).trans hab
  have hsq : ‖a - b‖ ^ 2 ≤ δ ^ 2 := by gcongr
  by_cases hc : θ ≤ Real.pi / 2
  · have hs : Real.sin θ ≤ δ / d := by
      have hs0 : 0 ≤ Real.sin θ := Real.sin_nonneg_of_nonneg_of_le_pi h0 hpi
      rw [le_div_iff₀ hd]
      have e : ‖a - b‖ ^ 2 = (‖b‖ - ‖a‖ * Real.cos θ) ^ 2 + (‖a‖ * Real.sin θ) ^ 2 := by
        rw [hn, ← hin]
        have := Real.sin_sq_add_cos_sq θ
        have h1 : Real.sin θ ^ 2 = 1 - Real.cos θ ^ 2 := by linarith
        rw [mul_pow ‖a‖ (Real.sin θ), h1]
        ring
      have h2 : (‖a‖ * Real.sin θ) ^ 2 ≤ δ ^ 2 := by
        have := sq_nonneg (‖b‖ - ‖a‖ * Real.cos θ)
        linarith
      have h3 := abs_le_of_sq_le_sq h2 hδ0
      calc Real.sin θ * d ≤ Real.sin θ * ‖a‖ := by gcongr
        _ = ‖a‖ * Real.sin θ := mul_comm _ _
        _ ≤ δ := (le_abs_self _).trans h3
    rw [← Real.arcsin_sin (by linarith [Real.pi_pos]) hc]
    exact Real.arcsin_le_arcsin hs
  · exfalso
    push Not at hc
    have hcos : Real.cos θ ≤ 0 :=
      Real.cos_nonpos_of_pi_div_two_le_of_le hc.le (by linarith)
    have h1 : inner ℝ a b ≤ 0 := by
      rw [← hin]
      exact mul_nonpos_of_nonpos_of_nonneg hcos (by positivity)
    have h2 : d ^ 2 ≤ ‖a‖ ^ 2 := by gcongr
    have h3 : δ ^ 2 < d ^ 2 := by gcongr
    have h4 := sq_nonneg ‖b‖
    linarith

/-- The difference of two angles and of their cosines. -/
theorem cos_sub_cos_ge (x y : ℝ) (hx0 : 0 ≤ x) (hxy : x ≤ y) (hy : y ≤ Real.pi) :
    2 * Real.sin ((y - x) / 2) ^ 2 ≤ Real.cos x - Real.cos y ∧
    (Real.sin x + Real.sin y) * Real.sin ((y - x) / 2) ≤ Real.cos x - Real.cos y := by
  have h0 : 0 ≤ Real.sin ((y - x) / 2) :=
    Real.sin_nonneg_of_nonneg_of_le_pi (by linarith) (by linarith [Real.pi_pos])
  have hm : 0 ≤ Real.sin ((x + y) / 2) :=
    Real.sin_nonneg_of_nonneg_of_le_pi (by linarith) (by linarith [Real.pi_pos])
  have e : Real.cos x - Real.cos y = 2 * Real.sin ((x + y) / 2) * Real.sin ((y - x) / 2) := by
    rw [Real.cos_sub_cos, show (x - y) / 2 = -((y - x) / 2) by ring, Real.sin_neg]
    ring
  constructor
  · have : Real.sin ((y - x) / 2) ≤ Real.sin ((x + y) / 2) := by
      rcases le_total ((x + y) / 2) (Real.pi / 2) with h | h
      · exact Real.sin_le_sin_of_le_of_le_pi_div_two (by linarith [Real.pi_pos]) h (by linarith)
      · rw [← Real.sin_pi_sub ((x + y) / 2)]
        exact Real.sin_le_sin_of_le_of_le_pi_div_two (by linarith [Real.pi_pos]) (by linarith)
          (by linarith)
    rw [e]
    nlinarith [mul_le_mul_of_nonneg_right this h0]
  · have : Real.sin x + Real.sin y = 2 * Real.sin ((x + y) / 2) * Real.cos ((y - x) / 2) := by
      rw [Real.sin_add_sin, show (x - y) / 2 = -((y - x) / 2) by ring, Real.cos_neg]
    rw [e, this]
    have hc := Real.cos_le_one ((y - x) / 2)
    have hms : 0 ≤ 2 * Real.sin ((x + y) / 2) * Real.sin ((y - x) / 2) := by positivity
    nlinarith [mul_le_mul_of_nonneg_left hc hms]

/-- How far two angles can be apart when their cosines are close. -/
theorem angle_of_cos {x y δ : ℝ} (hx0 : 0 ≤ x) (hx : x ≤ Real.pi) (hy0 : 0 ≤ y) (hy : y ≤ Real.pi)
    (h : |Real.cos x - Real.cos y| ≤ δ) :
    |x - y| ≤ Real.pi * Real.sqrt (δ / 2) ∧ |x - y| * Real.sin x ≤ Real.pi * δ ∧
      |x - y| * Real.sin y ≤ Real.pi * δ := by
  have hpi := Real.pi_pos
  have key : ∀ x y : ℝ, 0 ≤ x → x ≤ y → y ≤ Real.pi → Real.cos x - Real.cos y ≤ δ →
      y - x ≤ Real.pi * Real.sqrt (δ / 2) ∧ (y - x) * Real.sin x ≤ Real.pi * δ ∧
        (y - x) * Real.sin y ≤ Real.pi * δ := by
    intro x y h0 hxy hy h
    obtain ⟨h1, h2⟩ := cos_sub_cos_ge x y h0 hxy hy
    have hj : 2 / Real.pi * ((y - x) / 2) ≤ Real.sin ((y - x) / 2) :=
      Real.mul_le_sin (by linarith) (by linarith)
    have e : 2 / Real.pi * ((y - x) / 2) = (y - x) / Real.pi := by ring
    rw [e, div_le_iff₀ hpi] at hj
    have hs0 : 0 ≤ Real.sin ((y - x) / 2) :=
      Real.sin_nonneg_of_nonneg_of_le_pi (by linarith) (by linarith)
    have hsx : 0 ≤ Real.sin x := Real.sin_nonneg_of_nonneg_of_le_pi h0 (by linarith)
    have hsy : 0 ≤ Real.sin y := Real.sin_nonneg_of_nonneg_of_le_pi (by linarith) hy
    refine ⟨?_, ?_, ?_⟩
    · have : Real.sin ((y - x) / 2) ≤ Real.sqrt (δ / 2) := by
        apply Real.le_sqrt_of_sq_le
        linarith
      calc y - x ≤ Real.sin ((y - x) / 2) * Real.pi := hj
        _ ≤ Real.sqrt (δ / 2) * Real.pi := by gcongr
        _ = _ := mul_comm _ _
    · have : Real.sin x * Real.sin ((y - x) / 2) ≤ δ := by nlinarith [mul_nonneg hsy hs0]
      calc (y - x) * Real.sin x ≤ Real.sin ((y - x) / 2) * Real.pi * Real.sin x := by gcongr
        _ = Real.pi * (Real.sin x * Real.sin ((y - x) / 2)) := by ring
        _ ≤ Real.pi * δ := by gcongr
    · have : Real.sin y * Real.sin ((y - x) / 2) ≤ δ := by nlinarith [mul_nonneg hsx hs0]
      calc (y - x) * Real.sin y ≤ Real.sin ((y - x) / 2) * Real.pi * Real.sin y := by gcongr
        _ = Real.pi * (Real.sin y * Real.sin ((y - x) / 2)) := by ring
        _ ≤ Real.pi * δ := by gcongr
  rcases le_total x y with hxy | hxy
  · have := key x y hx0 hxy hy ((le_abs_self _).trans h)
    rwa [abs_sub_comm, abs_of_nonneg (by linarith : 0 ≤ y - x)]
  · rw [abs_sub_comm] at h
    have := key y x hy0 hxy hx ((le_abs_self _).trans h)
    rw [abs_of_nonneg (by linarith : 0 ≤ x - y)]
    exact ⟨this.1, this.2.2, this.2.1⟩

end Celest.Frames
