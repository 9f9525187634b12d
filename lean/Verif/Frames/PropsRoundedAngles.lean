/-
C116: the complete conversion between GCRS and ITRS in floating-point arithmetic.
-/
import Verif.Frames.LemmasRoundedAngles

namespace Celest.Frames

open Celest.TimeScale Matrix

/-- `x ** n` in double precision: the exact power followed by rounding. -/
noncomputable def power64 (x : ℝ) (n : ℕ) : ℝ := roundReal 53 (x ^ n)

/-- Double precision meets the assumptions. -/
theorem binary64_setup : Setup binary64 power64 (1 / 2 ^ 53) := by
  refine ⟨binary64_accurate, fun x n => ?_, le_rfl⟩
  have h := roundReal_error (p := 53) (x ^ n)
  have h0 := abs_nonneg (x ^ n)
  unfold power64
  refine h.trans ?_
  have : (0 : ℝ) ≤ 1 / 2 ^ 53 * |x ^ n| := by positivity
  linarith

theorem exact_inverse (jd : ℝ) (v : Vec) :
    itrsToGcrs1 jd v = (exactAngles jd).rotation⁻¹ *ᵥ v := by
  unfold itrsToGcrs1
  rw [rotateEra_eq, Matrix.mulVec_mulVec, Matrix.mulVec_mulVec, Matrix.mulVec_mulVec]
  congr 1
  unfold Rounded.Angles.rotation
  rw [Matrix.mul_inv_rev, Matrix.mul_inv_rev, Matrix.mul_inv_rev, R3_inv]
  simp only [mul_assoc]
  rfl

/-- Inverses of rotations are as close as the rotations. -/
theorem Follows.inv {k : ℝ} {A B : Mat} (hA : Rotation A) (hB : Rotation B)
    (h : Follows k (fun v => A *ᵥ v) B) : Follows k (fun v => A⁻¹ *ᵥ v) B⁻¹ := by
  intro v
  have h1 := h (B⁻¹ *ᵥ v)
  rw [hB.inv.vnorm] at h1
  have e : A *ᵥ (A⁻¹ *ᵥ v - B⁻¹ *ᵥ v) = B *ᵥ (B⁻¹ *ᵥ v) - A *ᵥ (B⁻¹ *ᵥ v) := by
    rw [Matrix.mulVec_sub, Matrix.mulVec_mulVec, Matrix.mulVec_mulVec, Matrix.mulVec_mulVec,
      Matrix.mul_nonsing_inv _ hA.isUnit, Matrix.mul_nonsing_inv _ hB.isUnit]
  change vnorm (A⁻¹ *ᵥ v - B⁻¹ *ᵥ v) ≤ _
  rw [← hA.vnorm (A⁻¹ *ᵥ v - B⁻¹ *ᵥ v), e, vnorm_sub_comm]
  exact h1

/-- **C116.** Between 1900 and 2100 the conversion from GCRS to ITRS as computed, angles included,
is the exact one but for an error of at most `930 000 u` times the distance from the centre of the
Earth, and so is the conversion back but for `935 000 u`. -/
theorem C116_error {M : Machine} {pw : ℝ → ℕ → ℝ} {u jd : ℝ} (S : Setup M pw u)
    (hjd : |jd - 2451545| ≤ 36525) (v : Vec) :
    vnorm (Rounded.gcrsToItrs1 M (Rounded.angles M pw jd) v - gcrsToItrs1 jd v) ≤
        930000 * u * vnorm v ∧
    vnorm (Rounded.itrsToGcrs1 M (Rounded.angles M pw jd) v - itrsToGcrs1 jd v) ≤
        935000 * u * vnorm v := by
  set g := Rounded.angles M pw jd with hg
  have hv : 0 ≤ u * vnorm v := mul_nonneg S.acc.nonneg (vnorm_nonneg v)
  have ha := angles_follow S hjd
  constructor
  · have h1 := gcrsToItrs1_follows S.acc g v
    have h2 := ha v
    rw [exact_rotation]
    have := vnorm_sub_le (Rounded.gcrsToItrs1 M g v) (g.rotation *ᵥ v)
      ((exactAngles jd).rotation *ᵥ v)
    simp only [← hg] at h2
    linarith
  · have h1 := itrsToGcrs1_follows S.acc g v
    have h2 := ha.inv g.rotation_rotation (exactAngles jd).rotation_rotation v
    rw [exact_inverse]
    have := vnorm_sub_le (Rounded.itrsToGcrs1 M g v) (g.rotation⁻¹ *ᵥ v)
      ((exactAngles jd).rotation⁻¹ *ᵥ v)
    simp only [← hg] at h2
    linarith

/-- **C116.** In double precision a position within 50 000 km of the centre of the Earth is
converted, between 1900 and 2100, with an error of less than six millimetres. -/
theorem C116_millimetres {M : Machine} {pw : ℝ → ℕ → ℝ} {jd : ℝ} (S : Setup M pw (1 / 2 ^ 53))
    (hjd : |jd - 2451545| ≤ 36525) (v : Vec) (hv : vnorm v ≤ 50000) :
    vnorm (Rounded.gcrsToItrs1 M (Rounded.angles M pw jd) v - gcrsToItrs1 jd v) ≤ 6 / 10 ^ 6 ∧
    vnorm (Rounded.itrsToGcrs1 M (Rounded.angles M pw jd) v - itrsToGcrs1 jd v) ≤ 6 / 10 ^ 6 := by
  obtain ⟨h1, h2⟩ := C116_error S hjd v
  constructor
  · refine h1.trans ?_
    calc 930000 * (1 / 2 ^ 53) * vnorm v ≤ 930000 * (1 / 2 ^ 53) * 50000 := by gcongr
      _ ≤ _ := by norm_num
  · refine h2.trans ?_
    calc 935000 * (1 / 2 ^ 53) * vnorm v ≤ 935000 * (1 / 2 ^ 53) * 50000 := by gcongr
      _ ≤ _ := by norm_num

/-- The hypotheses are met: double precision, a date in 2024 and a geostationary position. -/
example : vnorm (Rounded.gcrsToItrs1 binary64 (Rounded.angles binary64 power64 2460311.25)
    ![42164, 0, 0] - gcrsToItrs1 2460311.25 ![42164, 0, 0]) ≤ 6 / 10 ^ 6 := by
  refine (C116_millimetres binary64_setup (by norm_num [abs_le]) _ ?_).1
  unfold vnorm
  rw [Real.sqrt_le_left (by norm_num)]
  simp [dotProduct, Fin.sum_univ_three]
  norm_num

end Celest.Frames
