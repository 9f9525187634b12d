/-
Lemmas for C124: absolute errors of the time scales computed in floating-point arithmetic.
-/
import Verif.Frames.LemmasRoundedAngles
import Verif.Frames.RoundedTime

namespace Celest.Frames

open Celest.TimeScale

variable {M : Machine} {pw : ℝ → ℕ → ℝ} {u : ℝ} {A : Trig}

theorem fmod_add_int (x m : ℝ) (hm : m ≠ 0) (n : ℤ) : fmod (x + m * n) m = fmod x m := by
  unfold fmod
  rw [add_div, mul_div_cancel_left₀ _ hm, Int.floor_add_intCast]
  push_cast
  ring

theorem fmod_range (x : ℝ) {m : ℝ} (hm : 0 < m) : 0 ≤ fmod x m ∧ fmod x m < m := by
  unfold fmod
  have a := Int.floor_le (x / m)
  have b := Int.lt_floor_add_one (x / m)
  rw [le_div_iff₀ hm] at a
  rw [div_lt_iff₀ hm] at b
  constructor <;> linarith

/-- Remainders, up to multiples of the modulus. -/
theorem Close.modulo {k B x X m : ℝ} (h : Close u k B x X) (S : M.Accurate u) (hk : k ≤ 10 ^ 9)
    (hm : 0 < m) : ∃ n : ℤ, Close u (k + (m + 1) + k / 10 ^ 12) (m + 1) (Rounded.modulo M m x)
      (fmod X m + m * n) := by
  refine ⟨⌊X / m⌋ - ⌊x / m⌋, ?_⟩
  have h0 := S.nonneg
  have hs := S.small
  have e : fmod X m + m * ((⌊X / m⌋ - ⌊x / m⌋ : ℤ) : ℝ) = X - m * ⌊x / m⌋ := by
    unfold fmod
    push_cast
    ring
  rw [e]
  have h1 : |fmod x m - (X - m * ⌊x / m⌋)| ≤ k * u := by
    unfold fmod
    rw [show x - m * (⌊x / m⌋ : ℝ) - (X - m * ⌊x / m⌋) = x - X by ring]
    exact h.err
  have h2 : |fmod x m| ≤ m := by
    have := fmod_range x hm
    rw [abs_of_nonneg this.1]
    exact this.2.le
  have h3 : |X - m * (⌊x / m⌋ : ℝ)| ≤ m + 1 := by
    have t := abs_sub_abs_le_abs_sub (X - m * (⌊x / m⌋ : ℝ)) (fmod x m)
    rw [abs_sub_comm _ (fmod x m)] at t
    have : k * u ≤ 10 ^ 9 * (1 / 10 ^ 12) := by
      calc k * u ≤ 10 ^ 9 * u := by gcongr
        _ ≤ _ := by gcongr
    linarith
  exact (Close.mk h1 h3).fl S

variable {jd lon : ℝ}

/-- Hours computed up to full days. -/
def HoursClose (u k x X : ℝ) : Prop := ∃ n : ℤ, Close u k 25 x (X + 24 * n)

theorem Close.hours {k B x X : ℝ} (h : Close u k B x X) (S : M.Accurate u) (hk : k ≤ 10 ^ 9) :
    HoursClose u (k + 25 + k / 10 ^ 12) (Rounded.modulo M 24 x) (fmod X 24) := by
  obtain ⟨n, hn⟩ := h.modulo S hk (m := 24) (by norm_num)
  exact ⟨n, hn.mono S.nonneg (by norm_num) (by norm_num)⟩

theorem HoursClose.mono {k l x X : ℝ} (h : HoursClose u k x X) (hu : 0 ≤ u) (hl : k ≤ l) :
    HoursClose u l x X := by
  obtain ⟨n, hn⟩ := h
  exact ⟨n, hn.mono hu hl le_rfl⟩

/-! ### Solar time -/

theorem utc_close (S : Setup M pw u) : Close u 87 12 (Rounded.utcHours M jd) (utcHours jd) := by
  have hr := fmod_range jd (m := 1) one_pos
  have h1 : Close u 1.1 1 (Rounded.modulo M 1 jd) (fmod jd 1) :=
    ((Close.exact (u := u) (X := fmod jd 1) (B := 1)
      (by rw [abs_of_nonneg hr.1]; exact hr.2.le)).fl S.acc).mono S.acc.nonneg (by norm_num) le_rfl
  have h2 := (((((Close.exact (u := u) (X := 24) (B := 24) (by norm_num)).mul S.acc h1
    (by norm_num)).fl S.acc).sub (Close.exact (u := u) (X := 12) (B := 12) (by norm_num))).fl
    S.acc).mono S.acc.nonneg (l := 87) (C := 36) (by norm_num) (by norm_num)
  refine ⟨h2.err, ?_⟩
  unfold utcHours
  rw [abs_le]
  constructor <;> linarith

theorem longitudeHours_close (S : Setup M pw u) (hlon : |lon| ≤ 360) :
    Close u 25 24 (M.fl (lon / 15)) (lon / 15) :=
  (((Close.exact hlon).div (c := 15) (by norm_num)).fl S.acc).mono S.acc.nonneg (by norm_num)
    (by norm_num)

theorem meanSolarTime_close (S : Setup M pw u) (hlon : |lon| ≤ 360) :
    HoursClose u 175 (Rounded.meanSolarTime M jd lon) (meanSolarTime jd lon) :=
  ((((utc_close S).add (longitudeHours_close S hlon)).fl S.acc).hours S.acc (by norm_num)).mono S.acc.nonneg
    (by norm_num)

theorem HoursClose.hourAngle {k x X : ℝ} (h : HoursClose u k x X) (S : Setup M pw u)
    (h0 : 0 ≤ k) (hk : k ≤ 10 ^ 8) :
    HoursClose u (k + 63 + k / 10 ^ 11) (Rounded.modulo M 24 (M.fl (x - 12)))
      (fmod (X - 12) 24) := by
  obtain ⟨n, hn⟩ := h
  have := ((hn.sub (Close.exact (u := u) (X := 12) (B := 12) (by norm_num))).fl S.acc).hours S.acc
    (by norm_num; linarith)
  rw [show X + 24 * (n : ℝ) - 12 = X - 12 + 24 * n by ring, fmod_add_int _ _ (by norm_num)] at this
  exact this.mono S.acc.nonneg (by norm_num; linarith)

theorem meanHourAngle_close (S : Setup M pw u) (hlon : |lon| ≤ 360) :
    HoursClose u 240 (Rounded.meanHourAngle M jd lon) (meanHourAngle jd lon) :=
  ((meanSolarTime_close S hlon).hourAngle S (by norm_num) (by norm_num)).mono S.acc.nonneg
    (by norm_num)

/-! ### The equation of time -/

theorem Close.resize {k B C x X : ℝ} (h : Close u k B x X) (hX : |X| ≤ C) : Close u k C x X :=
  ⟨h.err, hX⟩

theorem sunAnomaly_close (S : Setup M pw u) (hjd : |jd - 2451545| ≤ 36525) :
    ∃ n : ℤ, Close u 810000 361 (Rounded.sunAnomaly M pw jd) (sunAnomaly jd + 360 * n) := by
  have t := centuries_close S hjd
  have a := ((((((Close.lit S.acc (c := 357.52772) (by norm_num)).add
    (Close.term S.acc (c := 35999.050340) (by norm_num) (t.pow_one' S (by norm_num))
      (by norm_num))).fl S.acc).sub
    (Close.term S.acc (c := 0.0001603) (by norm_num) (t.pow S (by norm_num) 2)
      (by norm_num))).fl S.acc).sub
    (((t.pow S (by norm_num) 3).div (c := 300000) (by norm_num)).fl S.acc)).fl S.acc
  obtain ⟨n, hn⟩ := a.mod360 S.acc (by norm_num)
  exact ⟨n, hn.mono S.acc.nonneg (by norm_num) le_rfl⟩

theorem anomalyRad_close (S : Setup M pw u) (hjd : |jd - 2451545| ≤ 36525) :
    ∃ n : ℤ, Close u 14300 7 (Rounded.degToRad M (Rounded.sunAnomaly M pw jd))
      (rad (sunAnomaly jd) + n * (2 * Real.pi)) := by
  obtain ⟨n, hn⟩ := sunAnomaly_close S hjd
  refine ⟨n, ?_⟩
  have := degToRad_close S hn (by norm_num)
  rw [show rad (sunAnomaly jd + 360 * n) = rad (sunAnomaly jd) + n * (2 * Real.pi) by
    unfold rad; ring] at this
  exact this.mono S.acc.nonneg (by norm_num) (by norm_num)

theorem apparentObliquity_close (S : Setup M pw u) (hjd : |jd - 2451545| ≤ 36525) :
    Close u 1900 26.1 (Rounded.apparentObliquity M pw jd) (apparentObliquity jd) :=
  (((meanObliquity_close S hjd).add
    (arcsecToDeg_close S (nutationInObliquity_close S hjd) (by norm_num))).fl S.acc).mono
    S.acc.nonneg (by norm_num) (by norm_num)

theorem obliquityRad_close (S : Setup M pw u) (hjd : |jd - 2451545| ≤ 36525) :
    Close u 35 0.46 (Rounded.degToRad M (Rounded.apparentObliquity M pw jd))
      (rad (apparentObliquity jd)) :=
  (degToRad_close S (apparentObliquity_close S hjd) (by norm_num)).mono S.acc.nonneg (by norm_num)
    (by norm_num)

theorem eccentricity_close (S : Setup M pw u) (hjd : |jd - 2451545| ≤ 36525) :
    Close u 0.06 0.017 (Rounded.eccentricity M pw jd) (eccentricity jd) := by
  have t := ((centuries_close S hjd).pow_one' S (by norm_num))
  exact ((((((Close.lit S.acc (c := 0.016708634) (by norm_num)).sub
    (Close.term S.acc (c := 0.000042037) (by norm_num) t (by norm_num))).fl S.acc).sub
    (Close.term S.acc (c := 0.0000001267) (by norm_num) (t.pow S (by norm_num) 2)
      (by norm_num))).fl S.acc)).mono S.acc.nonneg (by norm_num) (by norm_num)

/-- Tangents of small angles. -/
theorem cos_small {x : ℝ} (h : |x| ≤ 0.24) : 0.97 ≤ Real.cos x := by
  have h1 := Real.one_sub_sq_div_two_le_cos (x := x)
  have h2 : x ^ 2 ≤ 0.24 ^ 2 := by
    rw [← sq_abs]
    gcongr
  norm_num at h2
  linarith

theorem tan_small {x : ℝ} (h : |x| ≤ 0.24) : |Real.tan x| ≤ 0.25 := by
  have hc := cos_small h
  have hs := Real.abs_sin_le_abs (x := x)
  rw [Real.tan_eq_sin_div_cos, abs_div, abs_of_pos (a := Real.cos x) (by linarith),
    div_le_iff₀ (by linarith)]
  linarith

theorem tan_lipschitz {x y : ℝ} (hx : |x| ≤ 0.24) (hy : |y| ≤ 0.24) :
    |Real.tan x - Real.tan y| ≤ 1.1 * |x - y| := by
  have hcx := cos_small hx
  have hcy := cos_small hy
  have hs := Real.abs_sin_le_abs (x := x - y)
  have hp : 0.94 ≤ Real.cos x * Real.cos y := by nlinarith
  have e : Real.tan x - Real.tan y = Real.sin (x - y) / (Real.cos x * Real.cos y) := by
    rw [Real.tan_eq_sin_div_cos, Real.tan_eq_sin_div_cos, Real.sin_sub]
    field_simp
  rw [e, abs_div, abs_of_pos (a := Real.cos x * Real.cos y) (by linarith),
    div_le_iff₀ (by linarith)]
  nlinarith [abs_nonneg (x - y)]

theorem y_close (S : Setup M pw u) (hA : A.Accurate u) (hjd : |jd - 2451545| ≤ 36525) :
    Close u 100 0.0625 (pw (A.tan (Rounded.degToRad M (Rounded.apparentObliquity M pw jd) / 2)) 2)
      (Real.tan (rad (apparentObliquity jd) / 2) ^ 2) := by
  have h := (obliquityRad_close S hjd).div (c := 2) (by norm_num)
  have hs := S.acc.small
  have hX : |rad (apparentObliquity jd) / 2| ≤ 0.24 := h.size.trans (by norm_num)
  have hx : |Rounded.degToRad M (Rounded.apparentObliquity M pw jd) / 2| ≤ 0.24 :=
    h.abs_le.trans (by norm_num; linarith)
  have ht : Close u 22 1 (A.tan (Rounded.degToRad M (Rounded.apparentObliquity M pw jd) / 2))
      (Real.tan (rad (apparentObliquity jd) / 2)) := by
    refine ⟨?_, (tan_small hX).trans (by norm_num)⟩
    have h1 := hA.tan _ (hx.trans (by have := Real.pi_gt_three; linarith))
    have h2 := tan_lipschitz hx hX
    have h3 := h.err
    have h4 := abs_sub_le (A.tan (Rounded.degToRad M (Rounded.apparentObliquity M pw jd) / 2))
      (Real.tan (Rounded.degToRad M (Rounded.apparentObliquity M pw jd) / 2))
      (Real.tan (rad (apparentObliquity jd) / 2))
    norm_num at h3
    linarith [S.acc.nonneg]
  have h2 := ht.pow S (by norm_num) 2
  refine ⟨h2.err.trans ?_, ?_⟩
  · have := S.acc.nonneg
    norm_num
    linarith
  · have := tan_small hX
    rw [abs_pow]
    calc |Real.tan (rad (apparentObliquity jd) / 2)| ^ 2 ≤ 0.25 ^ 2 := by gcongr
      _ = _ := by norm_num

theorem equationOfTime_close (S : Setup M pw u) (hA : A.Accurate u)
    (hjd : |jd - 2451545| ≤ 36525) :
    Close u 5000 0.2 (Rounded.equationOfTime M pw A jd) (equationOfTime jd) := by
  obtain ⟨n, hm⟩ := anomalyRad_close S hjd
  have hl := sunRad_close S hjd
  have y := y_close S hA hjd
  have e := eccentricity_close S hjd
  have e1' : Close u 1 1 (Rounded.eccentricity M pw jd) (eccentricity jd) :=
    e.mono S.acc.nonneg (by norm_num) (by norm_num)
  have y' : Close u 100 1 _ _ := y.mono S.acc.nonneg le_rfl (by norm_num)
  have s2l := hl.double.sin S.acc
  have c2l := hl.double.cos S.acc
  have s4l := hl.double.double.sin S.acc
  simp only [show ∀ z : ℝ, 2 * (2 * z) = 4 * z by intro z; ring] at s4l
  have sm := hm.sin S.acc
  have s2m := hm.double.sin S.acc
  rw [Real.sin_add_int_mul_two_pi] at sm
  rw [show 2 * (rad (sunAnomaly jd) + n * (2 * Real.pi)) =
    2 * rad (sunAnomaly jd) + ((2 * n : ℤ) : ℝ) * (2 * Real.pi) by push_cast; ring,
    Real.sin_add_int_mul_two_pi] at s2m
  have two : Close u 0 2 (-2) (-2) := Close.exact (by norm_num)
  have four : Close u 0 4 4 4 := Close.exact (by norm_num)
  have half : Close u 0 0.5 (-0.5) (-0.5) := Close.exact (by norm_num)
  have five : Close u 0 1.25 (-1.25) (-1.25) := Close.exact (by norm_num)
  have y2 := (y'.pow S (by norm_num) 2).resize (C := 0.004) (by
    rw [abs_pow]
    calc _ ≤ (0.0625 : ℝ) ^ 2 := by gcongr; exact y.size
      _ ≤ _ := by norm_num)
  have e2 := (e1'.pow S (by norm_num) 2).resize (C := 0.0003) (by
    rw [abs_pow]
    calc _ ≤ (0.017 : ℝ) ^ 2 := by gcongr; exact e.size
      _ ≤ _ := by norm_num)
  have t1 := (y.mul S.acc s2l (by norm_num)).fl S.acc
  have t2 := ((two.mul S.acc e (by norm_num)).mul S.acc sm (by norm_num)).fl S.acc
  have t3 := (((((four.mul S.acc e (by norm_num)).mul S.acc y (by norm_num)).fl S.acc).mul S.acc sm
    (by norm_num)).fl S.acc |>.mul S.acc c2l (by norm_num)).fl S.acc
  have t4 := ((half.mul S.acc y2 (by norm_num)).mul S.acc s4l (by norm_num)).fl S.acc
  have t5 := (((five.mul S.acc e2 (by norm_num)).fl S.acc).mul S.acc s2m (by norm_num)).fl S.acc
  exact ((((((((t1.add t2).fl S.acc).add t3).fl S.acc).add t4).fl S.acc).add t5).fl S.acc).mono
    S.acc.nonneg (by norm_num) (by norm_num)

theorem trueSolarTime_close (S : Setup M pw u) (hA : A.Accurate u)
    (hjd : |jd - 2451545| ≤ 36525) (hlon : |lon| ≤ 360) :
    HoursClose u 20000 (Rounded.trueSolarTime M pw A jd lon) (trueSolarTime jd lon) := by
  have e := (((equationOfTime_close S hA hjd).mul S.acc (radScale_close S) (by norm_num)).fl
    S.acc).mono S.acc.nonneg (l := 286600) (C := 12) (by norm_num) (by norm_num)
  have h := ((utc_close (jd := jd) S).add ((((((Close.exact (u := u) hlon).add e).fl S.acc).div (c := 15)
    (by norm_num)).fl S.acc))).fl S.acc
  exact (h.hours S.acc (by norm_num)).mono S.acc.nonneg (by norm_num)

theorem trueHourAngle_close (S : Setup M pw u) (hA : A.Accurate u)
    (hjd : |jd - 2451545| ≤ 36525) (hlon : |lon| ≤ 360) :
    HoursClose u 20100 (Rounded.trueHourAngle M pw A jd lon) (trueHourAngle jd lon) :=
  ((trueSolarTime_close S hA hjd hlon).hourAngle S (by norm_num) (by norm_num)).mono S.acc.nonneg
    (by norm_num)

/-! ### Sidereal time -/

theorem gmst_close (S : Setup M pw u) (hjd : |jd - 2451545| ≤ 36525) :
    HoursClose u (2.1 * 10 ^ 7) (Rounded.gmst M pw jd) (gmst jd) := by
  have t := centuries_close S hjd
  have a := (((((Close.lit S.acc (c := 280.46) (by norm_num)).add
    (((Close.term S.acc (c := 360.98564736629) (by norm_num) (t.pow_one' S (by norm_num))
      (by norm_num)).mul S.acc (Close.exact (u := u) (X := 36525) (B := 36525) (by norm_num))
      (by norm_num)).fl S.acc)).fl S.acc).add
    (Close.term S.acc (c := 0.000387933) (by norm_num) (t.pow S (by norm_num) 2)
      (by norm_num))).fl S.acc |>.sub
    (((t.pow S (by norm_num) 3).div (c := 38710000) (by norm_num)).fl S.acc)).fl S.acc
  obtain ⟨n, hn⟩ := a.mod360 S.acc (by norm_num)
  refine ⟨n, ?_⟩
  have h := ((hn.div (c := 15) (by norm_num)).fl S.acc).mono S.acc.nonneg (l := 2.1 * 10 ^ 7)
    (C := 25) (by norm_num) (by norm_num)
  rw [add_div, show 360 * (n : ℝ) / 15 = 24 * n by ring] at h
  exact h

theorem equationOfEquinoxes_close (S : Setup M pw u) (hjd : |jd - 2451545| ≤ 36525) :
    Close u 11000 1.4 (Rounded.equationOfEquinoxes M pw jd) (equationOfEquinoxes jd) :=
  ((((((nutationInLongitude_close S hjd).mul S.acc ((obliquityRad_close S hjd).cos S.acc)
    (by norm_num)).fl S.acc).div (c := 15) (by norm_num)).fl S.acc)).mono S.acc.nonneg
    (by norm_num) (by norm_num)

theorem equinoxHours_close (S : Setup M pw u) (hjd : |jd - 2451545| ≤ 36525) :
    Close u 4 0.001 (Rounded.arcsecToDeg M (Rounded.equationOfEquinoxes M pw jd))
      (equationOfEquinoxes jd / 3600) :=
  (arcsecToDeg_close S (equationOfEquinoxes_close S hjd) (by norm_num)).mono S.acc.nonneg
    (by norm_num) (by norm_num)

theorem gast_close (S : Setup M pw u) (hjd : |jd - 2451545| ≤ 36525) :
    ∃ n : ℤ, Close u (2.11 * 10 ^ 7) 26 (Rounded.gast M pw jd) (gast jd + 24 * n) := by
  obtain ⟨n, hn⟩ := gmst_close S hjd
  refine ⟨n, ?_⟩
  have h := ((hn.add (equinoxHours_close S hjd)).fl S.acc).mono S.acc.nonneg
    (l := 2.11 * 10 ^ 7) (C := 26) (by norm_num) (by norm_num)
  rw [show gmst jd + 24 * (n : ℝ) + equationOfEquinoxes jd / 3600 =
    gmst jd + equationOfEquinoxes jd / 3600 + 24 * n by ring] at h
  exact h

/-! ### Right ascension of the sun -/

/-- Nearby directions. -/
theorem arg_close {z w : ℂ} {e : ℝ} (hz : z ≠ 0) (he : e ≤ 0.2) (h : ‖w - z‖ ≤ e * ‖z‖) :
    ∃ n : ℤ, |w.arg - z.arg - n * (2 * Real.pi)| ≤ 2 * e := by
  have hn : 0 < ‖z‖ := norm_pos_iff.2 hz
  set q := w / z with hq
  have hd : ‖q - 1‖ ≤ e := by
    rw [hq, show w / z - 1 = (w - z) / z by field_simp, norm_div, div_le_iff₀ hn]
    exact h
  have he0 : 0 ≤ e := (norm_nonneg _).trans hd
  have hre : 0.8 ≤ q.re := by
    have := Complex.abs_re_le_norm (q - 1)
    rw [Complex.sub_re, Complex.one_re] at this
    have := (abs_le.1 (this.trans hd)).1
    linarith
  have him : |q.im| ≤ e := by
    have := Complex.abs_im_le_norm (q - 1)
    rw [Complex.sub_im, Complex.one_im, sub_zero] at this
    exact this.trans hd
  have hq0 : q ≠ 0 := by
    intro h0
    rw [h0] at hre
    norm_num at hre
  have hqn : 0.8 ≤ ‖q‖ := hre.trans ((le_abs_self _).trans (Complex.abs_re_le_norm q))
  have hw : w = q * z := by rw [hq]; field_simp
  have harg : |q.arg| ≤ 2 * e := by
    have h1 : |q.arg| < Real.pi / 2 := by
      rw [Complex.abs_arg_lt_pi_div_two_iff]
      left
      linarith
    have h2 : |Real.sin q.arg| ≤ e / 0.8 := by
      rw [Complex.sin_arg, abs_div, abs_of_pos (a := ‖q‖) (by linarith)]
      gcongr
    have h3 : 2 / Real.pi * |q.arg| ≤ |Real.sin q.arg| := by
      have := Real.mul_le_sin (abs_nonneg q.arg) h1.le
      rcases abs_cases q.arg with h | h
      · rw [h.1] at this ⊢
        exact this.trans (le_abs_self _)
      · rw [h.1] at this ⊢
        rw [Real.sin_neg] at this
        exact this.trans (neg_le_abs _)
    have h4 := h3.trans h2
    have hpi := Real.pi_pos
    have hpi2 := Real.pi_lt_d2
    rw [div_mul_eq_mul_div, div_le_iff₀ hpi] at h4
    have h5 : e * Real.pi ≤ e * 3.15 := by gcongr
    rw [show e / 0.8 * Real.pi = 1.25 * (e * Real.pi) by ring] at h4
    linarith
  have ha := Complex.arg_mul_coe_angle hq0 hz
  rw [← hw, ← Real.Angle.coe_add, Real.Angle.angle_eq_iff_two_pi_dvd_sub] at ha
  obtain ⟨n, hn'⟩ := ha
  refine ⟨n, ?_⟩
  rw [show w.arg - z.arg - n * (2 * Real.pi) = q.arg by linarith]
  exact harg

theorem sunCentre_close (S : Setup M pw u) (hjd : |jd - 2451545| ≤ 36525) :
    Close u 29000 2 (Rounded.sunCentre M pw jd) (sunCentre jd) := by
  have t := centuries_close S hjd
  obtain ⟨n, hm⟩ := anomalyRad_close S hjd
  have sm := hm.sin S.acc
  have s2m := hm.double.sin S.acc
  have s3m := (((Close.exact (u := u) (X := 3) (B := 3) (by norm_num)).mul S.acc hm
    (by norm_num)).fl S.acc).sin S.acc
  rw [Real.sin_add_int_mul_two_pi] at sm
  rw [show 2 * (rad (sunAnomaly jd) + n * (2 * Real.pi)) =
    2 * rad (sunAnomaly jd) + ((2 * n : ℤ) : ℝ) * (2 * Real.pi) by push_cast; ring,
    Real.sin_add_int_mul_two_pi] at s2m
  rw [show 3 * (rad (sunAnomaly jd) + n * (2 * Real.pi)) =
    3 * rad (sunAnomaly jd) + ((3 * n : ℤ) : ℝ) * (2 * Real.pi) by push_cast; ring,
    Real.sin_add_int_mul_two_pi] at s3m
  have a := (((((Close.lit S.acc (c := 1.914602) (by norm_num)).sub
    (Close.term S.acc (c := 0.004817) (by norm_num) (t.pow_one' S (by norm_num))
      (by norm_num))).fl S.acc).sub
    (Close.term S.acc (c := 0.000014) (by norm_num) (t.pow S (by norm_num) 2)
      (by norm_num))).fl S.acc |>.mul S.acc sm (by norm_num)).fl S.acc
  have b := ((((Close.lit S.acc (c := 0.019993) (by norm_num)).sub
    (Close.term S.acc (c := 0.000101) (by norm_num) (t.pow_one' S (by norm_num))
      (by norm_num))).fl S.acc).mul S.acc s2m (by norm_num)).fl S.acc
  have c := Close.term S.acc (c := 0.000289) (by norm_num) s3m (by norm_num)
  exact ((((a.add b).fl S.acc).add c).fl S.acc).mono S.acc.nonneg (by norm_num) (by norm_num)

theorem sunTrueLongitude_close (S : Setup M pw u) (hjd : |jd - 2451545| ≤ 36525) :
    Close u 18000 640 (Rounded.radians M (M.fl (Rounded.sunLongitude M pw jd +
      Rounded.sunCentre M pw jd))) (rad (sunLongitude jd + sunCentre jd)) :=
  (radians_close S (((sunLongitude_close S hjd).add (sunCentre_close S hjd)).fl S.acc)
    (by norm_num)).mono S.acc.nonneg (by norm_num) (by norm_num)

theorem meanObliquityRad_close (S : Setup M pw u) (hjd : |jd - 2451545| ≤ 36525) :
    Close u 35 0.46 (Rounded.degToRad M (Rounded.meanObliquity M pw jd))
      (rad (meanObliquity jd)) :=
  (degToRad_close S (meanObliquity_close S hjd) (by norm_num)).mono S.acc.nonneg (by norm_num)
    (by norm_num)

theorem sunDirection_close (S : Setup M pw u) (hA : A.Accurate u)
    (hjd : |jd - 2451545| ≤ 36525) :
    ∃ n : ℤ, |A.arctan2 (M.fl (M.cos (Rounded.degToRad M (Rounded.meanObliquity M pw jd)) *
        M.sin (Rounded.radians M (M.fl (Rounded.sunLongitude M pw jd +
          Rounded.sunCentre M pw jd)))))
        (M.cos (Rounded.radians M (M.fl (Rounded.sunLongitude M pw jd +
          Rounded.sunCentre M pw jd)))) -
      arctan2 (Real.cos (rad (meanObliquity jd)) * Real.sin (rad (sunLongitude jd + sunCentre jd)))
        (Real.cos (rad (sunLongitude jd + sunCentre jd))) - n * (2 * Real.pi)| ≤ 81200 * u := by
  have ho := meanObliquityRad_close S hjd
  have hl := sunTrueLongitude_close S hjd
  have hu := S.acc.nonneg
  have hs := S.acc.small
  have y := (((ho.cos S.acc).mul S.acc (hl.sin S.acc) (by norm_num)).fl S.acc).mono hu
    (l := 18050) (C := 1) (by norm_num) (by norm_num)
  have x := (hl.cos S.acc).mono hu (l := 18050) (C := 1) (by norm_num) (by norm_num)
  set l := rad (sunLongitude jd + sunCentre jd)
  set o := rad (meanObliquity jd)
  set l' := Rounded.radians M (M.fl (Rounded.sunLongitude M pw jd + Rounded.sunCentre M pw jd))
  set o' := Rounded.degToRad M (Rounded.meanObliquity M pw jd)
  have hco : 0.894 ≤ Real.cos o := by
    have h1 := Real.one_sub_sq_div_two_le_cos (x := o)
    have h2 : o ^ 2 ≤ 0.46 ^ 2 := by
      rw [← sq_abs]
      gcongr
      exact ho.size
    norm_num at h2
    linarith
  have hn : 0.89 ≤ ‖(⟨Real.cos l, Real.cos o * Real.sin l⟩ : ℂ)‖ := by
    rw [Complex.norm_def, Complex.normSq_mk]
    apply Real.le_sqrt_of_sq_le
    have h1 := Real.sin_sq_add_cos_sq l
    have h2 : 0.799 ≤ Real.cos o ^ 2 := by nlinarith
    have h3 := sq_nonneg (Real.sin l)
    have h4 := sq_nonneg (Real.cos l)
    nlinarith
  have hd : ‖(⟨M.cos l', M.fl (M.cos o' * M.sin l')⟩ : ℂ) - ⟨Real.cos l, Real.cos o * Real.sin l⟩‖ ≤
      36100 * u := by
    refine (Complex.norm_le_abs_re_add_abs_im _).trans ?_
    rw [Complex.sub_re, Complex.sub_im]
    have := x.err
    have := y.err
    dsimp only
    linarith
  obtain ⟨n, hn'⟩ := arg_close (z := ⟨Real.cos l, Real.cos o * Real.sin l⟩)
    (w := ⟨M.cos l', M.fl (M.cos o' * M.sin l')⟩) (e := 40570 * u)
    (by intro h; rw [h] at hn; norm_num at hn) (by linarith)
    (hd.trans (by nlinarith [mul_nonneg hu (sub_nonneg.2 hn)]))
  refine ⟨n, ?_⟩
  have ha := hA.arctan2 (M.fl (M.cos o' * M.sin l')) (M.cos l')
  unfold arctan2 at ha ⊢
  have := abs_add_le (A.arctan2 (M.fl (M.cos o' * M.sin l')) (M.cos l') -
    Complex.arg ⟨M.cos l', M.fl (M.cos o' * M.sin l')⟩)
    (Complex.arg ⟨M.cos l', M.fl (M.cos o' * M.sin l')⟩ -
      Complex.arg ⟨Real.cos l, Real.cos o * Real.sin l⟩ - n * (2 * Real.pi))
  rw [show A.arctan2 (M.fl (M.cos o' * M.sin l')) (M.cos l') -
    Complex.arg ⟨M.cos l', M.fl (M.cos o' * M.sin l')⟩ +
    (Complex.arg ⟨M.cos l', M.fl (M.cos o' * M.sin l')⟩ -
      Complex.arg ⟨Real.cos l, Real.cos o * Real.sin l⟩ - n * (2 * Real.pi)) =
    A.arctan2 (M.fl (M.cos o' * M.sin l')) (M.cos l') -
      Complex.arg ⟨Real.cos l, Real.cos o * Real.sin l⟩ - n * (2 * Real.pi) by ring] at this
  linarith

/-- The remainder of an angle by the computed full turn. -/
theorem fullTurn_close (S : Setup M pw u) {a X e : ℝ} (ha : |a| ≤ 3.2) {n : ℤ}
    (h : |a - X - n * (2 * Real.pi)| ≤ e * u) (h0 : 0 ≤ e) (he : e ≤ 10 ^ 9) :
    ∃ m : ℤ, Close u (e + 14 + e / 10 ^ 12) 6.289
      (Rounded.modulo M (2 * M.fl Real.pi) a) (fmod X (2 * Real.pi) + m * (2 * Real.pi)) := by
  have hp1 := Real.pi_gt_d2
  have hp2 := Real.pi_lt_d2
  have hu := S.acc.nonneg
  have hs := S.acc.small
  have hf := S.acc.fl Real.pi
  rw [abs_of_pos Real.pi_pos] at hf
  have hpu : u * Real.pi ≤ u * 3.15 := by gcongr
  have hf' := abs_le.1 hf
  set p := 2 * M.fl Real.pi with hp
  have hp3 : 6.27 ≤ p := by linarith
  have hr := fmod_range a (m := p) (by linarith)
  have hfl : ⌊a / p⌋ = 0 ∨ ⌊a / p⌋ = -1 := by
    have h1 : -1 ≤ a / p := by
      rw [le_div_iff₀ (by linarith)]
      have := (abs_le.1 ha).1
      linarith
    have h2 : a / p < 1 := by
      rw [div_lt_iff₀ (by linarith)]
      have := (abs_le.1 ha).2
      linarith
    have h3 : -1 ≤ ⌊a / p⌋ := Int.le_floor.2 (by exact_mod_cast h1)
    have h4 : ⌊a / p⌋ < 1 := Int.floor_lt.2 (by exact_mod_cast h2)
    omega
  have hq : |fmod a p - (a - (2 * Real.pi) * (⌊a / p⌋ : ℝ))| ≤ 6.3 * u := by
    unfold fmod
    rcases hfl with h | h
    · rw [h]
      norm_num
      linarith
    · rw [h]
      push_cast
      rw [show a - p * -1 - (a - 2 * Real.pi * -1) = 2 * (M.fl Real.pi - Real.pi) by rw [hp]; ring,
        abs_mul, abs_two]
      linarith
  refine ⟨n - ⌊a / p⌋ + ⌊X / (2 * Real.pi)⌋, ?_⟩
  have e1 : fmod X (2 * Real.pi) + ((n - ⌊a / p⌋ + ⌊X / (2 * Real.pi)⌋ : ℤ) : ℝ) * (2 * Real.pi) =
      X + n * (2 * Real.pi) - ⌊a / p⌋ * (2 * Real.pi) := by
    unfold fmod
    push_cast
    ring
  rw [e1]
  have h1 : |fmod a p - (X + n * (2 * Real.pi) - ⌊a / p⌋ * (2 * Real.pi))| ≤ (e + 6.3) * u := by
    have := abs_add_le (fmod a p - (a - (2 * Real.pi) * (⌊a / p⌋ : ℝ)))
      (a - X - n * (2 * Real.pi))
    rw [show fmod a p - (a - (2 * Real.pi) * (⌊a / p⌋ : ℝ)) + (a - X - n * (2 * Real.pi)) =
      fmod a p - (X + n * (2 * Real.pi) - ⌊a / p⌋ * (2 * Real.pi)) by ring] at this
    linarith
  have heu : e * u ≤ 0.001 := by
    calc e * u ≤ 10 ^ 9 * (1 / 10 ^ 12) := by gcongr
      _ = _ := by norm_num
  have h2 : |X + n * (2 * Real.pi) - ⌊a / p⌋ * (2 * Real.pi)| ≤ 6.289 := by
    have := abs_le.1 h1
    have hpi := Real.pi_lt_d4
    rw [abs_le]
    constructor <;> linarith
  exact ((Close.mk h1 h2).fl S.acc).mono hu (by linarith) le_rfl

theorem sunRightAscension_close (S : Setup M pw u) (hA : A.Accurate u)
    (hjd : |jd - 2451545| ≤ 36525) :
    ∃ m : ℤ, Close u 81300 6.289 (Rounded.sunRightAscension M pw A jd)
      (sunRightAscension jd + m * (2 * Real.pi)) := by
  obtain ⟨n, hn⟩ := sunDirection_close S hA hjd
  obtain ⟨m, hm⟩ := fullTurn_close S (n := n) (e := 81200) (by
    have h1 := hA.arctan2 (M.fl (M.cos (Rounded.degToRad M (Rounded.meanObliquity M pw jd)) *
        M.sin (Rounded.radians M (M.fl (Rounded.sunLongitude M pw jd +
          Rounded.sunCentre M pw jd)))))
        (M.cos (Rounded.radians M (M.fl (Rounded.sunLongitude M pw jd +
          Rounded.sunCentre M pw jd))))
    have h2 := Complex.abs_arg_le_pi
      ⟨M.cos (Rounded.radians M (M.fl (Rounded.sunLongitude M pw jd +
          Rounded.sunCentre M pw jd))),
        M.fl (M.cos (Rounded.degToRad M (Rounded.meanObliquity M pw jd)) *
        M.sin (Rounded.radians M (M.fl (Rounded.sunLongitude M pw jd +
          Rounded.sunCentre M pw jd))))⟩
    have h3 := abs_sub_abs_le_abs_sub (A.arctan2 _ _) (arctan2 _ _) |>.trans h1
    have h4 := Real.pi_lt_d2
    have h5 := S.acc.small
    unfold arctan2 at h3
    linarith) hn (by norm_num) (by norm_num)
  exact ⟨m, hm.mono S.acc.nonneg (by norm_num) le_rfl⟩

theorem hourScale_close (S : Setup M pw u) :
    Close u 9 3.8198 (M.fl (Rounded.radScale M / 15)) (12 / Real.pi) := by
  have h := (((radScale_close S).div (c := 15) (by norm_num)).fl S.acc)
  have hp := Real.pi_gt_d6
  rw [show 180 / Real.pi / 15 = 12 / Real.pi by ring] at h
  refine (h.mono S.acc.nonneg (l := 9) (C := 4) (by norm_num) (by norm_num)).resize ?_
  rw [abs_of_pos (by positivity), div_le_iff₀ Real.pi_pos]
  linarith

theorem sunHours_close (S : Setup M pw u) (hA : A.Accurate u) (hjd : |jd - 2451545| ≤ 36525) :
    HoursClose u 310700 (Rounded.sunHours M pw A jd) (sunHours jd) := by
  obtain ⟨m, hm⟩ := sunRightAscension_close S hA hjd
  refine ⟨m, ?_⟩
  have h := ((hm.mul S.acc (hourScale_close S) (by norm_num)).fl S.acc).mono S.acc.nonneg
    (l := 310700) (C := 25) (by norm_num) (by norm_num)
  rw [show (sunRightAscension jd + m * (2 * Real.pi)) * (12 / Real.pi) =
    sunRightAscension jd * (12 / Real.pi) + 24 * m by
      have := Real.pi_ne_zero
      field_simp
      ring] at h
  exact h

theorem lmst_close (S : Setup M pw u) (hA : A.Accurate u) (hjd : |jd - 2451545| ≤ 36525)
    (hlon : |lon| ≤ 360) :
    HoursClose u 312000 (Rounded.lmst M pw A jd lon) (lmst jd lon) := by
  obtain ⟨a, ha⟩ := meanHourAngle_close (jd := jd) S hlon
  obtain ⟨b, hb⟩ := sunHours_close S hA hjd
  have h := ((ha.add hb).fl S.acc).hours S.acc (by norm_num)
  rw [show meanHourAngle jd lon + 24 * (a : ℝ) + (sunHours jd + 24 * b) =
    meanHourAngle jd lon + sunHours jd + 24 * ((a + b : ℤ) : ℝ) by push_cast; ring,
    fmod_add_int _ _ (by norm_num)] at h
  exact h.mono S.acc.nonneg (by norm_num)

theorem last_close (S : Setup M pw u) (hA : A.Accurate u) (hjd : |jd - 2451545| ≤ 36525)
    (hlon : |lon| ≤ 360) :
    HoursClose u 312000 (Rounded.last M pw A jd lon) (last jd lon) := by
  obtain ⟨a, ha⟩ := meanSolarTime_close (jd := jd) (lon := 0) S (by norm_num)
  obtain ⟨b, hb⟩ := sunHours_close S hA hjd
  have h := ((((((((ha.sub (Close.exact (u := u) (X := 12) (B := 12) (by norm_num))).fl S.acc).add
    hb).fl S.acc).add (equinoxHours_close S hjd)).fl S.acc).add (longitudeHours_close S hlon)).fl S.acc).hours
    S.acc (by norm_num)
  rw [show meanSolarTime jd 0 + 24 * (a : ℝ) - 12 + (sunHours jd + 24 * b) +
      equationOfEquinoxes jd / 3600 + lon / 15 =
    meanSolarTime jd 0 - 12 + sunHours jd + equationOfEquinoxes jd / 3600 + lon / 15 +
      24 * ((a + b : ℤ) : ℝ) by push_cast; ring, fmod_add_int _ _ (by norm_num)] at h
  exact h.mono S.acc.nonneg (by norm_num)

end Celest.Frames
