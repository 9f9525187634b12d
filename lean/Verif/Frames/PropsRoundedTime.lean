/-
C124: the time scales of celest/time.py computed in floating-point arithmetic.
-/
import Verif.Frames.LemmasRoundedTime
import Verif.Frames.PropsRoundedAngles

namespace Celest.Frames

open Celest.TimeScale

variable {M : Machine} {pw : ℝ → ℕ → ℝ} {A : Trig} {jd lon u : ℝ}

/-- On a dial of 24 hours the hands at `x` and `y` are at most `e` hours apart. -/
def WithinHours (e x y : ℝ) : Prop := ∃ n : ℤ, |x - y - 24 * n| ≤ e

theorem Close.withinHours {k B x X : ℝ} {n : ℤ} (h : Close u k B x (X + 24 * n)) :
    WithinHours (k * u) x X :=
  ⟨n, by rw [sub_sub]; exact h.err⟩

/-- C124: within a century of J2000 and for longitudes up to a full turn, every time scale computed
by a machine of unit roundoff `u` is off by at most the stated multiple of `u` hours. -/
theorem C124_error_partial (S : Setup M pw u) (hA : A.Accurate u) (hjd : |jd - 2451545| ≤ 36525)
    (hlon : |lon| ≤ 360) :
    WithinHours (175 * u) (Rounded.ut1 M jd) (ut1 jd) ∧
    WithinHours (175 * u) (Rounded.meanSolarTime M jd lon) (meanSolarTime jd lon) ∧
    WithinHours (240 * u) (Rounded.meanHourAngle M jd lon) (meanHourAngle jd lon) ∧
    WithinHours (20000 * u) (Rounded.trueSolarTime M pw A jd lon) (trueSolarTime jd lon) ∧
    WithinHours (20100 * u) (Rounded.trueHourAngle M pw A jd lon) (trueHourAngle jd lon) ∧
    WithinHours (312000 * u) (Rounded.lmst M pw A jd lon) (lmst jd lon) ∧
    WithinHours (312000 * u) (Rounded.last M pw A jd lon) (last jd lon) ∧
    WithinHours (2.1 * 10 ^ 7 * u) (Rounded.gmst M pw jd) (gmst jd) ∧
    WithinHours (2.11 * 10 ^ 7 * u) (Rounded.gast M pw jd) (gast jd) :=
  ⟨(meanSolarTime_close (lon := 0) S (by norm_num)).choose_spec.withinHours,
    (meanSolarTime_close S hlon).choose_spec.withinHours,
    (meanHourAngle_close S hlon).choose_spec.withinHours,
    (trueSolarTime_close S hA hjd hlon).choose_spec.withinHours,
    (trueHourAngle_close S hA hjd hlon).choose_spec.withinHours,
    (lmst_close S hA hjd hlon).choose_spec.withinHours,
    (last_close S hA hjd hlon).choose_spec.withinHours,
    (gmst_close S hjd).choose_spec.withinHours,
    (gast_close S hjd).choose_spec.withinHours⟩

/-- `x` and `y`, in hours, are at most `s` seconds apart on a dial of 24 hours. -/
def WithinSeconds (s x y : ℝ) : Prop := WithinHours (s / 3600) x y

theorem WithinHours.seconds {e s x y : ℝ} (h : WithinHours e x y) (hs : e ≤ s / 3600) :
    WithinSeconds s x y := by
  obtain ⟨n, hn⟩ := h
  exact ⟨n, hn.trans hs⟩

/-- C124 in double precision: mean times to a tenth of a nanosecond, true solar times to ten
nanoseconds, local sidereal times to a fifth of a microsecond, Greenwich sidereal times to ten
microseconds. -/
theorem C124_ten_microseconds_partial (S : Setup M pw (1 / 2 ^ 53)) (hA : A.Accurate (1 / 2 ^ 53))
    (hjd : |jd - 2451545| ≤ 36525) (hlon : |lon| ≤ 360) :
    WithinSeconds (1 / 10 ^ 10) (Rounded.ut1 M jd) (ut1 jd) ∧
    WithinSeconds (1 / 10 ^ 10) (Rounded.meanSolarTime M jd lon) (meanSolarTime jd lon) ∧
    WithinSeconds (1 / 10 ^ 10) (Rounded.meanHourAngle M jd lon) (meanHourAngle jd lon) ∧
    WithinSeconds (10 / 10 ^ 9) (Rounded.trueSolarTime M pw A jd lon) (trueSolarTime jd lon) ∧
    WithinSeconds (10 / 10 ^ 9) (Rounded.trueHourAngle M pw A jd lon) (trueHourAngle jd lon) ∧
    WithinSeconds (0.2 / 10 ^ 6) (Rounded.lmst M pw A jd lon) (lmst jd lon) ∧
    WithinSeconds (0.2 / 10 ^ 6) (Rounded.last M pw A jd lon) (last jd lon) ∧
    WithinSeconds (10 / 10 ^ 6) (Rounded.gmst M pw jd) (gmst jd) ∧
    WithinSeconds (10 / 10 ^ 6) (Rounded.gast M pw jd) (gast jd) := by
  obtain ⟨a, b, c, d, e, f, g, h, i⟩ := C124_error_partial S hA hjd hlon
  exact ⟨a.seconds (by norm_num), b.seconds (by norm_num), c.seconds (by norm_num),
    d.seconds (by norm_num), e.seconds (by norm_num), f.seconds (by norm_num),
    g.seconds (by norm_num), h.seconds (by norm_num), i.seconds (by norm_num)⟩

/-! ### Ranges -/

/-- Rounding a number between zero and an integer stays between them. -/
theorem roundReal_range {y : ℝ} {c : ℕ} (h0 : 0 ≤ y) (hy : y ≤ c) (hc : c < 2 ^ 53) :
    0 ≤ roundReal 53 y ∧ roundReal 53 y ≤ c := by
  rcases h0.eq_or_lt with rfl | hpos
  · rw [roundReal_zero]
    exact ⟨le_rfl, by positivity⟩
  have hy53 : y < (2 : ℝ) ^ (53 : ℤ) := lt_of_le_of_lt hy (by exact_mod_cast hc)
  have hl : Int.log 2 y < 53 :=
    (Int.lt_zpow_iff_log_lt (b := 2) (by norm_num) hpos).1 (by simpa using hy53)
  unfold roundReal
  rw [abs_of_pos hpos]
  set e := Int.log 2 y + 1 - ((53 : ℕ) : ℤ) with he
  have he0 : e ≤ 0 := by push_cast at he; omega
  have hg : (0 : ℝ) < 2 ^ e := zpow_pos (by norm_num) _
  obtain ⟨j, hj⟩ : ∃ j : ℕ, e = -(j : ℤ) := ⟨(-e).toNat, by omega⟩
  have hN : (c : ℝ) / 2 ^ e = ((c * 2 ^ j : ℤ) : ℝ) := by
    rw [hj, zpow_neg, div_inv_eq_mul, zpow_natCast]
    push_cast
    rfl
  have hle : y / 2 ^ e ≤ ((c * 2 ^ j : ℤ) : ℝ) := by
    rw [← hN]
    gcongr
  have hnn : 0 ≤ ⌊y / 2 ^ e⌋ := Int.floor_nonneg.2 (by positivity)
  have hfl := Int.floor_le (y / 2 ^ e)
  have hfN : ⌊y / 2 ^ e⌋ ≤ c * 2 ^ j := by exact_mod_cast hfl.trans hle
  have key : 0 ≤ nearestEvenReal (y / 2 ^ e) ∧ nearestEvenReal (y / 2 ^ e) ≤ c * 2 ^ j := by
    unfold nearestEvenReal
    rcases hfN.eq_or_lt with h | h
    · rw [if_pos (by rw [h]; push_cast at hle ⊢; linarith)]
      exact ⟨hnn, hfN⟩
    · split_ifs <;> constructor <;> omega
  constructor
  · have : (0 : ℝ) ≤ nearestEvenReal (y / 2 ^ e) := by exact_mod_cast key.1
    positivity
  · have : (nearestEvenReal (y / 2 ^ e) : ℝ) ≤ ((c * 2 ^ j : ℤ) : ℝ) := by exact_mod_cast key.2
    rw [← hN, le_div_iff₀ hg] at this
    exact this

theorem modulo24_range (x : ℝ) :
    0 ≤ Rounded.modulo binary64 24 x ∧ Rounded.modulo binary64 24 x ≤ 24 := by
  have h := fmod_range x (m := 24) (by norm_num)
  exact_mod_cast roundReal_range (c := 24) h.1 (by exact_mod_cast h.2.le) (by norm_num)

/-- C124: whatever the date and the longitude, double precision puts every reduced time between 0
and 24 hours, both included. -/
theorem C124_range_partial (jd lon : ℝ) (pw : ℝ → ℕ → ℝ) (A : Trig) :
    Rounded.ut1 binary64 jd ∈ Set.Icc 0 24 ∧
    Rounded.meanSolarTime binary64 jd lon ∈ Set.Icc 0 24 ∧
    Rounded.meanHourAngle binary64 jd lon ∈ Set.Icc 0 24 ∧
    Rounded.trueSolarTime binary64 pw A jd lon ∈ Set.Icc 0 24 ∧
    Rounded.trueHourAngle binary64 pw A jd lon ∈ Set.Icc 0 24 ∧
    Rounded.lmst binary64 pw A jd lon ∈ Set.Icc 0 24 ∧
    Rounded.last binary64 pw A jd lon ∈ Set.Icc 0 24 ∧
    Rounded.gmst binary64 pw jd ∈ Set.Icc 0 24 := by
  refine ⟨modulo24_range _, modulo24_range _, modulo24_range _, modulo24_range _, modulo24_range _,
    modulo24_range _, modulo24_range _, ?_⟩
  unfold Rounded.gmst
  dsimp only
  generalize binary64.fl (_ - _) = x
  have h := fmod_range x (m := 360) (by norm_num)
  have h1 := roundReal_range (c := 360) h.1 (by exact_mod_cast h.2.le) (by norm_num)
  push_cast at h1
  have h2 := roundReal_range (c := 24) (y := roundReal 53 (fmod x 360) / 15)
    (by have := h1.1; positivity) (by push_cast; linarith [h1.2]) (by norm_num)
  exact_mod_cast h2

theorem round_below_24 {v : ℝ} (h0 : v < 0) (h1 : -1 / 2 ^ 49 < v) : roundReal 53 (24 + v) = 24 := by
  have := roundReal_eq (p := 53) (24 + v) 4 (24 * 2 ^ 48) (by norm_num at *; linarith)
    (by norm_num at *; linarith) (by norm_num at *; rw [abs_lt]; constructor <;> linarith)
  rw [this]
  norm_num

/-- C124: at midnight universal time, just west of Greenwich, the mean solar time is given as 24
hours: results are not always less than 24. -/
theorem C124_twenty_four (hjd : fmod jd 1 = 1 / 2) (h0 : lon < 0) (h1 : -1 / 2 ^ 47 ≤ lon) :
    Rounded.meanSolarTime binary64 jd lon = 24 ∧ meanSolarTime jd lon < 24 := by
  have hu : Rounded.utcHours binary64 jd = 0 := by
    unfold Rounded.utcHours Rounded.modulo
    rw [hjd]
    show roundReal 53 (roundReal 53 (24 * roundReal 53 (1 / 2)) - 12) = 0
    rw [show (1 / 2 : ℝ) = ((1 / 2 : ℚ) : ℝ) by norm_num, roundReal_cast,
      show binaryRound 53 (1 / 2) = 1 / 2 by decide +kernel,
      show (24 : ℝ) * ((1 / 2 : ℚ) : ℝ) = ((12 : ℤ) : ℝ) by norm_num, roundReal_int _ (by norm_num)]
    norm_num [roundReal_zero]
  have neg : ∀ {x : ℝ}, x < 0 → roundReal 53 x < 0 ∧ 1.01 * x ≤ roundReal 53 x := by
    intro x hx
    have h := roundReal_error (p := 53) x
    rw [abs_of_neg hx] at h
    have h := abs_le.1 h
    norm_num at h ⊢
    constructor <;> linarith [h.1, h.2]
  obtain ⟨a1, a2⟩ := neg (x := lon / 15) (by linarith)
  obtain ⟨b1, b2⟩ := neg a1
  set v := roundReal 53 (roundReal 53 (lon / 15)) with hv
  have hv1 : -1 / 2 ^ 49 < v := by norm_num at *; linarith
  refine ⟨?_, (fmod_range _ (by norm_num)).2⟩
  unfold Rounded.meanSolarTime Rounded.modulo
  rw [hu]
  show roundReal 53 (fmod (roundReal 53 (0 + roundReal 53 (lon / 15))) 24) = 24
  rw [zero_add, ← hv]
  have hf : fmod v 24 = 24 + v := by
    unfold fmod
    have : ⌊v / 24⌋ = -1 := by
      rw [Int.floor_eq_iff]
      norm_num at *
      constructor <;> linarith
    rw [this]
    push_cast
    ring
  rw [hf]
  exact round_below_24 b1 hv1

/-! ### Double precision meets the assumptions -/

/-- Correctly rounded tangents and `arctan2`. -/
noncomputable def trig64 : Trig where
  tan x := roundReal 53 (Real.tan x)
  arctan2 y x := roundReal 53 (arctan2 y x)

theorem trig64_accurate : trig64.Accurate (1 / 2 ^ 53) where
  tan x hx := by
    have h1 := roundReal_error (p := 53) (Real.tan x)
    have h2 : |Real.tan x| ≤ 2 := by
      have hp := Real.pi_pos
      obtain ⟨a, b⟩ := abs_le.1 hx
      have m := Real.strictMonoOn_tan.monotoneOn
      have h3 := m (a := x) (b := Real.pi / 4) ⟨by linarith, by linarith⟩
        ⟨by linarith, by linarith⟩ b
      have h4 := m (a := -(Real.pi / 4)) (b := x) ⟨by linarith, by linarith⟩
        ⟨by linarith, by linarith⟩ a
      rw [Real.tan_pi_div_four] at h3
      rw [Real.tan_neg, Real.tan_pi_div_four] at h4
      rw [abs_le]
      constructor <;> linarith
    refine h1.trans ?_
    norm_num at h2 ⊢
    linarith
  arctan2 y x := by
    have h1 := roundReal_error (p := 53) (arctan2 y x)
    have h2 : |arctan2 y x| ≤ 4 := (Complex.abs_arg_le_pi _).trans Real.pi_le_four
    refine h1.trans ?_
    norm_num at h2 ⊢
    linarith

example : WithinSeconds (0.2 / 10 ^ 6) (Rounded.lmst binary64 power64 trig64 2460311.25 (-113.5))
    (lmst 2460311.25 (-113.5)) :=
  (C124_ten_microseconds_partial binary64_setup trig64_accurate (by norm_num [abs_le])
    (by norm_num [abs_le])).2.2.2.2.2.1

example : Rounded.meanSolarTime binary64 2451545.5 (-1 / 2 ^ 60) = 24 :=
  (C124_twenty_four (by
    unfold fmod
    have : ⌊(2451545.5 : ℝ) / 1⌋ = 2451545 := by
      rw [Int.floor_eq_iff]
      norm_num
    rw [this]
    norm_num) (by norm_num) (by norm_num)).1

end Celest.Frames
