/-
C44, C45: times of day and the Earth rotation angle.
-/
import Verif.TimeScale.Model
import Mathlib.Topology.Order.IntermediateValue
import Mathlib.Tactic.Linarith
import Mathlib.Tactic.Positivity
import Mathlib.Tactic.FieldSimp
import Mathlib.Tactic.Ring
import Mathlib.Tactic.NormNum

namespace Celest.TimeScale

/-! ### Remainders -/

theorem fmod_range (x m : ℝ) (hm : 0 < m) : 0 ≤ fmod x m ∧ fmod x m < m := by
  unfold fmod
  have h1 := Int.floor_le (x / m)
  have h2 := Int.lt_floor_add_one (x / m)
  rw [le_div_iff₀ hm] at h1
  rw [div_lt_iff₀ hm] at h2
  constructor <;> linarith

theorem fmod_add_int (x m : ℝ) (hm : 0 < m) (k : ℤ) : fmod (x + m * k) m = fmod x m := by
  unfold fmod
  have : (x + m * k) / m = x / m + k := by field_simp
  rw [this, Int.floor_add_intCast]
  push_cast
  ring

theorem fmod_eq (x m : ℝ) : ∃ k : ℤ, fmod x m = x + m * k :=
  ⟨-⌊x / m⌋, by unfold fmod; push_cast; ring⟩

theorem fmod_fmod_add (x y m : ℝ) (hm : 0 < m) : fmod (fmod x m + y) m = fmod (x + y) m := by
  obtain ⟨k, hk⟩ := fmod_eq x m
  rw [hk, show x + m * k + y = x + y + m * k by ring, fmod_add_int _ _ hm]

/-- A value in range is its own remainder. -/
theorem fmod_self (x m : ℝ) (h0 : 0 ≤ x) (h1 : x < m) : fmod x m = x := by
  have hm : 0 < m := lt_of_le_of_lt h0 h1
  unfold fmod
  have : ⌊x / m⌋ = 0 := by
    rw [Int.floor_eq_zero_iff]
    exact ⟨by positivity, by rwa [div_lt_one hm]⟩
  rw [this]; simp

/-- The two times differ by `h` hours, modulo whole days. -/
def HoursLater (a b h : ℝ) : Prop := ∃ k : ℤ, b = a + h + 24 * k

/-! ### C44 -/

/-- C44: every time of day except GAST lies in [0, 24) hours, at every instant and longitude. -/
theorem C44_range_partial (jd lon : ℝ) :
    (0 ≤ trueSolarTime jd lon ∧ trueSolarTime jd lon < 24) ∧
    (0 ≤ meanSolarTime jd lon ∧ meanSolarTime jd lon < 24) ∧
    (0 ≤ trueHourAngle jd lon ∧ trueHourAngle jd lon < 24) ∧
    (0 ≤ meanHourAngle jd lon ∧ meanHourAngle jd lon < 24) ∧
    (0 ≤ ut1 jd ∧ ut1 jd < 24) ∧ (0 ≤ gmst jd ∧ gmst jd < 24) ∧
    (0 ≤ lmst jd lon ∧ lmst jd lon < 24) ∧ (0 ≤ last jd lon ∧ last jd lon < 24) := by
  have h24 : (0 : ℝ) < 24 := by norm_num
  refine ⟨fmod_range _ _ h24, fmod_range _ _ h24, fmod_range _ _ h24, fmod_range _ _ h24,
    fmod_range _ _ h24, ?_, fmod_range _ _ h24, fmod_range _ _ h24⟩
  have := fmod_range (280.46 + 360.98564736629 * centuries jd * 36525 +
    0.000387933 * centuries jd ^ 2 - centuries jd ^ 3 / 38710000) 360 (by norm_num)
  unfold gmst
  simp only
  constructor <;> linarith [this.1, this.2]

/-- C44: moving `d` degrees east makes every local time `d / 15` hours later. -/
theorem C44_longitude_partial (jd lon d : ℝ) :
    HoursLater (trueSolarTime jd lon) (trueSolarTime jd (lon + d)) (d / 15) ∧
    HoursLater (meanSolarTime jd lon) (meanSolarTime jd (lon + d)) (d / 15) ∧
    HoursLater (trueHourAngle jd lon) (trueHourAngle jd (lon + d)) (d / 15) ∧
    HoursLater (meanHourAngle jd lon) (meanHourAngle jd (lon + d)) (d / 15) ∧
    HoursLater (lmst jd lon) (lmst jd (lon + d)) (d / 15) ∧
    HoursLater (last jd lon) (last jd (lon + d)) (d / 15) := by
  have key : ∀ x y : ℝ, (∃ k : ℤ, y = x + d / 15 + 24 * k) →
      HoursLater (fmod x 24) (fmod y 24) (d / 15) := by
    rintro x y ⟨k, rfl⟩
    obtain ⟨a, ha⟩ := fmod_eq x 24
    obtain ⟨b, hb⟩ := fmod_eq (x + d / 15 + 24 * k) 24
    exact ⟨b + k - a, by rw [ha, hb]; push_cast; ring⟩
  have h1 := key (utcHours jd + (lon + equationOfTime jd * (180 / Real.pi)) / 15)
    (utcHours jd + (lon + d + equationOfTime jd * (180 / Real.pi)) / 15)
    ⟨0, by push_cast; ring⟩
  have h2 := key (utcHours jd + lon / 15) (utcHours jd + (lon + d) / 15) ⟨0, by push_cast; ring⟩
  have h3 : HoursLater (trueHourAngle jd lon) (trueHourAngle jd (lon + d)) (d / 15) := by
    obtain ⟨k, hk⟩ := h1
    exact key _ _ ⟨k, by unfold trueSolarTime; rw [hk]; ring⟩
  have h4 : HoursLater (meanHourAngle jd lon) (meanHourAngle jd (lon + d)) (d / 15) := by
    obtain ⟨k, hk⟩ := h2
    exact key _ _ ⟨k, by unfold meanSolarTime; rw [hk]; ring⟩
  refine ⟨h1, h2, h3, h4, ?_, ?_⟩
  · obtain ⟨k, hk⟩ := h4
    exact key _ _ ⟨k, by rw [hk]; ring⟩
  · exact key _ _ ⟨0, by push_cast; ring⟩

/-- C44: a full turn of longitude changes no local time. -/
theorem C44_full_turn_partial (jd lon : ℝ) :
    trueSolarTime jd (lon + 360) = trueSolarTime jd lon ∧
    meanSolarTime jd (lon + 360) = meanSolarTime jd lon ∧
    trueHourAngle jd (lon + 360) = trueHourAngle jd lon ∧
    meanHourAngle jd (lon + 360) = meanHourAngle jd lon ∧
    lmst jd (lon + 360) = lmst jd lon ∧ last jd (lon + 360) = last jd lon := by
  have key : ∀ a b : ℝ, 0 ≤ a → a < 24 → 0 ≤ b → b < 24 → HoursLater a b (360 / 15) → b = a := by
    rintro a b a0 a1 b0 b1 ⟨k, hk⟩
    have h1 : (-2 : ℝ) < k := by linarith
    have h2 : (k : ℝ) < 0 := by linarith
    have h3 : k = -1 := by
      have : (-2 : ℤ) < k := by exact_mod_cast h1
      have : k < 0 := by exact_mod_cast h2
      omega
    rw [h3] at hk
    push_cast at hk
    linarith
  obtain ⟨a1, a2, a3, a4, a5, a6⟩ := C44_longitude_partial jd lon 360
  obtain ⟨b1, b2, b3, b4, -, -, b5, b6⟩ := C44_range_partial jd lon
  obtain ⟨c1, c2, c3, c4, -, -, c5, c6⟩ := C44_range_partial jd (lon + 360)
  exact ⟨key _ _ b1.1 b1.2 c1.1 c1.2 a1, key _ _ b2.1 b2.2 c2.1 c2.2 a2,
    key _ _ b3.1 b3.2 c3.1 c3.2 a3, key _ _ b4.1 b4.2 c4.1 c4.2 a4,
    key _ _ b5.1 b5.2 c5.1 c5.2 a5, key _ _ b6.1 b6.2 c6.1 c6.2 a6⟩

/-- At noon UTC (a whole Julian date) the mean sun is over Greenwich, and at 90 degrees east it
is six in the evening. -/
example : meanSolarTime 2451545 0 = 12 ∧ meanSolarTime 2451545 90 = 18 ∧
    meanHourAngle 2451545 0 = 0 := by
  have h0 : fmod 2451545 1 = 0 := by
    have := fmod_add_int 0 1 one_pos 2451545
    push_cast at this
    rw [zero_add, one_mul, fmod_self 0 1 le_rfl one_pos] at this
    exact this
  have h1 : meanSolarTime 2451545 0 = 12 := by
    unfold meanSolarTime utcHours
    rw [h0]
    have := fmod_add_int (-12) 24 (by norm_num) 1
    rw [show (24 * 0 - 12 + 0 / 15 : ℝ) = -12 by norm_num, ← this,
      show ((-12 : ℝ) + 24 * ((1 : ℤ) : ℝ)) = 12 by norm_num]
    exact fmod_self 12 24 (by norm_num) (by norm_num)
  refine ⟨h1, ?_, ?_⟩
  · unfold meanSolarTime utcHours
    rw [h0]
    have := fmod_add_int (-6) 24 (by norm_num) 1
    rw [show (24 * 0 - 12 + 90 / 15 : ℝ) = -6 by norm_num, ← this,
      show ((-6 : ℝ) + 24 * ((1 : ℤ) : ℝ)) = 18 by norm_num]
    exact fmod_self 18 24 (by norm_num) (by norm_num)
  · unfold meanHourAngle
    rw [h1, sub_self, fmod_self 0 24 le_rfl (by norm_num)]

theorem abs_mul_trig (c x : ℝ) (hx : |x| ≤ 1) : -|c| ≤ c * x ∧ c * x ≤ |c| := by
  have h : |c * x| ≤ |c| := by
    rw [abs_mul]
    calc |c| * |x| ≤ |c| * 1 := mul_le_mul_of_nonneg_left hx (abs_nonneg c)
      _ = |c| := mul_one _
  exact abs_le.1 h

/-- The equation of the equinoxes is less than 1.27 seconds of time. -/
theorem equinoxes_bound (jd : ℝ) : |equationOfEquinoxes jd| ≤ 1.264 := by
  unfold equationOfEquinoxes nutationComponents nutationInLongitude
  simp only
  have a1 := Real.abs_sin_le_one (rad (ascendingNode jd))
  have a2 := Real.abs_sin_le_one (2 * rad (sunLongitude jd))
  have a3 := Real.abs_sin_le_one (2 * rad (moonLongitude jd))
  have a4 := Real.abs_sin_le_one (2 * rad (ascendingNode jd))
  have c1 := Real.abs_cos_le_one (rad (apparentObliquity jd))
  rw [abs_le] at a1 a2 a3 a4
  have hb : |-17.20 * Real.sin (rad (ascendingNode jd)) + -1.32 * Real.sin (2 * rad (sunLongitude jd)) +
    -0.23 * Real.sin (2 * rad (moonLongitude jd)) + 0.21 * Real.sin (2 * rad (ascendingNode jd))|
      ≤ 18.96 := by
    rw [abs_le]; constructor <;> linarith [a1.1, a1.2, a2.1, a2.2, a3.1, a3.2, a4.1, a4.2]
  rw [abs_div, abs_mul, abs_of_pos (by norm_num : (0 : ℝ) < 15)]
  have := mul_le_mul hb c1 (abs_nonneg _) (by norm_num)
  rw [div_le_iff₀ (by norm_num)]
  linarith

/-- C44 for GAST: it is within a two-thousandth of an hour of GMST, so it lies in [0, 24)
whenever GMST is at least that far from midnight. -/
theorem C44_gast_partial (jd : ℝ) :
    |gast jd - gmst jd| < 0.0005 ∧
    (0.0005 ≤ gmst jd → gmst jd ≤ 23.9995 → 0 ≤ gast jd ∧ gast jd < 24) := by
  have h := equinoxes_bound jd
  have h' := abs_le.1 h
  unfold gast
  refine ⟨?_, fun h1 h2 => ⟨by linarith [h'.1], by linarith [h'.2]⟩⟩
  rw [add_sub_cancel_left, abs_div, abs_of_pos (by norm_num : (0 : ℝ) < 3600),
    div_lt_iff₀ (by norm_num)]
  linarith

/-- C44 fails for GAST: within the first 37 days of 2000 there is an instant at which the
Greenwich apparent sidereal time is negative. -/
theorem C44_gast_negative : ∃ jd : ℝ, 2451545 ≤ jd ∧ jd ≤ 2451545 + 36.525 ∧ gast jd < 0 := by
  obtain ⟨t, ⟨t0, t1⟩, ht⟩ : ∃ t ∈ Set.Icc (0 : ℝ) 0.001,
      280.46 + 360.98564736629 * t * 36525 + 0.000387933 * t ^ 2 - t ^ 3 / 38710000 = 360 := by
    have hc : ContinuousOn (fun t : ℝ => 280.46 + 360.98564736629 * t * 36525 +
        0.000387933 * t ^ 2 - t ^ 3 / 38710000) (Set.Icc 0 0.001) := by fun_prop
    have := intermediate_value_Icc (by norm_num : (0 : ℝ) ≤ 0.001) hc
    exact this ⟨by norm_num, by norm_num⟩
  refine ⟨2451545 + 36525 * t, by linarith, by linarith, ?_⟩
  have hcent : centuries (2451545 + 36525 * t) = t := by unfold centuries; ring
  have hg : gmst (2451545 + 36525 * t) = 0 := by
    unfold gmst
    simp only [hcent]
    rw [ht]
    have := fmod_add_int 0 360 (by norm_num) 1
    rw [fmod_self 0 360 le_rfl (by norm_num)] at this
    norm_num at this
    rw [this]; norm_num
  have ht2 : 0 ≤ t ^ 2 ∧ t ^ 2 ≤ 0.001 := by constructor <;> nlinarith
  have ht3 : 0 ≤ t ^ 3 ∧ t ^ 3 ≤ 0.001 := by
    constructor
    · positivity
    · calc t ^ 3 ≤ 0.001 ^ 3 := pow_le_pow_left₀ t0 t1 3
        _ ≤ 0.001 := by norm_num
  have hO : ∃ o, ascendingNode (2451545 + 36525 * t) = o ∧ 30 ≤ o ∧ o ≤ 150 := by
    refine ⟨_, rfl, ?_⟩
    unfold ascendingNode
    simp only [hcent]
    rw [fmod_self]
    · constructor <;> linarith [ht2.1, ht2.2, ht3.1, ht3.2]
    · linarith [ht2.1, ht2.2, ht3.1, ht3.2]
    · linarith [ht2.1, ht2.2, ht3.1, ht3.2]
  obtain ⟨o, ho, ho1, ho2⟩ := hO
  have hpi := Real.pi_pos
  have hsin : 1 / 2 ≤ Real.sin (rad o) := by
    have e : Real.sin (Real.pi / 6) = 1 / 2 := Real.sin_pi_div_six
    by_cases c : o ≤ 90
    · rw [← e]
      apply Real.sin_le_sin_of_le_of_le_pi_div_two
      · linarith
      · unfold rad; nlinarith
      · unfold rad; nlinarith
    · push Not at c
      rw [← e, ← Real.sin_pi_sub (rad o)]
      apply Real.sin_le_sin_of_le_of_le_pi_div_two
      · linarith
      · unfold rad; nlinarith
      · unfold rad; nlinarith
  set jd := 2451545 + 36525 * t with hjd
  have hpsi : (nutationComponents jd).1 < 0 := by
    unfold nutationComponents nutationInLongitude
    simp only [ho]
    have a2 := abs_le.1 (Real.abs_sin_le_one (2 * rad (sunLongitude jd)))
    have a3 := abs_le.1 (Real.abs_sin_le_one (2 * rad (moonLongitude jd)))
    have a4 := abs_le.1 (Real.abs_sin_le_one (2 * rad o))
    linarith [a2.1, a2.2, a3.1, a3.2, a4.1, a4.2]
  have hobl : -90 < apparentObliquity jd ∧ apparentObliquity jd < 90 := by
    have hm : 0 ≤ meanObliquity jd ∧ meanObliquity jd ≤ 30 := by
      unfold meanObliquity
      simp only [hcent]
      have hu0 : 0 ≤ t / 100 := by positivity
      have hu1 : t / 100 ≤ 1 := by linarith
      have hp : ∀ n : ℕ, 0 ≤ (t / 100) ^ n ∧ (t / 100) ^ n ≤ 1 := fun n =>
        ⟨pow_nonneg hu0 n, pow_le_one₀ hu0 hu1⟩
      have p2 := hp 2
      have p3 := hp 3
      have p4 := hp 4
      have p5 := hp 5
      have p6 := hp 6
      have p7 := hp 7
      have p8 := hp 8
      have p9 := hp 9
      have p10 := hp 10
      constructor
      · apply div_nonneg _ (by norm_num)
        linarith [p2.2, p3.1, p4.2, p5.2, p6.2, p7.1, p8.1, p9.1, p10.1]
      · rw [div_le_iff₀ (by norm_num)]
        linarith [p2.1, p3.2, p4.1, p5.1, p6.1, p7.2, p8.2, p9.2, p10.2]
    have hn : -10 ≤ (nutationComponents jd).2 ∧ (nutationComponents jd).2 ≤ 10 := by
      unfold nutationComponents nutationInObliquity
      simp only
      have a1 := abs_le.1 (Real.abs_cos_le_one (rad (ascendingNode jd)))
      have a2 := abs_le.1 (Real.abs_cos_le_one (2 * rad (sunLongitude jd)))
      have a3 := abs_le.1 (Real.abs_cos_le_one (2 * rad (moonLongitude jd)))
      have a4 := abs_le.1 (Real.abs_cos_le_one (2 * rad (ascendingNode jd)))
      constructor <;> linarith [a1.1, a1.2, a2.1, a2.2, a3.1, a3.2, a4.1, a4.2]
    unfold apparentObliquity
    constructor <;> linarith [hm.1, hm.2, hn.1, hn.2]
  have hcos : 0 < Real.cos (rad (apparentObliquity jd)) := by
    apply Real.cos_pos_of_mem_Ioo
    unfold rad
    constructor <;> nlinarith [hobl.1, hobl.2]
  unfold gast equationOfEquinoxes
  rw [hg, zero_add]
  have := mul_neg_of_neg_of_pos hpsi hcos
  apply div_neg_of_neg_of_pos _ (by norm_num)
  exact div_neg_of_neg_of_pos this (by norm_num)

/-! ### C45 -/

/-- C45: the Earth rotation angle lies in [0, 360) and between two instants advances by
360.9856123035484 degrees per day, modulo whole turns. -/
theorem C45_uniform_rotation (jd jd' : ℝ) :
    (0 ≤ earthRotationAngle jd ∧ earthRotationAngle jd < 360) ∧
    ∃ k : ℤ, earthRotationAngle jd' =
      earthRotationAngle jd + 360.9856123035484 * (jd' - jd) + 360 * k := by
  refine ⟨fmod_range _ _ (by norm_num), ?_⟩
  obtain ⟨a, ha⟩ := fmod_eq (360.9856123035484 * (jd - 2451545) + 280.46) 360
  obtain ⟨b, hb⟩ := fmod_eq (360.9856123035484 * (jd' - 2451545) + 280.46) 360
  refine ⟨b - a, ?_⟩
  unfold earthRotationAngle
  rw [ha, hb]
  push_cast
  ring

/-- At J2000 the angle is 280.46 degrees; after exactly one turn it is the same again. -/
example : earthRotationAngle 2451545 = 280.46 ∧
    earthRotationAngle (2451545 + 360 / 360.9856123035484) = 280.46 := by
  have h : earthRotationAngle 2451545 = 280.46 := by
    unfold earthRotationAngle
    rw [sub_self, mul_zero, zero_add, fmod_self _ _ (by norm_num) (by norm_num)]
  refine ⟨h, ?_⟩
  unfold earthRotationAngle
  have := fmod_add_int 280.46 360 (by norm_num) 1
  rw [fmod_self 280.46 360 (by norm_num) (by norm_num)] at this
  rw [show (360.9856123035484 * (2451545 + 360 / 360.9856123035484 - 2451545) + 280.46 : ℝ) =
    280.46 + 360 * ((1 : ℤ) : ℝ) by norm_num]
  exact this

end Celest.TimeScale
