/-
C44: Greenwich apparent sidereal time leaves [0, 24) on every day, not only on one.
-/
import Verif.TimeScale.Props
import Mathlib.Topology.Order.IntermediateValue
import Mathlib.Analysis.SpecialFunctions.Trigonometric.Basic
import Mathlib.Tactic.Linarith
import Mathlib.Tactic.NormNum

namespace Celest.TimeScale

/-! ### The sidereal angle before it is reduced -/

/-- The polynomial `gmst` reduces modulo 360. -/
private noncomputable def rawAngle (jd : ℝ) : ℝ :=
  280.46 + 360.98564736629 * centuries jd * 36525 + 0.000387933 * centuries jd ^ 2 -
    centuries jd ^ 3 / 38710000

private theorem gmst_eq (jd : ℝ) : gmst jd = fmod (rawAngle jd) 360 / 15 := rfl

private theorem rawAngle_continuous : Continuous rawAngle := by
  unfold rawAngle centuries
  fun_prop

/-- Within ten thousand years of 2000 the angle grows by more than 360 degrees a day. -/
private theorem rawAngle_grows (x y : ℝ) (hxy : x ≤ y) (hx : 2451545 - 3652500 ≤ x)
    (hy : y ≤ 2451545 + 3652500) : 360.9 * (y - x) ≤ rawAngle y - rawAngle x := by
  set s := centuries x with hs
  set t := centuries y with ht
  have s0 : -100 ≤ s := by rw [hs]; unfold centuries; linarith
  have t1 : t ≤ 100 := by rw [ht]; unfold centuries; linarith
  have st : s ≤ t := by rw [hs, ht]; unfold centuries; linarith
  have hd : y - x = 36525 * (t - s) := by rw [hs, ht]; unfold centuries; ring
  have e : rawAngle y - rawAngle x = (t - s) * (360.98564736629 * 36525 +
      0.000387933 * (t + s) - (t ^ 2 + t * s + s ^ 2) / 38710000) := by
    unfold rawAngle; rw [← hs, ← ht]; ring
  have q : t ^ 2 + t * s + s ^ 2 ≤ 30000 := by nlinarith
  rw [e, hd]
  have : 360.9 * 36525 ≤ 360.98564736629 * 36525 + 0.000387933 * (t + s) -
      (t ^ 2 + t * s + s ^ 2) / 38710000 := by linarith
  have := mul_le_mul_of_nonneg_left this (sub_nonneg.2 st)
  linarith

/-! ### The equation of the equinoxes is continuous -/

theorem sin_rad_fmod (x : ℝ) : Real.sin (rad (fmod x 360)) = Real.sin (rad x) := by
  obtain ⟨k, hk⟩ := fmod_eq x 360
  rw [hk, show rad (x + 360 * k) = rad x + k * (2 * Real.pi) by unfold rad; ring,
    Real.sin_add_int_mul_two_pi]

theorem cos_rad_fmod (x : ℝ) : Real.cos (rad (fmod x 360)) = Real.cos (rad x) := by
  obtain ⟨k, hk⟩ := fmod_eq x 360
  rw [hk, show rad (x + 360 * k) = rad x + k * (2 * Real.pi) by unfold rad; ring,
    Real.cos_add_int_mul_two_pi]

private theorem equinoxes_continuous : Continuous equationOfEquinoxes := by
  have e : equationOfEquinoxes = fun jd => equationOfEquinoxes jd := rfl
  rw [e]
  unfold equationOfEquinoxes apparentObliquity nutationComponents nutationInLongitude
    nutationInObliquity ascendingNode meanObliquity sunLongitude moonLongitude
  simp only [Real.sin_two_mul, Real.cos_two_mul, sin_rad_fmod, cos_rad_fmod]
  unfold rad centuries
  fun_prop

/-! ### Its sign -/

/-- Within ten thousand years of 2000 the apparent obliquity is less than a right angle. -/
private theorem cos_obliquity_pos (jd : ℝ) (h0 : 2451545 - 3652500 ≤ jd)
    (h1 : jd ≤ 2451545 + 3652500) : 0 < Real.cos (rad (apparentObliquity jd)) := by
  set U := centuries jd / 100 with hU
  have u : |U| ≤ 1 := by
    rw [hU, abs_le]; unfold centuries; constructor <;> linarith
  have hp : ∀ n : ℕ, |U ^ n| ≤ 1 := fun n => by
    rw [abs_pow]; exact pow_le_one₀ (abs_nonneg _) u
  have p1 := abs_le.1 u
  have p2 := abs_le.1 (hp 2)
  have p3 := abs_le.1 (hp 3)
  have p4 := abs_le.1 (hp 4)
  have p5 := abs_le.1 (hp 5)
  have p6 := abs_le.1 (hp 6)
  have p7 := abs_le.1 (hp 7)
  have p8 := abs_le.1 (hp 8)
  have p9 := abs_le.1 (hp 9)
  have p10 := abs_le.1 (hp 10)
  have hm : 20 ≤ meanObliquity jd ∧ meanObliquity jd ≤ 26 := by
    unfold meanObliquity
    simp only [← hU]
    constructor
    · rw [le_div_iff₀ (by norm_num)]
      linarith [p1.2, p2.2, p3.1, p4.2, p5.2, p6.2, p7.1, p8.1, p9.1, p10.1]
    · rw [div_le_iff₀ (by norm_num)]
      linarith [p1.1, p2.1, p3.2, p4.1, p5.1, p6.1, p7.2, p8.2, p9.2, p10.2]
  have hn : -10 ≤ (nutationComponents jd).2 ∧ (nutationComponents jd).2 ≤ 10 := by
    unfold nutationComponents nutationInObliquity
    simp only
    have a1 := abs_le.1 (Real.abs_cos_le_one (rad (ascendingNode jd)))
    have a2 := abs_le.1 (Real.abs_cos_le_one (2 * rad (sunLongitude jd)))
    have a3 := abs_le.1 (Real.abs_cos_le_one (2 * rad (moonLongitude jd)))
    have a4 := abs_le.1 (Real.abs_cos_le_one (2 * rad (ascendingNode jd)))
    constructor <;> linarith [a1.1, a1.2, a2.1, a2.2, a3.1, a3.2, a4.1, a4.2]
  have ho : -90 < apparentObliquity jd ∧ apparentObliquity jd < 90 := by
    unfold apparentObliquity
    constructor <;> linarith [hm.1, hm.2, hn.1, hn.2]
  have hpi := Real.pi_pos
  apply Real.cos_pos_of_mem_Ioo
  constructor
  · unfold rad; nlinarith [ho.1]
  · unfold rad; nlinarith [ho.2]

/-- The sign of the equation of the equinoxes is opposite to the sine of the moon's node. -/
private theorem equinoxes_sign (jd : ℝ) (h0 : 2451545 - 3652500 ≤ jd)
    (h1 : jd ≤ 2451545 + 3652500) :
    (0.1 ≤ Real.sin (rad (ascendingNode jd)) → equationOfEquinoxes jd < 0) ∧
    (Real.sin (rad (ascendingNode jd)) ≤ -0.1 → 0 < equationOfEquinoxes jd) := by
  have c := cos_obliquity_pos jd h0 h1
  have a2 := abs_le.1 (Real.abs_sin_le_one (2 * rad (sunLongitude jd)))
  have a3 := abs_le.1 (Real.abs_sin_le_one (2 * rad (moonLongitude jd)))
  have a4 := abs_le.1 (Real.abs_cos_le_one (rad (ascendingNode jd)))
  set z := Real.sin (rad (ascendingNode jd)) with hz
  set w := Real.cos (rad (ascendingNode jd)) with hw
  have e : (nutationComponents jd).1 = -17.20 * z + -1.32 * Real.sin (2 * rad (sunLongitude jd)) +
      -0.23 * Real.sin (2 * rad (moonLongitude jd)) + 0.42 * (z * w) := by
    unfold nutationComponents nutationInLongitude
    simp only
    rw [Real.sin_two_mul (rad (ascendingNode jd))]
    ring
  unfold equationOfEquinoxes
  constructor
  · intro h
    have q : z * w ≤ z * 1 := mul_le_mul_of_nonneg_left a4.2 (by linarith)
    have : (nutationComponents jd).1 < 0 := by rw [e]; linarith [a2.1, a3.1]
    have := mul_neg_of_neg_of_pos this c
    linarith
  · intro h
    have q : z * 1 ≤ z * w := mul_le_mul_of_nonpos_left a4.2 (by linarith)
    have : 0 < (nutationComponents jd).1 := by rw [e]; linarith [a2.2, a3.2]
    have := mul_pos this c
    linarith

/-! ### C44 -/

/-- C44 fails for GAST on every day: within ten thousand years of 2000, every stretch of one day
contains an instant of sidereal midnight (GMST exactly zero), and around that instant GAST leaves
[0, 24).  If the equation of the equinoxes is negative there, GAST is negative at that instant; if
it is positive, GAST is 24 or more shortly before. -/
theorem C44_gast_leaves_every_day (day : ℝ) (h0 : 2451545 - 3652500 ≤ day)
    (h1 : day + 1 ≤ 2451545 + 3652500) :
    ∃ midnight, day < midnight ∧ midnight ≤ day + 1 ∧ gmst midnight = 0 ∧
      (equationOfEquinoxes midnight < 0 → gast midnight < 0) ∧
      (0 < equationOfEquinoxes midnight →
        ∃ jd, day < jd ∧ jd < midnight ∧ 24 ≤ gast jd) := by
  set n : ℤ := ⌊rawAngle day / 360⌋ + 1 with hn
  have f1 := Int.floor_le (rawAngle day / 360)
  have f2 := Int.lt_floor_add_one (rawAngle day / 360)
  rw [le_div_iff₀ (by norm_num)] at f1
  rw [div_lt_iff₀ (by norm_num)] at f2
  have n1 : rawAngle day < 360 * n := by rw [hn]; push_cast; linarith
  have n2 : (360 : ℝ) * n ≤ rawAngle day + 360 := by rw [hn]; push_cast; linarith
  have g := rawAngle_grows day (day + 1) (by linarith) h0 h1
  obtain ⟨m, ⟨m0, m1⟩, hm⟩ := intermediate_value_Icc (by linarith : day ≤ day + 1)
    rawAngle_continuous.continuousOn (show (360 : ℝ) * n ∈ Set.Icc (rawAngle day)
      (rawAngle (day + 1)) from ⟨n1.le, by linarith⟩)
  have md : day < m := lt_of_le_of_ne m0 (fun h => by rw [← h] at hm; linarith)
  have hg : gmst m = 0 := by
    rw [gmst_eq, hm]
    have := fmod_add_int 0 360 (by norm_num) n
    rw [fmod_self 0 360 le_rfl (by norm_num), zero_add] at this
    rw [this]; norm_num
  refine ⟨m, md, m1, hg, fun h => ?_, fun h => ?_⟩
  · unfold gast; rw [hg]; linarith
  · set E := equationOfEquinoxes m with hE
    have c1 : ∀ᶠ x in nhds m, E / 2 < equationOfEquinoxes x :=
      equinoxes_continuous.continuousAt.eventually (lt_mem_nhds (by rw [← hE]; linarith))
    have c2 : ∀ᶠ x in nhds m, 360 * n - min 360 (E / 480) < rawAngle x := by
      refine rawAngle_continuous.continuousAt.eventually (lt_mem_nhds ?_)
      rw [hm]
      have : 0 < min 360 (E / 480) := lt_min (by norm_num) (by linarith)
      linarith
    have c3 : ∀ᶠ x in nhds m, day < x := lt_mem_nhds md
    obtain ⟨ε, e0, hε⟩ := Metric.eventually_nhds_iff.1 (c1.and (c2.and c3))
    obtain ⟨k1, k2, k3⟩ := hε (y := m - ε / 2) (by
      rw [Real.dist_eq, show m - ε / 2 - m = -(ε / 2) by ring, abs_neg, abs_of_pos (by linarith)]
      linarith)
    refine ⟨m - ε / 2, k3, by linarith, ?_⟩
    have gr := rawAngle_grows (m - ε / 2) m (by linarith) (by linarith) (by linarith)
    have l1 := min_le_left 360 (E / 480)
    have l2 := min_le_right 360 (E / 480)
    have hf : fmod (rawAngle (m - ε / 2)) 360 = rawAngle (m - ε / 2) - 360 * (n - 1) := by
      have := fmod_add_int (rawAngle (m - ε / 2) - 360 * (n - 1)) 360 (by norm_num) (n - 1)
      rw [fmod_self (rawAngle (m - ε / 2) - 360 * (n - 1)) 360 (by linarith) (by linarith)] at this
      rw [← this]
      congr 1
      push_cast
      ring
    unfold gast
    rw [gmst_eq, hf]
    linarith

/-- C44 fails for GAST on every day of the eight or so years in each nodal cycle when the longitude
of the moon's ascending node has a sine of at least 0.1: there is an instant of negative GAST.  On
every day of the eight or so years when that sine is at most -0.1 there is an instant at which GAST
is 24 or more. -/
theorem C44_gast_by_node (day : ℝ) (h0 : 2451545 - 3652500 ≤ day)
    (h1 : day + 1 ≤ 2451545 + 3652500) :
    ((∀ jd, day < jd → jd ≤ day + 1 → 0.1 ≤ Real.sin (rad (ascendingNode jd))) →
      ∃ jd, day < jd ∧ jd ≤ day + 1 ∧ gast jd < 0) ∧
    ((∀ jd, day < jd → jd ≤ day + 1 → Real.sin (rad (ascendingNode jd)) ≤ -0.1) →
      ∃ jd, day < jd ∧ jd ≤ day + 1 ∧ 24 ≤ gast jd) := by
  obtain ⟨m, m0, m1, -, hn, hp⟩ := C44_gast_leaves_every_day day h0 h1
  have s := equinoxes_sign m (by linarith) (by linarith)
  refine ⟨fun h => ⟨m, m0, m1, hn (s.1 (h m m0 m1))⟩, fun h => ?_⟩
  obtain ⟨jd, j0, j1, hj⟩ := hp (s.2 (h m m0 m1))
  exact ⟨jd, j0, by linarith, hj⟩

/-- The first day of 2000, with the node at 125 degrees, is such a day. -/
example : ∃ jd : ℝ, 2451545 < jd ∧ jd ≤ 2451545 + 1 ∧ gast jd < 0 := by
  refine (C44_gast_by_node 2451545 (by norm_num) (by norm_num)).1 fun jd j0 j1 => ?_
  have t0 : 0 ≤ centuries jd := by unfold centuries; linarith
  have t1 : centuries jd ≤ 0.0001 := by unfold centuries; linarith
  set t := centuries jd with ht
  have q2 : 0 ≤ t ^ 2 ∧ t ^ 2 ≤ 0.001 := by constructor <;> nlinarith
  have q3 : 0 ≤ t ^ 3 ∧ t ^ 3 ≤ 0.001 :=
    ⟨by positivity, (pow_le_pow_left₀ t0 t1 3).trans (by norm_num)⟩
  have o : 120 ≤ ascendingNode jd ∧ ascendingNode jd ≤ 150 := by
    unfold ascendingNode
    simp only [← ht]
    rw [fmod_self _ _ (by linarith [q2.1, q3.1]) (by linarith [q2.2, q3.2])]
    constructor <;> linarith [q2.1, q2.2, q3.1, q3.2]
  have hpi := Real.pi_pos
  have e : Real.sin (Real.pi / 6) = 1 / 2 := Real.sin_pi_div_six
  have : Real.sin (Real.pi / 6) ≤ Real.sin (rad (ascendingNode jd)) := by
    rw [← Real.sin_pi_sub (rad (ascendingNode jd))]
    apply Real.sin_le_sin_of_le_of_le_pi_div_two
    · linarith
    · unfold rad; nlinarith [o.1]
    · unfold rad; nlinarith [o.2]
  linarith

end Celest.TimeScale
