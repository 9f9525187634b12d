/-
Lemmas for C130: the error of the azimuth computed in floating-point arithmetic.
-/
import Verif.Frames.RoundedAzimuth
import Verif.Frames.LemmasRoundedStation
import Verif.Frames.LemmasRoundedAltitude
import Verif.Frames.LemmasRoundedAttitude
import Verif.Frames.PropsTrack

namespace Celest.Frames

open Celest.TimeScale Matrix

variable {M : Machine} {pw : ℝ → ℕ → ℝ} {u : ℝ}

/-- Squares. -/
theorem Close.sqr {k B x X : ℝ} (h : Close u k B x X) (S : Setup M pw u) (hk0 : 0 ≤ k)
    (hk : k ≤ 10 ^ 10 * B) : Close u (2.2 * k * B + 3 * B ^ 2) (B ^ 2) (pw x 2) (X ^ 2) := by
  have hu := S.acc.nonneg
  have hs := S.acc.small
  have hB : 0 ≤ B := (abs_nonneg _).trans h.size
  have hku : k * u ≤ 0.1 * B := by
    have : k * u ≤ 10 ^ 10 * B * (1 / 10 ^ 12) := mul_le_mul hk hs hu (by positivity)
    linarith
  have hx := h.abs_le
  have hx' : |x| ≤ 1.1 * B := by linarith
  have hp := S.pow x 2
  constructor
  · have h1 : |x ^ 2 - X ^ 2| ≤ k * u * (2.1 * B) := by
      rw [show x ^ 2 - X ^ 2 = (x - X) * (x + X) by ring, abs_mul]
      refine mul_le_mul h.err ?_ (abs_nonneg _) (by positivity)
      have := abs_add_le x X
      have := h.size
      linarith
    have h2 : |x ^ 2| ≤ 1.21 * B ^ 2 := by
      rw [abs_pow]
      calc |x| ^ 2 ≤ (1.1 * B) ^ 2 := by gcongr
        _ = _ := by ring
    have h3 := abs_sub_le (pw x 2) (x ^ 2) (X ^ 2)
    have h4 : 2 * u * |x ^ 2| ≤ 2 * u * (1.21 * B ^ 2) := by gcongr
    have h5 : 0 ≤ k * u * B := by positivity
    have h6 : 0 ≤ u * B ^ 2 := by positivity
    push_cast at hp
    linarith
  · rw [abs_pow]
    exact pow_le_pow_left₀ (abs_nonneg _) h.size 2

/-- A small absolute error of a number that is not small is a small relative error. -/
theorem Close.near {k B m x X : ℝ} (h : Close u k B x X) (hm : 0 < m) (hX : m ≤ X) (hu : 0 ≤ u)
    (hk : 0 ≤ k) : Near (k / m * u) x X := by
  unfold Near
  refine h.err.trans ?_
  rw [abs_of_pos (hm.trans_le hX), div_mul_eq_mul_div, div_mul_eq_mul_div, le_div_iff₀ hm]
  gcongr

theorem axisA_eq : axisA = 6378.137 := rfl

theorem axisB_bounds : 6356.75 ≤ axisB ∧ axisB ≤ 6356.76 := by norm_num [axisB]

theorem sum_bounds {a b c s : ℝ} (hab : b ≤ a) (h : s ^ 2 + c ^ 2 = 1) :
    b ≤ a * c ^ 2 + b * s ^ 2 ∧ a * c ^ 2 + b * s ^ 2 ≤ a := by
  have hc := sq_nonneg c
  have hs := sq_nonneg s
  constructor
  · have := mul_le_mul_of_nonneg_right hab hc
    have e : b * (s ^ 2 + c ^ 2) = b := by rw [h, mul_one]
    linarith
  · have := mul_le_mul_of_nonneg_right hab hs
    have e : a * (s ^ 2 + c ^ 2) = a := by rw [h, mul_one]
    linarith

/-- The numbers `GroundLocation.radius` divides. -/
theorem numerator_bounds (lat : ℝ) :
    1.632e15 ≤ (axisA ^ 2 * Real.cos lat) ^ 2 + (axisB ^ 2 * Real.sin lat) ^ 2 ∧
    40408000 ≤ (axisA * Real.cos lat) ^ 2 + (axisB * Real.sin lat) ^ 2 := by
  obtain ⟨b1, b2⟩ := axisB_bounds
  have h := Real.sin_sq_add_cos_sq lat
  have hA := axisA_eq
  have p2 : (6356.75 : ℝ) ^ 2 ≤ axisB ^ 2 := by gcongr
  have p4 : (6356.75 : ℝ) ^ 4 ≤ axisB ^ 4 := by gcongr
  have q2 : axisB ^ 2 ≤ axisA ^ 2 := by
    apply pow_le_pow_left₀ (by linarith)
    linarith
  have q4 : axisB ^ 4 ≤ axisA ^ 4 := by
    apply pow_le_pow_left₀ (by linarith)
    linarith
  have s2 := (sum_bounds q2 h).1
  have s4 := (sum_bounds q4 h).1
  constructor
  · have e : (axisA ^ 2 * Real.cos lat) ^ 2 + (axisB ^ 2 * Real.sin lat) ^ 2 =
        axisA ^ 4 * Real.cos lat ^ 2 + axisB ^ 4 * Real.sin lat ^ 2 := by ring
    rw [e]
    norm_num at p4 ⊢
    linarith
  · have e : (axisA * Real.cos lat) ^ 2 + (axisB * Real.sin lat) ^ 2 =
        axisA ^ 2 * Real.cos lat ^ 2 + axisB ^ 2 * Real.sin lat ^ 2 := by ring
    rw [e]
    norm_num at p2 ⊢
    linarith

/-- The radius is between the half-axes, but for the height. -/
theorem radius_bounds (g : Ground) : 6356.75 + g.height ≤ g.radius ∧
    g.radius ≤ 6378.137 + g.height := by
  obtain ⟨b1, b2⟩ := axisB_bounds
  have hA := axisA_eq
  have h := Real.sin_sq_add_cos_sq g.lat
  obtain ⟨-, d0⟩ := numerator_bounds g.lat
  set c := Real.cos g.lat with hc
  set s := Real.sin g.lat with hs
  have d1 : 0 < (axisA * c) ^ 2 + (axisB * s) ^ 2 := by linarith
  have q : axisB ^ 2 ≤ axisA ^ 2 := by
    apply pow_le_pow_left₀ (by linarith)
    linarith
  have hs0 : 0 ≤ (axisB * s) ^ 2 := sq_nonneg _
  have hc0 : 0 ≤ (axisA * c) ^ 2 := sq_nonneg _
  have m1 := mul_le_mul_of_nonneg_right q hs0
  have m2 := mul_le_mul_of_nonneg_right q hc0
  have e1 : 6356.75 ≤ Real.sqrt (((axisA ^ 2 * c) ^ 2 + (axisB ^ 2 * s) ^ 2) /
      ((axisA * c) ^ 2 + (axisB * s) ^ 2)) := by
    apply Real.le_sqrt_of_sq_le
    rw [le_div_iff₀ d1]
    have p : (6356.75 : ℝ) ^ 2 ≤ axisB ^ 2 := by gcongr
    have := mul_le_mul_of_nonneg_right p d1.le
    nlinarith
  have e2 : Real.sqrt (((axisA ^ 2 * c) ^ 2 + (axisB ^ 2 * s) ^ 2) /
      ((axisA * c) ^ 2 + (axisB * s) ^ 2)) ≤ 6378.137 := by
    rw [← axisA_eq]
    apply Real.sqrt_le_iff.2 ⟨by linarith, ?_⟩
    rw [div_le_iff₀ d1]
    nlinarith
  unfold Ground.radius
  constructor
  · change _ ≤ _ + g.height
    linarith
  · change _ + g.height ≤ _
    linarith

theorem radius_close (S : Setup M pw u) {s : Site} (hs : s.Valid) :
    Close u 600000 6390 (Rounded.radius M pw s) s.ground.radius := by
  have hu := S.acc.nonneg
  have hsm := S.acc.small
  have hh := abs_le.1 hs.height
  have hgh : s.ground.height = s.height := rfl
  obtain ⟨b1, b2⟩ := axisB_bounds
  have cl := ((lat_close S hs).cos S.acc).mono hu (l := 7.1) (C := 1) (by norm_num) le_rfl
  have sl := ((lat_close S hs).sin S.acc).mono hu (l := 7.1) (C := 1) (by norm_num) le_rfl
  have a : Close u 6379 6379 (M.fl axisA) axisA :=
    (Close.lit S.acc (c := axisA) (by norm_num [axisA])).mono hu (by norm_num [axisA])
      (by norm_num [axisA])
  have b : Close u 6379 6379 (M.fl axisB) axisB :=
    (Close.lit S.acc (c := axisB) (by linarith)).mono hu (by linarith) (by linarith)
  have sq : ∀ x X c C : ℝ, Close u 6379 6379 x X → Close u 7.1 1 c C →
      Close u 6e16 1.66e15 (pw (M.fl (pw x 2 * c)) 2) ((X ^ 2 * C) ^ 2) := by
    intro x X c C hx hc
    have h1 := ((hx.sqr S (by norm_num) (by norm_num)).mul S.acc hc (by norm_num)).fl S.acc
    have h2 := h1.mono hu (l := 5.5e8) (C := 4.07e7) (by norm_num) (by norm_num)
    exact (h2.sqr S (by norm_num) (by norm_num)).mono hu (by norm_num) (by norm_num)
  have li : ∀ x X c C : ℝ, Close u 6379 6379 x X → Close u 7.1 1 c C →
      Close u 1e9 4.1e7 (pw (M.fl (x * c)) 2) ((X * C) ^ 2) := by
    intro x X c C hx hc
    have h1 := (hx.mul S.acc hc (by norm_num)).fl S.acc
    have h2 := h1.mono hu (l := 6e4) (C := 6379) (by norm_num) (by norm_num)
    exact (h2.sqr S (by norm_num) (by norm_num)).mono hu (by norm_num) (by norm_num)
  obtain ⟨n0, d0⟩ := numerator_bounds s.ground.lat
  have num := ((((sq _ _ _ _ a cl).add (sq _ _ _ _ b sl)).fl S.acc).mono hu (l := 1.3e17)
    (C := 3.32e15) (by norm_num) (by norm_num)).near (by norm_num) n0 hu (by norm_num)
  have den := ((((li _ _ _ _ a cl).add (li _ _ _ _ b sl)).fl S.acc).mono hu (l := 2.1e9)
    (C := 8.2e7) (by norm_num) (by norm_num)).near (by norm_num) d0 hu (by norm_num)
  have num' := num.mono (f := 80 * u) (by
    apply mul_le_mul_of_nonneg_right _ hu
    norm_num)
  have den' := den.mono (f := 52 * u) (by
    apply mul_le_mul_of_nonneg_right _ hu
    norm_num)
  have q := ((num'.div den' (by linarith) (by linarith) (by positivity) (by linarith)).fl S.acc
    (by linarith)).mono (f := 134 * u) (by linarith)
  have r := ((q.sqrt (by linarith) (by
    apply div_nonneg <;> linarith)).fl S.acc (by linarith)).mono (f := 70 * u) (by linarith)
  obtain ⟨r1, r2⟩ := radius_bounds s.ground
  set R0 := Real.sqrt (((axisA ^ 2 * Real.cos s.ground.lat) ^ 2 +
    (axisB ^ 2 * Real.sin s.ground.lat) ^ 2) / ((axisA * Real.cos s.ground.lat) ^ 2 +
    (axisB * Real.sin s.ground.lat) ^ 2)) with hR0
  have e : s.ground.radius = R0 + s.ground.height := rfl
  have hR : R0 ≤ 6379 := by linarith
  have hR' : 0 ≤ R0 := Real.sqrt_nonneg _
  have rc : Close u 447000 6379 (M.fl (Real.sqrt (M.fl (M.fl (pw (M.fl (pw (M.fl axisA) 2 *
      M.cos (Rounded.degToRad M s.lat))) 2 + pw (M.fl (pw (M.fl axisB) 2 *
      M.sin (Rounded.degToRad M s.lat))) 2) / M.fl (pw (M.fl (M.fl axisA *
      M.cos (Rounded.degToRad M s.lat))) 2 + pw (M.fl (M.fl axisB *
      M.sin (Rounded.degToRad M s.lat))) 2))))) R0 := by
    refine ⟨?_, by rw [abs_of_nonneg hR']; exact hR⟩
    refine le_trans r ?_
    rw [abs_of_nonneg hR']
    have := mul_le_mul_of_nonneg_left hR (show 0 ≤ 70 * u by positivity)
    linarith
  have h : Close u 0 10 s.height s.ground.height := Close.exact hs.height
  rw [e]
  exact ((rc.add h).fl S.acc).mono hu (by norm_num) (by norm_num)

/-! ### The station -/

/-- One degree. -/
theorem sin_one_degree : 0.01745 ≤ Real.sin (rad 1) := by
  have hp := Real.pi_gt_d6
  have hp' := Real.pi_lt_d6
  have e : rad 1 = Real.pi / 180 := by unfold rad; ring
  have h := Real.sin_gt_sub_cube (x := rad 1) (by rw [e]; positivity)
  have h2 : rad 1 ^ 3 ≤ 0.0176 ^ 3 := by
    have : rad 1 ≤ 0.0176 := by rw [e]; linarith
    have : 0 ≤ rad 1 := by rw [e]; positivity
    gcongr
  have h3 : 0.017453 ≤ rad 1 := by rw [e]; linarith
  norm_num at h2 h3 ⊢
  linarith

/-- At least a degree from the equator and from the poles. -/
theorem mid_latitude {s : Site} (h1 : 1 ≤ |s.lat|) (h2 : |s.lat| ≤ 89) :
    0.01745 ≤ |Real.sin s.ground.lat| ∧ 0.01745 ≤ Real.cos s.ground.lat := by
  have hp := Real.pi_pos
  have h0 := sin_one_degree
  have e : s.ground.lat = s.lat * (Real.pi / 180) := rfl
  have e1 : rad 1 = Real.pi / 180 := by unfold rad; ring
  rw [e1] at h0
  have a1 : |s.ground.lat| = |s.lat| * (Real.pi / 180) := by
    rw [e, abs_mul, abs_of_pos (by positivity : 0 < Real.pi / 180)]
  have a2 : Real.pi / 180 ≤ |s.ground.lat| := by
    rw [a1]
    have := mul_le_mul_of_nonneg_right h1 (by positivity : 0 ≤ Real.pi / 180)
    linarith
  have a3 : |s.ground.lat| ≤ Real.pi / 2 - Real.pi / 180 := by
    rw [a1]
    have := mul_le_mul_of_nonneg_right h2 (by positivity : 0 ≤ Real.pi / 180)
    linarith
  constructor
  · rw [Real.abs_sin_eq_sin_abs_of_abs_le_pi (by linarith)]
    refine h0.trans (Real.sin_le_sin_of_le_of_le_pi_div_two ?_ ?_ a2) <;> linarith
  · rw [← Real.cos_abs, ← Real.sin_pi_div_two_sub]
    refine h0.trans (Real.sin_le_sin_of_le_of_le_pi_div_two ?_ ?_ ?_) <;> linarith

theorem station_near {s : Site} (hs : s.Valid) : vnorm s.ground.itrs ≤ 6410 := by
  have hh := abs_le.1 hs.height
  refine (abs_le_of_sq_le_sq' ?_ (by norm_num)).2
  rw [vnorm_sq_coords]
  set g := s.ground with hg
  have hgh : g.height = s.height := rfl
  obtain ⟨m1, m2⟩ := primeVertical_bounds g.lat
  have he : 0 ≤ ecc ^ 2 ∧ ecc ^ 2 ≤ 0.007 := by norm_num [ecc]
  set m := primeVertical g.lat with hmdef
  have hx : g.itrs 0 = (m + g.height) * Real.cos g.lat * Real.cos g.lon := rfl
  have hy : g.itrs 1 = (m + g.height) * Real.cos g.lat * Real.sin g.lon := rfl
  have hz : g.itrs 2 = (m * (1 - ecc ^ 2) + g.height) * Real.sin g.lat := rfl
  have s1 := Real.sin_sq_add_cos_sq g.lat
  have s2 := Real.sin_sq_add_cos_sq g.lon
  have a1 : 0 ≤ m * (1 - ecc ^ 2) + g.height := by nlinarith
  have a2 : m * (1 - ecc ^ 2) + g.height ≤ 6410 := by nlinarith
  have a3 : m + g.height ≤ 6410 := by linarith
  have a4 : 0 ≤ m + g.height := by linarith
  have e : g.itrs 0 ^ 2 + g.itrs 1 ^ 2 + g.itrs 2 ^ 2 =
      (m + g.height) ^ 2 * Real.cos g.lat ^ 2 +
        (m * (1 - ecc ^ 2) + g.height) ^ 2 * Real.sin g.lat ^ 2 := by
    rw [hx, hy, hz]
    linear_combination (m + g.height) ^ 2 * Real.cos g.lat ^ 2 * s2
  rw [e]
  have p1 : (m + g.height) ^ 2 * Real.cos g.lat ^ 2 ≤ 6410 ^ 2 * Real.cos g.lat ^ 2 := by gcongr
  have p2 : (m * (1 - ecc ^ 2) + g.height) ^ 2 * Real.sin g.lat ^ 2 ≤
      6410 ^ 2 * Real.sin g.lat ^ 2 := by gcongr
  linarith

/-- The distance of the station from the axis of the Earth. -/
theorem axis_coords (g : Ground) :
    g.itrs 0 ^ 2 + g.itrs 1 ^ 2 = ((primeVertical g.lat + g.height) * Real.cos g.lat) ^ 2 := by
  have hx : g.itrs 0 = (primeVertical g.lat + g.height) * Real.cos g.lat * Real.cos g.lon := rfl
  have hy : g.itrs 1 = (primeVertical g.lat + g.height) * Real.cos g.lat * Real.sin g.lon := rfl
  have s2 := Real.sin_sq_add_cos_sq g.lon
  rw [hx, hy]
  linear_combination ((primeVertical g.lat + g.height) * Real.cos g.lat) ^ 2 * s2

theorem axis_far {s : Site} (hs : s.Valid) (h1 : 1 ≤ |s.lat|) (h2 : |s.lat| ≤ 89) :
    111 ≤ (primeVertical s.ground.lat + s.ground.height) * Real.cos s.ground.lat := by
  obtain ⟨-, hc⟩ := mid_latitude h1 h2
  obtain ⟨m1, -⟩ := primeVertical_bounds s.ground.lat
  have hh := abs_le.1 hs.height
  have hgh : s.ground.height = s.height := rfl
  have := mul_le_mul (show 6368 ≤ primeVertical s.ground.lat + s.ground.height by linarith) hc
    (by norm_num) (by linarith)
  linarith

/-! ### The tangent -/

/-- The height of the point above the pole the tangent points to. -/
theorem pole_bounds {s : Site} (hs : s.Valid) (h1 : 1 ≤ |s.lat|) (h2 : |s.lat| ≤ 89) :
    6346 ≤ |s.ground.radius / Real.sin s.ground.lat| := by
  obtain ⟨r1, -⟩ := radius_bounds s.ground
  have hh := abs_le.1 hs.height
  have hgh : s.ground.height = s.height := rfl
  obtain ⟨hs1, -⟩ := mid_latitude h1 h2
  have hsin := Real.abs_sin_le_one s.ground.lat
  rw [abs_div, le_div_iff₀ (by linarith), abs_of_pos (by linarith : 0 < s.ground.radius)]
  nlinarith

theorem tangent_coords (g : Ground) : surfaceTangent g 0 = -g.itrs 0 ∧
    surfaceTangent g 1 = -g.itrs 1 ∧
    surfaceTangent g 2 = g.radius / Real.sin g.lat - g.itrs 2 := by
  refine ⟨?_, ?_, rfl⟩
  · change (0 : ℝ) - g.itrs 0 = _
    ring
  · change (0 : ℝ) - g.itrs 1 = _
    ring

/-- The tangent is not much shorter than the height of that point. -/
theorem tangent_long {s : Site} (hs : s.Valid) (h1 : 1 ≤ |s.lat|) (h2 : |s.lat| ≤ 89) :
    0.0085 * |s.ground.radius / Real.sin s.ground.lat| ≤ vnorm (surfaceTangent s.ground) := by
  obtain ⟨t0, t1, t2⟩ := tangent_coords s.ground
  obtain ⟨hs1, -⟩ := mid_latitude h1 h2
  obtain ⟨r1, r2⟩ := radius_bounds s.ground
  have hh := abs_le.1 hs.height
  have hgh : s.ground.height = s.height := rfl
  have hp := pole_bounds hs h1 h2
  set T := s.ground.radius / Real.sin s.ground.lat with hT
  by_cases hsin : 1 / 2 ≤ |Real.sin s.ground.lat|
  · have hT1 : |T| ≤ 12780 := by
      rw [hT, abs_div, div_le_iff₀ (by linarith), abs_of_pos (by linarith : 0 < s.ground.radius)]
      linarith
    have ha := axis_far hs h1 h2
    have hq := axis_coords s.ground
    refine le_trans (show 0.0085 * |T| ≤ 111 by linarith) ?_
    refine (abs_le_of_sq_le_sq' ?_ (vnorm_nonneg _)).2
    rw [vnorm_sq_coords, t0, t1]
    nlinarith [sq_nonneg (surfaceTangent s.ground 2)]
  · have hz : |s.ground.itrs 2| ≤ 3210 := by
      have hm := primeVertical_bounds s.ground.lat
      have he : 0 ≤ ecc ^ 2 ∧ ecc ^ 2 ≤ 0.007 := by norm_num [ecc]
      have e : s.ground.itrs 2 =
        (primeVertical s.ground.lat * (1 - ecc ^ 2) + s.ground.height) * Real.sin s.ground.lat := rfl
      have a1 : |primeVertical s.ground.lat * (1 - ecc ^ 2) + s.ground.height| ≤ 6420 := by
        rw [abs_le]
        constructor <;> nlinarith
      rw [e, abs_mul]
      have := mul_le_mul a1 (not_le.1 hsin).le (abs_nonneg _) (by norm_num)
      linarith
    have h3 := coord_le (surfaceTangent s.ground) 2
    rw [t2] at h3
    have h4 := abs_sub_abs_le_abs_sub T (s.ground.itrs 2)
    linarith

theorem Near.neg {e x X : ℝ} (h : Near e x X) : Near e (-x) (-X) := by
  unfold Near at *
  rw [show -x - -X = -(x - X) by ring, abs_neg, abs_neg]
  exact h

/-- Quotients by a number that is not zero. -/
theorem Near.div' {e f x X y Y : ℝ} (hx : Near e x X) (hy : Near f y Y) (he : e ≤ 1 / 1000)
    (hf : f ≤ 1 / 1000) (hf0 : 0 ≤ f) (hY : Y ≠ 0) : Near (e + 1.004 * f) (x / y) (X / Y) := by
  rcases lt_or_gt_of_ne hY with h | h
  · have := hx.neg.div hy.neg he hf hf0 (by linarith)
    rwa [neg_div_neg_eq, neg_div_neg_eq] at this
  · exact hx.div hy he hf hf0 h

theorem tangent_close (S : Setup M pw u) {s : Site} (hs : s.Valid) (h1 : 1 ≤ |s.lat|)
    (h2 : |s.lat| ≤ 89) :
    vnorm (Rounded.surfaceTangent M pw s - surfaceTangent s.ground) ≤
      131000 * u * vnorm (surfaceTangent s.ground) := by
  have hu := S.acc.nonneg
  have hsm := S.acc.small
  obtain ⟨hs1, -⟩ := mid_latitude h1 h2
  obtain ⟨r1, r2⟩ := radius_bounds s.ground
  have hh := abs_le.1 hs.height
  have hgh : s.ground.height = s.height := rfl
  have hp := pole_bounds hs h1 h2
  have hl := tangent_long hs h1 h2
  obtain ⟨t0, t1, t2⟩ := tangent_coords s.ground
  have nR : Near (95 * u) (Rounded.radius M pw s) s.ground.radius :=
    ((radius_close S hs).near (m := 6346) (by norm_num) (by linarith) hu (by norm_num)).mono
      (mul_le_mul_of_nonneg_right (by norm_num) hu)
  have nS : Near (408 * u) (M.sin (Rounded.degToRad M s.lat)) (Real.sin s.ground.lat) := by
    have := ((lat_close S hs).sin S.acc).err
    unfold Near
    have h3 := mul_le_mul_of_nonneg_left hs1 (show 0 ≤ 408 * u by positivity)
    linarith
  have hsin0 : Real.sin s.ground.lat ≠ 0 := by
    intro h
    rw [h, abs_zero] at hs1
    norm_num at hs1
  have nT := ((nR.div' nS (by linarith) (by linarith) (by positivity) hsin0).fl S.acc
    (by linarith)).mono (f := 506 * u) (by linarith)
  set T := s.ground.radius / Real.sin s.ground.lat with hT
  set T' := M.fl (Rounded.radius M pw s / M.sin (Rounded.degToRad M s.lat)) with hT'
  have hTu := mul_le_mul_of_nonneg_left hp hu
  have g := fun i => itrs_close S hs i
  have z : Close u 0 0 (0 : ℝ) 0 := Close.exact (by simp)
  have flat : ∀ i, |M.fl (0 - Rounded.itrs M pw s i) - -s.ground.itrs i| ≤ 614 * u * |T| := by
    intro i
    have := ((z.sub (g i)).fl S.acc).err
    rw [zero_sub (s.ground.itrs i)] at this
    linarith
  have c2 : |M.fl (T' - Rounded.itrs M pw s 2) - (T - s.ground.itrs 2)| ≤ 614 * u * |T| := by
    have e1 := S.acc.fl (T' - Rounded.itrs M pw s 2)
    have e2 := (g 2).err
    have e3 := (g 2).abs_le
    have e4 := nT.abs_le
    have e5 := abs_sub T' (Rounded.itrs M pw s 2)
    have e6 : |T'| ≤ 1.001 * |T| := by
      refine e4.trans (mul_le_mul_of_nonneg_right (by linarith) (abs_nonneg _))
    have e7 : |T' - Rounded.itrs M pw s 2| ≤ 1.001 * |T| + 7201 := by linarith
    have e8 := mul_le_mul_of_nonneg_left e7 hu
    have e9 : |T' - Rounded.itrs M pw s 2 - (T - s.ground.itrs 2)| ≤ 506 * u * |T| + 660000 * u := by
      have a := abs_sub (T' - T) (Rounded.itrs M pw s 2 - s.ground.itrs 2)
      rw [show T' - Rounded.itrs M pw s 2 - (T - s.ground.itrs 2) =
        T' - T - (Rounded.itrs M pw s 2 - s.ground.itrs 2) by ring]
      have : |T' - T| ≤ 506 * u * |T| := nT
      linarith
    have e10 := abs_sub_le (M.fl (T' - Rounded.itrs M pw s 2)) (T' - Rounded.itrs M pw s 2)
      (T - s.ground.itrs 2)
    linarith
  have all : ∀ i, |(Rounded.surfaceTangent M pw s - surfaceTangent s.ground) i| ≤
      614 * u * |T| := by
    intro i
    rw [Pi.sub_apply]
    fin_cases i
    · simp only [Fin.zero_eta]
      rw [t0]
      exact flat 0
    · simp only [Fin.mk_one]
      rw [t1]
      exact flat 1
    · simp only [Fin.reduceFinMk]
      rw [t2]
      exact c2
  have := vnorm_le_of_coords all
  have := mul_le_mul_of_nonneg_left hl (show 0 ≤ 131000 * u by positivity)
  have : 0 ≤ u * |T| := by positivity
  linarith

/-! ### The direction to the satellite -/

/-- Rounding the coordinates of a vector. -/
theorem round_vec (h : M.Accurate u) (w : Vec) : vnorm ((fun i => M.fl (w i)) - w) ≤ u * vnorm w := by
  have hu0 := h.nonneg
  have hn := vnorm_nonneg w
  refine (abs_le_of_sq_le_sq' ?_ (by positivity)).2
  rw [mul_pow, vnorm_sq_coords, vnorm_sq_coords]
  have t : ∀ i, (M.fl (w i) - w i) ^ 2 ≤ u ^ 2 * w i ^ 2 := by
    intro i
    rw [← mul_pow, ← sq_abs, ← sq_abs (u * w i), abs_mul, abs_of_nonneg hu0]
    exact pow_le_pow_left₀ (abs_nonneg _) (h.fl (w i)) 2
  have := t 0
  have := t 1
  have := t 2
  simp only [Pi.sub_apply]
  linarith

theorem abs_dot_le (a b : Vec) : |a ⬝ᵥ b| ≤ vnorm a * vnorm b := by
  rw [← inner_toE, ← norm_toE, ← norm_toE]
  exact abs_real_inner_le_norm _ _

/-- A computed sum of products of slightly wrong vectors. -/
theorem dot_error (h : M.Accurate u) {a b a' b' : Vec} {e f : ℝ} (he : e ≤ 1 / 1000)
    (hf : f ≤ 1 / 1000) (he0 : 0 ≤ e) (hf0 : 0 ≤ f) (ha : vnorm (a' - a) ≤ e * vnorm a)
    (hb : vnorm (b' - b) ≤ f * vnorm b) :
    |M.dot a' b' - a ⬝ᵥ b| ≤ (1.001 * e + f + 4.1 * u) * (vnorm a * vnorm b) := by
  have hu := h.nonneg
  have na := vnorm_nonneg a
  have nb := vnorm_nonneg b
  have na' : vnorm a' ≤ 1.001 * vnorm a := by
    have h1 := vnorm_add (a' - a) a
    rw [sub_add_cancel] at h1
    have := mul_le_mul_of_nonneg_right he na
    linarith
  have nb' : vnorm b' ≤ 1.001 * vnorm b := by
    have h1 := vnorm_add (b' - b) b
    rw [sub_add_cancel] at h1
    have := mul_le_mul_of_nonneg_right hf nb
    linarith
  have d := h.dot a' b'
  have p := products_le a' b'
  have pp : vnorm a' * vnorm b' ≤ 1.001 * vnorm a * (1.001 * vnorm b) :=
    mul_le_mul na' nb' (vnorm_nonneg _) (by positivity)
  have e1 : a' ⬝ᵥ b' - a ⬝ᵥ b = (a' - a) ⬝ᵥ b' + a ⬝ᵥ (b' - b) := by
    rw [sub_dotProduct, dotProduct_sub]
    ring
  have x1 := (abs_dot_le (a' - a) b').trans (mul_le_mul ha nb' (vnorm_nonneg _) (by positivity))
  have x2 := (abs_dot_le a (b' - b)).trans (mul_le_mul_of_nonneg_left hb na)
  have x3 := abs_add_le ((a' - a) ⬝ᵥ b') (a ⬝ᵥ (b' - b))
  rw [← e1] at x3
  have x4 := abs_sub_le (M.dot a' b') (a' ⬝ᵥ b') (a ⬝ᵥ b)
  have x5 : 4 * u * (|a' 0 * b' 0| + |a' 1 * b' 1| + |a' 2 * b' 2|) ≤
      4 * u * (1.001 * vnorm a * (1.001 * vnorm b)) := by
    gcongr
    exact p.trans pp
  have x6 : 0 ≤ u * (vnorm a * vnorm b) := by positivity
  linarith

/-- The projection of `d` along `g`, from slightly wrong numbers. -/
theorem projection_close (h : M.Accurate u) {d g d' g' : Vec} {R2 r2 : ℝ} (hg : 0 < vnorm g)
    (hd : vnorm (d' - d) ≤ 20002 * u * vnorm d) (hg' : vnorm (g' - g) ≤ 318 * u * vnorm g)
    (hr : Near (193 * u) r2 R2) (hR : 0 < R2) (hGR : vnorm g ^ 2 ≤ 1.0204 * R2) :
    vnorm ((fun i => M.fl (M.fl (M.dot d' g' / r2) * g' i)) - (d ⬝ᵥ g / R2) • g) ≤
      21500 * u * vnorm d := by
  have hu := h.nonneg
  have hsm := h.small
  have nd := vnorm_nonneg d
  have dt := dot_error h (by linarith) (by linarith) (by positivity) (by positivity) hd hg'
  set D := vnorm d with hD
  set G := vnorm g with hG
  have hDG : 0 ≤ D * G := by positivity
  have x0 : |M.dot d' g' - d ⬝ᵥ g| ≤ 20346 * u * (D * G) := by
    have : 0 ≤ u * (D * G) := by positivity
    linarith
  have X0 : |d ⬝ᵥ g| ≤ D * G := abs_dot_le d g
  set x := M.dot d' g' with hx
  set X := d ⬝ᵥ g with hX
  have hinv := hr.inv (by linarith) hR
  have hr1 := hr.pos (by linarith) hR
  have hr0 : 0 < r2 := by
    have : 0 < 0.999 * R2 := by positivity
    linarith
  have hi : |1 / r2| ≤ 1.001 * (1 / R2) := by
    have a := hinv.abs_le
    rw [abs_of_pos (by positivity : 0 < 1 / R2)] at a
    exact a.trans (mul_le_mul_of_nonneg_right (by linarith) (by positivity))
  have hq : |x / r2 - X / R2| ≤ 20570 * u * (D * G * (1 / R2)) := by
    have e : x / r2 - X / R2 = (x - X) * (1 / r2) + X * (1 / r2 - 1 / R2) := by
      field_simp
      ring
    have a1 := mul_le_mul x0 hi (abs_nonneg _) (by positivity)
    have a2 := mul_le_mul X0 hinv (abs_nonneg _) hDG
    rw [abs_of_pos (by positivity : 0 < 1 / R2)] at a2
    have a3 := abs_add_le ((x - X) * (1 / r2)) (X * (1 / r2 - 1 / R2))
    rw [abs_mul, abs_mul] at a3
    rw [e]
    have : 0 ≤ u * (D * G * (1 / R2)) := by positivity
    linarith
  have hN : |X / R2| ≤ D * G * (1 / R2) := by
    rw [abs_div, abs_of_pos hR, div_eq_mul_one_div]
    gcongr
  set K := D * G * (1 / R2) with hK
  have hK0 : 0 ≤ K := by positivity
  have hn : |M.fl (x / r2) - X / R2| ≤ 20572 * u * K := by
    have a1 := h.fl (x / r2)
    have a2 : |x / r2| ≤ 1.1 * K := by
      have := abs_sub_abs_le_abs_sub (x / r2) (X / R2)
      have : 20570 * u * K ≤ 0.1 * K := mul_le_mul_of_nonneg_right (by linarith) hK0
      linarith
    have a3 := mul_le_mul_of_nonneg_left a2 hu
    have a4 := abs_sub_le (M.fl (x / r2)) (x / r2) (X / R2)
    have : 0 ≤ u * K := by positivity
    linarith
  set n' := M.fl (x / r2) with hn'
  set n := X / R2 with hndef
  have ng' : vnorm g' ≤ 1.001 * G := by
    have h1 := vnorm_add (g' - g) g
    rw [sub_add_cancel] at h1
    have : 318 * u * G ≤ 0.001 * G := mul_le_mul_of_nonneg_right (by linarith) hg.le
    linarith
  have v1 : vnorm (n' • g' - n • g) ≤ 20911 * u * (K * G) := by
    have e : n' • g' - n • g = (n' - n) • g' + n • (g' - g) := by
      rw [sub_smul, smul_sub]
      abel
    have a := vnorm_add ((n' - n) • g') (n • (g' - g))
    rw [← e, vnorm_smul, vnorm_smul] at a
    have a1 := mul_le_mul hn ng' (vnorm_nonneg _) (by positivity)
    have a2 := mul_le_mul hN hg' (vnorm_nonneg _) hK0
    have : 0 ≤ u * (K * G) := by positivity
    linarith
  have hKG : K * G ≤ 1.0204 * D := by
    rw [hK, show D * G * (1 / R2) * G = D * (G ^ 2 * (1 / R2)) by ring]
    have : G ^ 2 * (1 / R2) ≤ 1.0204 := by
      rw [mul_one_div, div_le_iff₀ hR]
      exact hGR
    have := mul_le_mul_of_nonneg_left this nd
    linarith
  have hKG0 : 0 ≤ K * G := by positivity
  have v2 := round_vec h (n' • g')
  have v3 : vnorm (n' • g') ≤ 1.1 * (K * G) := by
    have a := vnorm_add (n' • g' - n • g) (n • g)
    rw [sub_add_cancel, vnorm_smul n g] at a
    have a1 := mul_le_mul_of_nonneg_right hN hg.le
    have : 20911 * u * (K * G) ≤ 0.1 * (K * G) := mul_le_mul_of_nonneg_right (by linarith) hKG0
    linarith
  have v4 := vnorm_sub_le (fun i => M.fl ((n' • g') i)) (n' • g') (n • g)
  have v5 := mul_le_mul_of_nonneg_left v3 hu
  have v6 : u * (K * G) ≤ u * (1.0204 * D) := mul_le_mul_of_nonneg_left hKG hu
  have e : (fun i => M.fl (n' * g' i)) = fun i => M.fl ((n' • g') i) := rfl
  rw [e]
  have : 0 ≤ u * D := by positivity
  linarith

theorem onPlane_close (S : Setup M pw u) {s : Site} (hs : s.Valid) {sat : Vec}
    (hd : 100 ≤ vnorm (sat - s.ground.itrs)) :
    vnorm (Rounded.onPlane M pw sat s - onPlane sat s.ground) ≤
      41600 * u * vnorm (sat - s.ground.itrs) ∧
    vnorm (onPlane sat s.ground) ≤ 2.03 * vnorm (sat - s.ground.itrs) := by
  have hu := S.acc.nonneg
  have hsm := S.acc.small
  have hh := abs_le.1 hs.height
  have hgh : s.ground.height = s.height := rfl
  obtain ⟨r1, r2⟩ := radius_bounds s.ground
  have hG0 := station_far hs
  have hG1 := station_near hs
  have hst := station_close S hs
  set g := s.ground.itrs with hg
  set g' := Rounded.itrs M pw s with hg'
  set d := sat - g with hdd
  set D := vnorm d with hD
  have hD0 : 0 < D := by linarith
  set d' : Vec := fun i => M.fl (sat i - g' i) with hd'
  have e1 : vnorm (d' - d) ≤ 20002 * u * D := by
    have a1 := round_vec S.acc (sat - g')
    have a2 : vnorm ((sat - g') - d) ≤ 2000000 * u := by
      rw [hdd, show sat - g' - (sat - g) = g - g' by abel, vnorm_sub_comm]
      exact hst
    have a3 := vnorm_sub_le (fun i => M.fl ((sat - g') i)) (sat - g') d
    have a4 := vnorm_add (sat - g' - d) d
    rw [sub_add_cancel] at a4
    have a5 : vnorm (sat - g') ≤ 1.1 * D := by linarith
    have a6 := mul_le_mul_of_nonneg_left a5 hu
    have a7 := mul_le_mul_of_nonneg_left hd hu
    have e : d' = fun i => M.fl ((sat - g') i) := rfl
    rw [e]
    linarith
  have e2 : vnorm (g' - g) ≤ 318 * u * vnorm g := by
    have := mul_le_mul_of_nonneg_left hG0 (show 0 ≤ 318 * u by positivity)
    linarith
  have nR : Near (95 * u) (Rounded.radius M pw s) s.ground.radius :=
    ((radius_close S hs).near (m := 6346) (by norm_num) (by linarith) hu (by norm_num)).mono
      (mul_le_mul_of_nonneg_right (by norm_num) hu)
  have nR2 := (nR.sq S (by linarith) (by positivity)).mono (f := 193 * u) (by linarith)
  have hR : 0 < s.ground.radius ^ 2 := by
    have : 0 < s.ground.radius := by linarith
    positivity
  have hGR : vnorm g ^ 2 ≤ 1.0204 * s.ground.radius ^ 2 := by
    have b1 : vnorm g ^ 2 ≤ 6410 ^ 2 := by
      have := vnorm_nonneg g
      gcongr
    have b2 : (6346 : ℝ) ^ 2 ≤ s.ground.radius ^ 2 := by
      have : 6346 ≤ s.ground.radius := by linarith
      gcongr
    linarith
  have pr := projection_close S.acc (by linarith) e1 e2 nR2 hR hGR
  set v' : Vec := fun i => M.fl (M.fl (M.dot d' g' / pw (Rounded.radius M pw s) 2) * g' i) with hv'
  set v := (d ⬝ᵥ g / s.ground.radius ^ 2) • g with hv
  have ew : onPlane sat s.ground = d - v := rfl
  have ew' : Rounded.onPlane M pw sat s = fun i => M.fl ((d' - v') i) := rfl
  have nv : vnorm v ≤ 1.0204 * D := by
    rw [hv, vnorm_smul, abs_div, abs_of_pos hR, div_mul_eq_mul_div, div_le_iff₀ hR]
    have b1 := mul_le_mul_of_nonneg_right (abs_dot_le d g) (vnorm_nonneg g)
    have b2 := mul_le_mul_of_nonneg_left hGR hD0.le
    linarith
  have nw : vnorm (d - v) ≤ 2.03 * D := by
    have a := vnorm_sub_le d 0 v
    rw [sub_zero, zero_sub, show -v = (-1 : ℝ) • v by simp, vnorm_smul] at a
    norm_num at a
    linarith
  rw [ew, ew']
  refine ⟨?_, nw⟩
  have a1 := round_vec S.acc (d' - v')
  have a2 : vnorm (d' - v' - (d - v)) ≤ 41502 * u * D := by
    have b := vnorm_add (d' - d) (v - v')
    rw [show d' - d + (v - v') = d' - v' - (d - v) by abel, vnorm_sub_comm v v'] at b
    linarith
  have a3 := vnorm_sub_le (fun i => M.fl ((d' - v') i)) (d' - v') (d - v)
  have a4 := vnorm_add (d' - v' - (d - v)) (d - v)
  rw [sub_add_cancel] at a4
  have a5 : 41502 * u * D ≤ 0.01 * D := mul_le_mul_of_nonneg_right (by linarith) hD0.le
  have a6 := mul_le_mul_of_nonneg_left (show vnorm (d' - v') ≤ 2.1 * D by linarith) hu
  have : 0 ≤ u * D := by positivity
  linarith

/-- What is left of the direction to the satellite away from the zenith. -/
theorem onPlane_long {s : Site} (hs : s.Valid) {sat : Vec}
    (hd : 0 < vnorm (sat - s.ground.itrs))
    (he : |trueElevation sat s.ground.itrs| ≤ 89) :
    0.01745 * vnorm (sat - s.ground.itrs) ≤ vnorm (onPlane sat s.ground) := by
  have hG := station_far hs
  have hpi := Real.pi_pos
  set g := s.ground.itrs with hg
  set d := sat - g with hdd
  set n := d ⬝ᵥ g / s.ground.radius ^ 2 with hn
  have ew : onPlane sat s.ground = d - n • g := rfl
  rw [ew]
  set θ := InnerProductGeometry.angle (toE d) (toE g) with hθ
  have hsin : 0.01745 ≤ Real.sin θ := by
    have e1 := sin_one_degree
    have er : rad 1 = Real.pi / 180 := by unfold rad; ring
    rw [er] at e1
    have e2 : trueElevation sat g = 90 - θ * (180 / Real.pi) := rfl
    rw [e2] at he
    obtain ⟨a, b⟩ := abs_le.1 he
    have e3 : θ = θ * (180 / Real.pi) * (Real.pi / 180) := by field_simp
    have f1 : Real.pi / 180 ≤ θ := by
      rw [e3]
      nlinarith
    have f2 : θ ≤ Real.pi - Real.pi / 180 := by
      rw [e3]
      have : θ * (180 / Real.pi) ≤ 179 := by linarith
      have := mul_le_mul_of_nonneg_right this (show 0 ≤ Real.pi / 180 by positivity)
      linarith
    rcases le_total θ (Real.pi / 2) with h | h
    · exact e1.trans (Real.sin_le_sin_of_le_of_le_pi_div_two (by linarith) h f1)
    · rw [← Real.sin_pi_sub]
      exact e1.trans (Real.sin_le_sin_of_le_of_le_pi_div_two (by linarith) (by linarith)
        (by linarith))
  have hdot : d ⬝ᵥ g = Real.cos θ * (vnorm d * vnorm g) := by
    rw [← inner_toE, ← norm_toE, ← norm_toE, hθ, InnerProductGeometry.cos_angle_mul_norm_mul_norm]
  have e : vnorm (d - n • g) ^ 2 * vnorm g ^ 2 =
      (vnorm d * vnorm g * Real.sin θ) ^ 2 + (n * vnorm g ^ 2 - d ⬝ᵥ g) ^ 2 := by
    have s1 := Real.sin_sq_add_cos_sq θ
    have e1 : vnorm (d - n • g) ^ 2 = vnorm d ^ 2 - 2 * n * (d ⬝ᵥ g) + n ^ 2 * vnorm g ^ 2 := by
      rw [vnorm_sq, vnorm_sq, vnorm_sq]
      simp only [sub_dotProduct, dotProduct_sub, smul_dotProduct, dotProduct_smul, smul_eq_mul,
        dotProduct_comm g d]
      ring
    rw [e1, hdot]
    linear_combination (-(vnorm d * vnorm g) ^ 2) * s1
  have hg0 : 0 < vnorm g := by linarith
  have k1 : (vnorm d * vnorm g * Real.sin θ) ^ 2 ≤ (vnorm (d - n • g) * vnorm g) ^ 2 := by
    rw [mul_pow (vnorm (d - n • g)), e]
    have := sq_nonneg (n * vnorm g ^ 2 - d ⬝ᵥ g)
    linarith
  have k2 := (abs_le_of_sq_le_sq' k1 (mul_nonneg (vnorm_nonneg _) hg0.le)).2
  have k3 : vnorm d * Real.sin θ ≤ vnorm (d - n • g) := by
    apply le_of_mul_le_mul_right _ hg0
    linarith
  have k4 := mul_le_mul_of_nonneg_left hsin hd.le
  linarith

/-! ### The sign -/

/-- The direction the code compares with points east or west. -/
theorem direction_coords (g : Ground) :
    surfaceTangent g ⨯₃ g.itrs = (g.radius / Real.sin g.lat *
      ((primeVertical g.lat + g.height) * Real.cos g.lat)) • ![-Real.sin g.lon, Real.cos g.lon, 0] := by
  have hx : g.itrs 0 = (primeVertical g.lat + g.height) * Real.cos g.lat * Real.cos g.lon := rfl
  have hy : g.itrs 1 = (primeVertical g.lat + g.height) * Real.cos g.lat * Real.sin g.lon := rfl
  obtain ⟨t0, t1, t2⟩ := tangent_coords g
  rw [cross_apply, t0, t1, t2]
  funext i
  fin_cases i
  · change -g.itrs 1 * g.itrs 2 - (g.radius / Real.sin g.lat - g.itrs 2) * g.itrs 1 =
      (g.radius / Real.sin g.lat * ((primeVertical g.lat + g.height) * Real.cos g.lat)) *
        -Real.sin g.lon
    rw [hy]
    ring
  · change (g.radius / Real.sin g.lat - g.itrs 2) * g.itrs 0 - -g.itrs 0 * g.itrs 2 =
      (g.radius / Real.sin g.lat * ((primeVertical g.lat + g.height) * Real.cos g.lat)) *
        Real.cos g.lon
    rw [hx]
    ring
  · change -g.itrs 0 * g.itrs 1 - -g.itrs 1 * g.itrs 0 =
      (g.radius / Real.sin g.lat * ((primeVertical g.lat + g.height) * Real.cos g.lat)) * 0
    ring

/-- The distance of the satellite from the meridian plane of the station, east positive. -/
noncomputable def eastOf (sat : Vec) (s : Site) : ℝ :=
  Real.cos (rad s.lon) * sat 1 - Real.sin (rad s.lon) * sat 0

theorem dot_direction (sat : Vec) (s : Site) :
    onPlane sat s.ground ⬝ᵥ (surfaceTangent s.ground ⨯₃ s.ground.itrs) =
      s.ground.radius / Real.sin s.ground.lat *
        ((primeVertical s.ground.lat + s.ground.height) * Real.cos s.ground.lat) * eastOf sat s := by
  set g := s.ground with hg
  have hx : g.itrs 0 = (primeVertical g.lat + g.height) * Real.cos g.lat * Real.cos g.lon := rfl
  have hy : g.itrs 1 = (primeVertical g.lat + g.height) * Real.cos g.lat * Real.sin g.lon := rfl
  have el : rad s.lon = g.lon := rfl
  rw [direction_coords, dotProduct_smul, smul_eq_mul]
  congr 1
  set n := (sat - g.itrs) ⬝ᵥ g.itrs / g.radius ^ 2 with hn
  have ew : onPlane sat g = (sat - g.itrs) - n • g.itrs := rfl
  rw [ew]
  unfold eastOf
  rw [el]
  simp only [dotProduct, Fin.sum_univ_three, Pi.sub_apply, Pi.smul_apply, smul_eq_mul,
    Matrix.cons_val_zero, Matrix.cons_val_one, Matrix.cons_val]
  rw [hx, hy]
  ring

theorem vnorm_east (a : ℝ) : vnorm ![-Real.sin a, Real.cos a, 0] = 1 := by
  have h : vnorm ![-Real.sin a, Real.cos a, 0] ^ 2 = 1 := by
    rw [vnorm_sq_coords]
    have := Real.sin_sq_add_cos_sq a
    simp only [Matrix.cons_val_zero, Matrix.cons_val_one, Matrix.cons_val]
    linarith
  have h0 := vnorm_nonneg ![-Real.sin a, Real.cos a, 0]
  nlinarith

theorem direction_error (S : Setup M pw u) {s : Site} (hs : s.Valid) (h1 : 1 ≤ |s.lat|)
    (h2 : |s.lat| ≤ 89) :
    vnorm (Rounded.cross M (Rounded.surfaceTangent M pw s) (Rounded.itrs M pw s) -
      surfaceTangent s.ground ⨯₃ s.ground.itrs) ≤
    15400000 * u * vnorm (surfaceTangent s.ground ⨯₃ s.ground.itrs) := by
  have hu := S.acc.nonneg
  have hsm := S.acc.small
  have ht := tangent_close S hs h1 h2
  have hst := station_close S hs
  have hG0 := station_far hs
  have hG1 := station_near hs
  have hp := pole_bounds hs h1 h2
  have ha := axis_far hs h1 h2
  have e2 : vnorm (Rounded.itrs M pw s - s.ground.itrs) ≤ 318 * u * vnorm s.ground.itrs := by
    have := mul_le_mul_of_nonneg_left hG0 (show 0 ≤ 318 * u by positivity)
    linarith
  have c := cross_close S.acc (by linarith) (by linarith) (by positivity) (by positivity) ht e2
  have nt : vnorm (surfaceTangent s.ground) ≤
      2.011 * |s.ground.radius / Real.sin s.ground.lat| := by
    have a := vnorm_sub_le ![0, 0, s.ground.radius / Real.sin s.ground.lat] 0 s.ground.itrs
    rw [sub_zero, zero_sub, show -s.ground.itrs = (-1 : ℝ) • s.ground.itrs by simp,
      vnorm_smul] at a
    have b : vnorm ![0, 0, s.ground.radius / Real.sin s.ground.lat] =
        |s.ground.radius / Real.sin s.ground.lat| := by
      rw [← Real.sqrt_sq_eq_abs, ← Real.sqrt_sq (vnorm_nonneg _), vnorm_sq_coords]
      simp only [Matrix.cons_val_zero, Matrix.cons_val_one, Matrix.cons_val]
      norm_num
    rw [b] at a
    have e : surfaceTangent s.ground =
      ![0, 0, s.ground.radius / Real.sin s.ground.lat] - s.ground.itrs := rfl
    rw [e]
    rw [abs_neg, abs_one, one_mul] at a
    linarith
  have nc : vnorm (surfaceTangent s.ground ⨯₃ s.ground.itrs) =
      |s.ground.radius / Real.sin s.ground.lat| *
        ((primeVertical s.ground.lat + s.ground.height) * Real.cos s.ground.lat) := by
    rw [direction_coords, vnorm_smul, vnorm_east, mul_one, abs_mul,
      abs_of_pos (a := (primeVertical s.ground.lat + s.ground.height) * Real.cos s.ground.lat)
        (by linarith)]
  rw [nc]
  set T := |s.ground.radius / Real.sin s.ground.lat| with hT
  have k1 := mul_le_mul nt hG1 (vnorm_nonneg _) (by positivity)
  have k2 := mul_le_mul_of_nonneg_left ha (abs_nonneg (s.ground.radius / Real.sin s.ground.lat))
  rw [← hT] at k2
  have k3 := mul_le_mul_of_nonneg_left k1 (show 0 ≤ 132000 * u by positivity)
  have k4 := mul_le_mul_of_nonneg_left k2 hu
  have k5 : 0 ≤ u * (vnorm (surfaceTangent s.ground) * vnorm s.ground.itrs) :=
    mul_nonneg hu (mul_nonneg (vnorm_nonneg _) (vnorm_nonneg _))
  linarith

end Celest.Frames
