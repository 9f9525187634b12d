/-
C141: azimuths computed in floating-point arithmetic from inertial positions, against compass
directions.
-/
import Verif.Planning.PropsHorizon
import Verif.Windows.PropsAzimuth

namespace Celest.Windows

open Celest.Frames Celest.TimeScale Matrix

variable {M : Machine} {pw : ℝ → ℕ → ℝ} {s : Site}

/-! ### Specification -/

/-- Two directions of the compass, in degrees, are the same but for `δ` degrees. -/
def SameBearing (δ x A : ℝ) : Prop := ∃ turns : ℤ, |x - A - 360 * turns| ≤ δ

/-! ### Proofs -/

theorem SameBearing.mono {δ δ' x A : ℝ} (h : SameBearing δ x A) (hδ : δ ≤ δ') :
    SameBearing δ' x A := by
  obtain ⟨k, hk⟩ := h
  exact ⟨k, hk.trans hδ⟩

/-- An angle with a small sine is close to a multiple of half a turn. -/
theorem near_half_turns (A : ℝ) : ∃ j : ℤ, |A - 180 * j| ≤ 90 * |Real.sin (rad A)| := by
  have hp := Real.pi_pos
  refine ⟨round (A / 180), ?_⟩
  have h1 := abs_sub_round (A / 180)
  obtain ⟨j, hj⟩ : ∃ j, j = round (A / 180) := ⟨_, rfl⟩
  rw [← hj] at h1 ⊢
  have e : rad A - j * Real.pi = rad (A - 180 * j) := by unfold rad; ring
  have h2 : |rad A - j * Real.pi| ≤ Real.pi / 2 := by
    have : rad A - j * Real.pi = (A / 180 - j) * Real.pi := by unfold rad; ring
    rw [this, abs_mul, abs_of_pos hp]
    have := mul_le_mul_of_nonneg_right h1 hp.le
    linarith
  have h3 := Real.mul_abs_le_abs_sin h2
  rw [Real.sin_sub_int_mul_pi, abs_mul, abs_zpow, abs_neg, abs_one, one_zpow, one_mul, e] at h3
  have h4 : |rad (A - 180 * j)| = |A - 180 * j| * (Real.pi / 180) := by
    rw [show rad (A - 180 * j) = (A - 180 * j) * (Real.pi / 180) by unfold rad; ring, abs_mul,
      abs_of_pos (a := Real.pi / 180) (by positivity)]
  rw [h4] at h3
  have h5 : 2 / Real.pi * (|A - 180 * j| * (Real.pi / 180)) = |A - 180 * j| / 90 := by
    field_simp
    ring
  linarith

theorem eastOf_seenAt (s : Site) (ρ A e : ℝ) :
    eastOf (seenAt s.ground ρ A e) s = ρ * (Real.cos (rad e) * Real.sin (rad A)) := by
  have h2 := Real.sin_sq_add_cos_sq (rad s.lon)
  unfold eastOf seenAt northward up east Ground.itrs Site.ground
  simp only [Pi.add_apply, Pi.smul_apply, smul_eq_mul, Matrix.cons_val_zero, Matrix.cons_val_one]
  linear_combination (ρ * (Real.cos (rad e) * Real.sin (rad A))) * h2

theorem distance_seenAt (g : Ground) {ρ : ℝ} (hρ : 0 ≤ ρ) (A e : ℝ) :
    vnorm (seenAt g ρ A e - g.itrs) = ρ := by
  have hA := Real.sin_sq_add_cos_sq (rad A)
  have hE := Real.sin_sq_add_cos_sq (rad e)
  rw [seenAt_local, local_norm, ← Real.sqrt_sq hρ]
  congr 1
  rw [Real.sqrt_sq hρ]
  linear_combination (ρ ^ 2 * Real.cos (rad e) ^ 2) * hA + ρ ^ 2 * hE

theorem cos_elevation {e : ℝ} (he : |e| ≤ 87) : 0.03 ≤ Real.cos (rad e) := by
  have hp := Real.pi_pos
  have h : |rad e| = |e| * (Real.pi / 180) := by
    rw [show rad e = e * (Real.pi / 180) by unfold rad; ring, abs_mul,
      abs_of_pos (a := Real.pi / 180) (by positivity)]
  have h2 : |rad e| ≤ Real.pi / 2 := by
    rw [h]
    have := mul_le_mul_of_nonneg_right he (show 0 ≤ Real.pi / 180 by positivity)
    linarith
  have h3 := Real.one_sub_mul_le_cos (abs_nonneg (rad e)) h2
  rw [Real.cos_abs, h] at h3
  have h5 : 2 / Real.pi * (|e| * (Real.pi / 180)) = |e| / 90 := by
    field_simp
    ring
  linarith

theorem sin_latitude {x : ℝ} (h1 : 1 ≤ x) (h2 : x ≤ 89) : 0 < Real.sin (rad x) := by
  have hp := Real.pi_pos
  apply Real.sin_pos_of_pos_of_lt_pi
  · unfold rad
    positivity
  · have : rad x ≤ rad 89 := by unfold rad; gcongr
    have e : rad 89 = 89 / 180 * Real.pi := by unfold rad; ring
    linarith

theorem sin_latitude_south {x : ℝ} (h1 : x ≤ -1) (h2 : -89 ≤ x) : Real.sin (rad x) < 0 := by
  have := sin_latitude (x := -x) (by linarith) (by linarith)
  rw [show rad (-x) = -rad x by unfold rad; ring, Real.sin_neg] at this
  linarith

theorem cos_latitude {x : ℝ} (h : |x| ≤ 89) : 0.0001 ≤ Real.cos (rad x) := by
  have hp := Real.pi_pos
  have h' : |rad x| = |x| * (Real.pi / 180) := by
    rw [show rad x = x * (Real.pi / 180) by unfold rad; ring, abs_mul,
      abs_of_pos (a := Real.pi / 180) (by positivity)]
  have h2 : |rad x| ≤ Real.pi / 2 := by
    rw [h']
    have := mul_le_mul_of_nonneg_right h (show 0 ≤ Real.pi / 180 by positivity)
    linarith
  have h3 := Real.one_sub_mul_le_cos (abs_nonneg (rad x)) h2
  rw [Real.cos_abs, h'] at h3
  have h5 : 2 / Real.pi * (|x| * (Real.pi / 180)) = |x| / 90 := by
    field_simp
    ring
  linarith

theorem watchableFrom_seenAt (hs : s.Valid) (hh : -1 ≤ s.height) (h1 : 1 ≤ |s.lat|)
    (h2 : |s.lat| ≤ 89) (t : ℝ) {ρ A e : ℝ} (hρ : 131 ≤ ρ) (he : |e| ≤ 87) :
    WatchableFrom s t (itrsToGcrs1 t (seenAt s.ground ρ A e)) := by
  have hback := itrs_gcrs1 t (seenAt s.ground ρ A e)
  obtain ⟨e1, e2⟩ := elevationAt_eq s.ground t (itrsToGcrs1 t (seenAt s.ground ρ A e))
  rw [hback, distance_seenAt s.ground (by linarith)] at e2
  have a := elevation_horizon s.ground t (itrsToGcrs1 t (seenAt s.ground ρ A e)) hh
  rw [horizonElevation_seenAt s.ground t ρ A e (by linarith) (by linarith)] at a
  refine ⟨hs, h1, h2, by rw [← e2]; linarith, ?_, ?_⟩
  · rw [← e2]
    obtain ⟨m, hm, h3, -⟩ := to_itrs_rotation s.ground t
    have h4 := h3 (itrsToGcrs1 t (seenAt s.ground ρ A e))
    have h5 := hm.vnorm (itrsToGcrs1 t (seenAt s.ground ρ A e))
    rw [← h4, hback] at h5
    rw [← h5]
    have h6 := vnorm_add s.ground.itrs (seenAt s.ground ρ A e - s.ground.itrs)
    rw [distance_seenAt s.ground (by linarith), add_sub_cancel] at h6
    have := station_near hs
    linarith
  · have b := abs_le.1 a
    have c := abs_le.1 he
    rw [abs_le]
    constructor <;> linarith

theorem near_meridian_seenAt {ρ A e tol : ℝ} (hρ : 0 < ρ) (he : |e| ≤ 87)
    (h : NearMeridian tol (seenAt s.ground ρ A e) s) :
    ∃ j : ℤ, |A - 180 * j| ≤ 3000 * tol := by
  obtain ⟨j, hj⟩ := near_half_turns A
  refine ⟨j, hj.trans ?_⟩
  unfold NearMeridian at h
  have hc := cos_elevation he
  rw [eastOf_seenAt, distance_seenAt s.ground hρ.le, abs_mul, abs_of_pos hρ, mul_comm tol,
    abs_mul, abs_of_pos (a := Real.cos (rad e)) (by linarith)] at h
  have h' := le_of_mul_le_mul_left h hρ
  have := mul_le_mul_of_nonneg_right hc (abs_nonneg (Real.sin (rad A)))
  linarith

/-- From the azimuth without rounding to that with rounding. -/
theorem bearing_rounded (S : Setup M pw (1 / 2 ^ 53)) (hs : s.Valid) (hh : -1 ≤ s.height)
    (h1 : 1 ≤ |s.lat|) (h2 : |s.lat| ≤ 89) {t ρ A e δ B : ℝ} (ht : ThisCentury t) (hρ : 131 ≤ ρ)
    (he : |e| ≤ 87) (m : ℤ) (hB : B = A + 180 * m)
    (hy : ∃ y, azimuth (seenAt s.ground ρ A e) s.ground = some y ∧ |y - B| ≤ δ) {x : ℝ}
    (hx : Rounded.azimuth M pw (toItrs64 M pw t (itrsToGcrs1 t (seenAt s.ground ρ A e))) s =
      some x) : SameBearing (δ + 0.0002) x B := by
  obtain ⟨y', hy', hxy⟩ := C130_from_gcrs S ht
    (watchableFrom_seenAt hs hh h1 h2 t hρ he) hx
  rw [itrs_gcrs1] at hy' hxy
  obtain ⟨y, hy, hδ⟩ := hy
  rw [hy] at hy'
  obtain rfl := Option.some.inj hy'
  rcases hxy with hxy | ⟨hn, hxy⟩
  · refine ⟨0, ?_⟩
    have := abs_sub_le x y B
    push_cast
    rw [mul_zero, sub_zero]
    linarith
  · obtain ⟨j, hj⟩ := near_meridian_seenAt (by linarith) he hn
    refine ⟨1 - j - m, ?_⟩
    push_cast
    rw [abs_le] at *
    constructor <;> linarith

/-! ### Properties -/

/-- **C141 (partial).** In double precision, from 1900 to 2100, the azimuth computed from the
inertial position of a satellite and the geodetic coordinates of a station in the northern hemisphere
is the direction of the compass in which the satellite is seen, but for 0.2 degrees divided by the
cosine of the elevation and 0.0002 degrees of rounding.  Missing: these 0.2 degrees, and the
southern hemisphere, where it is false (`C141_south`). -/
theorem C141_north_partial (S : Setup M pw (1 / 2 ^ 53)) (hs : s.Valid) (hh : -1 ≤ s.height)
    (h1 : 1 ≤ s.lat) (h2 : s.lat ≤ 89) {t ρ A e : ℝ} (ht : ThisCentury t) (hρ : 131 ≤ ρ)
    (hA0 : 0 ≤ A) (hA1 : A < 360) (he : |e| ≤ 87) {x : ℝ}
    (hx : Rounded.azimuth M pw (toItrs64 M pw t (itrsToGcrs1 t (seenAt s.ground ρ A e))) s =
      some x) : SameBearing (0.2 / Real.cos (rad e) + 0.0002) x A := by
  have hl : |s.lat| = s.lat := abs_of_nonneg (by linarith)
  refine bearing_rounded S hs hh (by rw [hl]; exact h1) (by rw [hl]; exact h2) ht hρ he 0 (by simp)
    (C136_azimuth_north_partial s.ground ρ A e hh ?_ ?_ (by linarith) hA0 hA1
      (by linarith [cos_elevation he])) hx
  · exact cos_latitude (by rw [hl]; exact h2)
  · exact sin_latitude h1 h2

/-- **C141 is false in the southern hemisphere.** There the computed azimuth is off by half a turn,
to the same accuracy. -/
theorem C141_south (S : Setup M pw (1 / 2 ^ 53)) (hs : s.Valid) (hh : -1 ≤ s.height)
    (h1 : s.lat ≤ -1) (h2 : -89 ≤ s.lat) {t ρ A e : ℝ} (ht : ThisCentury t) (hρ : 131 ≤ ρ)
    (hA0 : 0 ≤ A) (hA1 : A < 360) (he : |e| ≤ 87) {x : ℝ}
    (hx : Rounded.azimuth M pw (toItrs64 M pw t (itrsToGcrs1 t (seenAt s.ground ρ A e))) s =
      some x) : SameBearing (0.2 / Real.cos (rad e) + 0.0002) x (A + 180) := by
  have hl : |s.lat| = -s.lat := abs_of_nonpos (by linarith)
  have hsin : Real.sin s.ground.lat < 0 := sin_latitude_south h1 h2
  have key := C136_azimuth_south s.ground ρ A e hh
    (cos_latitude (by rw [hl]; linarith)) hsin (by linarith) hA0 hA1
    (by linarith [cos_elevation he])
  by_cases hA : A < 180
  · rw [if_pos hA] at key
    exact bearing_rounded S hs hh (by rw [hl]; linarith) (by rw [hl]; linarith) ht hρ he 1
      (by push_cast; ring) key hx
  · rw [if_neg hA] at key
    obtain ⟨k, hk⟩ := bearing_rounded S hs hh (by rw [hl]; linarith) (by rw [hl]; linarith) ht hρ he
      (-1) (by push_cast; ring) key hx
    refine ⟨k - 1, ?_⟩
    push_cast
    rwa [show x - (A + 180) - 360 * ((k : ℝ) - 1) = x - (A - 180) - 360 * k by ring]

/-- **C141.** The azimuth comes out as NaN only for satellites seen due north or due south, but for
the same error. -/
theorem C141_nan_partial (S : Setup M pw (1 / 2 ^ 53)) (hs : s.Valid) (hh : -1 ≤ s.height)
    (h1 : 1 ≤ |s.lat|) (h2 : |s.lat| ≤ 89) {t ρ A e : ℝ} (ht : ThisCentury t) (hρ : 131 ≤ ρ)
    (hA0 : 0 ≤ A) (hA1 : A < 360) (he : |e| ≤ 87)
    (hx : Rounded.azimuth M pw (toItrs64 M pw t (itrsToGcrs1 t (seenAt s.ground ρ A e))) s =
      none) :
    SameBearing (0.2 / Real.cos (rad e) + 0.0002) 0 A ∨
      SameBearing (0.2 / Real.cos (rad e) + 0.0002) 180 A := by
  have hw := watchableFrom_seenAt hs hh h1 h2 t hρ he (A := A)
  obtain ⟨hm, hw'⟩ := watchable_computed S ht hw
  obtain ⟨y, y', hy, hy', hyy⟩ := azimuth_moved (watchable_of_gcrs hw) hw' hm (by norm_num)
  obtain ⟨z, hz, hnan⟩ := C130_nan_only_at_meridian S hw' hx
  rw [hy'] at hz
  obtain rfl := Option.some.inj hz
  rw [itrs_gcrs1] at hy hyy
  have hE := azimuthError_binary64
  obtain ⟨y0, y1⟩ := (C53_ranges_partial (toItrs64 M pw t (itrsToGcrs1 t (seenAt s.ground ρ A e)))
    s.ground).2.1 y' hy'
  obtain ⟨i, hi⟩ : ∃ i : ℤ, |y' - 180 * i| ≤ 5 / 10 ^ 6 := by
    rcases hnan with h | h | h
    · exact ⟨0, by push_cast; rw [abs_le]; constructor <;> linarith⟩
    · exact ⟨1, by push_cast; rw [mul_one]; linarith⟩
    · exact ⟨2, by push_cast; rw [abs_le]; constructor <;> linarith⟩
  obtain ⟨i', hi'⟩ : ∃ i : ℤ, |y - 180 * i| ≤ 0.0002 := by
    rcases hyy with h | ⟨-, h⟩
    · refine ⟨i, ?_⟩
      rw [abs_le] at *
      constructor <;> linarith
    · refine ⟨2 - i, ?_⟩
      push_cast
      rw [abs_le] at *
      constructor <;> linarith
  obtain ⟨m, hm⟩ : ∃ m : ℤ, |y - (A + 180 * m)| ≤ 0.2 / Real.cos (rad e) := by
    have hc := cos_latitude h2
    have hce : 0.02 ≤ Real.cos (rad e) := by linarith [cos_elevation he]
    rcases abs_cases s.lat with ⟨hl, -⟩ | ⟨hl, -⟩
    · obtain ⟨a, ha, h⟩ := C136_azimuth_north_partial s.ground ρ A e hh hc
        (sin_latitude (by rw [← hl]; exact h1) (by rw [← hl]; exact h2)) (by linarith) hA0 hA1 hce
      rw [hy] at ha
      obtain rfl := Option.some.inj ha
      exact ⟨0, by push_cast; rwa [mul_zero, add_zero]⟩
    · obtain ⟨a, ha, h⟩ := C136_azimuth_south s.ground ρ A e hh hc
        (sin_latitude_south (by linarith) (by linarith)) (by linarith) hA0 hA1 hce
      rw [hy] at ha
      obtain rfl := Option.some.inj ha
      by_cases hA : A < 180
      · rw [if_pos hA] at h
        exact ⟨1, by push_cast; rwa [mul_one]⟩
      · rw [if_neg hA] at h
        exact ⟨-1, by push_cast; rwa [mul_neg_one, ← sub_eq_add_neg]⟩
  have hfin : |180 * ((i' - m : ℤ) : ℝ) - A| ≤ 0.2 / Real.cos (rad e) + 0.0002 := by
    push_cast
    rw [abs_le] at *
    constructor <;> linarith
  rcases Int.even_or_odd' (i' - m) with ⟨n, hn | hn⟩
  · refine Or.inl ⟨-n, ?_⟩
    rw [hn] at hfin
    push_cast at hfin ⊢
    rwa [show 0 - A - 360 * -(n : ℝ) = 180 * (2 * n) - A by ring]
  · refine Or.inr ⟨-n, ?_⟩
    rw [hn] at hfin
    push_cast at hfin ⊢
    rwa [show 180 - A - 360 * -(n : ℝ) = 180 * (2 * n + 1) - A by ring]

/-- Non-vacuity for C141: a satellite due east on the horizon of Ottawa, 1000 km away, is given an
azimuth in double precision, which is 90 degrees up to 0.2002 degrees. -/
example : ∃ x, Rounded.azimuth binary64 power64 (toItrs64 binary64 power64 2460000
      (itrsToGcrs1 2460000 (seenAt (Site.mk 45.4 (-75.7) 0.1).ground 1000 90 0)))
      ⟨45.4, -75.7, 0.1⟩ = some x ∧ SameBearing 0.2002 x 90 := by
  have hv : (Site.mk 45.4 (-75.7) 0.1).Valid :=
    ⟨by norm_num [abs_le], by norm_num [abs_le], by norm_num [abs_le]⟩
  have hc : 0.2 / Real.cos (rad 0) + 0.0002 = 0.2002 := by
    rw [show rad 0 = 0 by unfold rad; ring, Real.cos_zero]
    norm_num
  have far : ∀ k : ℤ, ¬ |(0 : ℝ) - 90 - 360 * k| ≤ 0.2002 ∧
      ¬ |(180 : ℝ) - 90 - 360 * k| ≤ 0.2002 := by
    intro k
    rcases le_or_gt k 0 with h | h
    · have h' : (k : ℝ) ≤ 0 := by exact_mod_cast h
      rcases le_or_gt k (-1) with h2 | h2
      · have h3 : (k : ℝ) ≤ -1 := by exact_mod_cast h2
        constructor <;> rw [abs_le] <;> rintro ⟨_, _⟩ <;> linarith
      · obtain rfl : k = 0 := by omega
        constructor <;> rw [abs_le] <;> push_cast <;> rintro ⟨_, _⟩ <;> linarith
    · have h' : (1 : ℝ) ≤ k := by exact_mod_cast h
      constructor <;> rw [abs_le] <;> rintro ⟨_, _⟩ <;> linarith
  have ht : ThisCentury 2460000 := by norm_num [ThisCentury, abs_le]
  cases hx : Rounded.azimuth binary64 power64 (toItrs64 binary64 power64 2460000
      (itrsToGcrs1 2460000 (seenAt (Site.mk 45.4 (-75.7) 0.1).ground 1000 90 0)))
      ⟨45.4, -75.7, 0.1⟩ with
  | none =>
    exfalso
    have := C141_nan_partial binary64_setup hv (by norm_num) (by norm_num [le_abs]) (by norm_num [abs_le]) ht
      (by norm_num) (by norm_num) (by norm_num) (by norm_num) hx
    rw [hc] at this
    rcases this with ⟨k, hk⟩ | ⟨k, hk⟩
    · exact (far k).1 hk
    · exact (far k).2 hk
  | some x =>
    have := C141_north_partial binary64_setup hv (by norm_num) (by norm_num) (by norm_num) ht
      (by norm_num) (by norm_num) (by norm_num) (by norm_num) hx
    rw [hc] at this
    exact ⟨x, rfl, this⟩

end Celest.Windows
