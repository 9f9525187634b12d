/-
C130 continued: azimuths from inertial positions in floating-point arithmetic.
-/
import Verif.Frames.PropsRoundedAzimuth
import Verif.Windows.PropsPipeline

namespace Celest.Windows

open Celest.Frames Celest.TimeScale Matrix

variable {M : Machine} {pw : ℝ → ℕ → ℝ} {s : Site}

/-! ### Azimuths of slightly wrong positions -/

theorem onPlane_sub (p p' : Vec) (g : Ground) :
    onPlane p' g - onPlane p g =
      (p' - p) - ((p' - p) ⬝ᵥ g.itrs / g.radius ^ 2) • g.itrs := by
  have e1 : onPlane p' g = (p' - g.itrs) - ((p' - g.itrs) ⬝ᵥ g.itrs / g.radius ^ 2) • g.itrs := rfl
  have e2 : onPlane p g = (p - g.itrs) - ((p - g.itrs) ⬝ᵥ g.itrs / g.radius ^ 2) • g.itrs := rfl
  have e3 : (p' - p) ⬝ᵥ g.itrs = (p' - g.itrs) ⬝ᵥ g.itrs - (p - g.itrs) ⬝ᵥ g.itrs := by
    rw [← sub_dotProduct]
    congr 1
    abel
  rw [e1, e2, e3, sub_div, sub_smul]
  abel

theorem onPlane_moves (hs : s.Valid) (p p' : Vec) :
    vnorm (onPlane p' s.ground - onPlane p s.ground) ≤ 2.03 * vnorm (p' - p) := by
  have hh := abs_le.1 hs.height
  have hgh : s.ground.height = s.height := rfl
  obtain ⟨r1, r2⟩ := radius_bounds s.ground
  have hG1 := station_near hs
  rw [onPlane_sub]
  set d := p' - p
  set g := s.ground.itrs
  have hR : 0 < s.ground.radius ^ 2 := by
    have : 0 < s.ground.radius := by linarith
    positivity
  have hGR : vnorm g ^ 2 ≤ 1.0204 * s.ground.radius ^ 2 := by
    have b1 : vnorm g ^ 2 ≤ 6410 ^ 2 := by
      have := vnorm_nonneg g
      gcongr
    have b2 : (6346 : ℝ) ^ 2 ≤ s.ground.radius ^ 2 := by
      have : 6346 ≤ s.ground.radius := by linarith
      gcongr
    linarith
  have nv : vnorm ((d ⬝ᵥ g / s.ground.radius ^ 2) • g) ≤ 1.0204 * vnorm d := by
    rw [vnorm_smul, abs_div, abs_of_pos hR, div_mul_eq_mul_div, div_le_iff₀ hR]
    have b1 := mul_le_mul_of_nonneg_right (abs_dot_le d g) (vnorm_nonneg g)
    have b2 := mul_le_mul_of_nonneg_left hGR (vnorm_nonneg d)
    linarith
  set v := (d ⬝ᵥ g / s.ground.radius ^ 2) • g
  have a := vnorm_sub_le d 0 v
  rw [sub_zero, zero_sub, show -v = (-1 : ℝ) • v by simp, vnorm_smul, abs_neg, abs_one, one_mul] at a
  have := vnorm_nonneg d
  linarith

theorem eastOf_moves (s : Site) (p p' : Vec) : |eastOf p' s - eastOf p s| ≤ vnorm (p' - p) := by
  have e : eastOf p' s - eastOf p s =
      (p' - p) ⬝ᵥ ![-Real.sin (rad s.lon), Real.cos (rad s.lon), 0] := by
    unfold eastOf
    simp only [dotProduct, Fin.sum_univ_three, Pi.sub_apply, Matrix.cons_val_zero,
      Matrix.cons_val_one, Matrix.cons_val]
    ring
  rw [e]
  refine (abs_dot_le _ _).trans ?_
  rw [vnorm_east, mul_one]

/-- The azimuth without rounding of a slightly wrong position. -/
theorem azimuth_moved {p p' : Vec} {ε : ℝ} (hw : Watchable p s) (hw' : Watchable p' s)
    (h : vnorm (p' - p) ≤ ε * vnorm (p - s.ground.itrs)) (hε : ε ≤ 1 / 10 ^ 5) :
    ∃ y y', azimuth p s.ground = some y ∧ azimuth p' s.ground = some y' ∧
      (|y' - y| ≤ 10750 * ε ∨ NearMeridian ε p s ∧ |y' - (360 - y)| ≤ 10750 * ε) := by
  have S := binary64_setup
  refine ⟨_, _, azimuth_exists S hw, azimuth_exists S hw', ?_⟩
  have hd := hw.distance
  have hε0 : 0 ≤ ε := by
    by_contra hneg
    have := mul_neg_of_neg_of_pos (not_le.1 hneg) (show 0 < vnorm (p - s.ground.itrs) by linarith)
    linarith [vnorm_nonneg (p' - p)]
  have hl := onPlane_long hw.valid (by linarith) hw.elevation
  have hm := onPlane_moves hw.valid p p'
  have hpi := Real.pi_pos
  have hf : vnorm (onPlane p' s.ground - onPlane p s.ground) ≤
      116.4 * ε * vnorm (onPlane p s.ground) := by
    have a1 := mul_le_mul_of_nonneg_left hl (show 0 ≤ 116.4 * ε by positivity)
    have a2 : 0 ≤ ε * vnorm (p - s.ground.itrs) := mul_nonneg hε0 (vnorm_nonneg _)
    linarith
  have hA := angle_moved (tangent_pos hw) (onPlane_rel S hw).1
    (a' := surfaceTangent s.ground) (e := 0) (by
      rw [sub_self, zero_mul, show vnorm (0 : Vec) = 0 by simp [vnorm]]) hf (by norm_num)
    (by linarith)
  have h57 : 180 / Real.pi ≤ 57.5 := (degrees_close S.acc).2
  have hk : 0 < 180 / Real.pi := by positivity
  have hα : |InnerProductGeometry.angle (toE (surfaceTangent s.ground)) (toE (onPlane p' s.ground)) *
      (180 / Real.pi) - InnerProductGeometry.angle (toE (surfaceTangent s.ground))
        (toE (onPlane p s.ground)) * (180 / Real.pi)| ≤ 10750 * ε := by
    rw [← sub_mul, abs_mul, abs_of_pos hk]
    have := mul_le_mul hA h57 hk.le ((abs_nonneg _).trans hA)
    linarith
  set α := InnerProductGeometry.angle (toE (surfaceTangent s.ground)) (toE (onPlane p s.ground)) *
    (180 / Real.pi)
  set α' := InnerProductGeometry.angle (toE (surfaceTangent s.ground))
    (toE (onPlane p' s.ground)) * (180 / Real.pi)
  have far : |360 - α' - (360 - α)| ≤ 10750 * ε := by
    rw [show 360 - α' - (360 - α) = -(α' - α) by ring, abs_neg]
    exact hα
  by_cases hn : NearMeridian ε p s
  · split_ifs with c1 c2 c2
    · exact Or.inl far
    · exact Or.inr ⟨hn, far⟩
    · refine Or.inr ⟨hn, ?_⟩
      rw [show α' - (360 - (360 - α)) = α' - α by ring]
      exact hα
    · exact Or.inl hα
  · left
    have hside : (eastOf p' s < 0 ↔ eastOf p s < 0) ∧ (0 < eastOf p' s ↔ 0 < eastOf p s) := by
      unfold NearMeridian at hn
      push Not at hn
      have h1 := eastOf_moves s p p'
      have h2 : |eastOf p' s - eastOf p s| < |eastOf p s| := by linarith
      rcases lt_trichotomy (eastOf p s) 0 with h0 | h0 | h0
      · rw [abs_of_neg h0] at h2
        have := (abs_lt.1 h2).2
        constructor <;> constructor <;> intro <;> linarith
      · rw [h0, abs_zero] at h2
        exact absurd h2 (not_lt.2 (abs_nonneg _))
      · rw [abs_of_pos h0] at h2
        have := (abs_lt.1 h2).1
        constructor <;> constructor <;> intro <;> linarith
    rw [dot_direction p, dot_direction p']
    set K := s.ground.radius / Real.sin s.ground.lat *
      ((primeVertical s.ground.lat + s.ground.height) * Real.cos s.ground.lat)
    have hiff : K * eastOf p' s < 0 ↔ K * eastOf p s < 0 := by
      constructor
      · intro hh
        rcases mul_neg_iff.1 hh with ⟨a, b⟩ | ⟨a, b⟩
        · exact mul_neg_iff.2 (Or.inl ⟨a, hside.1.1 b⟩)
        · exact mul_neg_iff.2 (Or.inr ⟨a, hside.2.1 b⟩)
      · intro hh
        rcases mul_neg_iff.1 hh with ⟨a, b⟩ | ⟨a, b⟩
        · exact mul_neg_iff.2 (Or.inl ⟨a, hside.1.2 b⟩)
        · exact mul_neg_iff.2 (Or.inr ⟨a, hside.2.2 b⟩)
    by_cases c : K * eastOf p s < 0
    · rw [if_pos c, if_pos (hiff.2 c)]
      exact far
    · rw [if_neg c, if_neg (fun hh => c (hiff.1 hh))]
      exact hα

/-! ### C130 from inertial positions -/

/-- What is asked of a station and an inertial position: as for C130, with a margin, and the
position is no further from the centre of the Earth than 50 times its distance from the station. -/
structure WatchableFrom (s : Site) (t : ℝ) (r : Vec) : Prop where
  valid : s.Valid
  equator : 1 ≤ |s.lat|
  poles : |s.lat| ≤ 89
  distance : 101 ≤ vnorm (r - stationAt s.ground t)
  near : vnorm r ≤ 50 * vnorm (r - stationAt s.ground t)
  elevation : |elevationAt s.ground t r| ≤ 88

theorem watchable_of_gcrs {t : ℝ} {r : Vec} (h : WatchableFrom s t r) :
    Watchable (gcrsToItrs1 t r) s := by
  obtain ⟨e1, e2⟩ := elevationAt_eq s.ground t r
  have h1 := h.distance
  have h2 := h.elevation
  rw [← e2] at h1
  rw [e1] at h2
  exact ⟨h.valid, h.equator, h.poles, by linarith, by linarith⟩

theorem watchable_computed (S : Setup M pw (1 / 2 ^ 53)) {t : ℝ} {r : Vec} (ht : ThisCentury t)
    (h : WatchableFrom s t r) :
    vnorm (toItrs64 M pw t r - gcrsToItrs1 t r) ≤
      5.2 / 10 ^ 9 * vnorm (gcrsToItrs1 t r - s.ground.itrs) ∧
    Watchable (toItrs64 M pw t r) s := by
  obtain ⟨e1, e2⟩ := elevationAt_eq s.ground t r
  have hd := h.distance
  have he := h.elevation
  have hr := h.near
  rw [← e2] at hd hr
  rw [e1] at he
  have hc : vnorm (toItrs64 M pw t r - gcrsToItrs1 t r) ≤ 930000 * (1 / 2 ^ 53) * vnorm r :=
    (C116_error S ht r).1
  have hfar := station_far h.valid
  set p := gcrsToItrs1 t r
  set p' := toItrs64 M pw t r
  set G := s.ground.itrs
  have hp : vnorm (p' - p) ≤ 5.2 / 10 ^ 9 * vnorm (p - G) := by
    have : 930000 * (1 / 2 ^ 53) * vnorm r ≤ 930000 * (1 / 2 ^ 53) * (50 * vnorm (p - G)) := by
      gcongr
    linarith [vnorm_nonneg (p - G)]
  refine ⟨hp, h.valid, h.equator, h.poles, ?_, ?_⟩
  · have a := vnorm_sub_le p p' G
    rw [vnorm_sub_comm p p'] at a
    change 100 ≤ vnorm (p' - G)
    linarith
  · have hm : vnorm ((p - G) - (p' - G)) ≤ 5.2 / 10 ^ 9 * vnorm (p - G) := by
      rw [sub_sub_sub_cancel_right, vnorm_sub_comm]
      exact hp
    have a := trueElevation_close (by linarith) (by linarith) hm
      (ε := 0) (g' := G) (by
        rw [sub_self, zero_mul, show vnorm (0 : Vec) = 0 by simp [vnorm]]) (by norm_num) (by norm_num)
    have b := abs_sub_abs_le_abs_sub (trueElevation p' G) (trueElevation p G)
    change |trueElevation p' G| ≤ 89
    linarith

/-- **C130.** In double precision, between 1900 and 2100, the azimuth computed from an inertial
position and the geodetic coordinates of a station is within 0.00007 degrees of the value without
rounding, except that a satellite within a hundred millionth of its distance of the meridian plane
may be put on the wrong side of it. -/
theorem C130_from_gcrs (S : Setup M pw (1 / 2 ^ 53)) {t : ℝ} {r : Vec} (ht : ThisCentury t)
    (h : WatchableFrom s t r) {x : ℝ}
    (hx : Rounded.azimuth M pw (toItrs64 M pw t r) s = some x) :
    ∃ y, azimuth (gcrsToItrs1 t r) s.ground = some y ∧
      (|x - y| ≤ 7 / 10 ^ 5 ∨
        NearMeridian (1 / 10 ^ 8) (gcrsToItrs1 t r) s ∧ |x - (360 - y)| ≤ 7 / 10 ^ 5) := by
  obtain ⟨hm, hw'⟩ := watchable_computed S ht h
  have hw := watchable_of_gcrs h
  obtain ⟨y, y', hy, hy', hyy⟩ := azimuth_moved hw hw' hm (by norm_num)
  obtain ⟨z, hz, hxz⟩ := C130_azimuth S hw' hx
  rw [hy'] at hz
  obtain rfl := Option.some.inj hz
  have hE := azimuthError_binary64
  refine ⟨y, hy, ?_⟩
  have near1 : NearMeridian (5.2 / 10 ^ 9) (gcrsToItrs1 t r) s →
      NearMeridian (1 / 10 ^ 8) (gcrsToItrs1 t r) s := by
    intro hn
    refine hn.trans (mul_le_mul_of_nonneg_right (by norm_num) (vnorm_nonneg _))
  have near2 : NearMeridian (4 * 10 ^ 7 * (1 / 2 ^ 53)) (toItrs64 M pw t r) s →
      NearMeridian (1 / 10 ^ 8) (gcrsToItrs1 t r) s := by
    intro hn
    unfold NearMeridian at *
    have a1 := eastOf_moves s (gcrsToItrs1 t r) (toItrs64 M pw t r)
    have a2 := abs_sub_abs_le_abs_sub (eastOf (gcrsToItrs1 t r) s) (eastOf (toItrs64 M pw t r) s)
    rw [abs_sub_comm] at a2
    have a3 := vnorm_sub_le (toItrs64 M pw t r) (gcrsToItrs1 t r) s.ground.itrs
    have a4 := vnorm_nonneg (gcrsToItrs1 t r - s.ground.itrs)
    have a5 : 4 * 10 ^ 7 * (1 / 2 ^ 53) * vnorm (toItrs64 M pw t r - s.ground.itrs) ≤
        4.5 / 10 ^ 9 * (1.01 * vnorm (gcrsToItrs1 t r - s.ground.itrs)) := by
      refine mul_le_mul (by norm_num) ?_ (vnorm_nonneg _) (by norm_num)
      linarith
    linarith
  have flip : ∀ a b c : ℝ, |a - (360 - b)| ≤ 5 / 10 ^ 6 → |b - c| ≤ 10750 * (5.2 / 10 ^ 9) →
      |a - (360 - c)| ≤ 7 / 10 ^ 5 := by
    intro a b c h1 h2
    have := abs_sub_le a (360 - b) (360 - c)
    rw [show 360 - b - (360 - c) = -(b - c) by ring, abs_neg] at this
    linarith
  rcases hxz with h1 | ⟨n1, h1⟩
  · rcases hyy with h2 | ⟨n2, h2⟩
    · left
      have := abs_sub_le x y' y
      linarith
    · right
      refine ⟨near1 n2, ?_⟩
      have := abs_sub_le x y' (360 - y)
      linarith
  · rcases hyy with h2 | ⟨n2, h2⟩
    · exact Or.inr ⟨near2 n1, flip x y' y (h1.trans hE) h2⟩
    · left
      have := flip x y' (360 - y) (h1.trans hE) h2
      rwa [show 360 - (360 - y) = y by ring] at this

/-- Every station seen due east at 1000 km, carried to inertial space, meets the hypotheses. -/
theorem watchableFrom_east {s : Site} (hs : s.Valid) (h1 : 1 ≤ |s.lat|) (h2 : |s.lat| ≤ 89) (t : ℝ) :
    WatchableFrom s t (itrsToGcrs1 t (s.ground.itrs + (1000 : ℝ) • east s.ground.lon)) := by
  have hw := watchable_east hs h1 h2 (k := 1000) (by norm_num)
  have hback : gcrsToItrs1 t (itrsToGcrs1 t (s.ground.itrs + (1000 : ℝ) • east s.ground.lon)) =
      s.ground.itrs + (1000 : ℝ) • east s.ground.lon := by
    exact itrs_gcrs1 t _
  obtain ⟨e1, e2⟩ := elevationAt_eq s.ground t
    (itrsToGcrs1 t (s.ground.itrs + (1000 : ℝ) • east s.ground.lon))
  rw [hback] at e1 e2
  have hd : vnorm (s.ground.itrs + (1000 : ℝ) • east s.ground.lon - s.ground.itrs) = 1000 := by
    rw [add_sub_cancel_left, vnorm_smul, vnorm_of_east]
    norm_num
  rw [hd] at e2
  refine ⟨hs, h1, h2, by rw [← e2]; norm_num, ?_, ?_⟩
  · rw [← e2]
    obtain ⟨m, hm, h3, -⟩ := to_itrs_rotation s.ground t
    have h4 := h3 (itrsToGcrs1 t (s.ground.itrs + (1000 : ℝ) • east s.ground.lon))
    have h5 := hm.vnorm (itrsToGcrs1 t (s.ground.itrs + (1000 : ℝ) • east s.ground.lon))
    rw [← h4, hback] at h5
    rw [← h5]
    have h6 := vnorm_add s.ground.itrs ((1000 : ℝ) • east s.ground.lon)
    rw [vnorm_smul, vnorm_of_east] at h6
    have := station_near hs
    norm_num at h6
    linarith
  · rw [e1, trueElevation_horizontal (by rw [smul_dotProduct, east_dot, smul_zero])]
    norm_num

example (t : ℝ) : WatchableFrom ⟨45.4, -75.7, 0.1⟩ t (itrsToGcrs1 t
    ((Site.mk 45.4 (-75.7) 0.1).ground.itrs +
      (1000 : ℝ) • east (Site.mk 45.4 (-75.7) 0.1).ground.lon)) :=
  watchableFrom_east ⟨by norm_num [abs_le], by norm_num [abs_le], by norm_num [abs_le]⟩
    (by norm_num [le_abs]) (by norm_num [abs_le]) t

end Celest.Windows
