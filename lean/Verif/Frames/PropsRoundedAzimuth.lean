/-
C130: azimuths in floating-point arithmetic.
-/
import Verif.Frames.LemmasRoundedAzimuth
import Verif.Frames.PropsAngles

namespace Celest.Frames

open Celest.TimeScale Matrix

variable {M : Machine} {pw : ℝ → ℕ → ℝ} {u : ℝ}

/-! ### Specification -/

/-- What is asked of a station and a satellite: the station is at least a degree from the equator
and from the poles, and the satellite, given in Earth-fixed coordinates in kilometres, is at least
100 km away and its elevation is between -89 and 89 degrees. -/
structure Watchable (sat : Vec) (s : Site) : Prop where
  valid : s.Valid
  equator : 1 ≤ |s.lat|
  poles : |s.lat| ≤ 89
  distance : 100 ≤ vnorm (sat - s.ground.itrs)
  elevation : |trueElevation sat s.ground.itrs| ≤ 89

/-- The bound on the error of an azimuth, degrees. -/
noncomputable def azimuthError (u : ℝ) : ℝ := 180 * Real.sqrt (6.5 * u) + 3 * 10 ^ 8 * u

/-- The satellite is in the meridian plane of the station, but for the stated part of its
distance. -/
def NearMeridian (tolerance : ℝ) (sat : Vec) (s : Site) : Prop :=
  |eastOf sat s| ≤ tolerance * vnorm (sat - s.ground.itrs)

/-! ### Angles of slightly wrong vectors -/

theorem angle_moved {a b a' b' : Vec} {e f : ℝ} (ha0 : 0 < vnorm a) (hb0 : 0 < vnorm b)
    (ha : vnorm (a' - a) ≤ e * vnorm a) (hb : vnorm (b' - b) ≤ f * vnorm b) (he : e ≤ 1 / 100)
    (hf : f ≤ 1 / 100) :
    |InnerProductGeometry.angle (toE a') (toE b') - InnerProductGeometry.angle (toE a) (toE b)| ≤
      1.6 * (e + f) := by
  rw [vnorm_sub_comm] at ha hb
  have a1 := angle_small ha0 le_rfl ha he
  have a2 := angle_small hb0 le_rfl hb hf
  have t1 := InnerProductGeometry.angle_le_angle_add_angle (toE a) (toE a') (toE b)
  have t2 := InnerProductGeometry.angle_le_angle_add_angle (toE a') (toE b') (toE b)
  have t3 := InnerProductGeometry.angle_le_angle_add_angle (toE a') (toE a) (toE b')
  have t4 := InnerProductGeometry.angle_le_angle_add_angle (toE a) (toE b) (toE b')
  rw [InnerProductGeometry.angle_comm (toE a') (toE a)] at t3
  rw [InnerProductGeometry.angle_comm (toE b') (toE b)] at t2
  rw [abs_le]
  constructor <;> linarith

theorem ne_zero_of_close {a a' : Vec} {e : ℝ} (ha0 : 0 < vnorm a)
    (ha : vnorm (a' - a) ≤ e * vnorm a) (he : e ≤ 1 / 100) : a' ≠ 0 := by
  rintro rfl
  rw [vnorm_sub_comm, sub_zero] at ha
  nlinarith

/-- The angle `_get_ang` computes from slightly wrong vectors, and when it is missing. -/
theorem getAng_moved (h : M.Accurate u) {a b a' b' : Vec} {e f : ℝ} (ha0 : 0 < vnorm a)
    (hb0 : 0 < vnorm b) (ha : vnorm (a' - a) ≤ e * vnorm a) (hb : vnorm (b' - b) ≤ f * vnorm b)
    (he : e ≤ 1 / 100) (hf : f ≤ 1 / 100) :
    (∀ x, Rounded.getAng M a' b' = some x → |x| ≤ 181 ∧
      |x - InnerProductGeometry.angle (toE a) (toE b) * (180 / Real.pi)| ≤
        180 * Real.sqrt (6.5 * u) + 890 * u + 92 * (e + f)) ∧
    (Rounded.getAng M a' b' = none →
      InnerProductGeometry.angle (toE a) (toE b) * (180 / Real.pi) ≤
        180 * Real.sqrt (6.5 * u) + 92 * (e + f) ∨
      180 - InnerProductGeometry.angle (toE a) (toE b) * (180 / Real.pi) ≤
        180 * Real.sqrt (6.5 * u) + 92 * (e + f)) := by
  have hu := h.nonneg
  have hpi := Real.pi_pos
  have za := ne_zero_of_close ha0 ha he
  have zb := ne_zero_of_close hb0 hb hf
  have hz := cosine_close h za zb
  have hm := angle_moved ha0 hb0 ha hb he hf
  have h57 := (degrees_close h).2
  set θ' := InnerProductGeometry.angle (toE a') (toE b') with hθ'
  set θ := InnerProductGeometry.angle (toE a) (toE b) with hθ
  have hθ0 : 0 ≤ θ' := InnerProductGeometry.angle_nonneg _ _
  have hθp : θ' ≤ Real.pi := InnerProductGeometry.angle_le_pi _ _
  have hk : 0 < 180 / Real.pi := by positivity
  have hdeg : |θ' - θ| * (180 / Real.pi) ≤ 92 * (e + f) := by
    have := mul_le_mul hm h57 hk.le ((abs_nonneg _).trans hm)
    linarith
  have conv : Real.pi * Real.sqrt (13 * u / 2) * (180 / Real.pi) = 180 * Real.sqrt (6.5 * u) := by
    rw [show 13 * u / 2 = 6.5 * u by ring]
    field_simp
  constructor
  · intro x hx
    obtain ⟨hc, h1, h2⟩ := getAng_close h hx
    refine ⟨h2, ?_⟩
    set q := Rounded.cosine M a' b' with hq
    have hcos : Real.cos (Real.arccos q) = q := Real.cos_arccos (abs_le.1 hc).1 (abs_le.1 hc).2
    obtain ⟨m1, -, -⟩ := angle_of_cos (Real.arccos_nonneg q) (Real.arccos_le_pi q) hθ0 hθp
      (δ := 13 * u) (by rw [hcos]; exact hz)
    have m2 := mul_le_mul_of_nonneg_right m1 hk.le
    rw [conv] at m2
    have s1 := abs_sub_le x (Real.arccos q * (180 / Real.pi)) (θ' * (180 / Real.pi))
    have s2 := abs_sub_le x (θ' * (180 / Real.pi)) (θ * (180 / Real.pi))
    rw [← sub_mul, abs_mul, abs_of_pos hk] at s1
    rw [← sub_mul θ' θ, abs_mul, abs_of_pos hk] at s2
    linarith
  · intro hx
    unfold Rounded.getAng at hx
    have hpos := lengths_pos h za zb
    have hP := mul_pos (vnorm_pos za) (vnorm_pos zb)
    rw [if_neg (by linarith)] at hx
    split_ifs at hx with h1
    have hz' := abs_le.1 hz
    have d1 := le_abs_self (θ' - θ)
    have d2 := neg_abs_le (θ' - θ)
    rcases lt_abs.1 h1 with h1 | h1
    · left
      obtain ⟨m, -, -⟩ := angle_of_cos hθ0 hθp le_rfl hpi.le (δ := 13 * u) (by
        rw [Real.cos_zero, abs_le]
        have := Real.cos_le_one θ'
        constructor <;> linarith)
      rw [sub_zero, abs_of_nonneg hθ0] at m
      have m2 := mul_le_mul_of_nonneg_right m hk.le
      have m3 : θ * (180 / Real.pi) ≤ (θ' + |θ' - θ|) * (180 / Real.pi) :=
        mul_le_mul_of_nonneg_right (by linarith) hk.le
      rw [conv] at m2
      linarith
    · right
      obtain ⟨m, -, -⟩ := angle_of_cos hθ0 hθp hpi.le le_rfl (δ := 13 * u) (by
        rw [Real.cos_pi, abs_le]
        have := Real.neg_one_le_cos θ'
        constructor <;> linarith)
      have m0 := neg_abs_le (θ' - Real.pi)
      have m1 : Real.pi - θ' ≤ Real.pi * Real.sqrt (13 * u / 2) := by linarith
      have m2 := mul_le_mul_of_nonneg_right m1 hk.le
      have m3 : (Real.pi - θ) * (180 / Real.pi) ≤ (Real.pi - θ' + |θ' - θ|) * (180 / Real.pi) :=
        mul_le_mul_of_nonneg_right (by linarith) hk.le
      have m4 : (Real.pi - θ) * (180 / Real.pi) = 180 - θ * (180 / Real.pi) := by field_simp
      rw [conv] at m2
      linarith

/-! ### C130 -/

section

variable {sat : Vec} {s : Site}

theorem tangent_pos (h : Watchable sat s) : 0 < vnorm (surfaceTangent s.ground) := by
  have h1 := tangent_long h.valid h.equator h.poles
  have h2 := pole_bounds h.valid h.equator h.poles
  linarith

theorem onPlane_rel (S : Setup M pw u) (h : Watchable sat s) : 0 < vnorm (onPlane sat s.ground) ∧
    vnorm (Rounded.onPlane M pw sat s - onPlane sat s.ground) ≤
      2400000 * u * vnorm (onPlane sat s.ground) := by
  have hu := S.acc.nonneg
  have hd := h.distance
  have h1 := onPlane_long h.valid (by linarith) h.elevation
  have h2 := (onPlane_close S h.valid hd).1
  refine ⟨by linarith, ?_⟩
  have := mul_le_mul_of_nonneg_left h1 (show 0 ≤ 2400000 * u by positivity)
  have : 0 ≤ u * vnorm (sat - s.ground.itrs) := mul_nonneg hu (vnorm_nonneg _)
  linarith

theorem sines_ne (S : Setup M pw u) (h : Watchable sat s) : Real.sin s.ground.lat ≠ 0 ∧
    M.sin (Rounded.degToRad M s.lat) ≠ 0 := by
  have hsm := S.acc.small
  obtain ⟨h1, -⟩ := mid_latitude h.equator h.poles
  have h2 := ((lat_close S h.valid).sin S.acc).err
  have h3 := abs_sub_abs_le_abs_sub (Real.sin s.ground.lat) (M.sin (Rounded.degToRad M s.lat))
  rw [abs_sub_comm (Real.sin s.ground.lat)] at h3
  constructor
  · rw [← abs_pos]
    linarith
  · rw [← abs_pos]
    linarith

/-- The side of the meridian is found unless the satellite is next to the meridian plane. -/
theorem side_kept (S : Setup M pw u) (h : Watchable sat s)
    (hn : ¬ NearMeridian (4 * 10 ^ 7 * u) sat s) :
    (M.dot (Rounded.onPlane M pw sat s) (Rounded.cross M (Rounded.surfaceTangent M pw s)
      (Rounded.itrs M pw s)) < 0 ↔
    onPlane sat s.ground ⬝ᵥ (surfaceTangent s.ground ⨯₃ s.ground.itrs) < 0) := by
  have hu := S.acc.nonneg
  have hsm := S.acc.small
  obtain ⟨w0, w1⟩ := onPlane_rel S h
  have w2 := (onPlane_close S h.valid h.distance).2
  have c1 := direction_error S h.valid h.equator h.poles
  have dt := dot_error S.acc (by linarith) (by linarith) (by positivity) (by positivity) w1 c1
  have ha := axis_far h.valid h.equator h.poles
  have hp := pole_bounds h.valid h.equator h.poles
  have nc : vnorm (surfaceTangent s.ground ⨯₃ s.ground.itrs) =
      |s.ground.radius / Real.sin s.ground.lat *
        ((primeVertical s.ground.lat + s.ground.height) * Real.cos s.ground.lat)| := by
    rw [direction_coords, vnorm_smul, vnorm_east, mul_one]
  have hdd := dot_direction sat s
  set K := s.ground.radius / Real.sin s.ground.lat *
    ((primeVertical s.ground.lat + s.ground.height) * Real.cos s.ground.lat) with hK
  have hK0 : 0 < |K| := by
    rw [hK, abs_mul]
    apply mul_pos (by linarith)
    rw [abs_pos]
    linarith
  unfold NearMeridian at hn
  push Not at hn
  rw [nc] at dt
  set D := vnorm (sat - s.ground.itrs) with hD
  set w := vnorm (onPlane sat s.ground) with hw
  set P := onPlane sat s.ground ⬝ᵥ (surfaceTangent s.ground ⨯₃ s.ground.itrs) with hP
  set p := M.dot (Rounded.onPlane M pw sat s) (Rounded.cross M (Rounded.surfaceTangent M pw s)
    (Rounded.itrs M pw s)) with hpdef
  have k1 : |p - P| < |P| := by
    have a1 : |P| = |K| * |eastOf sat s| := by rw [hdd, abs_mul]
    have a2 := mul_lt_mul_of_pos_left hn hK0
    have a3 : (1.001 * (2400000 * u) + 15400000 * u + 4.1 * u) * (w * |K|) ≤
        1.9 * 10 ^ 7 * u * (w * |K|) := by
      apply mul_le_mul_of_nonneg_right _ (by positivity)
      linarith
    have a4 : 1.9 * 10 ^ 7 * u * (w * |K|) ≤ 1.9 * 10 ^ 7 * u * (2.03 * D * |K|) := by gcongr
    have a5 : 0 ≤ u * D * |K| := mul_nonneg (mul_nonneg hu (vnorm_nonneg _)) hK0.le
    rw [a1]
    linarith
  rcases lt_or_ge P 0 with hP0 | hP0
  · rw [abs_of_neg hP0] at k1
    have := (abs_lt.1 k1).2
    exact ⟨fun _ => hP0, fun _ => by linarith⟩
  · rw [abs_of_nonneg hP0] at k1
    have := (abs_lt.1 k1).1
    exact ⟨fun hh => absurd hh (by linarith), fun hh => absurd hh (by linarith)⟩

theorem azimuthError_bound (hu : 0 ≤ u) : 180 * Real.sqrt (6.5 * u) + 890 * u +
    92 * (131000 * u + 2400000 * u) + 600 * u ≤ azimuthError u := by
  unfold azimuthError
  linarith

/-- The azimuth without rounding exists. -/
theorem azimuth_exists (S : Setup M pw u) (h : Watchable sat s) :
    azimuth sat s.ground = some
      (if onPlane sat s.ground ⬝ᵥ (surfaceTangent s.ground ⨯₃ s.ground.itrs) < 0 then
        360 - InnerProductGeometry.angle (toE (surfaceTangent s.ground))
          (toE (onPlane sat s.ground)) * (180 / Real.pi)
      else InnerProductGeometry.angle (toE (surfaceTangent s.ground))
          (toE (onPlane sat s.ground)) * (180 / Real.pi)) := by
  have ht := tangent_pos h
  have hw := (onPlane_rel S h).1
  have z1 : surfaceTangent s.ground ≠ 0 := by
    intro z
    rw [z, show vnorm (0 : Vec) = 0 by simp [vnorm]] at ht
    exact lt_irrefl _ ht
  have z2 : onPlane sat s.ground ≠ 0 := by
    intro z
    rw [z, show vnorm (0 : Vec) = 0 by simp [vnorm]] at hw
    exact lt_irrefl _ hw
  unfold azimuth
  rw [if_neg (sines_ne S h).1, getAng_eq _ _ z1 z2]
  rfl

/-- **C130.** An azimuth that comes out as a number is right to within `azimuthError u`, except that
for a satellite next to the meridian plane the code may take the wrong side of it. -/
theorem C130_azimuth (S : Setup M pw u) (h : Watchable sat s) {x : ℝ}
    (hx : Rounded.azimuth M pw sat s = some x) :
    ∃ y, azimuth sat s.ground = some y ∧
      (|x - y| ≤ azimuthError u ∨
        NearMeridian (4 * 10 ^ 7 * u) sat s ∧ |x - (360 - y)| ≤ azimuthError u) := by
  have hu := S.acc.nonneg
  have hsm := S.acc.small
  refine ⟨_, azimuth_exists S h, ?_⟩
  unfold Rounded.azimuth at hx
  rw [if_neg (sines_ne S h).2] at hx
  obtain ⟨a, ha, hxa⟩ := Option.map_eq_some_iff.1 hx
  obtain ⟨b1, b2⟩ := (getAng_moved S.acc (tangent_pos h) (onPlane_rel S h).1
    (tangent_close S h.valid h.equator h.poles) (onPlane_rel S h).2 (by linarith) (by linarith)).1
      a ha
  have hE := azimuthError_bound hu
  set α := InnerProductGeometry.angle (toE (surfaceTangent s.ground))
    (toE (onPlane sat s.ground)) * (180 / Real.pi) with hα
  have hfl : |M.fl (360 - a) - (360 - a)| ≤ 600 * u := by
    have c1 := S.acc.fl (360 - a)
    have c2 : |360 - a| ≤ 600 := by
      have := abs_le.1 b1
      rw [abs_le]
      constructor <;> linarith
    have := mul_le_mul_of_nonneg_left c2 hu
    linarith
  have far : ∀ z, |z - (360 - a)| ≤ 600 * u → |z - (360 - α)| ≤ azimuthError u := by
    intro z hz
    have c := abs_sub_le z (360 - a) (360 - α)
    rw [show 360 - a - (360 - α) = -(a - α) by ring, abs_neg] at c
    linarith
  have near : |a - α| ≤ azimuthError u := by linarith
  by_cases hn : NearMeridian (4 * 10 ^ 7 * u) sat s
  · rw [← hxa]
    split_ifs with p q q
    · exact Or.inl (far _ hfl)
    · exact Or.inr ⟨hn, far _ hfl⟩
    · refine Or.inr ⟨hn, ?_⟩
      rw [show (360 : ℝ) - (360 - α) = α by ring]
      exact near
    · exact Or.inl near
  · have hside := side_kept S h hn
    left
    rw [← hxa]
    by_cases q : onPlane sat s.ground ⬝ᵥ (surfaceTangent s.ground ⨯₃ s.ground.itrs) < 0
    · rw [if_pos q, if_pos (hside.2 q)]
      exact far _ hfl
    · rw [if_neg q, if_neg (fun p => q (hside.1 p))]
      exact near

/-- **C130.** An azimuth comes out as NaN only within `azimuthError u` of 0, 180 or 360 degrees. -/
theorem C130_nan_only_at_meridian (S : Setup M pw u) (h : Watchable sat s)
    (hx : Rounded.azimuth M pw sat s = none) :
    ∃ y, azimuth sat s.ground = some y ∧
      (y ≤ azimuthError u ∨ |y - 180| ≤ azimuthError u ∨ 360 - y ≤ azimuthError u) := by
  have hu := S.acc.nonneg
  have hsm := S.acc.small
  have hpi := Real.pi_pos
  refine ⟨_, azimuth_exists S h, ?_⟩
  unfold Rounded.azimuth at hx
  rw [if_neg (sines_ne S h).2, Option.map_eq_none_iff] at hx
  have b := (getAng_moved S.acc (tangent_pos h) (onPlane_rel S h).1
    (tangent_close S h.valid h.equator h.poles) (onPlane_rel S h).2 (by linarith) (by linarith)).2 hx
  have hE := azimuthError_bound hu
  have hle : InnerProductGeometry.angle (toE (surfaceTangent s.ground))
      (toE (onPlane sat s.ground)) * (180 / Real.pi) ≤ 180 := by
    calc _ ≤ Real.pi * (180 / Real.pi) := mul_le_mul_of_nonneg_right
          (InnerProductGeometry.angle_le_pi _ _) (by positivity)
      _ = 180 := by field_simp
  set α := InnerProductGeometry.angle (toE (surfaceTangent s.ground))
    (toE (onPlane sat s.ground)) * (180 / Real.pi) with hα
  split_ifs with q
  · rcases b with b | b
    · right; right
      linarith
    · right; left
      rw [abs_le]
      constructor <;> linarith
  · rcases b with b | b
    · left
      linarith
    · right; left
      rw [abs_le]
      constructor <;> linarith

end

theorem azimuthError_binary64 : azimuthError (1 / 2 ^ 53) ≤ 5 / 10 ^ 6 := by
  have : Real.sqrt (6.5 * (1 / 2 ^ 53)) ≤ 2.69 / 10 ^ 8 := by
    rw [Real.sqrt_le_left (by norm_num)]
    norm_num
  unfold azimuthError
  have : (3 * 10 ^ 8 * (1 / 2 ^ 53) : ℝ) ≤ 4 / 10 ^ 8 := by norm_num
  linarith

/-- **C130.** In double precision azimuths are right to within 5 millionths of a degree; the wrong
side of the meridian is taken only within 5 parts in a thousand million of the distance of it. -/
theorem C130_double {sat : Vec} {s : Site} (h : Watchable sat s) {x : ℝ}
    (hx : Rounded.azimuth binary64 power64 sat s = some x) :
    ∃ y, azimuth sat s.ground = some y ∧
      (|x - y| ≤ 5 / 10 ^ 6 ∨
        NearMeridian (5 / 10 ^ 9) sat s ∧ |x - (360 - y)| ≤ 5 / 10 ^ 6) := by
  have e := azimuthError_binary64
  obtain ⟨y, h1, h2⟩ := C130_azimuth binary64_setup h hx
  refine ⟨y, h1, ?_⟩
  rcases h2 with h2 | ⟨h2, h3⟩
  · exact Or.inl (h2.trans e)
  · refine Or.inr ⟨h2.trans ?_, h3.trans e⟩
    apply mul_le_mul_of_nonneg_right _ (vnorm_nonneg _)
    norm_num

/-! ### A satellite due east -/

theorem trueElevation_horizontal {g n : Vec} (h : n ⬝ᵥ g = 0) : trueElevation (g + n) g = 0 := by
  unfold trueElevation
  rw [add_sub_cancel_left, (InnerProductGeometry.inner_eq_zero_iff_angle_eq_pi_div_two _ _).1
    (by rw [inner_toE]; exact h)]
  have := Real.pi_pos
  field_simp
  ring

theorem east_dot (g : Ground) : east g.lon ⬝ᵥ g.itrs = 0 := by
  rw [itrs_meridian]
  simp [east, dotProduct, Fin.sum_univ_three]
  ring

theorem vnorm_of_east (a : ℝ) : vnorm (east a) = 1 := by
  have e : east a = ![-Real.sin a, Real.cos a, 0] := rfl
  rw [e]
  exact vnorm_east a

/-- A satellite due east on the horizon is watchable. -/
theorem watchable_east {s : Site} (hs : s.Valid) (h1 : 1 ≤ |s.lat|) (h2 : |s.lat| ≤ 89) {k : ℝ}
    (hk : 100 ≤ k) : Watchable (s.ground.itrs + k • east s.ground.lon) s := by
  refine ⟨hs, h1, h2, ?_, ?_⟩
  · rw [add_sub_cancel_left, vnorm_smul, vnorm_of_east, abs_of_pos (by linarith)]
    linarith
  · rw [trueElevation_horizontal (by rw [smul_dotProduct, east_dot, smul_zero])]
    norm_num

theorem eastOf_east (s : Site) (k : ℝ) : eastOf (s.ground.itrs + k • east s.ground.lon) s = k := by
  have h := Real.sin_sq_add_cos_sq s.ground.lon
  have el : rad s.lon = s.ground.lon := rfl
  unfold eastOf
  rw [el, itrs_meridian]
  simp [east]
  linear_combination k * h

/-- **C130.** A satellite due east on the horizon: from the northern hemisphere the computed azimuth
is a number within 5 millionths of a degree of 90, from the southern hemisphere of 270. -/
theorem C130_due_east {s : Site} (hs : s.Valid) (h1 : 1 ≤ |s.lat|) (h2 : |s.lat| ≤ 89)
    (hh : 0 ≤ s.height) {k : ℝ} (hk : 100 ≤ k) :
    ∃ x, Rounded.azimuth binary64 power64 (s.ground.itrs + k • east s.ground.lon) s = some x ∧
      (0 < s.lat → |x - 90| ≤ 5 / 10 ^ 6) ∧ (s.lat < 0 → |x - 270| ≤ 5 / 10 ^ 6) := by
  have hw := watchable_east hs h1 h2 hk
  have hcos := (mid_latitude h1 h2).2
  have hpi := Real.pi_pos
  obtain ⟨n, sth⟩ := C54_east_partial s.ground k (by linarith) hh (by linarith)
  have hl := hs.lat
  have el : s.ground.lat = s.lat * (Real.pi / 180) := rfl
  have sgnP : 0 < s.lat → 0 < Real.sin s.ground.lat := by
    intro hp
    apply Real.sin_pos_of_pos_of_lt_pi
    · rw [el]; positivity
    · rw [el]
      have := mul_le_mul_of_nonneg_right ((le_abs_self _).trans hl) (by positivity : 0 ≤ Real.pi / 180)
      linarith
  have sgnN : s.lat < 0 → Real.sin s.ground.lat < 0 := by
    intro hp
    apply Real.sin_neg_of_neg_of_neg_pi_lt
    · rw [el]
      exact mul_neg_of_neg_of_pos hp (by positivity)
    · rw [el]
      have := mul_le_mul_of_nonneg_right (abs_le.1 hl).1 (by positivity : 0 ≤ Real.pi / 180)
      linarith
  have hne : s.lat ≠ 0 := by
    intro h0
    rw [h0, abs_zero] at h1
    norm_num at h1
  have hy : ∃ y, azimuth (s.ground.itrs + k • east s.ground.lon) s.ground = some y ∧
      (0 < s.lat → y = 90) ∧ (s.lat < 0 → y = 270) := by
    rcases lt_or_gt_of_ne hne with hneg | hpos
    · exact ⟨270, sth (sgnN hneg), fun hp => absurd hp (by linarith), fun _ => rfl⟩
    · exact ⟨90, n (sgnP hpos), fun _ => rfl, fun hp => absurd hp (by linarith)⟩
  obtain ⟨y, hy, y1, y2⟩ := hy
  have e := azimuthError_binary64
  cases hx : Rounded.azimuth binary64 power64 (s.ground.itrs + k • east s.ground.lon) s with
  | none =>
    exfalso
    obtain ⟨z, hz, hz2⟩ := C130_nan_only_at_meridian binary64_setup hw hx
    rw [hy] at hz
    obtain rfl := Option.some.inj hz
    rw [abs_le] at hz2
    rcases lt_or_gt_of_ne hne with hneg | hpos
    · rw [y2 hneg] at hz2
      rcases hz2 with h | ⟨h, h'⟩ | h <;> norm_num at h ⊢ <;> linarith
    · rw [y1 hpos] at hz2
      rcases hz2 with h | ⟨h, h'⟩ | h <;> norm_num at h ⊢ <;> linarith
  | some x =>
    obtain ⟨z, hz, hz2⟩ := C130_double hw hx
    rw [hy] at hz
    obtain rfl := Option.some.inj hz
    have hb : |x - y| ≤ 5 / 10 ^ 6 := by
      rcases hz2 with h | ⟨h, -⟩
      · exact h
      · exfalso
        unfold NearMeridian at h
        rw [eastOf_east, add_sub_cancel_left, vnorm_smul, vnorm_of_east,
          abs_of_pos (by linarith : 0 < k)] at h
        linarith
    exact ⟨x, rfl, fun hp => by rw [← y1 hp]; exact hb, fun hp => by rw [← y2 hp]; exact hb⟩

/-- A station in Ottawa, 100 m up, and a satellite 1000 km due east on its horizon. -/
example : ∃ x, Rounded.azimuth binary64 power64
    ((Site.mk 45.4 (-75.7) 0.1).ground.itrs + (1000 : ℝ) • east (Site.mk 45.4 (-75.7) 0.1).ground.lon)
      ⟨45.4, -75.7, 0.1⟩ = some x ∧ |x - 90| ≤ 5 / 10 ^ 6 := by
  obtain ⟨x, h, h1, -⟩ := C130_due_east (s := ⟨45.4, -75.7, 0.1⟩)
    ⟨by norm_num [abs_le], by norm_num [abs_le], by norm_num [abs_le]⟩ (by norm_num [le_abs])
    (by norm_num [abs_le]) (by norm_num) (k := 1000) (by norm_num)
  exact ⟨x, h, h1 (by norm_num)⟩

/-- The hypotheses of C130 are met there. -/
example : Watchable ((Site.mk 45.4 (-75.7) 0.1).ground.itrs +
    (1000 : ℝ) • east (Site.mk 45.4 (-75.7) 0.1).ground.lon) ⟨45.4, -75.7, 0.1⟩ :=
  watchable_east ⟨by norm_num [abs_le], by norm_num [abs_le], by norm_num [abs_le]⟩
    (by norm_num [le_abs]) (by norm_num [abs_le]) (by norm_num)

end Celest.Frames
