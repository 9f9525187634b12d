/-
C128: geographic coordinates in floating-point arithmetic.
-/
import Verif.Frames.RoundedGeographic
import Verif.Frames.PropsRoundedAltitude
import Verif.Frames.LemmasRoundedStation
import Verif.Frames.PropsTrack
import Verif.Frames.LemmasRoundedAttitude
import Verif.Frames.PropsRoundedTime

namespace Celest.Frames

open Celest.TimeScale Matrix

variable {M : Machine} {pw : ℝ → ℕ → ℝ} {u : ℝ} {E : Extra} {A : Trig}

/-! ### latitude and longitude -/

theorem latitude_near (S : Setup M pw u) (hE : E.Accurate u) {v : Vec} (hv : v 0 ≠ 0 ∨ v 1 ≠ 0) :
    |Rounded.latitude M pw E v - Real.arctan (v 2 / axisDistance v)| ≤ 9 * u := by
  have hu := S.acc.nonneg
  have hs := S.acc.small
  have hp := axisDistance_pos hv
  have h1 := ((near_refl (v 2)).div (axisDistance_near S v) (by norm_num) (by linarith)
    (by linarith) hp).fl S.acc (by linarith)
  have h2 := h1.arctan (by linarith) (by linarith) (d := 1) one_pos (by
    have := sq_nonneg (v 2 / axisDistance v)
    linarith)
  have h3 := hE.arctan (M.fl (v 2 / Rounded.axisDistance M pw v))
  have h4 := abs_sub_le (E.arctan (M.fl (v 2 / Rounded.axisDistance M pw v)))
    (Real.arctan (M.fl (v 2 / Rounded.axisDistance M pw v)))
    (Real.arctan (v 2 / axisDistance v))
  unfold Rounded.latitude
  linarith

theorem vnorm_le_of_sq {v : Vec} {b : ℝ} (hb : 0 ≤ b) (h : v 0 ^ 2 + v 1 ^ 2 + v 2 ^ 2 ≤ b ^ 2) :
    vnorm v ≤ b := by
  refine (abs_le_of_sq_le_sq' ?_ hb).2
  rw [vnorm_sq_coords]
  exact h

/-- Directions depend on the angles no more than by the change of the angles. -/
theorem unitAt_close (a a' b b' : ℝ) :
    vnorm (unitAt a b - unitAt a' b') ≤ |a - a'| + |b - b'| := by
  refine (vnorm_sub_le _ (unitAt a' b) _).trans (add_le_add ?_ ?_)
  · refine vnorm_le_of_sq (abs_nonneg _) ?_
    rw [sq_abs]
    have h := Real.one_sub_sq_div_two_le_cos (x := a - a')
    rw [Real.cos_sub] at h
    have e1 := Real.sin_sq_add_cos_sq a
    have e2 := Real.sin_sq_add_cos_sq a'
    have e3 := Real.sin_sq_add_cos_sq b
    simp only [unitAt, Pi.sub_apply, cons_val_zero, cons_val_one, cons_val]
    have e : (Real.cos a * Real.cos b - Real.cos a' * Real.cos b) ^ 2 +
        (Real.cos a * Real.sin b - Real.cos a' * Real.sin b) ^ 2 +
        (Real.sin a - Real.sin a') ^ 2 =
        2 - 2 * (Real.cos a * Real.cos a' + Real.sin a * Real.sin a') := by
      linear_combination (Real.cos a - Real.cos a') ^ 2 * e3 + e1 + e2
    rw [e]
    linarith
  · refine vnorm_le_of_sq (abs_nonneg _) ?_
    rw [sq_abs]
    have h := Real.one_sub_sq_div_two_le_cos (x := b - b')
    rw [Real.cos_sub] at h
    have e1 := Real.sin_sq_add_cos_sq b
    have e2 := Real.sin_sq_add_cos_sq b'
    simp only [unitAt, Pi.sub_apply, cons_val_zero, cons_val_one, cons_val]
    have e : (Real.cos a' * Real.cos b - Real.cos a' * Real.cos b') ^ 2 +
        (Real.cos a' * Real.sin b - Real.cos a' * Real.sin b') ^ 2 +
        (Real.sin a' - Real.sin a') ^ 2 =
        Real.cos a' ^ 2 * (2 - 2 * (Real.cos b * Real.cos b' + Real.sin b * Real.sin b')) := by
      linear_combination Real.cos a' ^ 2 * (e1 + e2)
    rw [e]
    have hc := Real.cos_sq_le_one a'
    have h0 := sq_nonneg (Real.cos a')
    have := mul_le_mul_of_nonneg_left
      (show 2 - 2 * (Real.cos b * Real.cos b' + Real.sin b * Real.sin b') ≤ (b - b') ^ 2 by linarith)
      h0
    have := mul_le_mul_of_nonneg_right hc (sq_nonneg (b - b'))
    linarith

/-- A point in polar coordinates. -/
theorem polar_form {v : Vec} (hv : v 0 ≠ 0 ∨ v 1 ≠ 0) :
    vnorm v • unitAt (Real.arctan (v 2 / axisDistance v)) (itrsLongitude v) = v := by
  have hp := axisDistance_pos hv
  have hsq : vnorm v ^ 2 = axisDistance v ^ 2 + v 2 ^ 2 := by
    rw [vnorm_sq_coords, axisDistance_sq]
  have hr : 0 < vnorm v := by
    rcases (vnorm_nonneg v).lt_or_eq with h | h
    · exact h
    · rw [← h] at hsq
      have := pow_pos hp 2
      have := sq_nonneg (v 2)
      norm_num at hsq
      linarith
  obtain ⟨h1, h2⟩ := cos_sin_arctan_div hp hr hsq
  obtain ⟨h3, h4⟩ := arctan2_polar (v 1) (v 0) (axisDistance v) hp (axisDistance_sq v).symm
  unfold unitAt itrsLongitude
  rw [h1, h2]
  ext i
  fin_cases i
  · show vnorm v * (axisDistance v / vnorm v * _) = v 0
    rw [← mul_assoc, mul_div_cancel₀ _ hr.ne', h3]
  · show vnorm v * (axisDistance v / vnorm v * _) = v 1
    rw [← mul_assoc, mul_div_cancel₀ _ hr.ne', h4]
  · show vnorm v * (v 2 / vnorm v) = v 2
    rw [mul_div_cancel₀ _ hr.ne']

/-- C128: the point at the latitude, longitude and distance from the centre found for a position is
that position but for `13 u` times the distance. -/
theorem C128_direction (S : Setup M pw u) (hE : E.Accurate u) (hA : A.Accurate u) (v : Vec)
    (hv : v 0 ≠ 0 ∨ v 1 ≠ 0) :
    vnorm (v - vnorm v • unitAt (Rounded.latitude M pw E v) (Rounded.longitude A v)) ≤
      13 * u * vnorm v := by
  have h1 := latitude_near S hE hv
  have h2 : |Rounded.longitude A v - itrsLongitude v| ≤ 4 * u := hA.arctan2 (v 1) (v 0)
  have h3 := unitAt_close (Real.arctan (v 2 / axisDistance v)) (Rounded.latitude M pw E v)
    (itrsLongitude v) (Rounded.longitude A v)
  rw [abs_sub_comm] at h1 h2
  conv_lhs => enter [1, 1]; rw [← polar_form hv]
  rw [← smul_sub, vnorm_smul, abs_of_nonneg (vnorm_nonneg v), mul_comm]
  exact mul_le_mul_of_nonneg_right (by linarith) (vnorm_nonneg v)

/-! ### heights of neighbouring points -/

theorem dot_le (a b : Vec) : a ⬝ᵥ b ≤ vnorm a * vnorm b := by
  rw [← inner_toE, ← norm_toE, ← norm_toE]
  exact real_inner_le_norm _ _

theorem ellipsoid_convex (s s' : Vec) (h1 : OnEllipsoid (axisA ^ 2) (axisB ^ 2) s)
    (h2 : OnEllipsoid (axisA ^ 2) (axisB ^ 2) s') :
    ellipsoidGradient (axisA ^ 2) (axisB ^ 2) s ⬝ᵥ (s' - s) ≤ 0 := by
  unfold OnEllipsoid at h1 h2
  have e0 := div_nonneg (sq_nonneg (s 0 - s' 0)) (sq_nonneg axisA)
  have e1 := div_nonneg (sq_nonneg (s 1 - s' 1)) (sq_nonneg axisA)
  have e2 := div_nonneg (sq_nonneg (s 2 - s' 2)) (sq_nonneg axisB)
  have e : ellipsoidGradient (axisA ^ 2) (axisB ^ 2) s ⬝ᵥ (s' - s) =
      (s' 0 ^ 2 / axisA ^ 2 + s' 1 ^ 2 / axisA ^ 2 + s' 2 ^ 2 / axisB ^ 2 -
        (s 0 ^ 2 / axisA ^ 2 + s 1 ^ 2 / axisA ^ 2 + s 2 ^ 2 / axisB ^ 2)) / 2 -
      ((s 0 - s' 0) ^ 2 / axisA ^ 2 + (s 1 - s' 1) ^ 2 / axisA ^ 2 +
        (s 2 - s' 2) ^ 2 / axisB ^ 2) / 2 := by
    simp only [dotProduct, Fin.sum_univ_three, ellipsoidGradient, Pi.sub_apply, cons_val_zero,
      cons_val_one, cons_val]
    ring
  rw [e, h1, h2]
  linarith

/-- Heights above the ellipsoid differ by no more than the points. -/
theorem height_lipschitz {v v' : Vec} {t t' : ℝ} (ht : 0 ≤ t)
    (h : IsHeight (axisA ^ 2) (axisB ^ 2) v t) (h' : IsHeight (axisA ^ 2) (axisB ^ 2) v' t') :
    t' ≤ t + vnorm (v' - v) := by
  obtain ⟨s, hs, n, hn, -, hv⟩ := h
  obtain ⟨s', hs', n', hn', ⟨k, hk, hnk⟩, hv'⟩ := h'
  rw [norm_toE] at hn hn'
  have h1 : n' ⬝ᵥ (s - s') ≤ 0 := by
    rw [hnk, smul_dotProduct, smul_eq_mul]
    exact mul_nonpos_of_nonneg_of_nonpos hk.le (ellipsoid_convex s' s hs' hs)
  have h2 := dot_le n' n
  rw [hn, hn', one_mul] at h2
  have h3 := dot_le n' (v' - v)
  rw [hn', one_mul] at h3
  have h4 : n' ⬝ᵥ n' = 1 := by rw [← vnorm_sq, hn', one_pow]
  have e : t' = n' ⬝ᵥ (v' - v) + n' ⬝ᵥ (s - s') + t * (n' ⬝ᵥ n) := by
    have : n' ⬝ᵥ (v' - v) + n' ⬝ᵥ (s - s') + t * (n' ⬝ᵥ n) = t' * (n' ⬝ᵥ n') := by
      rw [hv, hv', dotProduct_sub, dotProduct_add, dotProduct_add, dotProduct_smul, dotProduct_smul,
        dotProduct_sub, smul_eq_mul, smul_eq_mul]
      ring
    rw [this, h4, mul_one]
  have := mul_le_mul_of_nonneg_left h2 ht
  linarith

/-! ### from WGS84 to ITRS -/

theorem times_close (h : M.Accurate u) {k y Y B c C : ℝ} (hy : |y - Y| ≤ k * B) (hY : |Y| ≤ B)
    (hc : |c - C| ≤ 14 * u) (hC : |C| ≤ 1) (hk0 : 0 ≤ k) (hk : k ≤ 1 / 1000) :
    |M.fl (y * c) - Y * C| ≤ (k + 15.2 * u) * B := by
  have hu := h.nonneg
  have hs := h.small
  have hB : 0 ≤ B := (abs_nonneg _).trans hY
  have h1 : |y * c - Y * C| ≤ k * B * (1 + 14 * u) + B * (14 * u) := by
    rw [show y * c - Y * C = (y - Y) * c + Y * (c - C) by ring]
    refine (abs_add_le _ _).trans ?_
    rw [abs_mul, abs_mul]
    have hc1 : |c| ≤ 1 + 14 * u := by
      have := abs_sub_abs_le_abs_sub c C
      linarith
    exact add_le_add (mul_le_mul hy hc1 (abs_nonneg _) (by positivity))
      (mul_le_mul hY hc (abs_nonneg _) hB)
  have h2 := h.fl (y * c)
  have h3 : |Y * C| ≤ B := by
    rw [abs_mul]
    have := mul_le_mul hY hC (abs_nonneg _) hB
    linarith
  have h4 := abs_sub_abs_le_abs_sub (y * c) (Y * C)
  have h5 := abs_sub_le (M.fl (y * c)) (y * c) (Y * C)
  have h6 : |y * c| ≤ 1.01 * B := by
    have a1 : k * B * (1 + 14 * u) ≤ 1 / 1000 * B * 1.001 := by
      gcongr
      linarith
    have a2 : B * (14 * u) ≤ B * 0.001 := by
      gcongr
      linarith
    linarith
  have h7 := mul_le_mul_of_nonneg_left h6 hu
  have h8 : k * B * (14 * u) ≤ 1 / 1000 * B * (14 * u) := by gcongr
  have h9 : 0 ≤ u * B := by positivity
  linarith

theorem primeVerticalAt_close (S : Setup M pw u) {lat lat' : ℝ} (h : |lat' - lat| ≤ 12 * u) :
    |Rounded.primeVerticalAt M pw lat' - primeVertical lat| ≤ 700000 * u := by
  have hsmall := S.acc.small
  have hl : Close u 12 |lat| lat' lat := ⟨h, le_rfl⟩
  have s2 := (hl.sin S.acc).pow S (by norm_num) 2
  have r := (((Close.exact (u := u) (show |(1 : ℝ)| ≤ 1 by norm_num)).sub
    (((ecc_close S).mul S.acc s2 (by norm_num)).fl S.acc)).fl S.acc).mono S.acc.nonneg
      (l := 76) (C := 2) (by norm_num) (by norm_num)
  obtain ⟨b1, b2⟩ := radicand_bounds lat
  have r1 := (abs_le.1 r.err).1
  have q := ((r.sqrt (by linarith) (by linarith) b2).fl S.acc).mono S.acc.nonneg (l := 78) (C := 1)
    (by norm_num) le_rfl
  have q1 := (abs_le.1 q.err).1
  have q2 : 0.99 ≤ Real.sqrt (1 - ecc ^ 2 * Real.sin lat ^ 2) :=
    Real.le_sqrt_of_sq_le (by linarith)
  have i := q.inv (m := 0.9) (by norm_num) (by linarith) (by linarith)
  have a : Close u 6379 6379 (M.fl axisA) axisA :=
    (Close.lit S.acc (c := axisA) (by norm_num [axisA])).mono S.acc.nonneg (by norm_num [axisA])
      (by norm_num [axisA])
  have := (a.mul S.acc i (by norm_num)).fl S.acc
  rw [mul_one_div (M.fl axisA), mul_one_div axisA] at this
  exact (this.mono S.acc.nonneg (l := 700000) (C := 8000) (by norm_num) (by norm_num)).err

/-- A position given by latitude, longitude (in radians, known to `12 u`) and height is converted
to ITRS with an error of at most `360 u` times `6400 km + height`. -/
theorem wgs84_close (S : Setup M pw u) {lat lat' lon lon' h : ℝ} (hlat : |lat' - lat| ≤ 12 * u)
    (hlon : |lon' - lon| ≤ 12 * u) (hh : -400 ≤ h) :
    vnorm (Rounded.wgs84ToItrs1 M pw lat' lon' h - wgs84ToItrs1 lat lon h) ≤
      360 * u * (6400 + h) := by
  have hu := S.acc.nonneg
  have hs := S.acc.small
  obtain ⟨n1, n2⟩ := primeVertical_bounds lat
  have hn := primeVerticalAt_close S hlat
  have cl : |M.cos lat' - Real.cos lat| ≤ 14 * u :=
    (((⟨hlat, le_rfl⟩ : Close u 12 |lat| lat' lat).cos S.acc).err).trans (by linarith)
  have sl : |M.sin lat' - Real.sin lat| ≤ 14 * u :=
    (((⟨hlat, le_rfl⟩ : Close u 12 |lat| lat' lat).sin S.acc).err).trans (by linarith)
  have co : |M.cos lon' - Real.cos lon| ≤ 14 * u :=
    (((⟨hlon, le_rfl⟩ : Close u 12 |lon| lon' lon).cos S.acc).err).trans (by linarith)
  have so : |M.sin lon' - Real.sin lon| ≤ 14 * u :=
    (((⟨hlon, le_rfl⟩ : Close u 12 |lon| lon' lon).sin S.acc).err).trans (by linarith)
  have clB := Real.abs_cos_le_one lat
  have slB := Real.abs_sin_le_one lat
  have coB := Real.abs_cos_le_one lon
  have soB := Real.abs_sin_le_one lon
  have hB : 5978 ≤ 6400 + h - 22 := by linarith
  have huB : 5978 * u ≤ u * (6400 + h) := by
    have := mul_le_mul_of_nonneg_left hB hu
    linarith
  -- n + h
  have f1 : |M.fl (Rounded.primeVerticalAt M pw lat' + h) - (primeVertical lat + h)| ≤
      (120 * u) * (6400 + h) := by
    have a1 : |Rounded.primeVerticalAt M pw lat' + h - (primeVertical lat + h)| ≤ 700000 * u := by
      rw [add_sub_add_right_eq_sub]
      exact hn
    have a2 := S.acc.fl (Rounded.primeVerticalAt M pw lat' + h)
    have a3 := abs_sub_abs_le_abs_sub (Rounded.primeVerticalAt M pw lat' + h)
      (primeVertical lat + h)
    rw [abs_of_nonneg (by linarith : 0 ≤ primeVertical lat + h)] at a3
    have a4 := abs_sub_le (M.fl (Rounded.primeVerticalAt M pw lat' + h))
      (Rounded.primeVerticalAt M pw lat' + h) (primeVertical lat + h)
    have a5 : |Rounded.primeVerticalAt M pw lat' + h| ≤ 6400 + h + 1 := by linarith
    have a6 := mul_le_mul_of_nonneg_left a5 hu
    linarith
  have g1 : |primeVertical lat + h| ≤ 6400 + h := by
    rw [abs_of_nonneg (by linarith)]
    linarith
  have f2 := times_close S.acc f1 g1 cl clB (by linarith) (by linarith)
  have g2 : |(primeVertical lat + h) * Real.cos lat| ≤ 6400 + h := by
    rw [abs_mul]
    have := mul_le_mul g1 clB (abs_nonneg _) (by linarith)
    linarith
  have x := times_close S.acc f2 g2 co coB (by linarith) (by linarith)
  have y := times_close S.acc f2 g2 so soB (by linarith) (by linarith)
  -- n (1 - e²) + h
  have e0 : ecc ^ 2 ≤ 0.0067 := by norm_num [ecc]
  have e1 := sq_nonneg ecc
  have f : Close u 9.5 1 (M.fl (1 - pw (M.fl ecc) 2)) (1 - ecc ^ 2) := by
    have r := (Close.exact (u := u) (show |(1 : ℝ)| ≤ 1 by norm_num)).sub (ecc_close S)
    have r' : Close u 8.4 1 (1 - pw (M.fl ecc) 2) (1 - ecc ^ 2) :=
      ⟨r.err.trans (by norm_num), by rw [abs_le]; constructor <;> linarith⟩
    exact (r'.fl S.acc).mono S.acc.nonneg (by norm_num) le_rfl
  have nc : Close u 700000 6400 (Rounded.primeVerticalAt M pw lat') (primeVertical lat) :=
    ⟨hn, by rw [abs_of_nonneg (by linarith)]; linarith⟩
  have nf := ((nc.mul S.acc f (by norm_num)).fl S.acc).mono S.acc.nonneg (l := 770000) (C := 6400)
    (by norm_num) (by norm_num)
  have nb : 6300 ≤ primeVertical lat * (1 - ecc ^ 2) := by
    have := mul_le_mul n1 (by linarith : (0.9933 : ℝ) ≤ 1 - ecc ^ 2) (by norm_num) (by linarith)
    linarith
  have nb' : primeVertical lat * (1 - ecc ^ 2) ≤ 6400 := (le_abs_self _).trans nf.size
  have f3 : |M.fl (M.fl (Rounded.primeVerticalAt M pw lat' * M.fl (1 - pw (M.fl ecc) 2)) + h) -
      (primeVertical lat * (1 - ecc ^ 2) + h)| ≤ (140 * u) * (6400 + h) := by
    have a1 := nf.err
    generalize M.fl (Rounded.primeVerticalAt M pw lat' * M.fl (1 - pw (M.fl ecc) 2)) = w at a1 ⊢
    generalize primeVertical lat * (1 - ecc ^ 2) = W at a1 nb nb' ⊢
    have a1' : |w + h - (W + h)| ≤ 770000 * u := by
      rw [add_sub_add_right_eq_sub]
      exact a1
    have a2 := S.acc.fl (w + h)
    have a3 := abs_sub_abs_le_abs_sub (w + h) (W + h)
    rw [abs_of_nonneg (by linarith : 0 ≤ W + h)] at a3
    have a4 := abs_sub_le (M.fl (w + h)) (w + h) (W + h)
    have a5 : |w + h| ≤ 6400 + h + 1 := by linarith
    have a6 := mul_le_mul_of_nonneg_left a5 hu
    linarith
  have g3 : |primeVertical lat * (1 - ecc ^ 2) + h| ≤ 6400 + h := by
    rw [abs_of_nonneg (by linarith)]
    linarith
  have z := times_close S.acc f3 g3 sl slB (by linarith) (by linarith)
  have hB0 : 0 ≤ 6400 + h := by linarith
  have hm : 0 ≤ u * (6400 + h) := mul_nonneg hu hB0
  have t : ∀ i, |(Rounded.wgs84ToItrs1 M pw lat' lon' h - wgs84ToItrs1 lat lon h) i| ≤
      200 * u * (6400 + h) := by
    intro i
    fin_cases i
    · refine x.trans ?_
      linarith
    · refine y.trans ?_
      linarith
    · refine z.trans ?_
      linarith
  have := vnorm_le_of_coords t
  linarith

/-- C128: a position given by latitude and longitude in degrees and height in kilometres, not deep
inside the Earth, is converted to ITRS with an error of at most `360 u (6400 km + height)`: a third
of a nanometre per kilometre of distance from the centre in double precision.  At every instant
between 1900 and 2100 its GCRS coordinates are right to one part in nine thousand million. -/
theorem C128_from_wgs84 (S : Setup M pw u) {lat lon h jd : ℝ} (hlat : |lat| ≤ 90)
    (hlon : |lon| ≤ 180) (hh : -400 ≤ h) (hjd : |jd - 2451545| ≤ 36525) :
    let itrs := Rounded.wgs84ToItrs1 M pw (Rounded.degToRad M lat) (Rounded.degToRad M lon) h
    vnorm (itrs - wgs84ToItrs1 (rad lat) (rad lon) h) ≤ 360 * u * (6400 + h) ∧
    vnorm (Rounded.itrsToGcrs1 M (Rounded.angles M pw jd) itrs -
      itrsToGcrs1 jd (wgs84ToItrs1 (rad lat) (rad lon) h)) ≤ 940000 * u * (6400 + h) := by
  intro itrs
  have hu := S.acc.nonneg
  have hs := S.acc.small
  have a1 := ((degToRad_close S (Close.exact hlat) le_rfl).mono hu (l := 12) (by norm_num)
    le_rfl).err
  have a2 := ((degToRad_close S (Close.exact hlon) le_rfl).mono hu (l := 12) (by norm_num)
    le_rfl).err
  have h1 := wgs84_close S a1 a2 hh
  refine ⟨h1, ?_⟩
  have h2 := (C116_error S hjd itrs).2
  have h3 := vnorm_sub_le (Rounded.itrsToGcrs1 M (Rounded.angles M pw jd) itrs)
    (itrsToGcrs1 jd itrs) (itrsToGcrs1 jd (wgs84ToItrs1 (rad lat) (rad lon) h))
  have h4 : vnorm (itrsToGcrs1 jd itrs - itrsToGcrs1 jd (wgs84ToItrs1 (rad lat) (rad lon) h)) =
      vnorm (itrs - wgs84ToItrs1 (rad lat) (rad lon) h) := by
    rw [← dist_toE, ← dist_toE]
    exact (C47_rotations jd).2.2.2.2.2.1 _ _
  have hB : 0 ≤ 6400 + h := by linarith
  have hw : vnorm (wgs84ToItrs1 (rad lat) (rad lon) h) ≤ 6400 + h := by
    refine vnorm_le_of_sq hB ?_
    obtain ⟨n1, n2⟩ := primeVertical_bounds (rad lat)
    have e0 : 0 ≤ ecc ^ 2 := sq_nonneg ecc
    have e1 : ecc ^ 2 ≤ 0.0067 := by norm_num [ecc]
    have c1 := Real.sin_sq_add_cos_sq (rad lat)
    have c2 := Real.sin_sq_add_cos_sq (rad lon)
    simp only [wgs84ToItrs1, cons_val_zero, cons_val_one, cons_val]
    have t0 := mul_le_mul n2 e1 e0 (by norm_num)
    have t1 := mul_nonneg (by linarith : 0 ≤ primeVertical (rad lat)) e0
    generalize primeVertical (rad lat) = n at *
    have e : ((n + h) * Real.cos (rad lat) * Real.cos (rad lon)) ^ 2 +
        ((n + h) * Real.cos (rad lat) * Real.sin (rad lon)) ^ 2 +
        ((n * (1 - ecc ^ 2) + h) * Real.sin (rad lat)) ^ 2 =
        (n + h) ^ 2 * Real.cos (rad lat) ^ 2 +
          (n * (1 - ecc ^ 2) + h) ^ 2 * Real.sin (rad lat) ^ 2 := by
      linear_combination (n + h) ^ 2 * Real.cos (rad lat) ^ 2 * c2
    rw [e]
    have s1 : (n + h) ^ 2 ≤ (6400 + h) ^ 2 :=
      pow_le_pow_left₀ (by linarith) (by linarith) 2
    have s2 : (n * (1 - ecc ^ 2) + h) ^ 2 ≤ (6400 + h) ^ 2 :=
      pow_le_pow_left₀ (by linarith) (by linarith) 2
    have m1 := mul_le_mul_of_nonneg_right s1 (sq_nonneg (Real.cos (rad lat)))
    have m2 := mul_le_mul_of_nonneg_right s2 (sq_nonneg (Real.sin (rad lat)))
    calc _ ≤ _ := add_le_add m1 m2
      _ = (6400 + h) ^ 2 * (Real.sin (rad lat) ^ 2 + Real.cos (rad lat) ^ 2) := by ring
      _ = _ := by rw [c1, mul_one]
  have h5 : vnorm itrs ≤ 1.001 * (6400 + h) := by
    have h6 := vnorm_add (itrs - wgs84ToItrs1 (rad lat) (rad lon) h)
      (wgs84ToItrs1 (rad lat) (rad lon) h)
    rw [sub_add_cancel] at h6
    have h7 : 360 * u * (6400 + h) ≤ 0.001 * (6400 + h) := by
      gcongr
      linarith
    linarith
  have h6 := mul_le_mul_of_nonneg_left h5 (by positivity : 0 ≤ 935000 * u)
  have h7 : 0 ≤ u * (6400 + h) := by positivity
  linarith

/-! ### from ITRS and GCRS to WGS84 -/

section
variable (S : Setup M pw (1 / 2 ^ 53)) (hE : E.Accurate (1 / 2 ^ 53)) (hA : A.Accurate (1 / 2 ^ 53))

include S hE in
/-- The altitude of one position after `k` passes in double precision. -/
theorem altitude_double {v : Vec} (h : Surveyed v) (k : ℕ) :
    |(pointState M pw E v k).1 - heightSeq v k| ≤ 1.65 / 10 ^ 6 :=
  ((pointState_close S hE h k).1).trans (heightSlack_le h)

include S hE hA in
/-- C128: converting ITRS positions to WGS84 and back in double precision: as without rounding
(C127), every position comes back up to 45 km away, `42.69 sin ψ cos ψ` km at least. -/
theorem C128_there_and_back (pts : List Vec) (h : ∀ v ∈ pts, Surveyed v)
    (r : List (ℝ × ℝ × ℝ)) (hr : Rounded.Wgs84Returns M pw E A pts r) :
    List.Forall₂ (fun v x =>
      ∃ t, ComesBackAt v t ∧ vnorm (Rounded.wgs84ToItrs1 M pw x.1 x.2.1 x.2.2 - t) ≤ 1 / 10 ^ 7)
      pts r := by
  obtain ⟨hs, ⟨k, -, -, rfl⟩, rfl⟩ := hr
  rw [rounded_altState, List.map_map, List.zipWith_map_right, List.zipWith_self,
    List.forall₂_map_right_iff, List.forall₂_same]
  intro v hv
  have hn := (h v hv).nearOrAbove
  have h1 := altitude_double S hE (h v hv) k
  have h2 := hn.start_near k
  have h3 := abs_sub_le (pointState M pw E v k).1 (heightSeq v k)
    (‖toE v‖ - Real.sqrt (axisA * axisB))
  simp only [Function.comp_def]
  generalize (pointState M pw E v k).1 = a at *
  have h4 : |a - (‖toE v‖ - Real.sqrt (axisA * axisB))| ≤ 12.02 := by
    norm_num at h1 h2 ⊢
    linarith
  obtain ⟨lat, hlat, hc⟩ := comes_back hn h4
  refine ⟨_, hc, ?_⟩
  have hg := gm_tight
  have h5 := abs_le.1 h4
  have hfar := (h v hv).far
  have hnear := (h v hv).near
  have e : lat = Real.arctan (v 2 / axisDistance v) := by
    unfold itrsLatitude at hlat
    have := (axisDistance_pos hn.1).ne'
    unfold axisDistance at this ⊢
    simp only [if_neg this, Option.some.injEq] at hlat
    exact hlat.symm
  subst e
  have h6 := wgs84_close S ((latitude_near S hE hn.1).trans (by norm_num))
    ((hA.arctan2 (v 1) (v 0)).trans (by norm_num)) (by linarith [hg.1, hg.2] : -400 ≤ a)
  refine h6.trans ?_
  norm_num at h5 hnear ⊢
  linarith [hg.1, hg.2]

/-- A position a satellite could have: from just above the ground to past the Moon, not over a
pole (250 m off the axis in low orbit). -/
structure Orbiting (v : Vec) : Prop where
  far : 6400 ≤ vnorm v
  near : vnorm v ≤ 999999
  off : vnorm v ^ 2 ≤ 1.99 * 10 ^ 8 * Real.sqrt (v 0 ^ 2 + v 1 ^ 2)

/-- What rounding can do to a height, in kilometres. -/
noncomputable def heightTolerance (v : Vec) : ℝ := 2 / 10 ^ 6 + 1.1 / 10 ^ 10 * vnorm v

theorem axisDistance_lipschitz (v v' : Vec) :
    |axisDistance v - axisDistance v'| ≤ vnorm (v - v') := by
  have key : ∀ a b : Vec, axisDistance a ≤ axisDistance b + vnorm (a - b) := by
    intro a b
    have hb := Real.sqrt_nonneg (b 0 ^ 2 + b 1 ^ 2)
    refine (abs_le_of_sq_le_sq' ?_ (add_nonneg hb (vnorm_nonneg _))).2
    have h0 := vnorm_nonneg (a - b)
    have h2 := vnorm_sq_coords (a - b)
    have hb2 := axisDistance_sq b
    change 0 ≤ axisDistance b at hb
    have h3 : (a 0 - b 0) * b 0 + (a 1 - b 1) * b 1 ≤ axisDistance b * vnorm (a - b) := by
      refine (abs_le_of_sq_le_sq' ?_ (mul_nonneg hb h0)).2
      rw [mul_pow, hb2, h2]
      simp only [Pi.sub_apply]
      have e1 := sq_nonneg ((a 0 - b 0) * b 1 - (a 1 - b 1) * b 0)
      have e2 := mul_nonneg (add_nonneg (sq_nonneg (b 0)) (sq_nonneg (b 1))) (sq_nonneg (a 2 - b 2))
      linarith
    rw [axisDistance_sq]
    simp only [Pi.sub_apply] at h2
    have e := sq_nonneg (a 2 - b 2)
    change _ ≤ (axisDistance b + vnorm (a - b)) ^ 2
    linarith
  rw [abs_le]
  have h1 := key v v'
  have h2 := key v' v
  rw [vnorm_sub_comm] at h2
  constructor <;> linarith

theorem Orbiting.surveyed {v v' : Vec} (h : Orbiting v)
    (hv : vnorm (v' - v) ≤ 1.04 / 10 ^ 10 * vnorm v) : Surveyed v' ∧ Surveyed v := by
  have h0 := axisDistance_lipschitz v' v
  have h1 := vnorm_sub_le v' v 0
  have h2 := vnorm_sub_le v v' 0
  rw [vnorm_sub_comm v v'] at h2
  simp only [sub_zero] at h1 h2
  have hf := h.far
  have hn := h.near
  have ho := h.off
  change _ ≤ _ * axisDistance v at ho
  have hp : 0.2 ≤ axisDistance v := by
    have : 6400 ^ 2 ≤ vnorm v ^ 2 := pow_le_pow_left₀ (by norm_num) hf 2
    linarith
  have hoff : vnorm v ^ 2 ≤ 2 * 10 ^ 8 * axisDistance v := by linarith
  refine ⟨⟨?_, ?_, ?_⟩, ⟨?_, ?_, ?_⟩⟩
  · rw [norm_toE]
    norm_num at hv ⊢
    linarith
  · rw [norm_toE]
    norm_num at hv ⊢
    linarith
  · rw [norm_toE]
    change _ ≤ _ * axisDistance v'
    have a1 := (abs_le.1 h0).1
    have a2 : vnorm v' ≤ (1 + 1.04 / 10 ^ 10) * vnorm v := by linarith
    have a3 : vnorm v' ^ 2 ≤ ((1 + 1.04 / 10 ^ 10) * vnorm v) ^ 2 :=
      pow_le_pow_left₀ (vnorm_nonneg _) a2 2
    rw [mul_pow] at a3
    norm_num at hv a3 ho ⊢
    linarith
  · rw [norm_toE]
    linarith
  · rw [norm_toE]
    norm_num
    linarith
  · rw [norm_toE]
    exact hoff

include S hE hA in
/-- C128: converting GCRS positions of any number of instants between 1900 and 2100 to WGS84 in
double precision returns as many samples.  The latitude and longitude of each are those of a point
within one part in four thousand million of the distance from the centre.  Either all heights are
the distances from the centre less the geometric mean of the axes, but for rounding, or all are
within 1.01 km of the height above the ellipsoid, but for rounding; all are within 11 km of it. -/
theorem C128_gcrs_to_wgs84 (samples : List (ℝ × Vec))
    (hjd : ∀ s ∈ samples, |s.1 - 2451545| ≤ 36525)
    (hs : ∀ s ∈ samples, Orbiting (gcrsToItrs1 s.1 s.2)) :
    ∃ r, Rounded.Wgs84Returns M pw E A
        (samples.map fun s => Rounded.gcrsToItrs1 M (Rounded.angles M pw s.1) s.2) r ∧
      List.Forall₂ (fun s x =>
        let v := gcrsToItrs1 s.1 s.2
        vnorm (v - vnorm v • unitAt x.1 x.2.1) ≤ 1 / (4 * 10 ^ 9) * vnorm v ∧
        ∃ t, IsHeight (axisA ^ 2) (axisB ^ 2) v t ∧ |x.2.2 - t| ≤ 11 + heightTolerance v)
        samples r ∧
      (List.Forall₂ (fun s x =>
          let v := gcrsToItrs1 s.1 s.2
          |x.2.2 - (vnorm v - Real.sqrt (axisA * axisB))| ≤ heightTolerance v) samples r ∨
        List.Forall₂ (fun s x =>
          let v := gcrsToItrs1 s.1 s.2
          ∃ t, IsHeight (axisA ^ 2) (axisB ^ 2) v t ∧ |x.2.2 - t| ≤ 1.01 + heightTolerance v)
          samples r) := by
  have hclose : ∀ s ∈ samples,
      vnorm (Rounded.gcrsToItrs1 M (Rounded.angles M pw s.1) s.2 - gcrsToItrs1 s.1 s.2) ≤
        1.04 / 10 ^ 10 * vnorm (gcrsToItrs1 s.1 s.2) := by
    intro s hsm
    have h1 := (C116_error S (hjd s hsm) s.2).1
    have h2 : vnorm (gcrsToItrs1 s.1 s.2) = vnorm s.2 := by
      have := (C47_rotations s.1).2.2.2.2.1 s.2 0
      rw [dist_toE, dist_toE] at this
      obtain ⟨m, -, hm, -⟩ := (C47_rotations s.1).2.2.2.1
      rw [hm, hm, Matrix.mulVec_zero, sub_zero, sub_zero] at this
      rw [hm, this]
    rw [h2]
    refine h1.trans ?_
    have := vnorm_nonneg s.2
    norm_num
    linarith
  have hsur : ∀ v ∈ samples.map (fun s => Rounded.gcrsToItrs1 M (Rounded.angles M pw s.1) s.2),
      Surveyed v := by
    intro v hv
    obtain ⟨s, hsm, rfl⟩ := List.mem_map.1 hv
    exact ((hs s hsm).surveyed (hclose s hsm)).1
  obtain ⟨-, a, ⟨k, hk1, hk2, rfl⟩, -⟩ := C121_at_most_four_passes S hE _ hsur
  -- what happens to one sample
  have one : ∀ s ∈ samples,
      let v := gcrsToItrs1 s.1 s.2
      let v' := Rounded.gcrsToItrs1 M (Rounded.angles M pw s.1) s.2
      vnorm (v - vnorm v • unitAt (Rounded.latitude M pw E v') (Rounded.longitude A v')) ≤
        1 / (4 * 10 ^ 9) * vnorm v ∧
      ∃ t, IsHeight (axisA ^ 2) (axisB ^ 2) v t ∧
        |(pointState M pw E v' 0).1 - (vnorm v - Real.sqrt (axisA * axisB))| ≤ heightTolerance v ∧
        |(pointState M pw E v' 0).1 - t| ≤ 11 + heightTolerance v ∧
        ∀ k, |(pointState M pw E v' (k + 1)).1 - t| ≤ 1.01 + heightTolerance v := by
    intro s hsm v v'
    have hc : vnorm (v' - v) ≤ 1.04 / 10 ^ 10 * vnorm v := hclose s hsm
    obtain ⟨hv', hv⟩ := (hs s hsm).surveyed (hclose s hsm)
    change Surveyed v' at hv'
    change Surveyed v at hv
    have hf : 6400 ≤ vnorm v := (hs s hsm).far
    have hd := C128_direction S hE hA v' hv'.nearOrAbove.1
    have d1 := vnorm_sub_le v' v 0
    have d2 := vnorm_sub_le v v' 0
    rw [vnorm_sub_comm v v'] at d2
    simp only [sub_zero] at d1 d2
    constructor
    · generalize hU : unitAt (Rounded.latitude M pw E v') (Rounded.longitude A v') = U at hd ⊢
      have hU1 : vnorm U = 1 := by rw [← hU, ← norm_toE, unitAt_norm]
      have c1 := vnorm_sub_le v v' (vnorm v • U)
      have c2 := vnorm_sub_le v' (vnorm v' • U) (vnorm v • U)
      rw [← sub_smul, vnorm_smul, hU1, mul_one] at c2
      rw [vnorm_sub_comm v v'] at c1
      have c3 : |vnorm v' - vnorm v| ≤ vnorm (v' - v) := by
        rw [abs_le]
        constructor <;> linarith
      norm_num at hd hc ⊢
      linarith
    · obtain ⟨t, ht, t0, tk⟩ := hv.nearOrAbove.after
      obtain ⟨t', ht', t0', tk'⟩ := hv'.nearOrAbove.after
      have e0 : heightSeq v 0 = vnorm v - Real.sqrt (axisA * axisB) := by
        rw [← norm_toE]; rfl
      have e0' : heightSeq v' 0 = vnorm v' - Real.sqrt (axisA * axisB) := by
        rw [← norm_toE]; rfl
      have hg := gm_tight
      have b := abs_le.1 t0
      have b' := abs_le.1 t0'
      have p1 : 0 ≤ t := by linarith [hg.2]
      have p2 : 0 ≤ t' := by
        norm_num at hc
        linarith [hg.2]
      have l1 := height_lipschitz p1 ht ht'
      have l2 := height_lipschitz p2 ht' ht
      rw [vnorm_sub_comm v v'] at l2
      have k0 := altitude_double S hE hv' 0
      have hT : heightTolerance v = 2 / 10 ^ 6 + 1.1 / 10 ^ 10 * vnorm v := rfl
      have f0 : |(pointState M pw E v' 0).1 - (vnorm v - Real.sqrt (axisA * axisB))| ≤
          heightTolerance v := by
        rw [hT]
        rw [e0'] at k0
        rw [abs_le] at k0 ⊢
        norm_num at hc k0 ⊢
        constructor <;> linarith
      refine ⟨t, ht, f0, ?_, ?_⟩
      · rw [e0] at t0
        have := abs_sub_le (pointState M pw E v' 0).1 (vnorm v - Real.sqrt (axisA * axisB)) t
        linarith
      · intro k
        have k1 := altitude_double S hE hv' (k + 1)
        have := tk' k
        rw [hT]
        rw [abs_le] at this k1 ⊢
        norm_num at hc this k1 ⊢
        constructor <;> linarith
  refine ⟨_, ⟨_, ⟨k, hk1, hk2, rfl⟩, rfl⟩, ?_⟩
  rw [rounded_altState, List.map_map, List.map_map, List.zipWith_map, List.zipWith_self]
  simp only [List.forall₂_map_right_iff, List.forall₂_same, Function.comp_def]
  cases k with
  | zero =>
    refine ⟨fun s hsm => ?_, Or.inl fun s hsm => ?_⟩
    · obtain ⟨o1, t, o2, -, o3, -⟩ := one s hsm
      exact ⟨o1, t, o2, o3⟩
    · obtain ⟨-, t, -, o3, -⟩ := one s hsm
      exact o3
  | succ k =>
    refine ⟨fun s hsm => ?_, Or.inr fun s hsm => ?_⟩
    · obtain ⟨o1, t, o2, -, -, o3⟩ := one s hsm
      exact ⟨o1, t, o2, (o3 k).trans (by linarith)⟩
    · obtain ⟨-, t, o2, -, -, o3⟩ := one s hsm
      exact ⟨t, o2, o3 k⟩

end

/-! ### the hypotheses are met -/

theorem orbiting_examples :
    ∀ v ∈ ([![1000, 2000, 6500], ![6778, 100, -3], ![0, -42164, 5]] : List Vec), Orbiting v := by
  have key : ∀ v : Vec, 6400 ^ 2 ≤ v 0 ^ 2 + v 1 ^ 2 + v 2 ^ 2 →
      v 0 ^ 2 + v 1 ^ 2 + v 2 ^ 2 ≤ (5 * 10 ^ 4) ^ 2 →
      (v 0 ^ 2 + v 1 ^ 2 + v 2 ^ 2) ^ 2 ≤ (1.99 * 10 ^ 8) ^ 2 * (v 0 ^ 2 + v 1 ^ 2) →
      Orbiting v := by
    intro v h1 h2 h4
    have hn : vnorm v = Real.sqrt (v 0 ^ 2 + v 1 ^ 2 + v 2 ^ 2) := by
      rw [← norm_toE, norm_eq_sqrt, axisDistance_sq]
    refine ⟨?_, ?_, ?_⟩
    · rw [hn]
      exact Real.le_sqrt_of_sq_le h1
    · rw [hn, Real.sqrt_le_left (by norm_num)]
      linarith
    · rw [hn, Real.sq_sqrt (by positivity)]
      refine abs_le_of_sq_le_sq' ?_ (by positivity) |>.2
      rw [mul_pow, Real.sq_sqrt (by positivity)]
      exact h4
  intro v hv
  simp only [List.mem_cons, List.not_mem_nil, or_false] at hv
  rcases hv with rfl | rfl | rfl <;> refine key _ ?_ ?_ ?_ <;>
    simp only [cons_val_zero, cons_val_one, cons_val] <;> norm_num

/-- Three satellites at three instants. -/
noncomputable def orbitSamples : List (ℝ × Vec) :=
  [(2460311.25, itrsToGcrs1 2460311.25 ![1000, 2000, 6500]),
   (2451545, itrsToGcrs1 2451545 ![6778, 100, -3]),
   (2469807.5, itrsToGcrs1 2469807.5 ![0, -42164, 5])]

example : ∃ r, Rounded.Wgs84Returns binary64 power64 extra64 trig64
    (orbitSamples.map fun s => Rounded.gcrsToItrs1 binary64 (Rounded.angles binary64 power64 s.1)
      s.2) r ∧ r.length = 3 := by
  obtain ⟨r, h, h1, -⟩ := C128_gcrs_to_wgs84 binary64_setup extra64_accurate trig64_accurate
    orbitSamples (by
      intro s hs
      simp only [orbitSamples, List.mem_cons, List.not_mem_nil, or_false] at hs
      rcases hs with rfl | rfl | rfl <;> norm_num [abs_le]) (by
      intro s hs
      simp only [orbitSamples, List.mem_cons, List.not_mem_nil, or_false] at hs
      rcases hs with rfl | rfl | rfl <;> rw [itrs_gcrs1] <;>
        exact orbiting_examples _ (by simp))
  exact ⟨r, h, h1.length_eq.symm⟩

example : ∃ r, Rounded.Wgs84Returns binary64 power64 extra64 trig64
    [![1000, 2000, 6000], ![6778, 100, -3], ![0, -42164, 5]] r ∧ r.length = 3 := by
  obtain ⟨-, a, ha, -⟩ := C121_at_most_four_passes binary64_setup extra64_accurate _
    surveyed_examples
  have hr : Rounded.Wgs84Returns binary64 power64 extra64 trig64 _ _ := ⟨a, ha, rfl⟩
  exact ⟨_, hr, (C128_there_and_back binary64_setup extra64_accurate trig64_accurate _
    surveyed_examples _ hr).length_eq.symm⟩

example : vnorm (Rounded.wgs84ToItrs1 binary64 power64 (Rounded.degToRad binary64 43.65)
      (Rounded.degToRad binary64 (-79.38)) 0.076 - wgs84ToItrs1 (rad 43.65) (rad (-79.38)) 0.076) ≤
    360 * (1 / 2 ^ 53) * (6400 + 0.076) :=
  (C128_from_wgs84 (jd := 2451545) binary64_setup (by norm_num [abs_le]) (by norm_num [abs_le])
    (by norm_num) (by norm_num)).1

end Celest.Frames
