/-
Lemmas for C117: the error of the coordinates of a station, and of elevations for slightly wrong
positions.
-/
import Verif.Frames.PropsRoundedAngles
import Verif.Frames.RoundedStation
import Verif.Frames.PropsTriangle

namespace Celest.Frames

open Celest.TimeScale Matrix

variable {M : Machine} {pw : ℝ → ℕ → ℝ} {u : ℝ}

/-- A ground location at which a station could be. -/
structure Site.Valid (s : Site) : Prop where
  lat : |s.lat| ≤ 90
  lon : |s.lon| ≤ 180
  height : |s.height| ≤ 10

/-- Square roots of numbers near one. -/
theorem Close.sqrt {k B x X : ℝ} (h : Close u k B x X) (hx : 0.9 ≤ x) (hX : 0.9 ≤ X) (hX1 : X ≤ 1) :
    Close u k 1 (Real.sqrt x) (Real.sqrt X) := by
  have h1 : 0.9 ≤ Real.sqrt x := Real.le_sqrt_of_sq_le (by linarith)
  have h2 : 0.9 ≤ Real.sqrt X := Real.le_sqrt_of_sq_le (by linarith)
  have e : x - X = (Real.sqrt x - Real.sqrt X) * (Real.sqrt x + Real.sqrt X) := by
    have a := Real.mul_self_sqrt (show 0 ≤ x by linarith)
    have b := Real.mul_self_sqrt (show 0 ≤ X by linarith)
    linarith
  have hk := h.err
  constructor
  · rw [e, abs_mul, abs_of_pos (show 0 < Real.sqrt x + Real.sqrt X by linarith)] at hk
    have := mul_le_mul_of_nonneg_left (show 1 ≤ Real.sqrt x + Real.sqrt X by linarith)
      (abs_nonneg (Real.sqrt x - Real.sqrt X))
    linarith
  · rw [abs_of_nonneg (by linarith)]
    exact Real.sqrt_le_one.2 hX1

theorem ecc_close (S : Setup M pw u) : Close u 8.4 1 (pw (M.fl ecc) 2) (ecc ^ 2) := by
  have h : Close u 0.09 1 (M.fl ecc) ecc :=
    (Close.lit S.acc (c := ecc) (by norm_num [ecc])).mono S.acc.nonneg (by norm_num [ecc])
      (by norm_num [ecc])
  exact (h.pow S (by norm_num) 2).mono S.acc.nonneg (by norm_num) le_rfl

theorem lat_close (S : Setup M pw u) {s : Site} (hs : s.Valid) :
    Close u 5.1 2 (Rounded.degToRad M s.lat) s.ground.lat :=
  (degToRad_close S (Close.exact hs.lat) le_rfl).mono S.acc.nonneg (by norm_num) (by norm_num)

theorem lon_close (S : Setup M pw u) {s : Site} (hs : s.Valid) :
    Close u 10.1 4 (Rounded.degToRad M s.lon) s.ground.lon :=
  (degToRad_close S (Close.exact hs.lon) le_rfl).mono S.acc.nonneg (by norm_num) (by norm_num)

/-- The number under the root. -/
theorem radicand_bounds (lat : ℝ) : 0.99 ≤ 1 - ecc ^ 2 * Real.sin lat ^ 2 ∧
    1 - ecc ^ 2 * Real.sin lat ^ 2 ≤ 1 := by
  have h1 := Real.sin_sq_le_one lat
  have h0 := sq_nonneg (Real.sin lat)
  have e : ecc ^ 2 ≤ 0.01 := by norm_num [ecc]
  have e0 : 0 ≤ ecc ^ 2 := sq_nonneg _
  constructor
  · have : ecc ^ 2 * Real.sin lat ^ 2 ≤ 0.01 * 1 := by gcongr
    linarith
  · have := mul_nonneg e0 h0
    linarith

theorem primeVertical_close (S : Setup M pw u) {s : Site} (hs : s.Valid) :
    Close u 450000 7090 (Rounded.primeVertical M pw s.lat) (primeVertical s.ground.lat) := by
  have hsmall := S.acc.small
  have s2 := ((lat_close S hs).sin S.acc).pow S (by norm_num) 2
  have r := (((Close.exact (u := u) (show |(1 : ℝ)| ≤ 1 by norm_num)).sub
    (((ecc_close S).mul S.acc s2 (by norm_num)).fl S.acc)).fl S.acc).mono S.acc.nonneg
      (l := 50) (C := 2) (by norm_num) (by norm_num)
  obtain ⟨b1, b2⟩ := radicand_bounds s.ground.lat
  have r1 := (abs_le.1 r.err).1
  have q := ((r.sqrt (by linarith) (by linarith) b2).fl S.acc).mono S.acc.nonneg (l := 52) (C := 1)
    (by norm_num) le_rfl
  have q1 := (abs_le.1 q.err).1
  have q2 : 0.99 ≤ Real.sqrt (1 - ecc ^ 2 * Real.sin s.ground.lat ^ 2) :=
    Real.le_sqrt_of_sq_le (by linarith)
  have i := q.inv (m := 0.9) (by norm_num) (by linarith) (by linarith)
  have a : Close u 6379 6379 (M.fl axisA) axisA :=
    (Close.lit S.acc (c := axisA) (by norm_num [axisA])).mono S.acc.nonneg (by norm_num [axisA])
      (by norm_num [axisA])
  have := (a.mul S.acc i (by norm_num)).fl S.acc
  rw [mul_one_div (M.fl axisA), mul_one_div axisA] at this
  exact this.mono S.acc.nonneg (by norm_num) (by norm_num)

theorem itrs_close (S : Setup M pw u) {s : Site} (hs : s.Valid) (i : Fin 3) :
    Close u 660000 7200 (Rounded.itrs M pw s i) (s.ground.itrs i) := by
  have m := primeVertical_close S hs
  have h : Close u 0 10 s.height s.ground.height := Close.exact hs.height
  have cl := (lat_close S hs).cos S.acc
  have sl := (lat_close S hs).sin S.acc
  have co := (lon_close S hs).cos S.acc
  have so := (lon_close S hs).sin S.acc
  have xy := ((((m.add h).fl S.acc).mul S.acc cl (by norm_num)).fl S.acc).mono S.acc.nonneg
    (l := 530000) (C := 7100) (by norm_num) (by norm_num)
  fin_cases i
  · exact ((xy.mul S.acc co (by norm_num)).fl S.acc).mono S.acc.nonneg (by norm_num) (by norm_num)
  · exact ((xy.mul S.acc so (by norm_num)).fl S.acc).mono S.acc.nonneg (by norm_num) (by norm_num)
  · have e0 : ecc ^ 2 ≤ 1 := by norm_num [ecc]
    have e1 := sq_nonneg ecc
    have f : Close u 9.5 1 (M.fl (1 - pw (M.fl ecc) 2)) (1 - ecc ^ 2) := by
      have r := (Close.exact (u := u) (show |(1 : ℝ)| ≤ 1 by norm_num)).sub (ecc_close S)
      have r' : Close u 8.4 1 (1 - pw (M.fl ecc) 2) (1 - ecc ^ 2) :=
        ⟨r.err.trans (by norm_num), by rw [abs_le]; constructor <;> linarith⟩
      exact (r'.fl S.acc).mono S.acc.nonneg (by norm_num) le_rfl
    have z := (((((m.mul S.acc f (by norm_num)).fl S.acc).add h).fl S.acc).mul S.acc sl
      (by norm_num)).fl S.acc
    exact z.mono S.acc.nonneg (by norm_num) (by norm_num)

/-- The computed station is within `2 000 000 u` kilometres of the station. -/
theorem station_close (S : Setup M pw u) {s : Site} (hs : s.Valid) :
    vnorm (Rounded.itrs M pw s - s.ground.itrs) ≤ 2000000 * u := by
  have hu := S.acc.nonneg
  refine (abs_le_of_sq_le_sq' ?_ (by positivity)).2
  rw [vnorm_sq_coords]
  have t : ∀ i, ((Rounded.itrs M pw s - s.ground.itrs) i) ^ 2 ≤ (660000 * u) ^ 2 := by
    intro i
    rw [← sq_abs]
    exact pow_le_pow_left₀ (abs_nonneg _) (itrs_close S hs i).err 2
  have := t 0
  have := t 1
  have := t 2
  nlinarith [sq_nonneg u]

/-- A station is at least 6300 km from the centre of the Earth. -/
theorem station_far {s : Site} (hs : s.Valid) : 6300 ≤ vnorm s.ground.itrs := by
  have hh := abs_le.1 hs.height
  refine (abs_le_of_sq_le_sq' ?_ (vnorm_nonneg _)).2
  rw [vnorm_sq_coords]
  set g := s.ground with hg
  have hgh : g.height = s.height := rfl
  obtain ⟨b1, b2⟩ := radicand_bounds g.lat
  have hq0 : 0 < Real.sqrt (1 - ecc ^ 2 * Real.sin g.lat ^ 2) := Real.sqrt_pos.2 (by linarith)
  have hq1 : Real.sqrt (1 - ecc ^ 2 * Real.sin g.lat ^ 2) ≤ 1 := Real.sqrt_le_one.2 b2
  have hm : 6378 ≤ primeVertical g.lat := by
    unfold primeVertical
    rw [le_div_iff₀ hq0]
    have : axisA = 6378.137 := rfl
    nlinarith
  have he : ecc ^ 2 ≤ 0.007 := by norm_num [ecc]
  set m := primeVertical g.lat with hmdef
  have hx : g.itrs 0 = (m + g.height) * Real.cos g.lat * Real.cos g.lon := rfl
  have hy : g.itrs 1 = (m + g.height) * Real.cos g.lat * Real.sin g.lon := rfl
  have hz : g.itrs 2 = (m * (1 - ecc ^ 2) + g.height) * Real.sin g.lat := rfl
  have a1 : 6300 ≤ m + g.height := by linarith
  have a2 : 6300 ≤ m * (1 - ecc ^ 2) + g.height := by nlinarith
  have s1 := Real.sin_sq_add_cos_sq g.lat
  have s2 := Real.sin_sq_add_cos_sq g.lon
  have e : g.itrs 0 ^ 2 + g.itrs 1 ^ 2 + g.itrs 2 ^ 2 =
      (m + g.height) ^ 2 * Real.cos g.lat ^ 2 +
        (m * (1 - ecc ^ 2) + g.height) ^ 2 * Real.sin g.lat ^ 2 := by
    rw [hx, hy, hz]
    linear_combination (m + g.height) ^ 2 * Real.cos g.lat ^ 2 * s2
  rw [e]
  have p1 : 6300 ^ 2 * Real.cos g.lat ^ 2 ≤ (m + g.height) ^ 2 * Real.cos g.lat ^ 2 := by gcongr
  have p2 : 6300 ^ 2 * Real.sin g.lat ^ 2 ≤
      (m * (1 - ecc ^ 2) + g.height) ^ 2 * Real.sin g.lat ^ 2 := by gcongr
  linarith

/-! ### Elevations for slightly wrong positions -/

/-- Two vectors that differ by a small part of their length enclose a small angle. -/
theorem angle_small {a b : Vec} {d δ : ℝ} (hd : 0 < d) (ha : d ≤ vnorm a)
    (hab : vnorm (a - b) ≤ δ * d) (hδ : δ ≤ 1 / 100) :
    InnerProductGeometry.angle (toE a) (toE b) ≤ 1.6 * δ := by
  have hδ0 : 0 ≤ δ := by
    by_contra h
    have := mul_neg_of_neg_of_pos (not_le.1 h) hd
    linarith [vnorm_nonneg (a - b)]
  have e : ‖toE a - toE b‖ = vnorm (a - b) := by
    rw [← norm_toE]
    rfl
  have h1 := angle_le_arcsin (toE a) (toE b) d (δ * d) hd (by rw [norm_toE]; exact ha)
    (by rw [e]; exact hab) (by nlinarith)
  rw [mul_div_cancel_right₀ _ hd.ne'] at h1
  refine h1.trans ?_
  have hp : Real.pi < 3.15 := Real.pi_lt_d2
  have hp0 : 3 < Real.pi := Real.pi_gt_three
  rw [Real.arcsin_le_iff_le_sin ⟨by linarith, by linarith⟩ ⟨by linarith, by linarith⟩]
  have hj := Real.mul_le_sin (x := 1.6 * δ) (by positivity) (by linarith)
  refine le_trans ?_ hj
  rw [div_mul_eq_mul_div, le_div_iff₀ Real.pi_pos]
  nlinarith

/-- The elevation of a slightly wrong position from a slightly wrong station. -/
theorem trueElevation_close {p p' g g' : Vec} {δ ε : ℝ} (hp : 0 < vnorm (p - g))
    (hg : 0 < vnorm g) (h1 : vnorm ((p - g) - (p' - g')) ≤ δ * vnorm (p - g))
    (h2 : vnorm (g - g') ≤ ε * vnorm g) (hδ : δ ≤ 1 / 100) (hε : ε ≤ 1 / 100) :
    |trueElevation p' g' - trueElevation p g| ≤ 92 * (δ + ε) := by
  have a1 := angle_small hp le_rfl h1 hδ
  have a2 := angle_small hg le_rfl h2 hε
  have t1 := InnerProductGeometry.angle_le_angle_add_angle (toE (p - g)) (toE (p' - g')) (toE g)
  have t2 := InnerProductGeometry.angle_le_angle_add_angle (toE (p' - g')) (toE g') (toE g)
  have t3 := InnerProductGeometry.angle_le_angle_add_angle (toE (p' - g')) (toE (p - g)) (toE g')
  have t4 := InnerProductGeometry.angle_le_angle_add_angle (toE (p - g)) (toE g) (toE g')
  rw [InnerProductGeometry.angle_comm (toE (p' - g')) (toE (p - g))] at t3
  rw [InnerProductGeometry.angle_comm (toE g') (toE g)] at t2
  have hd : |InnerProductGeometry.angle (toE (p' - g')) (toE g') -
      InnerProductGeometry.angle (toE (p - g)) (toE g)| ≤ 1.6 * (δ + ε) := by
    rw [abs_le]
    constructor <;> linarith
  have hf : 180 / Real.pi ≤ 57.5 := by
    rw [div_le_iff₀ Real.pi_pos]
    have := Real.pi_gt_d2
    linarith
  have e : trueElevation p' g' - trueElevation p g =
      -((InnerProductGeometry.angle (toE (p' - g')) (toE g') -
      InnerProductGeometry.angle (toE (p - g)) (toE g)) * (180 / Real.pi)) := by
    unfold trueElevation
    ring
  rw [e, abs_neg, abs_mul, abs_of_pos (by have := Real.pi_pos; positivity : 0 < 180 / Real.pi)]
  calc _ ≤ 1.6 * (δ + ε) * 57.5 := by
        refine mul_le_mul hd hf (by have := Real.pi_pos; positivity) ((abs_nonneg _).trans hd)
    _ = _ := by ring

end Celest.Frames
