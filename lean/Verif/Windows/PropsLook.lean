/-
C120: distances and look angles from inertial positions in floating-point arithmetic.
-/
import Verif.Frames.RoundedLook
import Verif.Windows.PropsPipeline

namespace Celest.Windows

open Celest.Frames Matrix

/-! ### Specification -/

/-- The distance in kilometres of the inertial position `r` from the station at an instant. -/
noncomputable def distanceAt (g : Ground) (t : ℝ) (r : Vec) : ℝ := vnorm (r - stationAt g t)

/-- The angle in degrees at the inertial position `r` between the direction of the station and the
direction of the centre of the Earth, at an instant. -/
noncomputable def offNadirAt (g : Ground) (t : ℝ) (r : Vec) : ℝ :=
  InnerProductGeometry.angle (toE (stationAt g t - r)) (toE (-r)) * (180 / Real.pi)

/-! ### Lemmas -/

/-- The computed cosine of the angle between a vector of rounded differences and another vector. -/
theorem rounded_cosine {M : Machine} {u : ℝ} (h : M.Accurate u) {w b : Vec} (hw : w ≠ 0)
    (hb : b ≠ 0) :
    |Rounded.cosine M (fun i => M.fl (w i)) b -
      Real.cos (InnerProductGeometry.angle (toE w) (toE b))| ≤ 15 * u := by
  have hu0 := h.nonneg
  obtain ⟨h1, h2⟩ := angle_rounded h hw
  have h3 := cosine_close h h1 hb
  set w' : Vec := fun i => M.fl (w i) with hw'
  have t1 := InnerProductGeometry.angle_le_angle_add_angle (toE w) (toE w') (toE b)
  have t2 := InnerProductGeometry.angle_le_angle_add_angle (toE w') (toE w) (toE b)
  rw [InnerProductGeometry.angle_comm (toE w') (toE w)] at t2
  have t3 : |InnerProductGeometry.angle (toE w') (toE b) -
      InnerProductGeometry.angle (toE w) (toE b)| ≤ 1.6 * u := by
    rw [abs_le]
    constructor <;> linarith
  have t4 := Real.abs_cos_sub_cos_le (InnerProductGeometry.angle (toE w') (toE b))
    (InnerProductGeometry.angle (toE w) (toE b))
  have t5 := abs_sub_le (Rounded.cosine M w' b)
    (Real.cos (InnerProductGeometry.angle (toE w') (toE b)))
    (Real.cos (InnerProductGeometry.angle (toE w) (toE b)))
  linarith

/-- The angle computed between a vector of rounded differences and another vector. -/
theorem rounded_angle {M : Machine} {u : ℝ} (h : M.Accurate u) {w b : Vec} (hw : w ≠ 0)
    (hb : b ≠ 0) :
    (∀ x, Rounded.getAng M (fun i => M.fl (w i)) b = some x →
      |x - InnerProductGeometry.angle (toE w) (toE b) * (180 / Real.pi)| ≤ elevationError u) ∧
    (Rounded.getAng M (fun i => M.fl (w i)) b = none →
      InnerProductGeometry.angle (toE w) (toE b) * (180 / Real.pi) ≤ elevationError u ∨
      180 - elevationError u ≤ InnerProductGeometry.angle (toE w) (toE b) * (180 / Real.pi)) := by
  have hu0 := h.nonneg
  have hu1 := h.small
  have hpi := Real.pi_pos
  have hz := rounded_cosine h hw hb
  set θ := InnerProductGeometry.angle (toE w) (toE b) with hθ
  have hθ0 : 0 ≤ θ := InnerProductGeometry.angle_nonneg _ _
  have hθp : θ ≤ Real.pi := InnerProductGeometry.angle_le_pi _ _
  have conv : Real.pi * Real.sqrt (15 * u / 2) * (180 / Real.pi) = 180 * Real.sqrt (7.5 * u) := by
    rw [show 15 * u / 2 = 7.5 * u by ring]
    field_simp
  have hu' : 0 ≤ 1000 * u := by positivity
  unfold elevationError
  constructor
  · intro x hx
    obtain ⟨hc, h1, -⟩ := getAng_close h hx
    set q := Rounded.cosine M (fun i => M.fl (w i)) b with hq
    have hcos : Real.cos (Real.arccos q) = q := Real.cos_arccos (abs_le.1 hc).1 (abs_le.1 hc).2
    obtain ⟨m1, -, -⟩ := angle_of_cos (Real.arccos_nonneg q) (Real.arccos_le_pi q) hθ0 hθp
      (δ := 15 * u) (by rw [hcos]; exact hz)
    set t := Real.arccos q with ht
    have m2 : |t - θ| * (180 / Real.pi) ≤ Real.pi * Real.sqrt (15 * u / 2) * (180 / Real.pi) := by
      gcongr
    have e2 : |(t - θ) * (180 / Real.pi)| = |t - θ| * (180 / Real.pi) := by
      rw [abs_mul, abs_of_pos (by positivity : 0 < 180 / Real.pi)]
    have e : x - θ * (180 / Real.pi) = (x - t * (180 / Real.pi)) + (t - θ) * (180 / Real.pi) := by
      ring
    have := abs_add_le (x - t * (180 / Real.pi)) ((t - θ) * (180 / Real.pi))
    rw [e]
    linarith
  · intro hx
    have hpos := lengths_pos h (angle_rounded h hw).1 hb
    have hP := mul_pos (vnorm_pos (angle_rounded h hw).1) (vnorm_pos hb)
    unfold Rounded.getAng at hx
    rw [if_neg (by linarith)] at hx
    split_ifs at hx with h1
    set q := Rounded.cosine M (fun i => M.fl (w i)) b with hq
    have hz' := abs_le.1 hz
    have hc1 := Real.cos_le_one θ
    have hc2 := Real.neg_one_le_cos θ
    rcases lt_abs.1 h1 with h1 | h1
    · left
      obtain ⟨m, -, -⟩ := angle_of_cos hθ0 hθp le_rfl hpi.le (δ := 15 * u) (by
        rw [Real.cos_zero, abs_le]
        constructor <;> linarith)
      rw [sub_zero, abs_of_nonneg hθ0] at m
      have m' : θ * (180 / Real.pi) ≤ Real.pi * Real.sqrt (15 * u / 2) * (180 / Real.pi) := by
        gcongr
      linarith
    · right
      obtain ⟨m, -, -⟩ := angle_of_cos hθ0 hθp hpi.le le_rfl (δ := 15 * u) (by
        rw [Real.cos_pi, abs_le]
        constructor <;> linarith)
      have m0 := neg_abs_le (θ - Real.pi)
      have m' : (Real.pi - θ) * (180 / Real.pi) ≤
          Real.pi * Real.sqrt (15 * u / 2) * (180 / Real.pi) := by
        gcongr
        linarith
      have m'' : (Real.pi - θ) * (180 / Real.pi) = 180 - θ * (180 / Real.pi) := by
        field_simp
      linarith

/-- The computed length of a vector of rounded differences. -/
theorem rounded_length {M : Machine} {u : ℝ} (h : M.Accurate u) (w : Vec) :
    |Rounded.vnorm M (fun i => M.fl (w i)) - vnorm w| ≤ 5 * u * vnorm w := by
  have hu0 := h.nonneg
  have hu1 := h.small
  have hw0 := vnorm_nonneg w
  set w' : Vec := fun i => M.fl (w i) with hw'
  have hd : vnorm (w - w') ≤ u * vnorm w := by
    refine (abs_le_of_sq_le_sq' ?_ (by positivity)).2
    rw [mul_pow, vnorm_sq_coords, vnorm_sq_coords]
    have t : ∀ i, ((w - w') i) ^ 2 ≤ u ^ 2 * w i ^ 2 := by
      intro i
      have := h.fl (w i)
      rw [← sq_abs, ← sq_abs (w i), ← mul_pow, Pi.sub_apply, abs_sub_comm]
      exact pow_le_pow_left₀ (abs_nonneg _) this 2
    have := t 0
    have := t 1
    have := t 2
    linarith
  have h1 := vnorm_rel h w'
  unfold Frames.Rel at h1
  rw [abs_of_nonneg (vnorm_nonneg w')] at h1
  have h2 := vnorm_add (w' - w) w
  have h3 := vnorm_add (w - w') w'
  rw [sub_add_cancel] at h2 h3
  rw [vnorm_sub_comm] at h2
  have h4 : 3.2 * u * vnorm w' ≤ 3.2 * u * ((1 + u) * vnorm w) := by
    gcongr
    linarith
  have h5 : 3.2 * u * ((1 + u) * vnorm w) ≤ 3.3 * u * vnorm w := by
    have : u * vnorm w * u ≤ u * vnorm w * (1 / 10 ^ 12) := by gcongr
    have : 0 ≤ u * vnorm w := by positivity
    nlinarith
  have h6 := abs_le.1 h1
  rw [abs_le]
  constructor <;> linarith

/-- Distances and off-nadir angles are the same in the rotating and in the inertial frame. -/
theorem offNadirAt_eq (g : Ground) (t : ℝ) (r : Vec) :
    offNadirAt g t r = InnerProductGeometry.angle (toE (gcrsToItrs1 t r - g.itrs))
      (toE (gcrsToItrs1 t r)) * (180 / Real.pi) ∧ vnorm (gcrsToItrs1 t r) = vnorm r := by
  obtain ⟨m, hm, h1, h2⟩ := to_itrs_rotation g t
  constructor
  · unfold offNadirAt
    have e1 : toE (stationAt g t - r) = -toE (r - stationAt g t) := by
      rw [← neg_sub]
      rfl
    have e2 : toE (-r) = -toE r := rfl
    rw [e1, e2, InnerProductGeometry.angle_neg_neg]
    have e : gcrsToItrs1 t r - g.itrs = m *ᵥ (r - stationAt g t) := by
      rw [h1, Matrix.mulVec_sub, h2]
    rw [e, h1]
    congr 1
    unfold InnerProductGeometry.angle
    rw [inner_toE, norm_toE, norm_toE, inner_toE, norm_toE, norm_toE, hm.vnorm, hm.vnorm, hm.dot]
  · rw [h1, hm.vnorm]

/-- The inertial station is as far from the centre of the Earth as the location. -/
theorem stationAt_vnorm (g : Ground) (t : ℝ) : vnorm (stationAt g t) = vnorm g.itrs := by
  obtain ⟨m, hm, -, h2⟩ := to_itrs_rotation g t
  rw [← h2, hm.vnorm]

theorem station_near {s : Site} (hs : s.Valid) : vnorm s.ground.itrs ≤ 8000 := by
  have hh := abs_le.1 hs.height
  refine (abs_le_of_sq_le_sq' ?_ (by norm_num)).2
  rw [vnorm_sq_coords]
  set g := s.ground with hg
  have hgh : g.height = s.height := rfl
  obtain ⟨b1, b2⟩ := radicand_bounds g.lat
  have hq0 : 0.9 ≤ Real.sqrt (1 - ecc ^ 2 * Real.sin g.lat ^ 2) :=
    Real.le_sqrt_of_sq_le (by linarith)
  have hm : primeVertical g.lat ≤ 7100 := by
    unfold primeVertical
    rw [div_le_iff₀ (by linarith)]
    have : axisA = 6378.137 := rfl
    linarith
  have hm0 : 0 ≤ primeVertical g.lat := by
    unfold primeVertical
    have := axisA_pos
    positivity
  have he : ecc ^ 2 ≤ 0.007 := by norm_num [ecc]
  have he0 : 0 ≤ ecc ^ 2 := by positivity
  set m := primeVertical g.lat with hmdef
  have hx : g.itrs 0 = (m + g.height) * Real.cos g.lat * Real.cos g.lon := rfl
  have hy : g.itrs 1 = (m + g.height) * Real.cos g.lat * Real.sin g.lon := rfl
  have hz : g.itrs 2 = (m * (1 - ecc ^ 2) + g.height) * Real.sin g.lat := rfl
  have k1 : m * ecc ^ 2 ≤ 7100 * 0.007 := by gcongr
  have k2 : 0 ≤ m * ecc ^ 2 := by positivity
  have a1 : (m + g.height) ^ 2 ≤ 8000 ^ 2 := sq_le_sq' (by linarith) (by linarith)
  have a2 : (m * (1 - ecc ^ 2) + g.height) ^ 2 ≤ 8000 ^ 2 := by
    rw [mul_one_sub]
    exact sq_le_sq' (by linarith) (by linarith)
  have s1 := Real.sin_sq_add_cos_sq g.lat
  have s2 := Real.sin_sq_add_cos_sq g.lon
  have e : g.itrs 0 ^ 2 + g.itrs 1 ^ 2 + g.itrs 2 ^ 2 =
      (m + g.height) ^ 2 * Real.cos g.lat ^ 2 +
        (m * (1 - ecc ^ 2) + g.height) ^ 2 * Real.sin g.lat ^ 2 := by
    rw [hx, hy, hz]
    linear_combination (m + g.height) ^ 2 * Real.cos g.lat ^ 2 * s2
  rw [e]
  have p1 : (m + g.height) ^ 2 * Real.cos g.lat ^ 2 ≤ 8000 ^ 2 * Real.cos g.lat ^ 2 := by gcongr
  have p2 : (m * (1 - ecc ^ 2) + g.height) ^ 2 * Real.sin g.lat ^ 2 ≤
      8000 ^ 2 * Real.sin g.lat ^ 2 := by gcongr
  linarith

/-! ### C120 -/

variable {M : Machine} {pw : ℝ → ℕ → ℝ} {s : Site}

/-- **C120.** A distance computed in double precision from the inertial position of the satellite
and the geodetic coordinates of the location is right to one part in nine thousand million of the
satellite's distance from the centre of the Earth. -/
theorem C120_distance_partial (S : Setup M pw (1 / 2 ^ 53)) (hs : s.Valid) {t : ℝ} {r : Vec}
    (ht : ThisCentury t) :
    |Rounded.distance M (toItrs64 M pw t r) (Rounded.itrs M pw s) - distanceAt s.ground t r| ≤
      (vnorm r + 10) / (9 * 10 ^ 9) := by
  have e2 := (elevationAt_eq s.ground t r).2
  have e3 := (offNadirAt_eq s.ground t r).2
  have hc := (C116_error S ht r).1
  have hst := station_close S hs
  have hnear := station_near hs
  unfold distanceAt Rounded.distance
  rw [← e2]
  have hc' : vnorm (toItrs64 M pw t r - gcrsToItrs1 t r) ≤ 930000 * (1 / 2 ^ 53) * vnorm r := hc
  set p := gcrsToItrs1 t r with hp
  set G := s.ground.itrs with hG
  set G' := Rounded.itrs M pw s with hG'
  set p' := toItrs64 M pw t r with hp'
  have hl := rounded_length S.acc (p' - G')
  have hl' : |Rounded.vnorm M (fun i => M.fl (p' i - G' i)) - vnorm (p' - G')| ≤
    5 * (1 / 2 ^ 53) * vnorm (p' - G') := hl
  have hr0 := vnorm_nonneg r
  have hd : vnorm ((p' - G') - (p - G)) ≤
      930000 * (1 / 2 ^ 53) * vnorm r + 2000000 * (1 / 2 ^ 53) := by
    rw [show (p' - G') - (p - G) = (p' - p) + (G - G') by abel]
    have h1 := vnorm_add (p' - p) (G - G')
    rw [vnorm_sub_comm G G'] at h1
    linarith
  have h1 := vnorm_add ((p' - G') - (p - G)) (p - G)
  have h2 := vnorm_add ((p - G) - (p' - G')) (p' - G')
  rw [vnorm_sub_comm] at h2
  rw [sub_add_cancel] at h1 h2
  have h3 : vnorm (p - G) ≤ vnorm r + 8000 := by
    have := vnorm_sub_le p 0 G
    rw [vnorm_sub_comm 0 G, sub_zero, sub_zero, e3] at this
    linarith
  rw [abs_le] at hl' ⊢
  norm_num at *
  constructor <;> linarith

/-- **C120.** Within 50 000 km of the centre of the Earth the error is below a centimetre. -/
theorem C120_distance_centimetre_partial (S : Setup M pw (1 / 2 ^ 53)) (hs : s.Valid) {t : ℝ} {r : Vec}
    (ht : ThisCentury t) (hr : vnorm r ≤ 50000) :
    |Rounded.distance M (toItrs64 M pw t r) (Rounded.itrs M pw s) - distanceAt s.ground t r| <
      1 / 10 ^ 5 := by
  refine (C120_distance_partial S hs ht).trans_lt ?_
  rw [div_lt_iff₀ (by norm_num)]
  norm_num
  linarith

/-- **C120.** A look angle that comes out as a number is within `slack` of the angle at the
satellite between the directions of the station and of the centre of the Earth, in inertial space;
and it comes out as NaN only if that angle is within `slack` of 0 or of 180 degrees. -/
theorem C120_look_angle_partial (S : Setup M pw (1 / 2 ^ 53)) (hs : s.Valid) {t : ℝ} {r : Vec}
    (ht : ThisCentury t) (hr : Resolved s.ground t r) (hr0 : r ≠ 0) :
    (∀ x, Rounded.lookAngle M (toItrs64 M pw t r) (Rounded.itrs M pw s) = some x →
      |x - offNadirAt s.ground t r| ≤ slack) ∧
    (Rounded.lookAngle M (toItrs64 M pw t r) (Rounded.itrs M pw s) = none →
      offNadirAt s.ground t r ≤ slack ∨ 180 - slack ≤ offNadirAt s.ground t r) := by
  obtain ⟨n1, -, -⟩ := pipeline_positions S hs ht hr
  have e2 := (elevationAt_eq s.ground t r).2
  obtain ⟨e1, e3⟩ := offNadirAt_eq s.ground t r
  obtain ⟨r1, r2⟩ := hr
  rw [← e2] at r1 r2
  have hst := station_close S hs
  have hc' : vnorm (gcrsToItrs1 t r - toItrs64 M pw t r) ≤ 930000 * (1 / 2 ^ 53) * vnorm r := by
    rw [vnorm_sub_comm]
    exact (C116_error S ht r).1
  have hrp := vnorm_pos hr0
  set p := gcrsToItrs1 t r with hp
  set G := s.ground.itrs with hG
  set G' := Rounded.itrs M pw s with hG'
  set p' := toItrs64 M pw t r with hp'
  set ρ := vnorm (p - G) with hρ
  have hρ0 : 0 < ρ := by linarith
  have hd : vnorm ((p - G) - (p' - G')) ≤ 465020000 * (1 / 2 ^ 53) * ρ := by
    rw [show (p - G) - (p' - G') = (p - p') + (G' - G) by abel]
    have h1 := vnorm_add (p - p') (G' - G)
    have h2 : 930000 * (1 / 2 ^ 53) * vnorm r ≤ 930000 * (1 / 2 ^ 53) * (500 * ρ) := by gcongr
    linarith
  rw [← e3] at hc' hrp
  have n2 : p' ≠ 0 := by
    intro h0
    rw [h0, sub_zero] at hc'
    norm_num at hc'
    linarith
  have a1 := angle_small hρ0 le_rfl hd (by norm_num)
  have a2 := angle_small hrp le_rfl hc' (by norm_num)
  have hang := rounded_angle S.acc (sub_ne_zero.2 n1) n2
  have t1 := InnerProductGeometry.angle_le_angle_add_angle (toE (p - G)) (toE (p' - G')) (toE p)
  have t2 := InnerProductGeometry.angle_le_angle_add_angle (toE (p' - G')) (toE p') (toE p)
  have t3 := InnerProductGeometry.angle_le_angle_add_angle (toE (p' - G')) (toE (p - G)) (toE p')
  have t4 := InnerProductGeometry.angle_le_angle_add_angle (toE (p - G)) (toE p) (toE p')
  rw [InnerProductGeometry.angle_comm (toE (p' - G')) (toE (p - G))] at t3
  rw [InnerProductGeometry.angle_comm (toE p') (toE p)] at t2
  set θ' := InnerProductGeometry.angle (toE (p' - G')) (toE p') with hθ'
  set θ := InnerProductGeometry.angle (toE (p - G)) (toE p) with hθ
  have hdiff : |θ' - θ| ≤ 8.3 / 10 ^ 8 := by
    have n1 : (1.6 * (465020000 * (1 / 2 ^ 53)) + 1.6 * (930000 * (1 / 2 ^ 53)) : ℝ) ≤
        8.3 / 10 ^ 8 := by norm_num
    rw [abs_le]
    constructor <;> linarith
  have hf : 180 / Real.pi ≤ 57.5 := by
    rw [div_le_iff₀ Real.pi_pos]
    have := Real.pi_gt_d2
    linarith
  have hf0 : 0 < 180 / Real.pi := by have := Real.pi_pos; positivity
  have hdeg : |θ' * (180 / Real.pi) - θ * (180 / Real.pi)| ≤ 5 / 10 ^ 6 := by
    rw [← sub_mul, abs_mul, abs_of_pos hf0]
    refine (mul_le_mul hdiff hf hf0.le (by norm_num)).trans (by norm_num)
  have hE := elevationError_binary64
  have hsl : slack = 1.5 / 10 ^ 5 := rfl
  rw [e1]
  have hdeg' := abs_le.1 hdeg
  constructor
  · intro x hx
    have h4 := hang.1 x hx
    have := abs_sub_le x (θ' * (180 / Real.pi)) (θ * (180 / Real.pi))
    linarith
  · intro hx
    rcases hang.2 hx with h4 | h4
    · left
      linarith
    · right
      linarith

theorem round_sqrt_double : roundReal 53 (Real.sqrt 162000000) = 6997249151944818 / 2 ^ 39 := by
  have h0 : (12727.92206135 : ℝ) ≤ Real.sqrt 162000000 := by
    apply Real.le_sqrt_of_sq_le
    norm_num
  have h1 : Real.sqrt 162000000 ≤ 12727.92206136 := by
    rw [Real.sqrt_le_left (by norm_num)]
    norm_num
  have h := roundReal_eq (p := 53) (Real.sqrt 162000000) 13 6997249151944818
    (by norm_num; linarith) (by norm_num; linarith) (by
      have a : (6997249151944818 / 2 ^ 39 - 495 / 1000 / 2 ^ 39 : ℝ) ≤ Real.sqrt 162000000 := by
        apply Real.le_sqrt_of_sq_le
        norm_num
      have b : Real.sqrt 162000000 ≤ (6997249151944818 / 2 ^ 39 + 495 / 1000 / 2 ^ 39 : ℝ) := by
        rw [Real.sqrt_le_left (by norm_num)]
        norm_num
      rw [abs_lt]
      norm_num at a b ⊢
      constructor <;> linarith)
  rw [h]
  norm_num

/-- **C120.** In double precision the look angle of a satellite directly overhead, which the
documentation promises to be zero, can come out as NaN. -/
theorem C120_overhead_nan {M : Machine} (h : M.Doubles) :
    InnerProductGeometry.angle (toE (zenithStation - (2 : ℝ) • zenithStation))
      (toE (-((2 : ℝ) • zenithStation))) = 0 ∧
    Rounded.lookAngle M ((2 : ℝ) • zenithStation) zenithStation = none := by
  constructor
  · have hne : toE zenithStation ≠ 0 := by
      intro h0
      have := congrFun (congrArg (fun x => x.ofLp) h0) 0
      simp [zenithStation] at this
    have e1 : toE (zenithStation - (2 : ℝ) • zenithStation) = -toE zenithStation := by
      rw [two_smul, sub_add_cancel_left]
      rfl
    have e2 : toE (-((2 : ℝ) • zenithStation)) = -((2 : ℝ) • toE zenithStation) := rfl
    rw [e1, e2, InnerProductGeometry.angle_neg_neg,
      InnerProductGeometry.angle_smul_right_of_pos _ _ (by norm_num),
      InnerProductGeometry.angle_self hne]
  · have hint : zenithStation = fun i => ((![1100, 3500, 5200] : Fin 3 → ℤ) i : ℝ) := by
      ext i
      fin_cases i <;> simp [zenithStation]
    have hint2 : (2 : ℝ) • zenithStation =
        fun i => ((![2200, 7000, 10400] : Fin 3 → ℤ) i : ℝ) := by
      ext i
      fin_cases i <;> simp [zenithStation] <;> norm_num
    have hdiff : (fun i => M.fl (((2 : ℝ) • zenithStation) i - zenithStation i)) =
        zenithStation := by
      ext i
      have e : ((2 : ℝ) • zenithStation) i - zenithStation i = zenithStation i := by
        simp only [Pi.smul_apply, smul_eq_mul]
        ring
      rw [e, h.fl, hint]
      fin_cases i <;> exact roundReal_int _ (by norm_num)
    have hdot : M.dot zenithStation zenithStation = 40500000 := by
      rw [hint, h.dot _ _ (by simp)]
      norm_num [Matrix.cons_val_two]
    have hdot1 : M.dot zenithStation ((2 : ℝ) • zenithStation) = 81000000 := by
      rw [hint2, hint, h.dot _ _ (by simp)]
      norm_num [Matrix.cons_val_two]
    have hdot2 : M.dot ((2 : ℝ) • zenithStation) ((2 : ℝ) • zenithStation) = 162000000 := by
      rw [hint2, h.dot _ _ (by simp)]
      norm_num [Matrix.cons_val_two]
    have hnorm : Rounded.vnorm M zenithStation = 6997249151944818 / 2 ^ 40 := by
      unfold Rounded.vnorm
      rw [hdot, h.fl, round_sqrt]
    have hnorm2 : Rounded.vnorm M ((2 : ℝ) • zenithStation) = 6997249151944818 / 2 ^ 39 := by
      unfold Rounded.vnorm
      rw [hdot2, h.fl, round_sqrt_double]
    have hden : M.fl (Rounded.vnorm M zenithStation *
        Rounded.vnorm M ((2 : ℝ) • zenithStation)) = 5435817983999999 / 2 ^ 26 := by
      rw [hnorm, hnorm2, h.fl, roundReal_eq (p := 53) _ 26 5435817983999999 (by norm_num)
        (by norm_num) (by rw [abs_lt]; norm_num)]
      norm_num
    have hcos : Rounded.cosine M zenithStation ((2 : ℝ) • zenithStation) = 1 + 1 / 2 ^ 52 := by
      unfold Rounded.cosine
      rw [hden, hdot1, h.fl, roundReal_eq (p := 53) _ 0 (2 ^ 52 + 1) (by norm_num) (by norm_num)
        (by rw [abs_lt]; norm_num)]
      norm_num
    unfold Rounded.lookAngle Rounded.getAng
    rw [hdiff, hden, hcos, if_neg (by norm_num), if_pos]
    rw [abs_of_pos (by norm_num)]
    norm_num

/-! ### A case -/

/-- A point on the horizon of the site on the equator, in Earth-fixed coordinates. -/
noncomputable def eastPoint : Vec := ![axisA, axisA, 0]

theorem eastPoint_from : eastPoint - equator.ground.itrs = ![0, axisA, 0] := by
  rw [equator_itrs]
  ext i
  fin_cases i <;> simp [eastPoint]

theorem vnorm_eastPoint : vnorm eastPoint = Real.sqrt 2 * axisA := by
  have hA := axisA_pos
  rw [← Real.sqrt_sq (vnorm_nonneg _), vnorm_sq_coords]
  rw [show eastPoint 0 ^ 2 + eastPoint 1 ^ 2 + eastPoint 2 ^ 2 = 2 * axisA ^ 2 by
    simp [eastPoint]; ring, Real.sqrt_mul (by norm_num), Real.sqrt_sq hA.le]

theorem vnorm_east : vnorm ![0, axisA, 0] = axisA := by
  rw [← Real.sqrt_sq (vnorm_nonneg _), vnorm_sq_coords]
  simp [Real.sqrt_sq axisA_pos.le]

theorem eastPoint_offNadir (t : ℝ) :
    offNadirAt equator.ground t (itrsToGcrs1 t eastPoint) = 45 := by
  have hA := axisA_pos
  rw [(offNadirAt_eq _ _ _).1, itrs_gcrs1, InnerProductGeometry.angle, inner_toE, norm_toE,
    norm_toE, eastPoint_from, vnorm_east, vnorm_eastPoint]
  have e : ![0, axisA, 0] ⬝ᵥ eastPoint / (axisA * (Real.sqrt 2 * axisA)) =
      Real.cos (Real.pi / 4) := by
    rw [Real.cos_pi_div_four]
    have h2 : Real.sqrt 2 * Real.sqrt 2 = 2 := Real.mul_self_sqrt (by norm_num)
    have h0 : 0 < Real.sqrt 2 := by positivity
    simp [eastPoint, dotProduct, Fin.sum_univ_three]
    field_simp
    linarith
  have hpi := Real.pi_pos
  rw [e, Real.arccos_cos (by positivity) (by linarith)]
  field_simp
  norm_num

/-- Non-vacuity for C120: in double precision the look angle of a satellite on the eastern horizon
of a site on the equator in 2023 is 45 degrees, and its distance is the radius of the Earth. -/
example : (∃ x, Rounded.lookAngle binary64
      (toItrs64 binary64 power64 2460000 (itrsToGcrs1 2460000 eastPoint))
      (Rounded.itrs binary64 power64 equator) = some x ∧ |x - 45| ≤ slack) ∧
    |Rounded.distance binary64
      (toItrs64 binary64 power64 2460000 (itrsToGcrs1 2460000 eastPoint))
      (Rounded.itrs binary64 power64 equator) - 6378.137| < 1 / 10 ^ 5 := by
  have hA : axisA = 6378.137 := rfl
  have hs : slack = 1.5 / 10 ^ 5 := rfl
  have h2 : Real.sqrt 2 ≤ 2 := by
    rw [Real.sqrt_le_left (by norm_num)]
    norm_num
  have ht : ThisCentury 2460000 := by norm_num [ThisCentury, abs_le]
  have hn : vnorm (itrsToGcrs1 2460000 eastPoint) = Real.sqrt 2 * axisA := by
    rw [← (offNadirAt_eq equator.ground 2460000 _).2, itrs_gcrs1, vnorm_eastPoint]
  have hd : distanceAt equator.ground 2460000 (itrsToGcrs1 2460000 eastPoint) = 6378.137 := by
    unfold distanceAt
    rw [← (elevationAt_eq _ _ _).2, itrs_gcrs1, eastPoint_from, vnorm_east, hA]
  have hr : Resolved equator.ground 2460000 (itrsToGcrs1 2460000 eastPoint) := by
    refine resolved_of _ _ _ ?_ ?_
    · rw [eastPoint_from, vnorm_east, hA]
      norm_num
    · rw [eastPoint_from, vnorm_east, vnorm_eastPoint, hA]
      linarith
  have h0 : itrsToGcrs1 2460000 eastPoint ≠ 0 := by
    intro h
    have : vnorm (0 : Vec) = 0 := (vnorm_eq_zero _).2 rfl
    rw [h, this, hA] at hn
    have : 0 < Real.sqrt 2 := by positivity
    linarith
  obtain ⟨l1, l2⟩ := C120_look_angle_partial binary64_setup equator_valid ht hr h0
  rw [eastPoint_offNadir] at l1 l2
  constructor
  · cases hx : Rounded.lookAngle binary64
        (toItrs64 binary64 power64 2460000 (itrsToGcrs1 2460000 eastPoint))
        (Rounded.itrs binary64 power64 equator) with
    | none =>
      rcases l2 hx with h | h <;> rw [hs] at h <;> norm_num at h
    | some x => exact ⟨x, rfl, l1 x hx⟩
  · rw [← hd]
    exact C120_distance_centimetre_partial binary64_setup equator_valid ht (by rw [hn, hA]; linarith)

end Celest.Windows
