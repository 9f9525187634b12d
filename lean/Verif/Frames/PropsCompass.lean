/-
C136: the azimuth and the elevation of a satellite against its direction relative to the horizon of
the station and the geographic north.
-/
import Verif.Frames.PropsTrack
import Verif.Frames.LemmasRoundedAzimuth
import Verif.Frames.LemmasAngle

namespace Celest.Frames

open Matrix Celest.TimeScale

/-! ### Specification -/

/-- The vertical at a station: the outward normal of the ellipsoid. -/
noncomputable def up (g : Ground) : Vec :=
  ![Real.cos g.lat * Real.cos g.lon, Real.cos g.lat * Real.sin g.lon, Real.sin g.lat]

/-- The geographic north at a station: the horizontal direction along the meridian in which the
latitude increases. -/
noncomputable def northward (g : Ground) : Vec :=
  ![-(Real.sin g.lat * Real.cos g.lon), -(Real.sin g.lat * Real.sin g.lon), Real.cos g.lat]

/-- What is seen from a station at distance `r` in the direction of azimuth `A`, clockwise from
north, and elevation `e` above the horizon, both in degrees. -/
noncomputable def seenAt (g : Ground) (r A e : ℝ) : Vec :=
  g.itrs + r • ((Real.cos (rad e) * Real.cos (rad A)) • northward g +
    (Real.cos (rad e) * Real.sin (rad A)) • east g.lon + Real.sin (rad e) • up g)

/-! ### The frame of the station -/

/-- A vector from its components north, east and up. -/
noncomputable def local3 (g : Ground) (n e u : ℝ) : Vec :=
  n • northward g + e • east g.lon + u • up g

theorem local_dot (g : Ground) (n e u n' e' u' : ℝ) :
    local3 g n e u ⬝ᵥ local3 g n' e' u' = n * n' + e * e' + u * u' := by
  have h1 := Real.sin_sq_add_cos_sq g.lat
  have h2 := Real.sin_sq_add_cos_sq g.lon
  unfold local3 northward up east
  simp only [dotProduct, Fin.sum_univ_three, Pi.add_apply, Pi.smul_apply, smul_eq_mul,
    Matrix.cons_val_zero, Matrix.cons_val_one, Matrix.cons_val]
  have c1 : Real.cos g.lat ^ 2 = 1 - Real.sin g.lat ^ 2 := by linarith
  have c2 : Real.cos g.lon ^ 2 = 1 - Real.sin g.lon ^ 2 := by linarith
  ring_nf
  rw [c1, c2]
  ring

theorem local_norm (g : Ground) (n e u : ℝ) :
    vnorm (local3 g n e u) = Real.sqrt (n ^ 2 + e ^ 2 + u ^ 2) := by
  unfold vnorm
  rw [local_dot]
  congr 1
  ring

theorem local_sub (g : Ground) (n e u n' e' u' : ℝ) :
    local3 g n e u - local3 g n' e' u' = local3 g (n - n') (e - e') (u - u') := by
  unfold local3
  module

theorem local_smul (g : Ground) (k n e u : ℝ) :
    k • local3 g n e u = local3 g (k * n) (k * e) (k * u) := by
  unfold local3
  module

/-- The component of the position of the station along its vertical. -/
noncomputable def vertical (g : Ground) : ℝ :=
  primeVertical g.lat * (1 - ecc ^ 2 * Real.sin g.lat ^ 2) + g.height

/-- The component of the position of the station along the north. -/
noncomputable def tilt (g : Ground) : ℝ :=
  -(ecc ^ 2 * primeVertical g.lat * (Real.sin g.lat * Real.cos g.lat))

theorem itrs_local (g : Ground) : g.itrs = local3 g (tilt g) 0 (vertical g) := by
  have h1 := Real.sin_sq_add_cos_sq g.lat
  have c1 : Real.cos g.lat ^ 2 = 1 - Real.sin g.lat ^ 2 := by linarith
  unfold local3 northward up east Ground.itrs tilt vertical
  ext i
  fin_cases i <;> simp only [Fin.zero_eta, Fin.mk_one, Fin.reduceFinMk, Pi.add_apply, Pi.smul_apply,
    smul_eq_mul, Matrix.cons_val_zero, Matrix.cons_val_one, Matrix.cons_val]
  · ring
  · ring
  · linear_combination (ecc ^ 2 * primeVertical g.lat * Real.sin g.lat) * h1

theorem tangent_local (g : Ground) (hs : Real.sin g.lat ≠ 0) :
    surfaceTangent g = local3 g (g.radius * Real.cos g.lat / Real.sin g.lat - tilt g) 0
      (g.radius - vertical g) := by
  have h1 := Real.sin_sq_add_cos_sq g.lat
  have e : (![0, 0, g.radius / Real.sin g.lat] : Vec) =
      local3 g (g.radius * Real.cos g.lat / Real.sin g.lat) 0 g.radius := by
    unfold local3 northward up east
    ext i
    fin_cases i <;> simp only [Fin.zero_eta, Fin.mk_one, Fin.reduceFinMk, Pi.add_apply,
      Pi.smul_apply, smul_eq_mul, Matrix.cons_val_zero, Matrix.cons_val_one, Matrix.cons_val]
    · field_simp
      ring
    · field_simp
      ring
    · field_simp
      linear_combination (-g.radius) * h1
  unfold surfaceTangent
  rw [e, itrs_local, local_sub, sub_zero]

/-! ### Sizes -/

theorem tilt_bound (g : Ground) : |tilt g| ≤ 21.43 := by
  have h1 := Real.sin_sq_add_cos_sq g.lat
  have hm := primeVertical_bounds g.lat
  have he : 0 ≤ ecc ^ 2 ∧ ecc ^ 2 ≤ 0.00669438 := by norm_num [ecc]
  have hsc : |Real.sin g.lat * Real.cos g.lat| ≤ 1 / 2 := by
    rw [abs_le]
    constructor <;> nlinarith [sq_nonneg (Real.sin g.lat + Real.cos g.lat),
      sq_nonneg (Real.sin g.lat - Real.cos g.lat)]
  unfold tilt
  rw [abs_neg, abs_mul, abs_of_nonneg (mul_nonneg he.1 (by linarith [hm.1]))]
  have := mul_le_mul he.2 hm.2 (by linarith [hm.1]) (by norm_num)
  have := mul_le_mul this hsc (abs_nonneg _) (by norm_num)
  linarith

theorem vertical_eq (g : Ground) :
    vertical g - g.height = axisA * Real.sqrt (1 - ecc ^ 2 * Real.sin g.lat ^ 2) := by
  have h := curvature_pos g.lat
  have h2 := Real.sqrt_pos.2 h
  unfold vertical primeVertical
  rw [add_sub_cancel_right, div_mul_eq_mul_div, div_eq_iff h2.ne', mul_assoc,
    Real.mul_self_sqrt h.le]

theorem vertical_bounds (g : Ground) :
    6356.7 ≤ vertical g - g.height ∧ vertical g - g.height ≤ 6378.137 := by
  have h := curvature_pos g.lat
  have hs := Real.sin_sq_le_one g.lat
  have hs0 := sq_nonneg (Real.sin g.lat)
  have he : 0 ≤ ecc ^ 2 ∧ ecc ^ 2 ≤ 0.0066944 := by norm_num [ecc]
  rw [vertical_eq, axisA_eq]
  have l : 0.99664 ≤ Real.sqrt (1 - ecc ^ 2 * Real.sin g.lat ^ 2) := by
    apply Real.le_sqrt_of_sq_le
    nlinarith
  have u : Real.sqrt (1 - ecc ^ 2 * Real.sin g.lat ^ 2) ≤ 1 := by
    apply Real.sqrt_le_one.2
    nlinarith
  constructor <;> linarith

/-- The radius the code uses is close to the component of the position along the vertical. -/
theorem radius_vertical (g : Ground) :
    |g.radius - vertical g| ≤
      Real.sin g.lat ^ 2 * (0.1445 * Real.cos g.lat ^ 2 + 0.0000001) := by
  obtain ⟨v1, -⟩ := vertical_bounds g
  obtain ⟨r1, -⟩ := radius_bounds g
  obtain ⟨-, hQ⟩ := numerator_bounds g.lat
  have h1 := Real.sin_sq_add_cos_sq g.lat
  have hw := curvature_pos g.lat
  obtain ⟨D, hD⟩ : ∃ D, D = g.radius - vertical g := ⟨_, rfl⟩
  obtain ⟨ρ, hρ⟩ : ∃ ρ, ρ = g.radius - g.height := ⟨_, rfl⟩
  obtain ⟨γ, hγ⟩ : ∃ γ, γ = vertical g - g.height := ⟨_, rfl⟩
  have eγ : γ ^ 2 = axisA ^ 2 * (1 - ecc ^ 2 * Real.sin g.lat ^ 2) := by
    rw [hγ, vertical_eq, mul_pow, Real.sq_sqrt hw.le]
  have eρ : ρ ^ 2 * ((axisA * Real.cos g.lat) ^ 2 + (axisB * Real.sin g.lat) ^ 2) =
      (axisA ^ 2 * Real.cos g.lat) ^ 2 + (axisB ^ 2 * Real.sin g.lat) ^ 2 := by
    have : ρ = Real.sqrt (((axisA ^ 2 * Real.cos g.lat) ^ 2 + (axisB ^ 2 * Real.sin g.lat) ^ 2) /
        ((axisA * Real.cos g.lat) ^ 2 + (axisB * Real.sin g.lat) ^ 2)) := by
      rw [hρ]
      unfold Ground.radius
      simp
    rw [this, Real.sq_sqrt (by positivity), div_mul_cancel₀]
    linarith
  set s := Real.sin g.lat with hs
  set c := Real.cos g.lat with hc
  obtain ⟨Q, eQ⟩ : ∃ Q, Q = (axisA * c) ^ 2 + (axisB * s) ^ 2 := ⟨_, rfl⟩
  rw [← eQ] at eρ hQ
  obtain ⟨κ, eκ⟩ : ∃ κ, κ = axisB ^ 2 - axisA ^ 2 * (1 - ecc ^ 2) := ⟨_, rfl⟩
  have bκ : |κ| ≤ 0.001 := by
    rw [eκ, abs_le]
    constructor <;> norm_num [axisA, axisB, ecc]
  have key : (ρ ^ 2 - γ ^ 2) * Q = (axisA ^ 2 - axisB ^ 2) ^ 2 * (s ^ 2 * c ^ 2) + κ * s ^ 2 * Q := by
    have c2 : c ^ 2 = 1 - s ^ 2 := by linarith
    rw [sub_mul, eρ, eγ, eQ, eκ]
    simp only [mul_pow]
    rw [c2]
    ring
  have sum : 12713 ≤ ρ + γ := by linarith
  have eD : D * (ρ + γ) = ρ ^ 2 - γ ^ 2 := by
    have : D = ρ - γ := by rw [hD, hρ, hγ]; ring
    rw [this]
    ring
  have hab : (axisA ^ 2 - axisB ^ 2) ^ 2 ≤ 7.4167e10 := by norm_num [axisA, axisB]
  have hsc : 0 ≤ s ^ 2 * c ^ 2 := by positivity
  rw [← hD]
  have hQ0 : 0 < Q := by linarith
  have k2 : |D| * (ρ + γ) * Q ≤ 7.4167e10 * (s ^ 2 * c ^ 2) + 0.001 * s ^ 2 * Q := by
    have e : |D| * (ρ + γ) * Q = |D * (ρ + γ) * Q| := by
      rw [abs_mul, abs_mul, abs_of_pos (by linarith : 0 < ρ + γ), abs_of_pos hQ0]
    rw [e, eD, key]
    refine (abs_add_le _ _).trans ?_
    apply add_le_add
    · rw [abs_of_nonneg (by positivity)]
      exact mul_le_mul_of_nonneg_right hab hsc
    · rw [abs_mul, abs_mul, abs_of_pos hQ0, abs_of_nonneg (sq_nonneg s)]
      exact mul_le_mul_of_nonneg_right (mul_le_mul_of_nonneg_right bκ (sq_nonneg s)) hQ0.le
  have k3 : 7.4167e10 * (s ^ 2 * c ^ 2) ≤ 1836 * (s ^ 2 * c ^ 2) * Q := by nlinarith
  have k4 : |D| * (ρ + γ) ≤ 1836 * (s ^ 2 * c ^ 2) + 0.001 * s ^ 2 := by
    refine le_of_mul_le_mul_right (k2.trans ?_) hQ0
    linarith
  have k5 : |D| * 12713 ≤ |D| * (ρ + γ) := mul_le_mul_of_nonneg_left sum (abs_nonneg D)
  have hs2 := sq_nonneg s
  linarith

theorem radius_vertical_small (g : Ground) : |g.radius - vertical g| ≤ 0.04 := by
  have h := radius_vertical g
  have h1 := Real.sin_sq_add_cos_sq g.lat
  have : Real.sin g.lat ^ 2 * Real.cos g.lat ^ 2 ≤ 1 / 4 := by
    nlinarith [sq_nonneg (Real.sin g.lat ^ 2 - Real.cos g.lat ^ 2)]
  have hs := Real.sin_sq_le_one g.lat
  linarith

theorem arcsin_small {x : ℝ} (h0 : 0 < x) (h1 : x ≤ 0.18) : Real.arcsin x ≤ 1.01 * x := by
  have hp := Real.pi_gt_three
  rw [Real.arcsin_le_iff_le_sin' (by constructor <;> linarith)]
  have h := Real.sin_gt_sub_cube (x := 1.01 * x) (by linarith)
  have : x ^ 3 ≤ 0.0324 * x := by nlinarith [mul_pos h0 h0]
  nlinarith

/-! ### The direction of the satellite -/

theorem seenAt_local (g : Ground) (r A e : ℝ) : seenAt g r A e - g.itrs =
    local3 g (r * (Real.cos (rad e) * Real.cos (rad A))) (r * (Real.cos (rad e) * Real.sin (rad A)))
      (r * Real.sin (rad e)) := by
  unfold seenAt
  rw [add_sub_cancel_left]
  exact local_smul g r _ _ _

theorem local_size (g : Ground) {n e u k : ℝ} (hk : 0 ≤ k) (h : n ^ 2 + e ^ 2 + u ^ 2 = k ^ 2) :
    ‖toE (local3 g n e u)‖ = k := by
  rw [norm_toE, local_norm, h, Real.sqrt_sq hk]

theorem local_size_le (g : Ground) {n e u k : ℝ} (hk : 0 ≤ k) (h : n ^ 2 + e ^ 2 + u ^ 2 ≤ k ^ 2) :
    ‖toE (local3 g n e u)‖ ≤ k := by
  rw [norm_toE, local_norm]
  exact Real.sqrt_le_iff.2 ⟨hk, h⟩

theorem angle_local (g : Ground) (n e u n' e' u' : ℝ) :
    InnerProductGeometry.angle (toE (local3 g n e u)) (toE (local3 g n' e' u')) =
      Real.arccos ((n * n' + e * e' + u * u') /
        (Real.sqrt (n ^ 2 + e ^ 2 + u ^ 2) * Real.sqrt (n' ^ 2 + e' ^ 2 + u' ^ 2))) := by
  unfold InnerProductGeometry.angle
  rw [inner_toE, local_dot, norm_toE, norm_toE, local_norm, local_norm]

theorem angle_diff (a b c d : EuclideanSpace ℝ (Fin 3)) :
    |InnerProductGeometry.angle a b - InnerProductGeometry.angle c d| ≤
      InnerProductGeometry.angle a c + InnerProductGeometry.angle b d := by
  have h1 := InnerProductGeometry.angle_le_angle_add_angle a c b
  have h2 := InnerProductGeometry.angle_le_angle_add_angle c d b
  have h3 := InnerProductGeometry.angle_le_angle_add_angle c a d
  have h4 := InnerProductGeometry.angle_le_angle_add_angle a b d
  rw [InnerProductGeometry.angle_comm d b] at h2
  rw [InnerProductGeometry.angle_comm c a] at h3
  rw [abs_le]
  constructor <;> linarith

/-- The position vector of the station is close to its vertical. -/
theorem angle_vertical (g : Ground) (hh : -1 ≤ g.height) :
    InnerProductGeometry.angle (toE (local3 g 0 0 1)) (toE g.itrs) ≤ 0.003408 := by
  obtain ⟨v1, -⟩ := vertical_bounds g
  have hν := tilt_bound g
  have hγ : 6355.7 ≤ vertical g := by linarith
  have e : toE (local3 g 0 0 (vertical g)) = vertical g • toE (local3 g 0 0 1) := by
    have := local_smul g (vertical g) 0 0 1
    rw [mul_zero, mul_one] at this
    rw [← this]
    rfl
  have h := angle_le_arcsin (toE (local3 g 0 0 (vertical g))) (toE g.itrs) 6355.7 21.43 (by norm_num)
    (by rw [local_size g (by linarith) (show 0 ^ 2 + 0 ^ 2 + vertical g ^ 2 = vertical g ^ 2 by ring)]
        exact hγ)
    (by rw [← toE_sub, itrs_local, local_sub]
        apply local_size_le g (by norm_num)
        have := sq_le_sq' (by linarith [(abs_le.1 hν).1]) (abs_le.1 hν).2
        nlinarith) (by norm_num)
  rw [e, InnerProductGeometry.angle_smul_left_of_pos _ _ (by linarith)] at h
  have h2 := arcsin_small (x := 21.43 / 6355.7) (by norm_num) (by norm_num)
  refine h.trans (h2.trans ?_)
  norm_num

/-- C136, elevation: the elevation of a satellite is within 0.2 degrees of its elevation above the
horizon of the station. -/
theorem C136_elevation_partial (g : Ground) (r A e : ℝ) (hh : -1 ≤ g.height) (hr : 0 < r)
    (he : |e| ≤ 90) : ∃ a, elevation (seenAt g r A e) g = some a ∧ |a - e| ≤ 0.2 := by
  have hp := Real.pi_pos
  have hp3 := Real.pi_gt_three
  have he' := abs_le.1 he
  have hA := Real.sin_sq_add_cos_sq (rad A)
  have hE := Real.sin_sq_add_cos_sq (rad e)
  have hg : g.itrs ≠ 0 := by
    intro h
    have h2 := local_size g (n := tilt g) (e := 0) (u := vertical g) (k := 0) le_rfl (by
      have h3 := local_norm g (tilt g) 0 (vertical g)
      rw [← itrs_local, h] at h3
      have h4 : vnorm (0 : Vec) = 0 := (vnorm_eq_zero 0).2 rfl
      rw [h4] at h3
      have := Real.sqrt_eq_zero'.1 h3.symm
      nlinarith [sq_nonneg (tilt g), sq_nonneg (vertical g)])
    have h5 := local_norm g (tilt g) 0 (vertical g)
    rw [norm_toE, h5, Real.sqrt_eq_zero'] at h2
    have := (vertical_bounds g).1
    nlinarith [sq_nonneg (tilt g)]
  have sz : (r * (Real.cos (rad e) * Real.cos (rad A))) ^ 2 +
      (r * (Real.cos (rad e) * Real.sin (rad A))) ^ 2 + (r * Real.sin (rad e)) ^ 2 = r ^ 2 := by
    linear_combination (r ^ 2 * Real.cos (rad e) ^ 2) * hA + r ^ 2 * hE
  have hd : seenAt g r A e - g.itrs ≠ 0 := by
    intro h
    have h2 := local_size g hr.le sz
    rw [← seenAt_local, h, norm_toE, (vnorm_eq_zero 0).2 rfl] at h2
    exact hr.ne h2
  refine ⟨90 - InnerProductGeometry.angle (toE (seenAt g r A e - g.itrs)) (toE g.itrs) *
    (180 / Real.pi), ?_, ?_⟩
  · unfold elevation
    rw [getAng_eq _ _ hd hg]
    rfl
  have h1 := angle_diff (toE (seenAt g r A e - g.itrs)) (toE g.itrs)
    (toE (seenAt g r A e - g.itrs)) (toE (local3 g 0 0 1))
  have h2 := angle_vertical g hh
  have hd' : toE (seenAt g r A e - g.itrs) ≠ 0 := by
    intro h
    apply hd
    rw [← vnorm_eq_zero, ← norm_toE, h, norm_zero]
  rw [InnerProductGeometry.angle_self hd', zero_add, InnerProductGeometry.angle_comm (toE g.itrs)] at h1
  have h3 : InnerProductGeometry.angle (toE (seenAt g r A e - g.itrs)) (toE (local3 g 0 0 1)) =
      Real.pi / 2 - rad e := by
    rw [seenAt_local, angle_local, sz, Real.sqrt_sq hr.le]
    have : (r * (Real.cos (rad e) * Real.cos (rad A)) * 0 +
        r * (Real.cos (rad e) * Real.sin (rad A)) * 0 + r * Real.sin (rad e) * 1) /
        (r * Real.sqrt (0 ^ 2 + 0 ^ 2 + 1 ^ 2)) = Real.cos (Real.pi / 2 - rad e) := by
      rw [Real.cos_pi_div_two_sub]
      norm_num
      field_simp
    rw [this, Real.arccos_cos]
    · unfold rad
      nlinarith
    · unfold rad
      nlinarith
  rw [h3] at h1
  obtain ⟨x, hx⟩ : ∃ x, x = InnerProductGeometry.angle (toE (seenAt g r A e - g.itrs))
    (toE g.itrs) := ⟨_, rfl⟩
  rw [← hx] at h1 ⊢
  have e1 : 90 - x * (180 / Real.pi) - e = -((x - (Real.pi / 2 - rad e)) * (180 / Real.pi)) := by
    unfold rad
    field_simp
    ring
  rw [e1, abs_neg, abs_mul, abs_of_pos (a := 180 / Real.pi) (by positivity)]
  have h4 : 180 / Real.pi ≤ 57.3 := by
    have := Real.pi_gt_d4
    rw [div_le_iff₀ hp]
    nlinarith
  have h5 := mul_le_mul (h1.trans h2) h4 (by positivity) (by norm_num)
  linarith

/-! ### The azimuth -/

/-- The difference of the two projections, component by component. -/
theorem projection_sizes {R γ ν N U r : ℝ} (hR0 : 6355.75 ≤ R) (hν : |ν| ≤ 21.43)
    (hD : |R - γ| ≤ 0.04) (hNU : N ^ 2 + U ^ 2 ≤ r ^ 2) :
    (γ * ν / R ^ 2 * U + ν ^ 2 / R ^ 2 * N) ^ 2 +
      ((1 - γ ^ 2 / R ^ 2) * U - γ * ν / R ^ 2 * N) ^ 2 ≤ (0.003386 * r) ^ 2 := by
  have hRp : 0 < R := by linarith
  obtain ⟨y, hy⟩ : ∃ y, y = γ * ν / R ^ 2 := ⟨_, rfl⟩
  obtain ⟨x1, hx1⟩ : ∃ y, y = 1 - γ ^ 2 / R ^ 2 := ⟨_, rfl⟩
  obtain ⟨x3, hx3⟩ : ∃ y, y = ν ^ 2 / R ^ 2 := ⟨_, rfl⟩
  have hD' := abs_le.1 hD
  have bν : |ν / R| ≤ 0.003372 := by
    rw [abs_div, abs_of_pos hRp, div_le_iff₀ hRp]
    linarith
  have bγ : |γ / R - 1| ≤ 0.0000063 := by
    have : γ / R - 1 = (γ - R) / R := by field_simp
    rw [this, abs_div, abs_of_pos hRp, div_le_iff₀ hRp, abs_sub_comm]
    linarith
  have bγ' := abs_le.1 bγ
  have by' : |y| ≤ 0.0033721 := by
    have : y = γ / R * (ν / R) := by rw [hy]; field_simp
    rw [this, abs_mul]
    have h : |γ / R| ≤ 1.0000063 := by
      rw [abs_le]
      constructor <;> linarith
    have := mul_le_mul h bν (abs_nonneg _) (by norm_num)
    linarith
  have b1 : |x1| ≤ 0.0000127 := by
    have : x1 = -((γ / R - 1) * (γ / R + 1)) := by rw [hx1]; field_simp; ring
    rw [this, abs_neg, abs_mul]
    have h : |γ / R + 1| ≤ 2.0000063 := by
      rw [abs_le]
      constructor <;> linarith
    have := mul_le_mul bγ h (abs_nonneg _) (by norm_num)
    linarith
  have b3 : |x3| ≤ 0.0000114 := by
    have : x3 = ν / R * (ν / R) := by rw [hx3]; field_simp
    rw [this, abs_mul]
    have := mul_le_mul bν bν (abs_nonneg _) (by norm_num)
    linarith
  rw [← hy, ← hx1, ← hx3]
  have hNU0 : 0 ≤ N ^ 2 + U ^ 2 := by positivity
  have hy2 : y ^ 2 ≤ 0.0033721 ^ 2 := by
    rw [← sq_abs]
    gcongr
  have h12 : x1 ^ 2 ≤ 0.0000127 ^ 2 := by
    rw [← sq_abs]
    gcongr
  have h32 : x3 ^ 2 ≤ 0.0000127 ^ 2 := by
    rw [← sq_abs]
    gcongr
    linarith
  have h13 : |y * (x3 - x1)| ≤ 0.0033721 * 0.0000241 := by
    rw [abs_mul]
    refine mul_le_mul by' ?_ (abs_nonneg _) (by norm_num)
    have := abs_sub x3 x1
    linarith
  have cross : 2 * (U * N) * (y * (x3 - x1)) ≤ (N ^ 2 + U ^ 2) * (0.0033721 * 0.0000241) := by
    have h2 : |2 * (U * N)| ≤ N ^ 2 + U ^ 2 := by
      rw [abs_le]
      constructor <;> nlinarith [sq_nonneg (U + N), sq_nonneg (U - N)]
    have := mul_le_mul h2 h13 (abs_nonneg _) hNU0
    rw [← abs_mul] at this
    exact (le_abs_self _).trans this
  have e : (y * U + x3 * N) ^ 2 + (x1 * U - y * N) ^ 2 =
      y ^ 2 * (N ^ 2 + U ^ 2) + x1 ^ 2 * U ^ 2 + x3 ^ 2 * N ^ 2 +
        2 * (U * N) * (y * (x3 - x1)) := by ring
  rw [e]
  have m1 := mul_le_mul_of_nonneg_right hy2 hNU0
  have m2 := mul_le_mul_of_nonneg_right h12 (sq_nonneg U)
  have m3 := mul_le_mul_of_nonneg_right h32 (sq_nonneg N)
  have e2 : (0.003386 * r) ^ 2 = 0.003386 ^ 2 * r ^ 2 := by ring
  rw [e2]
  norm_num at m1 m2 m3 cross ⊢
  linarith

/-- The projection of the code and the projection on the horizon. -/
theorem projections_close (g : Ground) (r A e : ℝ) (hh : -1 ≤ g.height) (hr : 0 < r)
    (he : 0.02 ≤ Real.cos (rad e)) :
    onPlane (seenAt g r A e) g ≠ 0 ∧ InnerProductGeometry.angle
      (toE (local3 g (Real.cos (rad A)) (Real.sin (rad A)) 0)) (toE (onPlane (seenAt g r A e) g)) ≤
      1.01 * (0.003386 / Real.cos (rad e)) := by
  have hA := Real.sin_sq_add_cos_sq (rad A)
  have hE := Real.sin_sq_add_cos_sq (rad e)
  obtain ⟨r1, -⟩ := radius_bounds g
  obtain ⟨v1, -⟩ := vertical_bounds g
  have hν := tilt_bound g
  have hD := radius_vertical_small g
  obtain ⟨R, hR⟩ : ∃ R, R = g.radius := ⟨_, rfl⟩
  obtain ⟨γ, hγ⟩ : ∃ γ, γ = vertical g := ⟨_, rfl⟩
  obtain ⟨ν, hv⟩ : ∃ ν, ν = tilt g := ⟨_, rfl⟩
  obtain ⟨ce, hce⟩ : ∃ x, x = Real.cos (rad e) := ⟨_, rfl⟩
  obtain ⟨se, hse⟩ : ∃ x, x = Real.sin (rad e) := ⟨_, rfl⟩
  obtain ⟨ca, hca⟩ : ∃ x, x = Real.cos (rad A) := ⟨_, rfl⟩
  obtain ⟨sa, hsa⟩ : ∃ x, x = Real.sin (rad A) := ⟨_, rfl⟩
  obtain ⟨N, hN⟩ : ∃ N, N = r * (ce * ca) := ⟨_, rfl⟩
  obtain ⟨F, hF⟩ : ∃ N, N = r * (ce * sa) := ⟨_, rfl⟩
  obtain ⟨U, hU⟩ : ∃ N, N = r * se := ⟨_, rfl⟩
  have hP : onPlane (seenAt g r A e) g =
      local3 g (N - (N * ν + F * 0 + U * γ) / R ^ 2 * ν) F (U - (N * ν + F * 0 + U * γ) / R ^ 2 * γ) := by
    unfold onPlane
    simp only
    rw [seenAt_local, itrs_local, local_dot, local_smul, local_sub, ← hR, ← hγ, ← hv, ← hce, ← hse,
      ← hca, ← hsa, ← hN, ← hF, ← hU,
      mul_zero ((N * ν + F * 0 + U * γ) / R ^ 2), sub_zero]
  rw [hP]
  rw [← hce] at he hE ⊢
  rw [← hca, ← hsa] at hA ⊢
  rw [← hse] at hE
  rw [← hR] at r1 hD
  rw [← hγ] at v1 hD
  rw [← hv] at hν
  have hR0 : 6355.75 ≤ R := by linarith
  have hRp : 0 < R := by linarith
  obtain ⟨y, hy⟩ : ∃ y, y = γ * ν / R ^ 2 := ⟨_, rfl⟩
  obtain ⟨x1, hx1⟩ : ∃ y, y = 1 - γ ^ 2 / R ^ 2 := ⟨_, rfl⟩
  obtain ⟨x3, hx3⟩ : ∃ y, y = ν ^ 2 / R ^ 2 := ⟨_, rfl⟩
  have eN : N - (N - (N * ν + F * 0 + U * γ) / R ^ 2 * ν) = y * U + x3 * N := by
    rw [hy, hx3]
    field_simp
    ring
  have eU : 0 - (U - (N * ν + F * 0 + U * γ) / R ^ 2 * γ) = -(x1 * U - y * N) := by
    rw [hy, hx1]
    field_simp
    ring
  have hNU : N ^ 2 + U ^ 2 ≤ r ^ 2 := by
    have : N ^ 2 + F ^ 2 + U ^ 2 = r ^ 2 := by
      rw [hN, hF, hU]
      linear_combination (r ^ 2 * ce ^ 2) * hA + r ^ 2 * hE
    nlinarith [sq_nonneg F]
  have hce0 : 0 < ce := by linarith
  have hH : ‖toE (local3 g N F 0)‖ = r * ce := by
    apply local_size g (by positivity)
    rw [hN, hF]
    linear_combination (r ^ 2 * ce ^ 2) * hA
  have close : ‖toE (local3 g N F 0) - toE (local3 g (N - (N * ν + F * 0 + U * γ) / R ^ 2 * ν) F
      (U - (N * ν + F * 0 + U * γ) / R ^ 2 * γ))‖ ≤ 0.003386 * r := by
    rw [← toE_sub, local_sub, eN, eU]
    apply local_size_le g (by positivity)
    have := projection_sizes hR0 hν hD hNU
    rw [← hy, ← hx1, ← hx3] at this
    linarith
  have hlt : 0.003386 * r < r * ce := by
    have := mul_le_mul_of_nonneg_left he hr.le
    linarith
  constructor
  · intro h
    rw [h] at close
    have : toE (0 : Vec) = 0 := rfl
    rw [this, sub_zero, hH] at close
    linarith
  · have h := angle_le_arcsin _ _ (r * ce) (0.003386 * r) (by positivity) hH.ge close hlt
    have e1 : toE (local3 g N F 0) = (r * ce) • toE (local3 g ca sa 0) := by
      have := local_smul g (r * ce) ca sa 0
      rw [mul_zero, mul_assoc, mul_assoc, ← hN, ← hF] at this
      rw [← this]
      rfl
    rw [e1, InnerProductGeometry.angle_smul_left_of_pos _ _ (by positivity)] at h
    have e2 : 0.003386 * r / (r * ce) = 0.003386 / ce := by field_simp
    rw [e2] at h
    refine h.trans (arcsin_small (by positivity) ?_)
    rw [div_le_iff₀ hce0]
    linarith

/-- The tangent of the code points north, in the southern hemisphere south. -/
theorem tangent_compass (g : Ground) (hh : -1 ≤ g.height) (hc : 0.0001 ≤ Real.cos g.lat)
    (hs : Real.sin g.lat ≠ 0) :
    surfaceTangent g ≠ 0 ∧
    (0 < Real.sin g.lat → InnerProductGeometry.angle (toE (surfaceTangent g))
      (toE (local3 g 1 0 0)) ≤ 0.000025) ∧
    (Real.sin g.lat < 0 → InnerProductGeometry.angle (toE (surfaceTangent g))
      (-toE (local3 g 1 0 0)) ≤ 0.000025) := by
  obtain ⟨r1, -⟩ := radius_bounds g
  have hD := radius_vertical g
  have h1 := Real.sin_sq_add_cos_sq g.lat
  have hm := primeVertical_bounds g.lat
  rw [tangent_local g hs]
  obtain ⟨τ, hτ⟩ : ∃ τ, τ = g.radius * Real.cos g.lat / Real.sin g.lat - tilt g := ⟨_, rfl⟩
  obtain ⟨D, hD'⟩ : ∃ D, D = g.radius - vertical g := ⟨_, rfl⟩
  rw [← hτ, ← hD']
  rw [← hD'] at hD
  have hR : 6355 ≤ g.radius := by linarith
  set s := Real.sin g.lat with hs'
  set c := Real.cos g.lat with hc'
  have hc1 : c ≤ 1 := Real.cos_le_one _
  have hc0 : 0 < c := by linarith
  have hs1 : |s| ≤ 1 := Real.abs_sin_le_one _
  have hs2 : s ^ 2 ≤ 1 := Real.sin_sq_le_one _
  have eτ : τ = s * (g.radius * c / s ^ 2 + ecc ^ 2 * primeVertical g.lat * c) := by
    rw [hτ]
    unfold tilt
    rw [← hs', ← hc']
    field_simp
    ring
  have hs20 : 0 < s ^ 2 := by positivity
  have big : 6355 * c ≤ g.radius * c / s ^ 2 + ecc ^ 2 * primeVertical g.lat * c := by
    have a1 : 6355 * c ≤ g.radius * c / s ^ 2 := by
      rw [le_div_iff₀ hs20]
      have : 6355 * c ≤ g.radius * c := by gcongr
      nlinarith
    have a2 : 0 ≤ ecc ^ 2 * primeVertical g.lat * c := by
      have : 0 < primeVertical g.lat := primeVertical_pos _
      positivity
    linarith
  have hlow : |s| * (6355 * c) ≤ |τ| := by
    rw [eτ, abs_mul]
    apply mul_le_mul_of_nonneg_left _ (abs_nonneg s)
    rw [abs_of_nonneg (by nlinarith)]
    exact big
  have hspos : 0 < |s| := abs_pos.2 hs
  have hsmall : |D| ≤ 0.0000238 * |τ| := by
    have e : s ^ 2 = |s| * |s| := by rw [← sq_abs]; ring
    have a1 : 0.1445 * c ^ 2 + 0.0000001 ≤ 0.1455 * c := by nlinarith
    have a2 : s ^ 2 ≤ |s| := by rw [e]; nlinarith
    have : s ^ 2 * (0.1445 * c ^ 2 + 0.0000001) ≤ |s| * (0.1455 * c) :=
      mul_le_mul a2 a1 (by positivity) hspos.le
    have hsc : 0 ≤ |s| * c := by positivity
    linarith
  have hτ0 : 0 < |τ| := by
    refine lt_of_lt_of_le ?_ hlow
    positivity
  have hn : ‖toE (local3 g τ 0 0)‖ = |τ| :=
    local_size g (abs_nonneg τ) (by rw [sq_abs]; ring)
  have hclose : ‖toE (local3 g τ 0 0) - toE (local3 g τ 0 D)‖ ≤ 0.0000238 * |τ| := by
    rw [← toE_sub, local_sub]
    apply local_size_le g (by positivity)
    have := pow_le_pow_left₀ (abs_nonneg D) hsmall 2
    rw [sq_abs] at this
    linarith
  have h := angle_le_arcsin _ _ |τ| (0.0000238 * |τ|) hτ0 hn.ge hclose (by linarith)
  have e1 : toE (local3 g τ 0 0) = τ • toE (local3 g 1 0 0) := by
    have := local_smul g τ 1 0 0
    rw [mul_zero, mul_one] at this
    rw [← this]
    rfl
  have e2 : 0.0000238 * |τ| / |τ| = 0.0000238 := by field_simp
  rw [e1, e2, InnerProductGeometry.angle_comm] at h
  have h3 := h.trans (arcsin_small (x := 0.0000238) (by norm_num) (by norm_num))
  have hsum : 0 < g.radius * c / s ^ 2 + ecc ^ 2 * primeVertical g.lat * c := by
    refine lt_of_lt_of_le ?_ big
    positivity
  refine ⟨?_, ?_, ?_⟩
  · intro h0
    rw [h0] at hclose
    have : toE (0 : Vec) = 0 := rfl
    rw [this, sub_zero, hn] at hclose
    linarith
  · intro hpos
    have : 0 < τ := by
      rw [eτ]
      exact mul_pos hpos hsum
    rw [InnerProductGeometry.angle_smul_right_of_pos _ _ this] at h3
    norm_num at h3 ⊢
    linarith
  · intro hneg
    have : τ < 0 := by
      rw [eτ]
      exact mul_neg_of_neg_of_pos hneg hsum
    rw [InnerProductGeometry.angle_smul_right_of_neg _ _ this] at h3
    norm_num at h3 ⊢
    linarith

/-- The angle between north and a horizontal direction is its azimuth. -/
theorem angle_north (g : Ground) {A : ℝ} (h0 : 0 ≤ A) (h1 : A < 360) :
    InnerProductGeometry.angle (toE (local3 g 1 0 0))
      (toE (local3 g (Real.cos (rad A)) (Real.sin (rad A)) 0)) =
      if A ≤ 180 then rad A else 2 * Real.pi - rad A := by
  have hp := Real.pi_pos
  have e : Real.sqrt (Real.cos (rad A) ^ 2 + Real.sin (rad A) ^ 2 + 0 ^ 2) = 1 := by
    have := Real.sin_sq_add_cos_sq (rad A)
    rw [Real.sqrt_eq_one]
    linarith
  rw [angle_local, e]
  have e2 : (1 * Real.cos (rad A) + 0 * Real.sin (rad A) + 0 * 0) /
      (Real.sqrt (1 ^ 2 + 0 ^ 2 + 0 ^ 2) * 1) = Real.cos (rad A) := by norm_num
  rw [e2]
  split
  · apply Real.arccos_cos <;> unfold rad <;> nlinarith
  · have : Real.cos (rad A) = Real.cos (2 * Real.pi - rad A) := by rw [Real.cos_two_pi_sub]
    rw [this]
    apply Real.arccos_cos <;> unfold rad <;> nlinarith

/-- Which side of the meridian the code finds. -/
theorem side (g : Ground) (r A e : ℝ) :
    onPlane (seenAt g r A e) g ⬝ᵥ (surfaceTangent g ⨯₃ g.itrs) =
      groundP g * (g.radius / Real.sin g.lat) * (r * (Real.cos (rad e) * Real.sin (rad A))) := by
  have he : east g.lon = local3 g 0 1 0 := by
    unfold local3
    simp
  rw [direction_eq, dotProduct_smul, smul_eq_mul]
  congr 1
  unfold onPlane
  simp only
  rw [seenAt_local, itrs_local, local_smul, local_sub, he, local_dot]
  ring

theorem sin_sign {A : ℝ} (h0 : 0 ≤ A) (h1 : A < 360) :
    (0 < A → A < 180 → 0 < Real.sin (rad A)) ∧ (A ≤ 180 → 0 ≤ Real.sin (rad A)) ∧
    (180 ≤ A → Real.sin (rad A) ≤ 0) ∧ (180 < A → Real.sin (rad A) < 0) := by
  have hp := Real.pi_pos
  have e : Real.sin (rad A) = -Real.sin (rad A - Real.pi) := by
    rw [Real.sin_sub_pi, neg_neg]
  refine ⟨?_, ?_, ?_, ?_⟩
  · intro _ _
    apply Real.sin_pos_of_pos_of_lt_pi <;> unfold rad <;> nlinarith
  · intro _
    apply Real.sin_nonneg_of_nonneg_of_le_pi <;> unfold rad <;> nlinarith
  · intro _
    rw [e, neg_nonpos]
    apply Real.sin_nonneg_of_nonneg_of_le_pi <;> unfold rad <;> nlinarith
  · intro _
    rw [e, neg_lt_zero]
    apply Real.sin_pos_of_pos_of_lt_pi <;> unfold rad <;> nlinarith

/-- The error in degrees. -/
theorem error_degrees {x y ce : ℝ} (h0 : 0.02 ≤ ce) (h1 : ce ≤ 1)
    (h : |x - y| ≤ 0.000025 + 1.01 * (0.003386 / ce)) :
    |x * (180 / Real.pi) - y * (180 / Real.pi)| ≤ 0.2 / ce := by
  have hp := Real.pi_pos
  rw [← sub_mul, abs_mul, abs_of_pos (a := 180 / Real.pi) (by positivity)]
  have h4 : 180 / Real.pi ≤ 57.3 := by
    have := Real.pi_gt_d4
    rw [div_le_iff₀ hp]
    nlinarith
  have h5 := mul_le_mul h h4 (by positivity) (by positivity)
  refine h5.trans ?_
  have hc : 0 < ce := by linarith
  rw [le_div_iff₀ hc]
  have e : (0.000025 + 1.01 * (0.003386 / ce)) * 57.3 * ce =
      (0.000025 * ce + 1.01 * 0.003386) * 57.3 := by field_simp
  rw [e]
  linarith

/-- C136, azimuth: in the northern hemisphere the azimuth of a satellite is within 0.2 degrees,
divided by the cosine of the elevation, of its azimuth from the geographic north. -/
theorem C136_azimuth_north_partial (g : Ground) (r A e : ℝ) (hh : -1 ≤ g.height)
    (hc : 0.0001 ≤ Real.cos g.lat) (hs : 0 < Real.sin g.lat) (hr : 0 < r) (hA0 : 0 ≤ A)
    (hA1 : A < 360) (he : 0.02 ≤ Real.cos (rad e)) :
    ∃ a, azimuth (seenAt g r A e) g = some a ∧ |a - A| ≤ 0.2 / Real.cos (rad e) := by
  have hp := Real.pi_pos
  obtain ⟨t0, t1, -⟩ := tangent_compass g hh hc hs.ne'
  obtain ⟨p0, p1⟩ := projections_close g r A e hh hr he
  have hang := angle_north g hA0 hA1
  have hd := (angle_diff (toE (surfaceTangent g)) (toE (onPlane (seenAt g r A e) g))
    (toE (local3 g 1 0 0)) (toE (local3 g (Real.cos (rad A)) (Real.sin (rad A)) 0)))
  rw [InnerProductGeometry.angle_comm (toE (onPlane (seenAt g r A e) g))] at hd
  have hd2 := error_degrees he (Real.cos_le_one _) (hd.trans (add_le_add (t1 hs) p1))
  rw [hang] at hd2
  have hR : 0 < g.radius := by linarith [(radius_bounds g).1]
  have hP : 0 < groundP g := mul_pos (by linarith [(primeVertical_bounds g.lat).1]) (by linarith)
  have hk : 0 < groundP g * (g.radius / Real.sin g.lat) := by positivity
  obtain ⟨-, s2, -, s4⟩ := sin_sign hA0 hA1
  unfold azimuth
  rw [if_neg hs.ne']
  simp only [getAng_eq _ _ t0 p0, Option.map_some, side]
  refine ⟨_, rfl, ?_⟩
  by_cases h : A ≤ 180
  · rw [if_pos h] at hd2
    have : 0 ≤ Real.cos (rad e) * Real.sin (rad A) := mul_nonneg (by linarith) (s2 h)
    rw [if_neg (not_lt.2 (by positivity))]
    have e1 : rad A * (180 / Real.pi) = A := by unfold rad; field_simp
    rwa [e1] at hd2
  · rw [if_neg h] at hd2
    have : Real.cos (rad e) * Real.sin (rad A) < 0 :=
      mul_neg_of_pos_of_neg (by linarith) (s4 (not_le.1 h))
    rw [if_pos (mul_neg_of_pos_of_neg hk (mul_neg_of_pos_of_neg hr this))]
    have e1 : (2 * Real.pi - rad A) * (180 / Real.pi) = 360 - A := by
      unfold rad
      field_simp
      ring
    rw [e1, abs_sub_comm] at hd2
    refine le_of_eq_of_le ?_ hd2
    congr 1
    ring

/-- C136, azimuth: in the southern hemisphere the azimuth is off by half a turn, to the same
accuracy: it is measured clockwise from the south. -/
theorem C136_azimuth_south (g : Ground) (r A e : ℝ) (hh : -1 ≤ g.height)
    (hc : 0.0001 ≤ Real.cos g.lat) (hs : Real.sin g.lat < 0) (hr : 0 < r) (hA0 : 0 ≤ A)
    (hA1 : A < 360) (he : 0.02 ≤ Real.cos (rad e)) :
    ∃ a, azimuth (seenAt g r A e) g = some a ∧
      |a - (if A < 180 then A + 180 else A - 180)| ≤ 0.2 / Real.cos (rad e) := by
  have hp := Real.pi_pos
  obtain ⟨t0, -, t1⟩ := tangent_compass g hh hc hs.ne
  obtain ⟨p0, p1⟩ := projections_close g r A e hh hr he
  have hang := angle_north g hA0 hA1
  have hd := (angle_diff (toE (surfaceTangent g)) (toE (onPlane (seenAt g r A e) g))
    (-toE (local3 g 1 0 0)) (toE (local3 g (Real.cos (rad A)) (Real.sin (rad A)) 0)))
  rw [InnerProductGeometry.angle_comm (toE (onPlane (seenAt g r A e) g))] at hd
  have hd2 := error_degrees he (Real.cos_le_one _) (hd.trans (add_le_add (t1 hs) p1))
  rw [InnerProductGeometry.angle_neg_left, hang] at hd2
  have hR : 0 < g.radius := by linarith [(radius_bounds g).1]
  have hP : 0 < groundP g := mul_pos (by linarith [(primeVertical_bounds g.lat).1]) (by linarith)
  have hk : groundP g * (g.radius / Real.sin g.lat) < 0 :=
    mul_neg_of_pos_of_neg hP (div_neg_of_pos_of_neg hR hs)
  obtain ⟨s1, -, s3, -⟩ := sin_sign hA0 hA1
  unfold azimuth
  rw [if_neg hs.ne]
  simp only [getAng_eq _ _ t0 p0, Option.map_some, side]
  refine ⟨_, rfl, ?_⟩
  by_cases h : A < 180
  · rw [if_pos h]
    rw [if_pos h.le] at hd2
    have e1 : (Real.pi - rad A) * (180 / Real.pi) = 180 - A := by
      unfold rad
      field_simp
    rw [e1] at hd2
    by_cases h2 : 0 < A
    · have : 0 < Real.cos (rad e) * Real.sin (rad A) := mul_pos (by linarith) (s1 h2 h)
      rw [if_pos (mul_neg_of_neg_of_pos hk (mul_pos hr this))]
      rw [abs_sub_comm] at hd2
      refine le_of_eq_of_le ?_ hd2
      congr 1
      ring
    · have hA : A = 0 := le_antisymm (not_lt.1 h2) hA0
      have : Real.sin (rad A) = 0 := by
        rw [hA]
        simp [rad]
      rw [if_neg (by rw [this]; simp)]
      rw [hA] at hd2 ⊢
      norm_num at hd2 ⊢
      exact hd2
  · rw [if_neg h]
    have hge := not_lt.1 h
    have : Real.cos (rad e) * Real.sin (rad A) ≤ 0 :=
      mul_nonpos_of_nonneg_of_nonpos (by linarith) (s3 hge)
    rw [if_neg (not_lt.2 (mul_nonneg_of_nonpos_of_nonpos hk.le
      (mul_nonpos_of_nonneg_of_nonpos hr.le this)))]
    have e1 : (Real.pi - if A ≤ 180 then rad A else 2 * Real.pi - rad A) * (180 / Real.pi) =
        A - 180 := by
      split
      · have : A = 180 := le_antisymm (by assumption) hge
        rw [this]
        unfold rad
        field_simp
      · unfold rad
        field_simp
        ring
    rwa [e1] at hd2

/-! ### The errors are there -/

/-- The angle between the vertical of the station and its position vector. -/
theorem tilt_angle (g : Ground) (h0 : 0 ≤ g.height) (h1 : g.height ≤ 10) :
    ∃ G δ : ℝ, 0 < G ∧ Real.sqrt (tilt g ^ 2 + 0 ^ 2 + vertical g ^ 2) = G ∧ 0 ≤ δ ∧
      δ ≤ Real.pi / 2 ∧ vertical g = G * Real.cos δ ∧ |tilt g| = G * Real.sin δ ∧
      0.19 * |Real.sin (2 * g.lat)| ≤ δ * (180 / Real.pi) := by
  have hp := Real.pi_pos
  obtain ⟨v1, v2⟩ := vertical_bounds g
  have hm := primeVertical_bounds g.lat
  have hν := tilt_bound g
  have hγ : 0 < vertical g := by linarith
  have hsq : 0 < tilt g ^ 2 + 0 ^ 2 + vertical g ^ 2 := by positivity
  have hG := Real.sqrt_pos.2 hsq
  obtain ⟨G, eG⟩ : ∃ G, G = Real.sqrt (tilt g ^ 2 + 0 ^ 2 + vertical g ^ 2) := ⟨_, rfl⟩
  have eG2 : G ^ 2 = tilt g ^ 2 + vertical g ^ 2 := by
    rw [eG, Real.sq_sqrt hsq.le]
    ring
  rw [← eG] at hG
  have hG1 : G ≤ 6388.2 := by
    refine (abs_le_of_sq_le_sq' ?_ (by norm_num)).2
    have := sq_le_sq' (by linarith [(abs_le.1 hν).1]) (abs_le.1 hν).2
    have : vertical g ^ 2 ≤ 6388.137 ^ 2 := by
      apply pow_le_pow_left₀ hγ.le
      linarith
    rw [eG2]
    norm_num at *
    linarith
  have hle1 : vertical g / G ≤ 1 := by
    rw [div_le_one hG]
    exact (abs_le_of_sq_le_sq' (by nlinarith [sq_nonneg (tilt g)]) hG.le).2
  have hpos : 0 ≤ vertical g / G := by positivity
  have hsin : Real.sin (Real.arccos (vertical g / G)) = |tilt g| / G := by
    rw [Real.sin_arccos]
    have : 1 - (vertical g / G) ^ 2 = (|tilt g| / G) ^ 2 := by
      rw [div_pow, div_pow, sq_abs]
      field_simp
      linarith
    rw [this, Real.sqrt_sq (by positivity)]
  refine ⟨G, Real.arccos (vertical g / G), hG, eG.symm, Real.arccos_nonneg _,
    Real.arccos_le_pi_div_two.2 hpos, ?_, ?_, ?_⟩
  · rw [Real.cos_arccos (by linarith) hle1]
    field_simp
  · rw [hsin]
    field_simp
  have hle := Real.sin_le (Real.arccos_nonneg (vertical g / G))
  rw [hsin] at hle
  have hlow : 0.00334 * |Real.sin (2 * g.lat)| ≤ |tilt g| / G := by
    rw [le_div_iff₀ hG]
    have e1 : |tilt g| = ecc ^ 2 * primeVertical g.lat / 2 * |Real.sin (2 * g.lat)| := by
      unfold tilt
      rw [Real.sin_two_mul, abs_neg, abs_mul, abs_mul, abs_mul, abs_mul, abs_mul,
        abs_of_pos (primeVertical_pos g.lat), abs_of_nonneg (sq_nonneg ecc),
        abs_of_pos (by norm_num : (0 : ℝ) < 2)]
      ring
    rw [e1]
    have he : 0.006694 ≤ ecc ^ 2 := by norm_num [ecc]
    have a1 : 21.34 ≤ ecc ^ 2 * primeVertical g.lat / 2 := by
      have := mul_le_mul he hm.1 (by norm_num) (sq_nonneg ecc)
      linarith
    have hx := abs_nonneg (Real.sin (2 * g.lat))
    have m1 := mul_le_mul_of_nonneg_right a1 hx
    have m2 := mul_le_mul_of_nonneg_left hG1 hx
    linarith
  have h4 : 57.2 ≤ 180 / Real.pi := by
    have := Real.pi_lt_d4
    rw [le_div_iff₀ hp]
    linarith
  have h5 := mul_le_mul (hlow.trans hle) h4 (by norm_num) (Real.arccos_nonneg _)
  have hx := abs_nonneg (Real.sin (2 * g.lat))
  linarith

/-- C136 fails, elevation: a satellite at the zenith of a station away from the equator and the
poles has an elevation below 90 degrees; at 45 degrees of latitude it is at least 0.19 degrees too
low. -/
theorem C136_zenith_low (g : Ground) (r A : ℝ) (h0 : 0 ≤ g.height) (h1 : g.height ≤ 10)
    (hr : 0 < r) : ∃ a, elevation (seenAt g r A 90) g = some a ∧
      a ≤ 90 - 0.19 * |Real.sin (2 * g.lat)| := by
  have hp := Real.pi_pos
  obtain ⟨G, δ, hG, eG, d0, d1, eγ, -, hδ⟩ := tilt_angle g h0 h1
  have e90 : rad 90 = Real.pi / 2 := by unfold rad; ring
  have hd : seenAt g r A 90 - g.itrs = local3 g 0 0 r := by
    rw [seenAt_local, e90, Real.cos_pi_div_two, Real.sin_pi_div_two]
    simp
  have n1 : seenAt g r A 90 - g.itrs ≠ 0 := by
    rw [hd, Ne, ← vnorm_eq_zero, local_norm]
    apply ne_of_gt
    apply Real.sqrt_pos.2
    positivity
  have n2 : g.itrs ≠ 0 := by
    rw [itrs_local, Ne, ← vnorm_eq_zero, local_norm, eG]
    exact hG.ne'
  refine ⟨90 - InnerProductGeometry.angle (toE (seenAt g r A 90 - g.itrs)) (toE g.itrs) *
    (180 / Real.pi), ?_, ?_⟩
  · unfold elevation
    rw [getAng_eq _ _ n1 n2]
    rfl
  have er : Real.sqrt (0 ^ 2 + 0 ^ 2 + r ^ 2) = r := by
    rw [show (0 : ℝ) ^ 2 + 0 ^ 2 + r ^ 2 = r ^ 2 by ring, Real.sqrt_sq hr.le]
  rw [hd, itrs_local, angle_local, er, eG, eγ]
  have ec : (0 * tilt g + 0 * 0 + r * (G * Real.cos δ)) / (r * G) = Real.cos δ := by
    field_simp
    ring
  rw [ec, Real.arccos_cos d0 (by linarith)]
  linarith

/-- C136 fails, azimuth: a satellite due east of a station in the northern hemisphere, above its
horizon, has an azimuth below 90 degrees. -/
theorem C136_east_skewed (g : Ground) (r e : ℝ) (hh : -1 ≤ g.height)
    (hc : 0.0001 ≤ Real.cos g.lat) (hs : 0 < Real.sin g.lat) (hr : 0 < r)
    (he : 0.02 ≤ Real.cos (rad e)) (hup : 0 < Real.sin (rad e)) :
    ∃ a, azimuth (seenAt g r 90 e) g = some a ∧ a < 90 := by
  obtain ⟨t0, -, -⟩ := tangent_compass g hh hc hs.ne'
  obtain ⟨p0, -⟩ := projections_close g r 90 e hh hr he
  have e90 : rad 90 = Real.pi / 2 := by unfold rad; ring
  have hR : 0 < g.radius := by linarith [(radius_bounds g).1]
  have hP : 0 < groundP g := mul_pos (by linarith [(primeVertical_bounds g.lat).1]) (by linarith)
  have hγ : 0 < vertical g := by linarith [(vertical_bounds g).1]
  have hc0 : 0 < Real.cos g.lat := by linarith
  have hν : tilt g < 0 := by
    unfold tilt
    have : 0 < ecc ^ 2 := by norm_num [ecc]
    have := primeVertical_pos g.lat
    have : 0 < ecc ^ 2 * primeVertical g.lat * (Real.sin g.lat * Real.cos g.lat) := by positivity
    linarith
  have hpos : 0 < surfaceTangent g ⬝ᵥ onPlane (seenAt g r 90 e) g := by
    rw [tangent_local g hs.ne']
    unfold onPlane
    simp only
    rw [seenAt_local, itrs_local, local_dot, local_smul, local_sub, local_dot, e90,
      Real.cos_pi_div_two, Real.sin_pi_div_two]
    obtain ⟨τ, hτ⟩ : ∃ τ, τ = g.radius * Real.cos g.lat / Real.sin g.lat - tilt g := ⟨_, rfl⟩
    rw [← hτ]
    have hτ0 : 0 < τ := by
      have : 0 < g.radius * Real.cos g.lat / Real.sin g.lat := by positivity
      linarith
    obtain ⟨R, eR⟩ : ∃ R, R = g.radius := ⟨_, rfl⟩
    obtain ⟨γ, eγ⟩ : ∃ γ, γ = vertical g := ⟨_, rfl⟩
    obtain ⟨ν, eν⟩ : ∃ ν, ν = tilt g := ⟨_, rfl⟩
    obtain ⟨se, ese⟩ : ∃ x, x = Real.sin (rad e) := ⟨_, rfl⟩
    rw [← eR] at hR ⊢
    rw [← eγ] at hγ ⊢
    rw [← eν] at hν ⊢
    rw [← ese] at hup ⊢
    have : τ * (r * (Real.cos (rad e) * 0) - (r * (Real.cos (rad e) * 0) * ν +
        r * (Real.cos (rad e) * 1) * 0 + r * se * γ) / R ^ 2 * ν) +
        0 * (r * (Real.cos (rad e) * 1) - (r * (Real.cos (rad e) * 0) * ν +
        r * (Real.cos (rad e) * 1) * 0 + r * se * γ) / R ^ 2 * 0) +
        (R - γ) * (r * se - (r * (Real.cos (rad e) * 0) * ν +
        r * (Real.cos (rad e) * 1) * 0 + r * se * γ) / R ^ 2 * γ) =
        r * se * (τ * γ * (-ν) + (R - γ) ^ 2 * (R + γ)) / R ^ 2 := by
      field_simp
      ring
    rw [this]
    have hν' : 0 < -ν := by linarith
    positivity
  obtain ⟨a, ha, h1, -, -⟩ := getAng_side t0 p0
  refine ⟨a, ?_, h1 hpos⟩
  have hdir : ¬ onPlane (seenAt g r 90 e) g ⬝ᵥ (surfaceTangent g ⨯₃ g.itrs) < 0 := by
    rw [side, e90, Real.sin_pi_div_two, mul_one, not_lt]
    have : 0 ≤ Real.cos (rad e) := by linarith
    positivity
  unfold azimuth
  rw [if_neg hs.ne']
  simp only [ha, Option.map_some, if_neg hdir]

/-- Toronto and Sydney, and a satellite thirty degrees above the horizon. -/
example : 0.0001 ≤ Real.cos (Real.pi / 4) ∧ 0 < Real.sin (Real.pi / 4) ∧
    0.0001 ≤ Real.cos (-(Real.pi / 6)) ∧ Real.sin (-(Real.pi / 6)) < 0 ∧
    0.02 ≤ Real.cos (rad 30) ∧ 0 < Real.sin (rad 30) := by
  have h2 : (1.4 : ℝ) ≤ Real.sqrt 2 := Real.le_sqrt_of_sq_le (by norm_num)
  have h3 : (1.7 : ℝ) ≤ Real.sqrt 3 := Real.le_sqrt_of_sq_le (by norm_num)
  have e : rad 30 = Real.pi / 6 := by unfold rad; ring
  rw [e, Real.cos_neg, Real.sin_neg, Real.cos_pi_div_four, Real.sin_pi_div_four,
    Real.cos_pi_div_six, Real.sin_pi_div_six]
  refine ⟨?_, ?_, ?_, ?_, ?_, ?_⟩ <;> linarith

theorem local_expansion (g : Ground) (d : Vec) :
    d = local3 g (d ⬝ᵥ northward g) (d ⬝ᵥ east g.lon) (d ⬝ᵥ up g) := by
  have h1 := Real.sin_sq_add_cos_sq g.lat
  have h2 := Real.sin_sq_add_cos_sq g.lon
  unfold local3 northward up east
  ext i
  fin_cases i <;> simp only [dotProduct, Fin.sum_univ_three, Fin.zero_eta, Fin.mk_one,
    Fin.reduceFinMk, Pi.add_apply, Pi.smul_apply, smul_eq_mul, Matrix.cons_val_zero,
    Matrix.cons_val_one, Matrix.cons_val]
  · linear_combination (-(d 0 * Real.cos g.lon ^ 2 + d 1 * Real.cos g.lon * Real.sin g.lon)) * h1 -
      d 0 * h2
  · linear_combination (-(d 1 * Real.sin g.lon ^ 2 + d 0 * Real.cos g.lon * Real.sin g.lon)) * h1 -
      d 1 * h2
  · linear_combination (-(d 2)) * h1

/-- A point of the plane has polar coordinates, the angle in degrees. -/
theorem polar_degrees (x y : ℝ) : ∃ A, 0 ≤ A ∧ A < 360 ∧
    x = Real.sqrt (x ^ 2 + y ^ 2) * Real.cos (rad A) ∧
    y = Real.sqrt (x ^ 2 + y ^ 2) * Real.sin (rad A) := by
  have hp := Real.pi_pos
  have hn : Real.sqrt (x ^ 2 + y ^ 2) = ‖(⟨x, y⟩ : ℂ)‖ := by
    rw [Complex.norm_def, Complex.normSq_apply]
    congr 1
    ring
  have hc := Complex.norm_mul_cos_arg (⟨x, y⟩ : ℂ)
  have hs := Complex.norm_mul_sin_arg (⟨x, y⟩ : ℂ)
  have l := Complex.neg_pi_lt_arg (⟨x, y⟩ : ℂ)
  have u := Complex.arg_le_pi (⟨x, y⟩ : ℂ)
  obtain ⟨θ, hθ⟩ : ∃ θ, θ = Complex.arg (⟨x, y⟩ : ℂ) := ⟨_, rfl⟩
  rw [← hθ] at hc hs l u
  rw [hn]
  by_cases h : 0 ≤ θ
  · have e : rad (θ * (180 / Real.pi)) = θ := by unfold rad; field_simp
    refine ⟨θ * (180 / Real.pi), by positivity, ?_, ?_, ?_⟩
    · have : θ * (180 / Real.pi) ≤ Real.pi * (180 / Real.pi) := by gcongr
      rw [mul_div_cancel₀ _ hp.ne'] at this
      linarith
    · rw [e, hc]
    · rw [e, hs]
  · have h' := not_le.1 h
    have e : rad (θ * (180 / Real.pi) + 360) = θ + 2 * Real.pi := by
      unfold rad
      field_simp
      ring
    refine ⟨θ * (180 / Real.pi) + 360, ?_, ?_, ?_, ?_⟩
    · have : -Real.pi * (180 / Real.pi) ≤ θ * (180 / Real.pi) := by gcongr
      rw [neg_mul, mul_div_cancel₀ _ hp.ne'] at this
      linarith
    · have : θ * (180 / Real.pi) < 0 := mul_neg_of_neg_of_pos h' (by positivity)
      linarith
    · rw [e, Real.cos_add_two_pi, hc]
    · rw [e, Real.sin_add_two_pi, hs]

/-- Every point but the station itself is seen in some direction: the theorems above speak of all
positions of the satellite. -/
theorem seenAt_surjective (g : Ground) (sat : Vec) (h : sat ≠ g.itrs) :
    ∃ r A e : ℝ, 0 < r ∧ 0 ≤ A ∧ A < 360 ∧ |e| ≤ 90 ∧ sat = seenAt g r A e := by
  have hp := Real.pi_pos
  obtain ⟨d, hd⟩ : ∃ d, d = sat - g.itrs := ⟨_, rfl⟩
  have hx := local_expansion g d
  obtain ⟨n, hn⟩ : ∃ n, n = d ⬝ᵥ northward g := ⟨_, rfl⟩
  obtain ⟨f, hf⟩ : ∃ n, n = d ⬝ᵥ east g.lon := ⟨_, rfl⟩
  obtain ⟨u, hu⟩ : ∃ n, n = d ⬝ᵥ up g := ⟨_, rfl⟩
  rw [← hn, ← hf, ← hu] at hx
  have hd0 : d ≠ 0 := by
    rw [hd]
    exact sub_ne_zero.2 h
  have hr : 0 < vnorm d := vnorm_pos hd0
  have hr2 : vnorm d ^ 2 = n ^ 2 + f ^ 2 + u ^ 2 := by
    rw [hx, local_norm, Real.sq_sqrt (by positivity)]
  obtain ⟨r, er⟩ : ∃ r, r = vnorm d := ⟨_, rfl⟩
  rw [← er] at hr hr2
  obtain ⟨A, a0, a1, ac, as⟩ := polar_degrees n f
  have bu : |u / r| ≤ 1 := by
    rw [abs_div, abs_of_pos hr, div_le_one hr]
    exact abs_le_of_sq_le_sq (by nlinarith [sq_nonneg n, sq_nonneg f]) hr.le
  have bu' := abs_le.1 bu
  have e1 : rad (Real.arcsin (u / r) * (180 / Real.pi)) = Real.arcsin (u / r) := by
    unfold rad
    field_simp
  have e2 : Real.sqrt (1 - (u / r) ^ 2) = Real.sqrt (n ^ 2 + f ^ 2) / r := by
    have : 1 - (u / r) ^ 2 = (n ^ 2 + f ^ 2) / r ^ 2 := by
      field_simp
      linarith
    rw [this, Real.sqrt_div (by positivity), Real.sqrt_sq hr.le]
  refine ⟨r, A, Real.arcsin (u / r) * (180 / Real.pi), hr, a0, a1, ?_, ?_⟩
  · rw [abs_mul, abs_of_pos (a := 180 / Real.pi) (by positivity)]
    have : |Real.arcsin (u / r)| ≤ Real.pi / 2 := 
      abs_le.2 ⟨Real.neg_pi_div_two_le_arcsin _, Real.arcsin_le_pi_div_two _⟩
    have := mul_le_mul_of_nonneg_right this (by positivity : (0 : ℝ) ≤ 180 / Real.pi)
    have e : Real.pi / 2 * (180 / Real.pi) = 90 := by field_simp; norm_num
    linarith
  · have e3 : sat = g.itrs + d := by rw [hd]; abel
    have e4 := seenAt_local g r A (Real.arcsin (u / r) * (180 / Real.pi))
    rw [e1, Real.cos_arcsin, Real.sin_arcsin bu'.1 bu'.2, e2] at e4
    have k1 : r * (Real.sqrt (n ^ 2 + f ^ 2) / r * Real.cos (rad A)) = n := by
      rw [← mul_assoc, mul_div_cancel₀ _ hr.ne']
      exact ac.symm
    have k2 : r * (Real.sqrt (n ^ 2 + f ^ 2) / r * Real.sin (rad A)) = f := by
      rw [← mul_assoc, mul_div_cancel₀ _ hr.ne']
      exact as.symm
    have k3 : r * (u / r) = u := mul_div_cancel₀ _ hr.ne'
    rw [k1, k2, k3, ← hx] at e4
    rw [e3, ← e4]
    abel

end Celest.Frames
