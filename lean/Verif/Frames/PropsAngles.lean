/-
C53-C55: elevation, azimuth, look angle and distance.
-/
import Verif.Frames.PropsGeo

namespace Celest.Frames

open Matrix Celest.TimeScale

/-- The angle is zero exactly for vectors of the same direction. -/
theorem getAng_zero_iff (u v : Vec) :
    getAng u v = some 0 ↔ v ≠ 0 ∧ ∃ k : ℝ, 0 < k ∧ u = k • v := by
  have hp := Real.pi_pos
  by_cases hu : u = 0
  · rw [(getAng_none u v).2 (.inl hu)]
    constructor
    · intro h; cases h
    · rintro ⟨hv, k, hk, h⟩
      rw [hu] at h
      rcases smul_eq_zero.1 h.symm with h | h
      · exact absurd h hk.ne'
      · exact absurd h hv
  by_cases hv : v = 0
  · rw [(getAng_none u v).2 (.inr hv)]
    constructor
    · intro h; cases h
    · rintro ⟨h, -⟩; exact absurd hv h
  rw [getAng_eq u v hu hv, InnerProductGeometry.angle_comm]
  have h180 : (180 / Real.pi) ≠ 0 := by positivity
  have e : (some (InnerProductGeometry.angle (toE v) (toE u) * (180 / Real.pi)) = some 0) ↔
      InnerProductGeometry.angle (toE v) (toE u) = 0 := by
    rw [Option.some.injEq, mul_eq_zero, or_iff_left h180]
  rw [e, InnerProductGeometry.angle_eq_zero_iff]
  constructor
  · rintro ⟨-, k, hk, h⟩
    refine ⟨hv, k, hk, ?_⟩
    have := congrArg WithLp.ofLp h
    simpa using this
  · rintro ⟨-, k, hk, h⟩
    refine ⟨?_, k, hk, ?_⟩
    · intro h0
      have := congrArg WithLp.ofLp h0
      exact hv (by simpa using this)
    · rw [h]; rfl

/-! ### C53 -/

/-- C53: ranges. -/
theorem C53_ranges_partial (sat : Vec) (g : Ground) :
    (∀ e, elevation sat g = some e → -90 ≤ e ∧ e ≤ 90) ∧
    (∀ a, azimuth sat g = some a → 0 ≤ a ∧ a < 360) ∧
    (∀ l, lookAngle sat g = some l → 0 ≤ l ∧ l ≤ 180) := by
  refine ⟨?_, ?_, ?_⟩
  · intro e he
    unfold elevation at he
    obtain ⟨a, ha, rfl⟩ := Option.map_eq_some_iff.1 he
    have := getAng_range ha
    constructor <;> linarith
  · intro a ha
    unfold azimuth at ha
    split_ifs at ha with hs
    obtain ⟨b, hb, rfl⟩ := Option.map_eq_some_iff.1 ha
    have hr := getAng_range hb
    split_ifs with hd
    · refine ⟨by linarith, ?_⟩
      have hb0 : b ≠ 0 := by
        intro h0
        subst h0
        obtain ⟨hv, k, hk, h3⟩ := (getAng_zero_iff _ _).1 hb
        have h4 : onPlane sat g = k⁻¹ • surfaceTangent g := by
          rw [h3, smul_smul, inv_mul_cancel₀ hk.ne', one_smul]
        rw [h4, smul_dotProduct, dot_self_cross, smul_zero] at hd
        exact lt_irrefl _ hd
      have : 0 < b := lt_of_le_of_ne hr.1 (Ne.symm hb0)
      linarith
    · constructor <;> linarith
  · intro l hl
    exact getAng_range hl

/-- C53: when the angles exist.  The elevation and the look angle are missing only if a vector
is zero; the azimuth is missing for every station on the equator. -/
theorem C53_defined_partial (sat : Vec) (g : Ground) :
    (elevation sat g = none ↔ sat = g.itrs ∨ g.itrs = 0) ∧
    (lookAngle sat g = none ↔ sat = g.itrs ∨ sat = 0) ∧
    (Real.sin g.lat = 0 → azimuth sat g = none) := by
  refine ⟨?_, ?_, ?_⟩
  · unfold elevation
    rw [Option.map_eq_none_iff, getAng_none, sub_eq_zero]
  · unfold lookAngle
    rw [getAng_none, sub_eq_zero]
  · intro h
    unfold azimuth
    rw [if_pos h]

/-- C53: elevation 90 means straight above on the line from the centre of the Earth, and look
angle 0 means that the target is on the line from the satellite to the centre of the Earth. -/
theorem C53_extremes_partial (sat : Vec) (g : Ground) :
    (elevation sat g = some 90 ↔ g.itrs ≠ 0 ∧ ∃ k : ℝ, 0 < k ∧ sat = g.itrs + k • g.itrs) ∧
    (lookAngle sat g = some 0 ↔ sat ≠ 0 ∧ ∃ k : ℝ, 0 < k ∧ g.itrs = sat - k • sat) := by
  constructor
  · unfold elevation
    have e : (getAng (sat - g.itrs) g.itrs).map (fun a => 90 - a) = some 90 ↔
        getAng (sat - g.itrs) g.itrs = some 0 := by
      cases getAng (sat - g.itrs) g.itrs with
      | none => simp
      | some a =>
        simp only [Option.map_some, Option.some.injEq]
        constructor <;> intro h <;> linarith
    rw [e, getAng_zero_iff]
    simp only [sub_eq_iff_eq_add']
  · unfold lookAngle
    rw [getAng_zero_iff]
    constructor
    · rintro ⟨h, k, hk, h1⟩
      exact ⟨h, k, hk, by rw [← h1]; simp⟩
    · rintro ⟨h, k, hk, h1⟩
      exact ⟨h, k, hk, by rw [h1]; simp⟩

/-- C53 fails for the geographic zenith: a satellite exactly on the vertical (the ellipsoid
normal) of a station that is neither on the equator nor at a pole never has elevation 90. -/
theorem C53_zenith_below_90 (lat lon h H : ℝ)
    (hs : Real.sin lat ≠ 0) (hc : Real.cos lat ≠ 0) :
    elevation (wgs84ToItrs1 lat lon H) ⟨lat, lon, h⟩ ≠ some 90 := by
  intro he
  obtain ⟨-, k, hk, hsat⟩ := (C53_extremes_partial _ _).1.1 he
  rw [(C50_ellipsoid lat lon h).2.2.2.2] at hsat
  have hH := wgs84_height lat lon H
  have hh := wgs84_height lat lon h
  rw [hsat] at hH
  have hn := (primeVertical_pos lat).ne'
  have hez := ecc_sq.1.ne'
  have e2 := congrFun hH 2
  have ex := congrFun hH 0
  have ey := congrFun hH 1
  simp only [wgs84ToItrs1, unitAt] at e2 ex ey
  simp at e2 ex ey
  generalize primeVertical lat = n at *
  have p : (n + h) + k * (n + h) - n - H = 0 := by
    have hsc := Real.sin_sq_add_cos_sq lon
    have : Real.cos lat * ((n + h) + k * (n + h) - n - H) = 0 := by
      linear_combination Real.cos lon * ex + Real.sin lon * ey -
        Real.cos lat * ((n + h) + k * (n + h) - n - H) * hsc
    rcases mul_eq_zero.1 this with h | h
    · exact absurd h hc
    · exact h
  have q : (n * (1 - ecc ^ 2) + h) + k * (n * (1 - ecc ^ 2) + h) - n * (1 - ecc ^ 2) - H = 0 := by
    have : Real.sin lat * ((n * (1 - ecc ^ 2) + h) + k * (n * (1 - ecc ^ 2) + h) -
        n * (1 - ecc ^ 2) - H) = 0 := by
      linear_combination e2
    rcases mul_eq_zero.1 this with h | h
    · exact absurd h hs
    · exact h
  have : k * n * ecc ^ 2 = 0 := by linear_combination p - q
  rcases mul_eq_zero.1 this with h | h
  · rcases mul_eq_zero.1 h with h | h
    · exact hk.ne' h
    · exact hn h
  · exact hez h

/-- A station at 45 degrees north. -/
example : Real.sin (Real.pi / 4) ≠ 0 ∧ Real.cos (Real.pi / 4) ≠ 0 := by
  rw [Real.sin_pi_div_four, Real.cos_pi_div_four]
  constructor <;> positivity

/-! ### C54 -/

/-- The signed distance from the polar axis of the station. -/
noncomputable def groundP (g : Ground) : ℝ := (primeVertical g.lat + g.height) * Real.cos g.lat

theorem itrs_meridian (g : Ground) :
    g.itrs = ![groundP g * Real.cos g.lon, groundP g * Real.sin g.lon, g.itrs 2] := by
  ext i
  fin_cases i <;> simp [Ground.itrs, groundP]

theorem tangent_meridian (g : Ground) :
    surfaceTangent g = ![-(groundP g * Real.cos g.lon), -(groundP g * Real.sin g.lon),
      g.radius / Real.sin g.lat - g.itrs 2] := by
  unfold surfaceTangent
  ext i
  fin_cases i <;> simp [Ground.itrs, groundP]

theorem onPlane_of_horizontal (g : Ground) (d : Vec) (h : d ⬝ᵥ g.itrs = 0) :
    onPlane (g.itrs + d) g = d := by
  unfold onPlane
  simp [h]

/-- The tangent vector's component along a northward direction has the sign of the latitude. -/
theorem tangent_north (g : Ground) (n : Vec) (hn : IsNorth g n) :
    surfaceTangent g ⬝ᵥ n = n 2 * (g.radius / Real.sin g.lat) := by
  obtain ⟨h1, -, -⟩ := hn
  unfold surfaceTangent
  rw [sub_dotProduct, dotProduct_comm g.itrs n, h1]
  simp [dotProduct, Fin.sum_univ_three]
  ring

theorem getAng_side {u v : Vec} (hu : u ≠ 0) (hv : v ≠ 0) :
    ∃ a, getAng u v = some a ∧ (0 < u ⬝ᵥ v → a < 90) ∧ (u ⬝ᵥ v < 0 → 90 < a) ∧
      (u ⬝ᵥ v = 0 → a = 90) := by
  have hp := Real.pi_pos
  refine ⟨_, getAng_eq u v hu hv, ?_, ?_, ?_⟩
  · intro h
    have : InnerProductGeometry.angle (toE u) (toE v) < Real.pi / 2 := by
      unfold InnerProductGeometry.angle
      rw [Real.arccos_lt_pi_div_two, inner_toE, norm_toE, norm_toE]
      exact div_pos h (mul_pos (vnorm_pos hu) (vnorm_pos hv))
    calc _ < Real.pi / 2 * (180 / Real.pi) := mul_lt_mul_of_pos_right this (by positivity)
      _ = 90 := by field_simp; norm_num
  · intro h
    have : Real.pi / 2 < InnerProductGeometry.angle (toE u) (toE v) := by
      unfold InnerProductGeometry.angle
      rw [← not_le, Real.arccos_le_pi_div_two, inner_toE, norm_toE, norm_toE, not_le]
      exact div_neg_of_neg_of_pos h (mul_pos (vnorm_pos hu) (vnorm_pos hv))
    calc (90 : ℝ) = Real.pi / 2 * (180 / Real.pi) := by field_simp; norm_num
      _ < _ := mul_lt_mul_of_pos_right this (by positivity)
  · intro h
    have : InnerProductGeometry.angle (toE u) (toE v) = Real.pi / 2 := by
      rw [← InnerProductGeometry.inner_eq_zero_iff_angle_eq_pi_div_two, inner_toE]
      exact h
    rw [this]; field_simp; norm_num

theorem direction_eq (g : Ground) :
    surfaceTangent g ⨯₃ g.itrs = (groundP g * (g.radius / Real.sin g.lat)) • east g.lon := by
  rw [tangent_meridian]
  conv_lhs => rw [itrs_meridian g]
  rw [cross_apply]
  ext i
  fin_cases i <;> simp [east] <;> ring

theorem radius_pos (g : Ground) (hh : 0 ≤ g.height) (hlat : Real.cos g.lat ≠ 0) :
    0 < g.radius := by
  have ha := axisA_pos
  have hs : 0 < Real.cos g.lat ^ 2 := by positivity
  have : 0 < Real.sqrt (((axisA ^ 2 * Real.cos g.lat) ^ 2 + (axisB ^ 2 * Real.sin g.lat) ^ 2) /
      ((axisA * Real.cos g.lat) ^ 2 + (axisB * Real.sin g.lat) ^ 2)) := by
    apply Real.sqrt_pos.2
    apply div_pos
    · have : 0 < (axisA ^ 2 * Real.cos g.lat) ^ 2 := by positivity
      nlinarith [sq_nonneg (axisB ^ 2 * Real.sin g.lat)]
    · have : 0 < (axisA * Real.cos g.lat) ^ 2 := by positivity
      nlinarith [sq_nonneg (axisB * Real.sin g.lat)]
  unfold Ground.radius
  simp only
  linarith

theorem groundP_pos (g : Ground) (hh : 0 ≤ g.height) (hlat : 0 < Real.cos g.lat) :
    0 < groundP g := mul_pos (by linarith [primeVertical_pos g.lat]) hlat

/-- C54 fails: for a satellite due north on the horizon of a station in the southern hemisphere
the azimuth is more than 90 degrees (the code's reference direction points south there); in the
northern hemisphere it is less than 90 degrees. -/
theorem C54_north_reversed (g : Ground) (n : Vec) (hn : IsNorth g n) (hh : 0 ≤ g.height)
    (hlat : 0 < Real.cos g.lat) :
    (Real.sin g.lat < 0 → ∃ a, azimuth (g.itrs + n) g = some a ∧ 90 < a ∧ a ≤ 180) ∧
    (0 < Real.sin g.lat → ∃ a, azimuth (g.itrs + n) g = some a ∧ 0 ≤ a ∧ a < 90) := by
  have hR := radius_pos g hh hlat.ne'
  have hn2 := hn.2.2
  have hn0 : n ≠ 0 := by
    rintro rfl
    exact lt_irrefl _ hn2
  have hP := onPlane_of_horizontal g n hn.1
  have hdir : ¬ n ⬝ᵥ (surfaceTangent g ⨯₃ g.itrs) < 0 := by
    rw [direction_eq, dotProduct_smul, hn.2.1, smul_zero]
    exact lt_irrefl _
  have ht := tangent_north g n hn
  constructor
  · intro hs
    have hneg : surfaceTangent g ⬝ᵥ n < 0 := by
      rw [ht]
      exact mul_neg_of_pos_of_neg hn2 (div_neg_of_pos_of_neg hR hs)
    have hT : surfaceTangent g ≠ 0 := by
      intro h
      rw [h, zero_dotProduct] at hneg
      exact lt_irrefl _ hneg
    obtain ⟨a, ha, -, h2, -⟩ := getAng_side hT hn0
    refine ⟨a, ?_, h2 hneg, (getAng_range ha).2⟩
    unfold azimuth
    rw [if_neg hs.ne]
    simp only [hP, ha, Option.map_some, if_neg hdir]
  · intro hs
    have hpos : 0 < surfaceTangent g ⬝ᵥ n := by
      rw [ht]
      exact mul_pos hn2 (div_pos hR hs)
    have hT : surfaceTangent g ≠ 0 := by
      intro h
      rw [h, zero_dotProduct] at hpos
      exact lt_irrefl _ hpos
    obtain ⟨a, ha, h1, -, -⟩ := getAng_side hT hn0
    refine ⟨a, ?_, (getAng_range ha).1, h1 hpos⟩
    unfold azimuth
    rw [if_neg hs.ne']
    simp only [hP, ha, Option.map_some, if_neg hdir]

/-- C54: a satellite due east on the horizon has azimuth exactly 90 degrees seen from the northern
hemisphere and exactly 270 degrees seen from the southern hemisphere, where it should be 90. -/
theorem C54_east_partial (g : Ground) (k : ℝ) (hk : 0 < k) (hh : 0 ≤ g.height)
    (hlat : 0 < Real.cos g.lat) :
    (0 < Real.sin g.lat → azimuth (g.itrs + k • east g.lon) g = some 90) ∧
    (Real.sin g.lat < 0 → azimuth (g.itrs + k • east g.lon) g = some 270) := by
  have hR := radius_pos g hh hlat.ne'
  have hp := groundP_pos g hh hlat
  have hsc := Real.sin_sq_add_cos_sq g.lon
  have hee : east g.lon ⬝ᵥ east g.lon = 1 := by
    simp [east, dotProduct, Fin.sum_univ_three]
    linarith
  have heg : east g.lon ⬝ᵥ g.itrs = 0 := by
    rw [itrs_meridian]
    simp [east, dotProduct, Fin.sum_univ_three]
    ring
  have heT : surfaceTangent g ⬝ᵥ (k • east g.lon) = 0 := by
    rw [tangent_meridian]
    simp [east, dotProduct, Fin.sum_univ_three]
    ring
  have he0 : k • east g.lon ≠ 0 := by
    intro h
    rcases smul_eq_zero.1 h with h | h
    · exact hk.ne' h
    · rw [h, zero_dotProduct] at hee
      exact zero_ne_one hee
  have hT : surfaceTangent g ≠ 0 := by
    intro h
    rw [tangent_meridian] at h
    have h0 := congrFun h 0
    have h1 := congrFun h 1
    simp [hp.ne'] at h0 h1
    rw [h0, h1] at hsc
    norm_num at hsc
  have hP := onPlane_of_horizontal g (k • east g.lon) (by rw [smul_dotProduct, heg, smul_zero])
  have hdir : (k • east g.lon) ⬝ᵥ (surfaceTangent g ⨯₃ g.itrs) =
      k * groundP g * (g.radius / Real.sin g.lat) := by
    rw [direction_eq, dotProduct_smul, smul_dotProduct, hee]
    simp only [smul_eq_mul]
    ring
  obtain ⟨a, ha, -, -, h3⟩ := getAng_side hT he0
  have ha90 := h3 heT
  subst ha90
  constructor
  · intro hs
    unfold azimuth
    rw [if_neg hs.ne']
    have : ¬ k * groundP g * (g.radius / Real.sin g.lat) < 0 := by
      push Not
      exact (mul_pos (mul_pos hk hp) (div_pos hR hs)).le
    simp only [hP, ha, Option.map_some, hdir, if_neg this]
  · intro hs
    unfold azimuth
    rw [if_neg hs.ne]
    have : k * groundP g * (g.radius / Real.sin g.lat) < 0 :=
      mul_neg_of_pos_of_neg (mul_pos hk hp) (div_neg_of_pos_of_neg hR hs)
    simp only [hP, ha, Option.map_some, hdir, if_pos this]
    norm_num

/-- Every station off the poles has a northward direction. -/
example (g : Ground) (hh : 0 ≤ g.height) (hlat : 0 < Real.cos g.lat) :
    IsNorth g ![-g.itrs 2 * Real.cos g.lon, -g.itrs 2 * Real.sin g.lon, groundP g] := by
  refine ⟨?_, ?_, groundP_pos g hh hlat⟩
  · rw [itrs_meridian]
    simp [dotProduct, Fin.sum_univ_three]
    linear_combination -(g.itrs 2 * groundP g) * Real.sin_sq_add_cos_sq g.lon
  · simp [east, dotProduct, Fin.sum_univ_three]
    ring

/-- Stations at 45 degrees south and north meet the hypotheses. -/
example : 0 < Real.cos (-(Real.pi / 4)) ∧ Real.sin (-(Real.pi / 4)) < 0 ∧
    0 < Real.sin (Real.pi / 4) := by
  rw [Real.cos_neg, Real.sin_neg, Real.sin_pi_div_four, Real.cos_pi_div_four]
  refine ⟨by positivity, ?_, by positivity⟩
  have : 0 < Real.sqrt 2 := by positivity
  linarith

/-! ### C55 -/

/-- C55: the distance is the Euclidean distance to the location, hence non-negative, zero exactly
at the location, at least the difference of the distances from the centre of the Earth, and it
satisfies the triangle inequality. -/
theorem C55_distance (sat sat' : Vec) (g : Ground) :
    distance sat g = dist (toE sat) (toE (wgs84ToItrs1 g.lat g.lon g.height)) ∧
    0 ≤ distance sat g ∧ (distance sat g = 0 ↔ sat = g.itrs) ∧
    |‖toE sat‖ - ‖toE g.itrs‖| ≤ distance sat g ∧
    distance sat g ≤ dist (toE sat) (toE sat') + distance sat' g := by
  have e : ∀ s : Vec, distance s g = dist (toE s) (toE g.itrs) := by
    intro s
    rw [dist_toE]
    rfl
  refine ⟨e sat, ?_, ?_, ?_, ?_⟩
  · rw [e]; exact dist_nonneg
  · unfold distance
    rw [vnorm_eq_zero, sub_eq_zero]
  · rw [e, dist_eq_norm]
    exact abs_norm_sub_norm_le _ _
  · rw [e, e]
    exact dist_triangle _ _ _

example : distance ![6378.137, 0, 1000] ⟨0, 0, 0⟩ = 1000 := by
  unfold distance vnorm
  have : (![6378.137, 0, 1000] : Vec) - Ground.itrs ⟨0, 0, 0⟩ = ![0, 0, 1000] := by
    ext i
    fin_cases i <;> simp [Ground.itrs, primeVertical, axisA]
  rw [this]
  simp [dotProduct, Fin.sum_univ_three]

/-- C49 and C53 together: whenever the satellite is farther from the centre of the Earth than the
target, `cos roll * cos pitch` is the cosine of the look angle. -/
theorem C49_off_nadir_angle (jd posUnit velUnit : ℝ) (position velocity : Vec) (g : Ground)
    (hp : 0 < posUnit) (hv : 0 < velUnit)
    (hstate : itrsToGcrs1 jd position ⨯₃ itrsToGcrs1 jd velocity ≠ 0)
    (hfar : ‖toE g.itrs‖ < ‖toE (posUnit • position)‖) :
    let a := attitude jd posUnit velUnit position velocity g
    ∃ l, lookAngle (posUnit • position) g = some l ∧
      Real.cos a.1 * Real.cos a.2.1 = Real.cos (rad l) := by
  intro a
  obtain ⟨m, hm, -, h'⟩ := (C47_rotations jd).2.2.2.1
  have hpos0 : position ≠ 0 := by
    rintro rfl
    rw [smul_zero] at hfar
    simp at hfar
    exact absurd hfar (not_lt.2 (norm_nonneg _))
  have hs0 : posUnit • position ≠ 0 := smul_ne_zero hp.ne' hpos0
  have hd0 : posUnit • position - g.itrs ≠ 0 := by
    intro h
    rw [sub_eq_zero.1 h] at hfar
    exact lt_irrefl _ hfar
  refine ⟨_, getAng_eq _ _ hd0 hs0, ?_⟩
  have hpi := Real.pi_pos
  have e1 : rad (InnerProductGeometry.angle (toE (posUnit • position - g.itrs))
      (toE (posUnit • position)) * (180 / Real.pi)) =
      InnerProductGeometry.angle (toE (posUnit • position - g.itrs)) (toE (posUnit • position)) := by
    unfold rad
    field_simp
  rw [e1]
  have h := (C49_points_at_target jd posUnit velUnit position velocity g hp hv hstate hfar).2
  refine h.trans ?_
  have hcos : Real.cos (InnerProductGeometry.angle (toE (posUnit • position - g.itrs))
      (toE (posUnit • position))) = ((posUnit • position - g.itrs) ⬝ᵥ (posUnit • position)) /
        (vnorm (posUnit • position - g.itrs) * vnorm (posUnit • position)) := by
    rw [InnerProductGeometry.cos_angle, inner_toE, norm_toE, norm_toE]
  rw [hcos]
  have hr : itrsToGcrs1 jd position ≠ 0 := by
    intro h
    rw [h] at hstate
    exact hstate (by simp)
  have hrot := lvlh_rotation _ _ hstate
  have hn : ‖toE (lineOfSight jd posUnit position velocity g)‖ =
      vnorm (posUnit • position - g.itrs) := by
    unfold lineOfSight
    rw [norm_toE, hrot.vnorm, h', hm.inv.vnorm, ← neg_sub, ← neg_one_smul ℝ, vnorm_smul]
    simp
  have hn2 : lineOfSight jd posUnit position velocity g 2 =
      (vnorm position)⁻¹ * ((posUnit • position - g.itrs) ⬝ᵥ position) := by
    show (-((vnorm (itrsToGcrs1 jd position))⁻¹ • itrsToGcrs1 jd position)) ⬝ᵥ
      itrsToGcrs1 jd (g.itrs - posUnit • position) = _
    rw [h', h', hm.inv.vnorm, neg_dotProduct, smul_dotProduct, hm.inv.dot, ← neg_sub,
      dotProduct_neg, dotProduct_comm]
    simp
    ring
  rw [hn, hn2, vnorm_smul, abs_of_pos hp, dotProduct_smul, smul_eq_mul]
  have := (vnorm_pos hpos0).ne'
  have := (vnorm_pos hd0).ne'
  field_simp

end Celest.Frames
