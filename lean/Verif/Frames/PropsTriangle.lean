/-
C70: the triangle of the centre of the Earth, the station and the satellite.
-/
import Verif.Frames.PropsAngles
import Mathlib.Geometry.Euclidean.Triangle

namespace Celest.Frames

open Matrix Celest.TimeScale InnerProductGeometry

theorem toE_sub (u v : Vec) : toE (u - v) = toE u - toE v := rfl

theorem toE_ne {u : Vec} (h : u ≠ 0) : toE u ≠ 0 := by
  intro h0
  have := congrArg WithLp.ofLp h0
  exact h (by simpa using this)

theorem triangle_angles (sat ground : Vec) (hg : ground ≠ 0) :
    angle (toE ground) (toE sat) + angle (toE sat) (toE (sat - ground)) =
      angle (toE ground) (toE (sat - ground)) := by
  have h := angle_add_angle_sub_add_angle_sub_eq_pi (toE sat) (toE_ne hg)
  have e : toE ground - toE sat = -(toE (sat - ground)) := by rw [toE_sub, neg_sub]
  rw [e, angle_neg_right, ← toE_sub, angle_comm (toE sat) (toE ground)] at h
  linarith

/-- C70: elevation, look angle and the angle between station and satellite seen from the centre
of the Earth add up to 90 degrees. -/
theorem C70_angles_add_up (sat : Vec) (g : Ground) (hg : g.itrs ≠ 0) (hs : sat ≠ 0)
    (hd : sat ≠ g.itrs) :
    ∃ e l, elevation sat g = some e ∧ lookAngle sat g = some l ∧
      e + l + angle (toE g.itrs) (toE sat) * (180 / Real.pi) = 90 := by
  have hd' : sat - g.itrs ≠ 0 := sub_ne_zero.2 hd
  refine ⟨_, _, by unfold elevation; rw [getAng_eq _ _ hd' hg]; rfl, getAng_eq _ _ hd' hs, ?_⟩
  rw [angle_comm (toE (sat - g.itrs)), angle_comm (toE (sat - g.itrs)), ← triangle_angles sat _ hg]
  ring

theorem rad_mul (a : ℝ) : rad (a * (180 / Real.pi)) = a := by
  have := Real.pi_pos.ne'
  unfold rad
  field_simp

/-- C70: the sine rule ties the look angle to the elevation by the two distances from the centre
of the Earth. -/
theorem C70_sine_rule (sat : Vec) (g : Ground) (e l : ℝ) (he : elevation sat g = some e)
    (hl : lookAngle sat g = some l) :
    ‖toE sat‖ * Real.sin (rad l) = ‖toE g.itrs‖ * Real.cos (rad e) := by
  have h1 := (C53_defined_partial sat g).1
  have h2 := (C53_defined_partial sat g).2.1
  rw [he] at h1
  rw [hl] at h2
  simp only [reduceCtorEq, false_iff, not_or] at h1 h2
  have hd' : sat - g.itrs ≠ 0 := sub_ne_zero.2 h1.1
  unfold elevation at he
  rw [getAng_eq _ _ hd' h1.2] at he
  have hl' : getAng (sat - g.itrs) sat = some l := hl
  rw [getAng_eq _ _ hd' h2.2] at hl'
  rw [← Option.some.inj hl', ← Option.some.inj he, rad_mul]
  have : rad (90 - angle (toE (sat - g.itrs)) (toE g.itrs) * (180 / Real.pi)) =
      Real.pi / 2 - angle (toE (sat - g.itrs)) (toE g.itrs) := by
    have := Real.pi_pos.ne'
    unfold rad
    field_simp
    ring
  rw [this, Real.cos_pi_div_two_sub]
  have h3 := sin_angle_mul_norm_eq_sin_angle_mul_norm (toE sat) (toE g.itrs)
  have h4 := sin_angle_mul_norm_eq_sin_angle_mul_norm (toE g.itrs) (toE sat)
  have e1 : toE g.itrs - toE sat = -(toE (sat - g.itrs)) := by rw [toE_sub, neg_sub]
  rw [e1, angle_neg_right, Real.sin_pi_sub, norm_neg, angle_comm (toE g.itrs) (toE sat),
    angle_comm (toE sat) (toE (sat - g.itrs))] at h4
  rw [← toE_sub, angle_comm (toE g.itrs) (toE (sat - g.itrs))] at h3
  have hn : ‖toE (sat - g.itrs)‖ ≠ 0 := norm_ne_zero_iff.2 (toE_ne hd')
  apply mul_right_cancel₀ hn
  linear_combination ‖toE g.itrs‖ * h3 - ‖toE sat‖ * h4

/-- C70: the elevation is positive exactly when the satellite is beyond the plane through the
station perpendicular to the line from the centre of the Earth. -/
theorem C70_above_horizon_iff (sat : Vec) (g : Ground) (e : ℝ) (he : elevation sat g = some e) :
    0 < e ↔ g.itrs ⬝ᵥ g.itrs < g.itrs ⬝ᵥ sat := by
  have h1 := (C53_defined_partial sat g).1
  rw [he] at h1
  simp only [reduceCtorEq, false_iff, not_or] at h1
  have hd' : sat - g.itrs ≠ 0 := sub_ne_zero.2 h1.1
  unfold elevation at he
  rw [getAng_eq _ _ hd' h1.2] at he
  rw [← Option.some.inj he]
  have hpi := Real.pi_pos
  have hin : inner ℝ (toE (sat - g.itrs)) (toE g.itrs) = g.itrs ⬝ᵥ sat - g.itrs ⬝ᵥ g.itrs := by
    rw [inner_toE, sub_dotProduct, dotProduct_comm sat]
  rw [← sub_pos (b := g.itrs ⬝ᵥ g.itrs), ← hin]
  have key : 0 < inner ℝ (toE (sat - g.itrs)) (toE g.itrs) ↔
      angle (toE (sat - g.itrs)) (toE g.itrs) < Real.pi / 2 := by
    rw [angle, Real.arccos_lt_pi_div_two]
    have : 0 < ‖toE (sat - g.itrs)‖ * ‖toE g.itrs‖ :=
      mul_pos (norm_pos_iff.2 (toE_ne hd')) (norm_pos_iff.2 (toE_ne h1.2))
    exact (div_pos_iff_of_pos_right this).symm
  rw [key]
  constructor
  · intro h
    have h2 : angle (toE (sat - g.itrs)) (toE g.itrs) * (180 / Real.pi) < 90 := by linarith
    rw [mul_div_assoc', div_lt_iff₀ hpi] at h2
    linarith
  · intro h
    have h2 : angle (toE (sat - g.itrs)) (toE g.itrs) * (180 / Real.pi) < 90 := by
      rw [mul_div_assoc', div_lt_iff₀ hpi]
      linarith
    show 0 < 90 - _
    linarith

/-- C70: a satellite above the horizon is farther from the centre of the Earth than the station,
sees the station less than 90 degrees off nadir, and is less than 90 degrees away from it. -/
theorem C70_visible_consequences (sat : Vec) (g : Ground) (e l : ℝ)
    (he : elevation sat g = some e) (hl : lookAngle sat g = some l) (hpos : 0 < e) :
    ‖toE g.itrs‖ < ‖toE sat‖ ∧ l < 90 ∧
      angle (toE g.itrs) (toE sat) * (180 / Real.pi) < 90 := by
  have h1 := (C53_defined_partial sat g).1
  have h2 := (C53_defined_partial sat g).2.1
  rw [he] at h1
  rw [hl] at h2
  simp only [reduceCtorEq, false_iff, not_or] at h1 h2
  obtain ⟨e', l', he', hl', hsum⟩ := C70_angles_add_up sat g h1.2 h2.2 h1.1
  rw [he] at he'
  rw [hl] at hl'
  cases he'
  cases hl'
  have hr := (C53_ranges_partial sat g).2.2 l hl
  have ha : 0 ≤ angle (toE g.itrs) (toE sat) * (180 / Real.pi) :=
    mul_nonneg (angle_nonneg _ _) (by have := Real.pi_pos; positivity)
  refine ⟨?_, by linarith, by linarith⟩
  have hh := (C70_above_horizon_iff sat g e he).1 hpos
  rw [← inner_toE, ← inner_toE, real_inner_self_eq_norm_sq] at hh
  have hcs := real_inner_le_norm (toE g.itrs) (toE sat)
  have hn : 0 < ‖toE g.itrs‖ := norm_pos_iff.2 (toE_ne h1.2)
  nlinarith

theorem itrs_ne_zero (g : Ground) (hh : 0 ≤ g.height) : g.itrs ≠ 0 := by
  intro h0
  have hm := primeVertical_pos g.lat
  obtain ⟨he1, he2⟩ := ecc_sq
  have h2 : (primeVertical g.lat * (1 - ecc ^ 2) + g.height) * Real.sin g.lat = 0 := by
    have := congrFun h0 2
    simpa [Ground.itrs] using this
  have hx : (primeVertical g.lat + g.height) * Real.cos g.lat * Real.cos g.lon = 0 := by
    have := congrFun h0 0
    simpa [Ground.itrs] using this
  have hy : (primeVertical g.lat + g.height) * Real.cos g.lat * Real.sin g.lon = 0 := by
    have := congrFun h0 1
    simpa [Ground.itrs] using this
  have hs : Real.sin g.lat = 0 := by
    rcases mul_eq_zero.1 h2 with h | h
    · have : 0 < primeVertical g.lat * (1 - ecc ^ 2) := mul_pos hm (by linarith)
      linarith
    · exact h
  have hc : Real.cos g.lat = 0 := by
    have hp : (primeVertical g.lat + g.height) ≠ 0 := by linarith
    have hxy : ((primeVertical g.lat + g.height) * Real.cos g.lat) ^ 2 = 0 := by
      have := Real.sin_sq_add_cos_sq g.lon
      linear_combination
        -((primeVertical g.lat + g.height) * Real.cos g.lat) ^ 2 * this +
        (primeVertical g.lat + g.height) * Real.cos g.lat * Real.cos g.lon * hx +
        (primeVertical g.lat + g.height) * Real.cos g.lat * Real.sin g.lon * hy
    have := pow_eq_zero_iff (two_ne_zero) |>.1 hxy
    rcases mul_eq_zero.1 this with h | h
    · exact absurd h hp
    · exact h
  have := Real.sin_sq_add_cos_sq g.lat
  rw [hs, hc] at this
  norm_num at this

/-- Every station at nonnegative height qualifies, e.g. one at 45 degrees with a satellite on the
polar axis. -/
example : ∃ e l, elevation ![0, 0, 7000] ⟨rad 45, 0, 0⟩ = some e ∧
    lookAngle ![0, 0, 7000] ⟨rad 45, 0, 0⟩ = some l := by
  have hg : (Ground.mk (rad 45) 0 0).itrs ≠ 0 := itrs_ne_zero _ le_rfl
  have h45 : rad 45 = Real.pi / 4 := by unfold rad; ring
  have hd : (![0, 0, 7000] : Vec) ≠ (Ground.mk (rad 45) 0 0).itrs := by
    intro h
    have h0 := congrFun h 0
    have hm := primeVertical_pos (Real.pi / 4)
    simp [Ground.itrs, h45, Real.cos_pi_div_four] at h0
    exact absurd h0 (by positivity)
  have hs : (![0, 0, 7000] : Vec) ≠ 0 := by
    intro h
    have := congrFun h 2
    simp at this
  obtain ⟨e, l, he, hl, -⟩ := C70_angles_add_up _ _ hg hs hd
  exact ⟨e, l, he, hl⟩

/-- A satellite 1000 km above a station on the equator is above its horizon. -/
example : ∀ e, elevation ![7378.137, 0, 0] ⟨0, 0, 0⟩ = some e → 0 < e := by
  intro e he
  rw [C70_above_horizon_iff _ _ _ he]
  simp [Ground.itrs, primeVertical, axisA, dotProduct, Fin.sum_univ_three]
  norm_num

end Celest.Frames
