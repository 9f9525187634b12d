/-
C117: windows from inertial positions to rise and set times in floating-point arithmetic.
-/
import Verif.Frames.LemmasRoundedStation
import Verif.Windows.PropsRounded
import Verif.Windows.Geometry

namespace Celest.Windows

open Celest.Schedule (VTW)
open Celest.Frames Matrix

/-- A position converted from GCRS to ITRS by the machine (transforms.py 64-73). -/
noncomputable def toItrs64 (M : Machine) (pw : ℝ → ℕ → ℝ) (t : ℝ) (r : Vec) : Vec :=
  Rounded.gcrsToItrs1 M (Rounded.angles M pw t) r

/-- What `generate_vtws` works with when everything is computed by the machine from the inertial
positions of the satellite and of the Sun in kilometres and the geodetic coordinates of the station
(window_generator.py 66-79 and 109-131). -/
noncomputable def pipelineScene (M : Machine) (pw : ℝ → ℕ → ℝ) (s : Site) (times : List ℚ)
    (points : List Vec) (sun : ℝ → Vec) (pitch : List ℚ) : Scene ℝ :=
  roundedScene M (Rounded.itrs M pw s) times
    (List.zipWith (fun (t : ℚ) r => toItrs64 M pw t r) times points)
    (times.map fun t : ℚ => toItrs64 M pw t (sun t)) pitch

/-! ### Specification -/

/-- What rounding can do to an elevation, in degrees. -/
noncomputable def slack : ℝ := 1.5 / 10 ^ 5

/-- The elevation in degrees of the inertial position `r` at an instant, in inertial space. -/
noncomputable def elevationAt (g : Ground) (t : ℝ) (r : Vec) : ℝ := trueElevation r (stationAt g t)

/-- The position is at least 100 km from the station, and no further from the centre of the Earth
than 500 times that: satellites up to the geostationary orbit, and the Sun. -/
def Resolved (g : Ground) (t : ℝ) (r : Vec) : Prop :=
  100 ≤ vnorm (r - stationAt g t) ∧ vnorm r ≤ 500 * vnorm (r - stationAt g t)

/-- The instant is between 1900 and 2100. -/
def ThisCentury (t : ℝ) : Prop := |t - 2451545| ≤ 36525

/-- The Sun is on the required side of the horizon but for `slack`. -/
def SunWithinSlack (g : Ground) (sun : ℝ → Vec) (t : ℝ) : Lighting → Prop
  | .day => -slack < elevationAt g t (sun t)
  | .night => elevationAt g t (sun t) < slack
  | .anytime => True
  | .invalid => False

/-- The Sun is on the required side of the horizon by more than `slack`, and not within `slack` of
zenith or nadir. -/
def SunBeyondSlack (g : Ground) (sun : ℝ → Vec) (t : ℝ) : Lighting → Prop
  | .day => slack < elevationAt g t (sun t) ∧ elevationAt g t (sun t) < 90 - slack
  | .night => elevationAt g t (sun t) < -slack ∧ slack - 90 < elevationAt g t (sun t)
  | .anytime => True
  | .invalid => False

/-! ### Lemmas -/

variable {M : Machine} {pw : ℝ → ℕ → ℝ} {s : Site}

/-- Elevations are the same in the rotating and in the inertial frame. -/
theorem elevationAt_eq (g : Ground) (t : ℝ) (r : Vec) :
    elevationAt g t r = trueElevation (gcrsToItrs1 t r) g.itrs ∧
      vnorm (gcrsToItrs1 t r - g.itrs) = vnorm (r - stationAt g t) := by
  obtain ⟨m, hm, h1, h2⟩ := to_itrs_rotation g t
  have e : gcrsToItrs1 t r - g.itrs = m *ᵥ (r - stationAt g t) := by
    rw [h1, Matrix.mulVec_sub, h2]
  constructor
  · unfold elevationAt trueElevation
    rw [e, ← h2]
    congr 2
    unfold InnerProductGeometry.angle
    rw [inner_toE, norm_toE, norm_toE, inner_toE, norm_toE, norm_toE, hm.vnorm, hm.vnorm, hm.dot]
  · rw [e, hm.vnorm]

/-- The computed positions of the satellite and of the station, together. -/
theorem pipeline_positions (S : Setup M pw (1 / 2 ^ 53)) (hs : s.Valid) {t : ℝ} {r : Vec}
    (ht : ThisCentury t) (hr : Resolved s.ground t r) :
    toItrs64 M pw t r ≠ Rounded.itrs M pw s ∧ Rounded.itrs M pw s ≠ 0 ∧
    |trueElevation (toItrs64 M pw t r) (Rounded.itrs M pw s) - elevationAt s.ground t r| ≤
      5 / 10 ^ 6 := by
  obtain ⟨e1, e2⟩ := elevationAt_eq s.ground t r
  obtain ⟨r1, r2⟩ := hr
  rw [← e2] at r1 r2
  have hc := (C116_error S ht r).1
  have hst := station_close S hs
  have hfar := station_far hs
  set p := gcrsToItrs1 t r with hp
  set G := s.ground.itrs with hG
  set G' := Rounded.itrs M pw s with hG'
  have hc' : vnorm (p - toItrs64 M pw t r) ≤ 930000 * (1 / 2 ^ 53) * vnorm r := by
    rw [vnorm_sub_comm]
    exact hc
  set p' := toItrs64 M pw t r with hp'
  set ρ := vnorm (p - G) with hρ
  have hρ0 : 0 < ρ := by linarith
  have hd : vnorm ((p - G) - (p' - G')) ≤ 465020000 * (1 / 2 ^ 53) * ρ := by
    rw [show (p - G) - (p' - G') = (p - p') + (G' - G) by abel]
    have h1 := vnorm_add (p - p') (G' - G)
    have h2 : 930000 * (1 / 2 ^ 53) * vnorm r ≤ 930000 * (1 / 2 ^ 53) * (500 * ρ) := by gcongr
    linarith
  have hg : vnorm (G - G') ≤ 320 * (1 / 2 ^ 53) * vnorm G := by
    rw [vnorm_sub_comm]
    linarith
  refine ⟨?_, ?_, ?_⟩
  · intro h
    rw [h, sub_self, sub_zero] at hd
    norm_num at hd
    linarith
  · intro h
    rw [h, sub_zero] at hg
    norm_num at hg
    linarith
  · rw [e1]
    refine (trueElevation_close hρ0 (by linarith) hd hg (by norm_num) (by norm_num)).trans ?_
    norm_num

/-- The elevation as computed, whatever comes out. -/
theorem pipeline_elevation (S : Setup M pw (1 / 2 ^ 53)) (hs : s.Valid) {t : ℝ} {r : Vec}
    (ht : ThisCentury t) (hr : Resolved s.ground t r) :
    (∀ x, Rounded.elevation M (toItrs64 M pw t r) (Rounded.itrs M pw s) = some x →
      |x - elevationAt s.ground t r| ≤ slack) ∧
    (Rounded.elevation M (toItrs64 M pw t r) (Rounded.itrs M pw s) = none →
      90 - slack ≤ |elevationAt s.ground t r|) := by
  obtain ⟨h1, h2, h3⟩ := pipeline_positions S hs ht hr
  have hE := elevationError_binary64
  have hsl : slack = 1.5 / 10 ^ 5 := rfl
  constructor
  · intro x hx
    have h4 := (C115_elevation_partial S.acc h1 h2 hx).1
    have := abs_sub_le x (trueElevation (toItrs64 M pw t r) (Rounded.itrs M pw s))
      (elevationAt s.ground t r)
    linarith
  · intro hx
    have h4 := C115_nan_only_at_zenith_partial S.acc h1 h2 hx
    have := abs_sub_abs_le_abs_sub (trueElevation (toItrs64 M pw t r) (Rounded.itrs M pw s))
      (elevationAt s.ground t r)
    linarith

section

variable {times : List ℚ} {points : List Vec} {sun : ℝ → Vec} {pitch : List ℚ} {threshold : ℝ}
  {lighting : Lighting} {k : ℕ} {t : ℚ} {r : Vec}

theorem pipeline_sample (ht : times[k]? = some t) (hk : points[k]? = some r) :
    (pipelineScene M pw s times points sun pitch).elevation[k]? =
      some (Rounded.elevation M (toItrs64 M pw t r) (Rounded.itrs M pw s)) ∧
    (pipelineScene M pw s times points sun pitch).sunElevation[k]? =
      some (Rounded.elevation M (toItrs64 M pw t (sun t)) (Rounded.itrs M pw s)) := by
  constructor
  · simp [pipelineScene, roundedScene, List.getElem?_zipWith, ht, hk]
  · simp [pipelineScene, roundedScene, ht]

theorem pipeline_wf (hl : points.length = times.length) (hp : pitch.length = times.length) :
    (pipelineScene M pw s times points sun pitch).WellFormed := by
  simp [Scene.WellFormed, pipelineScene, roundedScene, hl, hp]

theorem pipeline_within (S : Setup M pw (1 / 2 ^ 53)) (hs : s.Valid) (ht : times[k]? = some t)
    (hk : points[k]? = some r) (hc : ThisCentury t) (hr : Resolved s.ground t r)
    (hsun : Resolved s.ground t (sun t))
    (hv : Visible (pipelineScene M pw s times points sun pitch) threshold lighting k) :
    threshold - slack < elevationAt s.ground t r ∧ SunWithinSlack s.ground sun t lighting := by
  obtain ⟨e1, e2⟩ := pipeline_sample (M := M) (pw := pw) (s := s) (sun := sun) (pitch := pitch) ht hk
  obtain ⟨⟨e, he, hlt⟩, hl⟩ := hv
  rw [e1, Option.some.injEq] at he
  have h1 := abs_le.1 ((pipeline_elevation S hs hc hr).1 e he)
  refine ⟨by linarith, ?_⟩
  cases lighting with
  | anytime => trivial
  | invalid => exact hl
  | day =>
    obtain ⟨x, hx, h0⟩ := hl
    rw [e2, Option.some.injEq] at hx
    have h2 := abs_le.1 ((pipeline_elevation S hs hc hsun).1 x hx)
    change -slack < _
    linarith
  | night =>
    obtain ⟨x, hx, h0⟩ := hl
    rw [e2, Option.some.injEq] at hx
    have h2 := abs_le.1 ((pipeline_elevation S hs hc hsun).1 x hx)
    change _ < slack
    linarith

theorem slack_pos : 0 < slack := by
  unfold slack
  norm_num

/-- Away from zenith and nadir the elevation is a number. -/
theorem pipeline_number (S : Setup M pw (1 / 2 ^ 53)) (hs : s.Valid) {t : ℝ} {r : Vec}
    (ht : ThisCentury t) (hr : Resolved s.ground t r) (hz : |elevationAt s.ground t r| < 90 - slack) :
    ∃ x, Rounded.elevation M (toItrs64 M pw t r) (Rounded.itrs M pw s) = some x ∧
      |x - elevationAt s.ground t r| ≤ slack := by
  obtain ⟨h1, h2⟩ := pipeline_elevation S hs ht hr
  cases hx : Rounded.elevation M (toItrs64 M pw t r) (Rounded.itrs M pw s) with
  | none =>
    have := h2 hx
    linarith
  | some x => exact ⟨x, rfl, h1 x hx⟩

theorem pipeline_beyond (S : Setup M pw (1 / 2 ^ 53)) (hs : s.Valid) (ht : times[k]? = some t)
    (hk : points[k]? = some r) (hc : ThisCentury t) (hr : Resolved s.ground t r)
    (hsun : Resolved s.ground t (sun t)) (h0 : 0 ≤ threshold)
    (h1 : threshold + slack < elevationAt s.ground t r)
    (h2 : elevationAt s.ground t r < 90 - slack) (hl : SunBeyondSlack s.ground sun t lighting) :
    Visible (pipelineScene M pw s times points sun pitch) threshold lighting k := by
  have hsl := slack_pos
  obtain ⟨e1, e2⟩ := pipeline_sample (M := M) (pw := pw) (s := s) (sun := sun) (pitch := pitch) ht hk
  obtain ⟨x, hx, hd⟩ := pipeline_number S hs hc hr (by
    rw [abs_of_nonneg (by linarith)]
    exact h2)
  have hd' := abs_le.1 hd
  refine ⟨⟨x, by rw [e1, hx], by linarith⟩, ?_⟩
  cases lighting with
  | anytime => trivial
  | invalid => exact hl
  | day =>
    obtain ⟨l1, l2⟩ := hl
    obtain ⟨y, hy, hd⟩ := pipeline_number S hs hc hsun (by
      rw [abs_of_nonneg (by linarith)]
      exact l2)
    have := abs_le.1 hd
    exact ⟨y, by rw [e2, hy], by linarith⟩
  | night =>
    obtain ⟨l1, l2⟩ := hl
    obtain ⟨y, hy, hd⟩ := pipeline_number S hs hc hsun (by
      rw [abs_of_neg (by linarith)]
      linarith)
    have := abs_le.1 hd
    exact ⟨y, by rw [e2, hy], by linarith⟩

/-! ### C117 -/

/-- **C117.** In double precision, between 1900 and 2100, the elevation computed from an inertial
position and the geodetic coordinates of a station is within 0.000015 degrees of the elevation of
inertial geometry, or NaN within that of the zenith or the nadir. -/
theorem C117_elevation_partial (S : Setup M pw (1 / 2 ^ 53)) (hs : s.Valid) {t : ℝ} {r : Vec}
    (ht : ThisCentury t) (hr : Resolved s.ground t r) :
    match Rounded.elevation M (toItrs64 M pw t r) (Rounded.itrs M pw s) with
    | some x => |x - elevationAt s.ground t r| ≤ slack
    | none => 90 - slack ≤ |elevationAt s.ground t r| := by
  obtain ⟨h1, h2⟩ := pipeline_elevation S hs ht hr
  split
  · rename_i x hx
    exact h1 x hx
  · rename_i hx
    exact h2 hx

/-- **C117.** Every sample after the rise time of a generated window up to its set time has the
satellite above the mask of the station and the Sun on the required side of its horizon, in inertial
geometry, but for 0.000015 degrees. -/
theorem C117_windows_partial (S : Setup M pw (1 / 2 ^ 53)) (hs : s.Valid)
    (hl : points.length = times.length) (hp : pitch.length = times.length)
    (hinc : times.Pairwise (· < ·)) {ws : List VTW}
    (hok : generateVtws (pipelineScene M pw s times points sun pitch) threshold lighting = .ok ws)
    {w : VTW} (hw : w ∈ ws) (ht : times[k]? = some t) (hk : points[k]? = some r)
    (hc : ThisCentury t) (hr : Resolved s.ground t r) (hsun : Resolved s.ground t (sun t))
    (hrise : w.rise < t) (hset : t ≤ w.set) :
    threshold - slack < elevationAt s.ground t r ∧ SunWithinSlack s.ground sun t lighting :=
  pipeline_within S hs ht hk hc hr hsun
    (C79_contains_only_visible_partial _ (pipeline_wf hl hp) threshold lighting ws hok hinc w hw k t
      ht hrise hset)

/-- **C117, partial.** Conversely, if the satellite is clearly below the mask at the first sample,
every sample that clears the mask, the condition on the Sun and the zenith by more than 0.000015
degrees lies in a generated window.  Missing: samples at the zenith, as in C115, and a first sample
in view, as in C24. -/
theorem C117_windows_found_partial (S : Setup M pw (1 / 2 ^ 53)) (hs : s.Valid)
    (hl : points.length = times.length) (hp : pitch.length = times.length)
    (hinc : times.Pairwise (· < ·)) (h0 : 0 ≤ threshold) (h90 : threshold ≤ 90)
    (hall : ∀ (j : ℕ) (q : ℚ) (x : Vec), times[j]? = some q → points[j]? = some x →
      ThisCentury q ∧ Resolved s.ground q x ∧ Resolved s.ground q (sun q))
    (hfirst : ∀ (q : ℚ) (x : Vec), times[0]? = some q → points[0]? = some x →
      elevationAt s.ground q x < threshold - slack)
    (ht : times[k]? = some t) (hk : points[k]? = some r)
    (h1 : threshold + slack < elevationAt s.ground t r)
    (h2 : elevationAt s.ground t r < 90 - slack) (hsun : SunBeyondSlack s.ground sun t lighting) :
    ∃ ws, generateVtws (pipelineScene M pw s times points sun pitch) threshold lighting = .ok ws ∧
      ∃ w ∈ ws, w.rise < t ∧ t ≤ w.set := by
  obtain ⟨hc, hr, hrs⟩ := hall k t r ht hk
  have wf := pipeline_wf (M := M) (pw := pw) (s := s) (sun := sun) hl hp
  have hvis := pipeline_beyond (pitch := pitch) S hs ht hk hc hr hrs h0 h1 h2 hsun
  have hlit : lighting ≠ .invalid := by
    rintro rfl
    exact hsun
  obtain ⟨runs, ws, hok, -⟩ := C23_windows_are_maximal_runs_partial _ wf threshold lighting rfl ⟨h0, h90⟩
    hlit ⟨k, hvis⟩
  refine ⟨ws, hok, C79_covers_partial _ wf threshold lighting ws hok hinc ?_ k t ht hvis⟩
  intro hv
  have hlen : 0 < points.length := by
    have := (List.getElem?_eq_some_iff.1 hk).1
    omega
  have t0 : times[0]? = some (times[0]'(by omega)) := List.getElem?_eq_getElem (by omega)
  have p0 : points[0]? = some points[0] := List.getElem?_eq_getElem hlen
  obtain ⟨c0, r0, s0⟩ := hall 0 _ _ t0 p0
  have := (pipeline_within S hs t0 p0 c0 r0 s0 hv).1
  have := hfirst _ _ t0 p0
  linarith

end

/-! ### concrete data -/

/-- The site at latitude and longitude 0. -/
noncomputable def equator : Site := ⟨0, 0, 0⟩

theorem equator_valid : equator.Valid := by
  refine ⟨?_, ?_, ?_⟩ <;> simp [equator]

theorem equator_itrs : equator.ground.itrs = ![axisA, 0, 0] := by
  simp [Ground.itrs, Site.ground, equator, primeVertical, TimeScale.rad]

/-- A point that appears at an elevation of 30 degrees, in Earth-fixed coordinates. -/
noncomputable def highPoint : Vec := ![2 * axisA, Real.sqrt 3 * axisA, 0]

/-- The point opposite to the site. -/
noncomputable def lowPoint : Vec := ![-axisA, 0, 0]

/-- A point in the zenith as far away as the Sun. -/
noncomputable def noon : Vec := ![23000 * axisA, 0, 0]

theorem vnorm_itrsToGcrs1 (t : ℝ) (p : Vec) : vnorm (itrsToGcrs1 t p) = vnorm p := by
  obtain ⟨m, hm, h⟩ := gcrsToItrs1_rotation t
  have := itrs_gcrs1 t p
  rw [h] at this
  conv_rhs => rw [← this]
  exact (hm.vnorm _).symm

theorem resolved_of (g : Ground) (t : ℝ) (p : Vec) (h1 : 100 ≤ vnorm (p - g.itrs))
    (h2 : vnorm p ≤ 500 * vnorm (p - g.itrs)) : Resolved g t (itrsToGcrs1 t p) := by
  have h := (elevationAt_eq g t (itrsToGcrs1 t p)).2
  rw [itrs_gcrs1] at h
  unfold Resolved
  rw [← h, vnorm_itrsToGcrs1]
  exact ⟨h1, h2⟩

theorem vnorm_axis (x : ℝ) : vnorm ![x, 0, 0] = |x| := by
  rw [vnorm, ← Real.sqrt_sq_eq_abs]
  congr 1
  simp [dotProduct, Fin.sum_univ_three]
  ring

theorem highPoint_from : highPoint - equator.ground.itrs = ![axisA, Real.sqrt 3 * axisA, 0] := by
  rw [equator_itrs]
  ext i
  fin_cases i <;> simp [highPoint]
  ring

theorem vnorm_high (x : ℝ) (hx : 0 ≤ x) : vnorm ![x, Real.sqrt 3 * x, 0] = 2 * x := by
  rw [vnorm, show (2 : ℝ) * x = Real.sqrt ((2 * x) ^ 2) from (Real.sqrt_sq (by linarith)).symm]
  congr 1
  have h3 := Real.mul_self_sqrt (show (0 : ℝ) ≤ 3 by norm_num)
  simp only [dotProduct, Fin.sum_univ_three, Matrix.cons_val_zero, Matrix.cons_val_one,
    Matrix.cons_val_two, Matrix.head_cons, Matrix.tail_cons]
  linear_combination x ^ 2 * h3

theorem highPoint_resolved (t : ℝ) : Resolved equator.ground t (itrsToGcrs1 t highPoint) := by
  have hA : axisA = 6378.137 := rfl
  refine resolved_of _ _ _ ?_ ?_
  · rw [highPoint_from, vnorm_high _ axisA_pos.le, hA]
    norm_num
  · rw [highPoint_from, vnorm_high _ axisA_pos.le, vnorm]
    refine Real.sqrt_le_iff.2 ⟨by linarith [axisA_pos], ?_⟩
    have h3 := Real.mul_self_sqrt (show (0 : ℝ) ≤ 3 by norm_num)
    have e : highPoint ⬝ᵥ highPoint = 7 * axisA ^ 2 := by
      simp only [highPoint, dotProduct, Fin.sum_univ_three, Matrix.cons_val_zero,
        Matrix.cons_val_one, Matrix.cons_val_two, Matrix.head_cons, Matrix.tail_cons]
      linear_combination axisA ^ 2 * h3
    rw [e]
    nlinarith [sq_nonneg axisA]

theorem axis_from (x : ℝ) : ![x, 0, 0] - equator.ground.itrs = ![x - axisA, 0, 0] := by
  rw [equator_itrs]
  ext i
  fin_cases i <;> simp

theorem lowPoint_resolved (t : ℝ) : Resolved equator.ground t (itrsToGcrs1 t lowPoint) := by
  have hA : axisA = 6378.137 := rfl
  refine resolved_of _ _ _ ?_ ?_ <;> unfold lowPoint <;> rw [axis_from] <;>
    simp only [vnorm_axis, hA] <;> norm_num [abs_of_nonneg, abs_of_neg]

theorem noon_resolved (t : ℝ) : Resolved equator.ground t (itrsToGcrs1 t noon) := by
  have hA : axisA = 6378.137 := rfl
  refine resolved_of _ _ _ ?_ ?_ <;> unfold noon <;> rw [axis_from] <;>
    simp only [vnorm_axis, hA] <;> norm_num [abs_of_nonneg, abs_of_neg]

theorem highPoint_elevation (t : ℝ) :
    elevationAt equator.ground t (itrsToGcrs1 t highPoint) = 30 := by
  have hA := axisA_pos
  rw [(elevationAt_eq _ _ _).1, itrs_gcrs1, trueElevation, InnerProductGeometry.angle, inner_toE,
    norm_toE, norm_toE, highPoint_from, equator_itrs, vnorm_high _ hA.le, vnorm_axis,
    abs_of_pos hA]
  have e : ![axisA, Real.sqrt 3 * axisA, 0] ⬝ᵥ ![axisA, 0, 0] / (2 * axisA * axisA) =
      Real.cos (Real.pi / 3) := by
    rw [Real.cos_pi_div_three]
    simp only [dotProduct, Fin.sum_univ_three, Matrix.cons_val_zero, Matrix.cons_val_one,
      Matrix.cons_val_two, Matrix.head_cons, Matrix.tail_cons]
    field_simp
    ring
  rw [e, Real.arccos_cos (by positivity) (by linarith [Real.pi_pos])]
  field_simp
  ring

theorem lowPoint_elevation (t : ℝ) :
    elevationAt equator.ground t (itrsToGcrs1 t lowPoint) = -90 := by
  have hA := axisA_pos
  rw [(elevationAt_eq _ _ _).1, itrs_gcrs1, trueElevation, lowPoint, axis_from, equator_itrs]
  have e : toE ![-axisA - axisA, 0, 0] = (-2 : ℝ) • toE ![axisA, 0, 0] := by
    change toE _ = toE ((-2 : ℝ) • ![axisA, 0, 0])
    congr 1
    ext i
    fin_cases i <;> simp
    ring
  have hne : toE ![axisA, 0, 0] ≠ 0 := by
    intro h
    have := norm_toE ![axisA, 0, 0]
    rw [h, norm_zero, vnorm_axis, abs_of_pos hA] at this
    linarith
  rw [e, InnerProductGeometry.angle_smul_left_of_neg _ _ (by norm_num),
    InnerProductGeometry.angle_neg_self_of_nonzero hne]
  have := Real.pi_pos
  field_simp
  norm_num

/-- Non-vacuity for C117: in double precision a satellite seen from the equator is found when it has
risen between two samples in the year 2023. -/
example : ∃ ws, generateVtws (pipelineScene binary64 power64 equator [2460000, 2460001]
      [itrsToGcrs1 2460000 lowPoint, itrsToGcrs1 2460001 highPoint] (fun t => itrsToGcrs1 t noon)
      [0, 0]) 10 .anytime = .ok ws ∧ ∃ w ∈ ws, w.rise < 2460001 ∧ 2460001 ≤ w.set := by
  have hs : slack = 1.5 / 10 ^ 5 := rfl
  refine C117_windows_found_partial (k := 1) (t := 2460001)
    (r := itrsToGcrs1 2460001 highPoint) binary64_setup equator_valid rfl rfl (by simp; norm_num)
    (by norm_num) (by norm_num) ?_ ?_ rfl rfl ?_ ?_ trivial
  · intro j q x hq hx
    match j with
    | 0 =>
      cases hq
      cases hx
      refine ⟨by norm_num [ThisCentury, abs_le], ?_, noon_resolved _⟩
      exact_mod_cast lowPoint_resolved 2460000
    | 1 =>
      cases hq
      cases hx
      refine ⟨by norm_num [ThisCentury, abs_le], ?_, noon_resolved _⟩
      exact_mod_cast highPoint_resolved 2460001
    | j + 2 => simp at hq
  · intro q x hq hx
    cases hq
    cases hx
    have := lowPoint_elevation 2460000
    push_cast
    rw [this, hs]
    norm_num
  · have := highPoint_elevation 2460001
    push_cast
    rw [this, hs]
    norm_num
  · have := highPoint_elevation 2460001
    push_cast
    rw [this, hs]
    norm_num

end Celest.Windows
