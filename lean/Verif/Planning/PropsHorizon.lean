/-
C137: windows and observations against the horizon of the station.
-/
import Verif.Planning.PropsPipeline
import Verif.Frames.PropsCompass

namespace Celest.Windows

open Celest.Schedule (VTW)
open Celest.Frames Celest.TimeScale Matrix

/-! ### Specification -/

/-- The elevation in degrees of the inertial position `r` at an instant above the horizon of the
station: the complement of the angle between its direction and the normal of the ellipsoid. -/
noncomputable def horizonElevation (g : Ground) (t : ℝ) (r : Vec) : ℝ :=
  90 - InnerProductGeometry.angle (toE (gcrsToItrs1 t r - g.itrs)) (toE (up g)) * (180 / Real.pi)

/-- The Sun is on the required side of the horizon but for 0.2 degrees. -/
def SunNear (g : Ground) (sun : ℝ → Vec) (t : ℝ) : Lighting → Prop
  | .day => -0.2 < horizonElevation g t (sun t)
  | .night => horizonElevation g t (sun t) < 0.2
  | .anytime => True
  | .invalid => False

/-- The Sun is on the required side of the horizon by 0.2 degrees, and not that close to zenith or
nadir. -/
def SunClear (g : Ground) (sun : ℝ → Vec) (t : ℝ) : Lighting → Prop
  | .day => 0.2 < horizonElevation g t (sun t) ∧ horizonElevation g t (sun t) < 89.8
  | .night => horizonElevation g t (sun t) < -0.2 ∧ -89.8 < horizonElevation g t (sun t)
  | .anytime => True
  | .invalid => False

/-! ### The two elevations -/

theorem up_local (g : Ground) : up g = local3 g 0 0 1 := by
  unfold local3
  simp

theorem elevation_horizon (g : Ground) (t : ℝ) (r : Vec) (hh : -1 ≤ g.height) :
    |elevationAt g t r - horizonElevation g t r| ≤ 0.1954 := by
  have hp := Real.pi_pos
  rw [(elevationAt_eq g t r).1]
  unfold trueElevation horizonElevation
  have h2 := angle_vertical g hh
  rw [← up_local] at h2
  obtain ⟨d, hd⟩ : ∃ d, d = toE (gcrsToItrs1 t r - g.itrs) := ⟨_, rfl⟩
  rw [← hd]
  have h1 : |InnerProductGeometry.angle d (toE g.itrs) - InnerProductGeometry.angle d (toE (up g))| ≤
      0.003408 := by
    by_cases h : d = 0
    · rw [h, InnerProductGeometry.angle_zero_left, InnerProductGeometry.angle_zero_left, sub_self,
        abs_zero]
      norm_num
    · have h3 := angle_diff d (toE g.itrs) d (toE (up g))
      rw [InnerProductGeometry.angle_self h, zero_add,
        InnerProductGeometry.angle_comm (toE g.itrs)] at h3
      exact h3.trans h2
  have e : 90 - InnerProductGeometry.angle d (toE g.itrs) * (180 / Real.pi) -
      (90 - InnerProductGeometry.angle d (toE (up g)) * (180 / Real.pi)) =
      -((InnerProductGeometry.angle d (toE g.itrs) - InnerProductGeometry.angle d (toE (up g))) *
        (180 / Real.pi)) := by ring
  rw [e, abs_neg, abs_mul, abs_of_pos (a := 180 / Real.pi) (by positivity)]
  have h4 : 180 / Real.pi ≤ 57.3 := by
    have := Real.pi_gt_d4
    rw [div_le_iff₀ hp]
    nlinarith
  have h5 := mul_le_mul h1 h4 (by positivity) (by norm_num)
  linarith

/-- What is seen at an elevation is at that elevation. -/
theorem horizonElevation_seenAt (g : Ground) (t ρ A e : ℝ) (hr : 0 < ρ) (he : |e| ≤ 90) :
    horizonElevation g t (itrsToGcrs1 t (seenAt g ρ A e)) = e := by
  have hp := Real.pi_pos
  have he' := abs_le.1 he
  have hA := Real.sin_sq_add_cos_sq (rad A)
  have hE := Real.sin_sq_add_cos_sq (rad e)
  have sz : (ρ * (Real.cos (rad e) * Real.cos (rad A))) ^ 2 +
      (ρ * (Real.cos (rad e) * Real.sin (rad A))) ^ 2 + (ρ * Real.sin (rad e)) ^ 2 = ρ ^ 2 := by
    linear_combination (ρ ^ 2 * Real.cos (rad e) ^ 2) * hA + ρ ^ 2 * hE
  unfold horizonElevation
  rw [itrs_gcrs1, up_local, seenAt_local, angle_local, sz, Real.sqrt_sq hr.le]
  have : (ρ * (Real.cos (rad e) * Real.cos (rad A)) * 0 +
      ρ * (Real.cos (rad e) * Real.sin (rad A)) * 0 + ρ * Real.sin (rad e) * 1) /
      (ρ * Real.sqrt (0 ^ 2 + 0 ^ 2 + 1 ^ 2)) = Real.cos (Real.pi / 2 - rad e) := by
    rw [Real.cos_pi_div_two_sub]
    norm_num
    field_simp
  rw [this, Real.arccos_cos]
  · unfold rad
    field_simp
    ring
  · unfold rad
    nlinarith
  · unfold rad
    nlinarith

theorem sun_near {g : Ground} {sun : ℝ → Vec} {t : ℝ} {lighting : Lighting} (hh : -1 ≤ g.height)
    (h : SunWithinSlack g sun t lighting) : SunNear g sun t lighting := by
  have h1 := abs_le.1 (elevation_horizon g t (sun t) hh)
  have hs : slack = 1.5 / 10 ^ 5 := rfl
  cases lighting <;> simp only [SunNear, SunWithinSlack] at h ⊢
  all_goals first | exact h | (rw [hs] at h; norm_num at h1 h ⊢; linarith [h1.1, h1.2])

theorem sun_clear {g : Ground} {sun : ℝ → Vec} {t : ℝ} {lighting : Lighting} (hh : -1 ≤ g.height)
    (h : SunClear g sun t lighting) : SunBeyondSlack g sun t lighting := by
  have h1 := abs_le.1 (elevation_horizon g t (sun t) hh)
  have hs : slack = 1.5 / 10 ^ 5 := rfl
  cases lighting <;> simp only [SunClear, SunBeyondSlack] at h ⊢
  all_goals first
    | exact h
    | (rw [hs]; norm_num at h1 h ⊢; constructor <;> linarith [h1.1, h1.2, h.1, h.2])

/-! ### Theorems -/

variable {M : Machine} {pw : ℝ → ℕ → ℝ} {s : Site} {times : List ℚ} {points : List Vec}
  {sun : ℝ → Vec} {pitch : List ℚ} {threshold : ℝ} {lighting : Lighting} {k : ℕ} {t : ℚ} {r : Vec}

/-- **C137, partial.** With everything computed in double precision, every sample after the rise time
of a generated window up to its set time has the satellite above the mask, seen from the horizon of
the station, and the Sun on the required side of that horizon, but for 0.2 degrees.  Missing: these
0.2 degrees. -/
theorem C137_windows_partial (S : Setup M pw (1 / 2 ^ 53)) (hs : s.Valid) (hh : -1 ≤ s.height)
    (hl : points.length = times.length) (hp : pitch.length = times.length)
    (hinc : times.Pairwise (· < ·)) {ws : List VTW}
    (hok : generateVtws (pipelineScene M pw s times points sun pitch) threshold lighting = .ok ws)
    {w : VTW} (hw : w ∈ ws) (ht : times[k]? = some t) (hk : points[k]? = some r)
    (hc : ThisCentury t) (hr : Resolved s.ground t r) (hsun : Resolved s.ground t (sun t))
    (hrise : w.rise < t) (hset : t ≤ w.set) :
    threshold - 0.2 < horizonElevation s.ground t r ∧ SunNear s.ground sun t lighting := by
  obtain ⟨h1, h2⟩ := C117_windows_partial S hs hl hp hinc hok hw ht hk hc hr hsun hrise hset
  have h3 := abs_le.1 (elevation_horizon s.ground t r hh)
  have e : slack = 1.5 / 10 ^ 5 := rfl
  rw [e] at h1
  refine ⟨?_, sun_near hh h2⟩
  norm_num at h1 h3 ⊢
  linarith [h3.2]

/-- **C137, partial.** Conversely, if the satellite is below the mask by 0.2 degrees at the first
sample, every sample that clears the mask, the condition on the Sun and the zenith by 0.2 degrees
lies in a generated window. -/
theorem C137_windows_found_partial (S : Setup M pw (1 / 2 ^ 53)) (hs : s.Valid)
    (hh : -1 ≤ s.height)
    (hl : points.length = times.length) (hp : pitch.length = times.length)
    (hinc : times.Pairwise (· < ·)) (h0 : 0 ≤ threshold) (h90 : threshold ≤ 90)
    (hall : ∀ (j : ℕ) (q : ℚ) (x : Vec), times[j]? = some q → points[j]? = some x →
      ThisCentury q ∧ Resolved s.ground q x ∧ Resolved s.ground q (sun q))
    (hfirst : ∀ (q : ℚ) (x : Vec), times[0]? = some q → points[0]? = some x →
      horizonElevation s.ground q x < threshold - 0.2)
    (ht : times[k]? = some t) (hk : points[k]? = some r)
    (h1 : threshold + 0.2 < horizonElevation s.ground t r)
    (h2 : horizonElevation s.ground t r < 89.8) (hsun : SunClear s.ground sun t lighting) :
    ∃ ws, generateVtws (pipelineScene M pw s times points sun pitch) threshold lighting = .ok ws ∧
      ∃ w ∈ ws, w.rise < t ∧ t ≤ w.set := by
  have e : slack = 1.5 / 10 ^ 5 := rfl
  have h3 := abs_le.1 (elevation_horizon s.ground t r hh)
  refine C117_windows_found_partial S hs hl hp hinc h0 h90 hall ?_ ht hk ?_ ?_ (sun_clear hh hsun)
  · intro q x hq hx
    have h4 := abs_le.1 (elevation_horizon s.ground q x hh)
    have h5 := hfirst q x hq hx
    rw [e]
    norm_num at h4 h5 ⊢
    linarith [h4.2]
  · rw [e]
    norm_num at h1 h3 ⊢
    linarith [h3.1]
  · rw [e]
    norm_num at h2 h3 ⊢
    linarith [h3.2]

end Celest.Windows

namespace Celest.Planning.Rounded

open Celest.Schedule Celest.Windows Celest.Schedule.Rounded Celest.Frames

variable {M : Machine} {pw : ℝ → ℕ → ℝ} {site : ℕ → Site} {times : List ℚ} {points : List Vec}
  {sun : ℝ → Vec} {pitch : ℕ → List ℚ} {threshold : ℝ}

/-- **C137, partial.** After any history of calls, at every position of the satellite during an
observation the satellite is above the mask, seen from the horizon of the observed site, and the Sun
on the requested side of that horizon, but for 0.2 degrees. -/
theorem C137_observations_partial (S : Setup M pw (1 / 2 ^ 53)) (hs : ∀ loc, (site loc).Valid)
    (hh : ∀ loc, -1 ≤ (site loc).height)
    (ht : SampleTimes times) (hl : points.length = times.length)
    (hp : ∀ loc, (pitch loc).length = times.length)
    (hres : ∀ (loc k : ℕ) (t : ℚ) (r : Vec), times[k]? = some t → points[k]? = some r →
      Resolved (site loc).ground t r ∧ Resolved (site loc).ground t (sun t))
    (calls : List Call) (hx : ∀ x, Call.add x ∈ calls → Reasonable x) (a : GenerateArgs)
    (ws : List Observation)
    (h : (Schedule.Rounded.generate (binaryRound 53) (run (binaryRound 53)
      (pipelineMission M pw site times points sun pitch threshold) calls) a).1 = .ok ws) :
    ∀ o ∈ ws, ∃ x, Call.add x ∈ calls ∧ o.location = x.location ∧ o.duration = x.duration ∧
      o.start + o.duration / 86400 < x.deadline + nanosecond ∧
      ∀ (k : ℕ) (t : ℚ) (r : Vec), times[k]? = some t → points[k]? = some r → o.start ≤ t →
        t ≤ o.start + o.duration / 86400 →
        threshold - 0.2 < horizonElevation (site o.location).ground t r ∧
          SunNear (site o.location).ground sun t x.lighting := by
  intro o ho
  obtain ⟨x, x1, x2, x3, x4, x5⟩ := C118_observations S hs ht hl hp hres calls hx a ws h o ho
  refine ⟨x, x1, x2, x3, x4, fun k t r hk hr h1 h2 => ?_⟩
  obtain ⟨y1, y2⟩ := x5 k t r hk hr h1 h2
  have h3 := abs_le.1 (elevation_horizon (site o.location).ground t r (hh _))
  have e : slack = 1.5 / 10 ^ 5 := rfl
  rw [e] at y1
  refine ⟨?_, sun_near (hh _) y2⟩
  norm_num at y1 h3 ⊢
  linarith [h3.2]

end Celest.Planning.Rounded

namespace Celest.Windows

open Celest.Schedule (VTW)
open Celest.Frames Celest.TimeScale Matrix

/-! ### The windows are not those of the horizon -/

/-- The elevation of a satellite in the meridian plane, in the northern hemisphere: due north it is
too low, due south too high, by the same angle. -/
theorem elevation_meridian (g : Ground) (t ρ e : ℝ) (h0 : 0 ≤ g.height) (h1 : g.height ≤ 10)
    (hs : 0 ≤ Real.sin (2 * g.lat)) (hr : 0 < ρ) (he0 : 0 ≤ e) (he : e ≤ 89) :
    elevationAt g t (itrsToGcrs1 t (seenAt g ρ 0 e)) ≤ e - 0.19 * Real.sin (2 * g.lat) ∧
    e + 0.19 * Real.sin (2 * g.lat) ≤ elevationAt g t (itrsToGcrs1 t (seenAt g ρ 180 e)) := by
  have hp := Real.pi_pos
  obtain ⟨G, δ, hG, eG, d0, d1, eγ, eν, hδ⟩ := tilt_angle g h0 h1
  rw [abs_of_nonneg hs] at hδ
  have hν : tilt g = -(G * Real.sin δ) := by
    have : tilt g ≤ 0 := by
      unfold tilt
      have e2 : Real.sin g.lat * Real.cos g.lat = Real.sin (2 * g.lat) / 2 := by
        rw [Real.sin_two_mul]
        ring
      rw [e2]
      have := primeVertical_pos g.lat
      have : 0 ≤ ecc ^ 2 * primeVertical g.lat * (Real.sin (2 * g.lat) / 2) := by positivity
      linarith
    rw [abs_of_nonpos this] at eν
    linarith
  have hδ2 : δ ≤ 0.0035 := by
    have h := angle_vertical g (by linarith)
    rw [itrs_local, angle_local, eG, eγ] at h
    have ec : (0 * tilt g + 0 * 0 + 1 * (G * Real.cos δ)) /
        (Real.sqrt (0 ^ 2 + 0 ^ 2 + 1 ^ 2) * G) = Real.cos δ := by
      norm_num
      field_simp
    rw [ec, Real.arccos_cos d0 (by linarith)] at h
    norm_num at h ⊢
    linarith
  have hE := Real.sin_sq_add_cos_sq (rad e)
  have hre : 0 ≤ rad e ∧ rad e ≤ Real.pi / 2 - 0.01 := by
    unfold rad
    have := Real.pi_gt_three
    constructor
    · positivity
    · nlinarith
  have e0 : Real.cos (rad 0) = 1 ∧ Real.sin (rad 0) = 0 := by simp [rad]
  have e180 : Real.cos (rad 180) = -1 ∧ Real.sin (rad 180) = 0 := by
    have : rad 180 = Real.pi := by unfold rad; ring
    rw [this]
    simp
  have deg : ∀ x : ℝ, 90 - (Real.pi / 2 - x) * (180 / Real.pi) = x * (180 / Real.pi) := by
    intro x
    field_simp
    ring
  have er : rad e * (180 / Real.pi) = e := by unfold rad; field_simp
  rw [(elevationAt_eq _ _ _).1, (elevationAt_eq _ _ _).1, itrs_gcrs1, itrs_gcrs1]
  unfold trueElevation
  rw [seenAt_local, seenAt_local, itrs_local, angle_local, angle_local, eG, e0.1, e0.2, e180.1, e180.2]
  have n1 : Real.sqrt ((ρ * (Real.cos (rad e) * 1)) ^ 2 + (ρ * (Real.cos (rad e) * 0)) ^ 2 +
      (ρ * Real.sin (rad e)) ^ 2) = ρ := by
    rw [show (ρ * (Real.cos (rad e) * 1)) ^ 2 + (ρ * (Real.cos (rad e) * 0)) ^ 2 +
      (ρ * Real.sin (rad e)) ^ 2 = ρ ^ 2 by linear_combination ρ ^ 2 * hE, Real.sqrt_sq hr.le]
  have n2 : Real.sqrt ((ρ * (Real.cos (rad e) * -1)) ^ 2 + (ρ * (Real.cos (rad e) * 0)) ^ 2 +
      (ρ * Real.sin (rad e)) ^ 2) = ρ := by
    rw [show (ρ * (Real.cos (rad e) * -1)) ^ 2 + (ρ * (Real.cos (rad e) * 0)) ^ 2 +
      (ρ * Real.sin (rad e)) ^ 2 = ρ ^ 2 by linear_combination ρ ^ 2 * hE, Real.sqrt_sq hr.le]
  rw [n1, n2, hν, eγ]
  have c1 : (ρ * (Real.cos (rad e) * 1) * -(G * Real.sin δ) + ρ * (Real.cos (rad e) * 0) * 0 +
      ρ * Real.sin (rad e) * (G * Real.cos δ)) / (ρ * G) =
      Real.cos (Real.pi / 2 - (rad e - δ)) := by
    rw [Real.cos_pi_div_two_sub, Real.sin_sub]
    field_simp
    ring
  have c2 : (ρ * (Real.cos (rad e) * -1) * -(G * Real.sin δ) + ρ * (Real.cos (rad e) * 0) * 0 +
      ρ * Real.sin (rad e) * (G * Real.cos δ)) / (ρ * G) =
      Real.cos (Real.pi / 2 - (rad e + δ)) := by
    rw [Real.cos_pi_div_two_sub, Real.sin_add]
    field_simp
    ring
  rw [c1, c2, Real.arccos_cos (by linarith [hre.2]) (by linarith [hre.1]),
    Real.arccos_cos (by norm_num at hδ2 hre; linarith [hre.2]) (by linarith [hre.1]), deg, deg, sub_mul,
    add_mul, er]
  constructor <;> linarith

theorem inView_iff (g : Ground) (threshold t : ℝ) (r : Vec) :
    InView g threshold t r ↔ threshold < elevationAt g t r := by
  have hp := Real.pi_pos
  unfold InView elevationAt trueElevation rad
  generalize InnerProductGeometry.angle (toE (r - stationAt g t)) (toE (stationAt g t)) = x
  obtain ⟨y, hy⟩ : ∃ y, y = x * (180 / Real.pi) := ⟨_, rfl⟩
  have hx : x = y * (Real.pi / 180) := by rw [hy]; field_simp
  rw [← hy, hx]
  constructor
  · intro h
    have := lt_of_mul_lt_mul_right h (by positivity)
    linarith
  · intro h
    exact mul_lt_mul_of_pos_right (by linarith) (by positivity)

/-- **C137 (failure).** A satellite due north of a station in the northern hemisphere that is above
the mask by up to 0.19 degrees times the sine of twice the latitude is in no window, in exact
arithmetic. -/
theorem C137_missed (c : Cartesian) (v : Position) (s : Satellite) (g : Ground)
    (times : List ℚ) (sun : ℝ → Vec) (pitch : List ℚ) (threshold : ℝ) (lighting : Lighting)
    (hs : Satellite.make (.gcrs c) (some v) = .ok s)
    (ht : c.samples.map (·.1) = times.map fun q : ℚ => (q : ℝ))
    (hp : pitch.length = times.length) (hinc : times.Pairwise (· < ·))
    (h0 : 0 ≤ g.height) (h1 : g.height ≤ 10) (hlat : 0 ≤ Real.sin (2 * g.lat))
    (t : ℚ) (r : Vec) (htr : ((t : ℝ), r) ∈ c.samples) (ρ e : ℝ) (hρ : 0 < ρ)
    (hr : c.unit • r = itrsToGcrs1 t (seenAt g ρ 0 e)) (ht0 : 0 ≤ threshold) (he1 : threshold < e)
    (he2 : e ≤ threshold + 0.19 * Real.sin (2 * g.lat)) (he3 : e ≤ 89) :
    threshold < horizonElevation g t (c.unit • r) ∧
    ∀ ws, generateVtws (sceneOf s g times sun pitch) threshold lighting = .ok ws →
      ∀ w ∈ ws, ¬ (w.rise < t ∧ t ≤ w.set) := by
  constructor
  · rw [hr, horizonElevation_seenAt g t ρ 0 e hρ (by rw [abs_le]; constructor <;> linarith)]
    exact he1
  · rintro ws hws w hw ⟨w1, w2⟩
    have h := (C88_windows_geometric c v s g times sun pitch threshold lighting ws hs ht hp hinc hws
      w hw t r htr w1 w2).1
    rw [inView_iff, hr] at h
    have := (elevation_meridian g t ρ e h0 h1 hlat hρ (by linarith) he3).1
    linarith

/-- **C137 (failure).** A satellite due south of a station in the northern hemisphere is in a window
while it is still below the mask, by less than 0.19 degrees times the sine of twice the latitude, if
the Sun is right and the first sample is not in view. -/
theorem C137_too_early (c : Cartesian) (v : Position) (s : Satellite) (g : Ground)
    (times : List ℚ) (sun : ℝ → Vec) (pitch : List ℚ) (threshold : ℝ) (lighting : Lighting)
    (hs : Satellite.make (.gcrs c) (some v) = .ok s)
    (ht : c.samples.map (·.1) = times.map fun q : ℚ => (q : ℝ))
    (hp : pitch.length = times.length) (hinc : times.Pairwise (· < ·))
    (h0 : 0 ≤ g.height) (h1 : g.height ≤ 10) (hlat : 0 ≤ Real.sin (2 * g.lat))
    (hl : lighting ≠ .invalid)
    (hfirst : ∀ t r, c.samples.head? = some (t, r) →
      ¬ (InView g threshold t (c.unit • r) ∧ SunOk g sun t lighting))
    (t : ℚ) (r : Vec) (htr : ((t : ℝ), r) ∈ c.samples) (ρ e : ℝ) (hρ : 0 < ρ)
    (hr : c.unit • r = itrsToGcrs1 t (seenAt g ρ 180 e)) (ht0 : threshold ≤ 89) (he0 : 0 ≤ e)
    (he1 : e ≤ threshold) (he2 : threshold < e + 0.19 * Real.sin (2 * g.lat))
    (hsun : SunOk g sun t lighting) :
    horizonElevation g t (c.unit • r) ≤ threshold ∧
    ∃ ws, generateVtws (sceneOf s g times sun pitch) threshold lighting = .ok ws ∧
      ∃ w ∈ ws, w.rise < t ∧ t ≤ w.set := by
  constructor
  · rw [hr, horizonElevation_seenAt g t ρ 180 e hρ (by rw [abs_le]; constructor <;> linarith)]
    exact he1
  · refine C88_windows_complete c v s g times sun pitch threshold lighting hs ht hp hinc
      (by linarith) (by linarith) hl hfirst t r htr ?_ hsun
    rw [inView_iff, hr]
    have := (elevation_meridian g t ρ e h0 h1 hlat hρ he0 (by linarith)).2
    linarith

/-- A station at 45 degrees north, the mask at 10 degrees: elevations of 10.1 degrees due north and of
9.9 degrees due south meet the bounds. -/
example : 0 ≤ Real.sin (2 * (Real.pi / 4)) ∧ (10.1 : ℝ) ≤ 10 + 0.19 * Real.sin (2 * (Real.pi / 4)) ∧
    (10 : ℝ) < 9.9 + 0.19 * Real.sin (2 * (Real.pi / 4)) := by
  rw [show 2 * (Real.pi / 4) = Real.pi / 2 by ring, Real.sin_pi_div_two]
  norm_num

end Celest.Windows
