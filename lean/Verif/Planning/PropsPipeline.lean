/-
C118: planning from inertial positions to observations in floating-point arithmetic.
-/
import Verif.Planning.PropsRounded
import Verif.Planning.PropsBetween
import Verif.Windows.PropsPipeline

namespace Celest.Planning.Rounded

open Celest.Schedule Celest.Windows Celest.Schedule.Rounded Celest.Frames

/-- A scheduler for a satellite with inertial positions in kilometres and sites given by their
geodetic coordinates, everything computed by the machine (scheduler.py 51-76). -/
noncomputable def pipelineMission (M : Machine) (pw : ℝ → ℕ → ℝ) (site : ℕ → Site) (times : List ℚ)
    (points : List Vec) (sun : ℝ → Vec) (pitch : ℕ → List ℚ) (threshold : ℝ) : Mission ℝ :=
  ⟨fun loc => pipelineScene M pw (site loc) times points sun (pitch loc), threshold⟩

/-! ### Specification -/

/-- The sample times are floats between 1900 and 2100, more than a nanosecond apart. -/
def SampleTimes (times : List ℚ) : Prop :=
  times.Pairwise (fun t t' => t + nanosecond ≤ t') ∧
    ∀ t ∈ times, ThisCentury t ∧ IsFloat (binaryRound 53) t

/-- At the sample time `t` the satellite, at `r`, is above the mask of the site and the Sun on the
requested side of its horizon, in inertial geometry, but for 0.000015 degrees. -/
def InView (s : Site) (threshold : ℝ) (sun : ℝ → Vec) (lighting : Lighting) (t : ℚ) (r : Vec) :
    Prop :=
  threshold - slack < elevationAt s.ground t r ∧ SunWithinSlack s.ground sun t lighting

variable {M : Machine} {pw : ℝ → ℕ → ℝ} {site : ℕ → Site} {times : List ℚ} {points : List Vec}
  {sun : ℝ → Vec} {pitch : ℕ → List ℚ} {threshold : ℝ}

theorem pipelineMission_sound (ht : SampleTimes times) (hl : points.length = times.length)
    (hp : ∀ loc, (pitch loc).length = times.length) :
    SoundFloats (pipelineMission M pw site times points sun pitch threshold) := by
  intro loc
  refine ⟨pipeline_wf hl (hp loc), ht.1, fun t hm => ?_⟩
  obtain ⟨h1, h2⟩ := ht.2 t hm
  unfold ThisCentury at h1
  rw [abs_le] at h1
  have a1 : (0 : ℝ) ≤ (t : ℝ) := by linarith
  have a2 : (t : ℝ) ≤ 3000000 := by linarith
  exact ⟨by exact_mod_cast a1, by exact_mod_cast a2, h2⟩

/-- **C118.** Planning in floating-point arithmetic from end to end: after any history of
`add_request` and `generate` calls, for any arguments and draws, every observation `generate` returns
is of the location and duration of a request made, ends less than a nanosecond after its deadline,
and at the instant of every position of the satellite during the observation the satellite is above
the mask of the observed site and the Sun on the requested side of its horizon, in inertial geometry,
but for 0.000015 degrees. -/
theorem C118_observations (S : Setup M pw (1 / 2 ^ 53)) (hs : ∀ loc, (site loc).Valid)
    (ht : SampleTimes times) (hl : points.length = times.length)
    (hp : ∀ loc, (pitch loc).length = times.length)
    (hres : ∀ (loc k : ℕ) (t : ℚ) (r : Vec), times[k]? = some t → points[k]? = some r →
      Resolved (site loc).ground t r ∧ Resolved (site loc).ground t (sun t))
    (calls : List Call) (hx : ∀ x, Call.add x ∈ calls → Reasonable x) (a : GenerateArgs)
    (ws : List Observation)
    (h : (Schedule.Rounded.generate (binaryRound 53) (run (binaryRound 53)
      (pipelineMission M pw site times points sun pitch threshold) calls) a).1 = .ok ws) :
    ∀ o ∈ ws, ∃ x, Call.add x ∈ calls ∧ o.location = x.location ∧ o.duration = x.duration ∧
      o.start + o.duration / 86400 < x.deadline + nanosecond ∧
      ∀ (k : ℕ) (t : ℚ) (r : Vec), times[k]? = some t → points[k]? = some r → o.start ≤ t →
        t ≤ o.start + o.duration / 86400 →
        InView (site o.location) threshold sun x.lighting t r := by
  obtain ⟨served, h1, h2⟩ := C108_float_observations_see_their_targets _
    (pipelineMission_sound ht hl hp) calls hx a ws h
  intro o ho
  obtain ⟨x, hxs, c1, c2, c3, c4, -⟩ := Forall₂.mem_right h2 ho
  refine ⟨x, (mem_accepted (h1.subset hxs)).1, c1, c2, c3, fun k t r hk hr h3 h4 => ?_⟩
  rw [c1]
  obtain ⟨q1, q2⟩ := hres x.location k t r hk hr
  exact pipeline_within S (hs _) hk hr (ht.2 t (List.mem_of_getElem? hk)).1 q1 q2 (c4 k t hk h3 h4)

/-- Elevations and zenith angles. -/
theorem zenithAngle_lt {g : Ground} {t c : ℝ} {r : Vec} :
    c < elevationAt g t r ↔ zenithAngle g (gcrsToItrs1 t r) < TimeScale.rad (90 - c) := by
  have hpi := Real.pi_pos
  rw [(elevationAt_eq g t r).1, trueElevation]
  change c < 90 - zenithAngle g (gcrsToItrs1 t r) * (180 / Real.pi) ↔ _
  unfold TimeScale.rad
  rw [lt_sub_comm, mul_div_assoc', div_lt_iff₀ hpi, mul_div_assoc', lt_div_iff₀ (by norm_num)]

theorem lt_zenithAngle {g : Ground} {t c : ℝ} {r : Vec} :
    elevationAt g t r < c ↔ TimeScale.rad (90 - c) < zenithAngle g (gcrsToItrs1 t r) := by
  have hpi := Real.pi_pos
  rw [(elevationAt_eq g t r).1, trueElevation]
  change 90 - zenithAngle g (gcrsToItrs1 t r) * (180 / Real.pi) < c ↔ _
  unfold TimeScale.rad
  rw [sub_lt_comm, mul_div_assoc', lt_div_iff₀ hpi, mul_div_assoc', div_lt_iff₀ (by norm_num)]

theorem sunWithin_of {g : Ground} {lighting : Lighting} {t : ℝ}
    (h : SunWithinSlack g sun t lighting) :
    SunWithin g (TimeScale.rad slack) (gcrsToItrs1 t (sun t)) lighting := by
  cases lighting with
  | anytime => trivial
  | invalid => exact h
  | day =>
    have := zenithAngle_lt.1 (show -slack < _ from h)
    unfold SunWithin
    unfold TimeScale.rad at *
    linarith
  | night =>
    have := lt_zenithAngle.1 (show _ < slack from h)
    unfold SunWithin
    unfold TimeScale.rad at *
    linarith

/-- **C118.** At every instant of an observation, sampled or not, the satellite is above the mask
but for 0.000015 degrees and the angle it can cover between two samples, and the Sun on the requested
side of the horizon likewise. -/
theorem C118_every_instant (S : Setup M pw (1 / 2 ^ 53)) (hs : ∀ loc, (site loc).Valid)
    (ht : SampleTimes times) (hp : ∀ loc, (pitch loc).length = times.length) (path : ℝ → Vec)
    (hpath : points = times.map fun t : ℚ => path t)
    (hres : ∀ (loc : ℕ), ∀ t ∈ times, Resolved (site loc).ground t (path t) ∧
      Resolved (site loc).ground t (sun t))
    (V W gap : ℝ) (d e : ℕ → ℝ) (hgap : GapsAtMost times gap)
    (hsat : ∀ loc, Track (fun t => gcrsToItrs1 t (path t)) (site loc).ground V (d loc))
    (hsun : ∀ loc, Track (fun t => gcrsToItrs1 t (sun t)) (site loc).ground W (e loc))
    (calls : List Call) (hx : ∀ x, Call.add x ∈ calls → Reasonable x) (a : GenerateArgs)
    (ws : List Observation)
    (h : (Schedule.Rounded.generate (binaryRound 53) (run (binaryRound 53)
      (pipelineMission M pw site times points sun pitch threshold) calls) a).1 = .ok ws) :
    ∀ o ∈ ws, ∃ x, Call.add x ∈ calls ∧ o.location = x.location ∧ o.duration = x.duration ∧
      ∀ τ : ℝ, (o.start : ℝ) ≤ τ → τ ≤ o.start + o.duration / 86400 →
        zenithAngle (site o.location).ground (gcrsToItrs1 τ (path τ)) <
            TimeScale.rad (90 - (threshold - slack)) + V / d o.location * gap ∧
          SunWithin (site o.location).ground (TimeScale.rad slack + W / e o.location * gap)
            (gcrsToItrs1 τ (sun τ)) x.lighting := by
  have hl : points.length = times.length := by rw [hpath, List.length_map]
  have hinc : times.Pairwise (· < ·) :=
    ht.1.imp fun hab => by unfold nanosecond at hab; linarith
  obtain ⟨served, h1, h2⟩ := C108_float_observations_see_their_targets _
    (pipelineMission_sound ht hl hp) calls hx a ws h
  intro o ho
  obtain ⟨x, hxs, c1, c2, -, -, i, j, tᵢ, tⱼ, hi, hj, hlt, h3, h4, hvis, -⟩ :=
    Forall₂.mem_right h2 ho
  refine ⟨x, (mem_accepted (h1.subset hxs)).1, c1, c2, fun τ hτ1 hτ2 => ?_⟩
  rw [c1]
  change times[i]? = some tᵢ at hi
  change times[j]? = some tⱼ at hj
  -- a visible sample at most `gap` away
  obtain ⟨k, t, hk, k1, k2, hd⟩ : ∃ (k : ℕ) (t : ℚ), times[k]? = some t ∧ i < k ∧ k ≤ j ∧
      |τ - t| ≤ gap := by
    by_cases hτj : τ ≤ tⱼ
    · obtain ⟨k, u, v, k1, k2, hu, hv, huτ, hvτ⟩ := between_samples times τ i (j - i) tᵢ tⱼ hi
        (by rw [Nat.add_sub_cancel' hlt.le]; exact hj)
        (lt_of_lt_of_le (by exact_mod_cast h3) hτ1) hτj
      have hg := hgap k u v hu hv
      refine ⟨k + 1, v, hv, by omega, by omega, ?_⟩
      rw [abs_le]
      constructor <;> linarith
    · refine ⟨j, tⱼ, hj, hlt, le_rfl, ?_⟩
      obtain ⟨q, hq⟩ : ∃ q, times[j - 1]? = some q := by
        obtain ⟨hlen, -⟩ := List.getElem?_eq_some_iff.1 hj
        exact ⟨_, List.getElem?_eq_getElem (by omega)⟩
      have hg := hgap (j - 1) q tⱼ hq (by rw [Nat.sub_add_cancel (by omega)]; exact hj)
      obtain ⟨l1, e1⟩ := List.getElem?_eq_some_iff.1 hq
      obtain ⟨l2, e2⟩ := List.getElem?_eq_some_iff.1 hj
      have hn := List.pairwise_iff_getElem.1 ht.1 (j - 1) j l1 l2 (by omega)
      rw [e1, e2] at hn
      have hn' : (q : ℝ) + nanosecond ≤ tⱼ := by exact_mod_cast hn
      have h4' : ((o.start + o.duration / 86400 : ℚ) : ℝ) < (tⱼ : ℝ) + nanosecond := by
        exact_mod_cast h4
      push_cast at h4'
      rw [abs_le]
      constructor <;> linarith
  have htm := List.mem_of_getElem? hk
  have hr : points[k]? = some (path t) := by rw [hpath, List.getElem?_map, hk]; rfl
  obtain ⟨q1, q2⟩ := hres x.location t htm
  obtain ⟨v1, v2⟩ := pipeline_within S (hs _) hk hr (ht.2 t htm).1 q1 q2 (hvis k k1 k2)
  constructor
  · have r0 := zenithAngle_lt.1 v1
    have r1 := (abs_le.1 (C113_rate (hsat x.location) τ t)).2
    have r2 := mul_le_mul_of_nonneg_left hd
      (div_nonneg (hsat x.location).speed_nonneg (hsat x.location).pos.le)
    change _ < TimeScale.rad (90 - (threshold - slack)) at r0
    linarith
  · exact (sunWithin_of v2).later (q := fun t => gcrsToItrs1 t (sun t)) (hsun x.location) hd

/-! ### concrete data -/

/-- A straight path past the site on the equator, below its horizon at first, in Earth-fixed
coordinates. -/
noncomputable def flyby (t : ℝ) : Vec :=
  ![axisA + axisA * (2 * (t - 2460000) - 1), axisA, 0]

theorem flyby_from (t : ℝ) :
    flyby t - equator.ground.itrs = ![axisA * (2 * (t - 2460000) - 1), axisA, 0] := by
  rw [equator_itrs]
  ext i
  fin_cases i <;> simp [flyby]

theorem vnorm_plane (x : ℝ) : vnorm ![axisA * x, axisA, 0] = axisA * Real.sqrt (x ^ 2 + 1) := by
  have hA := axisA_pos
  rw [vnorm, show axisA * Real.sqrt (x ^ 2 + 1) = Real.sqrt (axisA ^ 2 * (x ^ 2 + 1)) by
    rw [Real.sqrt_mul (by positivity), Real.sqrt_sq hA.le]]
  congr 1
  simp [dotProduct, Fin.sum_univ_three]
  ring

theorem one_le_root (x : ℝ) : 1 ≤ Real.sqrt (x ^ 2 + 1) :=
  Real.one_le_sqrt.2 (by nlinarith [sq_nonneg x])

theorem flyby_track :
    Track (fun t => gcrsToItrs1 t (itrsToGcrs1 t (flyby t))) equator.ground (2 * axisA) axisA where
  pos := axisA_pos
  speed a b := by
    simp only [itrs_gcrs1]
    have e : flyby a - flyby b = ![2 * axisA * (a - b), 0, 0] := by
      ext i
      fin_cases i <;> simp [flyby]
      ring
    rw [e, vnorm_axis, abs_mul, abs_of_pos (by linarith [axisA_pos] : 0 < 2 * axisA)]
  range a := by
    simp only [itrs_gcrs1]
    rw [flyby_from, vnorm_plane]
    have := one_le_root (2 * (a - 2460000) - 1)
    nlinarith [axisA_pos]

theorem noon_track :
    Track (fun t => gcrsToItrs1 t (itrsToGcrs1 t noon)) equator.ground 0 axisA where
  pos := axisA_pos
  speed a b := by
    simp only [itrs_gcrs1, sub_self]
    rw [(vnorm_eq_zero 0).2 rfl]
    simp
  range a := by
    simp only [itrs_gcrs1, noon]
    rw [axis_from, vnorm_axis]
    refine le_trans ?_ (le_abs_self _)
    linarith [axisA_pos]

theorem flyby_resolved (t : ℝ) : Resolved equator.ground t (itrsToGcrs1 t (flyby t)) := by
  have hA : axisA = 6378.137 := rfl
  have hA0 := axisA_pos
  have h1 := one_le_root (2 * (t - 2460000) - 1)
  have h2 : axisA ≤ vnorm (flyby t - equator.ground.itrs) := by
    rw [flyby_from, vnorm_plane]
    nlinarith
  refine resolved_of _ _ _ (by linarith) ?_
  have h3 := vnorm_add (flyby t - equator.ground.itrs) equator.ground.itrs
  rw [sub_add_cancel] at h3
  have h4 : vnorm equator.ground.itrs = axisA := by
    rw [equator_itrs, vnorm_axis, abs_of_pos hA0]
  linarith

theorem flyby_cos (t : ℝ) : zenithAngle equator.ground (gcrsToItrs1 t (itrsToGcrs1 t (flyby t))) =
    Real.arccos ((2 * (t - 2460000) - 1) / Real.sqrt ((2 * (t - 2460000) - 1) ^ 2 + 1)) := by
  have hA := axisA_pos
  have h1 := one_le_root (2 * (t - 2460000) - 1)
  rw [itrs_gcrs1, zenithAngle, InnerProductGeometry.angle, inner_toE, norm_toE, norm_toE,
    flyby_from, vnorm_plane, equator_itrs, vnorm_axis, abs_of_pos hA]
  congr 1
  simp only [dotProduct, Fin.sum_univ_three, Matrix.cons_val_zero, Matrix.cons_val_one,
    Matrix.cons_val_two, Matrix.head_cons, Matrix.tail_cons]
  field_simp
  ring

theorem flyby_low : elevationAt equator.ground 2460000 (itrsToGcrs1 2460000 (flyby 2460000)) <
    10 - slack := by
  have hs : slack = 1.5 / 10 ^ 5 := rfl
  rw [lt_zenithAngle, flyby_cos]
  have h : Real.pi / 2 ≤ Real.arccos ((2 * ((2460000 : ℝ) - 2460000) - 1) /
      Real.sqrt ((2 * ((2460000 : ℝ) - 2460000) - 1) ^ 2 + 1)) := by
    rw [← Real.arccos_zero]
    refine Real.arccos_le_arccos ?_
    exact div_nonpos_of_nonpos_of_nonneg (by norm_num) (Real.sqrt_nonneg _)
  refine lt_of_lt_of_le ?_ h
  have := Real.pi_pos
  unfold TimeScale.rad
  rw [hs]
  linarith

theorem flyby_high (t : ℝ) (h1 : 2460001 ≤ t) (h2 : t ≤ 2460003) :
    10 + slack < elevationAt equator.ground t (itrsToGcrs1 t (flyby t)) ∧
      elevationAt equator.ground t (itrsToGcrs1 t (flyby t)) < 90 - slack := by
  have hs : slack = 1.5 / 10 ^ 5 := rfl
  have hpi := Real.pi_pos
  have hpi4 := Real.pi_le_four
  rw [zenithAngle_lt, lt_zenithAngle, flyby_cos]
  set x := 2 * (t - 2460000) - 1 with hx
  have hx1 : 1 ≤ x := by linarith
  have hx2 : x ≤ 5 := by linarith
  have hr0 : 0 < Real.sqrt (x ^ 2 + 1) := by positivity
  have hr1 := Real.sq_sqrt (show 0 ≤ x ^ 2 + 1 by positivity)
  set r := Real.sqrt (x ^ 2 + 1) with hr
  constructor
  · -- at most 60 degrees from the zenith
    have h : Real.arccos (x / r) ≤ Real.pi / 3 := by
      rw [← Real.arccos_cos (x := Real.pi / 3) (by positivity) (by linarith),
        Real.cos_pi_div_three]
      refine Real.arccos_le_arccos ?_
      rw [div_le_div_iff₀ (by norm_num) hr0]
      nlinarith
    refine lt_of_le_of_lt h ?_
    unfold TimeScale.rad
    rw [hs]
    linarith
  · have h : 1 / 6 ≤ Real.arccos (x / r) := by
      have h3 : Real.sin (Real.arccos (x / r)) ≤ Real.arccos (x / r) :=
        Real.sin_le (Real.arccos_nonneg _)
      refine le_trans ?_ h3
      rw [Real.sin_arccos]
      refine Real.le_sqrt_of_sq_le ?_
      rw [div_pow x r 2, hr1]
      have e : 1 - x ^ 2 / (x ^ 2 + 1) = 1 / (x ^ 2 + 1) := by field_simp; ring
      rw [e, le_div_iff₀ (by positivity)]
      nlinarith
    refine lt_of_lt_of_le ?_ h
    unfold TimeScale.rad
    rw [hs]
    linarith

/-- Four days in 2023. -/
def fourDays : List ℚ := [2460000, 2460001, 2460002, 2460003]

theorem fourDays_times : SampleTimes fourDays := by
  refine ⟨by decide +kernel, fun t ht => ⟨?_, ?_⟩⟩
  · simp only [fourDays, List.mem_cons, List.not_mem_nil, or_false] at ht
    unfold ThisCentury
    rw [abs_le]
    rcases ht with rfl | rfl | rfl | rfl <;> push_cast <;> norm_num
  · revert t
    decide +kernel

/-- The scheduler for that path in double precision. -/
noncomputable def flybyMission : Mission ℝ :=
  pipelineMission binary64 power64 (fun _ => equator) fourDays
    (fourDays.map fun t : ℚ => itrsToGcrs1 t (flyby t)) (fun t => itrsToGcrs1 t noon)
    (fun _ => [0, 0, 0, 0]) 10

/-- Two requests for observations of 14.4 hours. -/
def flybyCalls : List Call :=
  [.add ⟨0, 2460008, 51840, 5, 1, none, .anytime⟩, .add ⟨0, 2460008, 51840, 5, 1, none, .anytime⟩]

theorem flybyMission_scene : flybyMission.scene 0 = pipelineScene binary64 power64 equator fourDays
    (fourDays.map fun t : ℚ => itrsToGcrs1 t (flyby t)) (fun t => itrsToGcrs1 t noon)
    [0, 0, 0, 0] := rfl

theorem flyby_windows : generateVtws (flybyMission.scene 0) 10 .anytime =
    .ok [⟨2460000, 2460003, fourDays, [0, 0, 0, 0]⟩] := by
  rw [flybyMission_scene]
  set points := fourDays.map fun t : ℚ => itrsToGcrs1 t (flyby t) with hpts
  have hget : ∀ (k : ℕ) (t : ℚ), fourDays[k]? = some t →
      points[k]? = some (itrsToGcrs1 t (flyby t)) := by
    intro k t hk
    rw [hpts, List.getElem?_map, hk]
    rfl
  have hlen : points.length = fourDays.length := by rw [hpts, List.length_map]
  have hS := binary64_setup
  have hc := fun (t : ℚ) ht => (fourDays_times.2 t ht).1
  clear_value points
  have wf : (pipelineScene binary64 power64 equator fourDays points (fun t => itrsToGcrs1 t noon)
      [0, 0, 0, 0]).WellFormed := pipeline_wf hlen (by simp [fourDays])
  have high : ∀ (k : ℕ) (t : ℚ), fourDays[k]? = some t → (2460001 : ℝ) ≤ t → (t : ℝ) ≤ 2460003 →
      Visible (pipelineScene binary64 power64 equator fourDays points
        (fun t => itrsToGcrs1 t noon) [0, 0, 0, 0]) 10 .anytime k := by
    intro k t hk h1 h2
    obtain ⟨e1, e2⟩ := flyby_high t h1 h2
    exact pipeline_beyond hS equator_valid hk (hget k t hk)
      (hc t (List.mem_of_getElem? hk)) (flyby_resolved t) (noon_resolved t) (by norm_num) e1 e2
      trivial
  have low : ¬ Visible (pipelineScene binary64 power64 equator fourDays points
      (fun t => itrsToGcrs1 t noon) [0, 0, 0, 0]) 10 .anytime 0 := by
    intro hv
    have := (pipeline_within (k := 0) (t := 2460000) hS equator_valid rfl (hget 0 2460000 rfl)
      (hc 2460000 (by simp [fourDays])) (flyby_resolved _) (noon_resolved _) hv).1
    have h0 := flyby_low
    push_cast at this
    linarith
  refine generateVtws_four wf rfl rfl (by norm_num) (by decide) fun k hk => ?_
  match k with
  | 0 => exact iff_of_false low (by simp)
  | 1 => exact iff_of_true (high 1 2460001 rfl (by norm_num) (by norm_num)) (by simp)
  | 2 => exact iff_of_true (high 2 2460002 rfl (by norm_num) (by norm_num)) (by simp)
  | 3 => exact iff_of_true (high 3 2460003 rfl (by norm_num) (by norm_num)) (by simp)

/-- Non-vacuity for C118: all hypotheses of both theorems are met, an observation is returned, and
a sample falls into it. -/
example : (∀ x, Call.add x ∈ flybyCalls → Reasonable x) ∧ SampleTimes fourDays ∧
    GapsAtMost fourDays 1 ∧
    Track (fun t => gcrsToItrs1 t (itrsToGcrs1 t (flyby t))) equator.ground (2 * axisA) axisA ∧
    Track (fun t => gcrsToItrs1 t (itrsToGcrs1 t noon)) equator.ground 0 axisA ∧
    (∀ t ∈ fourDays, Resolved equator.ground t (itrsToGcrs1 t (flyby t)) ∧
      Resolved equator.ground t (itrsToGcrs1 t noon)) ∧
    ∃ o : Observation, (Schedule.Rounded.generate (binaryRound 53)
      (run (binaryRound 53) flybyMission flybyCalls) (args (fun _ => 0) (-1) [])).1 = .ok [o] ∧
      o.start ≤ 2460002 ∧ 2460002 ≤ o.start + o.duration / 86400 := by
  refine ⟨?_, fourDays_times, ?_, flyby_track, noon_track,
    fun t _ => ⟨flyby_resolved t, noon_resolved t⟩, ?_⟩
  · intro x hx
    simp only [flybyCalls, List.mem_cons, List.not_mem_nil, or_false, Call.add.injEq,
      or_self] at hx
    subst hx
    exact ⟨by decide +kernel, by norm_num, by norm_num⟩
  · intro k a b ha hb
    match k with
    | 0 => cases ha; cases hb; norm_num
    | 1 => cases ha; cases hb; norm_num
    | 2 => cases ha; cases hb; norm_num
    | k + 3 => simp [fourDays] at hb
  · refine ⟨⟨binaryRound 53 (24600018 / 10), 51840, 0, []⟩, ?_, by decide +kernel, by decide +kernel⟩
    rw [run_operations]
    have e : flybyMission.threshold = 10 := rfl
    simp only [flybyCalls, List.filterMap_cons, List.filterMap_nil, operation, e, flyby_windows,
      Target.submission]
    decide +kernel

end Celest.Planning.Rounded
