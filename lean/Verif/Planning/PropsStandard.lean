/-
C144: windows and observations against the standard reduction.
-/
import Verif.Planning.PropsHorizon
import Verif.Frames.PropsReduction
import Verif.Windows.PropsLook

namespace Celest.Windows

open Celest.Schedule (VTW)
open Celest.Frames Celest.TimeScale Matrix

/-! ### Specification -/

/-- The elevation in degrees of the inertial position `r` at an instant above the horizon of the
station, the Earth being oriented as the standard reduction says. -/
noncomputable def standardElevation (g : Ground) (t : ℝ) (r : Vec) : ℝ :=
  90 - InnerProductGeometry.angle (toE (standardItrs t r - g.itrs)) (toE (up g)) * (180 / Real.pi)

/-- What celest may be off by, in degrees: 0.2 for the vertical of the station, and 0.06 times the
ratio of the distances from the centre of the Earth and from the station for the orientation of the
Earth. -/
noncomputable def leeway (g : Ground) (t : ℝ) (r : Vec) : ℝ :=
  0.2 + 0.06 * (‖toE r‖ / ‖toE (standardItrs t r - g.itrs)‖)

/-- The Sun is on the required side of the horizon but for the leeway. -/
def SunStandard (g : Ground) (sun : ℝ → Vec) (t : ℝ) : Lighting → Prop
  | .day => -leeway g t (sun t) < standardElevation g t (sun t)
  | .night => standardElevation g t (sun t) < leeway g t (sun t)
  | .anytime => True
  | .invalid => False

/-- The Sun is on the required side of the horizon by the leeway, and not that close to zenith or
nadir. -/
def SunStandardClear (g : Ground) (sun : ℝ → Vec) (t : ℝ) : Lighting → Prop
  | .day => leeway g t (sun t) < standardElevation g t (sun t) ∧
      standardElevation g t (sun t) < 90 - leeway g t (sun t)
  | .night => standardElevation g t (sun t) < -leeway g t (sun t) ∧
      leeway g t (sun t) - 90 < standardElevation g t (sun t)
  | .anytime => True
  | .invalid => False

/-! ### The two elevations -/

/-- Two vectors that differ by less than their length enclose an angle of at most 90 degrees times
the ratio. -/
theorem angle_ratio {a b : Vec} {δ : ℝ} (hδ : δ < vnorm a) (hab : vnorm (a - b) ≤ δ) :
    InnerProductGeometry.angle (toE a) (toE b) * (180 / Real.pi) ≤ 90 * (δ / vnorm a) := by
  have hp := Real.pi_pos
  have h0 : 0 ≤ δ := (vnorm_nonneg _).trans hab
  have ha : 0 < vnorm a := h0.trans_lt hδ
  have e : ‖toE a - toE b‖ = vnorm (a - b) := by
    rw [← norm_toE]
    rfl
  have h1 := angle_le_arcsin (toE a) (toE b) (vnorm a) δ ha (norm_toE a).ge (by rw [e]; exact hab) hδ
  obtain ⟨x, hx⟩ : ∃ x, x = δ / vnorm a := ⟨_, rfl⟩
  have x0 : 0 ≤ x := by rw [hx]; positivity
  have x1 : x ≤ 1 := by rw [hx, div_le_one ha]; exact hδ.le
  rw [← hx] at h1 ⊢
  have h2 : Real.arcsin x ≤ Real.pi / 2 * x := by
    rw [Real.arcsin_le_iff_le_sin ⟨by linarith, x1⟩ ⟨by nlinarith, by nlinarith⟩]
    have := Real.mul_le_sin (x := Real.pi / 2 * x) (by positivity) (by nlinarith)
    calc x = 2 / Real.pi * (Real.pi / 2 * x) := by field_simp
      _ ≤ _ := this
  have h3 := mul_le_mul_of_nonneg_right (h1.trans h2) (show 0 ≤ 180 / Real.pi by positivity)
  calc _ ≤ _ := h3
    _ = 90 * x := by field_simp; ring

/-- The direction of a position as celest converts it and by the standard reduction. -/
theorem direction_standard (g : Ground) (t : ℝ) (r : Vec) (ht : ThisCentury t)
    (hr : 0.00065 * ‖toE r‖ < ‖toE (standardItrs t r - g.itrs)‖) :
    InnerProductGeometry.angle (toE (standardItrs t r - g.itrs)) (toE (gcrsToItrs1 t r - g.itrs)) *
      (180 / Real.pi) ≤ 0.0585 * (‖toE r‖ / ‖toE (standardItrs t r - g.itrs)‖) := by
  have hc := C134_near_standard_reduction_partial 1 t (by unfold WithinCenturies; rw [mul_one]; exact ht)
    le_rfl r
  rw [dist_comm, dist_toE] at hc
  rw [norm_toE, norm_toE] at hr
  have h := angle_ratio (a := standardItrs t r - g.itrs) (b := gcrsToItrs1 t r - g.itrs) hr (by
    rw [sub_sub_sub_cancel_right]
    refine hc.trans (le_of_eq ?_)
    rw [norm_toE]
    norm_num)
  refine h.trans (le_of_eq ?_)
  rw [norm_toE, norm_toE]
  ring

/-- A position that celest resolves is far enough from the station. -/
theorem resolved_standard {g : Ground} {t : ℝ} {r : Vec} (ht : ThisCentury t)
    (hr : Resolved g t r) : 0.00065 * ‖toE r‖ < ‖toE (standardItrs t r - g.itrs)‖ := by
  obtain ⟨r1, r2⟩ := hr
  have hc := C134_near_standard_reduction_partial 1 t (by unfold WithinCenturies; rw [mul_one]; exact ht)
    le_rfl r
  rw [dist_toE] at hc
  rw [← (elevationAt_eq g t r).2] at r1 r2
  rw [norm_toE] at hc ⊢
  rw [norm_toE]
  have h := vnorm_add_le (gcrsToItrs1 t r - standardItrs t r) (standardItrs t r - g.itrs)
  rw [sub_add_sub_cancel] at h
  norm_num at hc ⊢
  linarith

theorem elevation_standard {g : Ground} {t : ℝ} {r : Vec} (hh : -1 ≤ g.height) (ht : ThisCentury t)
    (hr : Resolved g t r) : |elevationAt g t r - standardElevation g t r| ≤ leeway g t r - 0.004 := by
  have hp := Real.pi_pos
  have h1 := elevation_horizon g t r hh
  have h2 := direction_standard g t r ht (resolved_standard ht hr)
  have h3 : |horizonElevation g t r - standardElevation g t r| ≤
      0.0585 * (‖toE r‖ / ‖toE (standardItrs t r - g.itrs)‖) := by
    have e : horizonElevation g t r - standardElevation g t r =
        (InnerProductGeometry.angle (toE (standardItrs t r - g.itrs)) (toE (up g)) -
          InnerProductGeometry.angle (toE (gcrsToItrs1 t r - g.itrs)) (toE (up g))) *
            (180 / Real.pi) := by
      unfold horizonElevation standardElevation
      ring
    have hup : toE (up g) ≠ 0 := by
      intro h
      have := local_size g (n := 0) (e := 0) (u := 1) (k := 1) (by norm_num) (by norm_num)
      rw [← up_local, h, norm_zero] at this
      norm_num at this
    rw [e, abs_mul, abs_of_pos (a := 180 / Real.pi) (by positivity)]
    have h4 := angle_diff (toE (standardItrs t r - g.itrs)) (toE (up g))
      (toE (gcrsToItrs1 t r - g.itrs)) (toE (up g))
    rw [InnerProductGeometry.angle_self hup, add_zero] at h4
    exact (mul_le_mul_of_nonneg_right h4 (by positivity)).trans h2
  have h5 : 0 ≤ ‖toE r‖ / ‖toE (standardItrs t r - g.itrs)‖ := by positivity
  have h6 := abs_sub_le (elevationAt g t r) (horizonElevation g t r) (standardElevation g t r)
  unfold leeway
  generalize ‖toE r‖ / ‖toE (standardItrs t r - g.itrs)‖ = q at h3 h5 ⊢
  norm_num at h1 h3 ⊢
  linarith

theorem sun_standard {g : Ground} {sun : ℝ → Vec} {t : ℝ} {lighting : Lighting} (hh : -1 ≤ g.height)
    (ht : ThisCentury t) (hr : Resolved g t (sun t)) (h : SunWithinSlack g sun t lighting) :
    SunStandard g sun t lighting := by
  have h1 := abs_le.1 (elevation_standard hh ht hr)
  have hs : slack = 1.5 / 10 ^ 5 := rfl
  cases lighting <;> simp only [SunStandard, SunWithinSlack] at h ⊢
  all_goals first | exact h | (rw [hs] at h; norm_num at h1 h ⊢; linarith [h1.1, h1.2])

theorem sun_standard_clear {g : Ground} {sun : ℝ → Vec} {t : ℝ} {lighting : Lighting}
    (hh : -1 ≤ g.height) (ht : ThisCentury t) (hr : Resolved g t (sun t))
    (h : SunStandardClear g sun t lighting) : SunBeyondSlack g sun t lighting := by
  have h1 := abs_le.1 (elevation_standard hh ht hr)
  have hs : slack = 1.5 / 10 ^ 5 := rfl
  cases lighting <;> simp only [SunStandardClear, SunBeyondSlack] at h ⊢
  all_goals first
    | exact h
    | (rw [hs]; norm_num at h1 h ⊢; constructor <;> linarith [h1.1, h1.2, h.1, h.2])

/-! ### Theorems -/

variable {M : Machine} {pw : ℝ → ℕ → ℝ} {s : Site} {times : List ℚ} {points : List Vec}
  {sun : ℝ → Vec} {pitch : List ℚ} {threshold : ℝ} {lighting : Lighting} {k : ℕ} {t : ℚ} {r : Vec}

/-- **C144, partial.** With everything computed in double precision, every sample after the rise time
of a generated window up to its set time has the satellite above the mask, and the Sun on the required
side of the horizon, by the standard reduction, but for the leeway.  Missing: the leeway. -/
theorem C144_windows_partial (S : Setup M pw (1 / 2 ^ 53)) (hs : s.Valid) (hh : -1 ≤ s.height)
    (hl : points.length = times.length) (hp : pitch.length = times.length)
    (hinc : times.Pairwise (· < ·)) {ws : List VTW}
    (hok : generateVtws (pipelineScene M pw s times points sun pitch) threshold lighting = .ok ws)
    {w : VTW} (hw : w ∈ ws) (ht : times[k]? = some t) (hk : points[k]? = some r)
    (hc : ThisCentury t) (hr : Resolved s.ground t r) (hsun : Resolved s.ground t (sun t))
    (hrise : w.rise < t) (hset : t ≤ w.set) :
    threshold - leeway s.ground t r < standardElevation s.ground t r ∧
      SunStandard s.ground sun t lighting := by
  obtain ⟨h1, h2⟩ := C117_windows_partial S hs hl hp hinc hok hw ht hk hc hr hsun hrise hset
  have h3 := abs_le.1 (elevation_standard hh hc hr)
  have e : slack = 1.5 / 10 ^ 5 := rfl
  rw [e] at h1
  refine ⟨?_, sun_standard hh hc hsun h2⟩
  norm_num at h1 h3 ⊢
  linarith [h3.2]

/-- **C144, partial.** Conversely, if the satellite is below the mask by the leeway at the first
sample, every sample that clears the mask, the condition on the Sun and the zenith by the leeway, by
the standard reduction, lies in a generated window. -/
theorem C144_windows_found_partial (S : Setup M pw (1 / 2 ^ 53)) (hs : s.Valid)
    (hh : -1 ≤ s.height)
    (hl : points.length = times.length) (hp : pitch.length = times.length)
    (hinc : times.Pairwise (· < ·)) (h0 : 0 ≤ threshold) (h90 : threshold ≤ 90)
    (hall : ∀ (j : ℕ) (q : ℚ) (x : Vec), times[j]? = some q → points[j]? = some x →
      ThisCentury q ∧ Resolved s.ground q x ∧ Resolved s.ground q (sun q))
    (hfirst : ∀ (q : ℚ) (x : Vec), times[0]? = some q → points[0]? = some x →
      standardElevation s.ground q x < threshold - leeway s.ground q x)
    (ht : times[k]? = some t) (hk : points[k]? = some r)
    (h1 : threshold + leeway s.ground t r < standardElevation s.ground t r)
    (h2 : standardElevation s.ground t r < 90 - leeway s.ground t r)
    (hsun : SunStandardClear s.ground sun t lighting) :
    ∃ ws, generateVtws (pipelineScene M pw s times points sun pitch) threshold lighting = .ok ws ∧
      ∃ w ∈ ws, w.rise < t ∧ t ≤ w.set := by
  have e : slack = 1.5 / 10 ^ 5 := rfl
  obtain ⟨c, hr, hr'⟩ := hall k t r ht hk
  have h3 := abs_le.1 (elevation_standard hh c hr)
  refine C117_windows_found_partial S hs hl hp hinc h0 h90 hall ?_ ht hk ?_ ?_
    (sun_standard_clear hh c hr' hsun)
  · intro q x hq hx
    obtain ⟨c', hx', -⟩ := hall 0 q x hq hx
    have h4 := abs_le.1 (elevation_standard hh c' hx')
    have h5 := hfirst q x hq hx
    rw [e]
    norm_num at h4 h5 ⊢
    linarith [h4.2]
  · rw [e]
    norm_num at h1 h3 ⊢
    linarith [h3.1]
  · rw [e]
    norm_num at h2 h3 ⊢
    linarith [h3.2]

/-- **C144 (failure).** By the standard reduction, a satellite due north of a station in the northern
hemisphere that is above the mask, by up to 0.19 degrees times the sine of twice the latitude less
0.0585 degrees times the ratio of its distances from the centre of the Earth and from the station, is
in no window, in exact arithmetic. -/
theorem C144_missed (c : Cartesian) (v : Position) (s : Satellite) (g : Ground)
    (times : List ℚ) (sun : ℝ → Vec) (pitch : List ℚ) (threshold : ℝ) (lighting : Lighting)
    (hs : Satellite.make (.gcrs c) (some v) = .ok s)
    (ht : c.samples.map (·.1) = times.map fun q : ℚ => (q : ℝ))
    (hp : pitch.length = times.length) (hinc : times.Pairwise (· < ·))
    (h0 : 0 ≤ g.height) (h1 : g.height ≤ 10) (hlat : 0 ≤ Real.sin (2 * g.lat))
    (t : ℚ) (hc : ThisCentury t) (r : Vec) (htr : ((t : ℝ), r) ∈ c.samples) (ρ e : ℝ) (hρ : 0 < ρ)
    (hr : standardItrs t (c.unit • r) = seenAt g ρ 0 e) (ht0 : 0 ≤ threshold)
    (he1 : threshold < e)
    (he2 : e ≤ threshold + 0.19 * Real.sin (2 * g.lat) - 0.0585 * (‖toE (c.unit • r)‖ / ρ))
    (he3 : e ≤ 89) :
    threshold < standardElevation g t (c.unit • r) ∧
    ∀ ws, generateVtws (sceneOf s g times sun pitch) threshold lighting = .ok ws →
      ∀ w ∈ ws, ¬ (w.rise < t ∧ t ≤ w.set) := by
  have hp0 := Real.pi_pos
  constructor
  · have h := horizonElevation_seenAt g t ρ 0 e hρ (by rw [abs_le]; constructor <;> linarith)
    unfold horizonElevation at h
    rw [itrs_gcrs1] at h
    unfold standardElevation
    rw [hr, h]
    exact he1
  · rintro ws hws w hw ⟨w1, w2⟩
    have h := (C88_windows_geometric c v s g times sun pitch threshold lighting ws hs ht hp hinc hws
      w hw t r htr w1 w2).1
    rw [inView_iff, (elevationAt_eq _ _ _).1] at h
    have hm := (elevation_meridian g t ρ e h0 h1 hlat hρ (by linarith) he3).1
    rw [(elevationAt_eq _ _ _).1, itrs_gcrs1] at hm
    have hn : ‖toE (seenAt g ρ 0 e - g.itrs)‖ = ρ := by
      rw [seenAt_local]
      refine local_size g hρ.le ?_
      have hA := Real.sin_sq_add_cos_sq (rad 0)
      have hE := Real.sin_sq_add_cos_sq (rad e)
      linear_combination (ρ ^ 2 * Real.cos (rad e) ^ 2) * hA + ρ ^ 2 * hE
    have hq : ‖toE (c.unit • r)‖ / ρ < 4 := by
      have := Real.sin_le_one (2 * g.lat)
      generalize ‖toE (c.unit • r)‖ / ρ = q at he2 ⊢
      norm_num at he2
      linarith
    rw [div_lt_iff₀ hρ] at hq
    have hd := direction_standard g t (c.unit • r) hc (by rw [hr, hn]; linarith)
    rw [hr, hn] at hd
    have h4 := InnerProductGeometry.angle_le_angle_add_angle (toE (seenAt g ρ 0 e - g.itrs))
      (toE (gcrsToItrs1 t (c.unit • r) - g.itrs)) (toE g.itrs)
    have h5 := mul_le_mul_of_nonneg_right h4 (show 0 ≤ 180 / Real.pi by positivity)
    rw [add_mul] at h5
    unfold trueElevation at h hm
    linarith

/-- Every position is that of some inertial position by the standard reduction. -/
theorem standardItrs_surjective (t : ℝ) (p : Vec) : ∃ v, standardItrs t v = p ∧ vnorm v = vnorm p := by
  obtain ⟨m, hm, he⟩ : ∃ m, Rotation m ∧ ∀ v, standardItrs t v = m *ᵥ v := by
    refine ⟨_, (R3_rotation (rad (15 * gast t))).mul ((standardNutation_rotation
      (rad (meanObliquity t)) (rad (apparentObliquity t)) (arcsec (nutationComponents t).1)).mul
      ((standardPrecession_rotation (arcsec (zetaPrecession t)) (arcsec (thetaPrecession t))
        (arcsec (zPrecession t))).mul bias_rotation)), fun v => ?_⟩
    simp only [← Matrix.mulVec_mulVec]
    rfl
  refine ⟨m⁻¹ *ᵥ p, by rw [he, hm.mulVec_inv], ?_⟩
  rw [← hm.vnorm, hm.mulVec_inv]

/-- Non-vacuity for `C144_missed`: a station at 45 degrees north, the mask at 10 degrees, and a
position at a distance of 100 000 km that is due north at an elevation of 10.1 degrees by the standard
reduction. -/
example : ∃ r : Vec, standardItrs 2460000 r = seenAt (Site.ground ⟨45, 0, 0⟩) 100000 0 10.1 ∧
    (10.1 : ℝ) ≤ 10 + 0.19 * Real.sin (2 * (Site.ground ⟨45, 0, 0⟩).lat) -
      0.0585 * (‖toE r‖ / 100000) := by
  obtain ⟨v, h1, h2⟩ := standardItrs_surjective 2460000
    (seenAt (Site.ground ⟨45, 0, 0⟩) 100000 0 10.1)
  refine ⟨v, h1, ?_⟩
  have hg := station_near (s := ⟨45, 0, 0⟩)
    ⟨by norm_num [abs_le], by norm_num, by norm_num⟩
  have hd : vnorm (seenAt (Site.ground ⟨45, 0, 0⟩) 100000 0 10.1 - (Site.ground ⟨45, 0, 0⟩).itrs) =
      100000 := by
    rw [← norm_toE, seenAt_local]
    refine local_size _ (by norm_num) ?_
    have hA := Real.sin_sq_add_cos_sq (rad 0)
    have hE := Real.sin_sq_add_cos_sq (rad 10.1)
    linear_combination (100000 ^ 2 * Real.cos (rad 10.1) ^ 2) * hA + 100000 ^ 2 * hE
  have h3 := vnorm_add_le (seenAt (Site.ground ⟨45, 0, 0⟩) 100000 0 10.1 -
    (Site.ground ⟨45, 0, 0⟩).itrs) (Site.ground ⟨45, 0, 0⟩).itrs
  rw [sub_add_cancel, hd] at h3
  have e : Real.sin (2 * (Site.ground ⟨45, 0, 0⟩).lat) = 1 := by
    rw [← Real.sin_pi_div_two]
    congr 1
    simp only [Site.ground, rad]
    ring
  rw [e, norm_toE, h2]
  linarith

theorem leeway_small (g : Ground) (t : ℝ) (p : Vec) (ht : ThisCentury t)
    (h1 : 0 < vnorm (p - g.itrs)) (h2 : vnorm p ≤ 2 * vnorm (p - g.itrs)) :
    leeway g t (itrsToGcrs1 t p) ≤ 0.4 := by
  have hc := C134_near_standard_reduction_partial 1 t (by unfold WithinCenturies; rw [mul_one]; exact ht)
    le_rfl (itrsToGcrs1 t p)
  rw [dist_toE, itrs_gcrs1, norm_toE, vnorm_itrsToGcrs1] at hc
  have h := vnorm_add_le (p - standardItrs t (itrsToGcrs1 t p))
    (standardItrs t (itrsToGcrs1 t p) - g.itrs)
  rw [sub_add_sub_cancel] at h
  unfold leeway
  rw [norm_toE, norm_toE, vnorm_itrsToGcrs1]
  norm_num at hc
  have h3 : vnorm p / vnorm (standardItrs t (itrsToGcrs1 t p) - g.itrs) ≤ 3 := by
    rw [div_le_iff₀ (by linarith)]
    linarith
  linarith

/-- Non-vacuity for C144: in double precision a satellite seen from the equator is found when it has
risen between two samples in the year 2023. -/
example : ∃ ws, generateVtws (pipelineScene binary64 power64 equator [2460000, 2460001]
      [itrsToGcrs1 2460000 lowPoint, itrsToGcrs1 2460001 highPoint] (fun t => itrsToGcrs1 t noon)
      [0, 0]) 10 .anytime = .ok ws ∧ ∃ w ∈ ws, w.rise < 2460001 ∧ 2460001 ≤ w.set := by
  have hA : axisA = 6378.137 := rfl
  have hh : -1 ≤ equator.ground.height := by norm_num [equator, Site.ground]
  have c0 : ThisCentury 2460000 := by norm_num [ThisCentury, abs_le]
  have c1 : ThisCentury 2460001 := by norm_num [ThisCentury, abs_le]
  have l0 := leeway_small equator.ground 2460000 lowPoint c0
    (by unfold lowPoint; rw [axis_from, vnorm_axis, hA]; norm_num)
    (by unfold lowPoint; rw [axis_from, vnorm_axis, vnorm_axis, hA]; norm_num)
  have l1 := leeway_small equator.ground 2460001 highPoint c1
    (by rw [highPoint_from, vnorm_high _ axisA_pos.le, hA]; norm_num) (by
      rw [highPoint_from, vnorm_high _ axisA_pos.le, vnorm]
      refine Real.sqrt_le_iff.2 ⟨by linarith [axisA_pos], ?_⟩
      have h3 := Real.mul_self_sqrt (show (0 : ℝ) ≤ 3 by norm_num)
      have e : highPoint ⬝ᵥ highPoint = 7 * axisA ^ 2 := by
        simp only [highPoint, dotProduct, Fin.sum_univ_three, Matrix.cons_val_zero,
          Matrix.cons_val_one, Matrix.cons_val_two, Matrix.head_cons, Matrix.tail_cons]
        linear_combination axisA ^ 2 * h3
      rw [e]
      nlinarith [sq_nonneg axisA])
  have e0 := abs_le.1 (elevation_standard hh c0 (lowPoint_resolved 2460000))
  have e1 := abs_le.1 (elevation_standard hh c1 (highPoint_resolved 2460001))
  rw [lowPoint_elevation] at e0
  rw [highPoint_elevation] at e1
  refine C144_windows_found_partial (k := 1) (t := 2460001)
    (r := itrsToGcrs1 2460001 highPoint) binary64_setup equator_valid hh rfl rfl
    (by simp; norm_num) (by norm_num) (by norm_num) ?_ ?_ rfl rfl ?_ ?_ trivial
  · intro j q x hq hx
    match j with
    | 0 =>
      cases hq
      cases hx
      refine ⟨by norm_num [ThisCentury, abs_le], ?_, noon_resolved _⟩
      exact_mod_cast lowPoint_resolved 2460000
    | 1 =>
      cases hq
      cases hx
      refine ⟨by norm_num [ThisCentury, abs_le], ?_, noon_resolved _⟩
      exact_mod_cast highPoint_resolved 2460001
    | j + 2 => simp at hq
  · intro q x hq hx
    cases hq
    cases hx
    push_cast
    linarith [e0.1, e0.2]
  · push_cast
    linarith [e1.1, e1.2]
  · push_cast
    linarith [e1.1, e1.2]

end Celest.Windows

namespace Celest.Planning.Rounded

open Celest.Schedule Celest.Windows Celest.Schedule.Rounded Celest.Frames

variable {M : Machine} {pw : ℝ → ℕ → ℝ} {site : ℕ → Site} {times : List ℚ} {points : List Vec}
  {sun : ℝ → Vec} {pitch : ℕ → List ℚ} {threshold : ℝ}

/-- **C144, partial.** After any history of calls, at every position of the satellite during an
observation the satellite is above the mask of the observed site, and the Sun on the requested side
of its horizon, by the standard reduction, but for the leeway. -/
theorem C144_observations_partial (S : Setup M pw (1 / 2 ^ 53)) (hs : ∀ loc, (site loc).Valid)
    (hh : ∀ loc, -1 ≤ (site loc).height)
    (ht : SampleTimes times) (hl : points.length = times.length)
    (hp : ∀ loc, (pitch loc).length = times.length)
    (hres : ∀ (loc k : ℕ) (t : ℚ) (r : Vec), times[k]? = some t → points[k]? = some r →
      Resolved (site loc).ground t r ∧ Resolved (site loc).ground t (sun t))
    (calls : List Call) (hx : ∀ x, Call.add x ∈ calls → Reasonable x) (a : GenerateArgs)
    (ws : List Observation)
    (h : (Schedule.Rounded.generate (binaryRound 53) (run (binaryRound 53)
      (pipelineMission M pw site times points sun pitch threshold) calls) a).1 = .ok ws) :
    ∀ o ∈ ws, ∃ x, Call.add x ∈ calls ∧ o.location = x.location ∧ o.duration = x.duration ∧
      o.start + o.duration / 86400 < x.deadline + nanosecond ∧
      ∀ (k : ℕ) (t : ℚ) (r : Vec), times[k]? = some t → points[k]? = some r → o.start ≤ t →
        t ≤ o.start + o.duration / 86400 →
        threshold - leeway (site o.location).ground t r <
            standardElevation (site o.location).ground t r ∧
          SunStandard (site o.location).ground sun t x.lighting := by
  intro o ho
  obtain ⟨x, x1, x2, x3, x4, x5⟩ := C118_observations S hs ht hl hp hres calls hx a ws h o ho
  refine ⟨x, x1, x2, x3, x4, fun k t r hk hr h1 h2 => ?_⟩
  obtain ⟨y1, y2⟩ := x5 k t r hk hr h1 h2
  obtain ⟨z1, z2⟩ := hres o.location k t r hk hr
  have c := (ht.2 t (List.mem_of_getElem? hk)).1
  have h3 := abs_le.1 (elevation_standard (hh _) c z1)
  have e : slack = 1.5 / 10 ^ 5 := rfl
  rw [e] at y1
  refine ⟨?_, sun_standard (hh _) c z2 y2⟩
  norm_num at y1 h3 ⊢
  linarith [h3.2]

/-- The hypotheses of `C144_observations_partial` are those of C118, which its example meets, and one
on the height of the sites, which it meets as well. -/
example : -1 ≤ equator.height := by norm_num [equator]

end Celest.Planning.Rounded
