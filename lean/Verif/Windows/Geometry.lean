/-
C88: window generation applied to a satellite and a station, stated in the inertial frame.
-/
import Verif.Windows.PropsLighting
import Verif.Frames.PropsSatellite
import Verif.Frames.PropsTriangle

namespace Celest.Windows

open Celest.Schedule (VTW)
open Celest.Frames Celest.TimeScale Matrix

/-- The scene of `generate_vtws(satellite, location, …)` (window_generator.py 74-79, 109-137).
`times` are the stored times of the satellite's positions.  `sun` is the ephemeris: the GCRS
position of the Sun in kilometres (`_get_sun_gcrs`, window_generator.py 120-131, not modelled
further).  The elevations are those of `Coordinate.convert_to(AzEl, location)`. -/
noncomputable def sceneOf (s : Satellite) (g : Ground) (times : List ℚ) (sun : ℝ → Vec)
    (pitch : List ℚ) : Scene ℝ :=
  { hasVelocity := s.velocity.isSome
    julian := times
    elevation := s.points.map fun v => elevation v g
    sunElevation := times.map fun t : ℚ => elevation (gcrsToItrs1 t (sun t)) g
    pitch := pitch }

/-! ### Specification -/

/-- The inertial position of the station at an instant. -/
noncomputable def stationAt (g : Ground) (t : ℝ) : Vec := itrsToGcrs1 t g.itrs

/-- At an instant, the direction from the station to the point `r` (inertial, kilometres) makes
an angle of less than `90 - threshold` degrees with the station's zenith, which is the direction
from the centre of the Earth to the station. -/
def InView (g : Ground) (threshold t : ℝ) (r : Vec) : Prop :=
  InnerProductGeometry.angle (toE (r - stationAt g t)) (toE (stationAt g t)) <
    rad (90 - threshold)

/-- At an instant, the Sun is above (day) or below (night) the plane through the station
perpendicular to its zenith. -/
def SunOk (g : Ground) (sun : ℝ → Vec) (t : ℝ) : Lighting → Prop
  | .day => 0 < (sun t - stationAt g t) ⬝ᵥ stationAt g t
  | .night => (sun t - stationAt g t) ⬝ᵥ stationAt g t < 0
  | .anytime => True
  | .invalid => False

/-! ### Lemmas -/

/-- The elevation exceeds a threshold exactly if the zenith angle is below its complement. -/
theorem elevation_gt_iff (sat : Vec) (g : Ground) (threshold : ℝ) (h0 : 0 ≤ threshold) :
    (∃ e, elevation sat g = some e ∧ threshold < e) ↔
      InnerProductGeometry.angle (toE (sat - g.itrs)) (toE g.itrs) < rad (90 - threshold) := by
  have hpi := Real.pi_pos
  unfold elevation rad
  by_cases hz : sat - g.itrs = 0 ∨ g.itrs = 0
  · rw [(getAng_none _ _).2 hz]
    have ha : InnerProductGeometry.angle (toE (sat - g.itrs)) (toE g.itrs) = Real.pi / 2 := by
      rcases hz with hz | hz
      · rw [hz]; exact InnerProductGeometry.angle_zero_left _
      · rw [hz]; exact InnerProductGeometry.angle_zero_right _
    rw [ha]
    constructor
    · rintro ⟨e, he, -⟩; cases he
    · intro h; exfalso; nlinarith
  · rw [not_or] at hz
    rw [getAng_eq _ _ hz.1 hz.2]
    simp only [Option.map_some, Option.some.injEq, exists_eq_left']
    generalize InnerProductGeometry.angle (toE (sat - g.itrs)) (toE g.itrs) = a
    have e1 : a = a * (180 / Real.pi) * (Real.pi / 180) := by field_simp
    constructor
    · intro h
      rw [e1]
      exact mul_lt_mul_of_pos_right (by linarith) (by positivity)
    · intro h
      rw [e1] at h
      have := lt_of_mul_lt_mul_right h (by positivity)
      linarith

/-- The sign of the elevation is the side of the horizon plane. -/
theorem elevation_sign (sat : Vec) (g : Ground) :
    ((∃ e, elevation sat g = some e ∧ 0 < e) ↔ 0 < (sat - g.itrs) ⬝ᵥ g.itrs) ∧
    ((∃ e, elevation sat g = some e ∧ e < 0) ↔ (sat - g.itrs) ⬝ᵥ g.itrs < 0) := by
  have hpi := Real.pi_pos
  unfold elevation
  by_cases hz : sat - g.itrs = 0 ∨ g.itrs = 0
  · rw [(getAng_none _ _).2 hz]
    have ha : (sat - g.itrs) ⬝ᵥ g.itrs = 0 := by
      rcases hz with hz | hz
      · rw [hz, zero_dotProduct]
      · rw [hz, dotProduct_zero]
    simp [ha]
  · rw [not_or] at hz
    rw [getAng_eq _ _ hz.1 hz.2, ← inner_toE]
    simp only [Option.map_some, Option.some.injEq, exists_eq_left']
    have hn : 0 < ‖toE (sat - g.itrs)‖ * ‖toE g.itrs‖ :=
      mul_pos (norm_pos_iff.2 (toE_ne hz.1)) (norm_pos_iff.2 (toE_ne hz.2))
    have k1 : InnerProductGeometry.angle (toE (sat - g.itrs)) (toE g.itrs) < Real.pi / 2 ↔
        0 < inner ℝ (toE (sat - g.itrs)) (toE g.itrs) := by
      rw [InnerProductGeometry.angle, Real.arccos_lt_pi_div_two]
      exact div_pos_iff_of_pos_right hn
    have k2 : InnerProductGeometry.angle (toE (sat - g.itrs)) (toE g.itrs) ≤ Real.pi / 2 ↔
        0 ≤ inner ℝ (toE (sat - g.itrs)) (toE g.itrs) := by
      rw [InnerProductGeometry.angle, Real.arccos_le_pi_div_two]
      constructor
      · intro h
        have := mul_nonneg h hn.le
        rwa [div_mul_cancel₀ _ hn.ne'] at this
      · intro h
        exact div_nonneg h hn.le
    generalize InnerProductGeometry.angle (toE (sat - g.itrs)) (toE g.itrs) = a at k1 k2
    have d1 : a * (180 / Real.pi) < 90 ↔ a < Real.pi / 2 := by
      rw [mul_div_assoc', div_lt_iff₀ hpi]
      constructor <;> intro h <;> linarith
    have d2 : a * (180 / Real.pi) ≤ 90 ↔ a ≤ Real.pi / 2 := by
      rw [mul_div_assoc', div_le_iff₀ hpi]
      constructor <;> intro h <;> linarith
    constructor
    · rw [← k1, ← d1, sub_pos]
    · rw [← not_le, ← not_le, sub_nonneg, d2, k2]

/-- Conversion to the Earth-fixed frame is one rotation that takes the station's inertial position
to its Earth-fixed position. -/
theorem to_itrs_rotation (g : Ground) (t : ℝ) : ∃ m : Mat, Rotation m ∧
    (∀ v, gcrsToItrs1 t v = m *ᵥ v) ∧ m *ᵥ stationAt g t = g.itrs := by
  obtain ⟨m, hm, h1⟩ := gcrsToItrs1_rotation t
  exact ⟨m, hm, h1, by rw [← h1, stationAt, itrs_gcrs1]⟩

/-- Visibility of a sample in terms of the inertial positions. -/
theorem visible_iff (c : Cartesian) (v : Position) (s : Satellite) (g : Ground) (times : List ℚ)
    (sun : ℝ → Vec) (pitch : List ℚ) (threshold : ℝ) (lighting : Lighting)
    (hs : Satellite.make (.gcrs c) (some v) = .ok s)
    (ht : c.samples.map (·.1) = times.map fun q : ℚ => (q : ℝ)) (h0 : 0 ≤ threshold)
    (k : ℕ) (t : ℚ) (r : Vec) (hk : c.samples[k]? = some ((t : ℝ), r)) :
    Visible (sceneOf s g times sun pitch) threshold lighting k ↔
      InView g threshold t (c.unit • r) ∧ SunOk g sun t lighting := by
  have hp : s.position = gcrsToItrs c := by
    cases v <;> simp [Satellite.make, toItrs] at hs <;> rw [← hs]
  obtain ⟨m, hm, h1, h2⟩ := to_itrs_rotation g t
  have htk : times[k]? = some t := by
    have := congrArg (·[k]?) ht
    simp only [List.getElem?_map, hk, Option.map_some] at this
    obtain ⟨q, hq, hqt⟩ := Option.map_eq_some_iff.1 this.symm
    rw [hq]
    exact congrArg some (by exact_mod_cast hqt)
  have hel : (sceneOf s g times sun pitch).elevation[k]? =
      some (elevation (m *ᵥ (c.unit • r)) g) := by
    simp only [sceneOf, Satellite.points, hp, gcrsToItrs, List.getElem?_map, hk, Option.map_some]
    rw [h1, Matrix.mulVec_smul]
  have hsun : (sceneOf s g times sun pitch).sunElevation[k]? =
      some (elevation (m *ᵥ sun t) g) := by
    simp only [sceneOf, List.getElem?_map, htk, Option.map_some]
    rw [h1]
  have hdiff : ∀ x : Vec, m *ᵥ x - g.itrs = m *ᵥ (x - stationAt g t) := by
    intro x; rw [Matrix.mulVec_sub, h2]
  have hview : (∃ e, (sceneOf s g times sun pitch).elevation[k]? = some (some e) ∧
      threshold < e) ↔ InView g threshold t (c.unit • r) := by
    rw [hel]
    simp only [Option.some.injEq]
    rw [elevation_gt_iff _ _ _ h0, InView, hdiff, ← h2]
    unfold InnerProductGeometry.angle
    rw [inner_toE, norm_toE, norm_toE, inner_toE, norm_toE, norm_toE, hm.vnorm, hm.vnorm, hm.dot]
  have hdot : (m *ᵥ sun t - g.itrs) ⬝ᵥ g.itrs =
      (sun t - stationAt g t) ⬝ᵥ stationAt g t := by
    rw [hdiff, ← h2, hm.dot]
  unfold Visible
  rw [hview]
  refine and_congr_right fun _ => ?_
  cases lighting with
  | anytime => exact Iff.rfl
  | invalid => exact Iff.rfl
  | day =>
    simp only [Lit, hsun, Option.some.injEq, SunOk]
    rw [(elevation_sign _ _).1, hdot]
  | night =>
    simp only [Lit, hsun, Option.some.injEq, SunOk]
    rw [(elevation_sign _ _).2, hdot]

/-- The scene of a satellite is well formed. -/
theorem sceneOf_wf (c : Cartesian) (v : Position) (s : Satellite) (g : Ground) (times : List ℚ)
    (sun : ℝ → Vec) (pitch : List ℚ) (hs : Satellite.make (.gcrs c) (some v) = .ok s)
    (ht : c.samples.map (·.1) = times.map fun q : ℚ => (q : ℝ))
    (hp : pitch.length = times.length) :
    (sceneOf s g times sun pitch).WellFormed ∧
      (sceneOf s g times sun pitch).hasVelocity = true := by
  have hl : c.samples.length = times.length := by
    simpa using congrArg List.length ht
  have hp' : s.position = gcrsToItrs c ∧ s.velocity.isSome := by
    cases v <;> simp [Satellite.make, toItrs] at hs <;> rw [← hs] <;> exact ⟨rfl, rfl⟩
  refine ⟨⟨?_, ?_, hp⟩, hp'.2⟩
  · simp [sceneOf, Satellite.points, hp'.1, gcrsToItrs, hl]
  · simp [sceneOf]

/-- Only thresholds of 0 to 90 degrees and the three lighting conditions return windows. -/
theorem ok_threshold {K : Type} [LinearOrder K] [Zero K] [OfNat K 90] (sc : Scene K)
    (threshold : K) (lighting : Lighting) (ws : List VTW)
    (h : generateVtws sc threshold lighting = .ok ws) : 0 ≤ threshold ∧ threshold ≤ 90 := by
  unfold generateVtws at h
  split at h
  · cases h
  · split at h
    · cases h
    · rename_i hb
      simpa [not_or] using hb

/-- The time of a sample is the time at its position. -/
theorem time_at {c : Cartesian} {times : List ℚ}
    (ht : c.samples.map (·.1) = times.map fun q : ℚ => (q : ℝ)) {k : ℕ} {t : ℚ} {r : Vec}
    (hk : c.samples[k]? = some ((t : ℝ), r)) : times[k]? = some t := by
  have := congrArg (·[k]?) ht
  simp only [List.getElem?_map, hk, Option.map_some] at this
  obtain ⟨q, hq, hqt⟩ := Option.map_eq_some_iff.1 this.symm
  rw [hq]
  exact congrArg some (by exact_mod_cast hqt)

/-! ### C88 -/

/-- **C88.** For a satellite given by inertial (GCRS) positions in any length unit, every sample
after the rise time of a generated window up to and including its set time has the satellite
above the station's elevation mask, and the Sun on the required side of the horizon, in the
geometry of the inertial frame. -/
theorem C88_windows_geometric (c : Cartesian) (v : Position) (s : Satellite) (g : Ground)
    (times : List ℚ) (sun : ℝ → Vec) (pitch : List ℚ) (threshold : ℝ) (lighting : Lighting)
    (ws : List VTW) (hs : Satellite.make (.gcrs c) (some v) = .ok s)
    (ht : c.samples.map (·.1) = times.map fun q : ℚ => (q : ℝ))
    (hp : pitch.length = times.length) (hinc : times.Pairwise (· < ·))
    (h : generateVtws (sceneOf s g times sun pitch) threshold lighting = .ok ws)
    (w : VTW) (hw : w ∈ ws) (t : ℚ) (r : Vec) (htr : ((t : ℝ), r) ∈ c.samples)
    (hrise : w.rise < t) (hset : t ≤ w.set) :
    InView g threshold t (c.unit • r) ∧ SunOk g sun t lighting := by
  obtain ⟨k, hk⟩ := List.mem_iff_getElem?.1 htr
  have hwf := (sceneOf_wf c v s g times sun pitch hs ht hp).1
  refine (visible_iff c v s g times sun pitch threshold lighting hs ht
    (ok_threshold _ _ _ _ h).1 k t r hk).1 ?_
  exact C79_contains_only_visible_partial _ hwf threshold lighting ws h hinc w hw k t
    (time_at ht hk) hrise hset

/-- **C88.** Conversely, if the first sample is not such a sample, every sample with the satellite
above the mask and the Sun on the required side lies in a generated window. -/
theorem C88_windows_complete (c : Cartesian) (v : Position) (s : Satellite) (g : Ground)
    (times : List ℚ) (sun : ℝ → Vec) (pitch : List ℚ) (threshold : ℝ) (lighting : Lighting)
    (hs : Satellite.make (.gcrs c) (some v) = .ok s)
    (ht : c.samples.map (·.1) = times.map fun q : ℚ => (q : ℝ))
    (hp : pitch.length = times.length) (hinc : times.Pairwise (· < ·))
    (h0 : 0 ≤ threshold) (h90 : threshold ≤ 90) (hl : lighting ≠ .invalid)
    (hfirst : ∀ t r, c.samples.head? = some (t, r) →
      ¬ (InView g threshold t (c.unit • r) ∧ SunOk g sun t lighting))
    (t : ℚ) (r : Vec) (htr : ((t : ℝ), r) ∈ c.samples)
    (hview : InView g threshold t (c.unit • r)) (hsun : SunOk g sun t lighting) :
    ∃ ws, generateVtws (sceneOf s g times sun pitch) threshold lighting = .ok ws ∧
      ∃ w ∈ ws, w.rise < t ∧ t ≤ w.set := by
  obtain ⟨k, hk⟩ := List.mem_iff_getElem?.1 htr
  obtain ⟨hwf, hvel⟩ := sceneOf_wf c v s g times sun pitch hs ht hp
  have hvis := (visible_iff c v s g times sun pitch threshold lighting hs ht h0 k t r hk).2
    ⟨hview, hsun⟩
  obtain ⟨runs, ws, hok, -⟩ := C23_windows_are_maximal_runs_partial _ hwf threshold lighting hvel
    ⟨h0, h90⟩ hl ⟨k, hvis⟩
  refine ⟨ws, hok, C79_covers_partial _ hwf threshold lighting ws hok hinc ?_ k t
    (time_at ht hk) hvis⟩
  intro hv0
  obtain ⟨⟨t₀, r₀⟩, hs0⟩ : ∃ x, c.samples[0]? = some x := by
    have hlt := (List.getElem?_eq_some_iff.1 hk).1
    exact ⟨_, List.getElem?_eq_getElem (by omega)⟩
  have hq : ∃ q : ℚ, t₀ = q := by
    have := congrArg (·[0]?) ht
    simp only [List.getElem?_map, hs0, Option.map_some] at this
    obtain ⟨q, -, hqt⟩ := Option.map_eq_some_iff.1 this.symm
    exact ⟨q, hqt.symm⟩
  obtain ⟨q, rfl⟩ := hq
  exact hfirst _ _ (by rw [List.head?_eq_getElem?]; exact hs0)
    ((visible_iff c v s g times sun pitch threshold lighting hs ht h0 0 q r₀ hs0).1 hv0)

/-- Non-vacuity for C88: for every station of non-negative height, a satellite that is first on the
other side of the Earth and then in the station's zenith is found by one window. -/
example (g : Ground) (hg : 0 ≤ g.height) (v : Cartesian) (sun : ℝ → Vec) :
    ∃ (s : Satellite) (ws : List VTW),
      Satellite.make (.gcrs ⟨1, [(0, (-2 : ℝ) • stationAt g 0), (1, (2 : ℝ) • stationAt g 1)]⟩)
        (some (.gcrs v)) = .ok s ∧
      generateVtws (sceneOf s g [0, 1] sun [0, 0]) 10 .anytime = .ok ws ∧
      ∃ w ∈ ws, w.rise < 1 ∧ 1 ≤ w.set := by
  have hne : ∀ t, stationAt g t ≠ 0 := by
    intro t h0
    obtain ⟨m, -, -, h2⟩ := to_itrs_rotation g t
    rw [h0, Matrix.mulVec_zero] at h2
    exact itrs_ne_zero g hg h2.symm
  have hpi := Real.pi_pos
  have hr : 0 < rad (90 - 10) ∧ rad (90 - 10) < Real.pi := by
    unfold rad
    constructor
    · positivity
    · linarith
  obtain ⟨s, hs⟩ : ∃ s, Satellite.make (.gcrs ⟨1, [(0, (-2 : ℝ) • stationAt g 0),
      (1, (2 : ℝ) • stationAt g 1)]⟩) (some (.gcrs v)) = .ok s := ⟨_, rfl⟩
  have h0 : ¬ InView g 10 0 ((1 : ℝ) • (-2 : ℝ) • stationAt g 0) := by
    have e : (1 : ℝ) • (-2 : ℝ) • stationAt g 0 - stationAt g 0 = (-3 : ℝ) • stationAt g 0 := by
      module
    have e2 : toE ((-3 : ℝ) • stationAt g 0) = (-3 : ℝ) • toE (stationAt g 0) := rfl
    rw [InView, e, e2, InnerProductGeometry.angle_smul_left_of_neg _ _ (by norm_num),
      InnerProductGeometry.angle_neg_self_of_nonzero (toE_ne (hne 0))]
    linarith [hr.2]
  have h1 : InView g 10 1 ((1 : ℝ) • (2 : ℝ) • stationAt g 1) := by
    have e : (1 : ℝ) • (2 : ℝ) • stationAt g 1 - stationAt g 1 = stationAt g 1 := by
      module
    rw [InView, e, InnerProductGeometry.angle_self (toE_ne (hne 1))]
    exact hr.1
  have hc := C88_windows_complete _ _ s g [0, 1] sun [0, 0] 10 .anytime hs (by simp) rfl
    (by decide +kernel) (by norm_num) (by norm_num) (by decide)
    (by
      rintro t r htr ⟨hv, -⟩
      simp only [List.head?_cons, Option.some.injEq, Prod.mk.injEq] at htr
      obtain ⟨rfl, rfl⟩ := htr
      exact h0 hv)
    1 ((2 : ℝ) • stationAt g 1) (by simp) (by simpa using h1) trivial
  obtain ⟨ws, hok, hw⟩ := hc
  exact ⟨s, ws, hs, hok, hw⟩

/-- **C88.** The windows do not depend on the unit of length, nor on whether the positions are given
in the inertial or in the Earth-fixed frame. -/
theorem C88_unit_and_frame_irrelevant (c : Cartesian) (v : Position) (a : ℝ) (ha : a ≠ 0)
    (s : Satellite) (g : Ground) (times : List ℚ) (sun : ℝ → Vec) (pitch : List ℚ)
    (threshold : ℝ) (lighting : Lighting) (hs : Satellite.make (.gcrs c) (some v) = .ok s) :
    ∃ s₁ s₂,
      Satellite.make (.gcrs ⟨c.unit / a, c.samples.map fun x => (x.1, a • x.2)⟩) (some v) = .ok s₁ ∧
      Satellite.make (.itrs ⟨c.unit, c.samples.map fun x => (x.1, gcrsToItrs1 x.1 x.2)⟩)
        (some v) = .ok s₂ ∧
      generateVtws (sceneOf s₁ g times sun pitch) threshold lighting =
        generateVtws (sceneOf s g times sun pitch) threshold lighting ∧
      generateVtws (sceneOf s₂ g times sun pitch) threshold lighting =
        generateVtws (sceneOf s g times sun pitch) threshold lighting := by
  have hp' : ∃ w, toItrs v = .ok w ∧ s = ⟨gcrsToItrs c, some w⟩ := by
    cases v <;> simp [Satellite.make, toItrs] at hs <;> exact ⟨_, rfl, hs.symm⟩
  obtain ⟨w, hw, rfl⟩ := hp'
  refine ⟨_, _, by simp only [Satellite.make, toItrs.eq_2, hw]; rfl,
    by simp only [Satellite.make, toItrs.eq_1, hw]; rfl, ?_, ?_⟩
  · congr 1
    simp only [sceneOf, Satellite.points, gcrsToItrs, List.map_map]
    congr 1
    apply List.map_congr_left
    intro x _
    obtain ⟨m, -, h1⟩ := gcrsToItrs1_rotation x.1
    simp only [Function.comp, h1, Matrix.mulVec_smul, smul_smul, div_mul_cancel₀ _ ha]
  · rfl

end Celest.Windows
