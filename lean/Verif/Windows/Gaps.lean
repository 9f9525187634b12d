/-
C140: satellites whose positions are missing at some samples.
-/
import Verif.Windows.Geometry
import Verif.Frames.PropsMissing
import Verif.Schedule.PropsMissing

namespace Celest.Windows

open Matrix Celest.Schedule Celest.Frames

/-! ### Model -/

/-- A sample of a satellite given in GCRS; `none` stands for NaN.  Simplified: a position or a
velocity with one NaN coordinate counts as missing.  The rotation of `_gcrs_to_itrs`
(transforms.py 69-73) multiplies all coordinates into every component, so it is NaN altogether. -/
structure GapSample where
  time : ℚ
  position : Option Vec
  velocity : Option Vec

/-- What `generate_vtws` (window_generator.py 72-86) obtains from such a satellite: the elevation
(transforms.py 406-429) of a missing position is NaN.  `unit` is the unit of the positions in
kilometres.  The attitudes with their gaps are `gapAttitude`; `pitch` here fills the field of the
windows that is not used by `tryVtwNan`. -/
noncomputable def gapScene (unit : ℝ) (samples : List GapSample) (g : Ground) (sun : ℝ → Vec)
    (pitch : List ℚ) : Scene ℝ :=
  { hasVelocity := true
    julian := samples.map (·.time)
    elevation := samples.map fun s =>
      s.position.bind fun r => elevation (unit • gcrsToItrs1 s.time r) g
    sunElevation := samples.map fun s => elevation (gcrsToItrs1 s.time (sun s.time)) g
    pitch := pitch }

/-- `Satellite.attitude` (satellite.py 137-199) at such a sample: NaN if the position or the velocity
is. -/
noncomputable def gapAttitude (unit velUnit : ℝ) (g : Ground) (s : GapSample) :
    Option ℝ × Option ℝ × Option ℝ :=
  match s.position, s.velocity with
  | some r, some v =>
    attitudeNan s.time unit velUnit (gcrsToItrs1 s.time r) (gcrsToItrs1 s.time v) g
  | _, _ => (none, none, none)

/-! ### Specification -/

/-- At a sample the position is known, above the mask, and the Sun on the required side. -/
def Seen (unit : ℝ) (g : Ground) (sun : ℝ → Vec) (threshold : ℝ) (lighting : Lighting)
    (s : GapSample) : Prop :=
  ∃ r, s.position = some r ∧ InView g threshold s.time (unit • r) ∧ SunOk g sun s.time lighting

/-- The pitches handed to the scheduler are numbers exactly where the satellite has an attitude. -/
def PitchKnown (unit velUnit : ℝ) (g : Ground) (samples : List GapSample)
    (pitch : List (Option ℚ)) : Prop :=
  List.Forall₂ (fun s p => p.isSome = (gapAttitude unit velUnit g s).2.1.isSome) samples pitch

/-- `full` is the complete series, `samples` the same with some positions missing. -/
def Completes (full samples : List GapSample) : Prop :=
  List.Forall₂ (fun f s => f.time = s.time ∧ (∀ r, s.position = some r → f.position = some r))
    full samples

/-! ### Proofs -/

variable {unit velUnit : ℝ} {g : Ground} {sun : ℝ → Vec} {threshold : ℝ} {lighting : Lighting}
  {samples full : List GapSample} {pitch : List ℚ}

theorem gapScene_wf (hp : pitch.length = samples.length) :
    (gapScene unit samples g sun pitch).WellFormed := by
  simp [Scene.WellFormed, gapScene, hp]

theorem visible_gap (h0 : 0 ≤ threshold) (k : ℕ) (s : GapSample) (hk : samples[k]? = some s) :
    Visible (gapScene unit samples g sun pitch) threshold lighting k ↔
      Seen unit g sun threshold lighting s := by
  obtain ⟨t, p, v⟩ := s
  cases p with
  | none =>
    constructor
    · rintro ⟨⟨e, he, -⟩, -⟩
      simp [gapScene, hk] at he
    · rintro ⟨r, hr, -⟩
      cases hr
  | some r =>
    obtain ⟨c, hc⟩ : ∃ c : Cartesian, c = ⟨unit, samples.map fun s => ((s.time : ℝ),
      s.position.getD 0)⟩ := ⟨_, rfl⟩
    have hck : c.samples[k]? = some ((t : ℝ), r) := by simp [hc, hk]
    have key := visible_iff c (.gcrs c) ⟨gcrsToItrs c, some (gcrsToItrs c)⟩ g
      (samples.map (·.time)) sun pitch threshold lighting rfl
      (by simp [hc, Function.comp_def]) h0 k t r hck
    have hunit : c.unit = unit := by rw [hc]
    have : Visible (gapScene unit samples g sun pitch) threshold lighting k ↔
        Visible (sceneOf ⟨gcrsToItrs c, some (gcrsToItrs c)⟩ g (samples.map (·.time)) sun pitch)
          threshold lighting k := by
      have e1 : (gapScene unit samples g sun pitch).elevation[k]? =
          (sceneOf ⟨gcrsToItrs c, some (gcrsToItrs c)⟩ g (samples.map (·.time)) sun
            pitch).elevation[k]? := by
        simp [gapScene, sceneOf, Satellite.points, gcrsToItrs, hck, hk, hunit]
      have e2 : (gapScene unit samples g sun pitch).sunElevation =
          (sceneOf ⟨gcrsToItrs c, some (gcrsToItrs c)⟩ g (samples.map (·.time)) sun
            pitch).sunElevation := by
        simp [gapScene, sceneOf, Function.comp_def]
      unfold Visible Lit
      rw [e1, e2]
    rw [this, key, hunit]
    simp [Seen]

theorem julian_at (k : ℕ) (t : ℚ)
    (h : (gapScene unit samples g sun pitch).julian[k]? = some t) :
    ∃ s, samples[k]? = some s ∧ s.time = t := by
  simpa [gapScene] using h

/-- **C140.** Windows contain only samples whose position is known and above the mask, with the Sun
on the required side: no window extends over a gap. -/
theorem C140_windows_known_partial (hp : pitch.length = samples.length)
    (hinc : (samples.map (·.time)).Pairwise (· < ·)) (ws : List VTW)
    (h : generateVtws (gapScene unit samples g sun pitch) threshold lighting = .ok ws)
    (w : VTW) (hw : w ∈ ws) (s : GapSample) (hs : s ∈ samples) (hrise : w.rise < s.time)
    (hset : s.time ≤ w.set) : Seen unit g sun threshold lighting s := by
  obtain ⟨k, hk⟩ := List.mem_iff_getElem?.1 hs
  refine (visible_gap (pitch := pitch) (ok_threshold _ _ _ _ h).1 k s hk).1 ?_
  exact C79_contains_only_visible_partial _ (gapScene_wf hp) threshold lighting ws h hinc w hw k
    s.time (by simp [gapScene, hk]) hrise hset

theorem generate_ok (hp : pitch.length = samples.length) (h0 : 0 ≤ threshold)
    (h90 : threshold ≤ 90) (hl : lighting ≠ .invalid) (s : GapSample) (hs : s ∈ samples)
    (hseen : Seen unit g sun threshold lighting s) :
    ∃ ws, generateVtws (gapScene unit samples g sun pitch) threshold lighting = .ok ws := by
  obtain ⟨k, hk⟩ := List.mem_iff_getElem?.1 hs
  obtain ⟨-, ws, hok, -⟩ := C23_windows_are_maximal_runs_partial _ (gapScene_wf hp) threshold lighting rfl
    ⟨h0, h90⟩ hl ⟨k, (visible_gap (pitch := pitch) h0 k s hk).2 hseen⟩
  exact ⟨ws, hok⟩

/-- **C140.** Every sample with a known position above the mask and the Sun on the required side is in
a window, unless the series begins with one. -/
theorem C140_windows_complete_partial (hp : pitch.length = samples.length)
    (hinc : (samples.map (·.time)).Pairwise (· < ·)) (h0 : 0 ≤ threshold) (h90 : threshold ≤ 90)
    (hl : lighting ≠ .invalid)
    (hfirst : ∀ s, samples.head? = some s → ¬ Seen unit g sun threshold lighting s)
    (s : GapSample) (hs : s ∈ samples) (hseen : Seen unit g sun threshold lighting s) :
    ∃ ws, generateVtws (gapScene unit samples g sun pitch) threshold lighting = .ok ws ∧
      ∃ w ∈ ws, w.rise < s.time ∧ s.time ≤ w.set := by
  obtain ⟨ws, hok⟩ := generate_ok (pitch := pitch) hp h0 h90 hl s hs hseen
  obtain ⟨k, hk⟩ := List.mem_iff_getElem?.1 hs
  refine ⟨ws, hok, C79_covers_partial _ (gapScene_wf hp) threshold lighting ws hok hinc ?_ k s.time
    (by simp [gapScene, hk]) ((visible_gap h0 k s hk).2 hseen)⟩
  intro hv
  obtain ⟨s₀, hs₀⟩ : ∃ x, samples[0]? = some x := by
    have hlt := (List.getElem?_eq_some_iff.1 hk).1
    exact ⟨_, List.getElem?_eq_getElem (by omega)⟩
  exact hfirst s₀ (by rw [List.head?_eq_getElem?]; exact hs₀) ((visible_gap h0 0 s₀ hs₀).1 hv)

theorem idxOf_of_increasing {l : List ℚ} (hinc : l.Pairwise (· < ·)) {k : ℕ} {t : ℚ}
    (h : l[k]? = some t) : l.idxOf? t = some k := by
  obtain ⟨hk, he⟩ := List.getElem?_eq_some_iff.1 h
  refine List.idxOf?_eq_some_iff.2 ⟨hk, he, ?_⟩
  intro j hj hjt
  have := List.pairwise_iff_getElem.1 hinc j k (by omega) hk hj
  rw [he, hjt] at this
  exact lt_irrefl _ this

/-- **C140 (failure).** In a window that rises at a sample with a missing position, no request with
a look angle is ever observed, whatever the pitch of the satellite, the angle and the schedule built
so far. -/
theorem C140_look_angles_lost (hp : pitch.length = samples.length)
    (hinc : (samples.map (·.time)).Pairwise (· < ·)) (ws : List VTW)
    (h : generateVtws (gapScene unit samples g sun pitch) threshold lighting = .ok ws)
    (w : VTW) (hw : w ∈ ws) (s : GapSample) (hs : s ∈ samples) (hrise : w.rise = s.time)
    (hgap : s.position = none) (pitches : List (Option ℚ))
    (hpk : PitchKnown unit velUnit g samples pitches) (hd : Handler) (r : Request) (desired : ℚ)
    (hla : r.lookAngle = some (.quantity desired)) : tryVtwNan hd r w pitches = .ok none := by
  obtain ⟨k, hk⟩ := List.mem_iff_getElem?.1 hs
  obtain ⟨runs, -, -, -, h4⟩ := runs_of_ok _ (gapScene_wf hp) threshold lighting ws h
  obtain ⟨⟨a, b⟩, -, -, w2, w3, -⟩ := forall₂_mem_right h4 hw
  have hlen := hpk.length_eq
  have hb := (List.getElem?_eq_some_iff.1 w2).1
  have hb' : b < samples.length := by simpa [gapScene] using hb
  have hinc' : w.attTime.Pairwise (· < ·) := by rw [w3]; exact hinc
  refine (C138_lost_after_gap hd r w pitches desired hla k b
    (idxOf_of_increasing hinc' (by rw [w3, hrise]; simp [gapScene, hk]))
    (idxOf_of_increasing hinc' (by rw [w3]; exact w2)) (by omega) ?_).2
  have hklt := (List.getElem?_eq_some_iff.1 hk).1
  have hget := List.forall₂_iff_get.1 hpk
  have := hget.2 k hklt (by omega)
  have hsk : samples.get ⟨k, hklt⟩ = s := by
    simpa using (List.getElem?_eq_some_iff.1 hk).2
  rw [hsk] at this
  have hn : (gapAttitude unit velUnit g s).2.1 = none := by
    simp [gapAttitude, hgap]
  rw [hn] at this
  rw [List.getElem?_eq_getElem (by omega)]
  simpa using this

/-- **C140.** Attitudes: where position and velocity are known, of a satellite that does not move
along its vertical, the three angles towards a target closer to the centre of the Earth are numbers,
and the rotation by pitch, then roll, then yaw carries the nadir onto the line of sight, whatever is
missing elsewhere.  Where one of them is missing, all three are NaN. -/
theorem C140_attitudes_partial (unit velUnit : ℝ) (hu : 0 < unit) (hv : 0 < velUnit) (g : Ground)
    (s : GapSample) :
    (∀ r v, s.position = some r → s.velocity = some v → r ⨯₃ v ≠ 0 →
      ‖toE g.itrs‖ < ‖toE (unit • r)‖ →
      ∃ roll pitch yaw, gapAttitude unit velUnit g s = (some roll, some pitch, some yaw) ∧
        let n := lvlhMatrix r v *ᵥ (stationAt g s.time - unit • r)
        (R3 yaw * (R1 roll * R2 pitch)) *ᵥ ![0, 0, 1] = ‖toE n‖⁻¹ • n) ∧
    (s.position = none ∨ s.velocity = none →
      gapAttitude unit velUnit g s = (none, none, none)) := by
  refine ⟨fun r v hr hvel hcross hfar => ?_, ?_⟩
  · have e1 := gcrs_itrs1 (s.time : ℝ) r
    have e2 := gcrs_itrs1 (s.time : ℝ) v
    obtain ⟨m, hm, h1, -⟩ := (C47_rotations (s.time : ℝ)).2.2.2.1
    have hfar' : ‖toE g.itrs‖ < ‖toE (unit • gcrsToItrs1 s.time r)‖ := by
      refine hfar.trans_eq ?_
      rw [norm_toE, norm_toE, vnorm_smul, vnorm_smul, h1, hm.vnorm]
    have hc : gcrsToItrs1 s.time r ⨯₃ gcrsToItrs1 s.time v ≠ 0 := by
      rw [h1, h1, ← hm.cross]
      intro h0
      apply hcross
      rw [← vnorm_eq_zero, ← hm.vnorm, h0, (vnorm_eq_zero _).2 rfl]
    obtain ⟨h2, h3⟩ := C138_attitude_numbers_partial s.time unit velUnit (gcrsToItrs1 s.time r)
      (gcrsToItrs1 s.time v) g hu hv
    obtain ⟨a, b, c, h4⟩ := (C138_closer_targets_partial s.time unit velUnit
      (gcrsToItrs1 s.time r) (gcrsToItrs1 s.time v) g hu hv hfar').2 hc
    have hno : ¬ NoAttitude unit (gcrsToItrs1 s.time r) (gcrsToItrs1 s.time v) g := by
      intro h
      rw [h2 h] at h4
      simp at h4
    obtain ⟨roll, pitch, yaw, h5, h6⟩ := h3 hno
    refine ⟨roll, pitch, yaw, ?_, ?_⟩
    · unfold gapAttitude
      rw [hr, hvel]
      exact h6
    · have h7 := (C49_points_at_target s.time unit velUnit (gcrsToItrs1 s.time r)
        (gcrsToItrs1 s.time v) g hu hv (by rw [e1, e2]; exact hcross) hfar').1
      rw [h5] at h7
      have e3 : lineOfSight s.time unit (gcrsToItrs1 s.time r) (gcrsToItrs1 s.time v) g =
          lvlhMatrix r v *ᵥ (stationAt g s.time - unit • r) := by
        unfold lineOfSight
        rw [itrsToGcrs1_linear, e1, e2]
        rfl
      rw [e3] at h7
      exact h7
  · rintro (h | h)
    · unfold gapAttitude; rw [h]
    · unfold gapAttitude; rw [h]
      cases s.position <;> rfl

/-- Concrete case for `C140_attitudes_partial`: a satellite 7000 km from the centre of the Earth
moving at right angles to its position. -/
example (g : Ground) (hg : ‖toE g.itrs‖ < 7000) :
    ∃ roll pitch yaw, gapAttitude 1 1 g ⟨0, some ![7000, 0, 0], some ![0, 7, 0]⟩ =
      (some roll, some pitch, some yaw) := by
  obtain ⟨a, b, c, h, -⟩ := (C140_attitudes_partial 1 1 one_pos one_pos g
    ⟨0, some ![7000, 0, 0], some ![0, 7, 0]⟩).1 _ _ rfl rfl
    (by intro h; have := congrFun h 2; simp [cross_apply] at this)
    (by
      refine hg.trans_eq ?_
      rw [one_smul, EuclideanSpace.norm_eq]
      simp [Fin.sum_univ_three])
  exact ⟨a, b, c, h⟩

/-- **C140.** Without a look angle, gaps in the attitudes make no difference to the placement of a
request in a window. -/
theorem C140_no_look_angle_partial (hd : Handler) (r : Request) (w : VTW)
    (pitches : List (Option ℚ)) (hla : r.lookAngle = none) :
    tryVtwNan hd r w pitches = tryVtw hd r w := by
  unfold tryVtwNan proposedStartNan tryVtw proposedStart
  rw [hla]
  rfl

/-- **C140.** A gap at one sample of a pass cuts its window in two: one that sets at the sample before
the gap and one that rises at the gap itself.  The second one is lost to requests with look
angles. -/
theorem C140_pass_split (hp : pitch.length = samples.length)
    (hinc : (samples.map (·.time)).Pairwise (· < ·)) (h0 : 0 ≤ threshold) (h90 : threshold ≤ 90)
    (hl : lighting ≠ .invalid) (k : ℕ) (s₁ s₂ s₃ : GapSample) (hs₁ : samples[k]? = some s₁)
    (hs₂ : samples[k + 1]? = some s₂) (hs₃ : samples[k + 2]? = some s₃)
    (hgap : s₂.position = none) (h₁ : Seen unit g sun threshold lighting s₁)
    (h₃ : Seen unit g sun threshold lighting s₃) :
    ∃ ws, generateVtws (gapScene unit samples g sun pitch) threshold lighting = .ok ws ∧
      (∃ w ∈ ws, w.set = s₁.time) ∧
      ∃ w ∈ ws, w.rise = s₂.time ∧ s₃.time ≤ w.set ∧
        ∀ (pitches : List (Option ℚ)), PitchKnown unit velUnit g samples pitches →
          ∀ (hd : Handler) (r : Request) (desired : ℚ),
            r.lookAngle = some (.quantity desired) → tryVtwNan hd r w pitches = .ok none := by
  obtain ⟨ws, hok⟩ := generate_ok (pitch := pitch) hp h0 h90 hl s₁ (List.mem_of_getElem? hs₁) h₁
  obtain ⟨runs, -, h2, -, h4⟩ := runs_of_ok _ (gapScene_wf hp) threshold lighting ws hok
  have v₁ := (visible_gap (pitch := pitch) h0 k s₁ hs₁).2 h₁
  have v₃ := (visible_gap (pitch := pitch) h0 (k + 2) s₃ hs₃).2 h₃
  have v₂ : ¬ Visible (gapScene unit samples g sun pitch) threshold lighting (k + 1) := by
    rw [visible_gap h0 (k + 1) s₂ hs₂]
    rintro ⟨r, hr, -⟩
    rw [hgap] at hr
    cases hr
  refine ⟨ws, hok, ?_, ?_⟩
  · obtain ⟨a, b, hm, ha, hb⟩ := run_around _ _ k v₁ (v₁.lt_length (gapScene_wf hp))
    obtain ⟨w, hw, -, w2, -⟩ := forall₂_mem_left h4 ((h2 a b).2 hm)
    have : b = k := by
      by_contra hne
      exact v₂ (hm.2.2.1 (k + 1) (by omega) (by omega))
    subst this
    refine ⟨w, hw, ?_⟩
    have e : (gapScene unit samples g sun pitch).julian[b]? = some s₁.time := by
      simp [gapScene, hs₁]
    simp only at w2
    rw [e] at w2
    exact (Option.some.inj w2).symm
  · obtain ⟨a, b, hm, ha, hb⟩ := run_around _ _ (k + 2) v₃ (v₃.lt_length (gapScene_wf hp))
    obtain ⟨w, hw, w1, w2, -⟩ := forall₂_mem_left h4 ((h2 a b).2 hm)
    have : a = k + 2 := by
      by_contra hne
      exact v₂ (hm.2.2.1 (k + 1) (by omega) (by omega))
    subst this
    simp only at w1 w2
    rw [if_neg (by omega)] at w1
    have e : (gapScene unit samples g sun pitch).julian[k + 2 - 1]? = some s₂.time := by
      rw [show k + 2 - 1 = k + 1 by omega]
      simp [gapScene, hs₂]
    rw [e] at w1
    have hrise : w.rise = s₂.time := (Option.some.inj w1).symm
    refine ⟨w, hw, hrise, ?_, ?_⟩
    · exact sample_le _ hinc (k + 2) b _ _ (by simp [hs₃]) w2 hb
    · intro pitches hpk hd r desired hla
      exact C140_look_angles_lost hp hinc ws hok w hw s₂ (List.mem_of_getElem? hs₂) hrise hgap
        pitches hpk hd r desired hla

theorem completes_at (hc : Completes full samples) {k : ℕ} {s : GapSample}
    (hk : samples[k]? = some s) : ∃ f, full[k]? = some f ∧ f.time = s.time ∧
      ∀ r, s.position = some r → f.position = some r := by
  obtain ⟨hlt, rfl⟩ := List.getElem?_eq_some_iff.1 hk
  have hl := hc.length_eq
  obtain ⟨h1, h2⟩ := (List.forall₂_iff_get.1 hc).2 k (by omega) hlt
  exact ⟨full[k], List.getElem?_eq_getElem (by omega), h1, h2⟩

theorem completes_at' (hc : Completes full samples) {k : ℕ} {f : GapSample}
    (hk : full[k]? = some f) : ∃ s, samples[k]? = some s ∧ f.time = s.time ∧
      ∀ r, s.position = some r → f.position = some r := by
  obtain ⟨hlt, rfl⟩ := List.getElem?_eq_some_iff.1 hk
  have hl := hc.length_eq
  obtain ⟨h1, h2⟩ := (List.forall₂_iff_get.1 hc).2 k hlt (by omega)
  exact ⟨samples[k], List.getElem?_eq_getElem (by omega), h1, h2⟩

theorem completes_times (hc : Completes full samples) :
    full.map (·.time) = samples.map (·.time) := by
  unfold Completes at hc
  induction hc with
  | nil => rfl
  | cons h _ ih => simp [h.1, ih]

theorem seen_completes {f s : GapSample} (ht : f.time = s.time)
    (hr : ∀ r, s.position = some r → f.position = some r)
    (h : Seen unit g sun threshold lighting s) : Seen unit g sun threshold lighting f := by
  obtain ⟨r, h1, h2, h3⟩ := h
  exact ⟨r, hr r h1, by rw [ht]; exact h2, by rw [ht]; exact h3⟩

theorem visible_completes (hc : Completes full samples) (h0 : 0 ≤ threshold) {k : ℕ}
    (h : Visible (gapScene unit samples g sun pitch) threshold lighting k) :
    Visible (gapScene unit full g sun pitch) threshold lighting k := by
  obtain ⟨s, hs⟩ : ∃ s, samples[k]? = some s := by
    obtain ⟨⟨e, he, -⟩, -⟩ := h
    have := (List.getElem?_eq_some_iff.1 he).1
    exact ⟨_, List.getElem?_eq_getElem (by simpa [gapScene] using this)⟩
  obtain ⟨f, hf, h1, h2⟩ := completes_at hc hs
  exact (visible_gap h0 k f hf).2 (seen_completes h1 h2 ((visible_gap h0 k s hs).1 h))

/-- **C140.** A pass without gaps keeps its window, whatever is missing elsewhere. -/
theorem C140_other_passes_unaffected_partial (hc : Completes full samples)
    (hp : pitch.length = samples.length) (hinc : (samples.map (·.time)).Pairwise (· < ·))
    (ws : List VTW)
    (h : generateVtws (gapScene unit full g sun pitch) threshold lighting = .ok ws)
    (w : VTW) (hw : w ∈ ws) (hproper : w.rise < w.set)
    (hknown : ∀ s ∈ samples, w.rise < s.time → s.time ≤ w.set → s.position.isSome) :
    ∃ ws', generateVtws (gapScene unit samples g sun pitch) threshold lighting = .ok ws' ∧
      ∃ w' ∈ ws', w'.rise = w.rise ∧ w'.set = w.set := by
  have hl := hc.length_eq
  have hjul : (gapScene unit full g sun pitch).julian = (gapScene unit samples g sun pitch).julian :=
    completes_times hc
  obtain ⟨-, ht, hval⟩ := valid_of_ok _ threshold lighting ws h
  obtain ⟨runs, -, h2, -, h4⟩ := runs_of_ok _ (gapScene_wf (by omega)) threshold lighting ws h
  obtain ⟨⟨a, b⟩, hm, w1, w2, -, -⟩ := forall₂_mem_right h4 hw
  rw [h2] at hm
  simp only at w1 w2
  have hincf : (gapScene unit full g sun pitch).julian.Pairwise (· < ·) := by rw [hjul]; exact hinc
  have ha := proper_window hincf w1 w2 hproper
  obtain ⟨m1, m2, m3, m4, m5⟩ := hm
  rw [hjul] at w1 w2 m2 m5
  have hrun : MaximalRun (Visible (gapScene unit samples g sun pitch) threshold lighting)
      (gapScene unit samples g sun pitch).julian.length a b := by
    refine ⟨m1, m2, ?_, ?_, ?_⟩
    · intro j haj hjb
      obtain ⟨s, hs⟩ : ∃ s, samples[j]? = some s := by
        have : j < samples.length := by
          have : b < samples.length := by simpa [gapScene] using m2
          omega
        exact ⟨_, List.getElem?_eq_getElem this⟩
      obtain ⟨f, hf, f1, f2⟩ := completes_at hc hs
      have hjs : (gapScene unit samples g sun pitch).julian[j]? = some s.time := by
        simp [gapScene, hs]
      rw [if_neg ha] at w1
      have hk := hknown s (List.mem_of_getElem? hs)
        (sample_lt _ hinc (a - 1) j _ _ w1 hjs (by omega)) (sample_le _ hinc j b _ _ hjs w2 hjb)
      obtain ⟨r, hr⟩ := Option.isSome_iff_exists.1 hk
      obtain ⟨r', hr', hv, hsun⟩ := (visible_gap ht.1 j f hf).1 (m3 j haj hjb)
      rw [f2 r hr] at hr'
      cases hr'
      refine (visible_gap ht.1 j s hs).2 ⟨r, hr, ?_, ?_⟩
      · rw [← f1]; exact hv
      · rw [← f1]; exact hsun
    · rcases m4 with m4 | m4
      · exact Or.inl m4
      · exact Or.inr fun hv => m4 (visible_completes hc ht.1 hv)
    · rcases m5 with m5 | m5
      · exact Or.inl m5
      · exact Or.inr fun hv => m5 (visible_completes hc ht.1 hv)
  obtain ⟨runs', ws', hok, h2', -, h4'⟩ := C23_windows_are_maximal_runs_partial _ (gapScene_wf hp)
    threshold lighting rfl ht hval ⟨a, hrun.2.2.1 a le_rfl m1⟩
  obtain ⟨w', hw', w1', w2', -, -⟩ := forall₂_mem_left h4' ((h2' a b).2 hrun)
  simp only at w1' w2'
  rw [w1] at w1'
  rw [w2] at w2'
  exact ⟨ws', hok, w', hw', (Option.some.inj w1').symm, (Option.some.inj w2').symm⟩

/-- **C140.** Gaps create no windows: every window found in spite of the gaps lies in a window of the
complete series, if that does not begin during a pass. -/
theorem C140_no_new_windows_partial (hc : Completes full samples) (hp : pitch.length = samples.length)
    (hinc : (samples.map (·.time)).Pairwise (· < ·))
    (hfirst : ∀ f, full.head? = some f → ¬ Seen unit g sun threshold lighting f)
    (ws' : List VTW)
    (h : generateVtws (gapScene unit samples g sun pitch) threshold lighting = .ok ws')
    (w' : VTW) (hw' : w' ∈ ws') :
    ∃ ws, generateVtws (gapScene unit full g sun pitch) threshold lighting = .ok ws ∧
      ∃ w ∈ ws, w.rise ≤ w'.rise ∧ w'.set ≤ w.set := by
  have hl := hc.length_eq
  have hjul : (gapScene unit full g sun pitch).julian = (gapScene unit samples g sun pitch).julian :=
    completes_times hc
  obtain ⟨-, ht, hval⟩ := valid_of_ok _ threshold lighting ws' h
  obtain ⟨runs, -, h2, -, h4⟩ := runs_of_ok _ (gapScene_wf hp) threshold lighting ws' h
  obtain ⟨⟨a', b'⟩, hm, w1', w2', -, -⟩ := forall₂_mem_right h4 hw'
  rw [h2] at hm
  obtain ⟨m1, m2, m3, -, -⟩ := hm
  simp only at w1' w2'
  have hwf : (gapScene unit full g sun pitch).WellFormed := gapScene_wf (by omega)
  have va := visible_completes hc ht.1 (m3 a' le_rfl m1)
  obtain ⟨runs', ws, hok, h2', -, h4'⟩ := C23_windows_are_maximal_runs_partial _ hwf
    threshold lighting rfl ht hval ⟨a', va⟩
  obtain ⟨a, b, hrun, haa, hab⟩ := run_around _ _ a' va (va.lt_length hwf)
  obtain ⟨w, hw, w1, w2, -, -⟩ := forall₂_mem_left h4' ((h2' a b).2 hrun)
  obtain ⟨n1, n2, n3, n4, n5⟩ := hrun
  simp only at w1 w2
  have hbb : b' ≤ b := by
    by_contra hlt
    rcases n5 with n5 | n5
    · rw [hjul] at n5
      omega
    · exact n5 (visible_completes hc ht.1 (m3 (b + 1) (by omega) (by omega)))
  have ha0 : a ≠ 0 := by
    rintro rfl
    have hv := n3 0 le_rfl n1
    obtain ⟨f, hf⟩ : ∃ f, full[0]? = some f := by
      have : b < full.length := by simpa [gapScene] using n2
      exact ⟨_, List.getElem?_eq_getElem (by omega)⟩
    exact hfirst f (by rw [List.head?_eq_getElem?]; exact hf) ((visible_gap ht.1 0 f hf).1 hv)
  rw [if_neg ha0] at w1
  rw [if_neg (by omega)] at w1'
  rw [hjul] at w1 w2
  exact ⟨ws, hok, w, hw, sample_le _ hinc _ _ _ _ w1 w1' (by omega),
    sample_le _ hinc _ _ _ _ w2' w2 hbb⟩

/-- Concrete case for C140: for every station of non-negative height, a satellite that is first on
the other side of the Earth, then in the zenith of the station, and whose position is missing in the
middle of the pass. -/
example (g : Ground) (hg : 0 ≤ g.height) (sun : ℝ → Vec) :
    ∃ ws, generateVtws (gapScene 1 [⟨0, some ((-2 : ℝ) • stationAt g 0), none⟩,
        ⟨1, some ((2 : ℝ) • stationAt g 1), none⟩, ⟨2, none, none⟩,
        ⟨3, some ((2 : ℝ) • stationAt g 3), none⟩] g sun [0, 0, 0, 0]) 10 .anytime = .ok ws ∧
      (∃ w ∈ ws, w.set = 1) ∧ ∃ w ∈ ws, w.rise = 2 ∧ 3 ≤ w.set := by
  have hne : ∀ t, stationAt g t ≠ 0 := by
    intro t h0
    obtain ⟨m, -, -, h2⟩ := to_itrs_rotation g t
    rw [h0, Matrix.mulVec_zero] at h2
    exact itrs_ne_zero g hg h2.symm
  have hr : 0 < TimeScale.rad (90 - 10) := by
    have := Real.pi_pos
    unfold TimeScale.rad
    positivity
  have h1 : ∀ t : ℚ, Seen 1 g sun 10 .anytime ⟨t, some ((2 : ℝ) • stationAt g t), none⟩ := by
    intro t
    refine ⟨_, rfl, ?_, trivial⟩
    have e : (1 : ℝ) • (2 : ℝ) • stationAt g t - stationAt g t = stationAt g t := by
      module
    rw [InView, e, InnerProductGeometry.angle_self (toE_ne (hne t))]
    exact hr
  have e1 := h1 1
  have e3 := h1 3
  push_cast at e1 e3
  obtain ⟨ws, hok, hw1, w, hw, h2, h3, -⟩ := C140_pass_split (velUnit := 1) (g := g) (sun := sun)
    (unit := 1) (threshold := 10) (lighting := .anytime) (pitch := [0, 0, 0, 0])
    (samples := [⟨0, some ((-2 : ℝ) • stationAt g 0), none⟩,
        ⟨1, some ((2 : ℝ) • stationAt g 1), none⟩, ⟨2, none, none⟩,
        ⟨3, some ((2 : ℝ) • stationAt g 3), none⟩]) rfl (by simp; norm_num) (by norm_num) (by norm_num)
    (by decide) 1 _ _ _ rfl rfl rfl rfl e1 e3
  exact ⟨ws, hok, hw1, w, hw, h2, h3⟩

/-- Concrete case for C140: pitches that are numbers exactly where the attitude is known exist for
every series, and every series with gaps is completed by some series, here one with a single
gap. -/
example (s₁ s₃ : GapSample) (t : ℚ) (r : Vec) :
    (∃ pitches, PitchKnown unit velUnit g [s₁, ⟨t, none, none⟩, s₃] pitches ∧
      pitches[1]? = some none) ∧
    Completes [s₁, ⟨t, some r, none⟩, s₃] [s₁, ⟨t, none, none⟩, s₃] := by
  refine ⟨⟨[s₁, ⟨t, none, none⟩, s₃].map fun s =>
    (gapAttitude unit velUnit g s).2.1.map fun _ => 0, ?_, ?_⟩, ?_⟩
  · simp [PitchKnown]
  · simp [gapAttitude]
  · simp [Completes]

end Celest.Windows
