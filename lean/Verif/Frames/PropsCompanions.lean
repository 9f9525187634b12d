/-
General form of the refutation of C76, and what C58 checks in every unit.
-/
import Verif.Frames.PropsHemispheres

namespace Celest.Frames

open Matrix Celest.TimeScale

theorem mean_gt_of_sum {l : List ℝ} {e : ℝ} (hne : l ≠ []) (h : e * l.length < l.sum) :
    e < mean l := by
  unfold mean
  rw [lt_div_iff₀ (by exact_mod_cast List.length_pos_of_ne_nil hne)]
  exact h

theorem sum_ge_of_forall {l : List ℝ} {e : ℝ} (h : ∀ x ∈ l, e ≤ x) : e * l.length ≤ l.sum := by
  have := List.card_nsmul_le_sum l e h
  rw [nsmul_eq_mul] at this
  linarith

theorem highLatitude_near : NearOrAboveEarth highLatitude :=
  ⟨Or.inl (by unfold highLatitude; simp), by rw [highLatitude_norm]; norm_num⟩

/-- C76 fails for every array of positions between the equator and 36 degrees south: if three
times as many positions at a high northern latitude are converted along with them, every single
altitude changes, by more than `9.5 - 22 sin²` kilometres of the geocentric latitude, so by more
than 1.5 km. -/
theorem C76_every_southern_altitude_depends (pts : List Vec) (hne : pts ≠ [])
    (h : ∀ v ∈ pts, NearOrAboveEarth v)
    (hsouth : ∀ v ∈ pts, v 2 ≤ 0 ∧ -v 2 ≤ 0.6 * ‖toE v‖) (r r' : List ℝ)
    (hr : AltitudeReturns pts r)
    (hr' : AltitudeReturns (pts ++ List.replicate (3 * pts.length) highLatitude) r') :
    ∃ f g : Vec → ℝ, r = pts.map f ∧
      r' = (pts ++ List.replicate (3 * pts.length) highLatitude).map g ∧
      ∀ v ∈ pts, 9.5 - 22 * (v 2 / ‖toE v‖) ^ 2 < f v - g v ∧ 1.5 < f v - g v := by
  obtain ⟨hfirst, -⟩ := C52_wrong_in_the_south pts h hsouth r hr
  set all := pts ++ List.replicate (3 * pts.length) highLatitude with hall
  have hn : ∀ v ∈ all, NearOrAboveEarth v := by
    intro v hv
    rcases List.mem_append.1 hv with hv | hv
    · exact h v hv
    · rw [List.eq_of_mem_replicate hv]
      exact highLatitude_near
  have hd : ∀ v ∈ all, 0 < axisDistance v := fun v hv => axisDistance_pos (hn v hv).1
  have hgo : altContinue all 0 := by
    rw [altContinue_zero all hd]
    left
    have htol : axisA * (10 * 10 ^ (-10 : ℤ)) < 1 := by
      unfold axisA
      norm_num
    refine htol.trans (mean_gt_of_sum (by simp [hall, hne]) ?_)
    rw [hall, List.map_append, List.sum_append, List.length_append, List.length_map,
      List.length_map, List.length_replicate, List.map_replicate, List.sum_replicate,
      nsmul_eq_mul]
    have h1 : (-12.01) * ((pts.map fun v => heightSeq v 1 - heightSeq v 0).length : ℝ) ≤
        (pts.map fun v => heightSeq v 1 - heightSeq v 0).sum := by
      apply sum_ge_of_forall
      intro x hx
      obtain ⟨v, hv, rfl⟩ := List.mem_map.1 hx
      obtain ⟨t, -, h0, h1⟩ := (h v hv).after
      have := abs_le.1 h0
      have := abs_le.1 (h1 0)
      simp only [zero_add] at *
      linarith
    rw [List.length_map] at h1
    have h2 := highLatitude_step
    have hpos : (1 : ℝ) ≤ pts.length := by exact_mod_cast List.length_pos_of_ne_nil hne
    have h3 := mul_le_mul_of_nonneg_left h2.le
      (show (0 : ℝ) ≤ ((3 * pts.length : ℕ) : ℝ) by positivity)
    push_cast at h3 ⊢
    linarith
  obtain ⟨k, hk, hstop, rfl⟩ := hr'
  cases k with
  | zero => exact absurd hgo hstop
  | succ k =>
    refine ⟨fun v => ‖toE v‖ - Real.sqrt (axisA * axisB), fun v => heightSeq v (k + 1), hfirst, ?_,
      ?_⟩
    · rw [altState_eq all hd, List.map_map]
      rfl
    · intro v hv
      have hl : |v 2| ≤ 0.6 * ‖toE v‖ := by
        rw [abs_of_nonpos (hsouth v hv).1]
        exact (hsouth v hv).2
      obtain ⟨t, -, h1, -, h2⟩ := (h v hv).low hl
      have h3 := (abs_le.1 (h2 k)).2
      have hn0 : 0 < ‖toE v‖ := by linarith [(h v hv).2]
      have hsq : (v 2 / ‖toE v‖) ^ 2 ≤ 0.36 := by
        rw [← sq_abs, abs_div, abs_of_pos hn0]
        have h2 : |v 2| / ‖toE v‖ ≤ 0.6 := by
          rw [div_le_iff₀ hn0]
          exact hl
        have := mul_le_mul h2 h2 (by positivity) (by norm_num)
        linarith
      have h0 : heightSeq v 0 = ‖toE v‖ - Real.sqrt (axisA * axisB) := rfl
      rw [h0] at h1
      refine ⟨by linarith, by linarith⟩

/-- Non-vacuity: a position over the equator is such an array. -/
example : (∀ v ∈ [overEquator], NearOrAboveEarth v) ∧
    ∀ v ∈ [overEquator], v 2 ≤ 0 ∧ -v 2 ≤ 0.6 * ‖toE v‖ := by
  refine ⟨fun v hv => ?_, fun v hv => ?_⟩ <;> rw [List.mem_singleton.1 hv]
  · exact ⟨Or.inl (by unfold overEquator; simp), by rw [overEquator_norm]; norm_num⟩
  · rw [overEquator_norm]
    have : overEquator 2 = 0 := rfl
    rw [this]
    norm_num

/-- C58, exactly, in every unit: whether a ground location can be constructed depends on the bare
numbers only, as if they were degrees. -/
theorem C58_bare_numbers_checked (latitude longitude height angularUnit lengthUnit : ℝ) :
    (∃ g, Ground.make latitude longitude height angularUnit lengthUnit = .ok g) ↔
      (-90 ≤ latitude ∧ latitude ≤ 90) ∧ (-180 ≤ longitude ∧ longitude ≤ 180) := by
  unfold Ground.make
  split_ifs with h1 h2
  · constructor
    · rintro ⟨g, hg⟩
      cases hg
    · rintro ⟨⟨a, b⟩, -⟩
      rcases h1 with h1 | h1 <;> linarith
  · constructor
    · rintro ⟨g, hg⟩
      cases hg
    · rintro ⟨-, a, b⟩
      rcases h2 with h2 | h2 <;> linarith
  · rw [not_or, not_lt, not_lt] at h1 h2
    exact ⟨fun _ => ⟨h1, h2⟩, fun _ => ⟨_, rfl⟩⟩

/-- Non-vacuity: 100 is refused as a latitude whatever the unit, 50 is accepted. -/
example (u : ℝ) : (¬ ∃ g, Ground.make 100 0 0 u 1 = .ok g) ∧
    ∃ g, Ground.make 50 0 0 u 1 = .ok g := by
  rw [C58_bare_numbers_checked, C58_bare_numbers_checked]
  norm_num

end Celest.Frames
