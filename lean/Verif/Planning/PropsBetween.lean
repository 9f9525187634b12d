/-
C113 for planned observations: visibility at every instant of an observation.
-/
import Verif.Planning.Props
import Verif.Windows.PropsBetween

namespace Celest.Planning

open Celest.Schedule Celest.Windows Celest.Frames Celest.TimeScale

/-- **C113.** After any history of calls on a scheduler, including calls that raised, for any
arguments and any random draws: at every instant of every observation `generate` returns, sampled or
not, the satellite is above the elevation mask of the observed station but for the angle it can cover
between two samples, and the Sun is on the requested side of the station's horizon but for the angle
it can cover. -/
theorem C113_observations (s : Satellite) (station : ℕ → Ground) (times : List ℚ) (sun : ℝ → Vec)
    (pitch : ℕ → List ℚ) (threshold : ℝ) (p : ℝ → Vec) (V gap W : ℝ) (d e : ℕ → ℝ)
    (hp : s.points = times.map fun t : ℚ => p t)
    (hpitch : ∀ loc, (pitch loc).length = times.length) (hinc : times.Pairwise (· < ·))
    (hgap : GapsAtMost times gap) (hsat : ∀ loc, Track p (station loc) V (d loc))
    (hsun : ∀ loc, Track (fun t => gcrsToItrs1 t (sun t)) (station loc) W (e loc))
    (calls : List Call) (a : GenerateArgs) (ws : List Observation)
    (h : (Schedule.generate (run (missionOf s station times sun pitch threshold) calls) a).1 =
      .ok ws) :
    ∀ o ∈ ws, ∃ x, Call.add x ∈ calls ∧ o.location = x.location ∧ o.duration = x.duration ∧
      ∀ τ : ℝ, (o.start : ℝ) ≤ τ → τ ≤ o.start + o.duration / 86400 →
        zenithAngle (station o.location) (p τ) <
            rad (90 - threshold) + V / d o.location * gap ∧
          SunWithin (station o.location) (W / e o.location * gap) (gcrsToItrs1 τ (sun τ))
            x.lighting := by
  have hm : (missionOf s station times sun pitch threshold).Sound := fun loc =>
    ⟨sceneOf_wf' hp (hpitch loc), hinc⟩
  obtain ⟨served, h1, h2⟩ := C106_observations_see_their_targets _ hm calls a ws h
  intro o ho
  obtain ⟨x, hx, hl, hd, -, -, hij⟩ := Forall₂.mem_right h2 ho
  obtain ⟨hxc, hxa⟩ := mem_accepted (h1.subset hx)
  refine ⟨x, hxc, hl, hd, fun τ hτ1 hτ2 => ?_⟩
  have hd0 : 0 ≤ o.duration := by
    have : (0 : ℝ) ≤ o.duration := by linarith
    exact_mod_cast this
  obtain ⟨i, j, tᵢ, tⱼ, hi, hj, hlt, h3, h4, hvis, -⟩ := hij hd0
  have hi' : (tᵢ : ℝ) < τ := lt_of_lt_of_le (by exact_mod_cast h3) hτ1
  have hj' : τ ≤ tⱼ := by
    have : ((o.start + o.duration / 86400 : ℚ) : ℝ) < tⱼ := by exact_mod_cast h4
    push_cast at this
    linarith
  obtain ⟨k, u, v, k1, k2, hu, hv, huτ, hvτ⟩ := between_samples times τ i (j - i) tᵢ tⱼ hi
    (by rw [Nat.add_sub_cancel' hlt.le]; exact hj) hi' hj'
  have hg := hgap k u v hu hv
  rw [hl]
  obtain ⟨v1, v2⟩ := (visible_track hp hxa.2.1.1 x.lighting (k + 1) v hv).1
    (hvis (k + 1) (by omega) (by omega))
  change _ < rad (90 - threshold) at v1
  have hvd : |τ - v| ≤ gap := by
    rw [abs_le]
    constructor <;> linarith
  constructor
  · have r1 := (abs_le.1 (C113_rate (hsat x.location) τ v)).2
    have r2 := mul_le_mul_of_nonneg_left hvd
      (div_nonneg (hsat x.location).speed_nonneg (hsat x.location).pos.le)
    linarith
  · have := v2.later (hsun x.location) hvd
    rwa [zero_add] at this

/-- A satellite on the path `circle`, sampled below the station and near its zenith. -/
noncomputable def twoSamples (v : Cartesian) : Satellite :=
  ⟨⟨1, [(0, circle 0), (3, circle 3)]⟩, some v⟩

/-- Non-vacuity for C113: there is an observation of the station under that satellite. -/
example (v : Cartesian) (sun : ℝ → Vec) : ∃ ws, (Schedule.generate (run (missionOf (twoSamples v)
      (fun _ => origin) [0, 3] sun (fun _ => [0, 0]) 10) [.add ⟨0, 8, 600, 5, 1, none, .anytime⟩,
        .add ⟨1, 8, 600, 5, 1, none, .anytime⟩])
      (args (fun _ => 0) (-1) [])).1 = .ok ws ∧ ws ≠ [] := by
  have hA := axisA_pos
  have hpts : (twoSamples v).points = ([0, 3] : List ℚ).map fun t : ℚ => circle t := by
    simp [Satellite.points, twoSamples]
  have hne : toE origin.itrs ≠ 0 := by
    apply toE_ne
    rw [origin_itrs]
    intro h
    have := congrFun h 0
    simp at this
    linarith
  have z0 : zenithAngle origin (circle ((0 : ℚ) : ℝ)) = Real.pi := by
    have h0 : circle ((0 : ℚ) : ℝ) - origin.itrs = (-3 : ℝ) • origin.itrs := by
      rw [origin_itrs]
      ext i
      fin_cases i <;> simp [circle] <;> ring
    have e : toE ((-3 : ℝ) • origin.itrs) = (-3 : ℝ) • toE origin.itrs := rfl
    rw [zenithAngle, h0, e, InnerProductGeometry.angle_smul_left_of_neg _ _ (by norm_num),
      InnerProductGeometry.angle_neg_self_of_nonzero hne]
  have z1 : zenithAngle origin (circle Real.pi) = 0 := by
    have h0 : circle Real.pi - origin.itrs = origin.itrs := by
      rw [origin_itrs]
      ext i
      fin_cases i <;> simp [circle]; ring
    rw [zenithAngle, h0, InnerProductGeometry.angle_self hne]
  have hr := (abs_le.1 (C113_rate circle_track 3 Real.pi)).2
  have hV : 2 * axisA / axisA = 2 := by field_simp
  have hpi := Real.pi_gt_three
  have hpi4 := Real.pi_lt_d2
  rw [z1, hV, abs_sub_comm, abs_of_pos (by linarith)] at hr
  have v0 : ¬ Visible (sceneOf (twoSamples v) origin [0, 3] sun [0, 0]) 10 .anytime 0 := by
    rw [visible_track hpts (by norm_num) _ 0 0 rfl, z0]
    rintro ⟨h, -⟩
    unfold rad at h
    linarith
  have v1 : Visible (sceneOf (twoSamples v) origin [0, 3] sun [0, 0]) 10 .anytime 1 := by
    rw [visible_track hpts (by norm_num) _ 1 3 rfl]
    refine ⟨?_, trivial⟩
    push_cast
    unfold rad
    linarith
  have hg : generateVtws (sceneOf (twoSamples v) origin [0, 3] sun [0, 0]) 10 .anytime =
      .ok [⟨0, 3, [0, 3], [0, 0]⟩] := by
    have hel : (sceneOf (twoSamples v) origin [0, 3] sun [0, 0]).elevation =
        [elevation (circle 0) origin, elevation (circle 3) origin] := by
      simp [sceneOf, Satellite.points, twoSamples]
    have e0 : (elevation (circle 0) origin).any (fun e => decide ((10 : ℝ) < e)) = false := by
      cases he : elevation (circle 0) origin with
      | none => rfl
      | some e =>
        simp only [Option.any_some, decide_eq_false_iff_not]
        exact fun hlt => v0 ⟨⟨e, by rw [hel]; simp [he], hlt⟩, trivial⟩
    obtain ⟨⟨e, he, hlt⟩, -⟩ := v1
    rw [hel] at he
    simp only [List.getElem?_cons_succ, List.getElem?_cons_zero, Option.some.injEq] at he
    have e1 : (elevation (circle 3) origin).any (fun e => decide ((10 : ℝ) < e)) = true := by
      rw [he]
      simpa using hlt
    have hw : whereIndices (fun e => e.any fun x => decide ((10 : ℝ) < x))
        (sceneOf (twoSamples v) origin [0, 3] sun [0, 0]).elevation = [1] := by
      rw [hel]
      simp [whereIndices, List.range_succ, e0, e1]
    unfold generateVtws
    simp only [hw, lightingIndices]
    have t1 : ¬ ((10 : ℝ) < 0) := by norm_num
    have t2 : ¬ ((90 : ℝ) < 10) := by norm_num
    simp [sceneOf, twoSamples, t1, t2, intersect1d, split, splitPoints, diff, splitAt, toWindow,
      pyGet]
    rfl
  refine ⟨[⟨433 / 288, 600, 0, []⟩], ?_, ?_⟩
  · unfold run
    simp only [List.foldl_cons, List.foldl_nil, step, addRequest, missionOf, hg]
    decide +kernel
  · simp

end Celest.Planning
