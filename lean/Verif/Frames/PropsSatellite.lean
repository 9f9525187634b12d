/-
C71, C72, C74: satellites.
-/
import Verif.Frames.Satellite
import Verif.Frames.PropsTriangle

namespace Celest.Frames

open Matrix Celest.TimeScale

/-! ### C71 -/

/-- A satellite can be built exactly from positions and velocities in the GCRS or ITRS frame;
anything else raises `ValueError`. -/
theorem C71_accepted_frames (p : Position) (v : Option Position) :
    ((p.frame = .gcrs ∨ p.frame = .itrs) ∧ (∀ w ∈ v, w.frame = .gcrs ∨ w.frame = .itrs) →
      ∃ s, Satellite.make p v = .ok s ∧ (s.velocity = none ↔ v = none)) ∧
    (¬ ((p.frame = .gcrs ∨ p.frame = .itrs) ∧ (∀ w ∈ v, w.frame = .gcrs ∨ w.frame = .itrs)) →
      Satellite.make p v = .error .valueError) := by
  cases v with
  | none => cases p <;> simp [Satellite.make, toItrs, Position.frame]
  | some w => cases p <;> cases w <;> simp [Satellite.make, toItrs, Position.frame]

/-- C71: a satellite given by GCRS coordinates answers like geometry done in the inertial frame:
its distance to a station is the distance between the given inertial position and the inertial
position of the station at that instant, and likewise for the look angle. -/
theorem C71_inertial_geometry (c : Cartesian) (v : Option Position) (s : Satellite) (g : Ground)
    (h : Satellite.make (.gcrs c) v = .ok s) :
    s.distances g = c.samples.map (fun x =>
      dist (toE (c.unit • x.2)) (toE (itrsToGcrs1 x.1 g.itrs))) ∧
    s.lookAngles g = c.samples.map (fun x =>
      getAng (c.unit • x.2 - itrsToGcrs1 x.1 g.itrs) (c.unit • x.2)) := by
  have hp : s.position = gcrsToItrs c := by
    cases v with
    | none => simp [Satellite.make, toItrs] at h; rw [← h]
    | some w => cases w <;> simp [Satellite.make, toItrs] at h <;> rw [← h]
  have key : ∀ x : ℝ × Vec, ∃ m : Mat, Rotation m ∧
      c.unit • gcrsToItrs1 x.1 x.2 - g.itrs = m *ᵥ (c.unit • x.2 - itrsToGcrs1 x.1 g.itrs) ∧
      c.unit • gcrsToItrs1 x.1 x.2 = m *ᵥ (c.unit • x.2) := by
    intro x
    obtain ⟨m, hm, h1, -⟩ := (C47_rotations x.1).2.2.2.1
    refine ⟨m, hm, ?_, ?_⟩
    · rw [Matrix.mulVec_sub, Matrix.mulVec_smul, ← h1, ← h1, itrs_gcrs1]
    · rw [Matrix.mulVec_smul, ← h1]
  constructor
  · unfold Satellite.distances Satellite.points
    rw [hp, List.map_map]
    simp only [gcrsToItrs, List.map_map]
    apply List.map_congr_left
    intro x _
    obtain ⟨m, hm, h1, -⟩ := key x
    simp only [Function.comp, distance]
    rw [h1, hm.vnorm, dist_toE]
  · unfold Satellite.lookAngles Satellite.points
    rw [hp, List.map_map]
    simp only [gcrsToItrs, List.map_map]
    apply List.map_congr_left
    intro x _
    obtain ⟨m, hm, h1, h2⟩ := key x
    simp only [Function.comp, lookAngle, getAng]
    rw [h1, h2, hm.vnorm, hm.vnorm, hm.dot]

/-- C71: building a satellite from GCRS data or from the ITRS data `Coordinate` converts it to
gives the same satellite. -/
theorem C71_same_satellite (p q : Position) (location : Option Ground)
    (hp : p.frame = .gcrs ∨ p.frame = .itrs)
    (hq : convert p .itrs location = .returned q) (v : Option Position) :
    Satellite.make q v = Satellite.make p v := by
  cases p <;> simp [Position.frame, convert, coordinateInit, convertTo, convertFromGcrs] at hp hq
  · subst hq; rfl
  · subst hq; rfl

/-- Two GCRS samples. -/
def twoSamples : Cartesian := ⟨1, [(2451545, ![7000, 0, 0]), (2451545.5, ![0, 7000, 0])]⟩

example : ∃ s, Satellite.make (.gcrs twoSamples) none = .ok s ∧ s.points.length = 2 :=
  ⟨_, rfl, by simp [Satellite.points, gcrsToItrs, twoSamples]⟩

/-! ### C72 -/

/-- C72 is false: any velocity in an accepted frame is accepted with any position, however many
samples it has and whatever their instants. -/
theorem C72_mismatch_accepted (p v : Cartesian) :
    ∃ s, Satellite.make (.itrs p) (some (.itrs v)) = .ok s ∧ s.position = p ∧
      s.velocity = some v := ⟨⟨p, some v⟩, rfl, rfl, rfl⟩

theorem zipWith_same_times {β : Type} (f : ℝ × Vec → ℝ × Vec → β) (f' : ℝ × Vec → ℝ × Vec → β)
    (hf : ∀ t u v, f (t, u) (t, v) = f' (t, u) (t, v)) : ∀ ps vs : List (ℝ × Vec),
    ps.map (·.1) = vs.map (·.1) → List.zipWith f ps vs = List.zipWith f' ps vs := by
  intro ps
  induction ps with
  | nil => intro vs _; rfl
  | cons x ps ih =>
    intro vs h
    cases vs with
    | nil => rfl
    | cons y vs =>
      obtain ⟨t, u⟩ := x
      obtain ⟨t', v⟩ := y
      simp only [List.map_cons, List.cons.injEq] at h
      obtain ⟨rfl, h⟩ := h
      rw [List.zipWith_cons_cons, List.zipWith_cons_cons, ih vs h, hf]

/-- C72 (partial): if positions and velocities are given for the same instants, the k-th attitude
is the attitude for the k-th instant (`attitude`, whose meaning is C49); if their numbers differ,
the attitude raises `ValueError`; without velocities it raises `ValueError`.  Missing: samples of
equal number at different instants are combined without notice (`C72_instants_mixed`). -/
theorem C72_attitude_per_instant_partial (p v : Cartesian) (g : Ground) :
    (p.samples.map (·.1) = v.samples.map (·.1) →
      (⟨p, some v⟩ : Satellite).attitudes g = .ok (List.zipWith (fun x y =>
        attitude x.1 p.unit (1000 * v.unit) x.2 y.2 g) p.samples v.samples)) ∧
    (p.samples.length ≠ v.samples.length →
      (⟨p, some v⟩ : Satellite).attitudes g = .error .valueError) ∧
    (⟨p, none⟩ : Satellite).attitudes g = .error .valueError := by
  refine ⟨?_, ?_, rfl⟩
  · intro h
    have hl : p.samples.length = v.samples.length := by
      have := congrArg List.length h
      simpa using this
    unfold Satellite.attitudes
    simp only [hl, if_true]
    rw [zipWith_same_times (attitudeSample p.unit (1000 * v.unit) g)
      (fun x y => attitude x.1 p.unit (1000 * v.unit) x.2 y.2 g) (fun _ _ _ => rfl) _ _ h]
  · intro h
    unfold Satellite.attitudes
    simp only [h, if_false]

/-- C72 is false: with equal numbers of samples no error is raised, and the velocity of one instant
is used with the position of another. -/
theorem C72_instants_mixed (t t' : ℝ) (r v : Vec) (g : Ground) :
    (⟨⟨1, [(t, r)]⟩, some ⟨1, [(t', v)]⟩⟩ : Satellite).attitudes g =
      .ok [attitude t 1 1000 r (gcrsToItrs1 t (itrsToGcrs1 t' v)) g] := by
  unfold Satellite.attitudes attitude attitudeSample
  simp [gcrs_itrs1]

/-- Two samples of position and velocity for the same instants. -/
example : twoSamples.samples.map (·.1) =
    (⟨1, [(2451545, ![0, 7, 0]), (2451545.5, ![-7, 0, 0])]⟩ : Cartesian).samples.map (·.1) := rfl

/-! ### C74 -/

/-- C74 is false without a velocity, although the velocity is optional. -/
theorem C74_no_velocity (p : Position) (s : Satellite) (h : Satellite.make p none = .ok s) :
    s.saveTable = .error .valueError := by
  cases p <;> simp [Satellite.make, toItrs] at h <;> rw [← h] <;> rfl

/-- C74 (partial): the saved table of a satellite with velocities has 13 columns.  Given GCRS data,
the GCRS columns repeat it exactly and the ITRS columns are its conversion; given ITRS data, the
other way round.  Missing: satellites without a velocity, which cannot be saved. -/
theorem C74_saved_columns_partial (p v : Cartesian) :
    (∃ s, Satellite.make (.gcrs p) (some (.gcrs v)) = .ok s ∧
      s.saveTable = .ok (⟨"Time", p.samples.map (·.1)⟩ :: components "Itrs " (gcrsToItrs p) ++
        components "Itrs V" (gcrsToItrs v) ++ components "Gcrs " p ++ components "Gcrs V" v)) ∧
    (∃ s, Satellite.make (.itrs p) (some (.itrs v)) = .ok s ∧
      s.saveTable = .ok (⟨"Time", p.samples.map (·.1)⟩ :: components "Itrs " p ++
        components "Itrs V" v ++ components "Gcrs " (itrsToGcrs p) ++
        components "Gcrs V" (itrsToGcrs v))) := by
  refine ⟨⟨_, rfl, ?_⟩, ⟨_, rfl, rfl⟩⟩
  unfold Satellite.saveTable
  simp only [(C46_round_trip _).1]
  simp [gcrsToItrs, List.map_map, Function.comp_def]

example : ∃ s, Satellite.make (.gcrs twoSamples) none = .ok s := ⟨_, rfl⟩

end Celest.Frames
