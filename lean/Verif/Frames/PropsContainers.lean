/-
C56-C58: coordinate conversion, position containers and ground locations.
-/
import Verif.Frames.Containers
import Verif.Frames.PropsRotation

namespace Celest.Frames

open Matrix Celest.TimeScale

/-! ### C56 -/

/-- C56 (partial): a conversion to GCRS, ITRS, WGS84 or AzEl of a GCRS, ITRS or WGS84 position
returns a position of the requested frame, with one exception: AzEl without a location raises
`ValueError`.  Missing: conversions to WGS84 may also fail to return, see C52; any other source
raises `ValueError`; any other target is never reached (`C56_not_implemented`). -/
theorem C56_requested_frame_partial (p : Position) (frame : FrameName) (location : Option Ground)
    (hframe : frame = .gcrs ∨ frame = .itrs ∨ frame = .wgs84 ∨ frame = .azel) :
    ((p.frame = .gcrs ∨ p.frame = .itrs ∨ p.frame = .wgs84) →
      (frame = .azel ∧ location = none ∧ convert p frame location = .raised .valueError) ∨
      (frame = .wgs84 ∧ p.frame ≠ .wgs84 ∧ convert p frame location = .diverges) ∨
      (¬ (frame = .azel ∧ location = none) ∧
        ∃ q, convert p frame location = .returned q ∧ q.frame = frame)) ∧
    (¬ (p.frame = .gcrs ∨ p.frame = .itrs ∨ p.frame = .wgs84) →
      convert p frame location = .raised .valueError) := by
  have hw : ∀ c, itrsToWgs84 c = .diverges ∨ ∃ q, itrsToWgs84 c = .returned q ∧ q.frame = .wgs84 := by
    intro c
    unfold itrsToWgs84
    simp only
    cases altitude ((c.samples.map fun s => (s.1, c.unit • s.2)).map (·.2)) with
    | none => exact .inl rfl
    | some hs => exact .inr ⟨_, rfl, rfl⟩
  constructor
  · intro hp
    rcases hframe with rfl | rfl | rfl | rfl <;> cases p <;>
      simp [Position.frame, convert, coordinateInit, convertTo, convertFromGcrs, convertFromItrs,
        convertFromWgs84] at hp ⊢
    · rename_i c; exact hw _
    · rename_i c; exact hw _
    all_goals
      cases location <;> simp [itrsToAzel]
  · intro hp
    cases p <;> simp [Position.frame, convert, coordinateInit] at hp ⊢

/-- C56: converting to the frame a position already has returns it unchanged. -/
theorem C56_identity_partial (p : Position) (location : Option Ground)
    (hp : p.frame = .gcrs ∨ p.frame = .itrs ∨ p.frame = .wgs84) :
    convert p p.frame location = .returned p := by
  cases p <;> simp [Position.frame, convert, coordinateInit, convertTo] at hp ⊢

/-- C56 (partial): the result does not depend on the route.  Going through ITRS first gives the
same outcome as converting directly, for every other target and location.  Missing: going back to
WGS84, where the route matters (`C56_itrs_and_back`). -/
theorem C56_via_itrs_partial (p q : Position) (frame : FrameName) (location : Option Ground)
    (h : convert p .itrs location = .returned q)
    (hne : p.frame ≠ frame ∨ p.frame = .gcrs) : convert q frame location = convert p frame location := by
  cases p <;> simp [Position.frame, convert, coordinateInit, convertTo, convertFromGcrs,
    convertFromWgs84] at h hne ⊢
  · subst h
    cases frame <;> simp [convertFromItrs, (C46_round_trip _).1]
  · subst h
    rfl
  · subst h
    cases frame <;> simp [convertFromItrs] at hne ⊢

/-- C56: LVLH and attitude are never reached: those requests return `NotImplemented`. -/
theorem C56_not_implemented (p : Position) (location : Option Ground)
    (hp : p.frame = .gcrs ∨ p.frame = .itrs ∨ p.frame = .wgs84) :
    convert p .lvlh location = .notImplemented ∧ convert p .attitude location = .notImplemented := by
  cases p <;> simp [Position.frame, convert, coordinateInit, convertTo, convertFromGcrs,
    convertFromItrs, convertFromWgs84] at hp ⊢

/-- C56: conversion acts on each sample at its own time: instants are kept and in order. -/
def Position.times : Position → List ℝ
  | .gcrs c => c.samples.map (·.1)
  | .itrs c => c.samples.map (·.1)
  | .wgs84 w => w.samples.map (·.1)
  | .azel h => h.samples.map (·.1)
  | .lvlh c => c.samples.map (·.1)
  | .attitude c => c.samples.map (·.1)

theorem altState_length (pts : List Vec) (k : ℕ) : (altState pts k).length = pts.length := by
  induction k with
  | zero => simp [altState]
  | succ k ih => simp [altState, ih]

theorem itrsToWgs84_times (c : Cartesian) (q : Position) (h : itrsToWgs84 c = .returned q) :
    q.times = c.samples.map (·.1) := by
  unfold itrsToWgs84 at h
  simp only at h
  cases hs : altitude ((c.samples.map fun s => (s.1, c.unit • s.2)).map (·.2)) with
  | none => rw [hs] at h; cases h
  | some l =>
    rw [hs] at h
    simp only [Outcome.returned.injEq] at h
    subst h
    have hl : l.length = c.samples.length := by
      unfold altitude at hs
      split_ifs at hs
      rw [← Option.some.inj hs, List.length_map, altState_length]
      simp
    simp only [Position.times, List.map_zipWith]
    clear hs
    generalize c.samples = ss at hl ⊢
    induction ss generalizing l with
    | nil => simp
    | cons s ss ih =>
      cases l with
      | nil => simp at hl
      | cons x l =>
        simp only [List.map_cons, List.zipWith_cons_cons, List.cons.injEq, true_and]
        exact ih l (by simpa using hl)

/-- C56: every conversion keeps the number, order and times of the samples. -/
theorem C56_times_partial (p q : Position) (frame : FrameName) (location : Option Ground)
    (h : convert p frame location = .returned q) : q.times = p.times := by
  unfold convert at h
  cases hi : coordinateInit p with
  | error e => rw [hi] at h; cases h
  | ok b =>
    rw [hi] at h
    have hb : b = p := by
      unfold coordinateInit at hi
      split_ifs at hi
      exact (Except.ok.inj hi).symm
    subst hb
    unfold convertTo at h
    simp only at h
    split_ifs at h with he
    · rw [Outcome.returned.injEq] at h
      rw [h]
    · cases b with
      | gcrs c =>
        cases frame with
        | wgs84 =>
          have := itrsToWgs84_times _ _ (show itrsToWgs84 (gcrsToItrs c) = .returned q from h)
          rw [this]
          simp [gcrsToItrs, Position.times, Function.comp_def]
        | azel =>
          cases location <;> simp [convertFromGcrs] at h
          subst h
          simp [itrsToAzel, gcrsToItrs, Position.times, Function.comp_def]
        | _ =>
          simp [convertFromGcrs] at h
          try subst h
          try simp [gcrsToItrs, Position.times, Function.comp_def]
      | itrs c =>
        cases frame with
        | wgs84 =>
          exact itrsToWgs84_times _ _ (show itrsToWgs84 c = .returned q from h)
        | azel =>
          cases location <;> simp [convertFromItrs] at h
          subst h
          simp [itrsToAzel, Position.times, Function.comp_def]
        | _ =>
          simp [convertFromItrs] at h
          try subst h
          try simp [itrsToGcrs, Position.times, Function.comp_def]
      | wgs84 w =>
        cases frame with
        | azel =>
          cases location <;> simp [convertFromWgs84] at h
          subst h
          simp [itrsToAzel, wgs84ToItrs, Position.times, Function.comp_def]
        | _ =>
          simp [convertFromWgs84] at h
          try subst h
          try simp [itrsToGcrs, wgs84ToItrs, Position.times, Function.comp_def]
      | _ => cases h

/-- A conversion that goes through. -/
example : ∃ q, convert (.gcrs ⟨1, [(2460000, ![7000, 0, 0])]⟩) .azel (some ⟨1, 1, 0⟩) =
    .returned q ∧ q.frame = .azel := ⟨_, rfl, rfl⟩

/-! ### C57 -/

/-- C57: which lengths the constructors accept. -/
theorem C57_accepted (x y z t : ℕ) :
    (position3dInit ⟨[x]⟩ ⟨[y]⟩ ⟨[z]⟩ ⟨[t]⟩ = .ok () ↔ t = x ∨ x = y ∨ y = z) ∧
    (position2dInit ⟨[x]⟩ ⟨[y]⟩ ⟨[t]⟩ = .ok () ↔ t = x ∨ x = y) := by
  constructor
  · simp [position3dInit, Shape.ndim, Shape.size]
    tauto
  · simp [position2dInit, Shape.ndim, Shape.size]
    tauto

/-- C57: arrays that are not one-dimensional are refused, equal lengths are accepted. -/
theorem C57_consistent_partial (x y z time : Shape) :
    (position3dInit x y z time = .ok () →
      x.ndim = 1 ∧ y.ndim = 1 ∧ z.ndim = 1 ∧ time.ndim = 1) ∧
    (position2dInit x y time = .ok () → x.ndim = 1 ∧ y.ndim = 1 ∧ time.ndim = 1) ∧
    (∀ n, position3dInit ⟨[n]⟩ ⟨[n]⟩ ⟨[n]⟩ ⟨[n]⟩ = .ok () ∧
      position2dInit ⟨[n]⟩ ⟨[n]⟩ ⟨[n]⟩ = .ok ()) := by
  refine ⟨?_, ?_, ?_⟩
  · unfold position3dInit
    split_ifs with h1 h2
    · intro h; cases h
    · intro h; cases h
    · intro _; tauto
  · unfold position2dInit
    split_ifs with h1 h2
    · intro h; cases h
    · intro h; cases h
    · intro _; tauto
  · intro n
    simp [position3dInit, position2dInit, Shape.ndim, Shape.size]

/-- C57 fails: whenever one pair of neighbouring arrays agrees, the others may have any length. -/
theorem C57_inconsistent_accepted (n a b : ℕ) :
    position3dInit ⟨[n]⟩ ⟨[a]⟩ ⟨[b]⟩ ⟨[n]⟩ = .ok () ∧
    position3dInit ⟨[n]⟩ ⟨[n]⟩ ⟨[a]⟩ ⟨[b]⟩ = .ok () ∧
    position3dInit ⟨[a]⟩ ⟨[n]⟩ ⟨[n]⟩ ⟨[b]⟩ = .ok () ∧
    position2dInit ⟨[n]⟩ ⟨[a]⟩ ⟨[n]⟩ = .ok () ∧
    position2dInit ⟨[n]⟩ ⟨[n]⟩ ⟨[a]⟩ = .ok () := by
  simp [position3dInit, position2dInit, Shape.ndim, Shape.size]

example : position3dInit ⟨[5]⟩ ⟨[2]⟩ ⟨[7]⟩ ⟨[5]⟩ = .ok () ∧
    position3dInit ⟨[5]⟩ ⟨[2]⟩ ⟨[7]⟩ ⟨[4]⟩ = .error .valueError := by decide

/-! ### C58 -/

/-- Size of a degree in radians. -/
noncomputable def degree : ℝ := Real.pi / 180

/-- C58: with angles in degrees exactly the locations on the globe can be constructed. -/
theorem C58_degrees_partial (latitude longitude height lengthUnit : ℝ) :
    (∀ g, Ground.make latitude longitude height degree lengthUnit = .ok g →
      -(Real.pi / 2) ≤ g.lat ∧ g.lat ≤ Real.pi / 2 ∧ -Real.pi ≤ g.lon ∧ g.lon ≤ Real.pi ∧
      g.height = height * lengthUnit) ∧
    (-90 ≤ latitude → latitude ≤ 90 → -180 ≤ longitude → longitude ≤ 180 →
      ∃ g, Ground.make latitude longitude height degree lengthUnit = .ok g) ∧
    (latitude < -90 ∨ 90 < latitude ∨ longitude < -180 ∨ 180 < longitude →
      Ground.make latitude longitude height degree lengthUnit = .error .valueError) := by
  have hp := Real.pi_pos
  refine ⟨?_, ?_, ?_⟩
  · intro g h
    unfold Ground.make at h
    split_ifs at h with h1 h2
    have := Except.ok.inj h
    subst this
    push Not at h1 h2
    unfold degree
    simp only
    refine ⟨?_, ?_, ?_, ?_, trivial⟩ <;> nlinarith [h1.1, h1.2, h2.1, h2.2]
  · intro a b c d
    refine ⟨⟨latitude * degree, longitude * degree, height * lengthUnit⟩, ?_⟩
    unfold Ground.make
    rw [if_neg (by push Not; exact ⟨a, b⟩), if_neg (by push Not; exact ⟨c, d⟩)]
  · intro h
    unfold Ground.make
    split_ifs with h1 h2
    · rfl
    · rfl
    · push Not at h1 h2
      rcases h with h | h | h | h
      · exact absurd h (not_lt.2 h1.1)
      · exact absurd h (not_lt.2 h1.2)
      · exact absurd h (not_lt.2 h2.1)
      · exact absurd h (not_lt.2 h2.2)

/-- C58 fails for every other unit.  In a unit larger than a degree (radian, hour angle) a location
with latitude beyond the pole and longitude beyond 180 degrees is accepted; in a smaller unit
(arcminute, arcsecond) a location on the globe is refused. -/
theorem C58_other_units (u : ℝ) (hu : 0 < u) :
    (degree < u → ∃ latitude longitude g, Ground.make latitude longitude 0 u 1 = .ok g ∧
      Real.pi / 2 < g.lat ∧ Real.pi < g.lon) ∧
    (u < degree → ∃ latitude longitude, 0 ≤ latitude * u ∧ latitude * u ≤ Real.pi / 2 ∧
      0 ≤ longitude * u ∧ longitude * u ≤ Real.pi ∧
      Ground.make latitude longitude 0 u 1 = .error .valueError) := by
  have hp := Real.pi_pos
  constructor
  · intro h
    refine ⟨90, 180, ⟨90 * u, 180 * u, 0 * 1⟩, ?_, ?_, ?_⟩
    · unfold Ground.make
      rw [if_neg (by norm_num), if_neg (by norm_num)]
    · unfold degree at h
      simp only
      nlinarith
    · unfold degree at h
      simp only
      nlinarith
  · intro h
    refine ⟨Real.pi / 2 / u, 0, ?_, ?_, ?_, ?_, ?_⟩
    · positivity
    · rw [div_mul_cancel₀ _ hu.ne']
    · simp
    · simp [hp.le]
    · unfold Ground.make
      rw [if_pos]
      right
      rw [lt_div_iff₀ hu]
      unfold degree at h
      nlinarith

/-- The units are the radian and the arcminute. -/
example : degree < 1 ∧ degree / 60 < degree ∧ 0 < degree / 60 := by
  have h1 := Real.pi_pos
  have h2 := Real.pi_lt_four
  unfold degree
  refine ⟨?_, ?_, ?_⟩ <;> linarith

end Celest.Frames
