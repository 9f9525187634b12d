/-
C56: a geographic position converted to ITRS and back.
-/
import Verif.Frames.PropsContainers
import Verif.Frames.PropsGeo

namespace Celest.Frames

open Matrix Celest.TimeScale

/-- The latitudes of a geographic position, radians. -/
noncomputable def Geographic.latitudes (w : Geographic) : List (Option ℝ) :=
  w.samples.map fun s => s.2.1.map (· * w.angularUnit)

/-- C56 fails: the route matters.  A geographic position with a sample off the equator and the
poles is returned unchanged when converted to WGS84; converted to ITRS first, it never comes back
with the same latitudes. -/
theorem C56_itrs_and_back (w : Geographic) (location : Option Ground) (t lat lon h : ℝ)
    (hs : (t, some lat, lon, h) ∈ w.samples) (h0 : lat * w.angularUnit ≠ 0)
    (hlat : -(Real.pi / 2) < lat * w.angularUnit ∧ lat * w.angularUnit < Real.pi / 2)
    (hh : 0 < primeVertical (lat * w.angularUnit) + h * w.lengthUnit) :
    convert (.wgs84 w) .wgs84 location = .returned (.wgs84 w) ∧
    ∃ q, convert (.wgs84 w) .itrs location = .returned q ∧
      ∀ w', convert q .wgs84 location = .returned (.wgs84 w') → w'.latitudes ≠ w.latitudes := by
  refine ⟨C56_identity_partial (.wgs84 w) location (by simp [Position.frame]),
    .itrs (wgs84ToItrs w), by simp [convert, coordinateInit, Position.frame, convertTo,
      convertFromWgs84], ?_⟩
  intro w' hw' heq
  have hret : itrsToWgs84 (wgs84ToItrs w) = .returned (.wgs84 w') := by
    simpa [convert, coordinateInit, Position.frame, convertTo, convertFromItrs] using hw'
  obtain ⟨i, hi, hget⟩ := List.getElem_of_mem hs
  unfold itrsToWgs84 at hret
  simp only at hret
  split at hret
  · cases hret
  · rename_i hts hal
    simp only [Outcome.returned.injEq, Position.wgs84.injEq] at hret
    subst hret
    have hlen := congrArg List.length heq
    have hi' := congrArg (fun l => l[i]?) heq
    simp only [Geographic.latitudes, List.length_map, List.length_zipWith] at hlen
    have hil : i < hts.length := by
      have : w.samples.length ≤ hts.length := by rw [← hlen]; exact min_le_right _ _
      omega
    simp only [Geographic.latitudes, List.getElem?_map, List.getElem?_zipWith, wgs84ToItrs,
      List.map_map, List.getElem?_eq_getElem hi, List.getElem?_eq_getElem hil, hget,
      Option.map_some, Function.comp, Option.getD_some, one_smul, mul_one, Option.some.injEq,
      Option.map_id'] at hi'
    exact (C51_latitude_not_returned _ _ _ hlat h0 hh).1 hi'

/-- Non-vacuity: a station at 1/2 radian north, at sea level. -/
example : let w : Geographic := ⟨1, 1, [(2451545, some (1 / 2), 0, 0)]⟩
    ((2451545, some (1 / 2), 0, 0) : ℝ × Option ℝ × ℝ × ℝ) ∈ w.samples ∧
    (1 / 2 : ℝ) * w.angularUnit ≠ 0 ∧
    (-(Real.pi / 2) < (1 / 2 : ℝ) * w.angularUnit ∧ (1 / 2 : ℝ) * w.angularUnit < Real.pi / 2) ∧
    0 < primeVertical (1 / 2 * w.angularUnit) + 0 * w.lengthUnit := by
  have := Real.pi_gt_three
  refine ⟨by simp, by norm_num, ⟨?_, ?_⟩, ?_⟩
  · norm_num; linarith
  · norm_num; linarith
  · rw [zero_mul, add_zero]; exact primeVertical_pos _

end Celest.Frames
