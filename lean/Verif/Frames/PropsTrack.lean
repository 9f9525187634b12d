/-
C127: converting a position to geographic coordinates and back.
-/
import Verif.Frames.PropsHemispheres
import Verif.Frames.PropsRotation
import Verif.Frames.PropsSatellite

namespace Celest.Frames

open Matrix Celest.TimeScale

/-- The altitudes a conversion uses are those `_altitude` returns. -/
theorem altitude_eq_some (pts : List Vec) (r : List ℝ) :
    altitude pts = some r ↔ AltitudeReturns pts r := by
  classical
  unfold altitude AltitudeReturns
  constructor
  · intro h
    split at h
    · rename_i hk
      rw [Option.some.injEq] at h
      subst h
      refine ⟨Nat.find hk, fun j hj => not_not.1 (Nat.find_min hk hj), Nat.find_spec hk, ?_⟩
      congr!
    · cases h
  · rintro ⟨k, hk, hstop, rfl⟩
    have hex : ∃ k, ¬ altContinue pts k := ⟨k, hstop⟩
    rw [dif_pos hex]
    have : Nat.find hex = k := (Nat.find_eq_iff hex).2 ⟨hstop, fun j hj => not_not.2 (hk j hj)⟩
    congr 3

/-- C52: the altitudes of `Satellite.altitude` and of conversions to WGS84 are those the statements
about `AltitudeReturns` speak of: the conversion of an ITRS position returns them in order. -/
theorem C52_altitudes_of_the_api (c : Cartesian) (location : Option Ground) (r : List ℝ)
    (h : AltitudeReturns (c.samples.map fun s => c.unit • s.2) r) :
    (∀ velocity s, Satellite.make (.itrs c) velocity = .ok s → s.altitudes = some r) ∧
    ∃ w : Geographic, convert (.itrs c) .wgs84 location = .returned (.wgs84 w) ∧
      w.lengthUnit = 1 ∧ (r.length = c.samples.length → w.samples.map (·.2.2.2) = r) := by
  have ha := (altitude_eq_some _ _).2 h
  constructor
  · intro velocity s hs
    have hp : s.position = c := by
      unfold Satellite.make toItrs at hs
      cases velocity with
      | none =>
        simp only [Except.ok.injEq] at hs
        rw [← hs]
      | some v =>
        simp only at hs
        cases v <;> simp only [Except.ok.injEq, reduceCtorEq] at hs <;> rw [← hs]
    unfold Satellite.altitudes Satellite.points
    rw [hp, ha]
  · have hconv : convert (.itrs c) .wgs84 location = itrsToWgs84 c := by
      simp [convert, coordinateInit, Position.frame, convertTo, convertFromItrs]
    rw [hconv]
    unfold itrsToWgs84
    simp only [List.map_map, Function.comp_def]
    rw [ha]
    refine ⟨_, rfl, rfl, fun hl => ?_⟩
    simp only [List.map_zipWith, List.zipWith_map_left]
    apply List.ext_getElem
    · simp [hl]
    · intro i h1 h2
      simp

/-! ### C127 -/

theorem cos_sin_arctan_div {p z r : ℝ} (hp : 0 < p) (hr : 0 < r) (h : r ^ 2 = p ^ 2 + z ^ 2) :
    Real.cos (Real.arctan (z / p)) = p / r ∧ Real.sin (Real.arctan (z / p)) = z / r := by
  have e : Real.sqrt (1 + (z / p) ^ 2) = r / p := by
    rw [Real.sqrt_eq_iff_mul_self_eq (by positivity) (by positivity)]
    field_simp
    exact h.symm
  rw [Real.cos_arctan, Real.sin_arctan, e]
  constructor <;> field_simp

/-- The radius of curvature lies between the two axes' extremes. -/
theorem primeVertical_bounds (lat : ℝ) :
    6378.137 ≤ primeVertical lat ∧ primeVertical lat ≤ 6399.6 := by
  have h := primeVertical_sq lat
  have hn := primeVertical_pos lat
  have hA : axisA = 6378.137 := rfl
  have hs := Real.sin_sq_le_one lat
  have hs0 := sq_nonneg (Real.sin lat)
  have he : 0 ≤ ecc ^ 2 ∧ ecc ^ 2 ≤ 0.006694380 := by unfold ecc; norm_num
  rw [hA] at h
  have h1 : 0 ≤ ecc ^ 2 * Real.sin lat ^ 2 := mul_nonneg he.1 hs0
  have h2 : ecc ^ 2 * Real.sin lat ^ 2 ≤ 0.006694380 := by
    have := mul_le_mul he.2 hs hs0 (by norm_num)
    linarith
  generalize ecc ^ 2 * Real.sin lat ^ 2 = q at *
  generalize primeVertical lat = n at *
  have hnn := pow_pos hn 2
  constructor
  · refine (sq_le_sq₀ (by norm_num) hn.le).1 ?_
    have := mul_nonneg hnn.le h1
    linarith
  · refine (sq_le_sq₀ hn.le (by norm_num)).1 ?_
    have := mul_le_mul_of_nonneg_left h2 hnn.le
    linarith

/-- The first part of the round trip of one position: where it comes back, in terms of the altitude
found for it. -/
theorem back_again {v : Vec} (h : NearOrAboveEarth v) (a : ℝ) :
    ∃ lat, itrsLatitude v = some lat ∧
      wgs84ToItrs1 lat (itrsLongitude v) a =
        ![(primeVertical lat + a) / ‖toE v‖ * v 0, (primeVertical lat + a) / ‖toE v‖ * v 1,
          (primeVertical lat * (1 - ecc ^ 2) + a) / ‖toE v‖ * v 2] := by
  have hp := axisDistance_pos h.1
  have hr : 0 < ‖toE v‖ := by linarith [h.2]
  have hsq : ‖toE v‖ ^ 2 = axisDistance v ^ 2 + v 2 ^ 2 := by
    rw [norm_eq_sqrt, Real.sq_sqrt (by positivity)]
  obtain ⟨h1, h2⟩ := cos_sin_arctan_div hp hr hsq
  obtain ⟨h3, h4⟩ := arctan2_polar (v 1) (v 0) (axisDistance v) hp (axisDistance_sq v).symm
  refine ⟨Real.arctan (v 2 / axisDistance v), ?_, ?_⟩
  · unfold itrsLatitude
    have : axisDistance v ≠ 0 := hp.ne'
    unfold axisDistance at this ⊢
    simp only [if_neg this]
  · simp only [wgs84ToItrs1, itrsLongitude, h1, h2]
    ext i
    fin_cases i
    · simp only [Fin.zero_eta, cons_val_zero]
      rw [mul_div_assoc', div_mul_eq_mul_div, mul_assoc, h3, div_mul_eq_mul_div]
    · simp only [Fin.mk_one, cons_val_one]
      rw [mul_div_assoc', div_mul_eq_mul_div, mul_assoc, h4, div_mul_eq_mul_div]
      rfl
    · simp
      ring

/-- How far the round trip moves one position. -/
theorem moved {v : Vec} (h : NearOrAboveEarth v) {k m b : ℝ} (hb : 0 ≤ b)
    (hk : |(k - 1) * ‖toE v‖| ≤ b) (hm : |(m - 1) * ‖toE v‖| ≤ b) :
    |k - m| * |v 2| * axisDistance v / ‖toE v‖ ≤ dist (toE ![k * v 0, k * v 1, m * v 2]) (toE v) ∧
    dist (toE ![k * v 0, k * v 1, m * v 2]) (toE v) ≤ b := by
  have hp := axisDistance_pos h.1
  have hr : 0 < ‖toE v‖ := by linarith [h.2]
  have hsq : ‖toE v‖ ^ 2 = axisDistance v ^ 2 + v 2 ^ 2 := by
    rw [norm_eq_sqrt, Real.sq_sqrt (by positivity)]
  have hd : dist (toE ![k * v 0, k * v 1, m * v 2]) (toE v) =
      Real.sqrt ((k - 1) ^ 2 * axisDistance v ^ 2 + (m - 1) ^ 2 * v 2 ^ 2) := by
    rw [dist_toE]
    unfold vnorm
    congr 1
    rw [axisDistance_sq]
    simp only [dotProduct, Fin.sum_univ_three]
    simp
    ring
  rw [hd]
  have hk2 : (k - 1) ^ 2 * ‖toE v‖ ^ 2 ≤ b ^ 2 := by
    rw [← mul_pow, ← sq_abs]
    exact pow_le_pow_left₀ (abs_nonneg _) hk 2
  have hm2 : (m - 1) ^ 2 * ‖toE v‖ ^ 2 ≤ b ^ 2 := by
    rw [← mul_pow, ← sq_abs]
    exact pow_le_pow_left₀ (abs_nonneg _) hm 2
  generalize hz : v 2 = z at *
  generalize axisDistance v = p at *
  generalize ‖toE v‖ = r at *
  constructor
  · apply Real.le_sqrt_of_sq_le
    rw [div_pow, div_le_iff₀ (by positivity), mul_pow, mul_pow, sq_abs, sq_abs, hsq]
    have := sq_nonneg ((k - 1) * p ^ 2 + (m - 1) * z ^ 2)
    linarith
  · apply Real.sqrt_le_iff.2 ⟨hb, ?_⟩
    have h1 := mul_le_mul_of_nonneg_right hk2 (sq_nonneg p)
    have h2 := mul_le_mul_of_nonneg_right hm2 (sq_nonneg z)
    have h3 : ((k - 1) ^ 2 * p ^ 2 + (m - 1) ^ 2 * z ^ 2) * r ^ 2 ≤ b ^ 2 * r ^ 2 := by
      calc _ = (k - 1) ^ 2 * r ^ 2 * p ^ 2 + (m - 1) ^ 2 * r ^ 2 * z ^ 2 := by ring
        _ ≤ b ^ 2 * p ^ 2 + b ^ 2 * z ^ 2 := add_le_add h1 h2
        _ = _ := by rw [hsq]; ring
    exact le_of_mul_le_mul_right h3 (by positivity)

/-- `t` is where the position `v` comes back: on the same meridian, nearer to the equator, at least
`42.69 sin ψ cos ψ` kilometres away for the geocentric latitude `ψ`, at most 45. -/
def ComesBackAt (v t : Vec) : Prop :=
  (∃ k m : ℝ, 0 < m ∧ m < k ∧ t = ![k * v 0, k * v 1, m * v 2]) ∧
  42.69 * (|v 2| / ‖toE v‖) * (Real.sqrt (v 0 ^ 2 + v 1 ^ 2) / ‖toE v‖) ≤ dist (toE t) (toE v) ∧
  dist (toE t) (toE v) ≤ 45

theorem NearOrAboveEarth.start_near {v : Vec} (h : NearOrAboveEarth v) (j : ℕ) :
    |heightSeq v j - (‖toE v‖ - Real.sqrt (axisA * axisB))| ≤ 12.01 := by
  obtain ⟨t, -, h0, hk⟩ := h.after
  cases j with
  | zero =>
    simp only [heightSeq, sub_self, abs_zero]
    norm_num
  | succ j =>
    have := hk j
    have e : heightSeq v 0 = ‖toE v‖ - Real.sqrt (axisA * axisB) := rfl
    rw [e] at h0
    have := abs_sub_le (heightSeq v (j + 1)) t (‖toE v‖ - Real.sqrt (axisA * axisB))
    rw [abs_sub_comm t] at this
    linarith

theorem comes_back {v : Vec} (h : NearOrAboveEarth v) {a : ℝ}
    (ha : |a - (‖toE v‖ - Real.sqrt (axisA * axisB))| ≤ 12.02) :
    ∃ lat, itrsLatitude v = some lat ∧ ComesBackAt v (wgs84ToItrs1 lat (itrsLongitude v) a) := by
  obtain ⟨lat, hlat, e⟩ := back_again h a
  refine ⟨lat, hlat, ?_⟩
  rw [e]
  have hr : 0 < ‖toE v‖ := by linarith [h.2]
  have hr6 := h.2
  obtain ⟨hn1, hn2⟩ := primeVertical_bounds lat
  have hg := gm_tight
  have he : 0.0066943799 ≤ ecc ^ 2 ∧ ecc ^ 2 ≤ 0.006694380 := by unfold ecc; norm_num
  have ha' := abs_le.1 ha
  generalize primeVertical lat = n at *
  have hne1 : 42.69 ≤ ecc ^ 2 * n := by
    have := mul_le_mul he.1 hn1 (by norm_num) (by linarith [he.1])
    linarith
  have hne2 : ecc ^ 2 * n ≤ 42.85 := by
    have := mul_le_mul he.2 hn2 (by linarith) (by norm_num)
    linarith
  have hmm := mul_le_mul_of_nonneg_left hn2 (by linarith [he.2] : 0 ≤ 1 - ecc ^ 2)
  have hk : |((n + a) / ‖toE v‖ - 1) * ‖toE v‖| ≤ 45 := by
    have : ((n + a) / ‖toE v‖ - 1) * ‖toE v‖ = n + a - ‖toE v‖ := by field_simp
    rw [this, abs_le]
    constructor <;> linarith [hg.1, hg.2]
  have hm : |((n * (1 - ecc ^ 2) + a) / ‖toE v‖ - 1) * ‖toE v‖| ≤ 45 := by
    have : ((n * (1 - ecc ^ 2) + a) / ‖toE v‖ - 1) * ‖toE v‖ =
        n - ecc ^ 2 * n + a - ‖toE v‖ := by field_simp
    rw [this, abs_le]
    constructor <;> linarith [hg.1, hg.2]
  obtain ⟨h1, h2⟩ := moved h (by norm_num) hk hm
  have hpos : 0 < (n * (1 - ecc ^ 2) + a) := by
    have : n * (1 - ecc ^ 2) = n - ecc ^ 2 * n := by ring
    linarith [hg.1, hg.2]
  refine ⟨⟨_, _, div_pos hpos hr, ?_, rfl⟩, ?_, h2⟩
  · apply (div_lt_div_iff_of_pos_right hr).2
    linarith
  · refine le_trans ?_ h1
    have hd : (n + a) / ‖toE v‖ - (n * (1 - ecc ^ 2) + a) / ‖toE v‖ = ecc ^ 2 * n / ‖toE v‖ := by
      ring
    rw [hd, abs_of_pos (div_pos (by linarith) hr)]
    have hx : 0 ≤ |v 2| * axisDistance v / (‖toE v‖ * ‖toE v‖) :=
      div_nonneg (mul_nonneg (abs_nonneg _) (axisDistance_pos h.1).le) (by positivity)
    have := mul_le_mul_of_nonneg_right hne1 hx
    calc _ = 42.69 * (|v 2| * axisDistance v / (‖toE v‖ * ‖toE v‖)) := by
            unfold axisDistance
            field_simp
      _ ≤ _ := this
      _ = _ := by field_simp

/-- C127 (what holds instead): for every array of positions off the polar axis and at least 6000 km
from the centre, converting to WGS84 and back to ITRS returns as many positions at the same times,
each on the meridian it came from and never more than 45 km away — but moved towards the equator by
at least `42.69 sin ψ cos ψ` km, where `ψ` is its geocentric latitude. -/
theorem C127_itrs_there_and_back_partial (c : Cartesian) (location location' : Option Ground)
    (h : ∀ s ∈ c.samples, NearOrAboveEarth (c.unit • s.2)) :
    ∃ w q, convert (.itrs c) .wgs84 location = .returned w ∧
      convert w .itrs location' = .returned (.itrs q) ∧ q.unit = 1 ∧
      List.Forall₂ (fun s t => t.1 = s.1 ∧ ComesBackAt (c.unit • s.2) t.2) c.samples q.samples := by
  have hp : ∀ v ∈ c.samples.map (fun s => c.unit • s.2), NearOrAboveEarth v := by
    intro v hv
    obtain ⟨s, hs, rfl⟩ := List.mem_map.1 hv
    exact h s hs
  have hd : ∀ v ∈ c.samples.map (fun s => c.unit • s.2), 0 < axisDistance v :=
    fun v hv => axisDistance_pos (hp v hv).1
  obtain ⟨r, hr, -⟩ := C75_altitude_returns _ hp
  have ha := (altitude_eq_some _ _).2 hr
  obtain ⟨k, -, -, rfl⟩ := hr
  rw [altState_eq _ hd, List.map_map, List.map_map] at ha
  have hconv : convert (.itrs c) .wgs84 location = itrsToWgs84 c := by
    simp [convert, coordinateInit, Position.frame, convertTo, convertFromItrs]
  refine ⟨.wgs84 ⟨1, 1, c.samples.map fun s => (s.1, itrsLatitude (c.unit • s.2),
    itrsLongitude (c.unit • s.2), heightSeq (c.unit • s.2) k)⟩, wgs84ToItrs ⟨1, 1, c.samples.map
    fun s => (s.1, itrsLatitude (c.unit • s.2), itrsLongitude (c.unit • s.2),
      heightSeq (c.unit • s.2) k)⟩, ?_, ?_, rfl, ?_⟩
  · rw [hconv]
    unfold itrsToWgs84
    simp only [List.map_map, Function.comp_def] at ha ⊢
    rw [ha]
    simp [List.zipWith_map]
  · simp only [convert, coordinateInit, Position.frame, convertTo, convertFromWgs84]
    rfl
  · simp only [wgs84ToItrs, List.map_map, Function.comp_def]
    rw [List.forall₂_map_right_iff, List.forall₂_same]
    intro s hs
    refine ⟨rfl, ?_⟩
    obtain ⟨lat, hlat, hc⟩ := comes_back (h s hs) (((h s hs).start_near k).trans (by norm_num))
    simpa [hlat] using hc

theorem ComesBackAt.away {v t : Vec} (h : NearOrAboveEarth v) (hz : v 2 ≠ 0)
    (ht : ComesBackAt v t) : t ≠ v := by
  have hr : 0 < ‖toE v‖ := by linarith [h.2]
  have hp := axisDistance_pos h.1
  unfold axisDistance at hp
  have h0 : 0 < dist (toE t) (toE v) := by
    refine lt_of_lt_of_le ?_ ht.2.1
    exact mul_pos (mul_pos (by norm_num) (div_pos (abs_pos.2 hz) hr)) (div_pos hp hr)
  rintro rfl
  rw [dist_self] at h0
  exact lt_irrefl _ h0

/-- C127 is false: whatever positions are converted together, none off the equatorial plane comes
back as it was. -/
theorem C127_never_returned (c : Cartesian) (location location' : Option Ground)
    (h : ∀ s ∈ c.samples, NearOrAboveEarth (c.unit • s.2)) (w : Position) (q : Cartesian)
    (hw : convert (.itrs c) .wgs84 location = .returned w)
    (hq : convert w .itrs location' = .returned (.itrs q)) :
    List.Forall₂ (fun s t => (c.unit • s.2) 2 ≠ 0 → q.unit • t.2 ≠ c.unit • s.2)
      c.samples q.samples := by
  obtain ⟨w', q', hw', hq', hu, hall⟩ := C127_itrs_there_and_back_partial c location location' h
  obtain rfl : w = w' := by
    rw [hw] at hw'
    exact Outcome.returned.inj hw'
  obtain rfl : q = q' := by
    rw [hq] at hq'
    exact Position.itrs.inj (Outcome.returned.inj hq')
  rw [List.forall₂_iff_get] at hall ⊢
  refine ⟨hall.1, fun i h1 h2 hz => ?_⟩
  rw [hu, one_smul]
  exact (hall.2 i h1 h2).2.away (h _ (List.get_mem _ _)) hz

/-- C127 for inertial positions: converting to WGS84 and back to GCRS moves each position by as much
as the round trip of its ITRS coordinates. -/
theorem C127_gcrs_there_and_back_partial (c : Cartesian) (location location' : Option Ground)
    (h : ∀ s ∈ c.samples, NearOrAboveEarth (c.unit • gcrsToItrs1 s.1 s.2)) :
    ∃ w q, convert (.gcrs c) .wgs84 location = .returned w ∧
      convert w .gcrs location' = .returned (.gcrs q) ∧ q.unit = 1 ∧
      List.Forall₂ (fun s t => t.1 = s.1 ∧
        ComesBackAt (c.unit • gcrsToItrs1 s.1 s.2) (gcrsToItrs1 t.1 t.2) ∧
        dist (toE t.2) (toE (c.unit • s.2)) =
          dist (toE (gcrsToItrs1 t.1 t.2)) (toE (c.unit • gcrsToItrs1 s.1 s.2)))
        c.samples q.samples := by
  obtain ⟨w, q, hw, hq, hu, hall⟩ := C127_itrs_there_and_back_partial (gcrsToItrs c) location
    location' (by
      intro s hs
      simp only [gcrsToItrs, List.mem_map] at hs ⊢
      obtain ⟨s', hs', rfl⟩ := hs
      exact h s' hs')
  have hw' : convert (.gcrs c) .wgs84 location = .returned w := by
    rw [← hw]
    simp [convert, coordinateInit, Position.frame, convertTo, convertFromGcrs, convertFromItrs]
  obtain ⟨w', rfl⟩ : ∃ w', w = .wgs84 w' := by
    have : convert (.itrs (gcrsToItrs c)) .wgs84 location = itrsToWgs84 (gcrsToItrs c) := by
      simp [convert, coordinateInit, Position.frame, convertTo, convertFromItrs]
    rw [this] at hw
    unfold itrsToWgs84 at hw
    simp only at hw
    split at hw
    · cases hw
    · simp only [Outcome.returned.injEq] at hw
      exact ⟨_, hw.symm⟩
  have hq' : q = wgs84ToItrs w' := by
    simp only [convert, coordinateInit, Position.frame, convertTo, convertFromWgs84] at hq
    simp at hq
    exact hq.symm
  refine ⟨_, itrsToGcrs q, hw', ?_, hu, ?_⟩
  · rw [hq']
    simp [convert, coordinateInit, Position.frame, convertTo, convertFromWgs84]
  · simp only [itrsToGcrs]
    rw [List.forall₂_map_right_iff]
    simp only [gcrsToItrs] at hall
    rw [List.forall₂_map_left_iff] at hall
    refine hall.imp ?_
    intro s t hst
    refine ⟨hst.1, ?_, ?_⟩
    · simp only [itrs_gcrs1]
      exact hst.2
    · obtain ⟨m, -, hm, -⟩ := (C47_rotations s.1).2.2.2.1
      rw [← (C47_rotations s.1).2.2.2.2.1]
      simp only [hst.1, itrs_gcrs1]
      rw [hm, hm, Matrix.mulVec_smul]

/-- A position over 45 degrees north comes back more than 20 km away. -/
example : ∃ w q, convert (.itrs ⟨1, [(2460000, ![5000, 0, 5000])]⟩) .wgs84 none = .returned w ∧
    convert w .itrs none = .returned (.itrs q) ∧ ∃ t, q.samples = [(2460000, t)] ∧
      20 < dist (toE t) (toE ![5000, 0, 5000]) := by
  have hn : ‖toE ![5000, 0, 5000]‖ ^ 2 = 5000 ^ 2 + 5000 ^ 2 := by
    rw [norm_eq_sqrt, Real.sq_sqrt (by positivity), axisDistance_sq]
    simp
  have hn6 : 6000 ≤ ‖toE ![5000, 0, 5000]‖ := by
    refine (sq_le_sq₀ (by norm_num) (norm_nonneg _)).1 ?_
    rw [hn]
    norm_num
  obtain ⟨w, q, h1, h2, -, h3⟩ := C127_itrs_there_and_back_partial
    ⟨1, [(2460000, ![5000, 0, 5000])]⟩ none none (by
      intro s hs
      simp only [List.mem_singleton] at hs
      subst hs
      rw [one_smul]
      exact ⟨Or.inl (by simp), hn6⟩)
  refine ⟨w, q, h1, h2, ?_⟩
  simp only at h3
  obtain ⟨t, ts, ht, hts, he⟩ := List.forall₂_cons_left_iff.1 h3
  rw [List.forall₂_nil_left_iff] at hts
  subst hts
  obtain ⟨j, t⟩ := t
  obtain ⟨ht1, -, hlow, -⟩ := ht
  simp only at ht1
  subst ht1
  refine ⟨t, he, lt_of_lt_of_le ?_ (by simpa only [one_smul] using hlow)⟩
  have e : Real.sqrt ((![5000, 0, 5000] : Vec) 0 ^ 2 + (![5000, 0, 5000] : Vec) 1 ^ 2) = 5000 := by
    simp
  rw [e]
  have e2 : |(![5000, 0, 5000] : Vec) 2| = 5000 := by simp
  rw [e2]
  have : 42.69 * (5000 / ‖toE ![5000, 0, 5000]‖) * (5000 / ‖toE ![5000, 0, 5000]‖) =
      42.69 * 5000 ^ 2 / ‖toE ![5000, 0, 5000]‖ ^ 2 := by ring
  rw [this, hn]
  norm_num

end Celest.Frames
