/-
C50-C52: geographic coordinates and altitude.
-/
import Verif.Frames.PropsRotation

namespace Celest.Frames

open Matrix Celest.TimeScale

theorem axisA_pos : 0 < axisA := by unfold axisA; norm_num
theorem ecc_sq : 0 < ecc ^ 2 ∧ ecc ^ 2 < 1 / 100 := by unfold ecc; norm_num

theorem curvature_pos (lat : ℝ) : 0 < 1 - ecc ^ 2 * Real.sin lat ^ 2 := by
  have := ecc_sq
  nlinarith [Real.sin_sq_le_one lat, sq_nonneg (Real.sin lat)]

theorem primeVertical_pos (lat : ℝ) : 0 < primeVertical lat :=
  div_pos axisA_pos (Real.sqrt_pos.2 (curvature_pos lat))

theorem primeVertical_sq (lat : ℝ) :
    primeVertical lat ^ 2 * (1 - ecc ^ 2 * Real.sin lat ^ 2) = axisA ^ 2 := by
  unfold primeVertical
  rw [div_pow, Real.sq_sqrt (curvature_pos lat).le]
  have := (curvature_pos lat).ne'
  field_simp

/-- The unit vector with the given geographic latitude and longitude. -/
noncomputable def unitAt (lat lon : ℝ) : Vec :=
  ![Real.cos lat * Real.cos lon, Real.cos lat * Real.sin lon, Real.sin lat]

theorem unitAt_norm (lat lon : ℝ) : ‖toE (unitAt lat lon)‖ = 1 := by
  rw [norm_toE]
  unfold vnorm unitAt
  rw [Real.sqrt_eq_one]
  simp only [dotProduct, Fin.sum_univ_three]
  simp
  linear_combination Real.sin_sq_add_cos_sq lat +
    Real.cos lat ^ 2 * Real.sin_sq_add_cos_sq lon

theorem wgs84_height (lat lon h : ℝ) :
    wgs84ToItrs1 lat lon h = wgs84ToItrs1 lat lon 0 + h • unitAt lat lon := by
  ext i
  fin_cases i <;> simp [wgs84ToItrs1, unitAt] <;> ring

theorem wgs84_on_ellipsoid (lat lon : ℝ) :
    OnEllipsoid (axisA ^ 2) (axisA ^ 2 * (1 - ecc ^ 2)) (wgs84ToItrs1 lat lon 0) := by
  have ha := axisA_pos.ne'
  have h1 : 1 - ecc ^ 2 ≠ 0 := by linarith [ecc_sq.2]
  have hn := primeVertical_sq lat
  simp only [OnEllipsoid, wgs84ToItrs1]
  simp
  generalize primeVertical lat = n at *
  field_simp
  rw [← hn]
  linear_combination (n ^ 2 * Real.cos lat ^ 2) * Real.sin_sq_add_cos_sq lon +
    n ^ 2 * Real.sin_sq_add_cos_sq lat

/-- C50: for every latitude and longitude the point of height zero lies on the ellipsoid with
equatorial semi-axis `a` and polar semi-axis `a sqrt(1 - e²)`; the point of height `h` is reached
from it by going exactly `h` along the outward unit normal, which is the direction with that
latitude and longitude; and a ground location's ITRS coordinates agree with the conversion. -/
theorem C50_ellipsoid (lat lon h : ℝ) :
    OnEllipsoid (axisA ^ 2) (axisA ^ 2 * (1 - ecc ^ 2)) (wgs84ToItrs1 lat lon 0) ∧
    IsHeight (axisA ^ 2) (axisA ^ 2 * (1 - ecc ^ 2)) (wgs84ToItrs1 lat lon h) h ∧
    wgs84ToItrs1 lat lon h - wgs84ToItrs1 lat lon 0 =
      h • ![Real.cos lat * Real.cos lon, Real.cos lat * Real.sin lon, Real.sin lat] ∧
    dist (toE (wgs84ToItrs1 lat lon h)) (toE (wgs84ToItrs1 lat lon 0)) = |h| ∧
    (Ground.mk lat lon h).itrs = wgs84ToItrs1 lat lon h := by
  have ha := axisA_pos.ne'
  have h1 : 1 - ecc ^ 2 ≠ 0 := by linarith [ecc_sq.2]
  have hd : wgs84ToItrs1 lat lon h - wgs84ToItrs1 lat lon 0 = h • unitAt lat lon := by
    rw [wgs84_height]; simp
  refine ⟨wgs84_on_ellipsoid lat lon, ⟨wgs84ToItrs1 lat lon 0, wgs84_on_ellipsoid lat lon,
    unitAt lat lon, unitAt_norm lat lon, ⟨axisA ^ 2 / primeVertical lat,
      div_pos (pow_pos axisA_pos 2) (primeVertical_pos lat), ?_⟩, wgs84_height lat lon h⟩,
    hd, ?_, rfl⟩
  · have hn := (primeVertical_pos lat).ne'
    ext i
    fin_cases i <;> simp [ellipsoidGradient, wgs84ToItrs1, unitAt] <;> field_simp
  · rw [dist_toE, hd, vnorm_smul, ← norm_toE, unitAt_norm, mul_one]

/-- The polar semi-axis `a sqrt(1 - e²)` used by the conversion differs from the polar semi-axis
used by the altitude by less than a micrometre, and they are not equal. -/
theorem C50_two_polar_axes :
    |Real.sqrt (axisA ^ 2 * (1 - ecc ^ 2)) - axisB| < 1 / 10 ^ 9 ∧
    Real.sqrt (axisA ^ 2 * (1 - ecc ^ 2)) ≠ axisB := by
  have e : axisA ^ 2 * (1 - ecc ^ 2) = axisB ^ 2 + 9734809905676596 / 10 ^ 24 +
      (axisA ^ 2 * (1 - ecc ^ 2) - axisB ^ 2 - 9734809905676596 / 10 ^ 24) := by ring
  have hd : 0 < axisA ^ 2 * (1 - ecc ^ 2) - axisB ^ 2 ∧
      axisA ^ 2 * (1 - ecc ^ 2) - axisB ^ 2 < 1 / 10 ^ 8 := by
    unfold axisA axisB ecc
    norm_num
  have hB : 1000 < axisB := by unfold axisB; norm_num
  have hs : 0 ≤ axisA ^ 2 * (1 - ecc ^ 2) := by nlinarith
  have hsq := Real.sq_sqrt hs
  have hnn := Real.sqrt_nonneg (axisA ^ 2 * (1 - ecc ^ 2))
  set s := Real.sqrt (axisA ^ 2 * (1 - ecc ^ 2))
  have hgt : axisB < s := by nlinarith
  refine ⟨?_, hgt.ne'⟩
  rw [abs_of_pos (by linarith)]
  have : (s - axisB) * (s + axisB) < 1 / 10 ^ 8 := by nlinarith
  by_contra hc
  push Not at hc
  nlinarith

/-! ### C51 -/

/-- C51: the longitude survives the round trip. -/
theorem C51_longitude_partial (lat lon h : ℝ) (hlat : -(Real.pi / 2) < lat ∧ lat < Real.pi / 2)
    (hlon : -Real.pi < lon ∧ lon ≤ Real.pi) (hh : 0 < primeVertical lat + h) :
    itrsLongitude (wgs84ToItrs1 lat lon h) = lon := by
  have hc : 0 < Real.cos lat := Real.cos_pos_of_mem_Ioo hlat
  have hr : 0 < (primeVertical lat + h) * Real.cos lat := mul_pos hh hc
  have e : (⟨(primeVertical lat + h) * Real.cos lat * Real.cos lon,
      (primeVertical lat + h) * Real.cos lat * Real.sin lon⟩ : ℂ) =
      ((primeVertical lat + h) * Real.cos lat : ℝ) *
        (Complex.cos lon + Complex.sin lon * Complex.I) := by
    apply Complex.ext <;>
      simp [← Complex.ofReal_cos, ← Complex.ofReal_sin, -Complex.ofReal_mul]
  show Complex.arg ⟨(primeVertical lat + h) * Real.cos lat * Real.cos lon,
      (primeVertical lat + h) * Real.cos lat * Real.sin lon⟩ = lon
  rw [e]
  exact Complex.arg_mul_cos_add_sin_mul_I hr ⟨hlon.1, hlon.2⟩

/-- C51: what the round trip does to the latitude. -/
theorem C51_latitude_partial (lat lon h : ℝ) (hlat : -(Real.pi / 2) < lat ∧ lat < Real.pi / 2)
    (hh : 0 < primeVertical lat + h) :
    itrsLatitude (wgs84ToItrs1 lat lon h) = some (Real.arctan
      ((1 - ecc ^ 2 * primeVertical lat / (primeVertical lat + h)) * Real.tan lat)) := by
  have hc : 0 < Real.cos lat := Real.cos_pos_of_mem_Ioo hlat
  have hp : Real.sqrt ((wgs84ToItrs1 lat lon h) 0 ^ 2 + (wgs84ToItrs1 lat lon h) 1 ^ 2) =
      (primeVertical lat + h) * Real.cos lat := by
    rw [← Real.sqrt_sq (mul_pos hh hc).le]
    congr 1
    simp only [wgs84ToItrs1]
    simp
    linear_combination ((primeVertical lat + h) * Real.cos lat) ^ 2 * Real.sin_sq_add_cos_sq lon
  unfold itrsLatitude
  simp only [hp]
  rw [if_neg (mul_pos hh hc).ne']
  congr 2
  simp only [wgs84ToItrs1, Real.tan_eq_sin_div_cos]
  simp
  field_simp
  ring

/-- C51 fails: away from the equator and the poles the latitude is never returned; for a station
on the ellipsoid or above it the result is always closer to the equator. -/
theorem C51_latitude_not_returned (lat lon h : ℝ)
    (hlat : -(Real.pi / 2) < lat ∧ lat < Real.pi / 2)
    (h0 : lat ≠ 0) (hh : 0 < primeVertical lat + h) :
    itrsLatitude (wgs84ToItrs1 lat lon h) ≠ some lat ∧
    (0 ≤ h → ∃ r, itrsLatitude (wgs84ToItrs1 lat lon h) = some r ∧
      (0 < lat → 0 < r ∧ r < lat) ∧ (lat < 0 → lat < r ∧ r < 0)) := by
  have hn := primeVertical_pos lat
  have he := ecc_sq
  have hc : 0 < Real.cos lat := Real.cos_pos_of_mem_Ioo hlat
  have hk : 0 < ecc ^ 2 * primeVertical lat / (primeVertical lat + h) :=
    div_pos (mul_pos he.1 hn) hh
  have hat : Real.arctan (Real.tan lat) = lat := Real.arctan_tan hlat.1 hlat.2
  rw [C51_latitude_partial lat lon h hlat hh]
  constructor
  · intro heq
    have h1 := Option.some.inj heq
    have h2 := congrArg Real.tan h1
    rw [Real.tan_arctan] at h2
    have ht : Real.tan lat ≠ 0 := by
      intro ht
      rw [ht, Real.arctan_zero] at hat
      exact h0 hat.symm
    have h3 : 1 - ecc ^ 2 * primeVertical lat / (primeVertical lat + h) = 1 :=
      mul_right_cancel₀ ht (h2.trans (one_mul _).symm)
    linarith
  · intro hnn
    refine ⟨_, rfl, ?_, ?_⟩
    all_goals
      intro hpos
      have hk1 : ecc ^ 2 * primeVertical lat / (primeVertical lat + h) < 1 := by
        rw [div_lt_one hh]
        nlinarith
    · have ht : 0 < Real.tan lat := Real.tan_pos_of_pos_of_lt_pi_div_two hpos hlat.2
      constructor
      · exact Real.arctan_pos.2 (mul_pos (by linarith) ht)
      · conv_rhs => rw [← hat]
        apply Real.arctan_strictMono
        nlinarith
    · have ht : Real.tan lat < 0 := Real.tan_neg_of_neg_of_pi_div_two_lt hpos hlat.1
      constructor
      · conv_lhs => rw [← hat]
        apply Real.arctan_strictMono
        nlinarith
      · rw [← Real.arctan_zero]
        apply Real.arctan_strictMono
        nlinarith

/-- The hypotheses hold at 45 degrees north, sea level. -/
example : (-(Real.pi / 2) < Real.pi / 4 ∧ Real.pi / 4 < Real.pi / 2) ∧ Real.pi / 4 ≠ 0 ∧
    0 < primeVertical (Real.pi / 4) + 0 := by
  have := Real.pi_pos
  refine ⟨⟨by linarith, by linarith⟩, by positivity, ?_⟩
  rw [add_zero]
  exact primeVertical_pos _

/-! ### C52 -/

/-- C52 fails: for every array of points in the equatorial plane the altitude returned is the
distance from the centre minus the geometric mean of the semi-axes, which is more than ten
kilometres above the true height. -/
theorem C52_equatorial_altitude (pts : List Vec) (hne : pts ≠ [])
    (heq : ∀ v ∈ pts, v 2 = 0 ∧ 0 < axisDistance v) (r : List ℝ) :
    AltitudeReturns pts r ↔
      r = pts.map fun v => axisDistance v - Real.sqrt (axisA * axisB) := by
  have hstart : ∀ v ∈ pts, altStart v = (axisDistance v - Real.sqrt (axisA * axisB), 0) := by
    intro v hv
    obtain ⟨hz, hp⟩ := heq v hv
    simp [altStart, axisDistance, hz]
  have h0 : altState pts 0 =
      pts.map fun v => (axisDistance v - Real.sqrt (axisA * axisB), (0 : ℝ)) := by
    simp only [altState]
    exact List.map_congr_left hstart
  have h1 : altState pts 1 = pts.map fun v => (axisDistance v - axisA, (0 : ℝ)) := by
    simp only [altState]
    rw [List.map_congr_left hstart, List.zipWith_map_right, List.zipWith_self]
    apply List.map_congr_left
    intro v hv
    obtain ⟨hz, hp⟩ := heq v hv
    simp [altStep, hz]
  have hlen : (0 : ℝ) < pts.length := by
    exact_mod_cast List.length_pos_iff.2 hne
  have hstop : ¬ altContinue pts 0 := by
    have hgm : Real.sqrt (axisA * axisB) ≤ axisA := by
      rw [Real.sqrt_le_left axisA_pos.le]
      unfold axisA axisB
      norm_num
    unfold altContinue
    rw [h0, h1]
    simp only [List.map_map, Function.comp_def, List.zipWith_map, List.zipWith_self]
    have e1 : (pts.map fun v => axisDistance v - axisA -
        (axisDistance v - Real.sqrt (axisA * axisB))) =
        List.replicate pts.length (Real.sqrt (axisA * axisB) - axisA) := by
      rw [← List.map_const']
      apply List.map_congr_left
      intro v _
      ring
    have e2 : (pts.map fun _ => (0 : ℝ) - 0) = List.replicate pts.length (0 : ℝ) := by
      rw [← List.map_const']
      apply List.map_congr_left
      intro v _
      ring
    rw [e1, e2]
    unfold mean
    simp only [List.sum_replicate, List.length_replicate, nsmul_eq_mul]
    rw [mul_div_assoc, mul_div_cancel₀ _ hlen.ne', mul_zero, zero_div]
    push Not
    constructor
    · have : 0 ≤ axisA * (10 * 10 ^ (-10 : ℤ)) := by
        have := axisA_pos
        positivity
      linarith
    · positivity
  constructor
  · rintro ⟨k, hk, -, rfl⟩
    cases k with
    | zero =>
      rw [h0]
      simp [Function.comp_def]
    | succ k => exact absurd (hk 0 (Nat.succ_pos _)) hstop
  · rintro rfl
    refine ⟨0, fun j hj => absurd hj (Nat.not_lt_zero _), hstop, ?_⟩
    rw [h0]
    simp [Function.comp_def]

/-- C52: the true height of a point in the equatorial plane is its distance from the axis minus
the equatorial semi-axis, and the altitude returned for it exceeds that by more than ten
kilometres. -/
theorem C52_equatorial_error (v : Vec) (hz : v 2 = 0) (hp : 0 < axisDistance v) :
    IsHeight (axisA ^ 2) (axisB ^ 2) v (axisDistance v - axisA) ∧
    axisDistance v - axisA + 10 < axisDistance v - Real.sqrt (axisA * axisB) := by
  have ha := axisA_pos
  constructor
  · set p := axisDistance v with hpdef
    have hps : v 0 ^ 2 + v 1 ^ 2 = p ^ 2 := by
      rw [hpdef, axisDistance, Real.sq_sqrt (by positivity)]
    refine ⟨(axisA / p) • v, ?_, p⁻¹ • v, ?_, ⟨axisA, ha, ?_⟩, ?_⟩
    · simp [OnEllipsoid, hz]
      field_simp
      linarith
    · rw [norm_toE, vnorm_smul, abs_of_pos (inv_pos.2 hp)]
      have : vnorm v = p := by
        rw [hpdef]
        unfold vnorm axisDistance
        simp [dotProduct, Fin.sum_univ_three, hz, pow_two]
      rw [this]
      field_simp
    · ext i
      fin_cases i <;> simp [ellipsoidGradient, hz] <;> field_simp
    · ext i
      simp
      field_simp
      ring
  · have : Real.sqrt (axisA * axisB) < axisA - 10 := by
      rw [Real.sqrt_lt' (by unfold axisA; norm_num)]
      unfold axisA axisB
      norm_num
    linarith

/-- C52: the iteration has the right fixed point.  If a point has geographic latitude `phi` and
height `h` on the ellipsoid of the altitude function, one pass from that latitude returns
exactly `(h, phi)`. -/
theorem C52_fixed_point_partial (phi h : ℝ) (hphi : -(Real.pi / 2) < phi ∧ phi < Real.pi / 2)
    (hh : -axisB ^ 2 / axisA < h) :
    let N := axisA ^ 2 / Real.sqrt (axisA ^ 2 * Real.cos phi ^ 2 + axisB ^ 2 * Real.sin phi ^ 2)
    altStep ((N + h) * Real.cos phi) ((axisB ^ 2 / axisA ^ 2 * N + h) * Real.sin phi) phi =
      (h, phi) := by
  intro N
  have ha := axisA_pos
  have hb : 0 < axisB := by unfold axisB; norm_num
  have hab : axisB < axisA := by unfold axisA axisB; norm_num
  have hc : 0 < Real.cos phi := Real.cos_pos_of_mem_Ioo hphi
  have hq : 0 < axisB ^ 2 / axisA ^ 2 := by positivity
  have hq1 : axisB ^ 2 / axisA ^ 2 < 1 := by
    rw [div_lt_one (by positivity)]
    nlinarith
  have hden : 0 < Real.cos phi ^ 2 + axisB ^ 2 / axisA ^ 2 * Real.sin phi ^ 2 := by
    have := sq_nonneg (Real.sin phi)
    positivity
  have hN : axisA / Real.sqrt (Real.cos phi ^ 2 + axisB ^ 2 / axisA ^ 2 * Real.sin phi ^ 2) = N := by
    have e : axisA ^ 2 * Real.cos phi ^ 2 + axisB ^ 2 * Real.sin phi ^ 2 =
        axisA ^ 2 * (Real.cos phi ^ 2 + axisB ^ 2 / axisA ^ 2 * Real.sin phi ^ 2) := by
      field_simp
    simp only [N]
    rw [e, Real.sqrt_mul (by positivity), Real.sqrt_sq ha.le]
    have := (Real.sqrt_pos.2 hden).ne'
    field_simp
  have hNa : axisA ≤ N := by
    rw [← hN]
    rw [le_div_iff₀ (Real.sqrt_pos.2 hden)]
    have : Real.sqrt (Real.cos phi ^ 2 + axisB ^ 2 / axisA ^ 2 * Real.sin phi ^ 2) ≤ 1 := by
      rw [Real.sqrt_le_one]
      nlinarith [Real.sin_sq_add_cos_sq phi, sq_nonneg (Real.sin phi)]
    nlinarith
  have hqN : 0 < axisB ^ 2 / axisA ^ 2 * N + h := by
    have h1 : axisB ^ 2 / axisA ^ 2 * axisA ≤ axisB ^ 2 / axisA ^ 2 * N :=
      mul_le_mul_of_nonneg_left hNa hq.le
    have h2 : axisB ^ 2 / axisA ^ 2 * axisA = axisB ^ 2 / axisA := by field_simp
    have h3 : -axisB ^ 2 / axisA = -(axisB ^ 2 / axisA) := by ring
    linarith
  have hNh : 0 < N + h := by nlinarith
  have he : Real.sqrt (1 - axisB ^ 2 / axisA ^ 2) ^ 2 = 1 - axisB ^ 2 / axisA ^ 2 :=
    Real.sq_sqrt (by linarith)
  unfold altStep
  simp only [hN, he]
  have hhh : (N + h) * Real.cos phi / Real.cos phi - N = h := by
    field_simp
    ring
  rw [hhh]
  have harg : (axisB ^ 2 / axisA ^ 2 * N + h) * Real.sin phi / ((N + h) * Real.cos phi) *
      (1 - (1 - axisB ^ 2 / axisA ^ 2) * N / (N + h))⁻¹ = Real.tan phi := by
    have e : 1 - (1 - axisB ^ 2 / axisA ^ 2) * N / (N + h) =
        (axisB ^ 2 / axisA ^ 2 * N + h) / (N + h) := by
      field_simp
      ring
    rw [e, Real.tan_eq_sin_div_cos]
    generalize axisB ^ 2 / axisA ^ 2 * N + h = X at *
    field_simp
  rw [harg, Real.arctan_tan hphi.1 hphi.2]

/-- A non-empty array of equatorial points exists. -/
example : ∀ v ∈ [(![7000, 0, 0] : Vec), ![0, 8000, 0]], v 2 = 0 ∧ 0 < axisDistance v := by
  intro v hv
  simp only [List.mem_cons, List.not_mem_nil, or_false] at hv
  rcases hv with rfl | rfl <;> simp [axisDistance]

end Celest.Frames
