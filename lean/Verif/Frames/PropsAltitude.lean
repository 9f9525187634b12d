/-
C75, C76 and part of C52: the altitude loop ends, and what its result depends on.
-/
import Verif.Frames.LemmasAltitude
import Verif.Frames.PropsContainers

namespace Celest.Frames

open Matrix Celest.TimeScale Filter Topology

/-- A position the statements are about: off the polar axis and at least 6000 km from the centre
of the Earth (the Earth's surface is more than 6350 km from it). -/
def NearOrAboveEarth (v : Vec) : Prop := (v 0 ≠ 0 ∨ v 1 ≠ 0) ∧ 6000 ≤ ‖toE v‖

theorem axisDistance_pos {v : Vec} (h : v 0 ≠ 0 ∨ v 1 ≠ 0) : 0 < axisDistance v := by
  unfold axisDistance
  apply Real.sqrt_pos.2
  rcases h with h | h
  · have := sq_nonneg (v 1)
    positivity
  · have := sq_nonneg (v 0)
    positivity

theorem axisDistance_sq (v : Vec) : axisDistance v ^ 2 = v 0 ^ 2 + v 1 ^ 2 :=
  Real.sq_sqrt (by positivity)

theorem norm_eq_sqrt (v : Vec) : ‖toE v‖ = Real.sqrt (axisDistance v ^ 2 + v 2 ^ 2) := by
  rw [EuclideanSpace.norm_eq, axisDistance_sq]
  simp [Fin.sum_univ_three]

theorem NearOrAboveEarth.regular {v : Vec} (h : NearOrAboveEarth v) :
    Regular (axisDistance v) (v 2) := by
  refine ⟨axisDistance_pos h.1, ?_⟩
  have h2 := h.2
  rw [norm_eq_sqrt, Real.le_sqrt (by norm_num) (by positivity)] at h2
  exact h2

/-- Tangent of the latitude of one point after `k` passes. -/
noncomputable def tanOf (v : Vec) (k : ℕ) : ℝ := tanSeq (axisDistance v) (v 2) k

/-- Height of one point after `k` passes. -/
noncomputable def heightSeq (v : Vec) : ℕ → ℝ
  | 0 => ‖toE v‖ - Real.sqrt (axisA * axisB)
  | k + 1 => heightOf (axisDistance v) (tanOf v k)

theorem altStart_eq (v : Vec) : altStart v = (heightSeq v 0, Real.arctan (tanOf v 0)) := by
  unfold altStart
  simp only [e2_eq, heightSeq, tanOf, tanSeq, startTan]
  rw [norm_eq_sqrt, axisDistance_sq]

theorem altState_eq (pts : List Vec) (h : ∀ v ∈ pts, 0 < axisDistance v) (k : ℕ) :
    altState pts k = pts.map fun v => (heightSeq v k, Real.arctan (tanOf v k)) := by
  induction k with
  | zero =>
    simp only [altState]
    exact List.map_congr_left fun v _ => altStart_eq v
  | succ k ih =>
    simp only [altState]
    rw [ih, List.zipWith_map_right, List.zipWith_self]
    apply List.map_congr_left
    intro v hv
    simp only
    rw [altStep_arctan _ _ _ (h v hv).ne']
    rfl

theorem NearOrAboveEarth.limits {v : Vec} (h : NearOrAboveEarth v) :
    ∃ x, Tendsto (tanOf v) atTop (𝓝 x) ∧
      Tendsto (heightSeq v) atTop (𝓝 (heightOf (axisDistance v) x)) ∧
      |v 2| / axisDistance v ≤ |x| ∧ nextTan (axisDistance v) (v 2) x = x := by
  obtain ⟨x, h1, h2, h3⟩ := h.regular.seq_tendsto
  refine ⟨x, h1, ?_, h2, h3⟩
  rw [← tendsto_add_atTop_iff_nat 1]
  exact ((heightOf_continuous _).tendsto x).comp h1

theorem mean_tendsto (pts : List Vec) (f : Vec → ℕ → ℝ) (a : Vec → ℝ)
    (h : ∀ v ∈ pts, Tendsto (f v) atTop (𝓝 (a v))) :
    Tendsto (fun k => mean (List.zipWith (· - ·) (pts.map fun v => f v (k + 1))
      (pts.map fun v => f v k))) atTop (𝓝 0) := by
  unfold mean
  simp only [List.zipWith_map, List.zipWith_self, List.length_map]
  have hs : Tendsto (fun k => (pts.map fun v => f v (k + 1) - f v k).sum) atTop
      (𝓝 (pts.map fun v => a v - a v).sum) := by
    apply tendsto_list_sum
    intro v hv
    exact ((tendsto_add_atTop_iff_nat 1).2 (h v hv)).sub (h v hv)
  have h0 : (pts.map fun v => a v - a v).sum = 0 := by simp
  rw [h0] at hs
  simpa using hs.div_const (pts.length : ℝ)

/-- C75: the altitude computation ends for every array of positions off the polar axis and at
least 6000 km from the centre of the Earth, and returns one altitude for each position. -/
theorem C75_altitude_returns (pts : List Vec) (h : ∀ v ∈ pts, NearOrAboveEarth v) :
    ∃ r, AltitudeReturns pts r ∧ r.length = pts.length := by
  classical
  have hd : ∀ v ∈ pts, 0 < axisDistance v := fun v hv => axisDistance_pos (h v hv).1
  have hstop : ∃ k, ¬ altContinue pts k := by
    choose! x hx using fun v (hv : v ∈ pts) => (h v hv).limits
    have m1 := mean_tendsto pts heightSeq (fun v => heightOf (axisDistance v) (x v))
      fun v hv => (hx v hv).2.1
    have m2 := mean_tendsto pts (fun v k => Real.arctan (tanOf v k)) (fun v => Real.arctan (x v))
      fun v hv => (Real.continuous_arctan.tendsto _).comp (hx v hv).1
    have e1 := m1.eventually (gt_mem_nhds
      (mul_pos axisA_pos (by norm_num) : (0 : ℝ) < axisA * (10 * 10 ^ (-10 : ℤ))))
    have e2 := m2.eventually (gt_mem_nhds (by norm_num : (0 : ℝ) < 10 * 10 ^ (-10 : ℤ)))
    obtain ⟨k, h1, h2⟩ := (e1.and e2).exists
    refine ⟨k, ?_⟩
    unfold altContinue
    rw [altState_eq pts hd, altState_eq pts hd]
    simp only [List.map_map, Function.comp_def]
    push Not
    exact ⟨h1.le, h2.le⟩
  refine ⟨_, ⟨Nat.find hstop, fun j hj => not_not.1 (Nat.find_min hstop hj),
    Nat.find_spec hstop, rfl⟩, ?_⟩
  rw [altState_eq pts hd]
  simp

/-- C75: hence converting an ITRS position in kilometres to WGS84 returns. -/
theorem C75_conversion_returns (c : Cartesian) (location : Option Ground)
    (h : ∀ s ∈ c.samples, NearOrAboveEarth (c.unit • s.2)) :
    ∃ w : Geographic, convert (.itrs c) .wgs84 location = .returned (.wgs84 w) ∧
      w.samples.length = c.samples.length := by
  have hp : ∀ v ∈ (c.samples.map fun s => (s.1, c.unit • s.2)).map (·.2), NearOrAboveEarth v := by
    intro v hv
    simp only [List.map_map, List.mem_map, Function.comp_def] at hv
    obtain ⟨s, hs, rfl⟩ := hv
    exact h s hs
  obtain ⟨r, ⟨k, -, hk, -⟩, -⟩ := C75_altitude_returns _ hp
  have hd : ∀ v ∈ (c.samples.map fun s => (s.1, c.unit • s.2)).map (·.2), 0 < axisDistance v :=
    fun v hv => axisDistance_pos (hp v hv).1
  have hconv : convert (.itrs c) .wgs84 location = itrsToWgs84 c := by
    simp [convert, coordinateInit, Position.frame, convertTo, convertFromItrs]
  rw [hconv]
  unfold itrsToWgs84 altitude
  simp only
  rw [dif_pos ⟨k, hk⟩]
  refine ⟨_, rfl, ?_⟩
  rw [altState_eq _ hd]
  simp

/-- A low orbit over a mid latitude and a point on the ground meet the hypotheses. -/
example : ∀ v ∈ [(![4000, 3000, 5000] : Vec), ![6378, 0, 1]], NearOrAboveEarth v := by
  intro v hv
  simp only [List.mem_cons, List.not_mem_nil, or_false] at hv
  rcases hv with rfl | rfl
  · refine ⟨Or.inl (by simp), ?_⟩
    rw [EuclideanSpace.norm_eq, Real.le_sqrt (by norm_num) (by positivity)]
    simp [Fin.sum_univ_three]
    norm_num
  · refine ⟨Or.inl (by simp), ?_⟩
    rw [EuclideanSpace.norm_eq, Real.le_sqrt (by norm_num) (by positivity)]
    simp [Fin.sum_univ_three]
    norm_num

/-! ### C52: the limit -/

theorem isHeight_of_fixed {v : Vec} (h : NearOrAboveEarth v) {x : ℝ}
    (hx : |v 2| / axisDistance v ≤ |x|) (hf : nextTan (axisDistance v) (v 2) x = x) :
    IsHeight (axisA ^ 2) (axisB ^ 2) v (heightOf (axisDistance v) x) := by
  have hp := axisDistance_pos h.1
  have hp2 := axisDistance_sq v
  have hden := (h.regular.denominator hx).1
  set p := axisDistance v with hpdef
  have ha := axisA_pos
  have hb : 0 < axisB := by unfold axisB; norm_num
  have hw := root_pos x
  have hw2 := root_sq x
  have hz : x * (p - shift / root x) = v 2 := by
    rw [nextTan, div_eq_iff (by nlinarith)] at hf
    exact hf.symm
  set t := Real.sqrt (1 + x ^ 2) with ht
  have ht0 : 0 < t := Real.sqrt_pos.2 (by positivity)
  have ht2 : t ^ 2 = 1 + x ^ 2 := Real.sq_sqrt (by positivity)
  have hrr : ratio = axisB / axisA := rfl
  have hab : axisB = ratio * axisA := by rw [hrr]; field_simp
  have hr0 : 0 < ratio := by have := ratio_bounds; linarith
  refine ⟨![axisA / root x * (v 0 / p), axisA / root x * (v 1 / p),
      ratio ^ 2 * axisA * x / root x], ?_, ![v 0 / p / t, v 1 / p / t, x / t], ?_,
      ⟨axisA * root x / t, by positivity, ?_⟩, ?_⟩
  · have e : (axisA / root x * (v 0 / p)) ^ 2 / axisA ^ 2 +
        (axisA / root x * (v 1 / p)) ^ 2 / axisA ^ 2 +
        (ratio ^ 2 * axisA * x / root x) ^ 2 / axisB ^ 2 =
        ((v 0 ^ 2 + v 1 ^ 2) / p ^ 2 + (ratio * x) ^ 2) / root x ^ 2 := by
      rw [hab]
      field_simp
    simp only [OnEllipsoid, Matrix.cons_val_zero, Matrix.cons_val_one, Matrix.cons_val]
    rw [e, ← hp2, hw2, div_self (by positivity), div_self (by positivity)]
  · have : (v 0 / p / t) ^ 2 + (v 1 / p / t) ^ 2 + (x / t) ^ 2 = 1 := by
      have e : (v 0 / p / t) ^ 2 + (v 1 / p / t) ^ 2 + (x / t) ^ 2 =
          ((v 0 ^ 2 + v 1 ^ 2) / p ^ 2 + x ^ 2) / t ^ 2 := by
        field_simp
      rw [e, ← hp2, div_self (by positivity), ht2, div_self (by positivity)]
    rw [EuclideanSpace.norm_eq]
    simp only [Fin.sum_univ_three, Real.norm_eq_abs, sq_abs, Matrix.cons_val_zero,
      Matrix.cons_val_one, Matrix.cons_val]
    rw [this, Real.sqrt_one]
  · ext i
    fin_cases i <;> simp [ellipsoidGradient] <;> (try rw [hab]) <;> field_simp
  · have hh : heightOf p x = t * (p - axisA / root x) := by
      simp only [heightOf, ← ht]
      ring
    have hs : shift = (1 - ratio ^ 2) * axisA := rfl
    ext i
    fin_cases i
    · simp [hh]
      field_simp
      ring
    · simp [hh]
      field_simp
      ring
    · simp only [Fin.reduceFinMk, Pi.add_apply, Pi.smul_apply, Matrix.cons_val, smul_eq_mul, hh]
      rw [← hz, hs]
      field_simp
      ring

/-- C52: the values the loop computes for a position converge to its height above the ellipsoid.
What is missing: the loop stops on the signed mean change over the whole array, and then returns
the previous value, see `C52_equatorial_altitude`. -/
theorem C52_converges_partial (pts : List Vec) (h : ∀ v ∈ pts, NearOrAboveEarth v) :
    ∃ heights : List ℝ, List.Forall₂ (fun v r => IsHeight (axisA ^ 2) (axisB ^ 2) v r) pts heights ∧
      ∀ i (hi : i < heights.length),
        Tendsto (fun k => ((altState pts k).map (·.1)).getD i 0) atTop (𝓝 heights[i]) := by
  have hd : ∀ v ∈ pts, 0 < axisDistance v := fun v hv => axisDistance_pos (h v hv).1
  choose! x hx using fun v (hv : v ∈ pts) => (h v hv).limits
  refine ⟨pts.map fun v => heightOf (axisDistance v) (x v), ?_, ?_⟩
  · rw [List.forall₂_map_right_iff, List.forall₂_same]
    exact fun v hv => isHeight_of_fixed (h v hv) (hx v hv).2.2.1 (hx v hv).2.2.2
  · intro i hi
    simp only [List.length_map] at hi
    simp only [altState_eq pts hd, List.map_map, Function.comp_def, List.getElem_map]
    have e : ∀ k, (pts.map fun v => heightSeq v k).getD i 0 = heightSeq pts[i] k := by
      intro k
      simp [hi]
    simp only [e]
    exact (hx _ (List.getElem_mem hi)).2.1

theorem NearOrAboveEarth.error {v : Vec} (h : NearOrAboveEarth v) :
    ∃ t, IsHeight (axisA ^ 2) (axisB ^ 2) v t ∧ ∀ k, |heightSeq v k - t| ≤ 11 := by
  obtain ⟨x, -, -, hx, hf⟩ := h.limits
  refine ⟨_, isHeight_of_fixed h hx hf, ?_⟩
  intro k
  cases k with
  | zero =>
    simp only [heightSeq]
    rw [norm_eq_sqrt]
    exact h.regular.start_error hx hf
  | succ k =>
    simp only [heightSeq, tanOf]
    refine (h.regular.later_error hx hf k).trans ?_
    have : ((1 : ℝ) / 100) ^ k ≤ 1 := pow_le_one₀ (by norm_num) (by norm_num)
    linarith

/-- C52: whatever the array, every altitude returned is within eleven kilometres of the height of
its position. -/
theorem C52_error_bound_partial (pts : List Vec) (h : ∀ v ∈ pts, NearOrAboveEarth v) (r : List ℝ)
    (hr : AltitudeReturns pts r) :
    List.Forall₂ (fun v x => ∃ t, IsHeight (axisA ^ 2) (axisB ^ 2) v t ∧ |x - t| ≤ 11) pts r := by
  have hd : ∀ v ∈ pts, 0 < axisDistance v := fun v hv => axisDistance_pos (h v hv).1
  obtain ⟨k, -, -, rfl⟩ := hr
  rw [altState_eq pts hd, List.map_map, List.forall₂_map_right_iff, List.forall₂_same]
  intro v hv
  obtain ⟨t, ht, he⟩ := (h v hv).error
  exact ⟨t, ht, he k⟩

/-! ### C76 -/

/-- A position over the equator. -/
def overEquator : Vec := ![7000, 0, 0]

/-- A position at a high latitude. -/
def highLatitude : Vec := ![1960, 0, 6720]

theorem overEquator_axis : axisDistance overEquator = 7000 := by
  unfold axisDistance overEquator
  rw [show (![7000, 0, 0] : Vec) 0 ^ 2 + (![7000, 0, 0] : Vec) 1 ^ 2 = 7000 ^ 2 by simp]
  exact Real.sqrt_sq (by norm_num)

theorem highLatitude_axis : axisDistance highLatitude = 1960 := by
  unfold axisDistance highLatitude
  rw [show (![1960, 0, 6720] : Vec) 0 ^ 2 + (![1960, 0, 6720] : Vec) 1 ^ 2 = 1960 ^ 2 by simp]
  exact Real.sqrt_sq (by norm_num)

theorem highLatitude_norm : ‖toE highLatitude‖ = 7000 := by
  rw [norm_eq_sqrt, highLatitude_axis, show (highLatitude 2 : ℝ) = 6720 from rfl,
    show (1960 : ℝ) ^ 2 + 6720 ^ 2 = 7000 ^ 2 by norm_num]
  exact Real.sqrt_sq (by norm_num)

theorem overEquator_norm : ‖toE overEquator‖ = 7000 := by
  rw [norm_eq_sqrt, overEquator_axis, show (overEquator 2 : ℝ) = 0 from rfl,
    show (7000 : ℝ) ^ 2 + 0 ^ 2 = 7000 ^ 2 by norm_num]
  exact Real.sqrt_sq (by norm_num)

theorem gm_bounds : 6367 < Real.sqrt (axisA * axisB) ∧ Real.sqrt (axisA * axisB) < 6368 := by
  constructor
  · rw [Real.lt_sqrt (by norm_num)]
    unfold axisA axisB
    norm_num
  · rw [Real.sqrt_lt' (by norm_num)]
    unfold axisA axisB
    norm_num

theorem highLatitude_step : 6 < heightSeq highLatitude 1 - heightSeq highLatitude 0 := by
  have hg := gm_bounds
  have hs : (1 - ratio ^ 2) * axisA = shift := rfl
  have hsb := shift_bounds
  have hr := ratio_bounds
  have hA : axisA = 6378.137 := rfl
  simp only [heightSeq, tanOf, tanSeq, highLatitude_norm, highLatitude_axis,
    show (highLatitude 2 : ℝ) = 6720 from rfl]
  have hx : startTan 1960 6720 =
      6720 / 1960 * (1 - shift / (axisA + (7000 - Real.sqrt (axisA * axisB))))⁻¹ := by
    unfold startTan
    rw [hs, show (1960 : ℝ) ^ 2 + 6720 ^ 2 = 7000 ^ 2 by norm_num, Real.sqrt_sq (by norm_num)]
  set D := axisA + (7000 - Real.sqrt (axisA * axisB)) with hD
  have hD1 : 7010 < D := by linarith
  have hD2 : D < 7012 := by linarith
  have hq1 : 0.006087 < shift / D := by
    rw [lt_div_iff₀ (by linarith)]
    have : 42.69 < shift := by
      unfold shift ratio axisA axisB
      norm_num
    linarith
  have hq2 : shift / D < 0.0060913 := by
    rw [div_lt_iff₀ (by linarith)]
    linarith
  set x := startTan 1960 6720 with hxd
  have hx1 : 3.44956 < x := by
    rw [hx, ← div_eq_mul_inv, lt_div_iff₀ (by linarith)]
    linarith
  have hx2 : x < 3.4496 := by
    rw [hx, ← div_eq_mul_inv, div_lt_iff₀ (by linarith)]
    linarith
  have ht1 : 3.59158 < Real.sqrt (1 + x ^ 2) := by
    rw [Real.lt_sqrt (by norm_num)]
    nlinarith
  have ht2 : Real.sqrt (1 + x ^ 2) < 3.59165 := by
    rw [Real.sqrt_lt' (by norm_num)]
    nlinarith
  have hratio : 0.99664 < ratio := by
    unfold ratio axisA axisB
    norm_num
  have hw1 : 3.5801 < root x := by
    unfold root
    rw [Real.lt_sqrt (by norm_num)]
    have : 3.43796 < ratio * x := by nlinarith
    nlinarith
  unfold heightOf
  have hN : axisA * Real.sqrt (1 + x ^ 2) / root x < 6400 := by
    rw [div_lt_iff₀ (by linarith), hA]
    nlinarith
  have hgm : 6367.4 < Real.sqrt (axisA * axisB) := by
    rw [Real.lt_sqrt (by norm_num)]
    unfold axisA axisB
    norm_num
  nlinarith

/-- C76 fails: the altitude returned for a position over the equator changes by more than ten
kilometres when the array it is computed with also holds two positions at a high latitude. -/
theorem C76_altitude_depends_on_companions (r r' : List ℝ)
    (h : AltitudeReturns [overEquator] r)
    (h' : AltitudeReturns [overEquator, highLatitude, highLatitude] r') :
    10 < r.headI - r'.headI := by
  have h1 := (C52_equatorial_altitude [overEquator] (by simp) (by
    intro v hv
    rw [List.mem_singleton] at hv
    subst hv
    rw [overEquator_axis]
    exact ⟨rfl, by norm_num⟩) r).1 h
  subst h1
  have hd : ∀ v ∈ [overEquator, highLatitude, highLatitude], 0 < axisDistance v := by
    intro v hv
    simp only [List.mem_cons, List.not_mem_nil, or_false] at hv
    rcases hv with rfl | rfl | rfl
    · rw [overEquator_axis]; norm_num
    · rw [highLatitude_axis]; norm_num
    · rw [highLatitude_axis]; norm_num
  have hzero : ∀ k, tanOf overEquator k = 0 := by
    intro k
    cases k <;> simp [tanOf, tanSeq, startTan, nextTan, overEquator]
  have hsucc : ∀ k, heightSeq overEquator (k + 1) = 7000 - axisA := by
    intro k
    simp [heightSeq, hzero, heightOf, overEquator_axis, root]
  have h0 : heightSeq overEquator 0 = 7000 - Real.sqrt (axisA * axisB) := by
    rw [heightSeq, overEquator_norm]
  have hgap : Real.sqrt (axisA * axisB) < axisA - 10 := by
    rw [Real.sqrt_lt' (by unfold axisA; norm_num)]
    unfold axisA axisB
    norm_num
  have hgap' : axisA - 11 < Real.sqrt (axisA * axisB) := by
    rw [Real.lt_sqrt (by unfold axisA; norm_num)]
    unfold axisA axisB
    norm_num
  have hcont : altContinue [overEquator, highLatitude, highLatitude] 0 := by
    left
    rw [altState_eq _ hd, altState_eq _ hd]
    have hstep := highLatitude_step
    have e := hsucc 0
    simp only [zero_add] at e
    simp only [List.map_cons, List.map_nil, List.zipWith_cons_cons, List.zipWith_nil_right, mean,
      List.sum_cons, List.sum_nil, List.length_cons, List.length_nil, zero_add, e, h0]
    have hA : axisA * (10 * 10 ^ (-10 : ℤ)) < 0.1 := by
      unfold axisA
      norm_num
    push_cast
    linarith
  obtain ⟨k, hk, hstop, rfl⟩ := h'
  cases k with
  | zero => exact absurd hcont hstop
  | succ k =>
    rw [altState_eq _ hd]
    simp only [List.map_cons, List.map_nil, List.headI_cons, hsucc, overEquator_axis]
    linarith

/-- Both computations return. -/
example : (∃ r, AltitudeReturns [overEquator] r) ∧
    ∃ r, AltitudeReturns [overEquator, highLatitude, highLatitude] r := by
  have hall : ∀ v ∈ [overEquator, highLatitude, highLatitude], NearOrAboveEarth v := by
    intro v hv
    simp only [List.mem_cons, List.not_mem_nil, or_false] at hv
    rcases hv with rfl | rfl | rfl
    · exact ⟨Or.inl (by simp [overEquator]), by rw [overEquator_norm]; norm_num⟩
    · exact ⟨Or.inl (by simp [highLatitude]), by rw [highLatitude_norm]; norm_num⟩
    · exact ⟨Or.inl (by simp [highLatitude]), by rw [highLatitude_norm]; norm_num⟩
  obtain ⟨r, hr, -⟩ := C75_altitude_returns [overEquator] fun v hv => hall v (by simp_all)
  obtain ⟨r', hr', -⟩ := C75_altitude_returns _ hall
  exact ⟨⟨r, hr⟩, ⟨r', hr'⟩⟩

/-- C76: the order of the array does not matter.  Permuting the positions permutes the altitudes
with them. -/
theorem C76_order_irrelevant_partial (pts pts' : List Vec) (h : ∀ v ∈ pts, v 0 ≠ 0 ∨ v 1 ≠ 0)
    (hp : pts.Perm pts') (r : List ℝ) (hr : AltitudeReturns pts r) :
    ∃ r', AltitudeReturns pts' r' ∧ (pts.zip r).Perm (pts'.zip r') := by
  have hd : ∀ v ∈ pts, 0 < axisDistance v := fun v hv => axisDistance_pos (h v hv)
  have hd' : ∀ v ∈ pts', 0 < axisDistance v := fun v hv => hd v (hp.mem_iff.2 hv)
  have hmean : ∀ f : Vec → ℝ, mean (pts.map f) = mean (pts'.map f) := by
    intro f
    unfold mean
    rw [(hp.map f).sum_eq, List.length_map, List.length_map, hp.length_eq]
  have hc : ∀ k, altContinue pts k ↔ altContinue pts' k := by
    intro k
    unfold altContinue
    simp only [altState_eq pts hd, altState_eq pts' hd', List.map_map, Function.comp_def,
      List.zipWith_map, List.zipWith_self, hmean]
  obtain ⟨k, h1, h2, rfl⟩ := hr
  refine ⟨_, ⟨k, fun j hj => (hc j).1 (h1 j hj), fun hk => h2 ((hc k).2 hk), rfl⟩, ?_⟩
  rw [altState_eq pts hd, altState_eq pts' hd']
  simp only [List.map_map, Function.comp_def]
  have e : ∀ l : List Vec, l.zip (l.map fun v => heightSeq v k) = l.map fun v => (v, heightSeq v k) := by
    intro l
    induction l with
    | nil => rfl
    | cons v l ih => simp [ih]
  rw [e, e]
  exact hp.map _

/-- C76: the companions of a position cannot change its altitude by more than 22 km. -/
theorem C76_bounded_dependence_partial (pts pts' : List Vec) (h : ∀ v ∈ pts, NearOrAboveEarth v)
    (h' : ∀ v ∈ pts', NearOrAboveEarth v) (r r' : List ℝ) (hr : AltitudeReturns pts r)
    (hr' : AltitudeReturns pts' r') (v : Vec) (x x' : ℝ) (hx : (v, x) ∈ pts.zip r)
    (hx' : (v, x') ∈ pts'.zip r') : |x - x'| ≤ 22 := by
  have key : ∀ (l : List Vec) (q : List ℝ), (∀ v ∈ l, NearOrAboveEarth v) →
      AltitudeReturns l q → ∀ y, (v, y) ∈ l.zip q → v ∈ l ∧ ∃ k, y = heightSeq v k := by
    intro l q hl hq y hy
    have hd : ∀ v ∈ l, 0 < axisDistance v := fun v hv => axisDistance_pos (hl v hv).1
    obtain ⟨k, -, -, rfl⟩ := hq
    rw [altState_eq l hd, List.map_map] at hy
    have e : l.zip (l.map ((fun s : ℝ × ℝ => s.1) ∘
        fun v => (heightSeq v k, Real.arctan (tanOf v k)))) = l.map fun v => (v, heightSeq v k) := by
      clear hy hd hl
      induction l with
      | nil => rfl
      | cons v l ih => simp [ih]
    rw [e, List.mem_map] at hy
    obtain ⟨w, hw, hwy⟩ := hy
    rw [Prod.mk.injEq] at hwy
    obtain ⟨rfl, rfl⟩ := hwy
    exact ⟨hw, k, rfl⟩
  obtain ⟨hv, k, rfl⟩ := key pts r h hr x hx
  obtain ⟨-, k', rfl⟩ := key pts' r' h' hr' x' hx'
  obtain ⟨t, -, he⟩ := (h v hv).error
  have h1 := abs_le.1 (he k)
  have h2 := abs_le.1 (he k')
  rw [abs_le]
  constructor <;> linarith

end Celest.Frames
