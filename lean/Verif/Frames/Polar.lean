/-
The altitude loop for arrays that may hold positions on the polar axis (`_altitude`, transforms.py
192-251), where NumPy divides by zero.  NaN is `none`.
-/
import Verif.Frames.PropsHemispheres

namespace Celest.Frames

open Matrix Celest.TimeScale

/-- `np.arctan((z / p) * factor)` (transforms.py 236, 241).  On the polar axis the quotient is
infinite (or NaN, for `z = 0`); infinity times zero is NaN; the arctangent of infinity is the
double next to π/2, here a parameter `q`.  Simplified: apart from that the arithmetic is exact. -/
noncomputable def arctanQuotient (q z p factor : ℝ) : Option ℝ :=
  if p = 0 then
    if 0 < z * factor then some q else if z * factor < 0 then some (-q) else none
  else some (Real.arctan (z / p * factor))

/-- Start values `(h, phi)` of `_altitude` for one point (transforms.py 232-236). -/
noncomputable def polarStart (q : ℝ) (v : Vec) : Option ℝ × Option ℝ :=
  let e2 := Real.sqrt (1 - axisB ^ 2 / axisA ^ 2) ^ 2
  let p := axisDistance v
  let h := Real.sqrt (v 0 ^ 2 + v 1 ^ 2 + v 2 ^ 2) - Real.sqrt (axisA * axisB)
  (some h, arctanQuotient q (v 2) p (1 - e2 * axisA / (axisA + h))⁻¹)

/-- `new_vals` for one point (transforms.py 238-243).  Where `N + h` is zero the quotient
`e² N / (N + h)` is infinite and `(1 - inf) ** -1` is zero. -/
noncomputable def polarStep (q p z : ℝ) : Option ℝ → Option ℝ × Option ℝ
  | none => (none, none)
  | some phi =>
    let e2 := Real.sqrt (1 - axisB ^ 2 / axisA ^ 2) ^ 2
    let N := axisA / Real.sqrt (Real.cos phi ^ 2 + axisB ^ 2 / axisA ^ 2 * Real.sin phi ^ 2)
    let h := p / Real.cos phi - N
    (some h, arctanQuotient q z p (if N + h = 0 then 0 else (1 - e2 * N / (N + h))⁻¹))

/-- The arrays `(h, phi)` after `k` passes (transforms.py 245-249). -/
noncomputable def polarState (q : ℝ) (pts : List Vec) : ℕ → List (Option ℝ × Option ℝ)
  | 0 => pts.map (polarStart q)
  | k + 1 => List.zipWith (fun v s => polarStep q (axisDistance v) (v 2) s.2) pts
      (polarState q pts k)

/-- `np.mean` of an array that may hold NaN: NaN if any element is. -/
noncomputable def nanMean (l : List (Option ℝ)) : Option ℝ :=
  if none ∈ l then none else some (mean (l.map (·.getD 0)))

/-- The difference of two numbers that may be NaN. -/
noncomputable def nanSub (x y : Option ℝ) : Option ℝ :=
  match x, y with
  | some x, some y => some (x - y)
  | _, _ => none

/-- `m > tol` (false for NaN). -/
def exceeds (m : Option ℝ) (tol : ℝ) : Prop := ∃ x, m = some x ∧ tol < x

/-- The loop condition after `k` passes (transforms.py 247). -/
def polarContinue (q : ℝ) (pts : List Vec) (k : ℕ) : Prop :=
  exceeds (nanMean (List.zipWith nanSub ((polarState q pts (k + 1)).map (·.1))
    ((polarState q pts k).map (·.1)))) (axisA * (10 * 10 ^ (-10 : ℤ))) ∨
  exceeds (nanMean (List.zipWith nanSub ((polarState q pts (k + 1)).map (·.2))
    ((polarState q pts k).map (·.2)))) (10 * 10 ^ (-10 : ℤ))

/-- `_altitude` returns `r` (transforms.py 192-251). -/
def PolarReturns (q : ℝ) (pts : List Vec) (r : List (Option ℝ)) : Prop :=
  ∃ k, (∀ j < k, polarContinue q pts j) ∧ ¬ polarContinue q pts k ∧
    r = (polarState q pts k).map (·.1)

/-! ### Lemmas -/

/-- A position on the polar axis, at least 6000 km from the centre of the Earth. -/
def OnPolarAxis (v : Vec) : Prop := v 0 = 0 ∧ v 1 = 0 ∧ 6000 ≤ ‖toE v‖

/-- The double next to a right angle: less than it, by little. -/
def NextToRightAngle (q : ℝ) : Prop := q < Real.pi / 2 ∧ Real.pi / 2 - q < 1 / 10 ^ 6

theorem OnPolarAxis.axis {v : Vec} (h : OnPolarAxis v) : axisDistance v = 0 := by
  unfold axisDistance
  rw [h.1, h.2.1]
  simp

theorem OnPolarAxis.norm {v : Vec} (h : OnPolarAxis v) : ‖toE v‖ = |v 2| := by
  rw [norm_eq_sqrt, h.axis]
  simp [Real.sqrt_sq_eq_abs]

theorem polarStart_off (q : ℝ) {v : Vec} (h : 0 < axisDistance v) :
    polarStart q v = (some (heightSeq v 0), some (Real.arctan (tanOf v 0))) := by
  have := altStart_eq v
  unfold altStart at this
  unfold polarStart arctanQuotient
  simp only [Prod.mk.injEq] at this ⊢
  rw [if_neg h.ne', this.1]
  refine ⟨rfl, ?_⟩
  rw [← this.2, this.1]

theorem polarStep_off (q : ℝ) {v : Vec} (h : 0 < axisDistance v) (k : ℕ) :
    polarStep q (axisDistance v) (v 2) (some (Real.arctan (tanOf v k))) =
      (some (heightSeq v (k + 1)), some (Real.arctan (tanOf v (k + 1)))) := by
  have := altStep_arctan (axisDistance v) (v 2) (tanOf v k) h.ne'
  unfold altStep at this
  unfold polarStep arctanQuotient
  simp only [Prod.mk.injEq] at this ⊢
  have hc : axisDistance v / Real.cos (Real.arctan (tanOf v k)) ≠ 0 :=
    div_ne_zero h.ne' (Real.cos_arctan_pos _).ne'
  rw [if_neg h.ne', if_neg (by rw [add_sub_cancel]; exact hc)]
  refine ⟨congrArg some this.1, ?_⟩
  rw [this.2]
  rfl

/-- The radius of curvature at the pole. -/
noncomputable def polarRadius (q : ℝ) : ℝ :=
  axisA / Real.sqrt (Real.cos q ^ 2 + axisB ^ 2 / axisA ^ 2 * Real.sin q ^ 2)

theorem NextToRightAngle.cos_pos {q : ℝ} (h : NextToRightAngle q) : 0 < Real.cos q := by
  apply Real.cos_pos_of_mem_Ioo
  have := Real.pi_gt_three
  constructor <;> linarith [h.1, h.2]

theorem NextToRightAngle.radius {q : ℝ} (h : NextToRightAngle q) :
    6399 < polarRadius q ∧ polarRadius q < 6400 := by
  have hc := h.cos_pos
  have hc1 : Real.cos q ≤ 1 / 10 ^ 6 := by
    rw [← Real.sin_pi_div_two_sub]
    exact (Real.sin_le (by linarith [h.1])).trans h.2.le
  have hcs := Real.sin_sq_add_cos_sq q
  have hc2 : Real.cos q ^ 2 ≤ 1 / 10 ^ 12 := by nlinarith
  have hab : axisB ^ 2 / axisA ^ 2 < 0.993306 ∧ 0.993305 < axisB ^ 2 / axisA ^ 2 := by
    unfold axisA axisB
    constructor <;> norm_num
  set s := Real.cos q ^ 2 + axisB ^ 2 / axisA ^ 2 * Real.sin q ^ 2 with hs
  have hsin : Real.sin q ^ 2 = 1 - Real.cos q ^ 2 := by linarith
  have hs1 : 0.993305 < s := by
    rw [hs, hsin]
    nlinarith [sq_nonneg (Real.cos q)]
  have hs2 : s < 0.993307 := by
    rw [hs, hsin]
    nlinarith [sq_nonneg (Real.cos q)]
  have h1 : Real.sqrt s < 0.99666 := by
    rw [Real.sqrt_lt' (by norm_num)]
    norm_num
    linarith
  have h2 : 0.99664 < Real.sqrt s := by
    rw [Real.lt_sqrt (by norm_num)]
    norm_num
    linarith
  have hpos : 0 < Real.sqrt s := by linarith
  unfold polarRadius
  rw [← hs, lt_div_iff₀ hpos, div_lt_iff₀ hpos]
  unfold axisA
  constructor <;> linarith

theorem polarStart_on (q : ℝ) {v : Vec} (h : OnPolarAxis v) :
    ∃ phi, (phi = q ∨ phi = -q) ∧ polarStart q v =
      (some (‖toE v‖ - Real.sqrt (axisA * axisB)), some phi) := by
  have hg := gm_tight
  have hn : Real.sqrt (v 0 ^ 2 + v 1 ^ 2 + v 2 ^ 2) = ‖toE v‖ := by
    rw [norm_eq_sqrt, axisDistance_sq]
  have hr := h.2.2
  have hA : axisA = 6378.137 := rfl
  have hs : (1 - ratio ^ 2) * axisA = shift := rfl
  have hs2 := shift_tight
  have hf : 0 < (1 - Real.sqrt (1 - axisB ^ 2 / axisA ^ 2) ^ 2 * axisA /
      (axisA + (‖toE v‖ - Real.sqrt (axisA * axisB))))⁻¹ := by
    rw [inv_pos, e2_eq, hs, sub_pos, div_lt_one (by linarith)]
    linarith
  unfold polarStart arctanQuotient
  simp only [hn, h.axis, if_true]
  have hz : v 2 ≠ 0 := by
    intro h0
    rw [h.norm, h0] at hr
    norm_num at hr
  rcases lt_or_gt_of_ne hz with hz | hz
  · refine ⟨-q, Or.inr rfl, ?_⟩
    have : v 2 * (1 - Real.sqrt (1 - axisB ^ 2 / axisA ^ 2) ^ 2 * axisA /
      (axisA + (‖toE v‖ - Real.sqrt (axisA * axisB))))⁻¹ < 0 := mul_neg_of_neg_of_pos hz hf
    rw [if_neg (not_lt.2 this.le), if_pos this]
  · exact ⟨q, Or.inl rfl, by rw [if_pos (mul_pos hz hf)]⟩

theorem polarStep_on (q z phi : ℝ) (hphi : phi = q ∨ phi = -q) :
    polarStep q 0 z (some phi) = (some (-polarRadius q), none) := by
  have e : axisA / Real.sqrt (Real.cos phi ^ 2 + axisB ^ 2 / axisA ^ 2 * Real.sin phi ^ 2) =
      polarRadius q := by
    unfold polarRadius
    rcases hphi with rfl | rfl
    · rfl
    · rw [Real.cos_neg, Real.sin_neg, neg_sq]
  unfold polarStep arctanQuotient
  simp only [e, zero_div, zero_sub, add_neg_cancel, if_true, mul_zero, lt_irrefl, if_false]

/-- The first new height of one position. -/
noncomputable def passHeight (q : ℝ) (v : Vec) : ℝ :=
  if axisDistance v = 0 then -polarRadius q else heightSeq v 1

/-- An array of positions some of which are on the polar axis. -/
def Mixed (pts : List Vec) : Prop :=
  (∀ v ∈ pts, NearOrAboveEarth v ∨ OnPolarAxis v) ∧ ∃ v ∈ pts, OnPolarAxis v

theorem Mixed.state_zero {q : ℝ} {pts : List Vec} (h : Mixed pts) :
    ∃ phi : Vec → ℝ, (∀ v ∈ pts, OnPolarAxis v → phi v = q ∨ phi v = -q) ∧
      (∀ v ∈ pts, NearOrAboveEarth v → phi v = Real.arctan (tanOf v 0)) ∧
      polarState q pts 0 = pts.map fun v =>
        (some (‖toE v‖ - Real.sqrt (axisA * axisB)), some (phi v)) := by
  classical
  have key : ∀ v, ∃ phi, (OnPolarAxis v → phi = q ∨ phi = -q) ∧
      (NearOrAboveEarth v → phi = Real.arctan (tanOf v 0)) ∧
      (NearOrAboveEarth v ∨ OnPolarAxis v →
        polarStart q v = (some (‖toE v‖ - Real.sqrt (axisA * axisB)), some phi)) := by
    intro v
    by_cases hv : OnPolarAxis v
    · obtain ⟨phi, h1, h2⟩ := polarStart_on q hv
      refine ⟨phi, fun _ => h1, fun hn => ?_, fun _ => h2⟩
      exact absurd (axisDistance_pos hn.1) (by rw [hv.axis]; exact lt_irrefl _)
    · exact ⟨Real.arctan (tanOf v 0), fun h => absurd h hv, fun _ => rfl, fun h =>
        polarStart_off q (axisDistance_pos (h.resolve_right hv).1)⟩
  choose phi h1 h2 h3 using key
  refine ⟨phi, fun v _ => h1 v, fun v _ => h2 v, ?_⟩
  simp only [polarState]
  exact List.map_congr_left fun v hv => h3 v (h.1 v hv)

theorem Mixed.state_one {q : ℝ} {pts : List Vec} (h : Mixed pts) :
    ∃ phi : Vec → Option ℝ, (∀ v ∈ pts, OnPolarAxis v → phi v = none) ∧
      polarState q pts 1 = pts.map fun v => (some (passHeight q v), phi v) := by
  classical
  obtain ⟨phi, h1, h2, h3⟩ := h.state_zero (q := q)
  refine ⟨fun v => if axisDistance v = 0 then none else some (Real.arctan (tanOf v 1)), ?_, ?_⟩
  · intro v _ hv
    exact if_pos hv.axis
  · show List.zipWith _ pts (polarState q pts 0) = _
    rw [h3, List.zipWith_map_right, List.zipWith_self]
    apply List.map_congr_left
    intro v hv
    rcases h.1 v hv with hn | hp
    · have hd := axisDistance_pos hn.1
      simp only [h2 v hv hn, passHeight, if_neg hd.ne']
      exact polarStep_off q hd 0
    · simp only [passHeight, if_pos hp.axis]
      rw [hp.axis]
      exact polarStep_on q _ _ (h1 v hv hp)

theorem exceeds_none (t : ℝ) : ¬ exceeds none t := by
  rintro ⟨x, hx, -⟩
  cases hx

theorem exceeds_some (x t : ℝ) : exceeds (some x) t ↔ t < x := by
  constructor
  · rintro ⟨y, hy, h⟩
    cases hy
    exact h
  · exact fun h => ⟨x, rfl, h⟩

theorem nanMean_some (l : List ℝ) : nanMean (l.map some) = some (mean l) := by
  unfold nanMean
  rw [if_neg (by simp), List.map_map]
  congr 2
  conv_rhs => rw [← List.map_id l]
  rfl

theorem nanMean_none {l : List (Option ℝ)} (h : none ∈ l) : nanMean l = none := by
  unfold nanMean
  rw [if_pos h]

/-- The changes of the heights in the first pass. -/
noncomputable def firstChanges (q : ℝ) (pts : List Vec) : List ℝ :=
  pts.map fun v => passHeight q v - (‖toE v‖ - Real.sqrt (axisA * axisB))

theorem Mixed.continue_zero {q : ℝ} {pts : List Vec} (h : Mixed pts) :
    polarContinue q pts 0 ↔ axisA * (10 * 10 ^ (-10 : ℤ)) < mean (firstChanges q pts) := by
  obtain ⟨phi, -, -, h3⟩ := h.state_zero (q := q)
  obtain ⟨phi', h4, h5⟩ := h.state_one (q := q)
  obtain ⟨v, hv, hp⟩ := h.2
  unfold polarContinue
  rw [h5, h3]
  simp only [List.map_map, Function.comp_def, List.zipWith_map, List.zipWith_self]
  have e1 : (pts.map fun v => nanSub (some (passHeight q v))
      (some (‖toE v‖ - Real.sqrt (axisA * axisB)))) = (firstChanges q pts).map some := by
    unfold firstChanges
    rw [List.map_map]
    rfl
  have e2 : none ∈ pts.map fun v => nanSub (phi' v) (some (phi v)) :=
    List.mem_map.2 ⟨v, hv, by rw [h4 v hv hp]; rfl⟩
  rw [e1, nanMean_some, nanMean_none e2, exceeds_some]
  exact or_iff_left (exceeds_none _)

theorem Mixed.continue_one {q : ℝ} {pts : List Vec} (h : Mixed pts) :
    ¬ polarContinue q pts 1 := by
  obtain ⟨phi', h4, h5⟩ := h.state_one (q := q)
  obtain ⟨v, hv, hp⟩ := h.2
  have h2 : polarState q pts 2 =
      pts.map fun v => polarStep q (axisDistance v) (v 2) (phi' v) := by
    show List.zipWith _ pts (polarState q pts 1) = _
    rw [h5, List.zipWith_map_right, List.zipWith_self]
  have hstep : polarStep q (axisDistance v) (v 2) (phi' v) = (none, none) := by
    rw [h4 v hv hp]
    rfl
  unfold polarContinue
  rw [h5, h2]
  simp only [List.map_map, Function.comp_def, List.zipWith_map, List.zipWith_self]
  rw [nanMean_none (List.mem_map.2 ⟨v, hv, by rw [hstep]; rfl⟩),
    nanMean_none (List.mem_map.2 ⟨v, hv, by rw [hstep]; rfl⟩)]
  exact fun h => h.elim (exceeds_none _) (exceeds_none _)

theorem Mixed.returns_iff {q : ℝ} {pts : List Vec} (h : Mixed pts) (r : List (Option ℝ)) :
    PolarReturns q pts r ↔
      (¬ axisA * (10 * 10 ^ (-10 : ℤ)) < mean (firstChanges q pts) ∧
        r = pts.map fun v => some (‖toE v‖ - Real.sqrt (axisA * axisB))) ∨
      (axisA * (10 * 10 ^ (-10 : ℤ)) < mean (firstChanges q pts) ∧
        r = pts.map fun v => some (passHeight q v)) := by
  obtain ⟨phi, -, -, h3⟩ := h.state_zero (q := q)
  obtain ⟨phi', -, h5⟩ := h.state_one (q := q)
  have e0 : (polarState q pts 0).map (·.1) =
      pts.map fun v => some (‖toE v‖ - Real.sqrt (axisA * axisB)) := by
    rw [h3, List.map_map]
    rfl
  have e1 : (polarState q pts 1).map (·.1) = pts.map fun v => some (passHeight q v) := by
    rw [h5, List.map_map]
    rfl
  rw [← h.continue_zero, ← e0, ← e1]
  constructor
  · rintro ⟨k, hk, hstop, rfl⟩
    match k with
    | 0 => exact Or.inl ⟨hstop, rfl⟩
    | 1 => exact Or.inr ⟨hk 0 (by norm_num), rfl⟩
    | k + 2 => exact absurd (hk 1 (by omega)) h.continue_one
  · rintro (⟨h1, rfl⟩ | ⟨h1, rfl⟩)
    · exact ⟨0, fun j hj => absurd hj (Nat.not_lt_zero j), h1, rfl⟩
    · refine ⟨1, fun j hj => ?_, h.continue_one, rfl⟩
      obtain rfl : j = 0 := by omega
      exact h1

end Celest.Frames
