/-
C133: altitudes of arrays that hold a position on the polar axis.
-/
import Verif.Frames.Polar
import Verif.Frames.PropsCompanions

namespace Celest.Frames

open Matrix Celest.TimeScale

/-- Off the polar axis the model with NaN says the same as the model without. -/
theorem polarReturns_off_axis (q : ℝ) (pts : List Vec) (h : ∀ v ∈ pts, v 0 ≠ 0 ∨ v 1 ≠ 0)
    (r : List ℝ) : PolarReturns q pts (r.map some) ↔ AltitudeReturns pts r := by
  have hd : ∀ v ∈ pts, 0 < axisDistance v := fun v hv => axisDistance_pos (h v hv)
  have hst : ∀ k, polarState q pts k =
      pts.map fun v => (some (heightSeq v k), some (Real.arctan (tanOf v k))) := by
    intro k
    induction k with
    | zero => exact List.map_congr_left fun v hv => polarStart_off q (hd v hv)
    | succ k ih =>
      show List.zipWith _ pts (polarState q pts k) = _
      rw [ih, List.zipWith_map_right, List.zipWith_self]
      exact List.map_congr_left fun v hv => polarStep_off q (hd v hv) k
  have hc : ∀ k, polarContinue q pts k ↔ altContinue pts k := by
    intro k
    unfold polarContinue altContinue
    rw [hst, hst, altState_eq pts hd, altState_eq pts hd]
    simp only [List.map_map, Function.comp_def, List.zipWith_map, List.zipWith_self]
    have e1 : (pts.map fun v => nanSub (some (heightSeq v (k + 1))) (some (heightSeq v k))) =
        (pts.map fun v => heightSeq v (k + 1) - heightSeq v k).map some := by
      rw [List.map_map]
      rfl
    have e2 : (pts.map fun v => nanSub (some (Real.arctan (tanOf v (k + 1))))
        (some (Real.arctan (tanOf v k)))) =
        (pts.map fun v => Real.arctan (tanOf v (k + 1)) - Real.arctan (tanOf v k)).map some := by
      rw [List.map_map]
      rfl
    rw [e1, e2, nanMean_some, nanMean_some, exceeds_some, exceeds_some]
  have hm : ∀ k, (polarState q pts k).map (·.1) = ((altState pts k).map (·.1)).map some := by
    intro k
    rw [hst, altState_eq pts hd, List.map_map, List.map_map, List.map_map]
    rfl
  unfold PolarReturns AltitudeReturns
  apply exists_congr
  intro k
  simp only [hc, hm]
  rw [(List.map_injective_iff.2 (Option.some_injective ℝ)).eq_iff]

/-- **C133 (partial).** The altitude computation also ends for arrays with positions on the polar
axis, with one number (never NaN) for each position.  Missing: that the numbers are near the
heights, which is false (below). -/
theorem C133_returns_partial (q : ℝ) (pts : List Vec)
    (h : ∀ v ∈ pts, NearOrAboveEarth v ∨ OnPolarAxis v) :
    ∃ r : List ℝ, PolarReturns q pts (r.map some) ∧ r.length = pts.length := by
  by_cases hp : ∃ v ∈ pts, OnPolarAxis v
  · have hm : Mixed pts := ⟨h, hp⟩
    by_cases hc : axisA * (10 * 10 ^ (-10 : ℤ)) < mean (firstChanges q pts)
    · refine ⟨pts.map fun v => passHeight q v, ?_, by simp⟩
      rw [List.map_map]
      exact (hm.returns_iff _).2 (Or.inr ⟨hc, rfl⟩)
    · refine ⟨pts.map fun v => ‖toE v‖ - Real.sqrt (axisA * axisB), ?_, by simp⟩
      rw [List.map_map]
      exact (hm.returns_iff _).2 (Or.inl ⟨hc, rfl⟩)
  · have hn : ∀ v ∈ pts, NearOrAboveEarth v := fun v hv =>
      (h v hv).resolve_right fun hv' => hp ⟨v, hv, hv'⟩
    obtain ⟨r, hr, hl⟩ := C75_altitude_returns pts hn
    exact ⟨r, (polarReturns_off_axis q pts (fun v hv => (hn v hv).1) r).2 hr, hl⟩

theorem sum_le_of_forall {l : List ℝ} {e : ℝ} (h : ∀ x ∈ l, x ≤ e) : l.sum ≤ e * l.length := by
  have := List.sum_le_card_nsmul l e h
  rw [nsmul_eq_mul] at this
  linarith

theorem passHeight_change {q : ℝ} (hq : NextToRightAngle q) {v : Vec}
    (h : NearOrAboveEarth v ∨ OnPolarAxis v) :
    passHeight q v - (‖toE v‖ - Real.sqrt (axisA * axisB)) ≤ 12.01 ∧
    (OnPolarAxis v → passHeight q v - (‖toE v‖ - Real.sqrt (axisA * axisB)) ≤ -6031) := by
  have hg := gm_tight
  have hN := hq.radius.1
  have key : OnPolarAxis v →
      passHeight q v - (‖toE v‖ - Real.sqrt (axisA * axisB)) ≤ -6031 := by
    intro hp
    have := hp.2.2
    rw [passHeight, if_pos hp.axis]
    linarith
  refine ⟨?_, key⟩
  rcases h with hn | hp
  · obtain ⟨t, -, h0, h1⟩ := hn.after
    have a := abs_le.1 h0
    have b := abs_le.1 (h1 0)
    have e : heightSeq v 0 = ‖toE v‖ - Real.sqrt (axisA * axisB) := rfl
    rw [e] at a
    rw [passHeight, if_neg (axisDistance_pos hn.1).ne']
    simp only [zero_add] at b
    linarith
  · linarith [key hp]

/-- **C133 (failure).** One position on the polar axis stops the computation at the first guess for
everyone: in an array of at most 500 positions that holds such a position, every altitude returned
is the distance from the centre of the Earth less the geometric mean of the axes. -/
theorem C133_first_guess_for_all (q : ℝ) (hq : NextToRightAngle q) (pts : List Vec)
    (h : ∀ v ∈ pts, NearOrAboveEarth v ∨ OnPolarAxis v) (hp : ∃ v ∈ pts, OnPolarAxis v)
    (hlen : pts.length ≤ 500) (r : List (Option ℝ)) (hr : PolarReturns q pts r) :
    r = pts.map fun v => some (‖toE v‖ - Real.sqrt (axisA * axisB)) := by
  have hm : Mixed pts := ⟨h, hp⟩
  rcases (hm.returns_iff r).1 hr with ⟨-, e⟩ | ⟨hc, -⟩
  · exact e
  · exfalso
    obtain ⟨v, hv, hpv⟩ := hp
    obtain ⟨l₁, l₂, rfl⟩ := List.append_of_mem hv
    have hb : ∀ (l : List Vec), (∀ v ∈ l, NearOrAboveEarth v ∨ OnPolarAxis v) →
        (firstChanges q l).sum ≤ 12.01 * l.length := by
      intro l hl
      have := sum_le_of_forall (l := firstChanges q l) (e := 12.01) (by
        intro x hx
        obtain ⟨w, hw, rfl⟩ := List.mem_map.1 hx
        exact (passHeight_change hq (hl w hw)).1)
      rwa [firstChanges, List.length_map] at this
    have b1 := hb l₁ fun w hw => h w (by simp [hw])
    have b2 := hb l₂ fun w hw => h w (by simp [hw])
    have b3 := (passHeight_change hq (h v hv)).2 hpv
    have hs : (firstChanges q (l₁ ++ v :: l₂)).sum = (firstChanges q l₁).sum +
        (passHeight q v - (‖toE v‖ - Real.sqrt (axisA * axisB)) + (firstChanges q l₂).sum) := by
      simp [firstChanges]
    have hl : ((l₁.length : ℝ) + (l₂.length + 1)) ≤ 500 := by
      rw [List.length_append, List.length_cons] at hlen
      exact_mod_cast hlen
    have hneg : mean (firstChanges q (l₁ ++ v :: l₂)) ≤ 0 := by
      unfold mean
      apply div_nonpos_of_nonpos_of_nonneg _ (Nat.cast_nonneg _)
      rw [hs]
      linarith
    have hA := axisA_pos
    have : 0 ≤ axisA * (10 * 10 ^ (-10 : ℤ)) := mul_nonneg hA.le (by norm_num)
    linarith

/-- **C133 (failure).** The altitude of the position on the polar axis is then more than 10.6 km too
low: its height above the ellipsoid is its distance from the centre less the polar semi-axis. -/
theorem C133_polar_altitude_too_low (v : Vec) (h : OnPolarAxis v) :
    IsHeight (axisA ^ 2) (axisB ^ 2) v (‖toE v‖ - axisB) ∧
    10.6 < (‖toE v‖ - axisB) - (‖toE v‖ - Real.sqrt (axisA * axisB)) ∧
    (‖toE v‖ - axisB) - (‖toE v‖ - Real.sqrt (axisA * axisB)) < 10.7 := by
  have hg := gm_tight
  have hB : axisB = 6356.752314245 := rfl
  have hB0 : 0 < axisB := by rw [hB]; norm_num
  refine ⟨?_, by linarith, by linarith⟩
  have hn := h.norm
  have hz : v 2 ≠ 0 := by
    intro h0
    have := h.2.2
    rw [hn, h0] at this
    norm_num at this
  obtain ⟨s, hs1, hs2⟩ : ∃ s : ℝ, s ^ 2 = 1 ∧ v 2 = s * ‖toE v‖ := by
    rw [hn]
    rcases lt_or_gt_of_ne hz with hz | hz
    · exact ⟨-1, by norm_num, by rw [abs_of_neg hz]; ring⟩
    · exact ⟨1, by norm_num, by rw [abs_of_pos hz]; ring⟩
  refine ⟨![0, 0, s * axisB], ?_, ![0, 0, s], ?_, ⟨axisB, hB0, ?_⟩, ?_⟩
  · unfold OnEllipsoid
    simp only [Matrix.cons_val]
    rw [mul_pow, hs1]
    field_simp
    simp
  · rw [EuclideanSpace.norm_eq]
    simp [Fin.sum_univ_three, hs1]
  · unfold ellipsoidGradient
    ext i
    fin_cases i
    · simp
    · simp
    · simp only [Fin.reduceFinMk, Matrix.cons_val, Pi.smul_apply, smul_eq_mul]
      field_simp
  · ext i
    fin_cases i
    · simpa using h.1
    · simpa using h.2.1
    · simp only [Fin.reduceFinMk, Matrix.cons_val, Pi.add_apply, Pi.smul_apply, smul_eq_mul]
      rw [hs2]
      ring

/-- **C133 (failure).** A single position on the polar axis spoils the altitudes of the others:
positions between 1.2 and 36 degrees north, each within 1.01 km of its height when they are
converted alone (`C52_low_north_partial`), come out more than 2.6 km too high when a position on
the polar axis is converted with them. -/
theorem C133_companions_spoiled (q : ℝ) (hq : NextToRightAngle q) (pts : List Vec)
    (hne : pts ≠ []) (hlen : pts.length < 500) (pole : Vec) (hpole : OnPolarAxis pole)
    (h : ∀ v ∈ pts, (v 0 ≠ 0 ∨ v 1 ≠ 0) ∧ 6350 ≤ ‖toE v‖ ∧ ‖toE v‖ ≤ 48000)
    (hnorth : ∀ v ∈ pts, ‖toE v‖ ≤ 50 * v 2 ∧ v 2 ≤ 0.6 * ‖toE v‖)
    (alone together : List ℝ) (ha : PolarReturns q pts (alone.map some))
    (ht : PolarReturns q (pole :: pts) (together.map some)) :
    List.Forall₂ (fun v x => ∃ t, IsHeight (axisA ^ 2) (axisB ^ 2) v t ∧ |x - t| ≤ 1.01)
      pts alone ∧
    ∃ x rest, together = x :: rest ∧
      List.Forall₂ (fun v x => ∃ t, IsHeight (axisA ^ 2) (axisB ^ 2) v t ∧ 2.6 < x - t) pts rest := by
  have hn : ∀ v ∈ pts, NearOrAboveEarth v := fun v hv =>
    ⟨(h v hv).1, by linarith [(h v hv).2.1]⟩
  refine ⟨C52_low_north_partial pts hne h hnorth alone
    ((polarReturns_off_axis q pts (fun v hv => (h v hv).1) alone).1 ha), ?_⟩
  have hall := C133_first_guess_for_all q hq (pole :: pts) (by
      intro v hv
      rcases List.mem_cons.1 hv with rfl | hv
      · exact Or.inr hpole
      · exact Or.inl (hn v hv)) ⟨pole, by simp, hpole⟩ (by simpa using hlen) _ ht
  have e : together = (pole :: pts).map fun v => ‖toE v‖ - Real.sqrt (axisA * axisB) := by
    apply List.map_injective_iff.2 (Option.some_injective ℝ)
    rw [hall, List.map_map]
    rfl
  refine ⟨_, _, by rw [e, List.map_cons], ?_⟩
  rw [List.forall₂_map_right_iff, List.forall₂_same]
  intro v hv
  have hl : |v 2| ≤ 0.6 * ‖toE v‖ := by
    obtain ⟨h3, h4⟩ := hnorth v hv
    rw [abs_of_nonneg (by linarith [(h v hv).2.1])]
    exact h4
  obtain ⟨t, ht, h1, -, -⟩ := (hn v hv).low hl
  have hn0 : 0 < ‖toE v‖ := by linarith [(hn v hv).2]
  have hsq : (v 2 / ‖toE v‖) ^ 2 ≤ 0.36 := by
    rw [← sq_abs, abs_div, abs_of_pos hn0]
    have h2 : |v 2| / ‖toE v‖ ≤ 0.6 := by
      rw [div_le_iff₀ hn0]
      exact hl
    have := mul_le_mul h2 h2 (by positivity) (by norm_num)
    linarith
  have e0 : heightSeq v 0 = ‖toE v‖ - Real.sqrt (axisA * axisB) := rfl
  rw [e0] at h1
  exact ⟨t, ht, by linarith⟩

/-- **C133 (failure).** In a long array the position on the polar axis can come out 6399 km below
the surface: this happens for every one up to 8000 km from the centre of the Earth, if it is
converted with 1400 positions at a high latitude. -/
theorem C133_below_the_surface (q : ℝ) (hq : NextToRightAngle q) (pole : Vec)
    (hpole : OnPolarAxis pole) (hp : ‖toE pole‖ ≤ 8000) (r : List (Option ℝ))
    (hr : PolarReturns q (pole :: List.replicate 1400 highLatitude) r) :
    ∃ x rest, r = some x :: rest ∧ -6400 < x ∧ x < -6399 := by
  have hm : Mixed (pole :: List.replicate 1400 highLatitude) := by
    refine ⟨fun v hv => ?_, pole, List.mem_cons_self, hpole⟩
    rcases List.mem_cons.1 hv with rfl | hv
    · exact Or.inr hpole
    · rw [List.eq_of_mem_replicate hv]
      exact Or.inl highLatitude_near
  have hg := gm_tight
  have hN := hq.radius
  have hgo : axisA * (10 * 10 ^ (-10 : ℤ)) <
      mean (firstChanges q (pole :: List.replicate 1400 highLatitude)) := by
    have htol : axisA * (10 * 10 ^ (-10 : ℤ)) < 0.01 := by
      unfold axisA
      norm_num
    refine htol.trans (mean_gt_of_sum (by
      rw [firstChanges, List.map_cons]
      exact List.cons_ne_nil _ _) ?_)
    have hh : passHeight q highLatitude = heightSeq highLatitude 1 := by
      rw [passHeight, if_neg (axisDistance_pos highLatitude_near.1).ne']
    have h6 := highLatitude_step
    have e0 : heightSeq highLatitude 0 = ‖toE highLatitude‖ - Real.sqrt (axisA * axisB) := rfl
    rw [e0] at h6
    unfold firstChanges
    rw [List.map_cons, List.map_replicate, List.sum_cons, List.sum_replicate, List.length_cons,
      List.length_replicate, nsmul_eq_mul, hh, passHeight, if_pos hpole.axis]
    push_cast
    linarith
  rcases (hm.returns_iff r).1 hr with ⟨hc, -⟩ | ⟨-, e⟩
  · exact absurd hgo hc
  · refine ⟨-polarRadius q, (List.replicate 1400 highLatitude).map fun v => some (passHeight q v),
      ?_, by linarith, by linarith⟩
    rw [e, List.map_cons, passHeight, if_pos hpole.axis]

/-- Non-vacuity: the position 7000 km above the centre of the Earth on the polar axis. -/
example : OnPolarAxis ![0, 0, 7000] ∧ ‖toE (![0, 0, 7000] : Vec)‖ ≤ 8000 ∧
    ∃ q, NextToRightAngle q := by
  have hn : ‖toE (![0, 0, 7000] : Vec)‖ = 7000 := by
    rw [EuclideanSpace.norm_eq]
    simp [Fin.sum_univ_three]
  refine ⟨⟨rfl, rfl, by rw [hn]; norm_num⟩, by rw [hn]; norm_num,
    Real.pi / 2 - 1 / 10 ^ 16, by linarith, ?_⟩
  norm_num

/-- Non-vacuity for `C133_companions_spoiled`: a low orbit at 30 degrees north. -/
example : ∀ v ∈ [(![6062, 0, 3500] : Vec)], (v 0 ≠ 0 ∨ v 1 ≠ 0) ∧ 6350 ≤ ‖toE v‖ ∧
    ‖toE v‖ ≤ 48000 ∧ ‖toE v‖ ≤ 50 * v 2 ∧ v 2 ≤ 0.6 * ‖toE v‖ := by
  intro v hv
  rw [List.mem_singleton.1 hv]
  have hb : 6999 < ‖toE (![6062, 0, 3500] : Vec)‖ ∧ ‖toE (![6062, 0, 3500] : Vec)‖ < 7000 := by
    rw [EuclideanSpace.norm_eq]
    constructor
    · rw [Real.lt_sqrt (by norm_num)]
      simp [Fin.sum_univ_three]
      norm_num
    · rw [Real.sqrt_lt' (by norm_num)]
      simp [Fin.sum_univ_three]
      norm_num
  refine ⟨Or.inl (by simp), by linarith, by linarith, ?_, ?_⟩ <;> simp <;> linarith

end Celest.Frames
