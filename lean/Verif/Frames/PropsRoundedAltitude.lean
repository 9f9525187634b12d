/-
C121: altitudes in floating-point arithmetic.
-/
import Verif.Frames.LemmasRoundedAltitude
import Verif.Frames.PropsRoundedAngles

namespace Celest.Frames

open Celest.TimeScale

/-- A position the statements are about, in kilometres: between 6000 km and a million kilometres
from the centre of the Earth, and not too close to the polar axis: at least 250 m from it in a low
orbit, 10 km in a geostationary one. -/
structure Surveyed (v : Vec) : Prop where
  far : 6000 ≤ ‖toE v‖
  near : ‖toE v‖ ≤ 10 ^ 6
  off : ‖toE v‖ ^ 2 ≤ 2 * 10 ^ 8 * Real.sqrt (v 0 ^ 2 + v 1 ^ 2)

theorem Surveyed.tame {v : Vec} (h : Surveyed v) : Tame (axisDistance v) (v 2) ‖toE v‖ := by
  have hn : ‖toE v‖ ^ 2 = axisDistance v ^ 2 + v 2 ^ 2 := by
    rw [norm_eq_sqrt, Real.sq_sqrt (by positivity)]
  refine ⟨?_, hn, h.far, h.off⟩
  have h1 := h.off
  have h2 := h.far
  change _ ≤ 2 * 10 ^ 8 * axisDistance v at h1
  by_contra h0
  nlinarith

theorem Surveyed.nearOrAbove {v : Vec} (h : Surveyed v) : NearOrAboveEarth v := by
  refine ⟨?_, h.far⟩
  by_contra h0
  push Not at h0
  have := h.tame.pos
  unfold axisDistance at this
  rw [h0.1, h0.2] at this
  simp at this

section

variable {M : Machine} {pw : ℝ → ℕ → ℝ} {u : ℝ} {E : Extra}

theorem near_refl (x : ℝ) : Near 0 x x := by
  unfold Near
  simp

theorem axisDistance_near (S : Setup M pw u) (v : Vec) :
    Near (3 * u) (Rounded.axisDistance M pw v) (axisDistance v) := by
  have hu := S.acc.nonneg
  have hs := S.acc.small
  have h := fun i => (near_refl (v i)).sq S (by norm_num) le_rfl
  exact ((((((h 0).add (h 1) (sq_nonneg _) (sq_nonneg _)).fl S.acc (by linarith)).sqrt
    (by linarith) (by positivity)).fl S.acc (by linarith)).mono (by linarith))

theorem radius_near (S : Setup M pw u) (v : Vec) :
    Near (3.2 * u) (M.fl (Real.sqrt (M.fl (M.fl (pw (v 0) 2 + pw (v 1) 2) + pw (v 2) 2)))) ‖toE v‖ := by
  have hu := S.acc.nonneg
  have hs := S.acc.small
  have h := fun i => (near_refl (v i)).sq S (by norm_num) le_rfl
  have h1 := (((h 0).add (h 1) (sq_nonneg _) (sq_nonneg _)).fl S.acc (by linarith)).mono
    (f := 3.1 * u) (by linarith)
  have h2 := (((h1.add ((h 2).mono (f := 3.1 * u) (by linarith)) (by positivity)
    (sq_nonneg _)).fl S.acc (by linarith)).sqrt (by linarith) (by positivity)).fl S.acc
    (by linarith)
  rw [norm_eq_sqrt, axisDistance_sq]
  exact h2.mono (by linarith)

theorem gm_near (S : Setup M pw u) :
    Near (2.6 * u) (M.fl (Real.sqrt (M.fl (M.fl axisA * M.fl axisB))))
      (Real.sqrt (axisA * axisB)) := by
  have hu := S.acc.nonneg
  have hs := S.acc.small
  have h := (((((Near.round S.acc axisA).mul (Near.round S.acc axisB) (by linarith) hu).fl S.acc
    (by linarith)).sqrt (by linarith) (by unfold axisA axisB; norm_num)).fl S.acc
    (by linarith))
  exact h.mono (by linarith)

/-- The start values. -/
theorem start_close (S : Setup M pw u) (hE : E.Accurate u) {v : Vec} (h : Surveyed v) :
    |(Rounded.altStart M pw E v).1 - (altStart v).1| ≤ 10 * u * ‖toE v‖ ∧
    |(Rounded.altStart M pw E v).2 - (altStart v).2| ≤ 60 * u := by
  have hu := S.acc.nonneg
  have hs := S.acc.small
  have hr := h.far
  have hg := gm_bounds
  have hA : axisA = 6378.137 := rfl
  have hn : Real.sqrt (v 0 ^ 2 + v 1 ^ 2 + v 2 ^ 2) = ‖toE v‖ := by
    rw [norm_eq_sqrt, axisDistance_sq]
  have hstart : altStart v = (‖toE v‖ - Real.sqrt (axisA * axisB),
      Real.arctan (v 2 / axisDistance v * (1 - (1 - ratio ^ 2) * axisA /
        (axisA + (‖toE v‖ - Real.sqrt (axisA * axisB))))⁻¹)) := by
    unfold altStart
    simp only [e2_eq, hn]
  rw [hstart]
  unfold Rounded.altStart
  simp only
  have hrn := (radius_near S v).to_abs (by linarith) (abs_of_nonneg (norm_nonneg _)).le
  have hgn := (gm_near S).to_abs (by linarith) (B := 6368) (by
    rw [abs_of_nonneg (Real.sqrt_nonneg _)]
    exact hg.2.le)
  set r := ‖toE v‖ with hrd
  set g := Real.sqrt (axisA * axisB) with hgd
  have ur : u * 6000 ≤ u * r := mul_le_mul_of_nonneg_left hr hu
  have urs : u * r ≤ 1 / 10 ^ 12 * r := mul_le_mul_of_nonneg_right hs (by linarith)
  norm_num at urs
  have he : |Rounded.startHeight M pw v - (r - g)| ≤ 8.2 * (u * r) := by
    unfold Rounded.startHeight
    set r' := M.fl (Real.sqrt (M.fl (M.fl (pw (v 0) 2 + pw (v 1) 2) + pw (v 2) 2)))
    set g' := M.fl (Real.sqrt (M.fl (M.fl axisA * M.fl axisB)))
    have h1 := S.acc.fl (r' - g')
    have h2 : |r' - g' - (r - g)| ≤ 6 * (u * r) := by
      rw [show r' - g' - (r - g) = (r' - r) - (g' - g) by ring]
      have := abs_sub (r' - r) (g' - g)
      linarith
    have h3 : |r' - g'| ≤ 2.1 * r := by
      have := abs_sub_abs_le_abs_sub (r' - g') (r - g)
      have : |r - g| ≤ 2.07 * r := by
        rw [abs_le]
        constructor <;> linarith
      linarith
    have h4 : u * |r' - g'| ≤ u * (2.1 * r) := mul_le_mul_of_nonneg_left h3 hu
    have h5 := abs_sub_le (M.fl (r' - g')) (r' - g') (r - g)
    linarith
  set h0 := Rounded.startHeight M pw v with hh0
  constructor
  · have : 0 ≤ u * r := mul_nonneg hu (by linarith)
    linarith
  · have an := Near.round S.acc axisA
    have top := (((eccSq_near S).mul an (by linarith) hu).fl S.acc
      (by linarith)).mono (f := 1605 * u) (by linarith)
    have bot : Near (11 * u) (M.fl (M.fl axisA + h0)) (axisA + (r - g)) := by
      refine Near.of_abs (d := 10.9 * (u * r)) ?_ (by linarith) ?_
      · have h1 := S.acc.fl (M.fl axisA + h0)
        have h2 : |M.fl axisA + h0 - (axisA + (r - g))| ≤ 9.3 * (u * r) := by
          rw [show M.fl axisA + h0 - (axisA + (r - g)) =
            (M.fl axisA - axisA) + (h0 - (r - g)) by ring]
          have := abs_add_le (M.fl axisA - axisA) (h0 - (r - g))
          have a1 := S.acc.fl axisA
          rw [abs_of_pos axisA_pos, hA] at a1
          rw [hA] at *
          linarith
        have h3 : |M.fl axisA + h0| ≤ 1.1 * r := by
          have := abs_sub_abs_le_abs_sub (M.fl axisA + h0) (axisA + (r - g))
          rw [abs_of_pos (by linarith : 0 < axisA + (r - g))] at this
          linarith
        have h4 : u * |M.fl axisA + h0| ≤ u * (1.1 * r) := mul_le_mul_of_nonneg_left h3 hu
        have h5 := abs_sub_le (M.fl (M.fl axisA + h0)) (M.fl axisA + h0) (axisA + (r - g))
        linarith
      · have : 11 * u * r ≤ 11 * u * (axisA + (r - g)) :=
          mul_le_mul_of_nonneg_left (by linarith) (by linarith)
        have : 0 ≤ u * r := mul_nonneg hu (by linarith)
        linarith
    have e := e2_bounds
    have q0 : 0 ≤ (1 - ratio ^ 2) * axisA / (axisA + (r - g)) :=
      div_nonneg (mul_nonneg (by linarith) (by linarith)) (by linarith)
    have q1 : (1 - ratio ^ 2) * axisA / (axisA + (r - g)) ≤ 0.0072 := by
      rw [div_le_iff₀ (by linarith)]
      have : (1 - ratio ^ 2) * axisA ≤ 0.0067 * 6379 :=
        mul_le_mul e.2 (by linarith) (by linarith) (by norm_num)
      linarith
    have qn := ((top.div bot (by linarith) (by linarith) (by linarith)
      (by linarith : 0 < axisA + (r - g))).fl S.acc (by linarith)).mono (f := 1620 * u)
        (by linarith)
    have qe := qn.to_abs (by linarith) (B := 0.0072) (by rw [abs_of_nonneg q0]; exact q1)
    refine latitude_close S hE h.tame (axisDistance_near S v) qe q0 (by linarith) ?_
    have : 0 ≤ u * (‖toE v‖ / axisDistance v) :=
      mul_nonneg hu (div_nonneg (norm_nonneg _) h.tame.pos.le)
    linarith

/-- The values of one position after `k` passes. -/
noncomputable def pointState (M : Machine) (pw : ℝ → ℕ → ℝ) (E : Extra) (v : Vec) : ℕ → ℝ × ℝ
  | 0 => Rounded.altStart M pw E v
  | k + 1 => Rounded.altStep M pw E (Rounded.axisDistance M pw v) (v 2) (pointState M pw E v k).2

theorem rounded_altState (pts : List Vec) (k : ℕ) :
    Rounded.altState M pw E pts k = pts.map fun v => pointState M pw E v k := by
  induction k with
  | zero => rfl
  | succ k ih =>
    simp only [Rounded.altState]
    rw [ih, List.zipWith_map_right, List.zipWith_self]
    rfl

/-- What rounding can do to a height, in kilometres. -/
noncomputable def heightSlack (u : ℝ) (v : Vec) : ℝ :=
  70 * u * (‖toE v‖ / axisDistance v) * ‖toE v‖ + 710 * u * ‖toE v‖

theorem pointState_close (S : Setup M pw u) (hE : E.Accurate u) {v : Vec} (h : Surveyed v)
    (k : ℕ) :
    |(pointState M pw E v k).1 - heightSeq v k| ≤ heightSlack u v ∧
      |(pointState M pw E v k).2 - Real.arctan (tanOf v k)| ≤ 60 * u := by
  have hu := S.acc.nonneg
  have hp := h.tame.pos
  induction k with
  | zero =>
    obtain ⟨h1, h2⟩ := start_close S hE h
    rw [altStart_eq] at h1 h2
    refine ⟨h1.trans ?_, h2⟩
    unfold heightSlack
    have t1 : 0 ≤ 70 * u * (‖toE v‖ / axisDistance v) * ‖toE v‖ := by positivity
    have t2 : 0 ≤ u * ‖toE v‖ := by positivity
    linarith
  | succ k ih =>
    obtain ⟨h1, h2⟩ := step_close S hE h.tame (axisDistance_near S v)
      (h.nearOrAbove.regular.seq_bounds k) ih.2
    rw [altStep_arctan _ _ _ hp.ne'] at h1 h2
    exact ⟨h1, h2⟩

theorem heightSlack_le {v : Vec} (h : Surveyed v) : heightSlack (1 / 2 ^ 53) v ≤ 1.65 / 10 ^ 6 := by
  have hp := h.tame.pos
  have h1 : ‖toE v‖ / axisDistance v * ‖toE v‖ ≤ 2 * 10 ^ 8 := by
    rw [div_mul_eq_mul_div, div_le_iff₀ hp, ← pow_two]
    exact h.off
  have h2 := h.near
  unfold heightSlack
  rw [mul_assoc (70 * _)]
  norm_num at h1 h2 ⊢
  linarith

theorem abs_mean_le (l : List ℝ) (B : ℝ) (hB : 0 ≤ B) (h : ∀ x ∈ l, |x| ≤ B) : |mean l| ≤ B := by
  unfold mean
  have hs : |l.sum| ≤ l.length * B := by
    induction l with
    | nil => simp
    | cons x l ih =>
      have h1 := ih fun y hy => h y (List.mem_cons_of_mem _ hy)
      have h2 := h x List.mem_cons_self
      have h3 := abs_add_le x l.sum
      simp only [List.sum_cons, List.length_cons]
      push_cast
      linarith
  rcases Nat.eq_zero_or_pos l.length with h0 | h0
  · rw [h0]
    simpa using hB
  · have h1 : (0 : ℝ) < l.length := by exact_mod_cast h0
    rw [abs_div, abs_of_pos h1, div_le_iff₀ h1]
    linarith

/-- Double precision with correctly rounded arctangents and means. -/
noncomputable def extra64 : Extra where
  arctan x := roundReal 53 (Real.arctan x)
  mean l := roundReal 53 (mean l)

theorem extra64_accurate : extra64.Accurate (1 / 2 ^ 53) where
  arctan x := by
    have h1 := roundReal_error (p := 53) (Real.arctan x)
    have h2 : |Real.arctan x| ≤ 4 := by
      have h3 := Real.arctan_lt_pi_div_two x
      have h4 := Real.neg_pi_div_two_lt_arctan x
      have h5 := Real.pi_lt_four
      rw [abs_le]
      constructor <;> linarith
    simp only [extra64]
    linarith
  mean l B hB h := by
    have h1 := roundReal_error (p := 53) (mean l)
    have h2 := abs_mean_le l B hB h
    simp only [extra64]
    norm_num at h1 ⊢
    linarith

/-! ### C121 -/

/-- **C121.** In double precision the altitude loop ends after at most four passes, however many
positions there are, and returns one altitude for each. -/
theorem C121_at_most_four_passes (S : Setup M pw (1 / 2 ^ 53)) (hE : E.Accurate (1 / 2 ^ 53))
    (pts : List Vec) (h : ∀ v ∈ pts, Surveyed v) :
    (∃ k ≤ 4, (∀ j < k, Rounded.altContinue M pw E pts j) ∧ ¬ Rounded.altContinue M pw E pts k) ∧
    ∃ r, Rounded.AltitudeReturns M pw E pts r ∧ r.length = pts.length := by
  classical
  have mean_le : ∀ (f : Vec → ℝ) (B : ℝ), 0 ≤ B → (∀ v ∈ pts, |f v| ≤ B) →
      E.mean (pts.map f) ≤ 1.1 * B := by
    intro f B hB hf
    have hl : ∀ x ∈ pts.map f, |x| ≤ B := by
      intro x hx
      obtain ⟨v, hv, rfl⟩ := List.mem_map.1 hx
      exact hf v hv
    have h1 := (abs_le.1 (hE.mean _ B hB hl)).2
    have h2 := (abs_le.1 (abs_mean_le _ B hB hl)).2
    linarith
  have hstop : ¬ Rounded.altContinue M pw E pts 4 := by
    unfold Rounded.altContinue
    rw [rounded_altState, rounded_altState]
    simp only [List.map_map, Function.comp_def, List.zipWith_map, List.zipWith_self]
    push Not
    have hfl : ∀ x B : ℝ, |x| ≤ B → |M.fl x| ≤ 1.001 * B := by
      intro x B hx
      have h1 := S.acc.fl x
      have h2 := abs_sub_abs_le_abs_sub (M.fl x) x
      norm_num at h1
      linarith [abs_nonneg x]
    have htol : (0.999 / 10 ^ 9 : ℝ) ≤ M.fl (10 * 10 ^ (-10 : ℤ)) := by
      have h1 := (abs_le.1 (S.acc.fl (10 * 10 ^ (-10 : ℤ)))).1
      norm_num [abs_of_pos] at h1 ⊢
      linarith
    constructor
    · refine (mean_le _ (4.4 / 10 ^ 6) (by norm_num) fun v hv => ?_).trans ?_
      · have h5 := (pointState_close S hE (h v hv) 5).1
        have h4 := (pointState_close S hE (h v hv) 4).1
        have hs := heightSlack_le (h v hv)
        have hl := (h v hv).nearOrAbove.late.1
        refine (hfl _ (4.34 / 10 ^ 6) ?_).trans (by norm_num)
        rw [abs_le] at *
        norm_num at hs hl ⊢
        constructor <;> linarith
      · have h1 := (abs_le.1 (S.acc.fl axisA)).1
        rw [abs_of_pos axisA_pos] at h1
        unfold axisA at h1 ⊢
        have h2 : (6378 : ℝ) ≤ M.fl 6378.137 := by
          norm_num at h1 ⊢
          linarith
        have h3 : (6 / 10 ^ 6 : ℝ) ≤ M.fl 6378.137 * M.fl (10 * 10 ^ (-10 : ℤ)) :=
          le_trans (by norm_num) (mul_le_mul h2 htol (by norm_num) (by linarith))
        have h4 := (abs_le.1 (S.acc.fl (M.fl 6378.137 * M.fl (10 * 10 ^ (-10 : ℤ))))).1
        set w := M.fl 6378.137 * M.fl (10 * 10 ^ (-10 : ℤ))
        rw [abs_of_nonneg (le_trans (by norm_num) h3)] at h4
        norm_num at h3 h4 ⊢
        linarith
    · refine (mean_le _ (2 / 10 ^ 11) (by norm_num) fun v hv => ?_).trans ?_
      · have h5 := (pointState_close S hE (h v hv) 5).2
        have h4 := (pointState_close S hE (h v hv) 4).2
        have hl := (h v hv).nearOrAbove.late.2
        refine (hfl _ (1.1 / 10 ^ 11) ?_).trans (by norm_num)
        rw [abs_le] at *
        norm_num at h5 h4 hl ⊢
        constructor <;> linarith
      · refine le_trans ?_ htol
        norm_num
  have hex : ∃ k, ¬ Rounded.altContinue M pw E pts k := ⟨4, hstop⟩
  refine ⟨⟨Nat.find hex, Nat.find_min' hex hstop, fun j hj => not_not.1 (Nat.find_min hex hj),
    Nat.find_spec hex⟩, _, ⟨Nat.find hex, fun j hj => not_not.1 (Nat.find_min hex hj),
    Nat.find_spec hex, rfl⟩, ?_⟩
  rw [rounded_altState]
  simp

/-- **C121.** After every pass the heights in double precision are within two millimetres of those
of exact arithmetic after as many passes. -/
theorem C121_two_millimetres (S : Setup M pw (1 / 2 ^ 53)) (hE : E.Accurate (1 / 2 ^ 53))
    (pts : List Vec) (h : ∀ v ∈ pts, Surveyed v) (k : ℕ) :
    List.Forall₂ (fun x y => |x - y| ≤ 2 / 10 ^ 6) ((Rounded.altState M pw E pts k).map (·.1))
      ((altState pts k).map (·.1)) := by
  rw [rounded_altState, altState_eq pts fun v hv => (h v hv).tame.pos, List.map_map, List.map_map,
    List.forall₂_map_left_iff, List.forall₂_map_right_iff, List.forall₂_same]
  intro v hv
  have h1 := (pointState_close S hE (h v hv) k).1
  have h2 := heightSlack_le (h v hv)
  simp only [Function.comp_def]
  linarith

/-- **C121.** Hence every altitude returned is within 11.1 km of the height of its position above
the ellipsoid.  It need not be closer (C52): the loop stops on the signed mean change over the
whole array, and then returns the previous value. -/
theorem C121_error (S : Setup M pw (1 / 2 ^ 53)) (hE : E.Accurate (1 / 2 ^ 53))
    (pts : List Vec) (h : ∀ v ∈ pts, Surveyed v) (r : List ℝ)
    (hr : Rounded.AltitudeReturns M pw E pts r) :
    List.Forall₂ (fun v x => ∃ t, IsHeight (axisA ^ 2) (axisB ^ 2) v t ∧ |x - t| ≤ 11.1) pts r := by
  obtain ⟨k, -, -, rfl⟩ := hr
  rw [rounded_altState, List.map_map, List.forall₂_map_right_iff, List.forall₂_same]
  intro v hv
  obtain ⟨t, ht, he⟩ := (h v hv).nearOrAbove.error
  refine ⟨t, ht, ?_⟩
  have h1 := (pointState_close S hE (h v hv) k).1
  have h2 := heightSlack_le (h v hv)
  have h3 := he k
  have h4 := abs_sub_le (pointState M pw E v k).1 (heightSeq v k) t
  simp only [Function.comp_def]
  norm_num at h2
  linarith

end

/-- A station-like point in the Arctic, a low orbit and a geostationary one meet the hypotheses. -/
theorem surveyed_examples : ∀ v ∈ ([![1000, 2000, 6000], ![6778, 100, -3], ![0, -42164, 5]] : List Vec),
    Surveyed v := by
  have key : ∀ v : Vec, 6000 ^ 2 ≤ v 0 ^ 2 + v 1 ^ 2 + v 2 ^ 2 →
      v 0 ^ 2 + v 1 ^ 2 + v 2 ^ 2 ≤ (5 * 10 ^ 4) ^ 2 → 1 ≤ v 0 ^ 2 + v 1 ^ 2 →
      (v 0 ^ 2 + v 1 ^ 2 + v 2 ^ 2) ^ 2 ≤ (2 * 10 ^ 8) ^ 2 * (v 0 ^ 2 + v 1 ^ 2) → Surveyed v := by
    intro v h1 h2 h3 h4
    have hn : ‖toE v‖ = Real.sqrt (v 0 ^ 2 + v 1 ^ 2 + v 2 ^ 2) := by
      rw [norm_eq_sqrt, axisDistance_sq]
    refine ⟨?_, ?_, ?_⟩
    · rw [hn]
      exact Real.le_sqrt_of_sq_le h1
    · rw [hn, Real.sqrt_le_left (by norm_num)]
      linarith
    · rw [hn, Real.sq_sqrt (by positivity)]
      refine abs_le_of_sq_le_sq' ?_ (by positivity) |>.2
      rw [mul_pow, Real.sq_sqrt (by positivity)]
      exact h4
  intro v hv
  simp only [List.mem_cons, List.not_mem_nil, or_false] at hv
  rcases hv with rfl | rfl | rfl <;> apply key <;> simp <;> norm_num

/-- The hypotheses are met: doubles, for three positions at once. -/
example : ∃ r, Rounded.AltitudeReturns binary64 power64 extra64
    [![1000, 2000, 6000], ![6778, 100, -3], ![0, -42164, 5]] r ∧ r.length = 3 :=
  (C121_at_most_four_passes binary64_setup extra64_accurate _ surveyed_examples).2

end Celest.Frames
