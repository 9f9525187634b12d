/-
C115: windows generated from elevations computed in floating-point arithmetic.
-/
import Verif.Frames.PropsRounded
import Verif.Windows.PropsLighting

namespace Celest.Windows

open Celest.Schedule (VTW)
open Celest.Frames

/-- What `generate_vtws` works with when the elevations of the satellite and of the Sun are computed
by the machine `M` from their Earth-fixed coordinates and those of the station, in kilometres
(window_generator.py 66-77 and 115-117). -/
noncomputable def roundedScene (M : Machine) (ground : Vec) (times : List ℚ)
    (points suns : List Vec) (pitch : List ℚ) : Scene ℝ :=
  ⟨true, times, points.map (Rounded.elevation M · ground), suns.map (Rounded.elevation M · ground),
    pitch⟩

/-- The Sun at `x` is on the required side of the horizon but for `slack` degrees. -/
def LitWithin (ground : Vec) (slack : ℝ) (x : Vec) : Lighting → Prop
  | .day => -slack < trueElevation x ground
  | .night => trueElevation x ground < slack
  | .anytime => True
  | .invalid => False

/-- The Sun at `x` is on the required side of the horizon by more than `margin` degrees, and not
within `margin` of the zenith or nadir. -/
def LitBeyond (ground : Vec) (margin : ℝ) (x : Vec) : Lighting → Prop
  | .day => margin < trueElevation x ground ∧ trueElevation x ground < 90 - margin
  | .night => trueElevation x ground < -margin ∧ margin - 90 < trueElevation x ground
  | .anytime => True
  | .invalid => False

section
variable {M : Machine} {u : ℝ} {ground : Vec} {times : List ℚ} {points suns : List Vec}
  {pitch : List ℚ} {threshold : ℝ} {lighting : Lighting} {k : ℕ} {p s : Vec}

theorem elevationError_nonneg (hu : 0 ≤ u) : 0 ≤ elevationError u := by
  unfold elevationError
  positivity

/-- The computed elevation is a number away from zenith and nadir. -/
theorem elevation_number (h : M.Accurate u) (hg : ground ≠ 0) (hp : p ≠ ground)
    (hz : |trueElevation p ground| < 90 - elevationError u) :
    ∃ x, Rounded.elevation M p ground = some x ∧
      |x - trueElevation p ground| ≤ elevationError u := by
  cases hx : Rounded.elevation M p ground with
  | none =>
    have := C115_nan_only_at_zenith_partial h hp hg hx
    linarith
  | some x => exact ⟨x, rfl, (C115_elevation_partial h hp hg hx).1⟩

theorem visible_within (h : M.Accurate u) (hg : ground ≠ 0) (hk : points[k]? = some p)
    (hs : suns[k]? = some s) (hp : p ≠ ground) (hsg : s ≠ ground)
    (hv : Visible (roundedScene M ground times points suns pitch) threshold lighting k) :
    threshold - elevationError u < trueElevation p ground ∧
      LitWithin ground (elevationError u) s lighting := by
  obtain ⟨⟨e, he, hlt⟩, hl⟩ := hv
  simp only [roundedScene, List.getElem?_map, hk, Option.map_some, Option.some.injEq] at he
  have h1 := abs_le.1 (C115_elevation_partial h hp hg he).1
  refine ⟨by linarith, ?_⟩
  cases lighting with
  | anytime => trivial
  | invalid => exact hl
  | day =>
    obtain ⟨x, hx, h0⟩ := hl
    simp only [roundedScene, List.getElem?_map, hs, Option.map_some, Option.some.injEq] at hx
    have h2 := abs_le.1 (C115_elevation_partial h hsg hg hx).1
    change -elevationError u < _
    linarith
  | night =>
    obtain ⟨x, hx, h0⟩ := hl
    simp only [roundedScene, List.getElem?_map, hs, Option.map_some, Option.some.injEq] at hx
    have h2 := abs_le.1 (C115_elevation_partial h hsg hg hx).1
    change _ < elevationError u
    linarith

theorem visible_beyond (h : M.Accurate u) (hg : ground ≠ 0) (hk : points[k]? = some p)
    (hs : suns[k]? = some s) (hp : p ≠ ground) (hsg : s ≠ ground) (h0 : 0 ≤ threshold)
    (h1 : threshold + elevationError u < trueElevation p ground)
    (h2 : trueElevation p ground < 90 - elevationError u)
    (hl : LitBeyond ground (elevationError u) s lighting) :
    Visible (roundedScene M ground times points suns pitch) threshold lighting k := by
  have hE := elevationError_nonneg h.nonneg
  obtain ⟨x, hx, hd⟩ := elevation_number h hg hp (by
    rw [abs_of_nonneg (by linarith)]
    exact h2)
  have hd' := abs_le.1 hd
  refine ⟨⟨x, ?_, by linarith⟩, ?_⟩
  · simp only [roundedScene, List.getElem?_map, hk, Option.map_some, hx]
  · cases lighting with
    | anytime => trivial
    | invalid => exact hl
    | day =>
      obtain ⟨l1, l2⟩ := hl
      obtain ⟨y, hy, hd⟩ := elevation_number h hg hsg (by
        rw [abs_of_nonneg (by linarith)]
        exact l2)
      have := abs_le.1 hd
      refine ⟨y, ?_, by linarith⟩
      simp only [roundedScene, List.getElem?_map, hs, Option.map_some, hy]
    | night =>
      obtain ⟨l1, l2⟩ := hl
      obtain ⟨y, hy, hd⟩ := elevation_number h hg hsg (by
        rw [abs_of_neg (by linarith)]
        linarith)
      have := abs_le.1 hd
      refine ⟨y, ?_, by linarith⟩
      simp only [roundedScene, List.getElem?_map, hs, Option.map_some, hy]

/-- **C115.** Every sample inside a window generated from computed elevations (after its rise time,
up to its set time) has the satellite above the mask and the Sun on the required side of the
horizon, but for `elevationError u` degrees. -/
theorem C115_windows_partial (h : M.Accurate u) (hg : ground ≠ 0)
    (wf : (roundedScene M ground times points suns pitch).WellFormed)
    (hinc : times.Pairwise (· < ·)) {ws : List VTW}
    (hok : generateVtws (roundedScene M ground times points suns pitch) threshold lighting = .ok ws)
    {w : VTW} (hw : w ∈ ws) {t : ℚ} (ht : times[k]? = some t) (hk : points[k]? = some p)
    (hs : suns[k]? = some s) (hp : p ≠ ground) (hsg : s ≠ ground) (hr : w.rise < t)
    (hset : t ≤ w.set) :
    threshold - elevationError u < trueElevation p ground ∧
      LitWithin ground (elevationError u) s lighting :=
  visible_within h hg hk hs hp hsg
    (C79_contains_only_visible_partial _ wf threshold lighting ws hok hinc w hw k t ht hr hset)

/-- **C115, partial.** Conversely, if the satellite is well below the mask at the first sample, every
sample that clears the mask, the horizon condition of the Sun and the zenith by more than
`elevationError u` degrees lies in a generated window.  Missing: samples at the zenith. -/
theorem C115_windows_found_partial (h : M.Accurate u) (hg : ground ≠ 0)
    (wf : (roundedScene M ground times points suns pitch).WellFormed)
    (hinc : times.Pairwise (· < ·)) (h0 : 0 ≤ threshold) (h90 : threshold ≤ 90)
    (hapart : ∀ x ∈ points ++ suns, x ≠ ground)
    (hfirst : ∀ x, points[0]? = some x → trueElevation x ground < threshold - elevationError u)
    {t : ℚ} (ht : times[k]? = some t) (hk : points[k]? = some p) (hs : suns[k]? = some s)
    (h1 : threshold + elevationError u < trueElevation p ground)
    (h2 : trueElevation p ground < 90 - elevationError u)
    (hl : LitBeyond ground (elevationError u) s lighting) :
    ∃ ws, generateVtws (roundedScene M ground times points suns pitch) threshold lighting = .ok ws ∧
      ∃ w ∈ ws, w.rise < t ∧ t ≤ w.set := by
  have hp : p ≠ ground := hapart p (List.mem_append_left _ (List.mem_of_getElem? hk))
  have hsg : s ≠ ground := hapart s (List.mem_append_right _ (List.mem_of_getElem? hs))
  have hvis := visible_beyond (times := times) (pitch := pitch) h hg hk hs hp hsg h0 h1 h2 hl
  have hlit : lighting ≠ .invalid := by
    rintro rfl
    exact hl
  obtain ⟨runs, ws, hok, -⟩ := C23_windows_are_maximal_runs_partial _ wf threshold lighting rfl ⟨h0, h90⟩
    hlit ⟨k, hvis⟩
  refine ⟨ws, hok, C79_covers_partial _ wf threshold lighting ws hok hinc ?_ k t ht hvis⟩
  rintro ⟨⟨e, he, hlt⟩, -⟩
  have hlen : 0 < points.length := by
    have := (List.getElem?_eq_some_iff.1 hk).1
    omega
  have h00 : points[0]? = some points[0] := List.getElem?_eq_getElem hlen
  simp only [roundedScene, List.getElem?_map, h00, Option.map_some, Option.some.injEq] at he
  have h3 := hfirst _ h00
  have h4 := abs_le.1 (C115_elevation_partial h (hapart _ (List.mem_append_left _
    (List.getElem_mem hlen))) hg he).1
  linarith

end

/-! ### A pass through the zenith -/

/-- Four points over the station of `zenithStation`: below its horizon, on either side of the zenith,
and at the zenith. -/
def below : Vec := ![0, 0, 0]
def before : Vec := ![5700, 5900, 10400]
def overhead : Vec := (2 : ℝ) • zenithStation
def after : Vec := ![-1300, 8100, 10400]

theorem zenithStation_ne : zenithStation ≠ 0 := by
  intro h
  have := congrFun h 0
  simp [zenithStation] at this

/-- The two points beside the zenith are 30 degrees from it. -/
theorem beside_elevation {x : Vec} (h1 : (x - zenithStation) ⬝ᵥ zenithStation = 40500000)
    (h2 : (x - zenithStation) ⬝ᵥ (x - zenithStation) = 53960000) :
    20 < trueElevation x zenithStation ∧ trueElevation x zenithStation < 80 := by
  have hin := InnerProductGeometry.cos_angle_mul_norm_mul_norm (toE (x - zenithStation))
    (toE zenithStation)
  rw [norm_toE, norm_toE, inner_toE, h1] at hin
  unfold trueElevation
  set θ := InnerProductGeometry.angle (toE (x - zenithStation)) (toE zenithStation) with hθ
  have hθ0 : 0 ≤ θ := InnerProductGeometry.angle_nonneg _ _
  have hθp : θ ≤ Real.pi := InnerProductGeometry.angle_le_pi _ _
  have hs : vnorm zenithStation ^ 2 = 40500000 := by
    rw [vnorm_sq_coords]
    simp [zenithStation]
    norm_num
  have hP : (vnorm (x - zenithStation) * vnorm zenithStation) ^ 2 = 53960000 * 40500000 := by
    rw [mul_pow, hs, vnorm_sq, h2]
  have hP0 : 0 ≤ vnorm (x - zenithStation) * vnorm zenithStation :=
    mul_nonneg (vnorm_nonneg _) (vnorm_nonneg _)
  set P := vnorm (x - zenithStation) * vnorm zenithStation with hPdef
  have hP1 : 46000000 ≤ P := abs_le_of_sq_le_sq' (by rw [hP]; norm_num) hP0 |>.2
  have hP2 : P ≤ 47000000 := abs_le_of_sq_le_sq' (by rw [hP]; norm_num) (by norm_num) |>.2
  have hpi := Real.pi_pos
  have hp3 : 3 < Real.pi := Real.pi_gt_three
  have hp4 : Real.pi < 3.15 := Real.pi_lt_d2
  have c1 : 1 / 2 < Real.cos θ := by nlinarith
  have c2 : Real.cos θ ≤ 0.9 := by nlinarith
  have t1 : θ < Real.pi / 3 := by
    by_contra hc
    push Not at hc
    have := Real.cos_le_cos_of_nonneg_of_le_pi (by positivity) hθp hc
    rw [Real.cos_pi_div_three] at this
    linarith
  have t2 : 0.4 ≤ θ := by
    by_contra hc
    push Not at hc
    have := Real.one_sub_sq_div_two_le_cos (x := θ)
    nlinarith
  have k1 : θ * (180 / Real.pi) < Real.pi / 3 * (180 / Real.pi) := by gcongr
  have e1 : Real.pi / 3 * (180 / Real.pi) = 60 := by field_simp; norm_num
  have k2 : 0.4 * (180 / Real.pi) ≤ θ * (180 / Real.pi) := by gcongr
  have k3 : 57 ≤ 180 / Real.pi := by
    rw [le_div_iff₀ hpi]
    linarith
  constructor <;> linarith

theorem before_elevation :
    20 < trueElevation before zenithStation ∧ trueElevation before zenithStation < 80 := by
  apply beside_elevation <;>
    simp [before, zenithStation, dotProduct, Fin.sum_univ_three] <;> norm_num

theorem after_elevation :
    20 < trueElevation after zenithStation ∧ trueElevation after zenithStation < 80 := by
  apply beside_elevation <;>
    simp [after, zenithStation, dotProduct, Fin.sum_univ_three] <;> norm_num

theorem below_elevation : trueElevation below zenithStation = -90 := by
  have e : toE (below - zenithStation) = -toE zenithStation := by
    have : below - zenithStation = -zenithStation := by
      ext i
      fin_cases i <;> simp [below, zenithStation]
    rw [this]
    rfl
  have h0 : toE zenithStation ≠ 0 := by
    intro h
    have := norm_toE zenithStation
    rw [h, norm_zero] at this
    exact (vnorm_pos zenithStation_ne).ne this
  unfold trueElevation
  rw [e, InnerProductGeometry.angle_neg_self_of_nonzero h0]
  have := Real.pi_ne_zero
  field_simp
  norm_num

/-- The scene of the same points with exact elevations. -/
noncomputable def exactScene (ground : Vec) (times : List ℚ) (points suns : List Vec)
    (pitch : List ℚ) : Scene ℝ :=
  ⟨true, times, points.map fun p => some (trueElevation p ground),
    suns.map fun p => some (trueElevation p ground), pitch⟩

/-- The windows of five samples, from the mask of the visible ones. -/
theorem five_windows (sc : Scene ℝ) (hv : sc.hasVelocity = true) (hj : sc.julian = [0, 1, 2, 3, 4]) :
    (whereIndices (fun e => e.any ((10 : ℝ) < ·)) sc.elevation = [1, 3] →
      generateVtws sc 10 .anytime =
        .ok [⟨0, 1, sc.julian, sc.pitch⟩, ⟨2, 3, sc.julian, sc.pitch⟩]) ∧
    (whereIndices (fun e => e.any ((10 : ℝ) < ·)) sc.elevation = [1, 2, 3] →
      generateVtws sc 10 .anytime = .ok [⟨0, 3, sc.julian, sc.pitch⟩]) := by
  constructor <;>
  · intro hw
    unfold generateVtws
    have hb : (decide ((10 : ℝ) < 0) || decide ((90 : ℝ) < 10)) = false := by
      rw [Bool.or_eq_false_iff]
      constructor <;> exact decide_eq_false (by norm_num)
    rw [hv, hw]
    simp only [Bool.not_true, Bool.false_eq_true, if_false, hb, lightingIndices]
    simp [hj, intersect1d, splitPoints, diff, split, splitAt, List.range_succ, toWindow, pyGet]
    rfl

/-- **C115.** A satellite that passes over the zenith of a station can get two windows instead of
one, with a gap that begins before the zenith sample is reached: in double precision the zenith
sample has no elevation. -/
theorem C115_zenith_splits_pass {M : Machine} (ha : M.Accurate (1 / 2 ^ 53)) (hd : M.Doubles)
    (suns : List Vec) (pitch : List ℚ) :
    generateVtws (exactScene zenithStation [0, 1, 2, 3, 4] [below, before, overhead, after, below]
        suns pitch) 10 .anytime = .ok [⟨0, 3, [0, 1, 2, 3, 4], pitch⟩] ∧
    generateVtws (roundedScene M zenithStation [0, 1, 2, 3, 4]
        [below, before, overhead, after, below] suns pitch) 10 .anytime =
      .ok [⟨0, 1, [0, 1, 2, 3, 4], pitch⟩, ⟨2, 3, [0, 1, 2, 3, 4], pitch⟩] := by
  have hE := elevationError_binary64
  have hz := C115_zenith_nan hd
  have b := before_elevation
  have a := after_elevation
  have l := below_elevation
  constructor
  · refine (five_windows _ rfl rfl).2 ?_
    have hb : (10 : ℝ) < trueElevation before zenithStation := by linarith
    have ha : (10 : ℝ) < trueElevation after zenithStation := by linarith
    have ho : (10 : ℝ) < trueElevation overhead zenithStation := by
      rw [overhead, hz.1]
      norm_num
    have hl : ¬ (10 : ℝ) < trueElevation below zenithStation := by
      rw [l]
      norm_num
    simp [exactScene, whereIndices, List.range_succ, hb, ha, ho, hl]
  · refine (five_windows _ rfl rfl).1 ?_
    have ne : ∀ x : Vec, x 0 ≠ 1100 → x ≠ zenithStation := by
      rintro x h rfl
      exact h rfl
    obtain ⟨x, hx, hx'⟩ := elevation_number ha zenithStation_ne (ne before (by simp [before]))
      (by rw [abs_of_pos (by linarith)]; linarith)
    obtain ⟨y, hy, hy'⟩ := elevation_number ha zenithStation_ne (ne after (by simp [after]; norm_num))
      (by rw [abs_of_pos (by linarith)]; linarith)
    have h1 : (10 : ℝ) < x := by linarith [(abs_le.1 hx').1]
    have h2 : (10 : ℝ) < y := by linarith [(abs_le.1 hy').1]
    have h3 : (Rounded.elevation M below zenithStation).any (fun e => decide ((10 : ℝ) < e)) =
        false := by
      cases hb : Rounded.elevation M below zenithStation with
      | none => rfl
      | some z =>
        have := (abs_le.1 (C115_elevation_partial ha (ne below (by simp [below])) zenithStation_ne hb).1).2
        rw [l] at this
        exact decide_eq_false (by linarith)
    simp [roundedScene, whereIndices, List.range_succ, hx, hy, h1, h2, h3, overhead, hz.2]

/-- The machine of the theorem exists. -/
example : binary64.Accurate (1 / 2 ^ 53) ∧ binary64.Doubles := ⟨binary64_accurate, binary64_doubles⟩

/-- The hypotheses of `C115_windows_found_partial` are met by the point before the zenith. -/
example : ∃ ws, generateVtws (roundedScene binary64 zenithStation [0, 1, 2, 3, 4]
      [below, before, overhead, after, below] [below, below, below, below, below] [0, 0, 0, 0, 0]) 10
      .anytime = .ok ws ∧ ∃ w ∈ ws, w.rise < 1 ∧ 1 ≤ w.set := by
  have hE := elevationError_binary64
  have b := before_elevation
  have l := below_elevation
  refine C115_windows_found_partial (k := 1) (p := before) (s := below) (t := 1)
    (times := [0, 1, 2, 3, 4]) (points := [below, before, overhead, after, below])
    (suns := [below, below, below, below, below]) (pitch := [0, 0, 0, 0, 0]) (threshold := 10)
    (lighting := .anytime) binary64_accurate zenithStation_ne
    (by simp [Scene.WellFormed, roundedScene]) (by decide +kernel) (by norm_num) (by norm_num) ?_ ?_
    (by simp) (by simp) (by simp) (by linarith) (by linarith) trivial
  · intro x hx h
    have h0 : x 0 = 1100 := by rw [h]; rfl
    simp at hx
    rcases hx with rfl | rfl | rfl | rfl | rfl <;>
      simp [below, before, overhead, after, zenithStation] at h0 <;>
      norm_num at h0
  · intro x hx
    simp at hx
    rw [← hx, l]
    linarith

end Celest.Windows
