/-
C113: visibility between the samples, for paths of bounded speed.
-/
import Mathlib.Geometry.Euclidean.Angle.Unoriented.TriangleInequality
import Mathlib.Analysis.SpecialFunctions.Trigonometric.InverseDeriv
import Verif.Frames.LemmasAngle
import Verif.Windows.Geometry

namespace Celest.Windows

open Celest.Schedule (VTW)
open Celest.Frames Celest.TimeScale Matrix

/-! ### Specification -/

/-- The angle in radians between the direction from the station to the Earth-fixed point `x` and
the zenith of the station: the complement of the elevation. -/
noncomputable def zenithAngle (g : Ground) (x : Vec) : ℝ :=
  InnerProductGeometry.angle (toE (x - g.itrs)) (toE g.itrs)

/-- The path `p` (Earth-fixed, kilometres, time in days) never moves faster than `speed` kilometres
per day and never comes closer to the station than `range` kilometres. -/
structure Track (p : ℝ → Vec) (g : Ground) (speed range : ℝ) : Prop where
  pos : 0 < range
  speed : ∀ a b, vnorm (p a - p b) ≤ speed * |a - b|
  range : ∀ a, range ≤ vnorm (p a - g.itrs)

/-- Consecutive sample times are at most `gap` days apart. -/
def GapsAtMost (times : List ℚ) (gap : ℝ) : Prop :=
  ∀ (k : ℕ) (a b : ℚ), times[k]? = some a → times[k + 1]? = some b → (b : ℝ) - a ≤ gap

/-- The Sun is up (day) or down (night) but for at most `slack` radians. -/
def SunWithin (g : Ground) (slack : ℝ) (x : Vec) : Lighting → Prop
  | .day => zenithAngle g x < Real.pi / 2 + slack
  | .night => Real.pi / 2 - slack < zenithAngle g x
  | .anytime => True
  | .invalid => False

/-! ### Angular rate -/

/-- `n · arcsin (x / n)` tends to `x`. -/
theorem tendsto_arcsin (x : ℝ) :
    Filter.Tendsto (fun n : ℕ => (n : ℝ) * Real.arcsin (x / n)) Filter.atTop (nhds x) := by
  by_cases hx : x = 0
  · subst hx
    simp
  have hd : HasDerivAt Real.arcsin 1 0 := by
    have := Real.hasDerivAt_arcsin (x := 0) (by norm_num) (by norm_num)
    simpa using this
  have hs := hd.tendsto_slope
  have ht : Filter.Tendsto (fun n : ℕ => x / (n : ℝ)) Filter.atTop (nhdsWithin 0 {0}ᶜ) := by
    rw [tendsto_nhdsWithin_iff]
    refine ⟨tendsto_const_div_atTop_nhds_zero_nat x, ?_⟩
    filter_upwards [Filter.eventually_gt_atTop 0] with n hn
    simp only [Set.mem_compl_iff, Set.mem_singleton_iff, div_eq_zero_iff, not_or]
    exact ⟨hx, by exact_mod_cast hn.ne'⟩
  have h := (hs.comp ht).const_mul x
  rw [mul_one] at h
  refine h.congr' ?_
  filter_upwards [Filter.eventually_gt_atTop 0] with n hn
  have hn' : (n : ℝ) ≠ 0 := by exact_mod_cast hn.ne'
  simp only [Function.comp, slope, vsub_eq_sub, sub_zero, Real.arcsin_zero, smul_eq_mul]
  field_simp

theorem Track.speed_nonneg {p : ℝ → Vec} {g : Ground} {V d : ℝ} (h : Track p g V d) : 0 ≤ V := by
  have := h.speed 1 0
  rw [← norm_toE] at this
  have := (norm_nonneg _).trans this
  simpa using this

/-- Seen from the station, the path turns by at most `V / d` radians per day. -/
theorem Track.turns {p : ℝ → Vec} {g : Ground} {V d : ℝ} (h : Track p g V d) (a x : ℝ)
    (hx : 0 ≤ x) :
    InnerProductGeometry.angle (toE (p (a + x) - g.itrs)) (toE (p a - g.itrs)) ≤ V / d * x := by
  have hd := h.pos
  have hV := h.speed_nonneg
  have hne : ∀ t, toE (p t - g.itrs) ≠ 0 := by
    intro t h0
    have := h.range t
    rw [← norm_toE, h0, norm_zero] at this
    linarith
  have step : ∀ (y t : ℝ), 0 ≤ y → V * y < d →
      InnerProductGeometry.angle (toE (p (t + y) - g.itrs)) (toE (p t - g.itrs)) ≤
        Real.arcsin (V * y / d) := by
    intro y t hy hlt
    refine angle_le_arcsin _ _ d (V * y) hd ?_ ?_ hlt
    · rw [norm_toE]; exact h.range _
    · have e : toE (p (t + y) - g.itrs) - toE (p t - g.itrs) = toE (p (t + y) - p t) := by
        change toE ((p (t + y) - g.itrs) - (p t - g.itrs)) = _
        congr 1
        abel
      rw [e, norm_toE]
      have := h.speed (t + y) t
      rwa [add_sub_cancel_left, abs_of_nonneg hy] at this
  have walk : ∀ (y : ℝ) (n : ℕ), 0 ≤ y → V * y < d →
      InnerProductGeometry.angle (toE (p (a + n * y) - g.itrs)) (toE (p a - g.itrs)) ≤
        n * Real.arcsin (V * y / d) := by
    intro y n hy hlt
    induction n with
    | zero =>
      simp only [Nat.cast_zero, zero_mul, add_zero]
      rw [InnerProductGeometry.angle_self (hne a)]
    | succ n ih =>
      have e : a + ((n + 1 : ℕ) : ℝ) * y = (a + n * y) + y := by push_cast; ring
      rw [e]
      have h1 := step y (a + n * y) hy hlt
      have h2 := InnerProductGeometry.angle_le_angle_add_angle
        (toE (p (a + n * y + y) - g.itrs)) (toE (p (a + n * y) - g.itrs)) (toE (p a - g.itrs))
      push_cast
      linarith
  refine ge_of_tendsto (tendsto_arcsin (V / d * x)) ?_
  obtain ⟨N, hN⟩ := exists_nat_gt (V / d * x)
  filter_upwards [Filter.eventually_ge_atTop (N + 1)] with n hn
  have hn0 : (0 : ℝ) < n := by exact_mod_cast (by omega : 0 < n)
  have hlt : V * (x / n) < d := by
    have : V / d * x < n := hN.trans_le (by exact_mod_cast (by omega : N ≤ n))
    rw [div_mul_eq_mul_div, div_lt_iff₀ hd] at this
    rw [mul_div_assoc', div_lt_iff₀ hn0]
    linarith
  have := walk (x / n) n (by positivity) hlt
  rw [mul_div_cancel₀ _ hn0.ne'] at this
  have e : V * (x / n) / d = V / d * x / n := by ring
  rwa [e] at this

/-- **C113.** The elevation of a path over a station changes by at most `speed / range` radians per
day: the speed as an angle seen from the station. -/
theorem C113_rate {p : ℝ → Vec} {g : Ground} {V d : ℝ} (h : Track p g V d) (a b : ℝ) :
    |zenithAngle g (p a) - zenithAngle g (p b)| ≤ V / d * |a - b| := by
  have key : ∀ a b : ℝ, b ≤ a →
      |zenithAngle g (p a) - zenithAngle g (p b)| ≤ V / d * |a - b| := by
    intro a b hab
    have h1 := h.turns b (a - b) (by linarith)
    rw [add_sub_cancel] at h1
    rw [abs_of_nonneg (by linarith : (0 : ℝ) ≤ a - b)]
    have t1 := InnerProductGeometry.angle_le_angle_add_angle
      (toE (p a - g.itrs)) (toE (p b - g.itrs)) (toE g.itrs)
    have t2 := InnerProductGeometry.angle_le_angle_add_angle
      (toE (p b - g.itrs)) (toE (p a - g.itrs)) (toE g.itrs)
    rw [InnerProductGeometry.angle_comm (toE (p b - g.itrs)) (toE (p a - g.itrs))] at t2
    unfold zenithAngle
    rw [abs_le]
    constructor <;> linarith
  rcases le_total b a with hab | hab
  · exact key a b hab
  · rw [abs_sub_comm, abs_sub_comm a b]
    exact key b a hab

/-! ### Samples -/

/-- Between two samples an instant lies between two consecutive ones. -/
theorem between_samples (times : List ℚ) (τ : ℝ) (i n : ℕ) (a b : ℚ) (ha : times[i]? = some a)
    (hb : times[i + n]? = some b) (h1 : (a : ℝ) < τ) (h2 : τ ≤ b) :
    ∃ (k : ℕ) (x y : ℚ), i ≤ k ∧ k + 1 ≤ i + n ∧ times[k]? = some x ∧
      times[k + 1]? = some y ∧ (x : ℝ) < τ ∧ τ ≤ y := by
  induction n generalizing b with
  | zero =>
    rw [Nat.add_zero, ha] at hb
    cases hb
    exact absurd h1 (not_lt.2 h2)
  | succ n ih =>
    have hlt := (List.getElem?_eq_some_iff.1 hb).1
    obtain ⟨c, hc⟩ : ∃ c, times[i + n]? = some c :=
      ⟨_, List.getElem?_eq_getElem (by omega)⟩
    by_cases hcτ : τ ≤ c
    · obtain ⟨k, x, y, k1, k2, k3⟩ := ih c hc hcτ
      exact ⟨k, x, y, k1, by omega, k3⟩
    · exact ⟨i + n, c, b, by omega, by omega, hc, hb, lt_of_not_ge hcτ, h2⟩

/-- The angle is at most a right angle exactly if the inner product is not negative. -/
theorem angle_le_right {E : Type*} [NormedAddCommGroup E] [InnerProductSpace ℝ E] (a b : E) :
    InnerProductGeometry.angle a b ≤ Real.pi / 2 ↔ 0 ≤ inner ℝ a b := by
  rw [InnerProductGeometry.angle, Real.arccos_le_pi_div_two]
  constructor
  · intro h
    by_cases hz : ‖a‖ * ‖b‖ = 0
    · rw [mul_eq_zero, norm_eq_zero, norm_eq_zero] at hz
      rcases hz with rfl | rfl <;> simp
    · have := mul_nonneg h (by positivity : 0 ≤ ‖a‖ * ‖b‖)
      rwa [div_mul_cancel₀ _ hz] at this
  · intro h
    exact div_nonneg h (by positivity)

/-- Visibility of a sample in terms of the Earth-fixed path. -/
theorem visible_track {s : Satellite} {g : Ground} {times : List ℚ} {sun : ℝ → Vec}
    {pitch : List ℚ} {threshold : ℝ} {p : ℝ → Vec}
    (hp : s.points = times.map fun t : ℚ => p t) (h0 : 0 ≤ threshold) (lighting : Lighting)
    (k : ℕ) (t : ℚ) (hk : times[k]? = some t) :
    Visible (sceneOf s g times sun pitch) threshold lighting k ↔
      zenithAngle g (p t) < rad (90 - threshold) ∧
        SunWithin g 0 (gcrsToItrs1 t (sun t)) lighting := by
  have hel : (sceneOf s g times sun pitch).elevation[k]? = some (elevation (p t) g) := by
    simp only [sceneOf, hp, List.getElem?_map, hk, Option.map_some]
  have hsun : (sceneOf s g times sun pitch).sunElevation[k]? =
      some (elevation (gcrsToItrs1 t (sun t)) g) := by
    simp only [sceneOf, List.getElem?_map, hk, Option.map_some]
  unfold Visible
  rw [hel]
  simp only [Option.some.injEq]
  rw [elevation_gt_iff _ _ _ h0]
  refine and_congr_right fun _ => ?_
  cases lighting with
  | anytime => exact Iff.rfl
  | invalid => exact Iff.rfl
  | day =>
    simp only [Lit, hsun, Option.some.injEq, SunWithin]
    rw [elevation_gt_iff _ _ _ le_rfl, add_zero, zenithAngle,
      show rad (90 - 0) = Real.pi / 2 by unfold rad; ring]
  | night =>
    simp only [Lit, hsun, Option.some.injEq, SunWithin]
    rw [(elevation_sign _ _).2, sub_zero, zenithAngle, ← inner_toE, ← not_le, ← not_le,
      angle_le_right]

/-- A scene is well formed if it has one position and one pitch per time. -/
theorem sceneOf_wf' {s : Satellite} {g : Ground} {times : List ℚ} {sun : ℝ → Vec}
    {pitch : List ℚ} {p : ℝ → Vec} (hp : s.points = times.map fun t : ℚ => p t)
    (hpitch : pitch.length = times.length) : (sceneOf s g times sun pitch).WellFormed := by
  refine ⟨?_, ?_, hpitch⟩ <;> simp [sceneOf, hp]

/-- Lighting with some slack holds with more slack later. -/
theorem SunWithin.later {q : ℝ → Vec} {g : Ground} {W e c x : ℝ} (h : Track q g W e)
    {lighting : Lighting} {a b : ℝ} (hs : SunWithin g c (q a) lighting) (hab : |b - a| ≤ x) :
    SunWithin g (c + W / e * x) (q b) lighting := by
  have h1 := C113_rate h b a
  have h2 : W / e * |b - a| ≤ W / e * x :=
    mul_le_mul_of_nonneg_left hab (div_nonneg h.speed_nonneg h.pos.le)
  rw [abs_le] at h1
  cases lighting with
  | anytime => trivial
  | invalid => exact hs
  | day => simp only [SunWithin] at *; linarith
  | night => simp only [SunWithin] at *; linarith

/-! ### C113 -/

/-- **C113.** At every instant of a generated window, sampled or not, the satellite is above the
elevation mask but for the angle it can cover between two samples, and but for half of that angle
from the first visible sample of the window on; the Sun is on the requested side of the horizon but
for the angle it can cover between two samples. -/
theorem C113_windows (s : Satellite) (g : Ground) (times : List ℚ) (sun : ℝ → Vec)
    (pitch : List ℚ) (threshold : ℝ) (lighting : Lighting) (ws : List VTW) (p : ℝ → Vec)
    (V d W e gap : ℝ) (hp : s.points = times.map fun t : ℚ => p t)
    (hpitch : pitch.length = times.length) (hinc : times.Pairwise (· < ·))
    (hgap : GapsAtMost times gap) (hsat : Track p g V d)
    (hsun : Track (fun t => gcrsToItrs1 t (sun t)) g W e)
    (h : generateVtws (sceneOf s g times sun pitch) threshold lighting = .ok ws)
    (w : VTW) (hw : w ∈ ws) (τ : ℝ) (hrise : (w.rise : ℝ) < τ) (hset : τ ≤ w.set) :
    zenithAngle g (p τ) < rad (90 - threshold) + V / d * gap ∧
      ((∃ t ∈ times, w.rise < t ∧ (t : ℝ) ≤ τ) →
        zenithAngle g (p τ) < rad (90 - threshold) + V / d * (gap / 2)) ∧
      SunWithin g (W / e * gap) (gcrsToItrs1 τ (sun τ)) lighting := by
  have h0 := (ok_threshold _ _ _ _ h).1
  have hwf := sceneOf_wf' (g := g) (sun := sun) hp hpitch
  have hvis : ∀ (k : ℕ) (t : ℚ), times[k]? = some t → w.rise < t → t ≤ w.set →
      zenithAngle g (p t) < rad (90 - threshold) ∧
        SunWithin g 0 (gcrsToItrs1 t (sun t)) lighting := fun k t hk h1 h2 =>
    (visible_track hp h0 lighting k t hk).1
      (C79_contains_only_visible_partial _ hwf threshold lighting ws h hinc w hw k t hk h1 h2)
  have hrs : w.rise < w.set := by
    exact_mod_cast hrise.trans_le hset
  obtain ⟨runs, -, r2, -, r4⟩ := runs_of_ok _ hwf threshold lighting ws h
  obtain ⟨⟨a, b⟩, hpm, w1, w2, -, -⟩ := forall₂_mem_right r4 hw
  simp only at w1 w2
  have ha := proper_window hinc w1 w2 hrs
  rw [if_neg ha] at w1
  have hab := index_lt _ hinc _ _ _ _ w1 w2 hrs
  obtain ⟨k, x, y, k1, k2, hx, hy, hxτ, hyτ⟩ := between_samples times τ (a - 1) (b - (a - 1))
    w.rise w.set w1 (by rw [Nat.add_sub_cancel' hab.le]; exact w2) hrise hset
  have hyset : y ≤ w.set := sample_le _ hinc _ _ _ _ hy w2 (by omega)
  have hyrise : w.rise < y := sample_lt _ hinc _ _ _ _ w1 hy (by omega)
  have hg := hgap k x y hx hy
  have hVd : 0 ≤ V / d := div_nonneg hsat.speed_nonneg hsat.pos.le
  have near : ∀ (t : ℚ) (c : ℝ), zenithAngle g (p t) < rad (90 - threshold) → |τ - t| ≤ c →
      zenithAngle g (p τ) < rad (90 - threshold) + V / d * c := by
    intro t c ht hc
    have h1 := (abs_le.1 (C113_rate hsat τ t)).2
    have h2 := mul_le_mul_of_nonneg_left hc hVd
    linarith
  have hyv := hvis _ y hy hyrise hyset
  have hyd : |τ - y| ≤ gap := by
    rw [abs_le]
    constructor <;> linarith
  refine ⟨near y gap hyv.1 hyd, ?_, ?_⟩
  · rintro ⟨t, htm, ht1, ht2⟩
    obtain ⟨j, hj⟩ := List.mem_iff_getElem?.1 htm
    by_cases hτy : τ = y
    · have hxy : (x : ℝ) < y := by exact_mod_cast sample_lt _ hinc _ _ _ _ hx hy (by omega)
      exact near y _ hyv.1 (by rw [hτy, sub_self, abs_zero]; linarith)
    have hxrise : w.rise < x := by
      have hty : t < y := by exact_mod_cast ht2.trans_lt (lt_of_le_of_ne hyτ hτy)
      have hjk := index_lt _ hinc _ _ _ _ hj hy hty
      exact lt_of_lt_of_le ht1 (sample_le _ hinc _ _ _ _ hj hx (by omega))
    have hxset : x ≤ w.set := (sample_lt _ hinc _ _ _ _ hx hy (by omega)).le.trans hyset
    have hxv := hvis _ x hx hxrise hxset
    by_cases hm : τ - x ≤ gap / 2
    · exact near x _ hxv.1 (by rw [abs_le]; constructor <;> linarith)
    · exact near y _ hyv.1 (by rw [abs_le]; constructor <;> linarith)
  · have := hyv.2.later hsun hyd
    rwa [zero_add] at this

/-- **C113.** Conversely no pass is overlooked: if the first sample is not visible, every instant
between the first and the last sample at which the satellite is above the mask by more than the
angle it can cover between two samples, and the Sun on the requested side by more than the angle it
can cover, lies in a generated window. -/
theorem C113_passes_found (s : Satellite) (g : Ground) (times : List ℚ) (sun : ℝ → Vec)
    (pitch : List ℚ) (threshold : ℝ) (lighting : Lighting) (p : ℝ → Vec)
    (V d W e gap : ℝ) (hp : s.points = times.map fun t : ℚ => p t) (hv : s.velocity.isSome)
    (hpitch : pitch.length = times.length) (hinc : times.Pairwise (· < ·))
    (hgap : GapsAtMost times gap) (hsat : Track p g V d)
    (hsun : Track (fun t => gcrsToItrs1 t (sun t)) g W e)
    (hgap0 : 0 ≤ gap) (h0 : 0 ≤ threshold) (h90 : threshold ≤ 90) (first last : ℚ)
    (hfirst : times.head? = some first) (hlast : times.getLast? = some last)
    (hinv : rad (90 - threshold) ≤ zenithAngle g (p first))
    (τ : ℝ) (hτ1 : (first : ℝ) ≤ τ) (hτ2 : τ ≤ last)
    (hview : zenithAngle g (p τ) < rad (90 - threshold) - V / d * gap)
    (hlit : SunWithin g (-(W / e * gap)) (gcrsToItrs1 τ (sun τ)) lighting) :
    ∃ ws, generateVtws (sceneOf s g times sun pitch) threshold lighting = .ok ws ∧
      ∃ w ∈ ws, (w.rise : ℝ) < τ ∧ τ ≤ w.set := by
  have hwf := sceneOf_wf' (g := g) (sun := sun) hp hpitch
  have hVd : 0 ≤ V / d := div_nonneg hsat.speed_nonneg hsat.pos.le
  have hf : times[0]? = some first := by rw [← List.head?_eq_getElem?]; exact hfirst
  have hl : times[0 + (times.length - 1)]? = some last := by
    rw [zero_add, ← List.getLast?_eq_getElem?]; exact hlast
  have hl0 : lighting ≠ .invalid := by rintro rfl; exact hlit
  by_cases hone : (first : ℝ) < τ
  · obtain ⟨k, x, y, -, -, hx, hy, hxτ, hyτ⟩ :=
      between_samples times τ 0 (times.length - 1) first last hf hl hone hτ2
    have hg := hgap k x y hx hy
    have hyd : |(y : ℝ) - τ| ≤ gap := by rw [abs_le]; constructor <;> linarith
    have h1 : zenithAngle g (p y) < rad (90 - threshold) := by
      have h1 := (abs_le.1 (C113_rate hsat y τ)).2
      have h2 := mul_le_mul_of_nonneg_left hyd hVd
      linarith
    have h2 : SunWithin g 0 (gcrsToItrs1 y (sun y)) lighting := by
      have := hlit.later hsun hyd
      rwa [neg_add_cancel] at this
    have hvis := (visible_track (sun := sun) (pitch := pitch) hp h0 lighting (k + 1) y hy).2
      ⟨h1, h2⟩
    obtain ⟨-, ws, hok, -⟩ := C23_windows_are_maximal_runs_partial _ hwf threshold lighting hv ⟨h0, h90⟩
      hl0 ⟨_, hvis⟩
    refine ⟨ws, hok, ?_⟩
    have hnv : ¬ Visible (sceneOf s g times sun pitch) threshold lighting 0 := by
      rw [visible_track hp h0 lighting 0 first hf]
      exact fun hc => absurd hc.1 (not_lt.2 hinv)
    obtain ⟨w, hw, w1, w2⟩ :=
      C79_covers_partial _ hwf threshold lighting ws hok hinc hnv (k + 1) y hy hvis
    refine ⟨w, hw, ?_, hyτ.trans (by exact_mod_cast w2)⟩
    obtain ⟨runs, -, r2, -, r4⟩ := runs_of_ok _ hwf threshold lighting ws hok
    obtain ⟨⟨a, b⟩, -, v1, v2, -, -⟩ := forall₂_mem_right r4 hw
    simp only at v1 v2
    have ha := proper_window hinc v1 v2 (w1.trans_le w2)
    rw [if_neg ha] at v1
    have hak := index_lt _ hinc _ _ _ _ v1 hy w1
    have : w.rise ≤ x := sample_le _ hinc _ _ _ _ v1 hx (by omega)
    exact lt_of_le_of_lt (by exact_mod_cast this) hxτ
  · obtain rfl : τ = first := le_antisymm (not_lt.1 hone) hτ1
    exfalso
    have := mul_nonneg hVd hgap0
    linarith

/-! ### concrete data -/

/-- A path over the equator that starts below the station at longitude 0 and is in its zenith
after half a revolution, at the height of one Earth radius. -/
noncomputable def circle (t : ℝ) : Vec :=
  ![-(2 * axisA * Real.cos t), 2 * axisA * Real.sin t, 0]

/-- The station at latitude and longitude 0. -/
noncomputable def origin : Ground := ⟨0, 0, 0⟩

theorem origin_itrs : origin.itrs = ![axisA, 0, 0] := by
  simp [Ground.itrs, origin, primeVertical]

/-- The path moves at two Earth radii per day, one Earth radius from the station. -/
theorem circle_track : Track circle origin (2 * axisA) axisA where
  pos := axisA_pos
  speed a b := by
    have h := axisA_pos
    rw [vnorm]
    refine Real.sqrt_le_iff.2 ⟨by positivity, ?_⟩
    have e : (circle a - circle b) ⬝ᵥ (circle a - circle b) =
        (2 * axisA) ^ 2 * (2 - 2 * Real.cos (a - b)) := by
      rw [Real.cos_sub]
      simp only [circle, dotProduct, Fin.sum_univ_three, Pi.sub_apply, Matrix.cons_val_zero,
        Matrix.cons_val_one, Matrix.cons_val_two, Matrix.head_cons, Matrix.tail_cons]
      linear_combination (2 * axisA) ^ 2 * Real.sin_sq_add_cos_sq a +
        (2 * axisA) ^ 2 * Real.sin_sq_add_cos_sq b
    rw [e, mul_pow _ |a - b|, sq_abs]
    have := Real.one_sub_sq_div_two_le_cos (x := a - b)
    gcongr
    linarith
  range a := by
    have h := axisA_pos
    rw [vnorm]
    refine Real.le_sqrt_of_sq_le ?_
    rw [origin_itrs]
    have e : (circle a - ![axisA, 0, 0]) ⬝ᵥ (circle a - ![axisA, 0, 0]) =
        axisA ^ 2 * (5 + 4 * Real.cos a) := by
      simp only [circle, dotProduct, Fin.sum_univ_three, Pi.sub_apply, Matrix.cons_val_zero,
        Matrix.cons_val_one, Matrix.cons_val_two, Matrix.head_cons, Matrix.tail_cons]
      linear_combination (2 * axisA) ^ 2 * Real.sin_sq_add_cos_sq a
    rw [e]
    have := Real.neg_one_le_cos a
    nlinarith [sq_nonneg axisA]

/-- Non-vacuity for C113: a satellite on that path, sampled 41 times at intervals of a tenth of a
day, is found in the zenith, between two samples, by day. -/
example (v : Cartesian) : ∃ (s : Satellite) (sun : ℝ → Vec) (ws : List VTW),
    Satellite.make (.itrs ⟨1, ((List.range 41).map fun k : ℕ => (k : ℚ) / 10).map
      fun t : ℚ => ((t : ℝ), circle t)⟩) (some (.itrs v)) = .ok s ∧
    generateVtws (sceneOf s origin ((List.range 41).map fun k : ℕ => (k : ℚ) / 10) sun
      ((List.range 41).map fun _ => 0)) 10 .day = .ok ws ∧
    ∃ w ∈ ws, (w.rise : ℝ) < Real.pi ∧ Real.pi ≤ w.set := by
  have hA := axisA_pos
  have hpi := Real.pi_gt_three
  have hpi4 := Real.pi_le_four
  refine ⟨⟨⟨1, ((List.range 41).map fun k : ℕ => (k : ℚ) / 10).map
      fun t : ℚ => ((t : ℝ), circle t)⟩, some v⟩, fun t => itrsToGcrs1 t (circle t), ?_⟩
  have hz : ∀ k : ℝ, zenithAngle origin (k • origin.itrs) =
      InnerProductGeometry.angle ((k - 1) • toE origin.itrs) (toE origin.itrs) := by
    intro k
    rw [zenithAngle]
    congr 1
    change toE (k • origin.itrs - origin.itrs) = toE ((k - 1) • origin.itrs)
    congr 1
    module
  have hne : toE origin.itrs ≠ 0 := by
    apply toE_ne
    rw [origin_itrs]
    intro h
    have := congrFun h 0
    simp at this
    linarith
  have h0 : circle ((0 : ℚ) : ℝ) = (-2 : ℝ) • origin.itrs := by
    rw [origin_itrs]
    ext i
    fin_cases i <;> simp [circle]
  have h1 : circle Real.pi = (2 : ℝ) • origin.itrs := by
    rw [origin_itrs]
    ext i
    fin_cases i <;> simp [circle]
  have z0 : zenithAngle origin (circle ((0 : ℚ) : ℝ)) = Real.pi := by
    rw [h0, hz, show (-2 - 1 : ℝ) = -3 by norm_num,
      InnerProductGeometry.angle_smul_left_of_neg _ _ (by norm_num),
      InnerProductGeometry.angle_neg_self_of_nonzero hne]
  have z1 : zenithAngle origin (circle Real.pi) = 0 := by
    rw [h1, hz, show (2 - 1 : ℝ) = 1 by norm_num, one_smul, InnerProductGeometry.angle_self hne]
  have hV : 2 * axisA / axisA = 2 := by field_simp
  have hinc : ((List.range 41).map fun k : ℕ => (k : ℚ) / 10).Pairwise (· < ·) := by
    decide +kernel
  have hsun : Track (fun t => gcrsToItrs1 t (itrsToGcrs1 t (circle t))) origin (2 * axisA) axisA := by
    have : (fun t => gcrsToItrs1 t (itrsToGcrs1 t (circle t))) = circle :=
      funext fun t => itrs_gcrs1 _ _
    rw [this]
    exact circle_track
  obtain ⟨ws, hok, hw⟩ := C113_passes_found
    ⟨⟨1, ((List.range 41).map fun k : ℕ => (k : ℚ) / 10).map
      fun t : ℚ => ((t : ℝ), circle t)⟩, some v⟩ origin
    ((List.range 41).map fun k : ℕ => (k : ℚ) / 10) (fun t => itrsToGcrs1 t (circle t))
    ((List.range 41).map fun _ => 0) 10 .day circle (2 * axisA) axisA (2 * axisA) axisA (1 / 10)
    (by simp [Satellite.points]) rfl (by simp) hinc
    (by
      intro k a b ha hb
      simp only [List.getElem?_map, Option.map_eq_some_iff, List.getElem?_range] at ha hb
      obtain ⟨i, hi, rfl⟩ := ha
      obtain ⟨j, hj, rfl⟩ := hb
      obtain ⟨-, rfl⟩ := List.getElem?_eq_some_iff.1 hi
      obtain ⟨-, rfl⟩ := List.getElem?_eq_some_iff.1 hj
      simp only [List.getElem_range]
      push_cast
      linarith)
    circle_track hsun (by norm_num) (by norm_num) (by norm_num) 0 4
    (by decide +kernel) (by decide +kernel)
    (by rw [z0]; unfold rad; linarith)
    Real.pi (by simp; linarith) (by simpa using hpi4)
    (by rw [z1, hV]; unfold rad; linarith)
    (by
      simp only [SunWithin]
      rw [itrs_gcrs1, z1, hV]
      linarith)
  exact ⟨ws, rfl, hok, hw⟩

end Celest.Windows
