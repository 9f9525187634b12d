/-
Rounding errors of the altitude loop.
-/
import Verif.Frames.RoundedAltitude
import Verif.Frames.PropsPasses
import Verif.Frames.LemmasRoundedStation

namespace Celest.Frames

open Celest.TimeScale

/-- `x` is `X` but for a relative error of at most `e`. -/
def Near (e x X : ℝ) : Prop := |x - X| ≤ e * |X|

namespace Near

variable {M : Machine} {pw : ℝ → ℕ → ℝ} {u e f x y X Y : ℝ}

theorem mono (h : Near e x X) (hf : e ≤ f) : Near f x X :=
  le_trans h (mul_le_mul_of_nonneg_right hf (abs_nonneg _))

theorem factor (h : Near e x X) : ∃ d, |d| ≤ e ∧ x = X * (1 + d) ∨ X = 0 ∧ x = 0 := by
  by_cases hX : X = 0
  · refine ⟨0, Or.inr ⟨hX, ?_⟩⟩
    unfold Near at h
    rw [hX, abs_zero, mul_zero, sub_zero] at h
    exact abs_eq_zero.1 (le_antisymm h (abs_nonneg _))
  · refine ⟨(x - X) / X, Or.inl ⟨?_, ?_⟩⟩
    · rw [abs_div, div_le_iff₀ (abs_pos.2 hX)]
      exact h
    · field_simp
      ring

theorem abs_le (h : Near e x X) : |x| ≤ (1 + e) * |X| := by
  have := abs_sub_abs_le_abs_sub x X
  unfold Near at h
  linarith

theorem pos (h : Near e x X) (he : e ≤ 1 / 1000) (hX : 0 < X) : 0.999 * X ≤ x := by
  unfold Near at h
  rw [abs_of_pos hX] at h
  have := (_root_.abs_le.1 h).1
  have : e * X ≤ 1 / 1000 * X := by gcongr
  linarith

theorem fl (h : Near e x X) (S : M.Accurate u) (he : e ≤ 1 / 1000) :
    Near (e + 1.001 * u) (M.fl x) X := by
  have h1 := S.fl x
  have h2 := h.abs_le
  have h3 := abs_sub_le (M.fl x) x X
  have hu := S.nonneg
  have h4 : u * |x| ≤ u * (1.001 * |X|) := by
    have : (1 + e) * |X| ≤ 1.001 * |X| := by
      apply mul_le_mul_of_nonneg_right _ (abs_nonneg _)
      linarith
    gcongr
    linarith
  unfold Near at *
  linarith

theorem round (S : M.Accurate u) (X : ℝ) : Near u (M.fl X) X := S.fl X

theorem mul (hx : Near e x X) (hy : Near f y Y) (he : e ≤ 1 / 1000) (hf0 : 0 ≤ f) :
    Near (e + 1.001 * f) (x * y) (X * Y) := by
  unfold Near at *
  rw [show x * y - X * Y = (x - X) * Y + x * (y - Y) by ring, abs_mul]
  have h1 := abs_add_le ((x - X) * Y) (x * (y - Y))
  rw [abs_mul, abs_mul] at h1
  have h2 : |x - X| * |Y| ≤ e * |X| * |Y| := mul_le_mul_of_nonneg_right hx (abs_nonneg _)
  have h3 : |x| ≤ 1.001 * |X| := by
    refine (Near.abs_le hx).trans (mul_le_mul_of_nonneg_right ?_ (abs_nonneg _))
    linarith
  have h4 : |x| * |y - Y| ≤ 1.001 * |X| * (f * |Y|) :=
    mul_le_mul h3 hy (abs_nonneg _) (by positivity)
  linarith

theorem inv (hy : Near f y Y) (hf : f ≤ 1 / 1000) (hY : 0 < Y) :
    Near (1.002 * f) (1 / y) (1 / Y) := by
  have hy1 := hy.pos hf hY
  have hy0 : 0 < y := by
    have : 0 < 0.999 * Y := by positivity
    linarith
  unfold Near at *
  rw [abs_of_pos hY] at hy
  rw [abs_of_pos (by positivity : 0 < 1 / Y), div_sub_div _ _ hy0.ne' hY.ne', abs_div,
    abs_of_pos (mul_pos hy0 hY), one_mul, mul_one, mul_one_div, div_le_div_iff₀ (mul_pos hy0 hY) hY,
    abs_sub_comm]
  have h1 : |y - Y| * Y ≤ f * Y * Y := mul_le_mul_of_nonneg_right hy hY.le
  have hf0 : 0 ≤ f * Y := (abs_nonneg _).trans hy
  have h2 : f * Y * (0.999 * Y) ≤ f * Y * y := mul_le_mul_of_nonneg_left hy1 hf0
  have h3 : 0 ≤ f * Y * Y := mul_nonneg hf0 hY.le
  linarith

theorem div (hx : Near e x X) (hy : Near f y Y) (he : e ≤ 1 / 1000) (hf : f ≤ 1 / 1000)
    (hf0 : 0 ≤ f) (hY : 0 < Y) : Near (e + 1.004 * f) (x / y) (X / Y) := by
  have h := hx.mul (hy.inv hf hY) he (by positivity)
  rw [mul_one_div, mul_one_div] at h
  exact h.mono (by linarith)

theorem sqrt (hx : Near e x X) (he : e ≤ 1 / 1000) (hX : 0 ≤ X) :
    Near (0.51 * e) (Real.sqrt x) (Real.sqrt X) := by
  rcases hX.eq_or_lt with rfl | hX
  · have : x = 0 := by
      unfold Near at hx
      rw [abs_zero, mul_zero, sub_zero] at hx
      exact abs_eq_zero.1 (le_antisymm hx (abs_nonneg _))
    rw [this]
    unfold Near
    simp
  · have h1 := hx.pos he hX
    have hs := Real.sqrt_pos.2 hX
    have hX2 := Real.mul_self_sqrt hX.le
    have hx0 : 0 ≤ x := by
      have : 0 < 0.999 * X := by positivity
      linarith
    have hx2 := Real.mul_self_sqrt hx0
    have hsx : 0.99 * Real.sqrt X ≤ Real.sqrt x := by
      apply Real.le_sqrt_of_sq_le
      rw [mul_pow, Real.sq_sqrt hX.le]
      linarith
    unfold Near at *
    rw [abs_of_pos hX] at hx
    rw [abs_of_pos hs]
    have e1 : (Real.sqrt x - Real.sqrt X) * (Real.sqrt x + Real.sqrt X) = x - X := by
      linear_combination hx2 - hX2
    have e2 : |Real.sqrt x - Real.sqrt X| * (Real.sqrt x + Real.sqrt X) = |x - X| := by
      rw [← e1, abs_mul, abs_of_pos (by linarith : 0 < Real.sqrt x + Real.sqrt X)]
    have h2 : |Real.sqrt x - Real.sqrt X| * (1.99 * Real.sqrt X) ≤ e * X := by
      refine le_trans (mul_le_mul_of_nonneg_left ?_ (abs_nonneg _)) (e2.le.trans hx)
      linarith
    have h3 : (1.99 * |Real.sqrt x - Real.sqrt X|) * Real.sqrt X ≤ (e * Real.sqrt X) * Real.sqrt X := by
      rw [mul_assoc e, hX2]
      linarith
    have h4 := le_of_mul_le_mul_right h3 hs
    have h5 := abs_nonneg (Real.sqrt x - Real.sqrt X)
    linarith

theorem sq (hx : Near e x X) (S : Setup M pw u) (he : e ≤ 1 / 1000) (he0 : 0 ≤ e) :
    Near (2.001 * e + 2.005 * u) (pw x 2) (X ^ 2) := by
  have h1 := S.pow x 2
  have hu := S.acc.nonneg
  have h2 := hx.mul hx he he0
  rw [← pow_two, ← pow_two] at h2
  have h3 := h2.abs_le
  have h4 := abs_sub_le (pw x 2) (x ^ 2) (X ^ 2)
  unfold Near at *
  have h5 : 2 * u * |x ^ 2| ≤ 2 * u * (1.0025 * |X ^ 2|) := by
    have : (1 + (e + 1.001 * e)) * |X ^ 2| ≤ 1.0025 * |X ^ 2| := by
      apply mul_le_mul_of_nonneg_right _ (abs_nonneg _)
      linarith
    gcongr
    linarith
  linarith

theorem add (hx : Near e x X) (hy : Near e y Y) (hX : 0 ≤ X) (hY : 0 ≤ Y) :
    Near e (x + y) (X + Y) := by
  unfold Near at *
  rw [abs_of_nonneg (by linarith : 0 ≤ X + Y)]
  rw [abs_of_nonneg hX] at hx
  rw [abs_of_nonneg hY] at hy
  rw [show x + y - (X + Y) = (x - X) + (y - Y) by ring]
  have := abs_add_le (x - X) (y - Y)
  linarith

theorem of_abs {d : ℝ} (h : |x - X| ≤ d) (hX : 0 < X) (hd : d ≤ e * X) : Near e x X := by
  unfold Near
  rw [abs_of_pos hX]
  linarith

theorem to_abs (h : Near e x X) (he : 0 ≤ e) {B : ℝ} (hX : |X| ≤ B) : |x - X| ≤ e * B :=
  le_trans h (mul_le_mul_of_nonneg_left hX he)

/-- The arctangent of a slightly wrong tangent. -/
theorem arctan (h : Near e x X) (he0 : 0 ≤ e) (he : e ≤ 1 / 1000) {d : ℝ} (hd : 0 < d) (hX : d ^ 2 ≤ 1 + X ^ 2) :
    d * |Real.arctan x - Real.arctan X| ≤ 1.01 * e := by
  have hsx : 0.999 * X ^ 2 ≤ x * X := by
    have h1 : |x - X| * |X| ≤ e * |X| * |X| := mul_le_mul_of_nonneg_right h (abs_nonneg _)
    rw [← abs_mul, mul_assoc, abs_mul_abs_self] at h1
    have h2 := (_root_.abs_le.1 h1).1
    have h3 : e * (X * X) ≤ 1 / 1000 * (X * X) := mul_le_mul_of_nonneg_right he (mul_self_nonneg X)
    nlinarith
  have hX2 := sq_nonneg X
  have h0 : 0 ≤ x * X := by linarith
  have h1 := arctan_diff h0
  have hT : 0 < Real.sqrt (1 + X ^ 2) := Real.sqrt_pos.2 (by positivity)
  have hT2 : Real.sqrt (1 + X ^ 2) * Real.sqrt (1 + X ^ 2) = 1 + X ^ 2 :=
    Real.mul_self_sqrt (by positivity)
  have hdT : d ≤ Real.sqrt (1 + X ^ 2) := Real.le_sqrt_of_sq_le hX
  have hXT : |X| ≤ Real.sqrt (1 + X ^ 2) := by
    rw [← Real.sqrt_sq_eq_abs]
    exact Real.sqrt_le_sqrt (by linarith)
  · have h2 : |x - X| / (1 + x * X) ≤ e * |X| / (1 + 0.999 * X ^ 2) := by
      apply div_le_div₀ (by positivity) h (by positivity)
      linarith
    have h3 : d * (e * |X|) ≤ 1.01 * e * (1 + 0.999 * X ^ 2) := by
      have h4 : d * |X| ≤ 1 + X ^ 2 := by
        rw [← hT2]
        exact mul_le_mul hdT hXT (abs_nonneg _) hT.le
      have h5 : e * (d * |X|) ≤ e * (1 + X ^ 2) := mul_le_mul_of_nonneg_left h4 he0
      have h6 : 0 ≤ e * X ^ 2 := mul_nonneg he0 hX2
      linarith
    calc d * |Real.arctan x - Real.arctan X| ≤ d * (e * |X| / (1 + 0.999 * X ^ 2)) := by
          gcongr
          linarith
      _ = d * (e * |X|) / (1 + 0.999 * X ^ 2) := by ring
      _ ≤ 1.01 * e := by
          rw [div_le_iff₀ (by positivity)]
          exact h3

end Near

section

variable {M : Machine} {pw : ℝ → ℕ → ℝ} {u : ℝ}

theorem axesSq_near (S : Setup M pw u) : Near (10 * u) (Rounded.axesSq M pw) (ratio ^ 2) := by
  have hu := S.acc.nonneg
  have hs := S.acc.small
  have b := (Near.round S.acc axisB).sq S (by linarith) hu
  have a := (Near.round S.acc axisA).sq S (by linarith) hu
  have h := ((b.div a (by linarith) (by linarith) (by linarith)
    (by have := axisA_pos; positivity)).fl S.acc (by linarith)).mono (f := 10 * u) (by linarith)
  rw [show axisB ^ 2 / axisA ^ 2 = ratio ^ 2 by rw [ratio, div_pow]] at h
  exact h

theorem axesSq_close (S : Setup M pw u) : Close u 10 1 (Rounded.axesSq M pw) (ratio ^ 2) := by
  have hr := ratio_bounds
  have hu := S.acc.nonneg
  have h1 : |ratio ^ 2| ≤ 1 := by
    rw [abs_of_nonneg (sq_nonneg _)]
    nlinarith
  exact ⟨((axesSq_near S).to_abs (by positivity) h1).trans (by linarith), h1⟩

theorem e2_bounds : 0.00669 ≤ 1 - ratio ^ 2 ∧ 1 - ratio ^ 2 ≤ 0.0067 := by
  unfold ratio axisA axisB
  constructor <;> norm_num

theorem eccSq_near (S : Setup M pw u) : Near (1600 * u) (Rounded.eccSq M pw) (1 - ratio ^ 2) := by
  have hu := S.acc.nonneg
  have hs := S.acc.small
  obtain ⟨b1, b2⟩ := e2_bounds
  have h1 : Near (1500 * u) (1 - Rounded.axesSq M pw) (1 - ratio ^ 2) := by
    have h := (axesSq_close S).err
    refine Near.of_abs (d := 10 * u) ?_ (by linarith) (by nlinarith)
    rw [sub_sub_sub_cancel_left, abs_sub_comm]
    exact h
  have h := ((((h1.fl S.acc (by linarith)).sqrt (by linarith) (by linarith)).fl S.acc
    (by linarith)).sq S (by linarith) (by linarith)).mono (f := 1600 * u) (by linarith)
  rw [Real.sq_sqrt (by linarith)] at h
  exact h

/-- The radius of curvature inside the loop. -/
noncomputable def curvatureOf (phi : ℝ) : ℝ :=
  axisA / Real.sqrt (Real.cos phi ^ 2 + ratio ^ 2 * Real.sin phi ^ 2)

theorem radicand_range (phi : ℝ) : 0.993 ≤ Real.cos phi ^ 2 + ratio ^ 2 * Real.sin phi ^ 2 ∧
    Real.cos phi ^ 2 + ratio ^ 2 * Real.sin phi ^ 2 ≤ 1 := by
  obtain ⟨b1, b2⟩ := e2_bounds
  have h := Real.sin_sq_add_cos_sq phi
  have h0 := sq_nonneg (Real.sin phi)
  have h1 : Real.sin phi ^ 2 ≤ 1 := by linarith [sq_nonneg (Real.cos phi)]
  have e : Real.cos phi ^ 2 + ratio ^ 2 * Real.sin phi ^ 2 =
      1 - (1 - ratio ^ 2) * Real.sin phi ^ 2 := by linear_combination h
  rw [e]
  constructor
  · have : (1 - ratio ^ 2) * Real.sin phi ^ 2 ≤ 0.0067 * 1 := by gcongr
    linarith
  · have : 0 ≤ (1 - ratio ^ 2) * Real.sin phi ^ 2 := mul_nonneg (by linarith) h0
    linarith

theorem curvatureOf_range (phi : ℝ) : 6378 ≤ curvatureOf phi ∧ curvatureOf phi ≤ 6402 := by
  obtain ⟨h1, h2⟩ := radicand_range phi
  have hA : axisA = 6378.137 := rfl
  have s1 : 0.9964 ≤ Real.sqrt (Real.cos phi ^ 2 + ratio ^ 2 * Real.sin phi ^ 2) :=
    Real.le_sqrt_of_sq_le (by linarith)
  have s2 : Real.sqrt (Real.cos phi ^ 2 + ratio ^ 2 * Real.sin phi ^ 2) ≤ 1 := Real.sqrt_le_one.2 h2
  unfold curvatureOf
  constructor
  · rw [le_div_iff₀ (by linarith)]
    linarith
  · rw [div_le_iff₀ (by linarith)]
    linarith

theorem curvature_close (S : Setup M pw u) {phi phi' : ℝ} (h : |phi' - phi| ≤ 60 * u) :
    |Rounded.curvature M pw phi' - curvatureOf phi| ≤ 4200000 * u := by
  have hsmall := S.acc.small
  have hphi : Close u 60 |phi| phi' phi := ⟨h, le_rfl⟩
  have c := (hphi.cos S.acc).pow S (by norm_num) 2
  have s := (hphi.sin S.acc).pow S (by norm_num) 2
  have r := ((c.add (((axesSq_close S).mul S.acc s (by norm_num)).fl S.acc)).fl S.acc).mono
    S.acc.nonneg (l := 526) (C := 2) (by norm_num) (by norm_num)
  obtain ⟨b1, b2⟩ := radicand_range phi
  have r1 := (abs_le.1 r.err).1
  have q := ((r.sqrt (by linarith) (by linarith) b2).fl S.acc).mono S.acc.nonneg (l := 528) (C := 1)
    (by norm_num) le_rfl
  have q1 := (abs_le.1 q.err).1
  have q2 : 0.99 ≤ Real.sqrt (Real.cos phi ^ 2 + ratio ^ 2 * Real.sin phi ^ 2) :=
    Real.le_sqrt_of_sq_le (by linarith)
  have i := q.inv (m := 0.9) (by norm_num) (by linarith) (by linarith)
  have a : Close u 6379 6379 (M.fl axisA) axisA :=
    (Close.lit S.acc (c := axisA) (by norm_num [axisA])).mono S.acc.nonneg (by norm_num [axisA])
      (by norm_num [axisA])
  have := (a.mul S.acc i (by norm_num)).fl S.acc
  rw [mul_one_div (M.fl axisA), mul_one_div axisA] at this
  exact (this.mono S.acc.nonneg (l := 4200000) (C := 7100) (by norm_num) (by norm_num)).err

/-- Cosines of latitudes whose tangents are within the bounds. -/
theorem TanBounds.cos {p z x r : ℝ} (h : TanBounds p z x) (hp : 0 < p) (hr0 : 0 < r)
    (hr : r ^ 2 = p ^ 2 + z ^ 2) :
    0 < Real.cos (Real.arctan x) ∧ r ≤ p / Real.cos (Real.arctan x) ∧
      p / Real.cos (Real.arctan x) ≤ 1.0102 * r := by
  have hT : 0 < Real.sqrt (1 + x ^ 2) := Real.sqrt_pos.2 (by positivity)
  have hT2 : Real.sqrt (1 + x ^ 2) ^ 2 = 1 + x ^ 2 := Real.sq_sqrt (by positivity)
  rw [Real.cos_arctan, div_div_eq_mul_div, div_one]
  have h1 : z ^ 2 ≤ x ^ 2 * p ^ 2 := by
    have := h.ge
    rw [div_le_iff₀ hp] at this
    have := mul_self_le_mul_self (abs_nonneg z) this
    rw [abs_mul_abs_self] at this
    rw [← sq_abs x]
    linarith
  have h2 : x ^ 2 * p ^ 2 ≤ 1.02031 * z ^ 2 := by
    have := mul_self_le_mul_self (mul_nonneg (abs_nonneg x) hp.le) h.le
    rw [div_mul_div_comm, abs_mul_abs_self] at this
    rw [← sq_abs x]
    have e : z * z / (0.99 * 0.99) ≤ 1.02031 * z ^ 2 := by
      rw [div_le_iff₀ (by norm_num)]
      nlinarith [sq_nonneg z]
    linarith
  refine ⟨by positivity, ?_, ?_⟩
  · refine (abs_le_of_sq_le_sq' ?_ (by positivity)).2
    rw [mul_pow, hT2]
    linarith
  · refine (abs_le_of_sq_le_sq' ?_ (by positivity)).2
    rw [mul_pow, hT2, mul_pow, hr]
    have := sq_nonneg p
    have := sq_nonneg z
    linarith

/-- A position, by its distances from the polar axis, the equatorial plane and the centre of the
Earth, that is not too close to the axis. -/
structure Tame (p z r : ℝ) : Prop where
  pos : 0 < p
  norm : r ^ 2 = p ^ 2 + z ^ 2
  far : 6000 ≤ r
  off : r ^ 2 ≤ 2 * 10 ^ 8 * p

theorem Tame.ratio_bounds {p z r : ℝ} (h : Tame p z r) :
    1 ≤ r / p ∧ r / p ≤ 33334 ∧ r / p * p = r := by
  have hp := h.pos
  have hr := h.far
  have hn := h.norm
  have ho := h.off
  refine ⟨?_, ?_, div_mul_cancel₀ _ hp.ne'⟩
  · rw [le_div_iff₀ hp, one_mul]
    refine (abs_le_of_sq_le_sq' ?_ (by linarith)).2
    linarith [sq_nonneg z]
  · rw [div_le_iff₀ hp]
    nlinarith

/-- The tangent of the latitude from a slightly wrong quotient. -/
theorem latTan_near (S : Setup M pw u) {p p' z q q' d : ℝ} (hp : 0 < p) (hp' : Near (3 * u) p' p)
    (hq : |q' - q| ≤ d) (hq0 : 0 ≤ q) (hq1 : q ≤ 0.01) (hd : d ≤ 1 / 2000) :
    Near (1.02 * d + 7.1 * u) (Rounded.latTan M p' z q') (z / p * (1 - q)⁻¹) := by
  have hu := S.acc.nonneg
  have hs := S.acc.small
  have hd0 : 0 ≤ d := (abs_nonneg _).trans hq
  have f : Near (1.0102 * d) (1 - q') (1 - q) := by
    refine Near.of_abs (d := d) ?_ (by linarith) (by nlinarith)
    rw [sub_sub_sub_cancel_left, abs_sub_comm]
    exact hq
  have g := (((f.fl S.acc (by linarith)).inv (by linarith) (by linarith)).fl S.acc
    (by linarith)).mono (f := 1.014 * d + 2.02 * u) (by linarith)
  have z0 : Near 0 z z := by
    unfold Near
    simp
  have zp := ((z0.div hp' (by norm_num) (by linarith) (by linarith) hp).fl S.acc
    (by linarith)).mono (f := 4.02 * u) (by linarith)
  have h := ((zp.mul g (by linarith) (by linarith)).fl S.acc (by linarith)).mono
    (f := 1.02 * d + 7.1 * u) (by linarith)
  rw [one_div (1 - q)] at h
  exact h

/-- The latitude from a slightly wrong quotient. -/
theorem latitude_close (S : Setup M pw u) {E : Extra} (hE : E.Accurate u) {p p' z r q q' d : ℝ}
    (h : Tame p z r) (hp' : Near (3 * u) p' p) (hq : |q' - q| ≤ d) (hq0 : 0 ≤ q) (hq1 : q ≤ 0.01)
    (hd : d ≤ 38 * u + u * (r / p)) :
    |E.arctan (Rounded.latTan M p' z q') - Real.arctan (z / p * (1 - q)⁻¹)| ≤ 60 * u := by
  have hu := S.acc.nonneg
  have hs := S.acc.small
  have hp := h.pos
  obtain ⟨r1, r2, r3⟩ := h.ratio_bounds
  set ρ := r / p with hρ
  have v1 : u * 1 ≤ u * ρ := mul_le_mul_of_nonneg_left r1 hu
  have v2 : u * ρ ≤ 1 / 10 ^ 12 * 33334 := mul_le_mul hs r2 (by linarith) (by norm_num)
  have hd0 : 0 ≤ d := (abs_nonneg _).trans hq
  have n := latTan_near (z := z) S hp hp' hq hq0 hq1 (by norm_num at v2; linarith)
  have hi : 1 ≤ (1 - q)⁻¹ := by
    rw [one_le_inv₀ (by linarith)]
    linarith
  have ht : ρ ^ 2 ≤ 1 + (z / p * (1 - q)⁻¹) ^ 2 := by
    have e : ρ ^ 2 = 1 + (z / p) ^ 2 := by
      rw [hρ, div_pow, div_pow, h.norm]
      field_simp
    rw [e, mul_pow]
    have : (z / p) ^ 2 * 1 ≤ (z / p) ^ 2 * ((1 - q)⁻¹) ^ 2 :=
      mul_le_mul_of_nonneg_left (one_le_pow₀ hi) (sq_nonneg _)
    linarith
  have a := n.arctan (by linarith) (by norm_num at v2; linarith) (by linarith : 0 < ρ) ht
  set t' := Rounded.latTan M p' z q'
  set t := z / p * (1 - q)⁻¹
  have a1 : |Real.arctan t' - Real.arctan t| ≤ 55 * u := by
    refine le_of_mul_le_mul_left ?_ (by linarith : 0 < ρ)
    linarith
  have a2 := hE.arctan t'
  have a3 := abs_sub_le (E.arctan t') (Real.arctan t') (Real.arctan t)
  linarith

/-- One pass through the loop. -/
theorem step_close (S : Setup M pw u) {E : Extra} (hE : E.Accurate u) {p p' z r x phi' : ℝ}
    (h : Tame p z r) (hp' : Near (3 * u) p' p) (hx : TanBounds p z x)
    (hphi : |phi' - Real.arctan x| ≤ 60 * u) :
    |(Rounded.altStep M pw E p' z phi').1 - (altStep p z (Real.arctan x)).1| ≤
        70 * u * (r / p) * r + 710 * u * r ∧
    |(Rounded.altStep M pw E p' z phi').2 - (altStep p z (Real.arctan x)).2| ≤ 60 * u := by
  have hu := S.acc.nonneg
  have hs := S.acc.small
  have hp := h.pos
  have hr := h.far
  obtain ⟨r1, r2, r3⟩ := h.ratio_bounds
  obtain ⟨c0, w1, w2⟩ := hx.cos hp (by linarith) h.norm
  have hN := curvature_close S hphi
  obtain ⟨N1, N2⟩ := curvatureOf_range (Real.arctan x)
  have hcos : |M.cos phi' - Real.cos (Real.arctan x)| ≤ 62 * u := by
    have h1 := S.acc.cos phi'
    have h2 := Real.abs_cos_sub_cos_le phi' (Real.arctan x)
    have h3 := abs_sub_le (M.cos phi') (Real.cos phi') (Real.cos (Real.arctan x))
    linarith
  have hstep : altStep p z (Real.arctan x) =
      (p / Real.cos (Real.arctan x) - curvatureOf (Real.arctan x),
        Real.arctan (z / p * (1 - (1 - ratio ^ 2) * curvatureOf (Real.arctan x) /
          (p / Real.cos (Real.arctan x)))⁻¹)) := by
    unfold altStep curvatureOf
    simp only [e2_eq]
    rw [ratio, div_pow, add_sub_cancel]
  rw [hstep]
  unfold Rounded.altStep
  simp only
  set c := Real.cos (Real.arctan x) with hc
  set N := curvatureOf (Real.arctan x) with hNd
  set N' := Rounded.curvature M pw phi' with hN'd
  set w := p / c with hw
  set ρ := r / p with hρ
  have v1 : u * 1 ≤ u * ρ := mul_le_mul_of_nonneg_left r1 hu
  have v2 : u * ρ ≤ 1 / 10 ^ 12 * 33334 := mul_le_mul hs r2 (by linarith) (by norm_num)
  norm_num at v2
  have ur : u * 6000 ≤ u * r := mul_le_mul_of_nonneg_left hr hu
  -- the quotient of the distance from the axis and the cosine
  have cn : Near (63 * (u * ρ)) (M.cos phi') c := by
    refine Near.of_abs hcos c0 ?_
    have h1 : p ≤ 1.0102 * r * c := by
      rw [hw, div_le_iff₀ c0] at w2
      exact w2
    have h2 : 1 ≤ 1.0102 * (ρ * c) := by
      refine le_of_mul_le_mul_right ?_ hp
      rw [← r3] at h1
      linarith
    have := mul_le_mul_of_nonneg_left h2 hu
    linarith
  have wn := ((hp'.div cn (by linarith) (by linarith) (by linarith) c0).fl S.acc
    (by linarith)).mono (f := 68 * (u * ρ)) (by linarith)
  have we : |M.fl (p' / M.cos phi') - w| ≤ 68.7 * (u * ρ * r) := by
    have := wn.to_abs (by linarith) (B := 1.0102 * r) (by
      rw [abs_of_pos (by linarith)]
      exact w2)
    have h0 : 0 ≤ u * ρ * r := mul_nonneg (by linarith) (by linarith)
    linarith
  set w' := M.fl (p' / M.cos phi') with hw'
  have vr : u * ρ * r ≤ 3.4 / 10 ^ 8 * r := mul_le_mul_of_nonneg_right (by linarith) (by linarith)
  have urs : u * r ≤ 1 / 10 ^ 12 * r := mul_le_mul_of_nonneg_right hs (by linarith)
  -- the height
  have he : |M.fl (w' - N') - (w - N)| ≤ 69 * (u * ρ * r) + 703 * (u * r) := by
    have h1 := S.acc.fl (w' - N')
    have h2 : |w' - N' - (w - N)| ≤ 68.7 * (u * ρ * r) + 700 * (u * r) := by
      rw [show w' - N' - (w - N) = (w' - w) - (N' - N) by ring]
      have := abs_sub (w' - w) (N' - N)
      linarith
    have h3 : |w' - N'| ≤ 2.1 * r := by
      have := abs_sub_abs_le_abs_sub (w' - N') (w - N)
      have : |w - N| ≤ 2.08 * r := by
        rw [abs_le]
        constructor <;> linarith
      norm_num at vr urs
      linarith
    have h4 : u * |w' - N'| ≤ u * (2.1 * r) := mul_le_mul_of_nonneg_left h3 hu
    have h5 := abs_sub_le (M.fl (w' - N')) (w' - N') (w - N)
    have h0 : 0 ≤ u * ρ * r := mul_nonneg (by linarith) (by linarith)
    have h6 : 0 ≤ u * r := mul_nonneg hu (by linarith)
    linarith
  set h' := M.fl (w' - N') with hh'
  constructor
  · refine he.trans ?_
    have h0 : 0 ≤ u * ρ * r := mul_nonneg (by linarith) (by linarith)
    have h1 : 0 ≤ u * r := mul_nonneg hu (by linarith)
    linarith
  · -- the quotient
    have Nn : Near (660 * u) N' N := Near.of_abs hN (by linarith) (by nlinarith)
    have top := (((eccSq_near S).mul Nn (by linarith) (by linarith)).fl S.acc
      (by linarith)).mono (f := 2270 * u) (by linarith)
    have bot : Near (69 * (u * ρ) + 1405 * u) (M.fl (N' + h')) w := by
      refine Near.of_abs (d := 69 * (u * ρ * r) + 1405 * (u * r)) ?_ (by linarith) ?_
      · have h1 := S.acc.fl (N' + h')
        have h2 : |N' + h' - w| ≤ 69 * (u * ρ * r) + 1403 * (u * r) := by
          rw [show N' + h' - w = (N' - N) + (h' - (w - N)) by ring]
          have := abs_add_le (N' - N) (h' - (w - N))
          linarith
        have h3 : |N' + h'| ≤ 1.02 * r := by
          have := abs_sub_abs_le_abs_sub (N' + h') w
          rw [abs_of_pos (by linarith : 0 < w)] at this
          norm_num at vr urs
          linarith
        have h4 : u * |N' + h'| ≤ u * (1.02 * r) := mul_le_mul_of_nonneg_left h3 hu
        have h5 := abs_sub_le (M.fl (N' + h')) (N' + h') w
        linarith
      · have : (69 * (u * ρ) + 1405 * u) * r ≤ (69 * (u * ρ) + 1405 * u) * w :=
          mul_le_mul_of_nonneg_left w1 (by linarith)
        linarith
    have e := e2_bounds
    have q0 : 0 ≤ (1 - ratio ^ 2) * N / w :=
      div_nonneg (mul_nonneg (by linarith) (by linarith)) (by linarith)
    have q1 : (1 - ratio ^ 2) * N / w ≤ 0.0072 := by
      rw [div_le_iff₀ (by linarith)]
      have : (1 - ratio ^ 2) * N ≤ 0.0067 * 6402 :=
        mul_le_mul e.2 N2 (by linarith) (by norm_num)
      linarith
    have qn := ((top.div bot (by linarith) (by linarith) (by linarith)
      (by linarith : 0 < w)).fl S.acc (by linarith)).mono (f := 3685 * u + 70 * (u * ρ))
        (by linarith)
    have qe := qn.to_abs (by linarith) (B := 0.0072) (by rw [abs_of_nonneg q0]; exact q1)
    exact latitude_close S hE h hp' qe q0 (by linarith) (by linarith)

end

end Celest.Frames
