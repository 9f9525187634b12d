/-
Lemmas for C116: absolute errors of the angles computed in floating-point arithmetic.
-/
import Verif.Frames.PropsRounded
import Verif.Frames.RoundedAngles

namespace Celest.Frames

open Celest.TimeScale

/-- The machine, its powers and the size of its rounding errors; `u` is no smaller than the error of
the fifteen decimals of the radian allows. -/
structure Setup (M : Machine) (pw : ℝ → ℕ → ℝ) (u : ℝ) : Prop where
  acc : M.Accurate u
  pow : Rounded.AccuratePower pw u
  unit : 1 / 2 ^ 53 ≤ u

/-- `x` is `X`, of absolute value at most `B`, but for an error of at most `k * u`. -/
structure Close (u k B x X : ℝ) : Prop where
  err : |x - X| ≤ k * u
  size : |X| ≤ B

namespace Close

variable {M : Machine} {pw : ℝ → ℕ → ℝ} {u k l B C x y X Y : ℝ}

theorem mono (h : Close u k B x X) (hu : 0 ≤ u) (hk : k ≤ l) (hB : B ≤ C) : Close u l C x X :=
  ⟨h.err.trans (by gcongr), h.size.trans hB⟩

theorem exact (hX : |X| ≤ B) : Close u 0 B X X := ⟨by simp, hX⟩

theorem lit (S : M.Accurate u) {c : ℝ} (hc : 0 ≤ c) : Close u c c (M.fl c) c := by
  refine ⟨?_, (abs_of_nonneg hc).le⟩
  have := S.fl c
  rw [abs_of_nonneg hc] at this
  linarith

theorem abs_le (h : Close u k B x X) : |x| ≤ B + k * u := by
  have := abs_sub_abs_le_abs_sub x X
  have := h.err
  have := h.size
  linarith

theorem fl (h : Close u k B x X) (S : M.Accurate u) :
    Close u (k + B + k / 10 ^ 12) B (M.fl x) X := by
  refine ⟨?_, h.size⟩
  have h0 := S.nonneg
  have h1 := S.fl x
  have h2 := h.abs_le
  have h3 := abs_sub_le (M.fl x) x X
  have h4 : 0 ≤ k * u := (abs_nonneg _).trans h.err
  have h5 : u * |x| ≤ u * (B + k * u) := by gcongr
  have h6 : k * u * u ≤ k * u * (1 / 10 ^ 12) := mul_le_mul_of_nonneg_left S.small h4
  have := h.err
  linarith

theorem neg (h : Close u k B x X) : Close u k B (-x) (-X) := by
  refine ⟨?_, by rw [abs_neg]; exact h.size⟩
  rw [show -x - -X = -(x - X) by ring, abs_neg]
  exact h.err

theorem add (hx : Close u k B x X) (hy : Close u l C y Y) :
    Close u (k + l) (B + C) (x + y) (X + Y) := by
  constructor
  · rw [show x + y - (X + Y) = (x - X) + (y - Y) by ring]
    have := abs_add_le (x - X) (y - Y)
    have := hx.err
    have := hy.err
    linarith
  · have := abs_add_le X Y
    have := hx.size
    have := hy.size
    linarith

theorem sub (hx : Close u k B x X) (hy : Close u l C y Y) :
    Close u (k + l) (B + C) (x - y) (X - Y) := by
  rw [sub_eq_add_neg, sub_eq_add_neg]
  exact hx.add hy.neg

theorem mul (S : M.Accurate u) (hx : Close u k B x X) (hy : Close u l C y Y) (hl : 0 ≤ l) :
    Close u (k * (C + l / 10 ^ 12) + B * l) (B * C) (x * y) (X * Y) := by
  have h0 := S.nonneg
  have hB : 0 ≤ B := (abs_nonneg _).trans hx.size
  have hC : 0 ≤ C := (abs_nonneg _).trans hy.size
  have hk : 0 ≤ k * u := (abs_nonneg _).trans hx.err
  constructor
  · rw [show x * y - X * Y = (x - X) * y + X * (y - Y) by ring]
    have h1 := abs_add_le ((x - X) * y) (X * (y - Y))
    rw [abs_mul, abs_mul] at h1
    have h2 : |x - X| * |y| ≤ k * u * (C + l * u) :=
      mul_le_mul hx.err hy.abs_le (abs_nonneg _) hk
    have h3 : |X| * |y - Y| ≤ B * (l * u) := mul_le_mul hx.size hy.err (abs_nonneg _) hB
    have h4 : k * u * (l * u) ≤ k * u * (l * (1 / 10 ^ 12)) :=
      mul_le_mul_of_nonneg_left (mul_le_mul_of_nonneg_left S.small hl) hk
    linarith
  · rw [abs_mul]
    exact mul_le_mul hx.size hy.size (abs_nonneg _) hB

theorem div (h : Close u k B x X) {c : ℝ} (hc : 0 < c) : Close u (k / c) (B / c) (x / c) (X / c) := by
  constructor
  · rw [← sub_div, abs_div, abs_of_pos hc, div_mul_eq_mul_div]
    exact div_le_div_of_nonneg_right h.err hc.le
  · rw [abs_div, abs_of_pos hc]
    exact div_le_div_of_nonneg_right h.size hc.le

theorem sin (h : Close u k B x X) (S : M.Accurate u) :
    Close u (k + 2) 1 (M.sin x) (Real.sin X) := by
  refine ⟨?_, Real.abs_sin_le_one X⟩
  have h1 := S.sin x
  have h2 : |Real.sin x - Real.sin X| ≤ |x - X| := Real.abs_sin_sub_sin_le x X
  have h3 := abs_sub_le (M.sin x) (Real.sin x) (Real.sin X)
  have := h.err
  linarith

theorem cos (h : Close u k B x X) (S : M.Accurate u) :
    Close u (k + 2) 1 (M.cos x) (Real.cos X) := by
  refine ⟨?_, Real.abs_cos_le_one X⟩
  have h1 := S.cos x
  have h2 : |Real.cos x - Real.cos X| ≤ |x - X| := Real.abs_cos_sub_cos_le x X
  have h3 := abs_sub_le (M.cos x) (Real.cos x) (Real.cos X)
  have := h.err
  linarith

/-- Powers of numbers of at most one. -/
theorem pow (h : Close u k 1 x X) (S : Setup M pw u) (hk : k ≤ 1000) (n : ℕ) :
    Close u (2 ^ n * (k + 2)) 1 (pw x n) (X ^ n) := by
  have h0 := S.acc.nonneg
  have hs := S.acc.small
  have hku : 0 ≤ k * u := (abs_nonneg _).trans h.err
  have hx2 : |x| ≤ 2 := by
    have := h.abs_le
    have : k * u ≤ 1000 * (1 / 10 ^ 12) := by
      calc k * u ≤ 1000 * u := by gcongr
        _ ≤ _ := by gcongr
    linarith
  have hX : |X| ≤ 1 := h.size
  have hpow : ∀ n : ℕ, |x ^ n - X ^ n| ≤ 2 ^ n * (k * u) := by
    intro n
    induction n with
    | zero => simpa using hku
    | succ n ih =>
      rw [show x ^ (n + 1) - X ^ (n + 1) = x ^ n * (x - X) + (x ^ n - X ^ n) * X by ring]
      have h1 := abs_add_le (x ^ n * (x - X)) ((x ^ n - X ^ n) * X)
      rw [abs_mul, abs_mul, abs_pow] at h1
      have h2 : |x| ^ n * |x - X| ≤ 2 ^ n * (k * u) :=
        mul_le_mul (pow_le_pow_left₀ (abs_nonneg _) hx2 n) h.err (abs_nonneg _) (by positivity)
      have h3 : |x ^ n - X ^ n| * |X| ≤ 2 ^ n * (k * u) * 1 :=
        mul_le_mul ih hX (abs_nonneg _) (by positivity)
      rw [pow_succ]
      linarith
  constructor
  · have h1 := S.pow x n
    have h2 := hpow n
    have h3 := abs_sub_le (pw x n) (x ^ n) (X ^ n)
    have h4 : 2 * u * |x ^ n| ≤ 2 * u * 2 ^ n := by
      rw [abs_pow]
      have := pow_le_pow_left₀ (abs_nonneg x) hx2 n
      gcongr
    linarith
  · rw [abs_pow]
    exact pow_le_one₀ (abs_nonneg _) hX

theorem pow_one' (h : Close u k 1 x X) (S : Setup M pw u) (hk : k ≤ 1000) :
    Close u (2 * (k + 2)) 1 (pw x 1) X := by
  simpa using h.pow S hk 1

/-- A literal times a power of a number of at most one. -/
theorem term (S : M.Accurate u) {c : ℝ} (hc : 0 ≤ c) (hy : Close u l 1 y Y) (hl : 0 ≤ l) :
    Close u (c * (3 + 2 * l)) c (M.fl (M.fl c * y)) (c * Y) := by
  have h := ((lit S hc).mul S hy hl).fl S
  refine h.mono S.nonneg ?_ (by linarith)
  have h1 : 0 ≤ c * l := mul_nonneg hc hl
  linarith

/-- The remainder of a division by 360, up to full turns. -/
theorem mod360 (h : Close u k B x X) (S : M.Accurate u) (hk : k ≤ 10 ^ 9) :
    ∃ n : ℤ, Close u (k + 361 + k / 10 ^ 12) 361 (Rounded.mod360 M x) (fmod X 360 + 360 * n) := by
  refine ⟨⌊X / 360⌋ - ⌊x / 360⌋, ?_⟩
  have h0 := S.nonneg
  have hs := S.small
  have e : fmod X 360 + 360 * ((⌊X / 360⌋ - ⌊x / 360⌋ : ℤ) : ℝ) = X - 360 * ⌊x / 360⌋ := by
    unfold fmod
    push_cast
    ring
  rw [e]
  have h1 : |fmod x 360 - (X - 360 * ⌊x / 360⌋)| ≤ k * u := by
    unfold fmod
    rw [show x - 360 * (⌊x / 360⌋ : ℝ) - (X - 360 * ⌊x / 360⌋) = x - X by ring]
    exact h.err
  have h2 : |fmod x 360| ≤ 360 := by
    unfold fmod
    have a := Int.floor_le (x / 360)
    have b := Int.lt_floor_add_one (x / 360)
    rw [le_div_iff₀ (by norm_num)] at a
    rw [div_lt_iff₀ (by norm_num)] at b
    rw [_root_.abs_le]
    constructor <;> linarith
  have h3 : |X - 360 * (⌊x / 360⌋ : ℝ)| ≤ 361 := by
    have t := abs_sub_abs_le_abs_sub (X - 360 * (⌊x / 360⌋ : ℝ)) (fmod x 360)
    rw [abs_sub_comm _ (fmod x 360)] at t
    have : k * u ≤ 10 ^ 9 * (1 / 10 ^ 12) := by
      calc k * u ≤ 10 ^ 9 * u := by gcongr
        _ ≤ _ := by gcongr
    linarith
  exact (Close.mk h1 h3).fl S

end Close

variable {M : Machine} {pw : ℝ → ℕ → ℝ} {u : ℝ}

/-! ### Conversion factors -/

theorem pi_180_bounds : 57.29577951308232 < 180 / Real.pi ∧
    180 / Real.pi < 57.29577951308232 + 1 / 10 ^ 15 := by
  have h1 := Real.pi_gt_d20
  have h2 := Real.pi_lt_d20
  constructor
  · rw [lt_div_iff₀ Real.pi_pos]
    linarith
  · rw [div_lt_iff₀ Real.pi_pos]
    linarith

theorem radScale_close (S : Setup M pw u) :
    Close u 67 57.3 (Rounded.radScale M) (180 / Real.pi) := by
  obtain ⟨h1, h2⟩ := pi_180_bounds
  have h3 := (Close.lit S.acc (c := 57.29577951308232) (by norm_num)).err
  have h4 := S.unit
  constructor
  · unfold Rounded.radScale
    have t := abs_sub_le (M.fl 57.29577951308232) 57.29577951308232 (180 / Real.pi)
    have t2 : |57.29577951308232 - 180 / Real.pi| ≤ 1 / 10 ^ 15 := by
      rw [abs_le]
      constructor <;> linarith
    have t3 : (1 : ℝ) / 10 ^ 15 ≤ 9.1 * (1 / 2 ^ 53) := by norm_num
    linarith
  · rw [abs_of_pos (by positivity)]
    linarith

/-- Reciprocals. -/
theorem Close.inv {k B m x X : ℝ} (h : Close u k B x X) (hm : 0 < m) (hx : m ≤ x)
    (hX : m ≤ X) : Close u (k / m ^ 2) (1 / m) (1 / x) (1 / X) := by
  have hx0 : 0 < x := hm.trans_le hx
  have hX0 : 0 < X := hm.trans_le hX
  have hk : 0 ≤ k * u := (abs_nonneg _).trans h.err
  constructor
  · rw [show 1 / x - 1 / X = (X - x) / (x * X) by field_simp, abs_div, abs_sub_comm,
      abs_of_pos (mul_pos hx0 hX0), div_mul_eq_mul_div]
    refine div_le_div₀ hk h.err (by positivity) ?_
    rw [sq]
    exact mul_le_mul hx hX hm.le hx0.le
  · rw [abs_of_pos (by positivity)]
    exact one_div_le_one_div_of_le hm hX

theorem radScale_ge (S : Setup M pw u) : 57 ≤ Rounded.radScale M := by
  have h1 := (abs_le.1 (radScale_close S).err).1
  have h2 := pi_180_bounds.1
  have := S.acc.small
  linarith

theorem degFactor_close (S : Setup M pw u) :
    Close u 0.0383 0.01755 (M.fl (1 / Rounded.radScale M)) (Real.pi / 180) := by
  have h := ((radScale_close S).inv (m := 57) (by norm_num) (radScale_ge S)
    (by have := pi_180_bounds.1; linarith)).fl S.acc
  rw [one_div_div] at h
  exact h.mono S.acc.nonneg (by norm_num) (by norm_num)

theorem degToRad_close (S : Setup M pw u) {k B x X : ℝ} (h : Close u k B x X) (hk : 0 ≤ k) :
    Close u (0.017551 * k + 0.056 * B) (0.01755 * B) (Rounded.degToRad M x) (rad X) := by
  have hB : 0 ≤ B := (abs_nonneg _).trans h.size
  have := (h.mul S.acc (degFactor_close S) (by norm_num)).fl S.acc
  refine this.mono S.acc.nonneg ?_ (by linarith)
  norm_num
  linarith

theorem arcsecScale_close (S : Setup M pw u) :
    Close u (1 / 3600) (1 / 3600) (Rounded.arcsecScale M) (1 / 3600) :=
  Close.lit S.acc (by norm_num)

theorem arcsecFactor_close (S : Setup M pw u) :
    Close u (1.6 / 10 ^ 5) (4.875 / 10 ^ 6) (M.fl (Rounded.arcsecScale M / Rounded.radScale M))
      (1 / 3600 * (Real.pi / 180)) := by
  have h := (((arcsecScale_close S).mul S.acc ((radScale_close S).inv (m := 57) (by norm_num)
    (radScale_ge S) (by have := pi_180_bounds.1; linarith)) (by norm_num))).fl S.acc
  rw [one_div_div, mul_one_div (Rounded.arcsecScale M)] at h
  exact h.mono S.acc.nonneg (by norm_num) (by norm_num)

theorem arcsecToRad_close (S : Setup M pw u) {k B x X : ℝ} (h : Close u k B x X) (hk : 0 ≤ k) :
    Close u ((5 * k + 21 * B) / 10 ^ 6) (4.875 / 10 ^ 6 * B) (Rounded.arcsecToRad M x)
      (arcsec X) := by
  have hB : 0 ≤ B := (abs_nonneg _).trans h.size
  have := (h.mul S.acc (arcsecFactor_close S) (by norm_num)).fl S.acc
  rw [show X * (1 / 3600 * (Real.pi / 180)) = arcsec X by unfold arcsec rad; ring] at this
  refine this.mono S.acc.nonneg ?_ (by linarith)
  norm_num
  linarith

theorem arcsecToDeg_close (S : Setup M pw u) {k B x X : ℝ} (h : Close u k B x X) (hk : 0 ≤ k) :
    Close u ((k + 3 * B) / 3500) (B / 3600) (Rounded.arcsecToDeg M x) (X / 3600) := by
  have hB : 0 ≤ B := (abs_nonneg _).trans h.size
  have := (h.mul S.acc (arcsecScale_close S) (by norm_num)).fl S.acc
  rw [mul_one_div X] at this
  refine this.mono S.acc.nonneg ?_ (by linarith)
  norm_num
  linarith

theorem degToArcsec_close (S : Setup M pw u) {k B x X : ℝ} (h : Close u k B x X) (hk : 0 ≤ k) :
    Close u (3602 * k + 10910 * B) (3601 * B) (Rounded.degToArcsec M x) (X * 3600) := by
  have hB : 0 ≤ B := (abs_nonneg _).trans h.size
  have hf : Close u 7300 3601 (M.fl (1 / Rounded.arcsecScale M)) 3600 := by
    have h1 := (abs_le.1 (arcsecScale_close S).err).1
    have hs := S.acc.small
    have := ((arcsecScale_close S).inv (m := 1 / 3601) (by norm_num)
      (by linarith) (by norm_num)).fl S.acc
    rw [one_div_one_div (3600 : ℝ)] at this
    exact this.mono S.acc.nonneg (by norm_num) (by norm_num)
  have := (h.mul S.acc hf (by norm_num)).fl S.acc
  refine this.mono S.acc.nonneg ?_ (by linarith)
  norm_num
  linarith

theorem radians_close (S : Setup M pw u) {k B x X : ℝ} (h : Close u k B x X) (hk : 0 ≤ k) :
    Close u (0.01755 * k + 0.056 * B) (0.01755 * B) (Rounded.radians M x) (rad X) := by
  have hB : 0 ≤ B := (abs_nonneg _).trans h.size
  have hpi := Real.pi_lt_d2
  have p : Close u 3.15 3.15 (M.fl Real.pi) Real.pi :=
    (Close.lit S.acc Real.pi_pos.le).mono S.acc.nonneg hpi.le hpi.le
  have hf := (p.div (c := 180) (by norm_num)).fl S.acc
  have := (h.mul S.acc hf (by norm_num)).fl S.acc
  refine this.mono S.acc.nonneg ?_ (by norm_num; linarith)
  norm_num
  linarith

/-! ### Times -/

section

variable {jd : ℝ}

theorem days_close (S : Setup M pw u) (hjd : |jd - 2451545| ≤ 36525) :
    Close u 36525 36525 (Rounded.days M jd) (jd - 2451545) :=
  ((Close.exact hjd).fl S.acc).mono S.acc.nonneg (by norm_num) le_rfl

theorem centuries_close (S : Setup M pw u) (hjd : |jd - 2451545| ≤ 36525) :
    Close u 2.1 1 (Rounded.centuries M jd) (centuries jd) :=
  (((days_close S hjd).div (c := 36525) (by norm_num)).fl S.acc).mono S.acc.nonneg (by norm_num)
    (by norm_num)

theorem era_close (S : Setup M pw u) (hjd : |jd - 2451545| ≤ 36525) :
    ∃ n : ℤ, Close u 5.28e7 361 (Rounded.earthRotationAngle M jd)
      (earthRotationAngle jd + 360 * n) := by
  have h := ((((Close.lit S.acc (c := 360.9856123035484) (by norm_num)).mul S.acc
    (days_close S hjd) (by norm_num)).fl S.acc).add
      (Close.lit S.acc (c := 280.46) (by norm_num))).fl S.acc
  obtain ⟨n, hn⟩ := h.mod360 S.acc (by norm_num)
  exact ⟨n, hn.mono S.acc.nonneg (by norm_num) le_rfl⟩

theorem node_close (S : Setup M pw u) (hjd : |jd - 2451545| ≤ 36525) :
    ∃ n : ℤ, Close u 45000 361 (Rounded.ascendingNode M pw jd) (ascendingNode jd + 360 * n) := by
  have t := centuries_close S hjd
  have a := ((((((Close.lit S.acc (c := 125.04452) (by norm_num)).sub
    (Close.term S.acc (c := 1934.136261) (by norm_num) (t.pow_one' S (by norm_num))
      (by norm_num))).fl S.acc).add
    (Close.term S.acc (c := 0.0020708) (by norm_num) (t.pow S (by norm_num) 2)
      (by norm_num))).fl S.acc).add
    (((t.pow S (by norm_num) 3).div (c := 450000) (by norm_num)).fl S.acc)).fl S.acc
  obtain ⟨n, hn⟩ := a.mod360 S.acc (by norm_num)
  exact ⟨n, hn.mono S.acc.nonneg (by norm_num) le_rfl⟩

theorem sunLongitude_close (S : Setup M pw u) (hjd : |jd - 2451545| ≤ 36525) :
    Close u 800000 36290 (Rounded.sunLongitude M pw jd) (sunLongitude jd) :=
  (((Close.lit S.acc (c := 280.46645) (by norm_num)).add (Close.term S.acc (c := 36000.76983)
    (by norm_num) ((centuries_close S hjd).pow_one' S (by norm_num))
      (by norm_num))).fl S.acc).mono S.acc.nonneg (by norm_num) (by norm_num)

theorem moonLongitude_close (S : Setup M pw u) (hjd : |jd - 2451545| ≤ 36525) :
    Close u 9900000 481490 (Rounded.moonLongitude M pw jd) (moonLongitude jd) :=
  (((Close.lit S.acc (c := 218.3165) (by norm_num)).add (Close.term S.acc (c := 481267.8813)
    (by norm_num) ((centuries_close S hjd).pow_one' S (by norm_num))
      (by norm_num))).fl S.acc).mono S.acc.nonneg (by norm_num) (by norm_num)

theorem zeta_close (S : Setup M pw u) (hjd : |jd - 2451545| ≤ 36525) :
    Close u 60000 2310 (Rounded.zetaPrecession M pw jd) (zetaPrecession jd) := by
  have t := centuries_close S hjd
  exact (((((((((((Close.lit S.acc (c := 2.59796176) (by norm_num)).add
    (Close.term S.acc (c := 2306.0809506) (by norm_num) (t.pow_one' S (by norm_num))
      (by norm_num))).fl S.acc).add
    (Close.term S.acc (c := 0.3019015) (by norm_num) (t.pow S (by norm_num) 2)
      (by norm_num))).fl S.acc).add
    (Close.term S.acc (c := 0.0179663) (by norm_num) (t.pow S (by norm_num) 3)
      (by norm_num))).fl S.acc).sub
    (Close.term S.acc (c := 0.0000327) (by norm_num) (t.pow S (by norm_num) 4)
      (by norm_num))).fl S.acc).sub
    (Close.term S.acc (c := 0.0000002) (by norm_num) (t.pow S (by norm_num) 5)
      (by norm_num))).fl S.acc).mono S.acc.nonneg (by norm_num) (by norm_num)

theorem theta_close (S : Setup M pw u) (hjd : |jd - 2451545| ≤ 36525) :
    Close u 60000 2310 (Rounded.thetaPrecession M pw jd) (thetaPrecession jd) := by
  have t := centuries_close S hjd
  exact (((((((((Close.term S.acc (c := 2004.1917476) (by norm_num) (t.pow_one' S (by norm_num))
      (by norm_num)).sub
    (Close.term S.acc (c := 0.4269353) (by norm_num) (t.pow S (by norm_num) 2)
      (by norm_num))).fl S.acc).sub
    (Close.term S.acc (c := 0.0418251) (by norm_num) (t.pow S (by norm_num) 3)
      (by norm_num))).fl S.acc).sub
    (Close.term S.acc (c := 0.0000601) (by norm_num) (t.pow S (by norm_num) 4)
      (by norm_num))).fl S.acc).sub
    (Close.term S.acc (c := 0.0000001) (by norm_num) (t.pow S (by norm_num) 5)
      (by norm_num))).fl S.acc).mono S.acc.nonneg (by norm_num) (by norm_num)

theorem z_close (S : Setup M pw u) (hjd : |jd - 2451545| ≤ 36525) :
    Close u 60000 2310 (Rounded.zPrecession M pw jd) (zPrecession jd) := by
  have t := centuries_close S hjd
  have := (((((((((((Close.lit S.acc (c := 2.5976176) (by norm_num)).neg.add
    (Close.term S.acc (c := 2306.0803226) (by norm_num) (t.pow_one' S (by norm_num))
      (by norm_num))).fl S.acc).add
    (Close.term S.acc (c := 1.0947790) (by norm_num) (t.pow S (by norm_num) 2)
      (by norm_num))).fl S.acc).add
    (Close.term S.acc (c := 0.0182273) (by norm_num) (t.pow S (by norm_num) 3)
      (by norm_num))).fl S.acc).add
    (Close.term S.acc (c := 0.0000470) (by norm_num) (t.pow S (by norm_num) 4)
      (by norm_num))).fl S.acc).sub
    (Close.term S.acc (c := 0.0000003) (by norm_num) (t.pow S (by norm_num) 5)
      (by norm_num))).fl S.acc).mono S.acc.nonneg (l := 60000) (C := 2310) (by norm_num) (by norm_num)
  exact this

theorem meanObliquity_close (S : Setup M pw u) (hjd : |jd - 2451545| ≤ 36525) :
    Close u 1800 26 (Rounded.meanObliquity M pw jd) (meanObliquity jd) := by
  have U : Close u 0.1 0.01 (M.fl (pw (Rounded.centuries M jd) 1 / 100)) (centuries jd / 100) :=
    ((((centuries_close S hjd).pow_one' S (by norm_num)).div (c := 100) (by norm_num)).fl
      S.acc).mono S.acc.nonneg (by norm_num) (by norm_num)
  have V : Close u 0.1 1 (M.fl (pw (Rounded.centuries M jd) 1 / 100)) (centuries jd / 100) :=
    U.mono S.acc.nonneg le_rfl (by norm_num)
  have T : ∀ (c : ℝ) (n : ℕ), 0 ≤ c → Close u (c * (3 + 2 * (2 ^ n * (0.1 + 2)))) c
      (M.fl (M.fl c * pw (M.fl (pw (Rounded.centuries M jd) 1 / 100)) n))
      (c * (centuries jd / 100) ^ n) := fun c n hc =>
    Close.term S.acc hc (V.pow S (by norm_num) n) (by positivity)
  have s := ((((((((((((((((((((Close.lit S.acc (c := 84381.448) (by norm_num)).sub
    (Close.term S.acc (c := 4680.93) (by norm_num) V (by norm_num))).fl S.acc).sub
    (T 1.55 2 (by norm_num))).fl S.acc).add (T 1999.25 3 (by norm_num))).fl S.acc).sub
    (T 51.38 4 (by norm_num))).fl S.acc).sub (T 249.67 5 (by norm_num))).fl S.acc).sub
    (T 39.05 6 (by norm_num))).fl S.acc).add (T 7.12 7 (by norm_num))).fl S.acc).add
    (T 27.87 8 (by norm_num))).fl S.acc).add (T 5.79 9 (by norm_num))).fl S.acc).add
    (T 2.45 10 (by norm_num))).fl S.acc
  exact ((s.div (c := 3600) (by norm_num)).fl S.acc).mono S.acc.nonneg (by norm_num) (by norm_num)

theorem epsA_close (S : Setup M pw u) (hjd : |jd - 2451545| ≤ 36525) :
    Close u 7500000 94000 (Rounded.epsA M pw jd) (epsA jd) := by
  have t := centuries_close S hjd
  exact (((((((degToArcsec_close S (meanObliquity_close S hjd) (by norm_num)).sub
    (Close.term S.acc (c := 46.84024) (by norm_num) (t.pow_one' S (by norm_num))
      (by norm_num))).fl S.acc).sub
    (Close.term S.acc (c := 0.00059) (by norm_num) (t.pow S (by norm_num) 2)
      (by norm_num))).fl S.acc).add
    (Close.term S.acc (c := 0.001813) (by norm_num) (t.pow S (by norm_num) 3)
      (by norm_num))).fl S.acc).mono S.acc.nonneg (by norm_num) (by norm_num)

theorem Close.double {k B x X : ℝ} (h : Close u k B x X) : Close u (2 * k) (2 * B) (2 * x) (2 * X) := by
  rw [two_mul, two_mul, two_mul x, two_mul X]
  exact h.add h

/-- The angles of the trigonometric functions of the nutation. -/
theorem nodeRad_close (S : Setup M pw u) (hjd : |jd - 2451545| ≤ 36525) :
    ∃ n : ℤ, Close u 811 7 (Rounded.degToRad M (Rounded.ascendingNode M pw jd))
      (rad (ascendingNode jd) + n * (2 * Real.pi)) := by
  obtain ⟨n, hn⟩ := node_close S hjd
  refine ⟨n, ?_⟩
  have := degToRad_close S hn (by norm_num)
  rw [show rad (ascendingNode jd + 360 * n) = rad (ascendingNode jd) + n * (2 * Real.pi) by
    unfold rad; ring] at this
  exact this.mono S.acc.nonneg (by norm_num) (by norm_num)

theorem sunRad_close (S : Setup M pw u) (hjd : |jd - 2451545| ≤ 36525) :
    Close u 16100 640 (Rounded.degToRad M (Rounded.sunLongitude M pw jd))
      (rad (sunLongitude jd)) :=
  (degToRad_close S (sunLongitude_close S hjd) (by norm_num)).mono S.acc.nonneg (by norm_num)
    (by norm_num)

theorem moonRad_close (S : Setup M pw u) (hjd : |jd - 2451545| ≤ 36525) :
    Close u 201000 8500 (Rounded.degToRad M (Rounded.moonLongitude M pw jd))
      (rad (moonLongitude jd)) :=
  (degToRad_close S (moonLongitude_close S hjd) (by norm_num)).mono S.acc.nonneg (by norm_num)
    (by norm_num)

theorem nutationInLongitude_close (S : Setup M pw u) (hjd : |jd - 2451545| ≤ 36525) :
    Close u 160000 20 (Rounded.nutationInLongitude M (Rounded.ascendingNode M pw jd)
      (Rounded.sunLongitude M pw jd) (Rounded.moonLongitude M pw jd))
      (nutationComponents jd).1 := by
  obtain ⟨n, N⟩ := nodeRad_close S hjd
  have s1 := N.sin S.acc
  have s4 := N.double.sin S.acc
  rw [Real.sin_add_int_mul_two_pi] at s1
  rw [show 2 * (rad (ascendingNode jd) + n * (2 * Real.pi)) =
    2 * rad (ascendingNode jd) + ((2 * n : ℤ) : ℝ) * (2 * Real.pi) by push_cast; ring,
    Real.sin_add_int_mul_two_pi] at s4
  have s2 := (sunRad_close S hjd).double.sin S.acc
  have s3 := (moonRad_close S hjd).double.sin S.acc
  have p1 := ((Close.lit S.acc (c := 17.20) (by norm_num)).neg.mul S.acc s1 (by norm_num)).fl S.acc
  have p2 := ((Close.lit S.acc (c := 1.32) (by norm_num)).neg.mul S.acc s2 (by norm_num)).fl S.acc
  have p3 := ((Close.lit S.acc (c := 0.23) (by norm_num)).neg.mul S.acc s3 (by norm_num)).fl S.acc
  have p4 := ((Close.lit S.acc (c := 0.21) (by norm_num)).mul S.acc s4 (by norm_num)).fl S.acc
  have := ((((p1.add p2).fl S.acc).add p3).fl S.acc |>.add p4).fl S.acc
  exact this.mono S.acc.nonneg (by norm_num) (by norm_num)

theorem nutationInObliquity_close (S : Setup M pw u) (hjd : |jd - 2451545| ≤ 36525) :
    Close u 160000 20 (Rounded.nutationInObliquity M (Rounded.ascendingNode M pw jd)
      (Rounded.sunLongitude M pw jd) (Rounded.moonLongitude M pw jd))
      (nutationComponents jd).2 := by
  obtain ⟨n, N⟩ := nodeRad_close S hjd
  have s1 := N.cos S.acc
  have s4 := N.double.cos S.acc
  rw [Real.cos_add_int_mul_two_pi] at s1
  rw [show 2 * (rad (ascendingNode jd) + n * (2 * Real.pi)) =
    2 * rad (ascendingNode jd) + ((2 * n : ℤ) : ℝ) * (2 * Real.pi) by push_cast; ring,
    Real.cos_add_int_mul_two_pi] at s4
  have s2 := (sunRad_close S hjd).double.cos S.acc
  have s3 := (moonRad_close S hjd).double.cos S.acc
  have p1 := ((Close.lit S.acc (c := 9.20) (by norm_num)).mul S.acc s1 (by norm_num)).fl S.acc
  have p2 := ((Close.lit S.acc (c := 0.57) (by norm_num)).mul S.acc s2 (by norm_num)).fl S.acc
  have p3 := ((Close.lit S.acc (c := 0.10) (by norm_num)).mul S.acc s3 (by norm_num)).fl S.acc
  have p4 := ((Close.lit S.acc (c := 0.09) (by norm_num)).neg.mul S.acc s4 (by norm_num)).fl S.acc
  have := ((((p1.add p2).fl S.acc).add p3).fl S.acc |>.add p4).fl S.acc
  exact this.mono S.acc.nonneg (by norm_num) (by norm_num)

/-! ### The ten angles -/

theorem bias_close (S : Setup M pw u) {c : ℝ} (hc : 0 ≤ c) (hc1 : c ≤ 0.02) :
    Close u 0.001 1 (Rounded.radians M (M.fl (M.fl c / 3600))) (arcsec c) ∧
    Close u 0.001 1 (Rounded.radians M (M.fl (-M.fl c / 3600))) (arcsec (-c)) := by
  have h : Close u 0.02 0.02 (M.fl c) c := (Close.lit S.acc hc).mono S.acc.nonneg hc1 hc1
  exact ⟨(radians_close S ((h.div (c := 3600) (by norm_num)).fl S.acc) (by norm_num)).mono
      S.acc.nonneg (by norm_num) (by norm_num),
    (radians_close S ((h.neg.div (c := 3600) (by norm_num)).fl S.acc) (by norm_num)).mono
      S.acc.nonneg (by norm_num) (by norm_num)⟩

theorem precession_close (S : Setup M pw u) {x X : ℝ} (h : Close u 60000 2310 x X) :
    Close u 0.4 1 (Rounded.arcsecToRad M x) (arcsec X) :=
  (arcsecToRad_close S h (by norm_num)).mono S.acc.nonneg (by norm_num) (by norm_num)

theorem epsDeg_close (S : Setup M pw u) (hjd : |jd - 2451545| ≤ 36525) :
    Close u 2200 27 (M.fl (Rounded.epsA M pw jd / 3600)) (epsA jd / 3600) :=
  (((epsA_close S hjd).div (c := 3600) (by norm_num)).fl S.acc).mono S.acc.nonneg (by norm_num)
    (by norm_num)

theorem eraRad_close (S : Setup M pw u) (hjd : |jd - 2451545| ≤ 36525) :
    ∃ n : ℤ, Close u 926800 7 (Rounded.degToRad M (Rounded.earthRotationAngle M jd))
      (rad (earthRotationAngle jd) + n * (2 * Real.pi)) := by
  obtain ⟨n, hn⟩ := era_close S hjd
  refine ⟨n, ?_⟩
  have := degToRad_close S hn (by norm_num)
  rw [show rad (earthRotationAngle jd + 360 * n) =
    rad (earthRotationAngle jd) + n * (2 * Real.pi) by unfold rad; ring] at this
  exact this.mono S.acc.nonneg (by norm_num) (by norm_num)

/-- Full turns of the Earth do not matter. -/
theorem R3_turns (a : ℝ) (n : ℤ) : R3 (a + n * (2 * Real.pi)) = R3 a := by
  unfold R3
  rw [Real.sin_add_int_mul_two_pi, Real.cos_add_int_mul_two_pi]

/-- All angles together: the rotation with the computed angles is the exact rotation but for
`926950 u`. -/
theorem angles_follow (S : Setup M pw u) (hjd : |jd - 2451545| ≤ 36525) :
    Follows (926950 * u) (fun v => (Rounded.angles M pw jd).rotation.mulVec v)
      (exactAngles jd).rotation := by
  obtain ⟨n, hn⟩ := eraRad_close S hjd
  set G : Rounded.Angles := { exactAngles jd with
    era := rad (earthRotationAngle jd) + n * (2 * Real.pi) } with hG
  have e : G.rotation = (exactAngles jd).rotation := by
    unfold Rounded.Angles.rotation
    rw [hG]
    simp only [R3_turns]
    rfl
  rw [← e]
  refine (rotation_follows (Rounded.angles M pw jd) G).mono ?_
  have b1 := (bias_close S (c := 0.01460) (by norm_num) (by norm_num)).2.err
  have b2 := (bias_close S (c := 0.0166170) (by norm_num) (by norm_num)).2.err
  have b3 := (bias_close S (c := 0.0068192) (by norm_num) (by norm_num)).1.err
  rw [show (0.0068192 : ℝ) = -(-0.0068192) by norm_num] at b3
  have p1 := (precession_close S (zeta_close S hjd)).err
  have p2 := (precession_close S (theta_close S hjd)).err
  have p3 := (precession_close S (z_close S hjd)).neg.err
  have n1 := (radians_close S (epsDeg_close S hjd) (by norm_num)).err
  have n2 := (arcsecToRad_close S (nutationInLongitude_close S hjd) (by norm_num)).neg.err
  have n3 := (radians_close S (((epsDeg_close S hjd).add (arcsecToDeg_close S
    (nutationInObliquity_close S hjd) (by norm_num))).fl S.acc) (by norm_num)).neg.err
  have e1 := hn.err
  have hu := S.acc.nonneg
  have key : (Rounded.angles M pw jd).gap G =
    (|Rounded.radians M (M.fl (-M.fl 0.01460 / 3600)) - arcsec (-0.01460)| +
      |Rounded.radians M (M.fl (-M.fl 0.0166170 / 3600)) - arcsec (-0.0166170)| +
      |Rounded.radians M (M.fl (M.fl 0.0068192 / 3600)) - arcsec (-(-0.0068192))|) +
    (|Rounded.arcsecToRad M (Rounded.zetaPrecession M pw jd) - arcsec (zetaPrecession jd)| +
      |Rounded.arcsecToRad M (Rounded.thetaPrecession M pw jd) - arcsec (thetaPrecession jd)| +
      |-Rounded.arcsecToRad M (Rounded.zPrecession M pw jd) - -arcsec (zPrecession jd)|) +
    (|Rounded.radians M (M.fl (Rounded.epsA M pw jd / 3600)) - rad (epsA jd / 3600)| +
      |-Rounded.arcsecToRad M (Rounded.nutationInLongitude M (Rounded.ascendingNode M pw jd)
        (Rounded.sunLongitude M pw jd) (Rounded.moonLongitude M pw jd)) -
        -arcsec (nutationComponents jd).1| +
      |-Rounded.radians M (M.fl (M.fl (Rounded.epsA M pw jd / 3600) + Rounded.arcsecToDeg M
        (Rounded.nutationInObliquity M (Rounded.ascendingNode M pw jd)
        (Rounded.sunLongitude M pw jd) (Rounded.moonLongitude M pw jd)))) -
        -rad (epsA jd / 3600 + (nutationComponents jd).2 / 3600)|) +
    |Rounded.degToRad M (Rounded.earthRotationAngle M jd) -
      (rad (earthRotationAngle jd) + n * (2 * Real.pi))| := rfl
  rw [key]
  norm_num at b1 b2 b3 p1 p2 p3 n1 n2 n3 e1 ⊢
  linarith

end

end Celest.Frames
