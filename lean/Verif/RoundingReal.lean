/-
Rounding of real numbers to binary floats: the numbers `Verif/Rounding.lean` rounds, and square
roots.
-/
import Mathlib.Data.Real.Basic
import Mathlib.Data.Int.Log
import Mathlib.Data.Real.Archimedean
import Mathlib.Algebra.Order.Floor.Ring
import Mathlib.Data.Rat.Floor
import Verif.Rounding

namespace Celest

/-- The nearest integer, ties to even. -/
noncomputable def nearestEvenReal (x : ℝ) : ℤ :=
  if x - ⌊x⌋ < 1 / 2 then ⌊x⌋
  else if 1 / 2 < x - ⌊x⌋ then ⌊x⌋ + 1
  else if ⌊x⌋ % 2 = 0 then ⌊x⌋ else ⌊x⌋ + 1

/-- `x` rounded to the nearest number with a `p`-bit significand, ties to even. -/
noncomputable def roundReal (p : ℕ) (x : ℝ) : ℝ :=
  nearestEvenReal (x / 2 ^ (Int.log 2 |x| + 1 - p)) * 2 ^ (Int.log 2 |x| + 1 - p)

theorem nearestEvenReal_error (x : ℝ) : |(nearestEvenReal x : ℝ) - x| ≤ 1 / 2 := by
  have h1 := Int.floor_le x
  have h2 := Int.lt_floor_add_one x
  unfold nearestEvenReal
  split_ifs <;> push_cast <;> rw [abs_le] <;> constructor <;> linarith

theorem nearestEvenReal_eq (x : ℝ) (n : ℤ) (h : |x - n| < 1 / 2) : nearestEvenReal x = n := by
  have h1 := nearestEvenReal_error x
  have h2 : |((nearestEvenReal x - n : ℤ) : ℝ)| < 1 := by
    push_cast
    calc |(nearestEvenReal x : ℝ) - n| = |((nearestEvenReal x : ℝ) - x) + (x - n)| := by ring_nf
      _ ≤ |(nearestEvenReal x : ℝ) - x| + |x - n| := abs_add_le _ _
      _ < 1 := by linarith
  have h3 : |nearestEvenReal x - n| < 1 := by exact_mod_cast h2
  have := Int.abs_lt_one_iff.1 h3
  omega

theorem roundReal_zero (p : ℕ) : roundReal p 0 = 0 := by
  have : nearestEvenReal 0 = 0 := nearestEvenReal_eq 0 0 (by norm_num)
  simp [roundReal, this]

theorem roundReal_error {p : ℕ} (x : ℝ) : |roundReal p x - x| ≤ 1 / 2 ^ p * |x| := by
  rcases eq_or_ne x 0 with rfl | hx
  · simp [roundReal_zero]
  have hpos : 0 < |x| := abs_pos.2 hx
  unfold roundReal
  set e := Int.log 2 |x| with he
  set g : ℝ := 2 ^ (e + 1 - (p : ℤ)) with hg
  have hg0 : 0 < g := zpow_pos (by norm_num) _
  have h1 := nearestEvenReal_error (x / g)
  have h2 : (nearestEvenReal (x / g) : ℝ) * g - x = ((nearestEvenReal (x / g) : ℝ) - x / g) * g := by
    field_simp
  rw [h2, abs_mul, abs_of_pos hg0]
  have hle : (2 : ℝ) ^ e ≤ |x| := Int.zpow_log_le_self (by norm_num) hpos
  have hge : g = 2 ^ e * (2 / 2 ^ p) := by
    rw [hg, zpow_sub₀ (by norm_num), zpow_add₀ (by norm_num), zpow_one, zpow_natCast]
    ring
  calc |(nearestEvenReal (x / g) : ℝ) - x / g| * g ≤ 1 / 2 * g := by gcongr
    _ = 1 / 2 ^ p * 2 ^ e := by rw [hge]; ring
    _ ≤ 1 / 2 ^ p * |x| := by gcongr

/-- The value of the rounding, from the exponent and the nearest multiple. -/
theorem roundReal_eq {p : ℕ} (x : ℝ) (e n : ℤ) (h0 : (2 : ℝ) ^ e ≤ x) (h1 : x < 2 ^ (e + 1))
    (h : |x - n * 2 ^ (e + 1 - (p : ℤ))| < 2 ^ (e + 1 - (p : ℤ)) / 2) :
    roundReal p x = n * 2 ^ (e + 1 - (p : ℤ)) := by
  have hx : 0 < x := lt_of_lt_of_le (zpow_pos (by norm_num) _) h0
  have hl : Int.log 2 |x| = e := by
    rw [abs_of_pos hx]
    have a := (Int.zpow_le_iff_le_log (b := 2) (x := e) (r := x) (by norm_num) hx).1 (by simpa using h0)
    have b := (Int.lt_zpow_iff_log_lt (b := 2) (x := e + 1) (r := x) (by norm_num) hx).1
      (by simpa using h1)
    omega
  unfold roundReal
  rw [hl]
  congr 2
  apply nearestEvenReal_eq
  have hg : (0 : ℝ) < 2 ^ (e + 1 - (p : ℤ)) := zpow_pos (by norm_num) _
  have e1 : x / 2 ^ (e + 1 - (p : ℤ)) - n =
      (x - n * 2 ^ (e + 1 - (p : ℤ))) / 2 ^ (e + 1 - (p : ℤ)) := by field_simp
  rw [e1, abs_div, abs_of_pos hg, div_lt_iff₀ hg]
  linarith

theorem log_cast (q : ℚ) : Int.log 2 (q : ℝ) = Int.log 2 q := by
  rcases le_or_gt q 0 with h | h
  · rw [Int.log_of_right_le_zero _ h, Int.log_of_right_le_zero _ (by exact_mod_cast h)]
  have h' : (0 : ℝ) < q := by exact_mod_cast h
  apply le_antisymm
  · rw [← Int.zpow_le_iff_le_log (by norm_num) h]
    have := (Int.zpow_le_iff_le_log (b := 2) (r := (q : ℝ)) (by norm_num) h').2 le_rfl
    have e : (((2 : ℕ) : ℚ) ^ Int.log 2 (q : ℝ) : ℚ) ≤ q := by
      rw [← Rat.cast_le (K := ℝ)]
      push_cast
      simpa using this
    exact e
  · rw [← Int.zpow_le_iff_le_log (by norm_num) h']
    have := (Int.zpow_le_iff_le_log (b := 2) (r := q) (by norm_num) h).2 le_rfl
    rw [← Rat.cast_le (K := ℝ)] at this
    push_cast at this
    simpa using this

theorem nearestEvenReal_cast (q : ℚ) : nearestEvenReal (q : ℝ) = nearestEven q := by
  unfold nearestEvenReal nearestEven
  rw [Rat.floor_cast]
  have e : (q : ℝ) - (⌊q⌋ : ℤ) = ((q - ⌊q⌋ : ℚ) : ℝ) := by push_cast; ring
  have a : ((q : ℝ) - (⌊q⌋ : ℤ) < 1 / 2) ↔ q - ⌊q⌋ < 1 / 2 := by
    rw [e, show (1 / 2 : ℝ) = ((1 / 2 : ℚ) : ℝ) by norm_num, Rat.cast_lt]
  have b : ((1 / 2 : ℝ) < (q : ℝ) - (⌊q⌋ : ℤ)) ↔ 1 / 2 < q - ⌊q⌋ := by
    rw [e, show (1 / 2 : ℝ) = ((1 / 2 : ℚ) : ℝ) by norm_num, Rat.cast_lt]
  simp only [a, b]

/-- On rational numbers this is the rounding of `Verif/Rounding.lean`. -/
theorem roundReal_cast (p : ℕ) (q : ℚ) : roundReal p (q : ℝ) = (binaryRound p q : ℚ) := by
  unfold roundReal binaryRound
  have e : |(q : ℝ)| = ((|q| : ℚ) : ℝ) := by rw [Rat.cast_abs]
  rw [e, log_cast]
  have g : (q : ℝ) / 2 ^ (Int.log 2 |q| + 1 - (p : ℤ)) =
      ((q / 2 ^ (Int.log 2 |q| + 1 - (p : ℤ)) : ℚ) : ℝ) := by push_cast; rfl
  rw [g, nearestEvenReal_cast]
  push_cast
  rfl

end Celest
