/-
Floating-point rounding.

Python floats are IEEE 754 binary64 numbers: the result of `+`, `-`, `*` and `/` is the exact
result rounded to the nearest number with a 53-bit significand, ties to even.  `binaryRound 53`
below is that rounding (`binaryRound_nearest`, `binaryRound_even`), with the exponent unbounded (no
overflow, no subnormal numbers).  The theorems about rounded programs only use the two facts in
`Rounding`.
-/
import Mathlib.Algebra.Order.Ring.Pow
import Mathlib.Data.Int.Log
import Mathlib.Data.Rat.Floor
import Mathlib.Tactic.Linarith
import Mathlib.Tactic.Positivity
import Mathlib.Tactic.FieldSimp
import Mathlib.Tactic.Ring
import Verif.Tactic

namespace Celest

/-- `fl` is a rounding function with relative error at most `ε`. -/
structure Rounding (fl : ℚ → ℚ) (ε : ℚ) : Prop where
  mono : Monotone fl
  error : ∀ x, |fl x - x| ≤ ε * |x|
  small : ε ≤ 1 / 1000

/-- `x` is stored without rounding. -/
def IsFloat (fl : ℚ → ℚ) (x : ℚ) : Prop := fl x = x

instance (fl : ℚ → ℚ) (x : ℚ) : Decidable (IsFloat fl x) := inferInstanceAs (Decidable (fl x = x))

namespace Rounding

variable {fl : ℚ → ℚ} {ε : ℚ}

theorem nonneg (h : Rounding fl ε) : 0 ≤ ε := by
  have := (abs_nonneg _).trans (h.error 1)
  simpa using this

theorem lt_one (h : Rounding fl ε) : ε < 1 := by
  have := h.small
  linarith

theorem zero (h : Rounding fl ε) : fl 0 = 0 := by
  have := h.error 0
  simpa using this

theorem fl_nonneg (h : Rounding fl ε) {x : ℚ} (hx : 0 ≤ x) : 0 ≤ fl x := by
  have := h.mono hx
  rwa [h.zero] at this

theorem lt_of_fl_lt (h : Rounding fl ε) {x y : ℚ} (hy : IsFloat fl y) (hxy : fl x < y) : x < y := by
  by_contra hc
  have := h.mono (not_lt.1 hc)
  rw [hy] at this
  linarith

theorem le_fl (h : Rounding fl ε) {x : ℚ} : x ≤ fl x + ε * |x| := by
  have := abs_le.1 (h.error x)
  linarith [this.1]

theorem fl_le (h : Rounding fl ε) {x : ℚ} : fl x ≤ x + ε * |x| := by
  have := abs_le.1 (h.error x)
  linarith [this.2]

theorem exact : Rounding (fun x => x) 0 :=
  ⟨fun _ _ h => h, fun x => by simp, by norm_num⟩

end Rounding

/-! ### round to nearest, ties to even -/

/-- The integer nearest to `q`, ties to the even one. -/
def nearestEven (q : ℚ) : ℤ :=
  if q - ⌊q⌋ < 1 / 2 then ⌊q⌋
  else if 1 / 2 < q - ⌊q⌋ then ⌊q⌋ + 1
  else if ⌊q⌋ % 2 = 0 then ⌊q⌋ else ⌊q⌋ + 1

theorem nearestEven_bounds (q : ℚ) : ⌊q⌋ ≤ nearestEven q ∧ nearestEven q ≤ ⌊q⌋ + 1 := by
  unfold nearestEven
  split_ifs <;> constructor <;> omega

theorem nearestEven_error (q : ℚ) : |(nearestEven q : ℚ) - q| ≤ 1 / 2 := by
  have h1 := Int.floor_le q
  have h2 := Int.lt_floor_add_one q
  unfold nearestEven
  rw [abs_le]
  split_ifs <;> push_cast <;> constructor <;> linarith

theorem nearestEven_mono : Monotone nearestEven := by
  intro a b hab
  rcases (Int.floor_mono hab).eq_or_lt with h | h
  · unfold nearestEven
    rw [h]
    split_ifs <;> first | omega | (exfalso; linarith)
  · have := (nearestEven_bounds a).2
    have := (nearestEven_bounds b).1
    omega

theorem nearestEven_int (n : ℤ) : nearestEven n = n := by
  unfold nearestEven; simp

/-- `x` rounded to the nearest number with a `p`-bit significand, ties to even. -/
def binaryRound (p : ℕ) (x : ℚ) : ℚ :=
  nearestEven (x / 2 ^ (Int.log 2 |x| + 1 - p)) * 2 ^ (Int.log 2 |x| + 1 - p)

theorem binaryRound_error {p : ℕ} (x : ℚ) :
    |binaryRound p x - x| ≤ 1 / 2 ^ p * |x| := by
  rcases eq_or_ne x 0 with rfl | hx
  · have : nearestEven 0 = 0 := by exact_mod_cast nearestEven_int 0
    simp [binaryRound, this]
  unfold binaryRound
  set e := Int.log 2 |x| with he
  have hg : (0 : ℚ) < 2 ^ (e + 1 - p) := zpow_pos (by norm_num) _
  have hxp : 0 < |x| := abs_pos.2 hx
  have hlog : (2 : ℚ) ^ e ≤ |x| := by
    have := Int.zpow_log_le_self (b := 2) (by norm_num) hxp
    simpa using this
  have h1 : (nearestEven (x / 2 ^ (e + 1 - p)) : ℚ) * 2 ^ (e + 1 - p) - x =
      ((nearestEven (x / 2 ^ (e + 1 - p)) : ℚ) - x / 2 ^ (e + 1 - p)) * 2 ^ (e + 1 - (p : ℤ)) := by
    field_simp
  rw [h1, abs_mul, abs_of_pos hg]
  have h2 := nearestEven_error (x / 2 ^ (e + 1 - p))
  have h3 : (2 : ℚ) ^ (e + 1 - (p : ℤ)) = 2 ^ e * 2 / 2 ^ p := by
    rw [zpow_sub₀ (by norm_num), zpow_add₀ (by norm_num)]; simp
  calc _ ≤ 1 / 2 * 2 ^ (e + 1 - (p : ℤ)) := mul_le_mul_of_nonneg_right h2 hg.le
    _ = 1 / 2 ^ p * 2 ^ e := by rw [h3]; ring
    _ ≤ _ := mul_le_mul_of_nonneg_left hlog (by positivity)

/-- Between consecutive powers of two the rounded value stays between them. -/
theorem binaryRound_pos {p : ℕ} (hp : 1 ≤ p) {x : ℚ} (hx : 0 < x) :
    2 ^ Int.log 2 |x| ≤ binaryRound p x ∧ binaryRound p x ≤ 2 ^ (Int.log 2 |x| + 1) := by
  unfold binaryRound
  set e := Int.log 2 |x| with he
  have hg : (0 : ℚ) < 2 ^ (e + 1 - p) := zpow_pos (by norm_num) _
  have hl : (2 : ℚ) ^ e ≤ x := by
    have := Int.zpow_log_le_self (b := 2) (by norm_num) (abs_pos.2 hx.ne')
    rw [abs_of_pos hx] at this
    simpa [he, abs_of_pos hx] using this
  have hu : x < (2 : ℚ) ^ (e + 1) := by
    have := Int.lt_zpow_succ_log_self (b := 2) (by norm_num) x
    simpa [he, abs_of_pos hx] using this
  have e1 : (2 : ℚ) ^ e = ((2 ^ (p - 1) : ℤ) : ℚ) * 2 ^ (e + 1 - (p : ℤ)) := by
    push_cast
    rw [← zpow_natCast, ← zpow_add₀ (by norm_num)]
    congr 1; push_cast [Nat.cast_sub hp]; ring
  have e2 : (2 : ℚ) ^ (e + 1) = ((2 ^ p : ℤ) : ℚ) * 2 ^ (e + 1 - (p : ℤ)) := by
    push_cast
    rw [← zpow_natCast, ← zpow_add₀ (by norm_num)]
    congr 1; ring
  constructor
  · rw [e1]
    refine mul_le_mul_of_nonneg_right ?_ hg.le
    have : ((2 ^ (p - 1) : ℤ) : ℚ) ≤ x / 2 ^ (e + 1 - (p : ℤ)) := by
      rw [le_div_iff₀ hg, ← e1]; exact hl
    have := nearestEven_mono this
    rw [nearestEven_int] at this
    exact_mod_cast this
  · rw [e2]
    refine mul_le_mul_of_nonneg_right ?_ hg.le
    have : x / 2 ^ (e + 1 - (p : ℤ)) ≤ ((2 ^ p : ℤ) : ℚ) := by
      rw [div_le_iff₀ hg, ← e2]; exact hu.le
    have := nearestEven_mono this
    rw [nearestEven_int] at this
    exact_mod_cast this

theorem nearestEven_neg (q : ℚ) : nearestEven (-q) = -nearestEven q := by
  by_cases hi : (⌊q⌋ : ℚ) = q
  · rw [← hi]
    have := nearestEven_int (-⌊q⌋)
    push_cast at this
    rw [this, nearestEven_int]
  · have hlt : (⌊q⌋ : ℚ) < q := lt_of_le_of_ne (Int.floor_le q) hi
    have h2 := Int.lt_floor_add_one q
    have hf : ⌊-q⌋ = -⌊q⌋ - 1 := by
      rw [Int.floor_eq_iff]; push_cast; constructor <;> linarith
    unfold nearestEven
    rw [hf]
    push_cast
    split_ifs <;> first | omega | (exfalso; linarith)

theorem binaryRound_neg (p : ℕ) (x : ℚ) : binaryRound p (-x) = -binaryRound p x := by
  unfold binaryRound
  rw [abs_neg, neg_div, nearestEven_neg]
  push_cast; ring

theorem binaryRound_mono_pos {p : ℕ} (hp : 1 ≤ p) {x y : ℚ} (hx : 0 < x) (hxy : x ≤ y) :
    binaryRound p x ≤ binaryRound p y := by
  have hy : 0 < y := hx.trans_le hxy
  have hl : Int.log 2 |x| ≤ Int.log 2 |y| := by
    rw [abs_of_pos hx, abs_of_pos hy]
    exact Int.log_mono_right hx hxy
  rcases hl.eq_or_lt with h | h
  · unfold binaryRound
    rw [h]
    have hg : (0 : ℚ) < 2 ^ (Int.log 2 |y| + 1 - p) := zpow_pos (by norm_num) _
    refine mul_le_mul_of_nonneg_right ?_ hg.le
    exact_mod_cast nearestEven_mono (div_le_div_of_nonneg_right hxy hg.le)
  · refine (binaryRound_pos hp hx).2.trans (le_trans ?_ (binaryRound_pos hp hy).1)
    exact zpow_le_zpow_right₀ (by norm_num) (by omega)

theorem binaryRound_zero (p : ℕ) : binaryRound p 0 = 0 := by
  have : nearestEven 0 = 0 := by exact_mod_cast nearestEven_int 0
  simp [binaryRound, this]

theorem binaryRound_nonneg {p : ℕ} (hp : 1 ≤ p) {x : ℚ} (hx : 0 ≤ x) : 0 ≤ binaryRound p x := by
  rcases hx.eq_or_lt with rfl | hx
  · rw [binaryRound_zero]
  · exact le_trans (zpow_pos (by norm_num) _).le (binaryRound_pos hp hx).1

theorem binaryRound_mono {p : ℕ} (hp : 1 ≤ p) : Monotone (binaryRound p) := by
  intro x y hxy
  rcases lt_trichotomy 0 x with hx | rfl | hx
  · exact binaryRound_mono_pos hp hx hxy
  · rw [binaryRound_zero]; exact binaryRound_nonneg hp hxy
  · have hx' : binaryRound p x = -binaryRound p (-x) := by rw [binaryRound_neg, neg_neg]
    rcases lt_or_ge y 0 with hy | hy
    · have hy' : binaryRound p y = -binaryRound p (-y) := by rw [binaryRound_neg, neg_neg]
      rw [hx', hy', neg_le_neg_iff]
      exact binaryRound_mono_pos hp (by linarith) (by linarith)
    · have h1 := binaryRound_nonneg hp (x := -x) (by linarith)
      have h2 := binaryRound_nonneg hp hy
      linarith

/-- Python's float arithmetic (round to nearest even, 53 bits, exponent unbounded) is a rounding
with relative error at most `2⁻⁵³`. -/
theorem rounding_binary64 : Rounding (binaryRound 53) (1 / 2 ^ 53) :=
  ⟨binaryRound_mono (by norm_num), binaryRound_error, by norm_num⟩

/-- An integer of at most 53 bits is a float; so is a multiple of a power of two. -/
example : IsFloat (binaryRound 53) 9005 ∧ IsFloat (binaryRound 53) (1 / 1024) ∧
    ¬ IsFloat (binaryRound 53) (1 / 10) ∧
    binaryRound 53 (1 / 10) = 3602879701896397 / 36028797018963968 := by
  decide +kernel

theorem nearestEven_nearest (q : ℚ) (n : ℤ) : |(nearestEven q : ℚ) - q| ≤ |(n : ℚ) - q| := by
  have h1 := Int.floor_le q
  have h2 := Int.lt_floor_add_one q
  have hn : (n : ℚ) ≤ ⌊q⌋ ∨ (⌊q⌋ : ℚ) + 1 ≤ n := by
    rcases le_or_gt n ⌊q⌋ with h | h
    · exact Or.inl (by exact_mod_cast h)
    · exact Or.inr (by exact_mod_cast h)
  unfold nearestEven
  split_ifs with c1 c2 c3
  all_goals
    push_cast
    rcases hn with hn | hn
    · rw [abs_of_nonpos (a := (n : ℚ) - q) (by linarith), abs_le]
      constructor <;> linarith
    · rw [abs_of_nonneg (a := (n : ℚ) - q) (by linarith), abs_le]
      constructor <;> linarith

/-- `binaryRound p x` is a nearest number to `x` among all `m * 2 ^ e` whose significand `m` has
at most `p` bits. -/
theorem binaryRound_nearest {p : ℕ} (hp : 0 < p) (x : ℚ) (m e : ℤ) (hm : |m| ≤ 2 ^ p) :
    |binaryRound p x - x| ≤ |(m : ℚ) * 2 ^ e - x| := by
  rcases eq_or_ne x 0 with rfl | hx
  · have := binaryRound_error (p := p) 0
    simp only [abs_zero, mul_zero] at this
    exact this.trans (abs_nonneg _)
  have hxp : 0 < |x| := abs_pos.2 hx
  have hlog : (2 : ℚ) ^ Int.log 2 |x| ≤ |x| := by
    have := Int.zpow_log_le_self (b := 2) (by norm_num) hxp
    simpa using this
  unfold binaryRound
  set g := Int.log 2 |x| + 1 - (p : ℤ) with hg
  have hgp : (0 : ℚ) < 2 ^ g := zpow_pos (by norm_num) _
  have key : ∀ k : ℤ, |(nearestEven (x / 2 ^ g) : ℚ) * 2 ^ g - x| ≤ |(k : ℚ) * 2 ^ g - x| := by
    intro k
    have h := mul_le_mul_of_nonneg_right (nearestEven_nearest (x / 2 ^ g) k) hgp.le
    have e1 : ∀ z : ℚ, |z - x / 2 ^ g| * 2 ^ g = |z * 2 ^ g - x| := by
      intro z
      rw [← abs_of_pos hgp, ← abs_mul, abs_of_pos hgp, sub_mul, div_mul_cancel₀ _ hgp.ne']
    rwa [e1, e1] at h
  rcases le_or_gt g e with h | h
  · have := key (m * 2 ^ (e - g).toNat)
    have e2 : ((m * 2 ^ (e - g).toNat : ℤ) : ℚ) * 2 ^ g = m * 2 ^ e := by
      push_cast
      rw [mul_assoc, ← zpow_natCast, Int.toNat_of_nonneg (by omega), ← zpow_add₀ (by norm_num)]
      congr 2; ring
    rwa [e2] at this
  · -- a finer grid: such numbers are no larger than the power of two below `x`
    have hsize : |(m : ℚ) * 2 ^ e| ≤ 2 ^ Int.log 2 |x| := by
      have he : (0 : ℚ) < 2 ^ e := zpow_pos (by norm_num) _
      have hm' : |(m : ℚ)| ≤ 2 ^ p := by exact_mod_cast hm
      rw [abs_mul, abs_of_pos he]
      calc |(m : ℚ)| * 2 ^ e ≤ 2 ^ p * 2 ^ e := mul_le_mul_of_nonneg_right hm' he.le
        _ = 2 ^ ((p : ℤ) + e) := by rw [zpow_add₀ (by norm_num), zpow_natCast]
        _ ≤ 2 ^ Int.log 2 |x| := zpow_le_zpow_right₀ (by norm_num) (by omega)
    have e3 : ((2 : ℚ) ^ (p - 1)) * 2 ^ g = 2 ^ Int.log 2 |x| := by
      rw [← zpow_natCast, ← zpow_add₀ (by norm_num)]
      congr 1
      rw [hg]; push_cast [Nat.cast_sub (show 1 ≤ p from hp)]; ring
    have hs := abs_le.1 hsize
    rcases lt_or_gt_of_ne hx with hneg | hpos
    · have := key (-2 ^ (p - 1))
      push_cast at this
      rw [neg_mul, e3] at this
      rw [abs_of_neg hneg] at hlog this
      rw [abs_of_neg hneg] at hs
      refine this.trans ?_
      rw [abs_of_nonneg (by linarith), abs_of_nonneg (by linarith [hs.1])]
      linarith [hs.1]
    · have := key (2 ^ (p - 1))
      push_cast at this
      rw [e3] at this
      rw [abs_of_pos hpos] at hlog this
      rw [abs_of_pos hpos] at hs
      refine this.trans ?_
      rw [abs_of_nonpos (by linarith), abs_of_nonpos (by linarith [hs.2])]
      linarith [hs.2]

/-- Ties go to the even significand: a number halfway between two neighbours of its binade is
rounded to an even multiple of their distance. -/
theorem binaryRound_even {p : ℕ} (x : ℚ) (k : ℤ)
    (h : x = (k + 1 / 2) * 2 ^ (Int.log 2 |x| + 1 - (p : ℤ))) :
    ∃ n : ℤ, n % 2 = 0 ∧ binaryRound p x = n * 2 ^ (Int.log 2 |x| + 1 - (p : ℤ)) := by
  refine ⟨_, ?_, rfl⟩
  have hgp : (0 : ℚ) < 2 ^ (Int.log 2 |x| + 1 - (p : ℤ)) := zpow_pos (by norm_num) _
  have e : x / 2 ^ (Int.log 2 |x| + 1 - (p : ℤ)) = k + 1 / 2 := by
    rw [div_eq_iff hgp.ne']; exact h
  rw [e]
  have hf : ⌊(k : ℚ) + 1 / 2⌋ = k := by
    rw [Int.floor_eq_iff]; constructor <;> norm_num
  unfold nearestEven
  rw [hf]
  split_ifs with c1 c2 c3
  · exfalso; linarith
  · exfalso; linarith
  · exact c3
  · omega

/-! ### relative errors of a number of roundings -/

/-- `y` is `x` after at most `n` roundings with relative error `ε`, up or down: their quotient
lies between `(1 - ε)ⁿ` and its inverse. -/
def Near (ε : ℚ) (n : ℕ) (x y : ℚ) : Prop :=
  ∃ θ, y = x * θ ∧ (1 - ε) ^ n ≤ θ ∧ θ * (1 - ε) ^ n ≤ 1

namespace Near

variable {fl : ℚ → ℚ} {ε : ℚ} {n m : ℕ} {x y x' y' : ℚ}

theorem refl (h0 : 0 ≤ ε) (h1 : ε < 1) (n : ℕ) (x : ℚ) : Near ε n x x := by
  have hp : (1 - ε) ^ n ≤ 1 := pow_le_one₀ (by linarith) (by linarith)
  exact ⟨1, by ring, hp, by linarith⟩

theorem mono (h0 : 0 ≤ ε) (h1 : ε < 1) (hnm : n ≤ m) (h : Near ε n x y) : Near ε m x y := by
  obtain ⟨θ, e, l, u⟩ := h
  have hp : (1 - ε) ^ m ≤ (1 - ε) ^ n := pow_le_pow_of_le_one (by linarith) (by linarith) hnm
  have hn : 0 < (1 - ε) ^ n := pow_pos (by linarith) n
  refine ⟨θ, e, hp.trans l, le_trans ?_ u⟩
  exact mul_le_mul_of_nonneg_left hp (hn.le.trans l)

theorem mul (h0 : 0 ≤ ε) (h1 : ε < 1) (h : Near ε n x y) (h' : Near ε m x' y') :
    Near ε (n + m) (x * x') (y * y') := by
  obtain ⟨θ, rfl, l, u⟩ := h
  obtain ⟨θ', rfl, l', u'⟩ := h'
  have hn : 0 < (1 - ε) ^ n := pow_pos (by linarith) n
  have hm : 0 < (1 - ε) ^ m := pow_pos (by linarith) m
  refine ⟨θ * θ', by ring, ?_, ?_⟩
  · rw [pow_add]; exact mul_le_mul l l' hm.le (hn.le.trans l)
  · rw [pow_add]
    have : θ * θ' * ((1 - ε) ^ n * (1 - ε) ^ m) = θ * (1 - ε) ^ n * (θ' * (1 - ε) ^ m) := by ring
    rw [this]
    have hp : 0 ≤ θ' * (1 - ε) ^ m := mul_nonneg (hm.le.trans l') hm.le
    calc _ ≤ 1 * 1 := mul_le_mul u u' hp (by norm_num)
      _ = 1 := by ring

theorem inv (h1 : ε < 1) (h : Near ε n x y) : Near ε n x⁻¹ y⁻¹ := by
  obtain ⟨θ, rfl, l, u⟩ := h
  have hn : 0 < (1 - ε) ^ n := pow_pos (by linarith) n
  have hθ : 0 < θ := hn.trans_le l
  refine ⟨θ⁻¹, by rw [mul_inv], ?_, ?_⟩
  · rw [le_inv_comm₀ hn hθ, ← one_div, le_div_iff₀ hn]; exact u
  · rw [inv_mul_le_iff₀ hθ, mul_one]; exact l

theorem div (h0 : 0 ≤ ε) (h1 : ε < 1) (h : Near ε n x y) (h' : Near ε m x' y') :
    Near ε (n + m) (x / x') (y / y') := by
  rw [div_eq_mul_inv, div_eq_mul_inv]; exact h.mul h0 h1 (h'.inv h1)

theorem add (h1 : ε < 1) (hx : 0 ≤ x) (hx' : 0 ≤ x') (h : Near ε n x y)
    (h' : Near ε n x' y') : Near ε n (x + x') (y + y') := by
  obtain ⟨θ, rfl, l, u⟩ := h
  obtain ⟨θ', rfl, l', u'⟩ := h'
  have hn : 0 < (1 - ε) ^ n := pow_pos (by linarith) n
  rcases (add_nonneg hx hx').eq_or_lt with h | h
  · have e1 : x = 0 := by linarith
    have e2 : x' = 0 := by linarith
    exact ⟨θ, by rw [e1, e2]; ring, l, u⟩
  · refine ⟨(x * θ + x' * θ') / (x + x'), by field_simp, ?_, ?_⟩
    · rw [le_div_iff₀ h]
      have := mul_le_mul_of_nonneg_left l hx
      have := mul_le_mul_of_nonneg_left l' hx'
      linarith
    · rw [div_mul_eq_mul_div, div_le_one h]
      have := mul_le_mul_of_nonneg_left u hx
      have := mul_le_mul_of_nonneg_left u' hx'
      linarith

theorem round (hfl : Rounding fl ε) (h : Near ε n x y) : Near ε (n + 1) x (fl y) := by
  have h0 := hfl.nonneg
  have h1 := hfl.small
  have key : Near ε 1 y (fl y) := by
    rcases eq_or_ne y 0 with rfl | hy
    · rw [hfl.zero]; exact refl h0 (by linarith) 1 0
    · have he := hfl.error y
      have hyp : 0 < |y| := abs_pos.2 hy
      have hb : |fl y / y - 1| ≤ ε := by
        have : fl y / y - 1 = (fl y - y) / y := by field_simp
        rw [this, abs_div, div_le_iff₀ hyp]; exact he
      rw [abs_le] at hb
      refine ⟨fl y / y, by field_simp, by linarith [hb.1], ?_⟩
      have : fl y / y * (1 - ε) ^ 1 ≤ (1 + ε) * (1 - ε) := by
        rw [pow_one]
        exact mul_le_mul_of_nonneg_right (by linarith [hb.2]) (by linarith)
      nlinarith
  obtain ⟨θ, e, l, u⟩ := h
  obtain ⟨θ', e', l', u'⟩ := key
  have := mul h0 (by linarith) (n := n) (m := 1) (x := x) (y := x * θ) (x' := 1) (y' := θ')
    ⟨θ, rfl, l, u⟩ ⟨θ', by ring, l', u'⟩
  rw [mul_one, ← e, ← e'] at this
  exact this

theorem pos (h1 : ε < 1) (h : Near ε n x y) (hx : 0 < x) : 0 < y := by
  obtain ⟨θ, rfl, l, -⟩ := h
  exact mul_pos hx ((pow_pos (by linarith) n).trans_le l)

/-- The error in plain terms: `n` roundings err by at most `n ε / (1 - n ε)` of the value. -/
theorem error (h0 : 0 ≤ ε) (h1 : ε < 1) (hn : (n : ℚ) * ε < 1) (h : Near ε n x y) :
    |y - x| ≤ n * ε / (1 - n * ε) * |x| := by
  obtain ⟨θ, rfl, l, u⟩ := h
  have hb : 1 - (n : ℚ) * ε ≤ (1 - ε) ^ n := by
    have := one_add_mul_le_pow (a := -ε) (by linarith) n
    have e : (1 : ℚ) + n * -ε = 1 - n * ε := by ring
    rw [e, ← sub_eq_add_neg] at this
    exact this
  have hp : 0 < 1 - (n : ℚ) * ε := by linarith
  have hθ : 0 < θ := (pow_pos (by linarith) n).trans_le l
  have hu : θ * (1 - n * ε) ≤ 1 := (mul_le_mul_of_nonneg_left hb hθ.le).trans u
  have e : x * θ - x = (θ - 1) * x := by ring
  rw [e, abs_mul]
  refine mul_le_mul_of_nonneg_right ?_ (abs_nonneg x)
  have hnε : 0 ≤ (n : ℚ) * ε := by positivity
  rw [abs_le, le_div_iff₀ hp, ← neg_div, div_le_iff₀ hp]
  constructor
  · nlinarith
  · linarith

end Near

end Celest
