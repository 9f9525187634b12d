/-
Products of a double with 60 and 3600.
-/
import Verif.Rounding

namespace Celest

theorem binaryRound_of_mem {p : ℕ} {y : ℚ} {j : ℤ} (h1 : (2 : ℚ) ^ j ≤ y)
    (h2 : y < (2 : ℚ) ^ (j + 1)) :
    binaryRound p y = nearestEven (y / 2 ^ (j + 1 - p)) * 2 ^ (j + 1 - (p : ℤ)) := by
  have hy : 0 < y := (zpow_pos (by norm_num) _).trans_le h1
  have e : Int.log 2 |y| = j := by
    rw [abs_of_pos hy]
    have a := (Int.zpow_le_iff_le_log (b := 2) (by norm_num) hy).1 (by exact_mod_cast h1)
    have b := (Int.lt_zpow_iff_log_lt (b := 2) (by norm_num) hy).1 (by exact_mod_cast h2)
    omega
  unfold binaryRound
  rw [e]

/-- A positive double below 1000 is an integer multiple of a power of two. -/
theorem double_form {x : ℚ} (hx : IsFloat (binaryRound 53) x) (h0 : 0 < x) (h1 : x < 1000) :
    ∃ (q : ℤ) (m : ℤ), q ≤ -43 ∧ x = m * 2 ^ q ∧ 2 ^ 52 ≤ m ∧ m < 2 ^ 53 := by
  have hl : (2 : ℚ) ^ Int.log 2 x ≤ x := by
    simpa using Int.zpow_log_le_self (b := 2) (by norm_num) h0
  have hu : x < (2 : ℚ) ^ (Int.log 2 x + 1) := by
    simpa using Int.lt_zpow_succ_log_self (b := 2) (by norm_num) x
  have hlog : Int.log 2 x < 10 :=
    (Int.lt_zpow_iff_log_lt (b := 2) (by norm_num) h0).1 (by norm_num; linarith)
  unfold IsFloat binaryRound at hx
  rw [abs_of_pos h0] at hx
  have e0 : Int.log 2 x + 1 - ((53 : ℕ) : ℤ) = Int.log 2 x - 52 := by push_cast; ring
  rw [e0] at hx
  generalize Int.log 2 x = e at *
  have hg : (0 : ℚ) < 2 ^ (e - 52) := zpow_pos (by norm_num) _
  have a1 : (2 : ℚ) ^ e = 2 ^ 52 * 2 ^ (e - 52) := by
    rw [← zpow_natCast, ← zpow_add₀ (by norm_num)]
    congr 1; push_cast; ring
  have a2 : (2 : ℚ) ^ (e + 1) = 2 ^ 53 * 2 ^ (e - 52) := by
    rw [← zpow_natCast, ← zpow_add₀ (by norm_num)]
    congr 1; push_cast; ring
  refine ⟨e - 52, nearestEven (x / 2 ^ (e - 52)), by omega, hx.symm, ?_, ?_⟩
  · rw [a1] at hl
    rw [← hx] at hl
    have := le_of_mul_le_mul_right hl hg
    exact_mod_cast this
  · rw [a2] at hu
    rw [← hx] at hu
    have := lt_of_mul_lt_mul_right hu hg.le
    exact_mod_cast this

/-- Whole numbers in units of a small power of two. -/
theorem whole_multiple {q : ℤ} (hq : q ≤ -43) (k : ℕ) :
    ∃ K : ℤ, (k : ℚ) = 128 * K * 2 ^ q := by
  refine ⟨k * 2 ^ (-q - 7).toNat, ?_⟩
  have : (2 : ℚ) ^ (-q - 7).toNat = 2 ^ (-q - 7) := by
    rw [← zpow_natCast, Int.toNat_of_nonneg (by omega)]
  push_cast
  rw [this]
  have e : (2 : ℚ) ^ (-q - 7) * 2 ^ q = 1 / 128 := by
    rw [← zpow_add₀ (by norm_num)]
    have : -q - 7 + q = -7 := by ring
    rw [this]
    norm_num
  calc (k : ℚ) = 128 * k * (1 / 128) := by ring
    _ = _ := by rw [← e]; ring

theorem lt_of_nearestEven_lt {y : ℚ} {j : ℤ} (h : nearestEven y < 2 * j) :
    y < 2 * j - 1 / 2 := by
  by_contra hc
  have h1 := nearestEven_mono (not_lt.1 hc)
  have h2 : nearestEven (2 * j - 1 / 2) = 2 * j := by
    have hf : ⌊(2 * j - 1 / 2 : ℚ)⌋ = 2 * j - 1 := by
      rw [Int.floor_eq_iff]
      push_cast
      constructor <;> linarith
    unfold nearestEven
    rw [hf]
    push_cast
    rw [if_neg (by norm_num), if_neg (by norm_num), if_neg (by omega)]
    ring
  omega

/-- No minute is skipped: where `60 x` stays below a whole number when rounded, so does
`3600 x` below sixty times that number. -/
theorem minute_kept {x : ℚ} (hx : IsFloat (binaryRound 53) x) (h0 : 0 < x) (h1 : x < 1000) (k : ℕ)
    (hk : binaryRound 53 (x * 60) < k) : binaryRound 53 (x * 3600) < 60 * k := by
  obtain ⟨q, m, hq, rfl, hm1, hm2⟩ := double_form hx h0 h1
  obtain ⟨K, hK⟩ := whole_multiple hq k
  have hg : (0 : ℚ) < 2 ^ q := zpow_pos (by norm_num) _
  have hp : ∀ (n : ℕ), (2 : ℚ) ^ (q + n) = 2 ^ n * 2 ^ q := by
    intro n
    rw [zpow_add₀ (by norm_num), zpow_natCast, mul_comm]
  have hm1' : (2 : ℚ) ^ 52 ≤ m := by exact_mod_cast hm1
  have hm2' : (m : ℚ) < 2 ^ 53 := by exact_mod_cast hm2
  -- rounding in the two binades a product can fall in
  have form : ∀ (n : ℕ) (c : ℤ) (hc : 0 < c), (2 : ℚ) ^ (n + 52) ≤ m * c → (m : ℚ) * c < 2 ^ (n + 53) →
      binaryRound 53 (m * 2 ^ q * c) = nearestEven (m * c / 2 ^ n) * (2 ^ n * 2 ^ q) := by
    intro n c hc a b
    have e1 : (2 : ℚ) ^ (q + (n + 52 : ℕ)) ≤ m * 2 ^ q * c := by
      rw [hp]
      have := mul_le_mul_of_nonneg_right a hg.le
      linarith
    have e2 : (m : ℚ) * 2 ^ q * c < 2 ^ (q + (n + 52 : ℕ) + 1) := by
      have : q + ((n + 52 : ℕ) : ℤ) + 1 = q + ((n + 53 : ℕ) : ℤ) := by push_cast; ring
      rw [this, hp]
      have := mul_lt_mul_of_pos_right b hg
      linarith
    rw [binaryRound_of_mem e1 e2]
    have e3 : q + ((n + 52 : ℕ) : ℤ) + 1 - ((53 : ℕ) : ℤ) = q + (n : ℕ) := by push_cast; ring
    rw [e3, hp]
    congr 3
    have : (0 : ℚ) < 2 ^ n := by positivity
    field_simp
  have h3600 : ((m : ℚ) * 2 ^ q * 3600) = m * 2 ^ q * ((3600 : ℤ) : ℚ) := by push_cast; ring
  have h60 : ((m : ℚ) * 2 ^ q * 60) = m * 2 ^ q * ((60 : ℤ) : ℚ) := by push_cast; ring
  have top : ∀ n : ℕ, (2 : ℚ) ^ (n + 52) ≤ m * (3600 : ℤ) → (m : ℚ) * (3600 : ℤ) < 2 ^ (n + 53) →
      binaryRound 53 (m * 2 ^ q * 3600) ≤ (m * 3600 + 2 ^ n / 2) * 2 ^ q := by
    intro n a b
    rw [h3600, form n 3600 (by norm_num) a b]
    have h2 := (abs_le.1 (nearestEven_error (m * ((3600 : ℤ) : ℚ) / 2 ^ n))).2
    have hn : (0 : ℚ) < 2 ^ n := by positivity
    have h3 := mul_le_mul_of_nonneg_right h2 hn.le
    rw [sub_mul, div_mul_cancel₀ _ hn.ne'] at h3
    have h4 := mul_le_mul_of_nonneg_right h3 hg.le
    push_cast at h4 ⊢
    linarith
  rw [h60] at hk
  rcases lt_or_ge ((m : ℚ) * (60 : ℤ)) (2 ^ (5 + 53)) with hb | hb
  · -- the lower binade
    rw [form 5 60 (by norm_num) (by push_cast; norm_num at hm1' ⊢; linarith) hb, hK] at hk
    have h2 : (nearestEven (m * ((60 : ℤ) : ℚ) / 2 ^ 5) : ℚ) < ((2 * (2 * K) : ℤ) : ℚ) := by
      have := lt_of_mul_lt_mul_right (show
        (nearestEven (m * ((60 : ℤ) : ℚ) / 2 ^ 5) : ℚ) * (2 ^ 5 * 2 ^ q) <
          (4 * K) * (2 ^ 5 * 2 ^ q) by linarith) (by positivity)
      push_cast
      linarith
    have h3 := lt_of_nearestEven_lt (Int.cast_lt.1 h2)
    have h4 : 15 * m < 32 * K - 4 := by
      have : (15 * m : ℚ) < 32 * K - 4 := by
        rw [div_lt_iff₀ (by norm_num)] at h3
        push_cast at h3
        linarith
      exact_mod_cast this
    have h5 : (15 * m : ℚ) ≤ 32 * K - 5 := by
      have : 15 * m ≤ 32 * K - 5 := by omega
      exact_mod_cast this
    have h6 := top 11 (by push_cast; norm_num at hm1' ⊢; linarith)
      (by push_cast at hb ⊢; norm_num at hb ⊢; linarith)
    refine h6.trans_lt ?_
    rw [hK, show 60 * (128 * (K : ℚ) * 2 ^ q) = 60 * (128 * K) * 2 ^ q by ring]
    refine mul_lt_mul_of_pos_right ?_ hg
    norm_num
    linarith
  · rw [form 6 60 (by norm_num) (by push_cast at hb ⊢; norm_num at hb ⊢; linarith)
      (by push_cast; norm_num at hm2' ⊢; linarith), hK] at hk
    have h2 : (nearestEven (m * ((60 : ℤ) : ℚ) / 2 ^ 6) : ℚ) < ((2 * K : ℤ) : ℚ) := by
      have := lt_of_mul_lt_mul_right (show
        (nearestEven (m * ((60 : ℤ) : ℚ) / 2 ^ 6) : ℚ) * (2 ^ 6 * 2 ^ q) <
          (2 * K) * (2 ^ 6 * 2 ^ q) by linarith) (by positivity)
      push_cast
      linarith
    have h3 := lt_of_nearestEven_lt (Int.cast_lt.1 h2)
    have h4 : 15 * m < 32 * K - 8 := by
      have : (15 * m : ℚ) < 32 * K - 8 := by
        rw [div_lt_iff₀ (by norm_num)] at h3
        push_cast at h3
        linarith
      exact_mod_cast this
    have h5 : (15 * m : ℚ) ≤ 32 * K - 9 := by
      have : 15 * m ≤ 32 * K - 9 := by omega
      exact_mod_cast this
    have h6 : binaryRound 53 (m * 2 ^ q * 3600) ≤ (m * 3600 + 2048) * 2 ^ q := by
      rcases lt_or_ge ((m : ℚ) * (3600 : ℤ)) (2 ^ (11 + 53)) with hc | hc
      · refine (top 11 (by push_cast; norm_num at hm1' ⊢; linarith) hc).trans ?_
        refine mul_le_mul_of_nonneg_right ?_ hg.le
        norm_num
      · refine (top 12 (by push_cast at hc ⊢; norm_num at hc ⊢; linarith)
          (by push_cast; norm_num at hm2' ⊢; linarith)).trans ?_
        refine mul_le_mul_of_nonneg_right ?_ hg.le
        norm_num
    refine h6.trans_lt ?_
    rw [hK, show 60 * (128 * (K : ℚ) * 2 ^ q) = 60 * (128 * K) * 2 ^ q by ring]
    refine mul_lt_mul_of_pos_right ?_ hg
    linarith

/-- The minutes never reach sixty. -/
theorem degree_kept {x : ℚ} (hx : IsFloat (binaryRound 53) x) (h0 : 0 < x) (h1 : x < 1000) (k : ℕ)
    (hk : x < k) : binaryRound 53 (x * 60) < 60 * k := by
  obtain ⟨q, m, hq, rfl, hm1, hm2⟩ := double_form hx h0 h1
  obtain ⟨K, hK⟩ := whole_multiple hq k
  have hg : (0 : ℚ) < 2 ^ q := zpow_pos (by norm_num) _
  have h2 := (abs_le.1 (binaryRound_error (p := 53) (m * 2 ^ q * 60))).2
  rw [abs_of_pos (by positivity)] at h2
  have hm2' : (m : ℚ) < 2 ^ 53 := by exact_mod_cast hm2
  have h3 : (m : ℚ) + 1 ≤ 128 * K := by
    rw [hK] at hk
    have := lt_of_mul_lt_mul_right hk hg.le
    have : m < 128 * K := by exact_mod_cast this
    have : m + 1 ≤ 128 * K := by omega
    exact_mod_cast this
  have h4 := mul_le_mul_of_nonneg_right h3 hg.le
  have h5 := mul_lt_mul_of_pos_right hm2' hg
  rw [hK]
  norm_num at h2 h5 ⊢
  linarith

/-- Whole numbers below `2 ^ 53` are doubles. -/
theorem whole_float (n : ℕ) (h : n ≤ 2 ^ 53) : binaryRound 53 n = n := by
  have := binaryRound_nearest (p := 53) (by norm_num) n n 0 (by
    rw [abs_of_nonneg (by positivity)]; exact_mod_cast h)
  simp only [zpow_zero, mul_one, Int.cast_natCast, sub_self, abs_zero, abs_nonpos_iff] at this
  linarith

end Celest
