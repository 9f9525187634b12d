/-
Property C63.
-/
import Verif.Text.Lemmas

namespace Celest.Text

theorem isNumeral_zfill (w n : ℕ) : IsNumeral (zfill w (natStr n)) n :=
  ⟨zfill_digits w n, by rw [natVal_zfill, natVal_natStr], by
    unfold zfill
    intro h
    exact natStr_ne_nil n (List.append_eq_nil_iff.1 h).2⟩

theorem zfill_two_length (n : ℕ) (h : n < 100) : (zfill 2 (natStr n)).length = 2 :=
  zfill_length 2 n (by norm_num) (by norm_num; exact h)

theorem zfill_length_le (w k n : ℕ) (hk : 0 < k) (hw : w ≤ k) (h : n < 10 ^ k) :
    (zfill w (natStr n)).length ≤ k := by
  unfold zfill
  have := natStr_length_le n k hk h
  simp
  omega

/-- `%.2f`, zero-filled to five characters, of a number in [0, 60). -/
theorem seconds_text (s : ℚ) (h0 : 0 ≤ s) (h1 : s < 60) :
    zfill 5 (fmtFixed 2 s) = zfill 2 (natStr (roundHalfEven (s * 100) / 100)) ++ ['.'] ++
      zfill 2 (natStr (roundHalfEven (s * 100) % 100)) ∧
    roundHalfEven (s * 100) ≤ 6000 := by
  have hr : roundHalfEven (s * 100) ≤ 6000 := by
    have := roundHalfEven_mono (p := s * 100) (q := (6000 : ℕ)) (by positivity)
      (by push_cast; linarith)
    rwa [roundHalfEven_natCast] at this
  refine ⟨?_, hr⟩
  have hf : fmtFixed 2 s = unsignedText 2 (roundHalfEven (s * 100)) := by
    rw [fmtFixed_eq, if_neg (not_lt.2 h0), abs_of_nonneg h0]
    norm_num
  rw [hf]
  generalize roundHalfEven (s * 100) = n at hr
  unfold unsignedText
  simp only [OfNat.ofNat_ne_zero, if_false]
  norm_num
  have hq : n / 100 < 100 := by omega
  have hlen := natStr_length_le (n / 100) 2 (by norm_num) (by norm_num; exact hq)
  have hfr := zfill_two_length (n % 100) (by omega)
  conv_lhs => unfold zfill
  conv_rhs => unfold zfill
  have hfr' : List.replicate (2 - (natStr (n % 100)).length) '0' ++ natStr (n % 100) =
      zfill 2 (natStr (n % 100)) := rfl
  rw [hfr']
  simp only [List.length_append, List.length_cons, hfr]
  have : 5 - ((natStr (n / 100)).length + (2 + 1)) = 2 - (natStr (n / 100)).length := by omega
  rw [this]
  simp

/-- **C63 (partial).** For every angle `0 ≤ x < 1000` degrees the rendering consists of the
numerals of whole degrees `D` (the integer part of `x`), minutes `M < 60`, and seconds with two
decimals, and `D + M/60 + seconds/3600` is `x` up to half a hundredth of a second.  Missing:
seconds below 60; the value `60.00` appears (`C63_sixty_seconds`). -/
theorem C63_sexagesimal_partial (x : ℚ) (h0 : 0 ≤ x) (h1 : x < 1000) :
    ∃ (sd sm ss sc : Str) (D M S C : ℕ),
      sexagesimal x = sd ++ ['°'] ++ sm ++ ['′'] ++ (ss ++ ['.'] ++ sc) ++ ['″'] ∧
      IsNumeral sd D ∧ IsNumeral sm M ∧ IsNumeral ss S ∧ IsNumeral sc C ∧
      sm.length = 2 ∧ ss.length = 2 ∧ sc.length = 2 ∧
      D = ⌊x⌋₊ ∧ M < 60 ∧ C < 100 ∧ (S < 60 ∨ S = 60 ∧ C = 0) ∧
      |(D : ℚ) + M / 60 + (S + C / 100) / 3600 - x| ≤ 1 / 2 / 100 / 3600 := by
  have hd1 := Nat.floor_le h0
  have hd2 := Nat.lt_floor_add_one x
  have hD : ⌊x⌋₊ < 1000 := (Nat.floor_lt h0).2 (by exact_mod_cast h1)
  have hm0 : 0 ≤ x * 60 := by positivity
  have hm1 := Nat.floor_le hm0
  have hm2 := Nat.lt_floor_add_one (x * 60)
  have e1 : x * 60 / 60 = x := by ring
  have e2 : x * 3600 / 60 = x * 60 := by ring
  set D := ⌊x⌋₊ with hDdef
  set T := ⌊x * 60⌋₊ with hTdef
  have hDT : 60 * D ≤ T := by
    apply Nat.le_floor
    push_cast
    linarith
  have hTD : T < 60 * D + 60 := by
    rw [hTdef, Nat.floor_lt hm0]
    push_cast
    linarith
  have hM : ⌊x * 60 - 60 * (D : ℚ)⌋₊ = T - 60 * D := by
    have hc : (60 * (D : ℚ)) = ((60 * D : ℕ) : ℚ) := by push_cast; ring
    rw [hc, Nat.floor_sub_natCast]
  have hs0 : 0 ≤ x * 3600 - 60 * (T : ℚ) := by linarith
  have hs1 : x * 3600 - 60 * (T : ℚ) < 60 := by linarith
  obtain ⟨hst, hn⟩ := seconds_text _ hs0 hs1
  have hclose := roundHalfEven_close ((x * 3600 - 60 * (T : ℚ)) * 100) (by positivity)
  set n := roundHalfEven ((x * 3600 - 60 * (T : ℚ)) * 100)
  refine ⟨zfill 2 (natStr D), zfill 2 (natStr (T - 60 * D)), zfill 2 (natStr (n / 100)),
    zfill 2 (natStr (n % 100)), D, T - 60 * D, n / 100, n % 100, ?_, isNumeral_zfill _ _,
    isNumeral_zfill _ _, isNumeral_zfill _ _, isNumeral_zfill _ _,
    zfill_two_length _ (by omega), zfill_two_length _ (by omega), zfill_two_length _ (by omega),
    rfl, by omega, by omega, by omega, ?_⟩
  · unfold sexagesimal
    simp only [e1, e2, ← hDdef, ← hTdef, hM, hst]
    rw [List.take_of_length_le (zfill_length_le 2 3 D (by norm_num) (by norm_num) (by norm_num; exact hD)),
      List.take_of_length_le (zfill_two_length _ (by omega)).le]
  · have hT : ((T - 60 * D : ℕ) : ℚ) = T - 60 * D := by
      rw [Nat.cast_sub hDT]; push_cast; ring
    have hn' : ((n / 100 : ℕ) : ℚ) + ((n % 100 : ℕ) : ℚ) / 100 = n / 100 := by
      have : ((100 * (n / 100) + n % 100 : ℕ) : ℚ) = n := by rw [Nat.div_add_mod]
      push_cast at this ⊢
      linarith
    rw [hn', hT]
    rw [abs_le] at hclose ⊢
    constructor <;> linarith [hclose.1, hclose.2]

/-- **C63 (failure).** Whenever the seconds of an angle are at least 59.995, the rendering shows
sixty seconds, whatever the degrees and minutes. -/
theorem C63_sixty_seconds (x : ℚ) (h0 : 0 ≤ x)
    (h : 59995 / 1000 ≤ x * 3600 - 60 * ⌊x * 60⌋₊) : "60.00″".toList <:+ sexagesimal x := by
  have hm0 : 0 ≤ x * 60 := by positivity
  have hm2 := Nat.lt_floor_add_one (x * 60)
  have e2 : x * 3600 / 60 = x * 60 := by ring
  have hs1 : x * 3600 - 60 * (⌊x * 60⌋₊ : ℚ) < 60 := by linarith
  obtain ⟨hst, hn⟩ := seconds_text _ (by linarith) hs1
  have hlow : 6000 ≤ roundHalfEven ((x * 3600 - 60 * (⌊x * 60⌋₊ : ℚ)) * 100) := by
    have := roundHalfEven_mono (p := 59995 / 10)
      (q := (x * 3600 - 60 * (⌊x * 60⌋₊ : ℚ)) * 100) (by norm_num) (by linarith)
    have hv : roundHalfEven (59995 / 10) = 6000 := by decide +kernel
    omega
  have he : roundHalfEven ((x * 3600 - 60 * (⌊x * 60⌋₊ : ℚ)) * 100) = 6000 := le_antisymm hn hlow
  unfold sexagesimal
  simp only [e2]
  rw [hst, he]
  have : zfill 2 (natStr (6000 / 100)) ++ ['.'] ++ zfill 2 (natStr (6000 % 100)) =
      "60.00".toList := by decide +kernel
  rw [this, List.append_assoc]
  exact List.suffix_append _ _

/-- Non-vacuity for C63: two minutes of arc minus a thousandth of a second. -/
example : sexagesimal (119999 / 3600000) = "00°01′60.00″".toList ∧
    sexagesimal (436 / 10) = "43°36′00.00″".toList ∧
    sexagesimal (100 + 1 / 3600) = "100°00′01.00″".toList := by decide +kernel

/-- **C63 (signs).** Hemisphere letters follow the sign of the stored number, which is the sign
of the angle in every angular unit (a positive multiple of the degree); the magnitude shown is
the absolute value. -/
theorem C63_hemispheres_partial (scale raw : ℚ) (hs : 0 < scale) :
    latitudeString (raw * scale) raw =
      sexagesimal |raw * scale| ++ (if 0 ≤ raw * scale then ['N'] else ['S']) ∧
    longitudeString (raw * scale) raw =
      sexagesimal |raw * scale| ++ (if 0 ≤ raw * scale then ['E'] else ['W']) := by
  have : 0 ≤ raw * scale ↔ 0 ≤ raw := by
    rw [mul_nonneg_iff_of_pos_right hs]
  unfold latitudeString longitudeString
  simp [this]

/-- Non-vacuity for the hemispheres, and a complete position string. -/
example : iso6709 (436 / 10) (436 / 10) (-794 / 10) (-794 / 10) (1 / 10) "km".toList =
    "43°36′00.00″N 79°24′00.00″W 0.10km".toList := by decide +kernel

end Celest.Text
