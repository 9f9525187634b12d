/-
Lemmas about the calendar conversion.
-/
import Verif.Calendar.Model
import Verif.Calendar.Spec
import Mathlib.Tactic.IntervalCases
import Mathlib.Tactic.Ring
import Mathlib.Tactic.NormNum
import Mathlib.Tactic.Linarith
import Mathlib.Tactic.FieldSimp

namespace Celest.Calendar

/-! ### The specification is a calendar -/

theorem spec_epoch : Date.dayNumber ⟨2000, 1, 1⟩ = 2451545 := by decide

/-- One for leap years, zero otherwise. -/
def leapDay (y : ℤ) : ℤ := if leap y then 1 else 0

/-- Days before the first of January. -/
def yearStart (y : ℤ) : ℤ := 365 * (y - 1) + (y - 1) / 4 - (y - 1) / 100 + (y - 1) / 400

theorem leap_iff (y : ℤ) : leap y = true ↔ y % 4 = 0 ∧ (y % 100 ≠ 0 ∨ y % 400 = 0) := by
  simp [leap]

theorem leapDay_cases (y : ℤ) : (leapDay y = 1 ∧ y % 4 = 0 ∧ (y % 100 ≠ 0 ∨ y % 400 = 0)) ∨
    (leapDay y = 0 ∧ (y % 4 ≠ 0 ∨ (y % 100 = 0 ∧ y % 400 ≠ 0))) := by
  unfold leapDay
  by_cases h : leap y = true
  · rw [if_pos h]; rw [leap_iff] at h; omega
  · rw [if_neg h]; rw [leap_iff] at h; omega

theorem yearStart_succ (y : ℤ) : yearStart (y + 1) = yearStart y + 365 + leapDay y := by
  have h := leapDay_cases y
  unfold yearStart
  omega

theorem dayNumber_eq (t : Date) : t.dayNumber = yearStart t.year + beforeMonth t.month + t.day +
    (if 2 < t.month then leapDay t.year else 0) + 1721425 := by
  unfold Date.dayNumber Date.ordinal yearStart leapDay
  by_cases h : leap t.year = true <;> by_cases h2 : 2 < t.month <;> simp [h, h2] <;> ring

theorem monthLength_eq (y m : ℤ) (h : 1 ≤ m) (h' : m < 12) :
    monthLength y m = beforeMonth (m + 1) - beforeMonth m + (if m = 2 then leapDay y else 0) := by
  unfold leapDay monthLength
  interval_cases m <;> norm_num [beforeMonth]
  split_ifs <;> rfl

theorem monthLength_december (y : ℤ) : monthLength y 12 = 31 := by simp [monthLength]

theorem monthLength_pos (y m : ℤ) : 1 ≤ monthLength y m := by
  unfold monthLength; split_ifs <;> omega

/-- The next date is valid and one day later. -/
theorem next_valid (t : Date) (h : t.Valid) : t.next.Valid ∧
    t.next.dayNumber = t.dayNumber + 1 := by
  obtain ⟨y, m, d⟩ := t
  obtain ⟨h1, h2, h3, h4⟩ := h
  simp only at h1 h2 h3 h4
  unfold Date.next
  simp only
  by_cases c : d < monthLength y m
  · rw [if_pos c]
    refine ⟨⟨h1, h2, by simp only; omega, by simp only; omega⟩, ?_⟩
    rw [dayNumber_eq, dayNumber_eq]; simp only; omega
  · rw [if_neg c]
    have hd : d = monthLength y m := by omega
    by_cases c2 : m < 12
    · rw [if_pos c2]
      refine ⟨⟨by simp only; omega, by simp only; omega, le_refl _, monthLength_pos _ _⟩, ?_⟩
      rw [dayNumber_eq, dayNumber_eq, hd, monthLength_eq y m h1 c2]
      simp only
      split_ifs <;> omega
    · rw [if_neg c2]
      have hm : m = 12 := by omega
      subst hm
      rw [monthLength_december] at hd
      refine ⟨⟨by simp, by simp, le_refl _, monthLength_pos _ _⟩, ?_⟩
      rw [dayNumber_eq, dayNumber_eq, hd]
      simp only [yearStart_succ]
      norm_num [beforeMonth]
      ring

/-! ### Truncations as integer divisions -/

theorem trunc_div (z : ℤ) (n : ℕ) (h : 0 ≤ z) : trunc ((z : ℚ) / n) = z / n := by
  unfold trunc
  rw [if_pos (by positivity), Rat.floor_intCast_div_natCast]

theorem gregorianShift_eq (a : ℤ) (h : 2291161 ≤ a) :
    gregorianShift a = a + 1 + dropped (longCentury a) := by
  have e1 : ((a - 186721625 / 100 : ℚ) / 36525) = ((4 * a - 7468865 : ℤ) : ℚ) / (146100 : ℕ) := by
    push_cast; ring
  have h1 : trunc ((a - 186721625 / 100 : ℚ) / 36525) = longCentury a := by
    rw [e1, trunc_div _ _ (by omega)]; rfl
  have h0 : 0 ≤ longCentury a := by unfold longCentury; omega
  have h2 := trunc_div (longCentury a) 4 h0
  unfold gregorianShift
  simp only [h1]
  push_cast at h2
  rw [h2]
  unfold dropped; ring

/-- The integers computed by `calendarDate`. -/
def julianDate (b : ℤ) : ℤ × ℤ × ℤ :=
  let c := (20 * b - 2442) / 7305
  let d := 1461 * c / 4
  let e := 10000 * (b - d) / 306001
  let day := b - d - 306001 * e / 10000
  let month := if e < 14 then e - 1 else if e = 14 ∨ e = 15 then e - 13 else e
  let year := if month > 2 then c - 4716 else if month = 1 ∨ month = 2 then c - 4715 else c
  (year, month, day)

theorem calendarDate_eq (a : ℤ) (f : ℚ) (h : 0 ≤ a) :
    calendarDate a f = ((julianDate (a + 1524)).1, (julianDate (a + 1524)).2.1,
      ((julianDate (a + 1524)).2.2 : ℚ) + f) := by
  obtain ⟨b, hb⟩ : ∃ b, b = a + 1524 := ⟨_, rfl⟩
  have e1 : (((b : ℤ) - 1221 / 10 : ℚ) / (36525 / 100)) =
      ((20 * b - 2442 : ℤ) : ℚ) / (7305 : ℕ) := by push_cast; ring
  have h1 : trunc (((b : ℤ) - 1221 / 10 : ℚ) / (36525 / 100)) = (20 * b - 2442) / 7305 := by
    rw [e1, trunc_div _ _ (by omega)]; rfl
  obtain ⟨c, hc⟩ : ∃ c, c = (20 * b - 2442) / 7305 := ⟨_, rfl⟩
  have e2 : ((36525 / 100 : ℚ) * c) = ((1461 * c : ℤ) : ℚ) / (4 : ℕ) := by push_cast; ring
  have h2 : trunc ((36525 / 100 : ℚ) * c) = 1461 * c / 4 := by
    rw [e2, trunc_div _ _ (by omega)]; rfl
  obtain ⟨d, hd⟩ : ∃ d, d = 1461 * c / 4 := ⟨_, rfl⟩
  have e3 : ((b - d : ℚ) / (306001 / 10000)) = ((10000 * (b - d) : ℤ) : ℚ) / (306001 : ℕ) := by
    push_cast; ring
  have h3 : trunc ((b - d : ℚ) / (306001 / 10000)) = 10000 * (b - d) / 306001 := by
    rw [e3, trunc_div _ _ (by omega)]; rfl
  obtain ⟨e, he⟩ : ∃ e, e = 10000 * (b - d) / 306001 := ⟨_, rfl⟩
  have e4 : ((306001 / 10000 : ℚ) * e) = ((306001 * e : ℤ) : ℚ) / (10000 : ℕ) := by
    push_cast; ring
  have h4 : trunc ((306001 / 10000 : ℚ) * e) = 306001 * e / 10000 := by
    rw [e4, trunc_div _ _ (by omega)]; rfl
  unfold calendarDate julianDate
  simp only [← hb, h1, ← hc, h2, ← hd, h3, ← he, h4]
  simp only [Int.cast_sub]

/-! ### The civil arithmetic -/

theorem beforeMonth_ge (m : ℤ) (h : 2 < m) : 59 ≤ beforeMonth m := by
  unfold beforeMonth
  rw [if_neg (by omega), if_neg (by omega)]
  split_ifs <;> norm_num

theorem beforeMonth_le (m : ℤ) : beforeMonth m ≤ 334 := by
  unfold beforeMonth; split_ifs <;> norm_num

/-- March-based form of the day number. -/
theorem dayNumber_march (t : Date) (h : t.Valid) : ∃ y s : ℤ,
    0 ≤ s ∧ s ≤ 364 + leapDay (y + 1) ∧
    t.dayNumber = 365 * y + y / 4 - y / 100 + y / 400 + s + 1721120 ∧
    t.year = (if t.month ≤ 2 then y + 1 else y) ∧
    s = (if t.month ≤ 2 then 306 + beforeMonth t.month else beforeMonth t.month - 59) +
      (t.day - 1) := by
  obtain ⟨y, m, d⟩ := t
  obtain ⟨h1, h2, h3, h4⟩ := h
  simp only at h1 h2 h3 h4
  have hs := yearStart_succ y
  have hl := leapDay_cases y
  have hl' := leapDay_cases (y + 1)
  have hb : m < 12 → monthLength y m =
      beforeMonth (m + 1) - beforeMonth m + (if m = 2 then leapDay y else 0) :=
    monthLength_eq y m h1
  have hy : yearStart y = 365 * (y - 1) + (y - 1) / 4 - (y - 1) / 100 + (y - 1) / 400 := rfl
  have hy' : yearStart (y + 1) = 365 * y + y / 4 - y / 100 + y / 400 := by
    unfold yearStart; rw [add_sub_cancel_right]
  rw [dayNumber_eq]
  simp only
  by_cases c : m ≤ 2
  · have hm : m = 1 ∨ m = 2 := by omega
    have k1 : beforeMonth 1 = 0 := rfl
    have k2 : beforeMonth 2 = 31 := rfl
    have k3 : monthLength y 1 = 31 := rfl
    have k4 : monthLength y 2 = 28 + leapDay y := by
      rw [monthLength_eq y 2 (by norm_num) (by norm_num)]; rfl
    refine ⟨y - 1, 306 + beforeMonth m + (d - 1), ?_, ?_, ?_, ?_, ?_⟩
    · clear hs hl hl' hb hy hy'
      rcases hm with rfl | rfl <;> omega
    · rw [sub_add_cancel]
      clear hs hl' hb hy hy'
      rcases hm with rfl | rfl <;> omega
    · rw [if_neg (by omega), hy]; ring
    · rw [if_pos c]; ring
    · rw [if_pos c]
  · have g := beforeMonth_ge m (by clear hs hl hl' hb hy hy'; omega)
    have g' := beforeMonth_le (m + 1)
    refine ⟨y, beforeMonth m - 59 + (d - 1), ?_, ?_, ?_, ?_, ?_⟩
    · clear hs hl hl' hb hy hy'; omega
    · clear hs hl hy hy'
      have hl2 : 0 ≤ leapDay (y + 1) := by rcases hl' with h | h <;> rw [h.1] <;> norm_num
      clear hl'
      by_cases c2 : m = 12
      · subst c2; rw [monthLength_december] at h4
        have : beforeMonth 12 = 334 := rfl
        omega
      · have hb := hb (by omega)
        rw [if_neg (by omega)] at hb
        omega
    · rw [if_pos (by clear hs hl hl' hb hy hy'; omega), ← hy', hs]; ring
    · rw [if_neg c]
    · rw [if_neg c]

theorem century_march (y s : ℤ) (h0 : 0 ≤ s) (h1 : s ≤ 364 + leapDay (y + 1)) :
    century (365 * y + y / 4 - y / 100 + y / 400 + s + 1721120) = y / 100 - 4 := by
  have hl := leapDay_cases (y + 1)
  unfold century
  obtain ⟨i, j, t, hj, hj', ht, ht', rfl⟩ : ∃ i j t : ℤ, 0 ≤ j ∧ j < 4 ∧ 0 ≤ t ∧ t < 100 ∧
      y = 400 * i + 100 * j + t :=
    ⟨y / 400, y % 400 / 100, y % 100, by omega, by omega, by omega, by omega, by omega⟩
  have e1 : (400 * i + 100 * j + t) / 4 = 100 * i + 25 * j + t / 4 := by omega
  have e2 : (400 * i + 100 * j + t) / 100 = 4 * i + j := by omega
  have e3 : (400 * i + 100 * j + t) / 400 = i := by omega
  rw [e1, e2, e3]
  have hs : s ≤ 364 ∨ (s = 365 ∧ (t + 1) % 4 = 0 ∧ (t ≠ 99 ∨ j = 3)) := by omega
  clear hl h1 e1 e2 e3
  interval_cases j <;> omega

/-- The day number in the Julian calendar of a March-based date. -/
theorem julian_march (y s : ℤ) (h0 : 0 ≤ s) (h1 : s ≤ 364 + leapDay (y + 1)) (n : ℤ)
    (hn : n = 365 * y + y / 4 - y / 100 + y / 400 + s + 1721120) :
    n + 1 + dropped (century n) + 1524 = 365 * y + y / 4 + s + 1722642 := by
  have := century_march y s h0 h1
  rw [← hn] at this
  rw [this]
  unfold dropped
  omega

theorem julianDate_march (y s : ℤ) (h0 : 0 ≤ s) (h1 : s ≤ 364 + leapDay (y + 1)) :
    julianDate (365 * y + y / 4 + s + 1722642) =
      let e := 10000 * (s + 123) / 306001
      (if e < 14 then y else y + 1, if e < 14 then e - 1 else e - 13,
        s + 123 - 306001 * e / 10000) := by
  have hl := leapDay_cases (y + 1)
  obtain ⟨b, hb⟩ : ∃ b, b = 365 * y + y / 4 + s + 1722642 := ⟨_, rfl⟩
  have hc : (20 * b - 2442) / 7305 = y + 4716 := by omega
  have hd : b - 1461 * (y + 4716) / 4 = s + 123 := by omega
  have he : 10000 * (s + 123) / 306001 ≤ 15 := by omega
  have he' : 4 ≤ 10000 * (s + 123) / 306001 := by omega
  unfold julianDate
  rw [← hb]
  simp only [hc, hd]
  obtain ⟨e, hee⟩ : ∃ e, e = 10000 * (s + 123) / 306001 := ⟨_, rfl⟩
  rw [← hee] at he he' ⊢
  by_cases c : e < 14
  · simp only [c, if_true]
    rw [if_pos (by omega)]
    simp
  · have : e = 14 ∨ e = 15 := by omega
    simp only [c, if_false, this, if_true]
    rw [if_neg (by omega), if_pos (by omega)]
    ext <;> simp
    ring

theorem julianDate_dayNumber (t : Date) (h : t.Valid) :
    julianDate (t.dayNumber + 1 + dropped (century t.dayNumber) + 1524) =
      (t.year, t.month, t.day) := by
  obtain ⟨y, s, h0, h1, hn, hy, hs⟩ := dayNumber_march t h
  rw [julian_march y s h0 h1 _ hn, julianDate_march y s h0 h1]
  obtain ⟨Y, m, d⟩ := t
  obtain ⟨g1, g2, g3, g4⟩ := h
  simp only at *
  have hl := leapDay_cases Y
  have g4' : m < 12 → d ≤ beforeMonth (m + 1) - beforeMonth m + (if m = 2 then leapDay Y else 0) := by
    intro h; rw [← monthLength_eq Y m g1 h]; exact g4
  have g5 : m = 12 → d ≤ 31 := by rintro rfl; rw [monthLength_december] at g4; exact g4
  clear g4 hn
  obtain ⟨e, he⟩ : ∃ e, e = 10000 * (s + 123) / 306001 := ⟨_, rfl⟩
  rw [← he]
  rw [hy] at hl
  rw [hy]
  clear hy
  have key : e = (if m ≤ 2 then m + 13 else m + 1) := by
    interval_cases m <;> norm_num [beforeMonth] at * <;> omega
  rw [key]
  by_cases c : m ≤ 2
  · simp only [c, if_true] at *
    rw [if_neg (by omega), if_neg (by omega)]
    have hm : m = 1 ∨ m = 2 := by omega
    rcases hm with rfl | rfl <;> norm_num [beforeMonth] at * <;> omega
  · simp only [c, if_false] at *
    rw [if_pos (by omega), if_pos (by omega)]
    interval_cases m <;> norm_num [beforeMonth] at * <;> omega

theorem julianDate_range (b : ℤ) : 4 ≤ 10000 * (b - 1461 * ((20 * b - 2442) / 7305) / 4) / 306001 ∧
    10000 * (b - 1461 * ((20 * b - 2442) / 7305) / 4) / 306001 ≤ 15 := by
  omega

/-- Different day numbers have different dates. -/
theorem julianDate_injective (b b' : ℤ) (h : julianDate b = julianDate b') : b = b' := by
  have r := julianDate_range b
  have r' := julianDate_range b'
  unfold julianDate at h
  simp only at h
  obtain ⟨c, hc⟩ : ∃ c, c = (20 * b - 2442) / 7305 := ⟨_, rfl⟩
  obtain ⟨c', hc'⟩ : ∃ c, c = (20 * b' - 2442) / 7305 := ⟨_, rfl⟩
  rw [← hc] at h r
  rw [← hc'] at h r'
  obtain ⟨e, he⟩ : ∃ e, e = 10000 * (b - 1461 * c / 4) / 306001 := ⟨_, rfl⟩
  obtain ⟨e', he'⟩ : ∃ e, e = 10000 * (b' - 1461 * c' / 4) / 306001 := ⟨_, rfl⟩
  rw [← he] at h r
  rw [← he'] at h r'
  obtain ⟨h1, h2, h3⟩ : _ ∧ _ ∧ _ := by simpa only [Prod.mk.injEq] using h
  clear h hc hc' he he'
  have k : e = e' ∧ c = c' := by
    split_ifs at h1 h2 <;> omega
  obtain ⟨rfl, rfl⟩ := k
  omega

end Celest.Calendar
