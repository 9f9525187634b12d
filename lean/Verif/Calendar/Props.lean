/-
C41-C43: calendar dates and the day of the year.
-/
import Verif.Calendar.Lemmas

namespace Celest.Calendar

theorem trunc_add (n : ℤ) (f : ℚ) (hn : 0 ≤ n) (h0 : 0 ≤ f) (h1 : f < 1) :
    trunc ((n : ℚ) + f) = n ∧ fracPart ((n : ℚ) + f) = f := by
  have hfl : ⌊(n : ℚ) + f⌋ = n := by
    rw [Int.floor_intCast_add, Int.floor_eq_zero_iff.2 ⟨h0, h1⟩, add_zero]
  have : (0 : ℚ) ≤ n + f := by
    have : (0 : ℚ) ≤ n := by exact_mod_cast hn
    linarith
  constructor
  · unfold trunc; rw [if_pos this, hfl]
  · unfold fracPart; rw [hfl]; ring

/-- One date of the Gregorian era. -/
theorem fromJulian_single (n : ℤ) (f : ℚ) (hn : 2291161 ≤ n) (h0 : 0 ≤ f) (h1 : f < 1) :
    fromJulian [(n : ℚ) - 1 / 2 + f] =
      .ok [calendarDate (n + 1 + dropped (longCentury n)) f] := by
  have e : (n : ℚ) - 1 / 2 + f + 1 / 2 = n + f := by ring
  obtain ⟨h2, h3⟩ := trunc_add n f (by omega) h0 h1
  simp only [fromJulian, List.map_cons, List.map_nil, e, h2]
  rw [if_pos (by simp [late, hn])]
  simp only [List.zipWith_cons_cons, List.zipWith_nil_left, h3, gregorianShift_eq n hn]

theorem dropped_nonneg (n : ℤ) (hn : 2291161 ≤ n) : 0 ≤ dropped (longCentury n) := by
  unfold dropped longCentury; omega

/-! ### C41 -/

/-- C41, exactly: a Julian date in the Gregorian era converts to the Gregorian date if and only
if counting centuries of 36525 days instead of 36524.25 since the year 400 makes no difference
to the number of leap days dropped so far. -/
theorem C41_date_iff (t : Date) (ht : t.Valid) (hn : 2299161 ≤ t.dayNumber) (f : ℚ)
    (h0 : 0 ≤ f) (h1 : f < 1) :
    fromJulian [(t.dayNumber : ℚ) - 1 / 2 + f] = .ok [(t.year, t.month, t.day + f)] ↔
      dropped (longCentury t.dayNumber) = dropped (century t.dayNumber) := by
  have hd := dropped_nonneg t.dayNumber (by omega)
  rw [fromJulian_single _ f (by omega) h0 h1, calendarDate_eq _ _ (by omega)]
  have hj := julianDate_dayNumber t ht
  constructor
  · intro h
    simp only [Except.ok.injEq, List.cons.injEq, Prod.mk.injEq, and_true] at h
    obtain ⟨a, b, c⟩ := h
    have c' : (julianDate (t.dayNumber + 1 + dropped (longCentury t.dayNumber) + 1524)).2.2
        = t.day := by
      have := add_right_cancel c
      exact_mod_cast this
    have := julianDate_injective (t.dayNumber + 1 + dropped (longCentury t.dayNumber) + 1524)
      (t.dayNumber + 1 + dropped (century t.dayNumber) + 1524) (by
        rw [hj]; exact Prod.ext a (Prod.ext b c'))
    omega
  · intro h
    rw [h, hj]

example : Date.Valid ⟨2020, 2, 29⟩ ∧ 2299161 ≤ Date.dayNumber ⟨2020, 2, 29⟩ ∧
    dropped (longCentury (Date.dayNumber ⟨2020, 2, 29⟩)) =
      dropped (century (Date.dayNumber ⟨2020, 2, 29⟩)) := by decide

theorem longCentury_march (y s : ℤ) (h0 : 0 ≤ s) (h1 : s ≤ 365) (hy : 1581 ≤ y) (hy' : y ≤ 9999)
    (hlag : y % 100 = 0 → y % 400 ≠ 0 → 72 ≤ s) :
    dropped (longCentury (365 * y + y / 4 - y / 100 + y / 400 + s + 1721120)) =
      dropped (y / 100 - 4) := by
  obtain ⟨h, r, hr, hr', rfl⟩ : ∃ h r : ℤ, 0 ≤ r ∧ r < 100 ∧ y = 100 * h + r :=
    ⟨y / 100, y % 100, by omega, by omega, by omega⟩
  have e1 : (100 * h + r) / 4 = 25 * h + r / 4 := by omega
  have e2 : (100 * h + r) / 100 = h := by omega
  have e3 : (100 * h + r) / 400 = h / 4 := by omega
  have hlag' : r = 0 → h % 4 ≠ 0 → 72 ≤ s := fun a b => hlag (by omega) (by omega)
  rw [e1, e2, e3]
  clear hlag e1 e2 e3
  have hh : 15 ≤ h ∧ h ≤ 99 := by omega
  have k : longCentury (365 * (100 * h + r) + (25 * h + r / 4) - h + h / 4 + s + 1721120) =
      (146097 * (h - 4) - 3 * (h - 4) + 4 * s + 1460 * r + 4 * (r / 4) - (h % 4) + 3 +
        3 * (h - 4)) / 146100 := by
    unfold longCentury
    congr 1
    omega
  rw [k]
  clear k
  by_cases c : r = 0
  · subst c
    by_cases c4 : h % 4 = 0
    · obtain ⟨i, rfl⟩ : ∃ i, h = 4 * i := ⟨h / 4, by omega⟩
      unfold dropped
      omega
    · have := hlag' rfl c4
      unfold dropped
      omega
  · obtain ⟨x, hx⟩ : ∃ x, x = 146097 * (h - 4) - 3 * (h - 4) + 4 * s + 1460 * r + 4 * (r / 4) -
        (h % 4) + 3 + 3 * (h - 4) := ⟨_, rfl⟩
    rw [← hx]
    have l1 : 146100 * (h - 4) ≤ x := by omega
    have l2 : x < 146100 * (h - 4) + 146100 := by omega
    clear hx
    have : x / 146100 = h - 4 := by omega
    rw [this]

theorem beforeMonth_june (m : ℤ) (h : 6 ≤ m) : 151 ≤ beforeMonth m := by
  unfold beforeMonth
  rw [if_neg (by omega), if_neg (by omega), if_neg (by omega), if_neg (by omega),
    if_neg (by omega)]
  split_ifs <;> norm_num

theorem beforeMonth_nonneg (m : ℤ) : 0 ≤ beforeMonth m := by
  unfold beforeMonth; split_ifs <;> norm_num

/-- The instants at which the two counts agree include every date from 1582 to 9999 except March
to May of centennial years that are not leap years. -/
theorem dropped_agree (t : Date) (ht : t.Valid) (hn : 2299161 ≤ t.dayNumber)
    (hy : t.year ≤ 9999)
    (hc : ¬ (t.year % 100 = 0 ∧ t.year % 400 ≠ 0 ∧ 3 ≤ t.month ∧ t.month ≤ 5)) :
    dropped (longCentury t.dayNumber) = dropped (century t.dayNumber) := by
  obtain ⟨y, s, h0, h1, hN, hy', hs⟩ := dayNumber_march t ht
  have hcm := century_march y s h0 h1
  have hl : s ≤ 365 := by
    rcases leapDay_cases (y + 1) with h | h <;> rw [h.1] at h1 <;> omega
  rw [hN] at hn ⊢
  rw [hcm]
  have hd := ht.2.2.1
  refine longCentury_march y s h0 hl (by clear hcm hs hy' hN hc; omega) ?_ ?_
  · clear hcm hN hs hn
    split_ifs at hy' <;> omega
  · clear hcm hN hn
    intro a b
    have hm : ¬ t.month ≤ 2 ∨ 72 ≤ s := by
      by_cases hm : t.month ≤ 2
      · rw [if_pos hm] at hs
        have := beforeMonth_nonneg t.month
        right; omega
      · exact .inl hm
    rcases hm with hm | hm
    · rw [if_neg hm] at hs hy'
      rw [hy'] at hc
      have h5 : 6 ≤ t.month := by
        by_contra h5
        exact hc ⟨a, b, by omega, by omega⟩
      have := beforeMonth_june t.month h5
      omega
    · exact hm

/-- C41, for all dates from 1582 to 9999 outside March to May of centennial years that are not
leap years: `from_julian` and `Time.datetime` give the Gregorian date and the fraction of the
day, and the instant a day later gives the next date (if that is not excluded itself). -/
theorem C41_gregorian_date_partial (t : Date) (ht : t.Valid) (hn : 2299161 ≤ t.dayNumber)
    (hy : t.year ≤ 9999)
    (hc : ¬ (t.year % 100 = 0 ∧ t.year % 400 ≠ 0 ∧ 3 ≤ t.month ∧ t.month ≤ 5)) (f : ℚ)
    (h0 : 0 ≤ f) (h1 : f < 1) :
    fromJulian [(t.dayNumber : ℚ) - 1 / 2 + f] = .ok [(t.year, t.month, t.day + f)] ∧
    datetimes [(t.dayNumber : ℚ) - 1 / 2 + f] = .ok [((t.year, t.month, t.day), f)] := by
  have h := (C41_date_iff t ht hn f h0 h1).2 (dropped_agree t ht hn hy hc)
  refine ⟨h, ?_⟩
  have hy1 : 1 ≤ t.year := by
    by_contra hlt
    have h2 := dayNumber_eq t
    have h3 := beforeMonth_le t.month
    have h4 := ht.2.2.2
    have h5 : monthLength t.year t.month ≤ 31 := by
      unfold monthLength; split_ifs <;> norm_num
    have h6 : leapDay t.year ≤ 1 ∧ 0 ≤ leapDay t.year := by
      unfold leapDay; split_ifs <;> norm_num
    have h7 : yearStart t.year ≤ 0 := by unfold yearStart; omega
    split_ifs at h2 <;> omega
  obtain ⟨h2, h3⟩ := trunc_add t.day f (by have := ht.2.2.1; omega) h0 h1
  have hp : pyDate t.year t.month t.day = .ok (t.year, t.month, t.day) := by
    unfold pyDate
    exact if_pos ⟨hy1, hy, ht.1, ht.2.1, ht.2.2.1, ht.2.2.2⟩
  simp only [datetimes, h, List.mapM_cons, List.mapM_nil, h2, h3, hp]
  rfl

/-- The leap day of 2000, at a quarter of the day. -/
example : Date.Valid ⟨2000, 2, 29⟩ ∧ (2299161 ≤ Date.dayNumber ⟨2000, 2, 29⟩) ∧
    datetimes [((Date.dayNumber ⟨2000, 2, 29⟩ : ℤ) : ℚ) - 1 / 2 + 1 / 4] =
      .ok [((2000, 2, 29), 1 / 4)] := by
  decide +kernel

/-- Consecutive days have consecutive dates, on the same range. -/
theorem C41_consecutive_days_partial (t : Date) (ht : t.Valid) (hn : 2299161 ≤ t.dayNumber)
    (hy : t.next.year ≤ 9999)
    (hc : ¬ (t.next.year % 100 = 0 ∧ t.next.year % 400 ≠ 0 ∧ 3 ≤ t.next.month ∧
      t.next.month ≤ 5)) (f : ℚ) (h0 : 0 ≤ f) (h1 : f < 1) :
    fromJulian [(t.dayNumber : ℚ) - 1 / 2 + f + 1] =
      .ok [(t.next.year, t.next.month, t.next.day + f)] := by
  obtain ⟨a, b⟩ := next_valid t ht
  have := (C41_gregorian_date_partial t.next a (by omega) hy hc f h0 h1).1
  rw [b] at this
  push_cast at this
  rw [← this]
  congr 2
  ring

example : Date.next ⟨2019, 12, 31⟩ = ⟨2020, 1, 1⟩ ∧ Date.next ⟨2020, 2, 28⟩ = ⟨2020, 2, 29⟩ := by
  decide

/-- C41 fails on 1 March of every centennial year that is not a leap year: `from_julian` answers
29 February, which does not exist, and `Time.datetime` raises `ValueError`. -/
theorem C41_first_of_march (h : ℤ) (h16 : 16 ≤ h) (hmax : h ≤ 48000) (h4 : h % 4 ≠ 0) (f : ℚ)
    (h0 : 0 ≤ f) (h1 : f < 1) :
    let n := Date.dayNumber ⟨100 * h, 3, 1⟩
    Date.Valid ⟨100 * h, 3, 1⟩ ∧ ¬ Date.Valid ⟨100 * h, 2, 29⟩ ∧ 2299161 ≤ n ∧
    fromJulian [(n : ℚ) - 1 / 2 + f] = .ok [(100 * h, 2, 29 + f)] ∧
    datetimes [(n : ℚ) - 1 / 2 + f] = .error .valueError := by
  intro n
  have hleap : leap (100 * h) = false := by
    rw [Bool.eq_false_iff, Ne, leap_iff]; omega
  have hld : leapDay (100 * h) = 0 := by unfold leapDay; rw [hleap]; rfl
  have hv : Date.Valid ⟨100 * h, 3, 1⟩ := ⟨by norm_num, by norm_num, by norm_num, by
    simp [monthLength]⟩
  have hv' : ¬ Date.Valid ⟨100 * h, 2, 29⟩ := by
    intro hh
    have := hh.2.2.2
    simp [monthLength, hleap] at this
  have hn : n = 36500 * h + 25 * h - h + h / 4 + 1721120 := by
    have := dayNumber_eq ⟨100 * h, 3, 1⟩
    simp only [hld, yearStart] at this
    have e : beforeMonth 3 = 59 := rfl
    rw [e] at this
    rw [if_pos (by norm_num)] at this
    omega
  have hn' : 2299161 ≤ n := by omega
  have hlc : longCentury n = h - 5 := by unfold longCentury; omega
  have hjd : julianDate (n + 1 + dropped (longCentury n) + 1524) = (100 * h, 2, 29) := by
    have e : n + 1 + dropped (longCentury n) + 1524 =
        365 * (100 * h - 1) + (100 * h - 1) / 4 + 365 + 1722642 := by
      rw [hlc]; unfold dropped; omega
    rw [e]
    obtain ⟨b, hb⟩ : ∃ b, b = 365 * (100 * h - 1) + (100 * h - 1) / 4 + 365 + 1722642 := ⟨_, rfl⟩
    rw [← hb]
    have hc : (20 * b - 2442) / 7305 = 100 * h + 4715 := by omega
    have hd : b - 1461 * (100 * h + 4715) / 4 = 488 := by omega
    unfold julianDate
    simp only [hc, hd]
    norm_num
  have hF : fromJulian [(n : ℚ) - 1 / 2 + f] = .ok [(100 * h, 2, 29 + f)] := by
    have hdn := dropped_nonneg n (by omega)
    rw [fromJulian_single n f (by omega) h0 h1, calendarDate_eq _ _ (by omega), hjd]
    simp
  refine ⟨hv, hv', hn', hF, ?_⟩
  have ht : trunc (29 + f) = 29 := by
    have := (trunc_add 29 f (by norm_num) h0 h1).1
    exact_mod_cast this
  have hp : pyDate (100 * h) 2 29 = .error .valueError := by
    unfold pyDate
    refine if_neg fun hh => hv' ⟨hh.2.2.1, hh.2.2.2.1, hh.2.2.2.2.1, hh.2.2.2.2.2⟩
  simp only [datetimes, hF, List.mapM_cons, ht, hp]
  rfl

/-- 1 March 1900 and 1 March 2100. -/
example : ((19 : ℤ) % 4 ≠ 0 ∧ (21 : ℤ) % 4 ≠ 0) ∧
    datetimes [(Date.dayNumber ⟨2100, 3, 1⟩ : ℚ)] = .error .valueError := by
  decide +kernel

/-! ### C42 -/

/-- Every single Julian date is converted. -/
theorem fromJulian_one (x : ℚ) : ∃ d, fromJulian [x] = .ok [d] := by
  unfold fromJulian
  simp only [List.map_cons, List.map_nil]
  by_cases h : late (trunc (x + 1 / 2)) = true
  · rw [if_pos (by simpa using h)]; exact ⟨_, rfl⟩
  · rw [if_neg (by simpa using h), if_pos (by simp)]; exact ⟨_, rfl⟩

/-- C42, for arrays of instants all on the same, later side of day 2291161: the array is
converted element by element. -/
theorem C42_elementwise_partial (l : List ℚ) (h : ∀ x ∈ l, 2291160 + 1 / 2 ≤ x) :
    ∃ r, fromJulian l = .ok r ∧ List.Forall₂ (fun x d => fromJulian [x] = .ok [d]) l r := by
  have hl : ∀ x ∈ l, late (trunc (x + 1 / 2)) = true := by
    intro x hx
    have hx' := h x hx
    have : (2291161 : ℤ) ≤ ⌊x + 1 / 2⌋ := Int.le_floor.2 (by push_cast; linarith)
    unfold late trunc
    rw [if_pos (by linarith)]
    simpa using this
  unfold fromJulian
  rw [if_pos (by simpa [List.all_eq_true] using hl)]
  refine ⟨_, rfl, ?_⟩
  clear h
  induction l with
  | nil => exact .nil
  | cons x l ih =>
    simp only [List.map_cons, List.zipWith_cons_cons]
    refine .cons ?_ (ih fun y hy => hl y (List.mem_cons_of_mem _ hy))
    simp only [List.map_nil]
    rw [if_pos (by simpa using hl x List.mem_cons_self)]
    rfl

example : ∀ x ∈ [(2451545 : ℚ), 2459000 + 1 / 4], 2291160 + 1 / 2 ≤ x := by decide +kernel

/-- C42 fails as soon as an array of two or more contains an instant before day 2291161: the call
raises `ValueError`, although every element on its own is converted. -/
theorem C42_early_date_in_array (l : List ℚ) (h2 : 2 ≤ l.length)
    (h : ∃ x ∈ l, x < 2291160 + 1 / 2) :
    fromJulian l = .error .valueError ∧ ∀ x ∈ l, ∃ d, fromJulian [x] = .ok [d] := by
  refine ⟨?_, fun x _ => fromJulian_one x⟩
  obtain ⟨x, hx, hlt⟩ := h
  have hnl : late (trunc (x + 1 / 2)) = false := by
    have h3 : ¬ (2291161 : ℤ) ≤ trunc (x + 1 / 2) := by
      unfold trunc
      split_ifs with c
      · rw [Int.le_floor]; push_cast; linarith
      · intro hh
        have : ⌈x + 1 / 2⌉ ≤ 0 := Int.ceil_le.2 (by push_cast; linarith)
        omega
    unfold late
    simpa using h3
  unfold fromJulian
  rw [if_neg, if_neg]
  · simp only [List.length_map]; omega
  · simp only [List.all_eq_true, List.mem_map, not_forall]
    exact ⟨_, ⟨_, ⟨x, hx, rfl⟩, rfl⟩, by rw [hnl]; simp⟩

example : fromJulian [2451545, 2000000] = .error .valueError := by decide +kernel

/-! ### C43 -/

theorem dayOfYearOf_eq (t : Date) (ht : t.Valid) (f : ℚ) (h0 : 0 ≤ f) (h1 : f < 1) :
    dayOfYearOf (t.year, t.month, t.day + f) =
      t.ordinal + if t.year % 100 = 0 ∧ t.year % 400 ≠ 0 ∧ 2 < t.month then 1 else 0 := by
  obtain ⟨y, m, d⟩ := t
  obtain ⟨g1, g2, g3, g4⟩ := ht
  simp only at g1 g2 g3 g4 ⊢
  have e1 : trunc ((275 * (m : ℚ)) / 9) = 275 * m / 9 := by
    have := trunc_div (275 * m) 9 (by omega)
    push_cast at this; exact this
  have e2 : trunc (((m : ℚ) + 9) / 12) = (m + 9) / 12 := by
    have := trunc_div (m + 9) 12 (by omega)
    push_cast at this; exact this
  unfold dayOfYearOf
  simp only [e1, e2]
  obtain ⟨k, hk⟩ : ∃ k : ℤ, k = (if y % 4 = 0 then 1 else 2) := ⟨_, rfl⟩
  rw [← hk]
  have hk' : k = 1 ∨ k = 2 := by rw [hk]; split_ifs <;> simp
  have hpos : 0 ≤ 275 * m / 9 - k * ((m + 9) / 12) + d - 30 := by
    rcases hk' with rfl | rfl <;> omega
  have e3 : ((275 * m / 9 : ℤ) : ℚ) - (k : ℚ) * (((m + 9) / 12 : ℤ) : ℚ) + ((d : ℚ) + f) - 30 =
      ((275 * m / 9 - k * ((m + 9) / 12) + d - 30 : ℤ) : ℚ) + f := by
    push_cast; ring
  rw [e3, (trunc_add _ f hpos h0 h1).1]
  unfold Date.ordinal
  simp only [leap_iff]
  have hm : ∀ P : ℤ → Prop, P 1 → P 2 → P 3 → P 4 → P 5 → P 6 → P 7 → P 8 → P 9 → P 10 → P 11 →
      P 12 → P m := by
    intro P; intros; interval_cases m <;> assumption
  revert hk
  have hb : 275 * m / 9 - (m + 9) / 12 - 30 = beforeMonth m + if 2 < m then 1 else 0 := by
    clear hk' hpos e3 g4 e1 e2
    revert g1 g2
    intro _ _
    apply hm (fun m => 275 * m / 9 - (m + 9) / 12 - 30 = beforeMonth m + if 2 < m then 1 else 0)
      <;> decide
  have hb2 : (m + 9) / 12 = if 2 < m then 1 else 0 := by split_ifs <;> omega
  rw [hb2] at hb ⊢
  by_cases c : 2 < m
  · simp only [c, if_true, and_true] at hb ⊢
    split_ifs <;> omega
  · simp only [c, if_false, and_false] at hb ⊢
    simp; omega

/-- C43, for dates from 1582 to 9999 whose year is not a centennial common year: the day of the
year is the ordinal date. -/
theorem C43_ordinal_partial (t : Date) (ht : t.Valid) (hn : 2299161 ≤ t.dayNumber)
    (hy : t.year ≤ 9999) (hc : ¬ (t.year % 100 = 0 ∧ t.year % 400 ≠ 0)) (f : ℚ)
    (h0 : 0 ≤ f) (h1 : f < 1) :
    dayOfYear [(t.dayNumber : ℚ) - 1 / 2 + f] = .ok [t.ordinal] := by
  have h := (C41_gregorian_date_partial t ht hn hy (fun h => hc ⟨h.1, h.2.1⟩) f h0 h1).1
  unfold dayOfYear
  rw [h]
  have := dayOfYearOf_eq t ht f h0 h1
  rw [if_neg (fun h => hc ⟨h.1, h.2.1⟩), add_zero] at this
  show Except.ok [dayOfYearOf _] = _
  rw [this]

/-- The day of the year advances by one per day within such a year. -/
theorem C43_advances_partial (t : Date) (ht : t.Valid) (hn : 2299161 ≤ t.dayNumber)
    (hy : t.year ≤ 9999) (hc : ¬ (t.year % 100 = 0 ∧ t.year % 400 ≠ 0))
    (hyear : t.next.year = t.year) (f : ℚ) (h0 : 0 ≤ f) (h1 : f < 1) :
    dayOfYear [(t.dayNumber : ℚ) - 1 / 2 + f + 1] = .ok [t.ordinal + 1] := by
  obtain ⟨a, b⟩ := next_valid t ht
  have h := C43_ordinal_partial t.next a (by omega) (by omega) (by rw [hyear]; exact hc) f h0 h1
  have ho : t.next.ordinal = t.ordinal + 1 := by
    unfold Date.dayNumber at b
    rw [hyear] at b
    omega
  rw [b, ho] at h
  push_cast at h
  rw [← h]
  congr 2
  ring

example : Date.Valid ⟨2020, 12, 30⟩ ∧ Date.ordinal ⟨2020, 12, 30⟩ = 365 ∧
    dayOfYear [(Date.dayNumber ⟨2020, 12, 30⟩ : ℚ)] = .ok [365] := by decide +kernel

/-- C43 fails from June to December of every centennial common year up to 9999: the day of the
year is one too large, so 31 December is day 366 of a year of 365 days. -/
theorem C43_centennial_years (t : Date) (ht : t.Valid) (hn : 2299161 ≤ t.dayNumber)
    (hy : t.year ≤ 9999) (hc : t.year % 100 = 0 ∧ t.year % 400 ≠ 0) (hm : 6 ≤ t.month) (f : ℚ)
    (h0 : 0 ≤ f) (h1 : f < 1) :
    dayOfYear [(t.dayNumber : ℚ) - 1 / 2 + f] = .ok [t.ordinal + 1] := by
  have h := (C41_gregorian_date_partial t ht hn hy (by omega) f h0 h1).1
  unfold dayOfYear
  rw [h]
  have := dayOfYearOf_eq t ht f h0 h1
  rw [if_pos ⟨hc.1, hc.2, by omega⟩] at this
  show Except.ok [dayOfYearOf _] = _
  rw [this]

example : Date.Valid ⟨1900, 12, 31⟩ ∧ Date.ordinal ⟨1900, 12, 31⟩ = 365 ∧
    dayOfYear [(Date.dayNumber ⟨1900, 12, 31⟩ : ℚ)] = .ok [366] := by decide +kernel

end Celest.Calendar
