/-
C41 and C43 in the centennial years that are not leap years: exactly which dates come out wrong,
and what comes out instead.
-/
import Verif.Calendar.Props

namespace Celest.Calendar

/-- The date `from_julian` gives while it lags: the day before, in a calendar whose February has
29 days. -/
def Date.lagging (t : Date) : Date :=
  if 1 < t.day then ⟨t.year, t.month, t.day - 1⟩
  else if t.month = 3 then ⟨t.year, 2, 29⟩
  else ⟨t.year, t.month - 1, monthLength t.year (t.month - 1)⟩

/-- The lag of a centennial common year is over: four times the days since 1 March make up for
three days in each century since 400. -/
def Date.CaughtUp (t : Date) : Prop :=
  3 * (t.year / 100 - 4) ≤ 4 * (t.ordinal - 60) + 3 - t.year / 100 % 4

instance (t : Date) : Decidable t.CaughtUp := by unfold Date.CaughtUp; infer_instance

theorem common_of_centennial (y : ℤ) (h : y % 100 = 0 ∧ y % 400 ≠ 0) :
    leap y = false ∧ leapDay y = 0 := by
  have hl : leap y = false := by rw [Bool.eq_false_iff, Ne, leap_iff]; omega
  exact ⟨hl, by unfold leapDay; rw [hl]; rfl⟩

/-- The two counts of centuries in a centennial common year, from March. -/
theorem longCentury_centennial (t : Date) (ht : t.Valid) (hn : 2299161 ≤ t.dayNumber)
    (hy : t.year ≤ 9999) (hc : t.year % 100 = 0 ∧ t.year % 400 ≠ 0) (hm : 3 ≤ t.month) :
    t.dayNumber = 365 * t.year + t.year / 4 - t.year / 100 + t.year / 400 + (t.ordinal - 60) +
      1721120 ∧ 0 ≤ t.ordinal - 60 ∧ t.ordinal - 60 ≤ 305 ∧
    century t.dayNumber = t.year / 100 - 4 ∧
    longCentury t.dayNumber = if t.CaughtUp then t.year / 100 - 4 else t.year / 100 - 5 := by
  obtain ⟨y, s, h0, h1, hN, hy', hs⟩ := dayNumber_march t ht
  have hcm := century_march y s h0 h1
  rw [if_neg (by omega)] at hy' hs
  obtain ⟨hl, -⟩ := common_of_centennial t.year hc
  have ho : t.ordinal - 60 = s := by
    unfold Date.ordinal
    rw [hl, if_neg (by simp)]
    omega
  have hs' : s ≤ 305 := by
    obtain ⟨g1, g2, g3, g4⟩ := ht
    have k : t.month < 12 → t.day ≤ beforeMonth (t.month + 1) - beforeMonth t.month := by
      intro h
      have := monthLength_eq t.year t.month g1 h
      rw [if_neg (by omega)] at this
      omega
    by_cases h12 : t.month = 12
    · rw [h12, monthLength_december] at g4
      have : beforeMonth t.month = 334 := by rw [h12]; rfl
      omega
    · have := k (by omega)
      have := beforeMonth_le (t.month + 1)
      omega
  rw [ho]
  subst hy'
  refine ⟨hN, h0, hs', by rw [hN]; exact hcm, ?_⟩
  have hiff : t.CaughtUp ↔ 3 * (t.year / 100 - 4) ≤ 4 * s + 3 - t.year / 100 % 4 := by
    unfold Date.CaughtUp; rw [ho]
  simp only [hiff]
  rw [hN]
  clear hiff
  obtain ⟨h, hh⟩ : ∃ h, t.year = 100 * h := ⟨t.year / 100, by omega⟩
  rw [hN] at hn
  rw [hh] at hc hn hy ⊢
  have e1 : 100 * h / 100 = h := by omega
  have e2 : 100 * h / 4 = 25 * h := by omega
  have e3 : 100 * h / 400 = h / 4 := by omega
  rw [e1, e2, e3] at hn ⊢
  clear hcm hN hs ho ht hh hm hl
  unfold longCentury
  have k : 4 * (365 * (100 * h) + 25 * h - h + h / 4 + s + 1721120) - 7468865 =
      146097 * (h - 4) + 4 * s - h % 4 + 3 := by omega
  rw [k]
  have b1 : 15 ≤ h ∧ h ≤ 99 := by omega
  split_ifs with hcu <;> omega

/-- C41, exactly, from March of every centennial common year up to 9999: `from_julian` is right if
and only if the lag is over, and until then gives the day before, with a 29 February. -/
theorem C41_centennial_years (t : Date) (ht : t.Valid) (hn : 2299161 ≤ t.dayNumber)
    (hy : t.year ≤ 9999) (hc : t.year % 100 = 0 ∧ t.year % 400 ≠ 0) (hm : 3 ≤ t.month) (f : ℚ)
    (h0 : 0 ≤ f) (h1 : f < 1) :
    fromJulian [(t.dayNumber : ℚ) - 1 / 2 + f] =
      .ok [if t.CaughtUp then (t.year, t.month, t.day + f)
        else (t.lagging.year, t.lagging.month, t.lagging.day + f)] := by
  obtain ⟨hN, hs0, hs1, hce, hlc⟩ := longCentury_centennial t ht hn hy hc hm
  obtain ⟨hl, hld⟩ := common_of_centennial t.year hc
  by_cases hcu : t.CaughtUp
  · rw [if_pos hcu] at hlc ⊢
    exact (C41_date_iff t ht hn f h0 h1).2 (by rw [hlc, hce])
  · rw [if_neg hcu] at hlc ⊢
    by_cases hfirst : t.month = 3 ∧ t.day = 1
    · obtain ⟨y, m, d⟩ := t
      obtain ⟨rfl, rfl⟩ := hfirst
      simp only at hc hy
      obtain ⟨h, rfl⟩ : ∃ h, y = 100 * h := ⟨y / 100, by omega⟩
      have h16 : 16 ≤ h := by
        simp only at hN hn
        have : Date.ordinal ⟨100 * h, 3, 1⟩ = 60 := by
          unfold Date.ordinal
          simp only [hl]
          rfl
        omega
      have := (C41_first_of_march h h16 (by omega) (by omega) f h0 h1).2.2.2.1
      rw [this]
      simp [Date.lagging]
    · obtain ⟨g1, g2, g3, g4⟩ := ht
      have hlag : t.lagging.Valid ∧ t.lagging.next = t ∧ t.lagging.year = t.year ∧
          3 ≤ t.lagging.month := by
        unfold Date.lagging
        by_cases hd : 1 < t.day
        · rw [if_pos hd]
          refine ⟨⟨g1, g2, by simp only; omega, by simp only; omega⟩, ?_, rfl, hm⟩
          unfold Date.next
          rw [if_pos (by simp only; omega)]
          cases t
          simp
        · have hm3 : t.month ≠ 3 := fun h => hfirst ⟨h, by omega⟩
          rw [if_neg hd, if_neg hm3]
          refine ⟨⟨by simp only; omega, by simp only; omega, monthLength_pos _ _, le_rfl⟩, ?_, rfl,
            by simp only; omega⟩
          unfold Date.next
          rw [if_neg (by simp), if_pos (by simp only; omega)]
          have : t.day = 1 := by omega
          cases t
          simp only at this
          simp [this]
      obtain ⟨l1, l2, l3, l4⟩ := hlag
      have hnum := (next_valid t.lagging l1).2
      rw [l2] at hnum
      have hjd := julianDate_dayNumber t.lagging l1
      have hce' : century t.lagging.dayNumber = t.year / 100 - 4 := by
        obtain ⟨y, s, k0, k1, kN, ky, -⟩ := dayNumber_march t.lagging l1
        rw [if_neg (by omega)] at ky
        rw [kN, century_march y s k0 k1, ← ky, l3]
      have hdn := dropped_nonneg t.dayNumber (by omega)
      rw [fromJulian_single _ f (by omega) h0 h1, calendarDate_eq _ _ (by omega)]
      have e : t.dayNumber + 1 + dropped (longCentury t.dayNumber) + 1524 =
          t.lagging.dayNumber + 1 + dropped (century t.lagging.dayNumber) + 1524 := by
        have h4 : t.year / 100 % 4 ≠ 0 := by omega
        rw [hlc, hce', hnum]
        unfold dropped
        clear hlc hce' hce hN hn hdn hjd hnum
        omega
      rw [e, hjd]

/-- In 1900 the dates of 1 to 12 March come out as 29 February to 11 March. -/
example : ¬ Date.CaughtUp ⟨1900, 3, 12⟩ ∧ Date.lagging ⟨1900, 3, 12⟩ = ⟨1900, 3, 11⟩ ∧
    Date.CaughtUp ⟨1900, 3, 13⟩ ∧
    fromJulian [(Date.dayNumber ⟨1900, 3, 12⟩ : ℚ)] = .ok [(1900, 3, 11 + 1 / 2)] ∧
    fromJulian [(Date.dayNumber ⟨1900, 3, 13⟩ : ℚ)] = .ok [(1900, 3, 13 + 1 / 2)] := by
  decide +kernel

/-- C43, exactly, for every date from 1582 to 9999: the day of the year is the ordinal date, except
that from March of a centennial common year it is one too large as soon as the lag of C41 is
over.  (Until then the wrong date and the wrong leap day make up for each other.) -/
theorem C43_day_of_year_exactly (t : Date) (ht : t.Valid) (hn : 2299161 ≤ t.dayNumber)
    (hy : t.year ≤ 9999) (f : ℚ) (h0 : 0 ≤ f) (h1 : f < 1) :
    dayOfYear [(t.dayNumber : ℚ) - 1 / 2 + f] =
      .ok [t.ordinal +
        if t.year % 100 = 0 ∧ t.year % 400 ≠ 0 ∧ 3 ≤ t.month ∧ t.CaughtUp then 1 else 0] := by
  unfold dayOfYear
  by_cases hc : t.year % 100 = 0 ∧ t.year % 400 ≠ 0 ∧ 3 ≤ t.month
  · obtain ⟨c1, c2, hm⟩ := hc
    rw [C41_centennial_years t ht hn hy ⟨c1, c2⟩ hm f h0 h1]
    by_cases hcu : t.CaughtUp
    · rw [if_pos hcu, if_pos ⟨c1, c2, hm, hcu⟩]
      have := dayOfYearOf_eq t ht f h0 h1
      rw [if_pos ⟨c1, c2, by omega⟩] at this
      show Except.ok [dayOfYearOf _] = _
      rw [this]
    · rw [if_neg hcu, if_neg (fun h => hcu h.2.2.2), add_zero]
      show Except.ok [dayOfYearOf _] = _
      congr 2
      obtain ⟨hl, -⟩ := common_of_centennial t.year ⟨c1, c2⟩
      obtain ⟨g1, g2, g3, g4⟩ := ht
      unfold Date.lagging
      by_cases hd : 1 < t.day
      · rw [if_pos hd]
        have hv : Date.Valid ⟨t.year, t.month, t.day - 1⟩ :=
          ⟨g1, g2, by simp only; omega, by simp only; omega⟩
        have := dayOfYearOf_eq _ hv f h0 h1
        rw [if_pos ⟨c1, c2, by simp only; omega⟩] at this
        rw [this]
        unfold Date.ordinal
        simp only
        omega
      · rw [if_neg hd]
        have hd1 : t.day = 1 := by omega
        by_cases hm3 : t.month = 3
        · rw [if_pos hm3]
          unfold dayOfYearOf Date.ordinal
          have hk : t.year % 4 = 0 := by omega
          simp only [hk, if_true, hl, hm3, hd1]
          have e1 : trunc ((275 * ((2 : ℤ) : ℚ)) / 9) = 61 := by decide +kernel
          have e2 : trunc ((((2 : ℤ) : ℚ) + 9) / 12) = 0 := by decide +kernel
          rw [e1, e2]
          have e3 : (((61 : ℤ) : ℚ) - ((1 : ℤ) : ℚ) * ((0 : ℤ) : ℚ) + (((29 : ℤ) : ℚ) + f) - 30) =
              ((60 : ℤ) : ℚ) + f := by push_cast; ring
          rw [e3, (trunc_add 60 f (by norm_num) h0 h1).1]
          rfl
        · rw [if_neg hm3]
          have hv : Date.Valid ⟨t.year, t.month - 1, monthLength t.year (t.month - 1)⟩ :=
            ⟨by simp only; omega, by simp only; omega, monthLength_pos _ _, le_rfl⟩
          have := dayOfYearOf_eq _ hv f h0 h1
          rw [if_pos ⟨c1, c2, by simp only; omega⟩] at this
          rw [this]
          have hml := monthLength_eq t.year (t.month - 1) (by omega) (by omega)
          rw [if_neg (by omega), sub_add_cancel] at hml
          unfold Date.ordinal
          simp only [hl, Bool.false_eq_true, false_and, if_false]
          omega
  · have hr : ¬ (t.year % 100 = 0 ∧ t.year % 400 ≠ 0 ∧ 3 ≤ t.month ∧ t.CaughtUp) :=
      fun h => hc ⟨h.1, h.2.1, h.2.2.1⟩
    rw [(C41_gregorian_date_partial t ht hn hy (fun h => hc ⟨h.1, h.2.1, h.2.2.1⟩) f h0 h1).1,
      if_neg hr]
    have := dayOfYearOf_eq t ht f h0 h1
    rw [if_neg (fun h => hc ⟨h.1, h.2.1, by omega⟩)] at this
    show Except.ok [dayOfYearOf _] = _
    rw [this]

/-- 12 and 13 March 1900 are days 71 and 72; the code says 71 and 73. -/
example : Date.ordinal ⟨1900, 3, 12⟩ = 71 ∧ Date.ordinal ⟨1900, 3, 13⟩ = 72 ∧
    dayOfYear [(Date.dayNumber ⟨1900, 3, 12⟩ : ℚ)] = .ok [71] ∧
    dayOfYear [(Date.dayNumber ⟨1900, 3, 13⟩ : ℚ)] = .ok [73] := by
  decide +kernel

end Celest.Calendar
