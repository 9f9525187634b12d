/-
Property C109: the calendar functions in floating-point arithmetic.
-/
import Verif.Calendar.Rounded
import Verif.Calendar.Props
import Mathlib.Tactic.IntervalCases

namespace Celest.Calendar.Rounded

local notation "fl" => binaryRound 53

/-! ### numbers that are stored exactly -/

/-- `m * 2 ^ e` with at most 53 bits in `m` is a float. -/
theorem fl_exact (x : ℚ) (m e : ℤ) (hm : |m| ≤ 2 ^ 53) (hx : x = m * 2 ^ e) : fl x = x := by
  have := binaryRound_nearest (p := 53) (by norm_num) x m e hm
  rw [← hx, sub_self, abs_zero] at this
  exact sub_eq_zero.1 (abs_eq_zero.1 (le_antisymm this (abs_nonneg _)))

theorem fl_int (n : ℤ) (hn : |n| ≤ 2 ^ 53) : fl (n : ℚ) = n :=
  fl_exact _ n 0 hn (by simp)

theorem fl_quarter (n : ℤ) (hn : |n| ≤ 2 ^ 53) : fl ((n : ℚ) / 4) = n / 4 :=
  fl_exact _ n (-2) hn (by norm_num; ring)

/-- A multiple of 2^-31 days, that is of about 40 microseconds. -/
def OnGrid (x : ℚ) : Prop := ∃ n : ℤ, x = n / 2 ^ 31

theorem OnGrid.add {x y : ℚ} (hx : OnGrid x) (hy : OnGrid y) : OnGrid (x + y) := by
  obtain ⟨n, rfl⟩ := hx
  obtain ⟨m, rfl⟩ := hy
  exact ⟨n + m, by push_cast; ring⟩

theorem onGrid_int (n : ℤ) : OnGrid n := ⟨n * 2 ^ 31, by norm_num⟩

theorem OnGrid.sub_int {x : ℚ} (hx : OnGrid x) (n : ℤ) : OnGrid (x - n) := by
  have := hx.add (onGrid_int (-n))
  push_cast at this
  rwa [← sub_eq_add_neg] at this

theorem OnGrid.fl_eq {x : ℚ} (hx : OnGrid x) (hb : |x| ≤ 2 ^ 22) : fl x = x := by
  obtain ⟨n, rfl⟩ := hx
  refine fl_exact _ n (-31) ?_ (by norm_num [zpow_neg]; ring)
  rw [abs_div, abs_of_pos (by norm_num : (0 : ℚ) < 2 ^ 31), div_le_iff₀ (by norm_num)] at hb
  have : ((|n| : ℤ) : ℚ) ≤ ((2 ^ 53 : ℤ) : ℚ) := by
    push_cast
    exact hb.trans (by norm_num)
  exact_mod_cast this

/-! ### truncation of rounded numbers -/

theorem trunc_of_floor {x : ℚ} (hx : 0 ≤ x) : trunc x = ⌊x⌋ := by
  unfold trunc; rw [if_pos hx]

/-- Rounding does not change the integer part of a number that is not just below an integer. -/
theorem trunc_fl (n : ℤ) (y : ℚ) (h0 : 0 ≤ n) (hn : n ≤ 2 ^ 40) (h1 : (n : ℚ) ≤ y)
    (h2 : y + y / 2 ^ 53 < n + 1) : trunc (fl y) = n := by
  have hy : 0 ≤ y := le_trans (by exact_mod_cast h0) h1
  have h3 := rounding_binary64.fl_le (x := y)
  rw [abs_of_nonneg hy] at h3
  have h4 := rounding_binary64.mono h1
  rw [fl_int n (by rw [abs_of_nonneg h0]; omega)] at h4
  have hn0 : (0 : ℚ) ≤ n := by exact_mod_cast h0
  rw [trunc_of_floor (hn0.trans h4), Int.floor_eq_iff]
  refine ⟨h4, lt_of_le_of_lt h3 ?_⟩
  linarith

/-- Distance of a fraction that is not an integer from the integers. -/
theorem frac_margin (p q : ℤ) (hq : 0 < q) (hnd : ¬ q ∣ p) :
    ((p / q : ℤ) : ℚ) + 1 / q ≤ (p : ℚ) / q ∧ (p : ℚ) / q + 1 / q ≤ ((p / q : ℤ) : ℚ) + 1 := by
  have hq' : (0 : ℚ) < q := by exact_mod_cast hq
  have h1 := Int.emod_add_mul_ediv p q
  have h2 := Int.emod_nonneg p hq.ne'
  have h3 := Int.emod_lt_of_pos p hq
  have h4 : p % q ≠ 0 := fun h => hnd (Int.dvd_of_emod_eq_zero h)
  have h5 : (p : ℚ) = (p % q : ℤ) + q * (p / q : ℤ) := by exact_mod_cast h1.symm
  have h6 : (1 : ℚ) ≤ (p % q : ℤ) := by exact_mod_cast (by omega : 1 ≤ p % q)
  have h7 : ((p % q : ℤ) : ℚ) + 1 ≤ q := by exact_mod_cast (by omega : p % q + 1 ≤ q)
  have e : (p : ℚ) / q = (p % q : ℤ) / q + (p / q : ℤ) := by
    rw [div_eq_iff hq'.ne', add_mul, div_mul_cancel₀ _ hq'.ne']
    linarith
  rw [e]
  have h8 : (1 : ℚ) / q ≤ (p % q : ℤ) / q := by gcongr
  have h9 : ((p % q : ℤ) : ℚ) / q + 1 / q ≤ 1 := by
    rw [← add_div, div_le_one hq']
    exact h7
  constructor <;> linarith

theorem trunc_div (p q : ℤ) (hp : 0 ≤ p) (hq : 0 < q) : trunc ((p : ℚ) / q) = p / q := by
  have hq' : (0 : ℚ) < q := by exact_mod_cast hq
  rw [trunc_of_floor (div_nonneg (by exact_mod_cast hp) hq'.le), Int.floor_eq_iff,
    le_div_iff₀ hq', div_lt_iff₀ hq']
  have h1 := Int.emod_add_mul_ediv p q
  have h2 := Int.emod_nonneg p hq.ne'
  have h3 := Int.emod_lt_of_pos p hq
  constructor
  · exact_mod_cast (by linarith : p / q * q ≤ p)
  · exact_mod_cast (by linarith : p < (p / q + 1) * q)

/-- The computed quotient of two integers has the integer part of the exact one. -/
theorem trunc_fl_div (p q : ℤ) (hp : 0 ≤ p) (hpb : p ≤ 2 ^ 40) (hq : 0 < q) (hqb : q ≤ 10 ^ 6) :
    trunc (fl ((p : ℚ) / q)) = p / q := by
  have hq' : (0 : ℚ) < q := by exact_mod_cast hq
  have hqb' : (q : ℚ) ≤ 10 ^ 6 := by exact_mod_cast hqb
  have hn : p / q ≤ 2 ^ 40 := (Int.ediv_le_self _ hp).trans hpb
  have hn0 : 0 ≤ p / q := Int.ediv_nonneg hp hq.le
  by_cases hd : q ∣ p
  · obtain ⟨k, rfl⟩ := hd
    rw [Int.mul_ediv_cancel_left _ hq.ne'] at hn hn0 ⊢
    have e : ((q * k : ℤ) : ℚ) / q = k := by
      push_cast
      rw [mul_div_cancel_left₀ _ hq'.ne']
    rw [e, fl_int k (by rw [abs_of_nonneg hn0]; omega),
      trunc_of_floor (by exact_mod_cast hn0), Int.floor_intCast]
  · obtain ⟨h1, h2⟩ := frac_margin p q hq hd
    have h3 : (0 : ℚ) < 1 / q := by positivity
    have h4 : (p : ℚ) / q / 2 ^ 53 < 1 / q := by
      rw [div_div, div_lt_div_iff₀ (by positivity) hq', one_mul]
      have : (p : ℚ) ≤ 2 ^ 40 := by exact_mod_cast hpb
      have h5 : (p : ℚ) * q ≤ 2 ^ 40 * q := by gcongr
      linarith
    exact trunc_fl _ _ hn0 hn (by linarith) (by linarith)

/-- The same when the quotient has been computed with a small error beforehand. -/
theorem trunc_fl_near (p q : ℤ) (hp : 0 ≤ p) (hpb : p ≤ 2 ^ 40) (hq : 0 < q) (hqb : q ≤ 10 ^ 6)
    (hnd : ¬ q ∣ p) (y : ℚ) (hy : |y - (p : ℚ) / q| ≤ 1 / 10 ^ 7) (hyb : y ≤ 10 ^ 6) :
    trunc (fl y) = p / q := by
  have hq' : (0 : ℚ) < q := by exact_mod_cast hq
  have hqb' : (q : ℚ) ≤ 10 ^ 6 := by exact_mod_cast hqb
  have hn : p / q ≤ 2 ^ 40 := (Int.ediv_le_self _ hp).trans hpb
  have hn0 : 0 ≤ p / q := Int.ediv_nonneg hp hq.le
  obtain ⟨h1, h2⟩ := frac_margin p q hq hnd
  have h3 : (1 : ℚ) / 10 ^ 6 ≤ 1 / q := by gcongr
  have h4 := abs_le.1 hy
  exact trunc_fl _ _ hn0 hn (by linarith [h4.1]) (by linarith [h4.2])

/-! ### the calendar -/

theorem gregorianShift_eq (a : ℤ) (h1 : 2291161 ≤ a) (h2 : a ≤ 5000000) :
    gregorianShift fl a = Calendar.gregorianShift a := by
  have e0 : fl (186721625 / 100) = 186721625 / 100 := by
    have := fl_quarter 7468865 (by norm_num)
    norm_num at this ⊢
    exact this
  have e1 : (a : ℚ) - 186721625 / 100 = ((4 * a - 7468865 : ℤ) : ℚ) / 4 := by
    push_cast; ring
  have e2 : fl ((a : ℚ) - 186721625 / 100) = a - 186721625 / 100 := by
    rw [e1]
    exact fl_quarter _ (by rw [abs_le]; constructor <;> omega)
  have e3 : ((a : ℚ) - 186721625 / 100) / 36525 = ((4 * a - 7468865 : ℤ) : ℚ) / (146100 : ℤ) := by
    push_cast; ring
  have hk : trunc (((4 * a - 7468865 : ℤ) : ℚ) / (146100 : ℤ)) = (4 * a - 7468865) / 146100 :=
    trunc_div _ _ (by omega) (by norm_num)
  unfold gregorianShift Calendar.gregorianShift
  simp only [e0, e2, e3, hk]
  rw [trunc_fl_div _ _ (by omega) (by omega) (by norm_num) (by norm_num), fl_quarter]
  rw [abs_le]
  constructor <;> omega

theorem calendarDate_eq (a : ℤ) (f : ℚ) (h1 : 0 ≤ a) (h2 : a ≤ 6000000) (hf : OnGrid f)
    (hf0 : 0 ≤ f) (hf1 : f < 1) : calendarDate fl a f = Calendar.calendarDate a f := by
  have q1 : |fl (1221 / 10) - 1221 / 10| ≤ 1 / 10 ^ 10 := by decide +kernel
  have q2 : fl (36525 / 100) = 36525 / 100 := by decide +kernel
  have q3 : |fl (306001 / 10000) - 306001 / 10000| ≤ 1 / 10 ^ 10 := by decide +kernel
  -- the year
  obtain ⟨b, hb⟩ : ∃ b, b = a + 1524 := ⟨_, rfl⟩
  have hbq : (1524 : ℚ) ≤ b ∧ (b : ℚ) ≤ 7000000 := by
    constructor
    · exact_mod_cast (by omega : 1524 ≤ b)
    · exact_mod_cast (by omega : b ≤ 7000000)
  obtain ⟨c, hc⟩ : ∃ c, c = (20 * b - 2442) / 7305 := ⟨_, rfl⟩
  have c0 : (b - 1221 / 10 : ℚ) / (36525 / 100) = ((20 * b - 2442 : ℤ) : ℚ) / (7305 : ℤ) := by
    push_cast; ring
  have c1 : trunc ((b - 1221 / 10 : ℚ) / (36525 / 100)) = c := by
    rw [c0, trunc_div _ _ (by omega) (by norm_num), hc]
  have c2 : trunc (fl (fl (b - fl (1221 / 10)) / fl (36525 / 100))) = c := by
    obtain ⟨v, hv⟩ : ∃ v, v = fl (1221 / 10) := ⟨_, rfl⟩
    have q1' := abs_le.1 q1
    rw [← hv] at q1' ⊢
    have hu : (0 : ℚ) ≤ b - v := by linarith [q1'.2]
    have h3 := rounding_binary64.error ((b : ℚ) - v)
    rw [abs_of_nonneg hu] at h3
    have h4 := abs_le.1 h3
    rw [hc, q2]
    refine trunc_fl_near _ _ (by omega) (by omega) (by norm_num) (by norm_num) (by omega) _ ?_ ?_
    · rw [← c0, ← sub_div, abs_div, abs_of_pos (by norm_num : (0 : ℚ) < 36525 / 100),
        div_le_iff₀ (by norm_num), abs_le]
      constructor <;> linarith [h4.1, h4.2, q1'.1, q1'.2]
    · rw [div_le_iff₀ (by norm_num)]
      linarith [h4.2, q1'.1]
  -- the day within the year
  obtain ⟨d, hd⟩ : ∃ d, d = 1461 * c / 4 := ⟨_, rfl⟩
  have d0 : (36525 / 100 : ℚ) * c = ((1461 * c : ℤ) : ℚ) / (4 : ℤ) := by push_cast; ring
  have d1 : trunc ((36525 / 100 : ℚ) * c) = d := by
    rw [d0, trunc_div _ _ (by omega) (by norm_num), hd]
  have d2 : trunc (fl (fl (36525 / 100) * c)) = d := by
    rw [q2, d0, trunc_fl_div _ _ (by omega) (by omega) (by norm_num) (by norm_num), hd]
  have hr : 122 ≤ b - d ∧ b - d ≤ 489 := by omega
  have hrq : (122 : ℚ) ≤ b - d ∧ (b - d : ℚ) ≤ 489 := by
    constructor
    · exact_mod_cast hr.1
    · exact_mod_cast hr.2
  -- the month
  obtain ⟨e, he⟩ : ∃ e, e = 10000 * (b - d) / 306001 := ⟨_, rfl⟩
  have e0 : (b - d : ℚ) / (306001 / 10000) = ((10000 * (b - d) : ℤ) : ℚ) / (306001 : ℤ) := by
    push_cast; ring
  obtain ⟨w, hw⟩ : ∃ w, w = fl (306001 / 10000) := ⟨_, rfl⟩
  have q3' := abs_le.1 q3
  rw [← hw] at q3'
  have hwp : (30 : ℚ) ≤ w := by linarith [q3'.1]
  have e1 : trunc ((b - d : ℚ) / (306001 / 10000)) = e := by
    rw [e0, trunc_div _ _ (by omega) (by norm_num), he]
  have e2 : trunc (fl ((b - d : ℚ) / w)) = e := by
    rw [he]
    refine trunc_fl_near _ _ (by omega) (by omega) (by norm_num) (by norm_num) (by omega) _ ?_ ?_
    · rw [← e0]
      have k : (b - d : ℚ) / w - (b - d) / (306001 / 10000) =
          (b - d) * (306001 / 10000 - w) / (w * (306001 / 10000)) := by
        field_simp
      rw [k, abs_div, abs_mul, abs_of_nonneg (by linarith : (0 : ℚ) ≤ b - d),
        abs_of_pos (by positivity : (0 : ℚ) < w * (306001 / 10000)), div_le_iff₀ (by positivity)]
      have k1 : |306001 / 10000 - w| ≤ 1 / 10 ^ 10 := by
        rw [abs_sub_comm, hw]; exact q3
      calc (b - d : ℚ) * |306001 / 10000 - w| ≤ 489 * (1 / 10 ^ 10) := by
            gcongr
            exact hrq.2
        _ ≤ 1 / 10 ^ 7 * (30 * (306001 / 10000)) := by norm_num
        _ ≤ _ := by gcongr
    · rw [div_le_iff₀ (by linarith)]
      linarith
  have her : 3 ≤ e ∧ e ≤ 15 := by omega
  have herq : (3 : ℚ) ≤ e ∧ (e : ℚ) ≤ 15 := by
    constructor
    · exact_mod_cast her.1
    · exact_mod_cast her.2
  -- the day
  have g0 : (306001 / 10000 : ℚ) * e = ((306001 * e : ℤ) : ℚ) / (10000 : ℤ) := by push_cast; ring
  have g1 : trunc ((306001 / 10000 : ℚ) * e) = 306001 * e / 10000 := by
    rw [g0, trunc_div _ _ (by omega) (by norm_num)]
  have g2 : trunc (fl (w * e)) = 306001 * e / 10000 := by
    refine trunc_fl_near _ _ (by omega) (by omega) (by norm_num) (by norm_num) (by omega) _ ?_ ?_
    · rw [← g0, ← sub_mul, abs_mul, abs_of_nonneg (by linarith : (0 : ℚ) ≤ e)]
      calc |w - 306001 / 10000| * (e : ℚ) ≤ 1 / 10 ^ 10 * 15 := by
            have k1 : |w - 306001 / 10000| ≤ 1 / 10 ^ 10 := by rw [hw]; exact q3
            have k2 : (0 : ℚ) ≤ e := by linarith
            exact mul_le_mul k1 herq.2 k2 (by norm_num)
        _ ≤ 1 / 10 ^ 7 := by norm_num
    · nlinarith [q3'.2]
  have hday : fl ((b - d - (306001 * e / 10000 : ℤ) : ℚ) + f) =
      (b - d - (306001 * e / 10000 : ℤ) : ℚ) + f := by
    have hi : (b - d - (306001 * e / 10000 : ℤ) : ℚ) = ((b - d - 306001 * e / 10000 : ℤ) : ℚ) := by
      push_cast; ring
    rw [hi]
    refine ((onGrid_int _).add hf).fl_eq ?_
    have k1 : ((b - d - 306001 * e / 10000 : ℤ) : ℚ) ≤ 1000 := by
      exact_mod_cast (by omega : b - d - 306001 * e / 10000 ≤ 1000)
    have k2 : (-1000 : ℚ) ≤ ((b - d - 306001 * e / 10000 : ℤ) : ℚ) := by
      exact_mod_cast (by omega : -1000 ≤ b - d - 306001 * e / 10000)
    rw [abs_le]
    constructor <;> linarith
  unfold calendarDate Calendar.calendarDate
  simp only [← hb]
  rw [← hw, c2, c1, d2, d1, e2, e1, g2, g1, hday]

theorem gregorianShift_bounds (a : ℤ) (h1 : 2291161 ≤ a) (h2 : a ≤ 5000000) :
    0 ≤ Calendar.gregorianShift a ∧ Calendar.gregorianShift a ≤ 6000000 := by
  have e3 : ((a : ℚ) - 186721625 / 100) / 36525 = ((4 * a - 7468865 : ℤ) : ℚ) / (146100 : ℤ) := by
    push_cast; ring
  have e4 : ∀ k : ℤ, (k : ℚ) / 4 = (k : ℚ) / (4 : ℤ) := fun k => by push_cast; ring
  unfold Calendar.gregorianShift
  simp only [e3]
  rw [trunc_div _ _ (by omega) (by norm_num), e4, trunc_div _ _ (by omega) (by norm_num)]
  constructor <;> omega

theorem zipWith_map_self {α β γ : Type} (F : β → α → γ) (g : α → β) (l : List α) :
    List.zipWith F (l.map g) l = l.map fun x => F (g x) x := by
  induction l with
  | nil => rfl
  | cons x l ih => simp [ih]

/-- The dates the theorems speak about: multiples of 2^-31 days from the epoch of the Julian
dates to the year 6771. -/
def Representable (x : ℚ) : Prop := OnGrid x ∧ 0 ≤ x ∧ x ≤ 4194303

theorem half : fl (1 / 2) = 1 / 2 := by decide +kernel

theorem onGrid_half : OnGrid (1 / 2) := ⟨2 ^ 30, by norm_num⟩

theorem Representable.jd {x : ℚ} (hx : Representable x) : fl (x + fl (1 / 2)) = x + 1 / 2 := by
  rw [half]
  refine (hx.1.add onGrid_half).fl_eq ?_
  have := hx.2
  rw [abs_of_nonneg (by linarith)]
  linarith

theorem Representable.trunc_bounds {x : ℚ} (hx : Representable x) :
    0 ≤ trunc (x + 1 / 2) ∧ trunc (x + 1 / 2) ≤ 5000000 := by
  have := hx.2
  rw [trunc_of_floor (by linarith)]
  refine ⟨Int.floor_nonneg.2 (by linarith), ?_⟩
  have h := Int.floor_le (x + 1 / 2)
  exact_mod_cast (by linarith : (⌊x + 1 / 2⌋ : ℚ) ≤ 5000000)

theorem fracPart_spec {x : ℚ} (hx : OnGrid x) :
    OnGrid (fracPart x) ∧ 0 ≤ fracPart x ∧ fracPart x < 1 := by
  unfold fracPart
  exact ⟨hx.sub_int _, by linarith [Int.floor_le x], by linarith [Int.lt_floor_add_one x]⟩

/-- Without rounding and with it the same dates come out. -/
theorem fromJulian_eq (l : List ℚ) (hl : ∀ x ∈ l, Representable x) :
    fromJulian fl l = Calendar.fromJulian l := by
  have hjd : (l.map fun x => fl (x + fl (1 / 2))) = l.map (· + 1 / 2) :=
    List.map_congr_left fun x hx => (hl x hx).jd
  unfold fromJulian Calendar.fromJulian
  rw [hjd]
  simp only [zipWith_map_self]
  simp only [List.map_map, List.length_map]
  split
  · rename_i hall
    refine congrArg Except.ok (List.map_congr_left fun x hx => ?_)
    have hb := (hl x hx).trunc_bounds
    have hlate : 2291161 ≤ trunc (x + 1 / 2) := by
      have := List.all_eq_true.1 hall (trunc (x + 1 / 2))
        (List.mem_map.2 ⟨x, hx, rfl⟩)
      simpa [late] using this
    have hg := gregorianShift_bounds _ hlate hb.2
    obtain ⟨f1, f2, f3⟩ := fracPart_spec ((hl x hx).1.add onGrid_half)
    simp only [Function.comp]
    rw [gregorianShift_eq _ hlate hb.2, calendarDate_eq _ _ hg.1 hg.2 f1 f2 f3]
  · split
    · refine congrArg Except.ok (List.map_congr_left fun x hx => ?_)
      have hb := (hl x hx).trunc_bounds
      obtain ⟨f1, f2, f3⟩ := fracPart_spec ((hl x hx).1.add onGrid_half)
      simp only [Function.comp]
      rw [calendarDate_eq _ _ hb.1 (by omega) f1 f2 f3]
    · rfl

/-- Month and day are small numbers, and the day has the resolution of the date. -/
theorem calendarDate_small (a : ℤ) (f : ℚ) (h1 : 0 ≤ a) (h2 : a ≤ 6000000) (hf : OnGrid f)
    (hf0 : 0 ≤ f) (hf1 : f < 1) :
    let t := Calendar.calendarDate a f
    (1 ≤ t.2.1 ∧ t.2.1 ≤ 15) ∧ OnGrid t.2.2 ∧ |t.2.2| ≤ 1001 := by
  obtain ⟨b, hb⟩ : ∃ b, b = a + 1524 := ⟨_, rfl⟩
  obtain ⟨c, hc⟩ : ∃ c, c = (20 * b - 2442) / 7305 := ⟨_, rfl⟩
  have c1 : trunc ((b - 1221 / 10 : ℚ) / (36525 / 100)) = c := by
    have c0 : (b - 1221 / 10 : ℚ) / (36525 / 100) = ((20 * b - 2442 : ℤ) : ℚ) / (7305 : ℤ) := by
      push_cast; ring
    rw [c0, trunc_div _ _ (by omega) (by norm_num), hc]
  obtain ⟨d, hd⟩ : ∃ d, d = 1461 * c / 4 := ⟨_, rfl⟩
  have d1 : trunc ((36525 / 100 : ℚ) * c) = d := by
    have d0 : (36525 / 100 : ℚ) * c = ((1461 * c : ℤ) : ℚ) / (4 : ℤ) := by push_cast; ring
    rw [d0, trunc_div _ _ (by omega) (by norm_num), hd]
  have hr : 122 ≤ b - d ∧ b - d ≤ 489 := by omega
  obtain ⟨e, he⟩ : ∃ e, e = 10000 * (b - d) / 306001 := ⟨_, rfl⟩
  have e1 : trunc ((b - d : ℚ) / (306001 / 10000)) = e := by
    have e0 : (b - d : ℚ) / (306001 / 10000) = ((10000 * (b - d) : ℤ) : ℚ) / (306001 : ℤ) := by
      push_cast; ring
    rw [e0, trunc_div _ _ (by omega) (by norm_num), he]
  have her : 3 ≤ e ∧ e ≤ 15 := by omega
  have g1 : trunc ((306001 / 10000 : ℚ) * e) = 306001 * e / 10000 := by
    have g0 : (306001 / 10000 : ℚ) * e = ((306001 * e : ℤ) : ℚ) / (10000 : ℤ) := by push_cast; ring
    rw [g0, trunc_div _ _ (by omega) (by norm_num)]
  unfold Calendar.calendarDate
  simp only [← hb]
  rw [c1, d1, e1, g1]
  have hi : (b - d - (306001 * e / 10000 : ℤ) : ℚ) = ((b - d - 306001 * e / 10000 : ℤ) : ℚ) := by
    push_cast; ring
  refine ⟨by split_ifs <;> omega, ?_, ?_⟩
  · rw [hi]
    exact (onGrid_int _).add hf
  · rw [hi]
    have k1 : ((b - d - 306001 * e / 10000 : ℤ) : ℚ) ≤ 1000 := by
      exact_mod_cast (by omega : b - d - 306001 * e / 10000 ≤ 1000)
    have k2 : (-1000 : ℚ) ≤ ((b - d - 306001 * e / 10000 : ℤ) : ℚ) := by
      exact_mod_cast (by omega : -1000 ≤ b - d - 306001 * e / 10000)
    rw [abs_le]
    constructor <;> linarith

/-- The dates that come out. -/
theorem fromJulian_small (l : List ℚ) (hl : ∀ x ∈ l, Representable x) (r : List (ℤ × ℤ × ℚ))
    (h : Calendar.fromJulian l = .ok r) :
    ∀ t ∈ r, (1 ≤ t.2.1 ∧ t.2.1 ≤ 15) ∧ OnGrid t.2.2 ∧ |t.2.2| ≤ 1001 := by
  unfold Calendar.fromJulian at h
  simp only [zipWith_map_self] at h
  simp only [List.map_map, List.length_map] at h
  split at h
  · rename_i hall
    cases h
    intro t ht
    obtain ⟨x, hx, rfl⟩ := List.mem_map.1 ht
    have hb := (hl x hx).trunc_bounds
    have hlate : 2291161 ≤ trunc (x + 1 / 2) := by
      have := List.all_eq_true.1 hall (trunc (x + 1 / 2))
        (List.mem_map.2 ⟨x, hx, rfl⟩)
      simpa [late] using this
    have hg := gregorianShift_bounds _ hlate hb.2
    obtain ⟨f1, f2, f3⟩ := fracPart_spec ((hl x hx).1.add onGrid_half)
    exact calendarDate_small _ _ hg.1 hg.2 f1 f2 f3
  · split at h
    · cases h
      intro t ht
      obtain ⟨x, hx, rfl⟩ := List.mem_map.1 ht
      have hb := (hl x hx).trunc_bounds
      obtain ⟨f1, f2, f3⟩ := fracPart_spec ((hl x hx).1.add onGrid_half)
      exact calendarDate_small _ _ hb.1 (hb.2.trans (by norm_num)) f1 f2 f3
    · cases h

theorem dayOfYearOf_eq (t : ℤ × ℤ × ℚ) (hm : 1 ≤ t.2.1 ∧ t.2.1 ≤ 15) (hg : OnGrid t.2.2)
    (hd : |t.2.2| ≤ 1001) : dayOfYearOf fl t = Calendar.dayOfYearOf t := by
  obtain ⟨y, m, day⟩ := t
  simp only at hm hg hd
  have e1 : (275 * m : ℚ) / 9 = ((275 * m : ℤ) : ℚ) / (9 : ℤ) := by push_cast; ring
  have e2 : (m + 9 : ℚ) / 12 = ((m + 9 : ℤ) : ℚ) / (12 : ℤ) := by push_cast; ring
  obtain ⟨k, hk⟩ : ∃ k : ℤ, k = if y % 4 = 0 then 1 else 2 := ⟨_, rfl⟩
  have hkb : 1 ≤ k ∧ k ≤ 2 := by rw [hk]; split_ifs <;> omega
  obtain ⟨n, hn⟩ : ∃ n : ℤ, n = 275 * m / 9 := ⟨_, rfl⟩
  obtain ⟨j, hj⟩ : ∃ j : ℤ, j = (m + 9) / 12 := ⟨_, rfl⟩
  have hjb : 0 ≤ j ∧ j ≤ 2 := by omega
  have hnb : 0 ≤ n ∧ n ≤ 1000 := by omega
  unfold dayOfYearOf Calendar.dayOfYearOf
  simp only [← hk]
  rw [e1, e2, trunc_div _ _ (by omega) (by norm_num), trunc_div _ _ (by omega) (by norm_num),
    trunc_fl_div _ _ (by omega) (by omega) (by norm_num) (by norm_num),
    trunc_fl_div _ _ (by omega) (by omega) (by norm_num) (by norm_num), ← hn, ← hj]
  have hkj : 0 ≤ k * j ∧ k * j ≤ 4 := by
    constructor
    · exact mul_nonneg (by omega) hjb.1
    · nlinarith
  have hi : (n - k * j : ℚ) = ((n - k * j : ℤ) : ℚ) := by push_cast; ring
  have hib : (-4 : ℚ) ≤ ((n - k * j : ℤ) : ℚ) ∧ ((n - k * j : ℤ) : ℚ) ≤ 1000 := by
    constructor
    · exact_mod_cast (by omega : -4 ≤ n - k * j)
    · exact_mod_cast (by omega : n - k * j ≤ 1000)
  have hd' := abs_le.1 hd
  rw [hi, ((onGrid_int _).add hg).fl_eq (by rw [abs_le]; constructor <;> linarith [hd'.1, hd'.2])]
  have h30 := ((onGrid_int (n - k * j)).add hg).sub_int 30
  push_cast at h30 ⊢
  push_cast at hib
  rw [h30.fl_eq (by rw [abs_le]; constructor <;> linarith [hd'.1, hd'.2])]

/-! ### C109 -/

/-- Floats from the year 1029 to the year 6771 are multiples of 2^-31. -/
theorem onGrid_of_isFloat {x : ℚ} (h : IsFloat fl x) (h1 : 2097152 ≤ x) (h2 : x ≤ 4194303) :
    Representable x := by
  refine ⟨?_, by linarith, h2⟩
  have hx : 0 < x := by linarith
  have hlog : Int.log 2 |x| = 21 := by
    rw [abs_of_pos hx]
    have k1 := (Int.zpow_le_iff_le_log (b := 2) (by norm_num) hx (x := 21)).1
      (le_trans (by norm_num) h1)
    have k2 := (Int.lt_zpow_iff_log_lt (b := 2) (by norm_num) hx (x := 22)).1
      (lt_of_le_of_lt h2 (by norm_num))
    omega
  unfold IsFloat binaryRound at h
  rw [hlog] at h
  refine ⟨nearestEven (x / 2 ^ (21 + 1 - ((53 : ℕ) : ℤ))), h.symm.trans ?_⟩
  have : (2 : ℚ) ^ (21 + 1 - ((53 : ℕ) : ℤ)) = 1 / 2 ^ 31 := by norm_num
  rw [this, mul_one_div]

/-- **C109.** `from_julian` and `day_of_year` give in Python's arithmetic exactly what they give in
exact arithmetic, for every array of dates from the year 1029 to the year 6771. -/
theorem C109_python_floats_exact (l : List ℚ)
    (hl : ∀ x ∈ l, IsFloat fl x ∧ 2097152 ≤ x ∧ x ≤ 4194303) :
    fromJulian fl l = Calendar.fromJulian l ∧ dayOfYear fl l = Calendar.dayOfYear l := by
  have hl' : ∀ x ∈ l, Representable x := fun x hx =>
    onGrid_of_isFloat (hl x hx).1 (hl x hx).2.1 (hl x hx).2.2
  have h := fromJulian_eq l hl'
  refine ⟨h, ?_⟩
  unfold dayOfYear Calendar.dayOfYear
  rw [h]
  cases hr : Calendar.fromJulian l with
  | error e => rfl
  | ok r =>
    refine congrArg Except.ok (List.map_congr_left fun t ht => ?_)
    obtain ⟨s1, s2, s3⟩ := fromJulian_small l hl' r hr t ht
    exact dayOfYearOf_eq t s1 s2 s3

/-- The microseconds added to midnight, for a fraction of a day with the resolution of the dates:
they are within 0.51 microseconds of the fraction and never make up a whole day. -/
theorem microseconds_spec {f : ℚ} (hf : OnGrid f) (h0 : 0 ≤ f) (h1 : f < 1) :
    |(microseconds fl f : ℚ) - 86400000000 * f| ≤ 51 / 100 ∧
      0 ≤ microseconds fl f ∧ microseconds fl f < 86400000000 := by
  have e1 := abs_le.1 (nearestEven_error (fl (86400000000 * f)))
  have e2 := abs_le.1 (rounding_binary64.error (86400000000 * f))
  rw [abs_of_nonneg (by linarith)] at e2
  have hb : |(microseconds fl f : ℚ) - 86400000000 * f| ≤ 51 / 100 := by
    unfold microseconds
    rw [abs_le]
    constructor <;> linarith [e1.1, e1.2, e2.1, e2.2]
  refine ⟨hb, ?_, ?_⟩
  · have h := nearestEven_mono (rounding_binary64.fl_nonneg (x := 86400000000 * f) (by linarith))
    have hz : nearestEven 0 = 0 := by exact_mod_cast nearestEven_int 0
    rw [hz] at h
    exact h
  · obtain ⟨n, rfl⟩ := hf
    have hn : n < 2 ^ 31 := by
      rw [div_lt_one (by norm_num)] at h1
      exact_mod_cast h1
    have hn' : (n : ℚ) ≤ 2 ^ 31 - 1 := by exact_mod_cast (by omega : n ≤ 2 ^ 31 - 1)
    have : (microseconds fl (n / 2 ^ 31) : ℚ) < (86400000000 : ℤ) := by
      push_cast
      linarith [(abs_le.1 hb).2]
    exact_mod_cast this

/-- `Time.datetime` in Python's arithmetic raises when it raises in exact arithmetic, gives the
same dates, and times of the day that are within 0.51 microseconds. -/
theorem C109_datetime (l : List ℚ) (hl : ∀ x ∈ l, IsFloat fl x ∧ 2097152 ≤ x ∧ x ≤ 4194303) :
    match Calendar.datetimes l with
    | .error e => datetimes fl l = .error e
    | .ok r => ∃ r', datetimes fl l = .ok r' ∧ List.Forall₂ (fun p q => q.1 = p.1 ∧
        0 ≤ q.2 ∧ q.2 < 86400000000 ∧ |(q.2 : ℚ) - 86400000000 * p.2| ≤ 51 / 100) r r' := by
  have hl' : ∀ x ∈ l, Representable x := fun x hx =>
    onGrid_of_isFloat (hl x hx).1 (hl x hx).2.1 (hl x hx).2.2
  unfold datetimes Calendar.datetimes
  rw [fromJulian_eq l hl']
  cases hr : Calendar.fromJulian l with
  | error e => rfl
  | ok r =>
    have hs := fromJulian_small l hl' r hr
    clear hr
    simp only
    induction r with
    | nil => exact ⟨[], rfl, .nil⟩
    | cons t r ih =>
      have ih := ih fun t ht => hs t (List.mem_cons_of_mem _ ht)
      obtain ⟨f1, f2, f3⟩ := fracPart_spec (hs t List.mem_cons_self).2.1
      obtain ⟨m1, m2, m3⟩ := microseconds_spec f1 f2 f3
      simp only [List.mapM_cons]
      cases pyDate t.1 t.2.1 (trunc t.2.2) with
      | error e => rfl
      | ok d =>
        generalize (r.mapM fun t => (pyDate t.1 t.2.1 (trunc t.2.2)).map
          fun d => (d, fracPart t.2.2)) = A at ih ⊢
        generalize (r.mapM fun t => (pyDate t.1 t.2.1 (trunc t.2.2)).map
          fun d => (d, microseconds fl (fracPart t.2.2))) = B at ih ⊢
        cases A with
        | error e =>
          simp only at ih
          rw [ih]
          rfl
        | ok A =>
          obtain ⟨r', rfl, h⟩ := ih
          exact ⟨_, rfl, .cons ⟨rfl, m2, m3, m1⟩ h⟩

/-- Away from the defect of C41, Python's date is the Gregorian date of the given Julian date, and
the time of the day is right to 0.51 microseconds. -/
theorem C109_gregorian_datetime_partial (t : Date) (ht : t.Valid) (hn : 2299161 ≤ t.dayNumber)
    (hy : t.year ≤ 6770)
    (hc : ¬ (t.year % 100 = 0 ∧ t.year % 400 ≠ 0 ∧ 3 ≤ t.month ∧ t.month ≤ 5)) (f : ℚ)
    (h0 : 0 ≤ f) (h1 : f < 1) (hx : IsFloat fl ((t.dayNumber : ℚ) - 1 / 2 + f)) :
    ∃ us : ℤ, datetimes fl [(t.dayNumber : ℚ) - 1 / 2 + f] = .ok [((t.year, t.month, t.day), us)] ∧
      0 ≤ us ∧ us < 86400000000 ∧ |(us : ℚ) - 86400000000 * f| ≤ 51 / 100 := by
  have hN : t.dayNumber ≤ 4194302 := by
    have h2 := beforeMonth_le t.month
    have h3 : monthLength t.year t.month ≤ 31 := by unfold monthLength; split_ifs <;> norm_num
    have h4 := ht.2.2.2
    unfold Date.dayNumber Date.ordinal
    split_ifs <;> omega
  have hNq : (t.dayNumber : ℚ) ≤ 4194302 := by exact_mod_cast hN
  have hnq : (2299161 : ℚ) ≤ t.dayNumber := by exact_mod_cast hn
  have h := C109_datetime [(t.dayNumber : ℚ) - 1 / 2 + f] (by
    intro x hxm
    rw [List.mem_singleton.1 hxm]
    exact ⟨hx, by linarith, by linarith⟩)
  rw [(C41_gregorian_date_partial t ht hn (by omega) hc f h0 h1).2] at h
  obtain ⟨r', hr, hf⟩ := h
  cases hf with
  | cons hp htl =>
    cases htl
    rename_i q
    obtain ⟨d, us⟩ := q
    obtain ⟨rfl, h2, h3, h4⟩ := hp
    exact ⟨us, hr, h2, h3, h4⟩

/-- The day of the year is right in Python's arithmetic, outside the years C43 excludes. -/
theorem C109_ordinal_partial (t : Date) (ht : t.Valid) (hn : 2299161 ≤ t.dayNumber)
    (hy : t.year ≤ 6770) (hc : ¬ (t.year % 100 = 0 ∧ t.year % 400 ≠ 0)) (f : ℚ)
    (h0 : 0 ≤ f) (h1 : f < 1) (hx : IsFloat fl ((t.dayNumber : ℚ) - 1 / 2 + f)) :
    dayOfYear fl [(t.dayNumber : ℚ) - 1 / 2 + f] = .ok [t.ordinal] := by
  have hN : t.dayNumber ≤ 4194302 := by
    have h2 := beforeMonth_le t.month
    have h3 : monthLength t.year t.month ≤ 31 := by unfold monthLength; split_ifs <;> norm_num
    have h4 := ht.2.2.2
    unfold Date.dayNumber Date.ordinal
    split_ifs <;> omega
  have hNq : (t.dayNumber : ℚ) ≤ 4194302 := by exact_mod_cast hN
  have hnq : (2299161 : ℚ) ≤ t.dayNumber := by exact_mod_cast hn
  rw [(C109_python_floats_exact _ (by
    intro x hxm
    rw [List.mem_singleton.1 hxm]
    exact ⟨hx, by linarith, by linarith⟩)).2]
  exact C43_ordinal_partial t ht hn (by omega) hc f h0 h1

/-- Distinct dates of one day get distinct times, in the same order, although times of the day are
whole microseconds: the dates are no finer than 40 microseconds. -/
theorem C109_times_keep_order (f g : ℚ) (hf : OnGrid f) (hg : OnGrid g) (h0 : 0 ≤ f) (hfg : f < g)
    (h1 : g < 1) : microseconds fl f + 39 ≤ microseconds fl g := by
  have m1 := (abs_le.1 (microseconds_spec hf h0 (hfg.trans h1)).1).2
  have m2 := (abs_le.1 (microseconds_spec hg (h0.trans hfg.le) h1).1).1
  obtain ⟨n, rfl⟩ := hf
  obtain ⟨m, rfl⟩ := hg
  have hnm : n < m := by
    rw [div_lt_div_iff_of_pos_right (by norm_num)] at hfg
    exact_mod_cast hfg
  have hnm' : (n : ℚ) + 1 ≤ m := by exact_mod_cast hnm
  have : ((microseconds fl (n / 2 ^ 31) + 39 : ℤ) : ℚ) ≤ microseconds fl (m / 2 ^ 31) := by
    push_cast
    linarith
  exact_mod_cast this

/-- The documented example: 24 August 2021, 8:24:00.000008, and 1 January 2013,
0:59:59.999987. -/
example : let l := [2455368.75, fl 2459450.85, fl 2456293.5416666665]
    (∀ x ∈ l, IsFloat fl x ∧ 2097152 ≤ x ∧ x ≤ 4194303) ∧
    datetimes fl l = .ok [((2010, 6, 21), 6 * 3600000000),
      ((2021, 8, 24), (8 * 60 + 24) * 60000000 + 8), ((2013, 1, 1), 3600000000 - 13)] ∧
    dayOfYear fl l = .ok [172, 236, 1] := by
  decide +kernel

example : Date.Valid ⟨2021, 8, 24⟩ ∧ 2299161 ≤ Date.dayNumber ⟨2021, 8, 24⟩ ∧
    IsFloat fl ((Date.dayNumber ⟨2021, 8, 24⟩ : ℤ) - 1 / 2 + 3 / 8) := by decide +kernel

end Celest.Calendar.Rounded
