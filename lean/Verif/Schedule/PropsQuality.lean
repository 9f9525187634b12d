/-
Image quality and look angle: C21, C22.
-/
import Verif.Schedule.LemmasInsert
import Mathlib.Algebra.Order.Field.Basic

namespace Celest.Schedule

/-! ### C21 -/

/-- **C21.** For every proper window and every instant in it the image quality is an integer
from 1 to 10, and it is 10 exactly at the midpoint of the window. -/
theorem C21_range_and_peak (v : VTW) (hv : v.rise < v.set) (s : ℚ) (h1 : v.rise ≤ s)
    (h2 : s ≤ v.set) :
    ∃ q : ℤ, imageQuality v s = .ok q ∧ 1 ≤ q ∧ q ≤ 10 ∧ (q = 10 ↔ s = (v.rise + v.set) / 2) := by
  have hpos : 0 < (v.rise + v.set) / 2 - v.rise := by linarith
  unfold imageQuality
  simp only
  rw [if_neg hpos.ne']
  refine ⟨_, rfl, ?_, ?_, ?_⟩
  · rw [Int.le_floor]
    have habs : |s - (v.rise + v.set) / 2| ≤ (v.rise + v.set) / 2 - v.rise := by
      rw [abs_le]; constructor <;> linarith
    have : 9 * |s - (v.rise + v.set) / 2| / ((v.rise + v.set) / 2 - v.rise) ≤ 9 := by
      rw [div_le_iff₀ hpos]; linarith
    push_cast
    linarith
  · rw [← Int.lt_add_one_iff, Int.floor_lt]
    have : 0 ≤ 9 * |s - (v.rise + v.set) / 2| / ((v.rise + v.set) / 2 - v.rise) := by positivity
    push_cast
    linarith
  · constructor
    · intro h
      have hle : (10 : ℚ) ≤ 10 - 9 * |s - (v.rise + v.set) / 2| / ((v.rise + v.set) / 2 - v.rise) := by
        have := Int.floor_le (10 - 9 * |s - (v.rise + v.set) / 2| /
          ((v.rise + v.set) / 2 - v.rise))
        rw [h] at this
        push_cast at this
        exact this
      have h0 : 9 * |s - (v.rise + v.set) / 2| / ((v.rise + v.set) / 2 - v.rise) ≤ 0 := by linarith
      rw [div_le_iff₀ hpos] at h0
      have : |s - (v.rise + v.set) / 2| = 0 := le_antisymm (by linarith) (abs_nonneg _)
      rw [abs_eq_zero] at this
      linarith
    · intro h
      rw [h]
      simp

/-- **C21.** Quality is symmetric about the midpoint and never increases with the distance
from it; instants anywhere, also outside the window. -/
theorem C21_symmetric_and_monotone (v : VTW) (hv : v.rise < v.set) (s t : ℚ)
    (h : |s - (v.rise + v.set) / 2| ≤ |t - (v.rise + v.set) / 2|) :
    ∃ p q : ℤ, imageQuality v s = .ok p ∧ imageQuality v t = .ok q ∧ q ≤ p ∧
      (|s - (v.rise + v.set) / 2| = |t - (v.rise + v.set) / 2| → q = p) := by
  have hpos : 0 < (v.rise + v.set) / 2 - v.rise := by linarith
  unfold imageQuality
  simp only
  rw [if_neg hpos.ne', if_neg hpos.ne']
  refine ⟨_, _, rfl, rfl, ?_, fun he => by rw [he]⟩
  apply Int.floor_le_floor
  have : 9 * |s - (v.rise + v.set) / 2| / ((v.rise + v.set) / 2 - v.rise) ≤
      9 * |t - (v.rise + v.set) / 2| / ((v.rise + v.set) / 2 - v.rise) := by
    apply div_le_div_of_nonneg_right _ hpos.le
    linarith
  linarith

/-- **C21.** The start time proposed without a look angle always has quality at least 7 when
the observation fits the window. -/
theorem C21_default_quality (v : VTW) (d : ℚ) (hd : 0 ≤ d)
    (hfit : isWithinBounds ((v.rise + v.set + d) / 2) d v = true) :
    ∃ q : ℤ, imageQuality v ((v.rise + v.set + d) / 2) = .ok q ∧ 7 ≤ q := by
  simp only [isWithinBounds, Bool.and_eq_true, decide_eq_true_eq] at hfit
  obtain ⟨h1, h2⟩ := hfit
  have hpos : 0 < (v.rise + v.set) / 2 - v.rise := by linarith
  unfold imageQuality
  simp only
  rw [if_neg hpos.ne']
  refine ⟨_, rfl, ?_⟩
  rw [Int.le_floor]
  have e : |(v.rise + v.set + d) / 2 - (v.rise + v.set) / 2| = d / 2 := by
    rw [abs_of_nonneg] <;> [ring; linarith]
  rw [e]
  have : 9 * (d / 2) / ((v.rise + v.set) / 2 - v.rise) ≤ 3 := by
    rw [div_le_iff₀ hpos]; linarith
  push_cast
  linarith

/-- Non-vacuity for C21: the grades over a window of length 20. -/
example : [0, 3, 5, 9, 10, 11, 15, 20].map (imageQuality ⟨0, 20, [], []⟩) =
    [.ok 1, .ok 3, .ok 5, .ok 9, .ok 10, .ok 9, .ok 5, .ok 1] := by decide +kernel

/-- **C21** does not extend to degenerate windows: with rise = set the computation divides by
zero. -/
theorem C21_degenerate_window (v : VTW) (hv : v.rise = v.set) (s : ℚ) :
    imageQuality v s = .error .zeroDivisionError := by
  unfold imageQuality
  simp only
  rw [if_pos (by rw [hv]; ring)]

/-! ### C22 -/

/-- The bisection from a bracketing pair ends at a sample `i` that brackets together with its
successor, whatever fuel `≥ right - left` is given. -/
theorem bisect_bracket (f : ℕ → ℚ) : ∀ (fuel l r : ℕ), r - l ≤ fuel → l < r → f l * f r ≤ 0 →
    l ≤ bisect f fuel l r (f l) ∧ bisect f fuel l r (f l) < r ∧
      f (bisect f fuel l r (f l)) * f (bisect f fuel l r (f l) + 1) ≤ 0 := by
  intro fuel
  induction fuel with
  | zero => intro l r h1 h2; omega
  | succ fuel ih =>
    intro l r h1 h2 h3
    unfold bisect
    split
    · rename_i hgt
      simp only
      have hm1 : l < (l + r) / 2 := by omega
      have hm2 : (l + r) / 2 < r := by omega
      split
      · rename_i hpos
        have hbr : f ((l + r) / 2) * f r ≤ 0 := by
          rcases pos_and_pos_or_neg_and_neg_of_mul_pos hpos with ⟨ha, hb⟩ | ⟨ha, hb⟩
          · have : f r ≤ 0 := by
              by_contra hc
              rw [not_le] at hc
              have := mul_pos ha hc
              linarith
            exact mul_nonpos_of_nonneg_of_nonpos hb.le this
          · have : 0 ≤ f r := by
              by_contra hc
              rw [not_le] at hc
              have := mul_pos_of_neg_of_neg ha hc
              linarith
            exact mul_nonpos_of_nonpos_of_nonneg hb.le this
        obtain ⟨a, b, c⟩ := ih ((l + r) / 2) r (by omega) hm2 hbr
        exact ⟨by omega, b, c⟩
      · rename_i hnpos
        obtain ⟨a, b, c⟩ := ih l ((l + r) / 2) (by omega) hm1 (not_lt.1 hnpos)
        exact ⟨a, by omega, c⟩
    · have : r = l + 1 := by omega
      subst this
      exact ⟨le_rfl, by omega, h3⟩

/-- The bisection loop stops by its own test: more fuel than `right - left` changes nothing. -/
theorem bisect_exits (f : ℕ → ℚ) : ∀ (fuel l r : ℕ) (x : ℚ), r - l ≤ fuel →
    bisect f fuel l r x = bisect f (r - l) l r x := by
  have key : ∀ (n fuel l r : ℕ) (x : ℚ), r - l ≤ n → r - l ≤ fuel →
      bisect f fuel l r x = bisect f n l r x := by
    intro n
    induction n with
    | zero =>
      intro fuel l r x h1 h2
      cases fuel with
      | zero => rfl
      | succ fuel =>
        have : ¬ 1 < r - l := by omega
        simp [bisect, this]
    | succ n ih =>
      intro fuel l r x h1 h2
      cases fuel with
      | zero =>
        have : ¬ 1 < r - l := by omega
        simp [bisect, this]
      | succ fuel =>
        unfold bisect
        split
        · simp only
          rw [ih fuel _ _ _ (by omega) (by omega), ih fuel _ _ _ (by omega) (by omega)]
        · rfl
  intro fuel l r x h
  exact key (r - l) fuel l r x le_rfl h

/-- **C22.** Suppose the window's rise and set times are the samples number `l < r` of the
attitude series and the pitch series covers them.  Then the search always returns: nothing
exactly when the end values lie strictly on the same side of the requested angle; and
otherwise the time of a sample `i` in `[l, r)` such that the requested angle lies between the
values at `i` and `i + 1`. -/
theorem C22_bisection (pitch julian : List ℚ) (desired start stop : ℚ) (l r : ℕ) (hlr : l < r)
    (hl : julian.idxOf? start = some l) (hr : julian.idxOf? stop = some r)
    (hlen : r < pitch.length) (a b : ℚ) (ha : pitch[l]? = some a) (hb : pitch[r]? = some b) :
    ∃ res, lookAngleTime pitch desired julian start stop = .ok res ∧
      (res = none ↔ (a < desired ∧ b < desired) ∨ (desired < a ∧ desired < b)) ∧
      ∀ t, res = some t → ∃ i x y, l ≤ i ∧ i < r ∧ julian[i]? = some t ∧ pitch[i]? = some x ∧
        pitch[i + 1]? = some y ∧ (x ≤ desired ∧ desired ≤ y ∨ y ≤ desired ∧ desired ≤ x) := by
  unfold lookAngleTime
  rw [hl, hr]
  simp only [ha, hb]
  have hsign : 0 < (a - desired) * (b - desired) ↔
      (a < desired ∧ b < desired) ∨ (desired < a ∧ desired < b) := by
    rw [mul_pos_iff]
    constructor
    · rintro (⟨h1, h2⟩ | ⟨h1, h2⟩)
      · right; constructor <;> linarith
      · left; constructor <;> linarith
    · rintro (⟨h1, h2⟩ | ⟨h1, h2⟩)
      · right; constructor <;> linarith
      · left; constructor <;> linarith
  split
  · rename_i hpos
    exact ⟨none, rfl, iff_of_true rfl (hsign.1 hpos), by simp⟩
  · rename_i hneg
    have hgl : pitch.getD l 0 = a := by
      rw [List.getD_eq_getElem?_getD, ha]; rfl
    have hgr : pitch.getD r 0 = b := by
      rw [List.getD_eq_getElem?_getD, hb]; rfl
    have hbr := bisect_bracket (fun k => pitch.getD k 0 - desired) (r - l) l r le_rfl hlr
      (by simp only [hgl, hgr]; exact not_lt.1 hneg)
    simp only [hgl] at hbr
    obtain ⟨h1, h2, h3⟩ := hbr
    generalize bisect (fun k => pitch.getD k 0 - desired) (r - l) l r (a - desired) = i at h1 h2 h3
    have hjr : r < julian.length := by
      obtain ⟨h, -⟩ := List.idxOf?_eq_some_iff.1 hr
      exact h
    rw [List.getElem?_eq_getElem (show i < julian.length by omega)]
    refine ⟨_, rfl, iff_of_false (by simp) (fun h => hneg (hsign.2 h)), ?_⟩
    intro t ht
    simp only [Option.some.injEq] at ht
    refine ⟨i, pitch[i], pitch[i + 1], h1, h2, ?_, List.getElem?_eq_getElem _,
      List.getElem?_eq_getElem _, ?_⟩
    · rw [← ht, List.getElem?_eq_getElem (show i < julian.length by omega)]
    · rw [List.getD_eq_getElem?_getD, List.getD_eq_getElem?_getD,
        List.getElem?_eq_getElem (show i < pitch.length by omega),
        List.getElem?_eq_getElem (show i + 1 < pitch.length by omega)] at h3
      simp only [Option.getD_some] at h3
      rcases mul_nonpos_iff.1 h3 with ⟨h, h'⟩ | ⟨h, h'⟩
      · right; constructor <;> linarith
      · left; constructor <;> linarith

/-- **C22 (failure).** If the window's rise or set time is not itself a sample of the attitude
series, the search raises `IndexError`. -/
theorem C22_needs_samples (pitch julian : List ℚ) (desired start stop : ℚ)
    (h : start ∉ julian ∨ stop ∉ julian) :
    lookAngleTime pitch desired julian start stop = .error .indexError := by
  unfold lookAngleTime
  rcases h with h | h
  · rw [List.idxOf?_eq_none_iff.2 h]
  · rw [List.idxOf?_eq_none_iff.2 h]
    split <;> simp_all

/-- Non-vacuity for C22. -/
example : lookAngleTime [10, 20, 30, 40, 50] 35 [0, 1, 2, 3, 4] 0 4 = .ok (some 2) ∧
    lookAngleTime [10, 20, 30, 40, 50] 60 [0, 1, 2, 3, 4] 0 4 = .ok none := by decide +kernel

end Celest.Schedule
