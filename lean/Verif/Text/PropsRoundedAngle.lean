/-
Property C129: the text of a ground location in double precision.
-/
import Verif.Text.RoundedAngle
import Verif.Text.LemmasRoundedAngle
import Verif.Text.PropsAngle

namespace Celest.Text

/-! ### specification: reading an angle -/

/-- The text `s` shows the angle of `a` degrees: `D°M′S.CC″` with `a = D + M/60 + S.CC/3600`. -/
def ShowsAngle (s : Str) (a : ℚ) : Prop :=
  ∃ (sd sm ss sc : Str) (D M S C : ℕ),
    s = sd ++ '°' :: (sm ++ '′' :: (ss ++ '.' :: (sc ++ ['″']))) ∧
    IsNumeral sd D ∧ IsNumeral sm M ∧ IsNumeral ss S ∧ IsNumeral sc C ∧ sc.length = 2 ∧
    a = D + M / 60 + (S + C / 100) / 3600

/-- What precedes the first character without property `p` is determined by the text. -/
theorem split_first {p : Char → Prop} : ∀ {s s' : Str} {c c' : Char} {r r' : Str},
    (∀ x ∈ s, p x) → (∀ x ∈ s', p x) → ¬ p c → ¬ p c' → s ++ c :: r = s' ++ c' :: r' →
    s = s' ∧ c = c' ∧ r = r'
  | [], [], c, c', r, r', _, _, _, _, h => by simpa using h
  | [], b :: s', c, c', r, r', _, h2, h3, _, h => by
    simp only [List.nil_append, List.cons_append, List.cons.injEq] at h
    exact absurd (h.1 ▸ h2 b (by simp)) h3
  | a :: s, [], c, c', r, r', h1, _, _, h4, h => by
    simp only [List.nil_append, List.cons_append, List.cons.injEq] at h
    exact absurd (h.1 ▸ h1 a (by simp)) h4
  | a :: s, b :: s', c, c', r, r', h1, h2, h3, h4, h => by
    simp only [List.cons_append, List.cons.injEq] at h
    obtain ⟨i1, i2, i3⟩ := split_first (fun x hx => h1 x (by simp [hx]))
      (fun x hx => h2 x (by simp [hx])) h3 h4 h.2
    exact ⟨by rw [h.1, i1], i2, i3⟩

/-- A text shows at most one angle. -/
theorem ShowsAngle.unique {s : Str} {a b : ℚ} (ha : ShowsAngle s a) (hb : ShowsAngle s b) :
    a = b := by
  obtain ⟨sd, sm, ss, sc, D, M, S, C, rfl, h1, h2, h3, h4, -, rfl⟩ := ha
  obtain ⟨td, tm, ts, tc, D', M', S', C', e, k1, k2, k3, k4, -, rfl⟩ := hb
  have nd : ∀ c : Char, c = '°' ∨ c = '′' ∨ c = '.' ∨ c = '″' → ¬ c.isDigit = true := by
    rintro c (rfl | rfl | rfl | rfl) <;> decide
  obtain ⟨rfl, -, e⟩ := split_first (p := fun c => c.isDigit = true) h1.1 k1.1 (nd _ (by simp))
    (nd _ (by simp)) e
  obtain ⟨rfl, -, e⟩ := split_first (p := fun c => c.isDigit = true) h2.1 k2.1 (nd _ (by simp))
    (nd _ (by simp)) e
  obtain ⟨rfl, -, e⟩ := split_first (p := fun c => c.isDigit = true) h3.1 k3.1 (nd _ (by simp))
    (nd _ (by simp)) e
  obtain ⟨rfl, -, e⟩ := split_first (p := fun c => c.isDigit = true) h4.1 k4.1 (nd _ (by simp))
    (nd _ (by simp)) e
  rw [← h1.2.1, ← h2.2.1, ← h3.2.1, ← h4.2.1, k1.2.1, k2.2.1, k3.2.1, k4.2.1]

/-- No text of an angle contains a blank. -/
theorem ShowsAngle.no_blank {s : Str} {a : ℚ} (ha : ShowsAngle s a) : ∀ c ∈ s, c ≠ ' ' := by
  obtain ⟨sd, sm, ss, sc, D, M, S, C, rfl, h1, h2, h3, h4, -, rfl⟩ := ha
  have nb : ∀ c : Char, c.isDigit = true → c ≠ ' ' := by rintro c h rfl; exact absurd h (by decide)
  intro c hc
  simp only [List.mem_append, List.mem_cons, List.not_mem_nil, or_false] at hc
  rcases hc with h | rfl | h | rfl | h | rfl | h | rfl
  · exact nb c (h1.1 c h)
  · decide
  · exact nb c (h2.1 c h)
  · decide
  · exact nb c (h3.1 c h)
  · decide
  · exact nb c (h4.1 c h)
  · decide

/-! ### one angle -/

/-- The double arithmetic rounds the angle up to a whole number of arcminutes but not to as many
times sixty arcseconds. -/
def RoundsUpUnevenly (x : ℚ) : Prop :=
  ∃ k : ℕ, binaryRound 53 (x * 3600) < 60 * k ∧ (k : ℚ) ≤ binaryRound 53 (x * 60)

open Classical in
/-- **C129 (partial).** The text of an angle, a double from 0 to 1000 degrees, shows the angle up
to half a hundredth of an arcsecond, or, exactly for the angles that `RoundsUpUnevenly`, an angle
one arcminute larger.  Missing: those angles. -/
theorem C129_sexagesimal_partial {x : ℚ} (hx : IsFloat (binaryRound 53) x) (h0 : 0 ≤ x)
    (h1 : x < 1000) :
    ∃ a, ShowsAngle (Rounded.sexagesimal (binaryRound 53) x) a ∧
      |a - (x + if RoundsUpUnevenly x then 1 / 60 else 0)| ≤ 0.005001 / 3600 := by
  have hm := binaryRound_mono (p := 53) (by norm_num)
  have herr : ∀ y : ℚ, 0 ≤ y → |binaryRound 53 y - y| ≤ 1 / 2 ^ 53 * y := by
    intro y hy
    have := binaryRound_error (p := 53) y
    rwa [abs_of_nonneg hy] at this
  have hy := abs_le.1 (herr (x * 60) (by positivity))
  have hz := abs_le.1 (herr (x * 3600) (by positivity))
  have hy0 := binaryRound_nonneg (p := 53) (by norm_num) (x := x * 60) (by positivity)
  have hz0 := binaryRound_nonneg (p := 53) (by norm_num) (x := x * 3600) (by positivity)
  set D := ⌊x⌋₊ with hDdef
  have hd1 := Nat.floor_le h0
  have hd2 := Nat.lt_floor_add_one x
  rw [← hDdef] at hd1 hd2
  have hD : D < 1000 := (Nat.floor_lt h0).2 (by exact_mod_cast h1)
  -- facts about the two products
  have lowD : (60 * D : ℚ) ≤ binaryRound 53 (x * 60) := by
    have e := whole_float (60 * D) (by omega)
    push_cast at e
    rw [← e]
    exact hm (by linarith)
  have highD : binaryRound 53 (x * 60) < 60 * (D + 1) := by
    rcases h0.eq_or_lt with h | h
    · rw [← h, zero_mul, binaryRound_zero]
      positivity
    · have := degree_kept hx h h1 (D + 1) (by push_cast; exact hd2)
      push_cast at this
      exact this
  have kept : ∀ k : ℕ, 0 < k → binaryRound 53 (x * 60) < k → binaryRound 53 (x * 3600) < 60 * k := by
    intro k hk0 hk
    rcases h0.eq_or_lt with h | h
    · rw [← h, zero_mul, binaryRound_zero]
      positivity
    · exact minute_kept hx h h1 k hk
  have hrep : RoundsUpUnevenly x ↔
      ∃ k : ℕ, binaryRound 53 (x * 3600) < 60 * k ∧ (k : ℚ) ≤ binaryRound 53 (x * 60) := Iff.rfl
  unfold Rounded.sexagesimal
  simp only
  generalize binaryRound 53 (x * 60) = y at *
  generalize binaryRound 53 (x * 3600) = z at *
  rw [← hDdef]
  set T := ⌊y⌋₊ with hT
  have ht1 := Nat.floor_le hy0
  have ht2 := Nat.lt_floor_add_one y
  rw [← hT] at ht1 ht2
  set U := ⌊z / 60⌋₊ with hU
  have hu1 := Nat.floor_le (show 0 ≤ z / 60 by positivity)
  have hu2 := Nat.lt_floor_add_one (z / 60)
  rw [← hU] at hu1 hu2
  rw [le_div_iff₀ (by norm_num)] at hu1
  rw [div_lt_iff₀ (by norm_num)] at hu2
  have hTD : 60 * D ≤ T := Nat.le_floor (by push_cast; exact lowD)
  have hTD2 : T < 60 * D + 60 := by
    have : (T : ℚ) < ((60 * D + 60 : ℕ) : ℚ) := by
      push_cast
      linarith
    exact_mod_cast this
  have hUT : U ≤ T := by
    have h2 := kept (T + 1) (by omega) (by push_cast; exact ht2)
    have : (U : ℚ) < ((T + 1 : ℕ) : ℚ) := by linarith
    have : U < T + 1 := by exact_mod_cast this
    omega
  norm_num at hy hz
  have hTU : T ≤ U + 1 := by
    have : (T : ℚ) < ((U + 2 : ℕ) : ℚ) := by
      push_cast
      linarith [hy.2, hz.1]
    have : T < U + 2 := by exact_mod_cast this
    omega
  have hD60 : ⌊y / 60⌋₊ = D := by
    rw [Nat.floor_eq_iff (by positivity)]
    constructor
    · rw [le_div_iff₀ (by norm_num)]; linarith
    · rw [div_lt_iff₀ (by norm_num)]; linarith
  have hM : ⌊y - 60 * (D : ℚ)⌋₊ = T - 60 * D := by
    have hc : (60 * (D : ℚ)) = ((60 * D : ℕ) : ℚ) := by push_cast; ring
    rw [hc, Nat.floor_sub_natCast]
  rw [hD60, hM]
  have hs0 : 0 ≤ z - 60 * (U : ℚ) := by linarith
  have hs1 : z - 60 * (U : ℚ) < 60 := by linarith
  obtain ⟨hst, hn⟩ := seconds_text _ hs0 hs1
  have hclose := roundHalfEven_close ((z - 60 * (U : ℚ)) * 100) (by positivity)
  rw [hst]
  set n := roundHalfEven ((z - 60 * (U : ℚ)) * 100)
  rw [List.take_of_length_le (zfill_length_le 2 3 D (by norm_num) (by norm_num)
      (by norm_num; exact hD)),
    List.take_of_length_le (zfill_two_length _ (by omega)).le]
  refine ⟨_, ⟨zfill 2 (natStr D), zfill 2 (natStr (T - 60 * D)), zfill 2 (natStr (n / 100)),
    zfill 2 (natStr (n % 100)), D, T - 60 * D, n / 100, n % 100, by simp, isNumeral_zfill _ _,
    isNumeral_zfill _ _, isNumeral_zfill _ _, isNumeral_zfill _ _,
    zfill_two_length _ (by omega), rfl⟩, ?_⟩
  have hT' : ((T - 60 * D : ℕ) : ℚ) = T - 60 * D := by
    rw [Nat.cast_sub hTD]; push_cast; ring
  have hn' : ((n / 100 : ℕ) : ℚ) + ((n % 100 : ℕ) : ℚ) / 100 = n / 100 := by
    have : ((100 * (n / 100) + n % 100 : ℕ) : ℚ) = n := by rw [Nat.div_add_mod]
    push_cast at this ⊢
    linarith
  rw [hn', hT']
  have hcase : (T : ℚ) = U + if RoundsUpUnevenly x then 1 else 0 := by
    by_cases hr : RoundsUpUnevenly x
    · rw [if_pos hr]
      obtain ⟨k, k1, k2⟩ := hrep.1 hr
      have a1 : k ≤ T := Nat.le_floor k2
      have a2 : U < k := by
        have : (U : ℚ) < k := by linarith
        exact_mod_cast this
      have : T = U + 1 := by omega
      rw [this]; push_cast; ring
    · rw [if_neg hr]
      have : ¬ U < T := by
        intro h
        refine hr (hrep.2 ⟨T, ?_, ht1⟩)
        have : ((U + 1 : ℕ) : ℚ) ≤ T := by exact_mod_cast h
        push_cast at this
        linarith
      have : T = U := by omega
      rw [this]; ring
  have e : (if RoundsUpUnevenly x then (1 / 60 : ℚ) else 0) =
      (if RoundsUpUnevenly x then 1 else 0) / 60 := by
    split_ifs <;> norm_num
  rw [e, hcase]
  generalize (if RoundsUpUnevenly x then (1 : ℚ) else 0) = w
  have := abs_le.1 hclose
  rw [abs_le]
  norm_num
  constructor <;> linarith [this.1, this.2, hz.1, hz.2]

/-- Such angles lie less than a billionth of an arcsecond short of a whole number of arcminutes. -/
theorem C129_only_short_of_whole_minutes {x : ℚ} (h0 : 0 ≤ x) (h1 : x < 1000)
    (h : RoundsUpUnevenly x) : ∃ k : ℕ, x < k / 60 ∧ k / 60 - x < 1 / 10 ^ 9 / 3600 := by
  obtain ⟨k, k1, k2⟩ := h
  have h2 := binaryRound_error (p := 53) (x * 60)
  rw [abs_of_nonneg (show 0 ≤ x * 60 by positivity)] at h2
  have h3 := (abs_le.1 h2).2
  norm_num at h3
  refine ⟨k, ?_, ?_⟩
  · by_contra hc
    have h4 : (60 * k : ℚ) ≤ x * 3600 := by linarith
    have h5 := binaryRound_mono (p := 53) (by norm_num) h4
    have h6 : (k : ℚ) < ((60001 : ℕ) : ℚ) := by push_cast; linarith
    have h7 : k < 60001 := by exact_mod_cast h6
    have e := whole_float (60 * k) (by omega)
    push_cast at e
    rw [e] at h5
    linarith
  · norm_num
    linarith

/-- **C129 (failure).** The text of every angle that `RoundsUpUnevenly` shows an angle an arcminute
too large. -/
theorem C129_minute_too_many {x : ℚ} (hx : IsFloat (binaryRound 53) x) (h0 : 0 ≤ x)
    (h1 : x < 1000) (h : RoundsUpUnevenly x) (a : ℚ)
    (ha : ShowsAngle (Rounded.sexagesimal (binaryRound 53) x) a) : x + 59.99 / 3600 < a := by
  obtain ⟨b, hb, hc⟩ := C129_sexagesimal_partial hx h0 h1
  rw [ha.unique hb]
  rw [if_pos h] at hc
  have := (abs_le.1 hc).1
  norm_num at this ⊢
  linarith

theorem binaryRound_double (p : ℕ) (x : ℚ) : binaryRound p (2 * x) = 2 * binaryRound p x := by
  rcases eq_or_ne x 0 with rfl | hx
  · simp [binaryRound_zero]
  have hp : 0 < |x| := abs_pos.2 hx
  have e : Int.log 2 |2 * x| = Int.log 2 |x| + 1 := by
    have hl : (2 : ℚ) ^ Int.log 2 |x| ≤ |x| := by
      simpa using Int.zpow_log_le_self (b := 2) (by norm_num) hp
    have hu : |x| < (2 : ℚ) ^ (Int.log 2 |x| + 1) := by
      simpa using Int.lt_zpow_succ_log_self (b := 2) (by norm_num) |x|
    have h2 : |2 * x| = 2 * |x| := by rw [abs_mul]; norm_num
    have hp2 : 0 < |2 * x| := by rw [h2]; positivity
    have a := (Int.zpow_le_iff_le_log (b := 2) (x := Int.log 2 |x| + 1) (by norm_num) hp2).1 (by
      rw [h2, zpow_add₀ (by norm_num)]
      push_cast
      linarith)
    have b := (Int.lt_zpow_iff_log_lt (b := 2) (x := Int.log 2 |x| + 2) (by norm_num) hp2).1 (by
      rw [h2, show Int.log 2 |x| + 2 = Int.log 2 |x| + 1 + 1 by ring, zpow_add₀ (by norm_num)]
      push_cast
      linarith)
    omega
  unfold binaryRound
  rw [e]
  have e2 : (2 : ℚ) ^ (Int.log 2 |x| + 1 + 1 - (p : ℤ)) = 2 * 2 ^ (Int.log 2 |x| + 1 - (p : ℤ)) := by
    rw [show Int.log 2 |x| + 1 + 1 - (p : ℤ) = 1 + (Int.log 2 |x| + 1 - (p : ℤ)) by ring,
      zpow_add₀ (by norm_num), zpow_one]
  rw [e2, mul_div_mul_left _ _ (by norm_num)]
  ring

/-- With an angle, its double is shown an arcminute too large. -/
theorem C129_doubling {x : ℚ} (h : RoundsUpUnevenly x) : RoundsUpUnevenly (2 * x) := by
  obtain ⟨k, k1, k2⟩ := h
  refine ⟨2 * k, ?_, ?_⟩
  · rw [mul_assoc, binaryRound_double]
    push_cast
    linarith
  · rw [mul_assoc, binaryRound_double]
    push_cast
    linarith

/-- Non-vacuity: 4.35 degrees, hence 8.7, 17.4, 34.8 and 69.6; 43.6 degrees is shown correctly. -/
example : IsFloat (binaryRound 53) (binaryRound 53 (435 / 100)) ∧
    RoundsUpUnevenly (binaryRound 53 (435 / 100)) ∧
    Rounded.sexagesimal (binaryRound 53) (binaryRound 53 (435 / 100)) = "04°21′60.00″".toList :=
  ⟨by decide +kernel, ⟨261, by decide +kernel⟩, by decide +kernel⟩

theorem right_examples : ¬ RoundsUpUnevenly (binaryRound 53 (436 / 10)) ∧
    ¬ RoundsUpUnevenly (binaryRound 53 (794 / 10)) := by
  have e1 : binaryRound 53 (binaryRound 53 (436 / 10) * 60) = 2616 := by decide +kernel
  have e2 : binaryRound 53 (binaryRound 53 (436 / 10) * 3600) = 156960 := by decide +kernel
  have e3 : binaryRound 53 (binaryRound 53 (794 / 10) * 60) = 4764 := by decide +kernel
  have e4 : binaryRound 53 (binaryRound 53 (794 / 10) * 3600) = 285840 := by decide +kernel
  constructor
  · rintro ⟨k, k1, k2⟩
    rw [e1] at k2
    rw [e2] at k1
    linarith
  · rintro ⟨k, k1, k2⟩
    rw [e3] at k2
    rw [e4] at k1
    linarith

/-! ### ground locations -/

/-- Without rounding the text is that of C63. -/
theorem C129_exact : Rounded.iso6709 (fun x => x) = iso6709 ∧
    Rounded.sexagesimal (fun x => x) = sexagesimal := ⟨rfl, rfl⟩

/-- The text `s` shows latitude, longitude (in degrees, north and east positive) and height. -/
def ShowsLocation (s : Str) (lat lon height : ℚ) (unit : Str) : Prop :=
  ∃ (sa so sh : Str) (north east : Bool) (a o : ℚ),
    s = sa ++ (if north then 'N' else 'S') :: ' ' ::
      (so ++ (if east then 'E' else 'W') :: ' ' :: (sh ++ unit)) ∧
    ShowsAngle sa a ∧ ShowsAngle so o ∧ IsFixed 2 sh ∧
    lat = (if north then a else -a) ∧ lon = (if east then o else -o) ∧ height = decimalVal sh

/-- A text shows at most one location with heights in a given unit. -/
theorem ShowsLocation.unique {s unit : Str} {a o h a' o' h' : ℚ} (h1 : ShowsLocation s a o h unit)
    (h2 : ShowsLocation s a' o' h' unit) : a = a' ∧ o = o' ∧ h = h' := by
  obtain ⟨sa, so, sh, n, e, x, y, rfl, p1, p2, -, rfl, rfl, rfl⟩ := h1
  obtain ⟨ta, tl, th, n', e', x', y', eq, q1, q2, -, rfl, rfl, rfl⟩ := h2
  have hl : ∀ (b : Bool) (c d : Char), c ≠ ' ' → d ≠ ' ' → (if b then c else d) ≠ ' ' := by
    intro b c d hc hd
    cases b <;> simpa
  have key : ∀ {s t : Str} {u v : ℚ} {c d : Char} {r r' : Str}, ShowsAngle s u → ShowsAngle t v →
      c ≠ ' ' → d ≠ ' ' → s ++ c :: ' ' :: r = t ++ d :: ' ' :: r' → s = t ∧ c = d ∧ r = r' := by
    intro s t u v c d r r' hs ht hc hd h
    have h3 : (s ++ [c]) ++ ' ' :: r = (t ++ [d]) ++ ' ' :: r' := by simpa using h
    obtain ⟨i1, -, i3⟩ := split_first (p := fun c => c ≠ ' ')
      (fun z hz => by
        rcases List.mem_append.1 hz with hz | hz
        · exact hs.no_blank z hz
        · rw [List.mem_singleton.1 hz]; exact hc)
      (fun z hz => by
        rcases List.mem_append.1 hz with hz | hz
        · exact ht.no_blank z hz
        · rw [List.mem_singleton.1 hz]; exact hd) (by simp) (by simp) h3
    obtain ⟨j1, j2⟩ := List.append_inj' i1 rfl
    exact ⟨j1, by simpa using j2, i3⟩
  obtain ⟨rfl, c1, eq⟩ := key p1 q1 (hl _ _ _ (by decide) (by decide))
    (hl _ _ _ (by decide) (by decide)) eq
  obtain ⟨rfl, c2, eq⟩ := key p2 q2 (hl _ _ _ (by decide) (by decide))
    (hl _ _ _ (by decide) (by decide)) eq
  have eq := List.append_cancel_right eq
  subst eq
  have d1 : n = n' := by
    cases n <;> cases n' <;> first | rfl | exact absurd c1 (by decide)
  have d2 : e = e' := by
    cases e <;> cases e' <;> first | rfl | exact absurd c2 (by decide)
  subst d1 d2
  rw [p1.unique q1, p2.unique q2]
  exact ⟨rfl, rfl, rfl⟩

open Classical in
/-- How much an angle is shown too large. -/
noncomputable def excess (x : ℚ) : ℚ := if RoundsUpUnevenly |x| then 1 / 60 else 0

/-- **C129 (partial).** `str` of a ground location shows the location, latitude first: latitude
and longitude up to half a hundredth of an arcsecond, the height up to half a hundredth of its unit.
Missing: latitudes and longitudes that are shown an arcminute too far from zero. -/
theorem C129_location_partial {lat lon latRaw lonRaw : ℚ} (height : ℚ) (unit : Str)
    (h1 : IsFloat (binaryRound 53) |lat|) (h2 : IsFloat (binaryRound 53) |lon|)
    (h3 : |lat| ≤ 90) (h4 : |lon| ≤ 180) (h5 : 0 ≤ latRaw ↔ 0 ≤ lat) (h6 : 0 ≤ lonRaw ↔ 0 ≤ lon) :
    ∃ a o h, ShowsLocation
        (Rounded.iso6709 (binaryRound 53) lat latRaw lon lonRaw height unit) a o h unit ∧
      |a - lat| ≤ excess lat + 0.005001 / 3600 ∧ |o - lon| ≤ excess lon + 0.005001 / 3600 ∧
      |h - height| ≤ 0.005 := by
  obtain ⟨a, ha, ea⟩ := C129_sexagesimal_partial h1 (abs_nonneg lat) (by linarith)
  obtain ⟨o, ho, eo⟩ := C129_sexagesimal_partial h2 (abs_nonneg lon) (by linarith)
  have key : ∀ x v : ℚ, |v - (|x| + excess x)| ≤ 0.005001 / 3600 → ∀ b : Bool,
      (b = true ↔ 0 ≤ x) → |(if b then v else -v) - x| ≤ excess x + 0.005001 / 3600 := by
    intro x v hv b hb
    have h0 : 0 ≤ excess x := by unfold excess; split_ifs <;> norm_num
    have hv' := abs_le.1 hv
    cases b with
    | true =>
      rw [abs_of_nonneg (hb.1 rfl)] at hv'
      rw [if_pos rfl, abs_le]
      constructor <;> linarith [hv'.1, hv'.2]
    | false =>
      have hx : x < 0 := by
        by_contra hc
        exact absurd (hb.2 (not_lt.1 hc)) (by simp)
      rw [abs_of_neg hx] at hv'
      rw [if_neg (by simp), abs_le]
      constructor <;> linarith [hv'.1, hv'.2]
  refine ⟨_, _, _, ⟨_, _, fmtFixed 2 height, decide (0 ≤ lat), decide (0 ≤ lon), a, o, ?_, ha, ho,
    ?_, rfl, rfl, rfl⟩, key lat a ea _ (by simp), key lon o eo _ (by simp), ?_⟩
  · unfold Rounded.iso6709 Rounded.latitudeString Rounded.longitudeString heightString
    simp only [h5, h6]
    by_cases c1 : 0 ≤ lat <;> by_cases c2 : 0 ≤ lon <;> simp [c1, c2, List.intercalate]
  · rw [fmtFixed_eq]
    unfold unsignedText
    exact ⟨if height < 0 then ['-'] else [], natStr (roundHalfEven (|height| * 10 ^ 2) / 10 ^ 2),
      zfill 2 (natStr (roundHalfEven (|height| * 10 ^ 2) % 10 ^ 2)), by split_ifs <;> simp,
      natStr_ne_nil _, natStr_digits _, zfill_length 2 _ (by norm_num) (Nat.mod_lt _ (by norm_num)),
      zfill_digits _ _, by simp⟩
  · have := decimalVal_fmtFixed 2 height
    norm_num at this ⊢
    exact this

/-- **C129.** Two ground locations with the same text are the same up to a hundredth of an
arcsecond, and a hundredth of the unit of height, unless an arcminute is shown too many. -/
theorem C129_same_text_partial {lat lon latRaw lonRaw lat' lon' latRaw' lonRaw' : ℚ}
    (height height' : ℚ) (unit : Str)
    (h1 : IsFloat (binaryRound 53) |lat|) (h2 : IsFloat (binaryRound 53) |lon|)
    (h3 : |lat| ≤ 90) (h4 : |lon| ≤ 180) (h5 : 0 ≤ latRaw ↔ 0 ≤ lat) (h6 : 0 ≤ lonRaw ↔ 0 ≤ lon)
    (h1' : IsFloat (binaryRound 53) |lat'|) (h2' : IsFloat (binaryRound 53) |lon'|)
    (h3' : |lat'| ≤ 90) (h4' : |lon'| ≤ 180) (h5' : 0 ≤ latRaw' ↔ 0 ≤ lat')
    (h6' : 0 ≤ lonRaw' ↔ 0 ≤ lon')
    (h : Rounded.iso6709 (binaryRound 53) lat latRaw lon lonRaw height unit =
      Rounded.iso6709 (binaryRound 53) lat' latRaw' lon' lonRaw' height' unit) :
    |lat - lat'| ≤ excess lat + excess lat' + 0.0101 / 3600 ∧
    |lon - lon'| ≤ excess lon + excess lon' + 0.0101 / 3600 ∧ |height - height'| ≤ 0.01 := by
  obtain ⟨a, o, e, s, k1, k2, k3⟩ := C129_location_partial height unit h1 h2 h3 h4 h5 h6
  obtain ⟨a', o', e', s', k1', k2', k3'⟩ := C129_location_partial height' unit h1' h2' h3' h4' h5' h6'
  rw [h] at s
  obtain ⟨rfl, rfl, rfl⟩ := s.unique s'
  have key : ∀ {x y z p q c : ℚ}, |z - x| ≤ p + c → |z - y| ≤ q + c → |x - y| ≤ p + q + 2 * c := by
    intro x y z p q c u v
    rw [abs_le] at *
    constructor <;> linarith [u.1, u.2, v.1, v.2]
  refine ⟨(key k1 k1').trans ?_, (key k2 k2').trans ?_, ?_⟩
  · norm_num
  · norm_num
  · have := key (p := 0) (q := 0) (c := 0.005) (k3.trans (by norm_num)) (k3'.trans (by norm_num))
    norm_num at this ⊢
    exact this

/-- Non-vacuity: a location that is shown correctly and one that is not. -/
example : ShowsLocation (Rounded.iso6709 (binaryRound 53) (binaryRound 53 (436 / 10))
    (binaryRound 53 (436 / 10)) (-binaryRound 53 (794 / 10)) (-binaryRound 53 (794 / 10)) (1 / 10)
      "km".toList) (436 / 10) (-794 / 10) (1 / 10) "km".toList ∧
    excess (binaryRound 53 (436 / 10)) = 0 ∧
    Rounded.iso6709 (binaryRound 53) (binaryRound 53 (435 / 100)) (binaryRound 53 (435 / 100))
      (-binaryRound 53 (794 / 10)) (-binaryRound 53 (794 / 10)) (1 / 10) "km".toList =
      "04°21′60.00″N 79°24′00.00″W 0.10km".toList := by
  refine ⟨⟨"43°36′00.00″".toList, "79°24′00.00″".toList, "0.10".toList, true, false, 436 / 10,
    794 / 10, by decide +kernel, ⟨"43".toList, "36".toList, "00".toList, "00".toList, 43, 36, 0, 0,
    by decide, by unfold IsNumeral; decide, by unfold IsNumeral; decide,
    by unfold IsNumeral; decide, by unfold IsNumeral; decide, by decide, by norm_num⟩,
    ⟨"79".toList, "24".toList, "00".toList, "00".toList, 79, 24, 0, 0,
    by decide, by unfold IsNumeral; decide, by unfold IsNumeral; decide,
    by unfold IsNumeral; decide, by unfold IsNumeral; decide, by decide, by norm_num⟩,
    ⟨[], "0".toList, "10".toList, by decide, by decide, by decide, by decide, by decide, by decide⟩,
    by norm_num, by norm_num, by decide +kernel⟩, ?_, by decide +kernel⟩
  unfold excess
  have e : |binaryRound 53 (436 / 10)| = binaryRound 53 (436 / 10) := by decide +kernel
  rw [e, if_neg right_examples.1]

end Celest.Text
