/-
C143: long searches in double precision.

Doubles have a smallest positive number, `2 ^ -1074`, so the temperature and the weights of a long
search can vanish, and the next division by them raises.
-/
import Verif.Schedule.LemmasAlnsRounded
import Mathlib.Algebra.Order.Field.Power

namespace Celest

/-! ### Doubles -/

variable {E : ℕ}

theorem gradual_zero : gradualRound E 0 = 0 := by
  have : nearestEven 0 = 0 := by exact_mod_cast nearestEven_int 0
  simp [gradualRound, this]

theorem gradual_neg (x : ℚ) : gradualRound E (-x) = -gradualRound E x := by
  unfold gradualRound
  rw [abs_neg, neg_div, nearestEven_neg]
  push_cast
  ring

theorem nearestEven_nonneg {q : ℚ} (h : 0 ≤ q) : 0 ≤ nearestEven q := by
  have := nearestEven_mono h
  rwa [show nearestEven 0 = 0 by exact_mod_cast nearestEven_int 0] at this

theorem gradual_nonneg {x : ℚ} (h : 0 ≤ x) : 0 ≤ gradualRound E x := by
  unfold gradualRound
  have := nearestEven_nonneg (q := x / 2 ^ max (Int.log 2 |x| - 52) (-E)) (by positivity)
  have h1 : (0 : ℚ) ≤ nearestEven (x / 2 ^ max (Int.log 2 |x| - 52) (-E)) := by exact_mod_cast this
  positivity

theorem nearestEven_pow (n : ℕ) : nearestEven (2 ^ n) = 2 ^ n := by
  have := nearestEven_int (2 ^ n)
  push_cast at this
  exact this

theorem gradual_le_pow {x : ℚ} {k : ℤ} (hk : -(E : ℤ) ≤ k) (h0 : 0 ≤ x) (h : x ≤ 2 ^ k) :
    gradualRound E x ≤ 2 ^ k := by
  rcases h0.eq_or_lt with rfl | hx
  · rw [gradual_zero]; positivity
  have hlog : Int.log 2 |x| ≤ k := by
    rw [abs_of_pos hx]
    have := Int.log_mono_right (b := 2) hx h
    rwa [show ((2 : ℚ)) = ((2 : ℕ) : ℚ) by norm_num, Int.log_zpow (by norm_num)] at this
  unfold gradualRound
  obtain ⟨e, he⟩ : ∃ e, e = max (Int.log 2 |x| - 52) (-E) := ⟨_, rfl⟩
  rw [← he]
  have hek : e ≤ k := by rw [he]; omega
  obtain ⟨n, hn⟩ := Int.le.dest hek
  have hpe : (0 : ℚ) < 2 ^ e := by positivity
  have hpow : (2 : ℚ) ^ k = 2 ^ n * 2 ^ e := by
    rw [← hn, zpow_add₀ (by norm_num), zpow_natCast, mul_comm]
  have h1 : nearestEven (x / 2 ^ e) ≤ 2 ^ n := by
    rw [← nearestEven_pow n]
    refine nearestEven_mono ?_
    rw [div_le_iff₀ hpe, ← hpow]
    exact h
  rw [hpow]
  have h2 : (nearestEven (x / 2 ^ e) : ℚ) ≤ 2 ^ n := by exact_mod_cast h1
  exact mul_le_mul_of_nonneg_right h2 hpe.le

theorem gradual_ge_pow {x : ℚ} {k : ℤ} (hk : -(E : ℤ) ≤ k) (h : 2 ^ k ≤ x) :
    2 ^ k ≤ gradualRound E x := by
  have hx : 0 < x := lt_of_lt_of_le (by positivity) h
  obtain ⟨g, hg⟩ : ∃ g, g = Int.log 2 x := ⟨_, rfl⟩
  have hkg : k ≤ g := by
    have := Int.log_mono_right (b := 2) (show (0 : ℚ) < 2 ^ k by positivity) h
    rwa [show ((2 : ℚ)) = ((2 : ℕ) : ℚ) by norm_num, Int.log_zpow (by norm_num), ← hg] at this
  have hgx : (2 : ℚ) ^ g ≤ x := by
    have := Int.zpow_log_le_self (b := 2) (by norm_num) hx
    rw [hg]; simpa using this
  refine le_trans (zpow_le_zpow_right₀ (by norm_num) hkg) ?_
  unfold gradualRound
  rw [abs_of_pos hx, ← hg]
  obtain ⟨e, he⟩ : ∃ e, e = max (g - 52) (-E) := ⟨_, rfl⟩
  rw [← he]
  have heg : e ≤ g := by rw [he]; omega
  obtain ⟨n, hn⟩ := Int.le.dest heg
  have hpe : (0 : ℚ) < 2 ^ e := by positivity
  have hpow : (2 : ℚ) ^ g = 2 ^ n * 2 ^ e := by
    rw [← hn, zpow_add₀ (by norm_num), zpow_natCast, mul_comm]
  have h1 : 2 ^ n ≤ nearestEven (x / 2 ^ e) := by
    rw [← nearestEven_pow n]
    refine nearestEven_mono ?_
    rw [le_div_iff₀ hpe, ← hpow]
    exact hgx
  rw [hpow]
  have h2 : (2 : ℚ) ^ n ≤ nearestEven (x / 2 ^ e) := by exact_mod_cast h1
  exact mul_le_mul_of_nonneg_right h2 hpe.le

/-- Below the smallest positive double the grid is that of its multiples. -/
theorem gradual_tiny {x : ℚ} (h0 : 0 < x) (h : x < 2 ^ (-E : ℤ)) :
    gradualRound E x = nearestEven (x * 2 ^ E) * 2 ^ (-E : ℤ) := by
  have hlog : Int.log 2 |x| ≤ -E := by
    rw [abs_of_pos h0]
    have := Int.log_mono_right (b := 2) h0 h.le
    rwa [show ((2 : ℚ)) = ((2 : ℕ) : ℚ) by norm_num, Int.log_zpow (by norm_num)] at this
  unfold gradualRound
  rw [max_eq_right (by omega), zpow_neg, div_inv_eq_mul, zpow_natCast]

theorem gradual_vanishes {x : ℚ} (h0 : 0 ≤ x) (h : x ≤ 2 ^ (-(E + 1 : ℕ) : ℤ)) : gradualRound E x = 0 := by
  rcases h0.eq_or_lt with rfl | hx
  · exact gradual_zero
  have hp : (2 : ℚ) ^ (-(E + 1 : ℕ) : ℤ) = 1 / 2 / 2 ^ E := by
    rw [zpow_neg, zpow_natCast, pow_succ]; field_simp
  rw [gradual_tiny hx (lt_of_le_of_lt h (zpow_lt_zpow_right₀ (by norm_num) (by push_cast; omega)))]
  have hq : x * 2 ^ E ≤ 1 / 2 := by
    rw [hp, le_div_iff₀ (by positivity)] at h
    exact h
  have h1 := nearestEven_mono hq
  have h2 : nearestEven (1 / 2) = 0 := by decide +kernel
  have h3 := nearestEven_nonneg (q := x * 2 ^ E) (by positivity)
  rw [show nearestEven (x * 2 ^ E) = 0 by omega]
  simp

theorem gradual_pos {x : ℚ} (h : 2 ^ (-(E + 1 : ℕ) : ℤ) < x) : 0 < gradualRound E x := by
  have hx : 0 < x := lt_trans (by positivity) h
  rcases le_or_gt (2 ^ (-E : ℤ)) x with hl | hl
  · exact lt_of_lt_of_le (by positivity) (gradual_ge_pow le_rfl hl)
  have hp : (2 : ℚ) ^ (-(E + 1 : ℕ) : ℤ) = 1 / 2 / 2 ^ E := by
    rw [zpow_neg, zpow_natCast, pow_succ]; field_simp
  rw [gradual_tiny hx hl]
  have hq : 1 / 2 < x * 2 ^ E := by
    rw [hp, div_lt_iff₀ (by positivity)] at h
    exact h
  have h1 : 1 ≤ nearestEven (x * 2 ^ E) := by
    by_contra hc
    have hc' : nearestEven (x * 2 ^ E) ≤ 0 := by omega
    have := nearestEven_error (x * 2 ^ E)
    have h3 : (nearestEven (x * 2 ^ E) : ℚ) ≤ 0 := by exact_mod_cast hc'
    rw [abs_le] at this
    linarith [this.1]
  have h2 : (1 : ℚ) ≤ nearestEven (x * 2 ^ E) := by exact_mod_cast h1
  have : (0 : ℚ) < 2 ^ (-E : ℤ) := by positivity
  nlinarith

/-- The smallest positive double. -/
theorem gradual_least {x : ℚ} (h : 0 < gradualRound E x) : 2 ^ (-E : ℤ) ≤ gradualRound E x := by
  unfold gradualRound at h ⊢
  obtain ⟨e, he⟩ : ∃ e, e = max (Int.log 2 |x| - 52) (-E) := ⟨_, rfl⟩
  rw [← he] at h ⊢
  have hpe : (0 : ℚ) < 2 ^ e := by positivity
  have h1 : (0 : ℚ) < nearestEven (x / 2 ^ e) := (pos_iff_pos_of_mul_pos h).2 hpe
  have h2 : 1 ≤ nearestEven (x / 2 ^ e) := by
    have : (0 : ℤ) < nearestEven (x / 2 ^ e) := by exact_mod_cast h1
    omega
  have h3 : (1 : ℚ) ≤ nearestEven (x / 2 ^ e) := by exact_mod_cast h2
  have h4 : (2 : ℚ) ^ (-E : ℤ) ≤ 2 ^ e := zpow_le_zpow_right₀ (by norm_num) (by rw [he]; omega)
  nlinarith

/-- Rounding at most doubles. -/
theorem gradual_le_double {x : ℚ} (h : 2 ^ (-E : ℤ) ≤ x) : gradualRound E x ≤ 2 * x := by
  have hx : 0 < x := lt_of_lt_of_le (by positivity) h
  have h1 : (2 : ℚ) ^ Int.log 2 x ≤ x := by
    have := Int.zpow_log_le_self (b := 2) (by norm_num) hx
    simpa using this
  have h2 : x < (2 : ℚ) ^ (Int.log 2 x + 1) := by
    have := Int.lt_zpow_succ_log_self (b := 2) (by norm_num) x
    simpa using this
  have h3 : -(E : ℤ) ≤ Int.log 2 x := by
    have := Int.log_mono_right (b := 2) (show (0 : ℚ) < 2 ^ (-E : ℤ) by positivity) h
    rwa [show ((2 : ℚ)) = ((2 : ℕ) : ℚ) by norm_num, Int.log_zpow (by norm_num)] at this
  have := gradual_le_pow (E := E) (k := Int.log 2 x + 1) (by omega) hx.le h2.le
  rw [zpow_add₀ (by norm_num), zpow_one] at this
  linarith

namespace Alns.Rounded

open Alns (Problem Draw bestScore betterScore acceptScore rejectScore sumScore)

variable {S : Type}

/-! ### The result is never worse than the start -/

theorem loop_best {fl : ℚ → ℚ} {A : Problem S} {P : Params} (draws : List Draw) :
    ∀ {st : State S} {s : S} {tr : List (Pass S)}, loop fl A P draws st = .ok (s, tr) →
      A.cost s ≤ A.cost st.best := by
  induction draws with
  | nil =>
    intro st s tr h
    simp only [loop, Except.ok.injEq, Prod.mk.injEq] at h
    rw [h.1]
  | cons d ds ih =>
    intro st s tr h
    obtain ⟨ps, hp, h⟩ := loop_cons h
    obtain ⟨-, -, -, -, -, -, t, c, b, -, -, -, -, hb, -⟩ := pass_ok hp
    have hle : A.cost ps.next.best ≤ A.cost st.best := by
      rw [hb]
      split_ifs with hlt
      · exact hlt.le
      · exact le_refl _
    rcases h with ⟨-, rfl, -⟩ | ⟨tr', -, h, -⟩
    · exact hle
    · exact (ih h).trans hle

/-- **C143** (no worse).  Whatever the rounding, a solution returned by `ALNS.solve` costs no more
than the initial one. -/
theorem C143_never_worse_partial {fl : ℚ → ℚ} {A : Problem S} {P : Params} {initial s : S}
    {draws : List Draw} (h : solve fl A P initial draws = .ok s) :
    A.cost s ≤ A.cost initial := by
  obtain ⟨tr, h⟩ := solve_ok h
  unfold solveTrace at h
  split_ifs at h
  · simp only [Except.ok.injEq, Prod.mk.injEq] at h
    rw [h.1]
  · exact loop_best draws h

/-! ### Cooling by half -/

theorem cold_loop {A : Problem S} {P : Params} {I : S → Prop} (hI : Kept A P I) {C : Finset ℚ}
    (hC : ∀ s, I s → A.cost s ∈ C) (draws : List Draw) :
    ∀ {st : State S} {s : S} {tr : List (Pass S)}, I st.current → st.temperature = 0 →
      (C.filter (· < A.cost st.current)).card < draws.length →
      loop (gradualRound E) A P draws st = .ok (s, tr) → A.complete s = true := by
  induction draws with
  | nil => intro st s tr _ _ h _; simp at h
  | cons d ds ih =>
    intro st s tr hIs hT hlen h
    obtain ⟨ps, hp, h⟩ := loop_cons h
    obtain ⟨-, -, f, hf, g, hg, t, c, b, ht, hc, ha, hcur, -, htemp, -⟩ := pass_ok hp
    rcases h with ⟨hcm, rfl, -⟩ | ⟨tr', -, h, -⟩
    · exact hcm
    have hlt : A.cost c < A.cost st.current ∧ b = true := by
      unfold accept at ha
      by_cases hlt : A.cost c < A.cost st.current
      · rw [if_pos hlt] at ha
        simp only [Except.ok.injEq] at ha
        exact ⟨hlt, ha.symm⟩
      · rw [if_neg hlt, hT, zero_mul, gradual_zero, if_pos rfl] at ha
        simp at ha
    obtain ⟨hlt, rfl⟩ := hlt
    rw [if_pos rfl] at hcur
    have hIc : I c := hI _ hIs f hf g hg _ _ _ ht hc
    refine ih (st := ps.next) (hcur ▸ hIc) (by rw [htemp, hT, mul_zero, gradual_zero]) ?_ h
    have hss : C.filter (· < A.cost ps.next.current) ⊂ C.filter (· < A.cost st.current) := by
      rw [hcur, Finset.ssubset_iff_of_subset]
      · exact ⟨A.cost c, by simp [hC c hIc, hlt], by simp⟩
      · intro x hx
        simp only [Finset.mem_filter] at hx ⊢
        exact ⟨hx.1, hx.2.trans hlt⟩
    have := Finset.card_lt_card hss
    simp only [List.length_cons] at hlen
    omega

theorem cool_loop {A : Problem S} {P : Params} {I : S → Prop} (hI : Kept A P I) {C : Finset ℚ}
    (hC : ∀ s, I s → A.cost s ∈ C) (hp0 : 0 ≤ P.p) (hp : P.p ≤ 1 / 2) (N : ℕ) :
    ∀ {draws : List Draw} {st : State S} {s : S} {tr : List (Pass S)}, I st.current →
      0 ≤ st.temperature → st.temperature ≤ 2 ^ (N - E : ℤ) →
      N + 1 + C.card ≤ draws.length →
      loop (gradualRound E) A P draws st = .ok (s, tr) → A.complete s = true := by
  induction N with
  | zero =>
    intro draws st s tr hIs h0 hT hlen h
    cases draws with
    | nil => simp at hlen
    | cons d ds =>
    obtain ⟨ps, hps, h⟩ := loop_cons h
    obtain ⟨-, -, f, hf, g, hg, t, c, b, ht, hc, ha, hcur, -, htemp, -⟩ := pass_ok hps
    rcases h with ⟨hcm, rfl, -⟩ | ⟨tr', -, h, -⟩
    · exact hcm
    have hIn : I ps.next.current := by
      rw [hcur]
      split_ifs
      · exact hI _ hIs f hf g hg _ _ _ ht hc
      · exact hIs
    have hzero : ps.next.temperature = 0 := by
      rw [htemp]
      refine gradual_vanishes (mul_nonneg hp0 h0) ?_
      calc P.p * st.temperature ≤ (1 / 2) * 2 ^ ((0 : ℕ) - E : ℤ) :=
            mul_le_mul hp hT h0 (by norm_num)
        _ = 2 ^ (-(E + 1 : ℕ) : ℤ) := by
            rw [show (-(E + 1 : ℕ) : ℤ) = ((0 : ℕ) - E : ℤ) + (-1) by push_cast; ring,
              zpow_add₀ (by norm_num)]
            norm_num [mul_comm]
    refine cold_loop hI hC ds hIn hzero ?_ h
    have : (C.filter (· < A.cost ps.next.current)).card < C.card :=
      Finset.card_lt_card (by
        rw [Finset.filter_ssubset]
        exact ⟨_, hC _ hIn, lt_irrefl _⟩)
    simp only [List.length_cons] at hlen
    omega
  | succ N ih =>
    intro draws st s tr hIs h0 hT hlen h
    cases draws with
    | nil => simp at hlen
    | cons d ds =>
    obtain ⟨ps, hps, h⟩ := loop_cons h
    obtain ⟨-, -, f, hf, g, hg, t, c, b, ht, hc, ha, hcur, -, htemp, -⟩ := pass_ok hps
    rcases h with ⟨hcm, rfl, -⟩ | ⟨tr', -, h, -⟩
    · exact hcm
    have hIn : I ps.next.current := by
      rw [hcur]
      split_ifs
      · exact hI _ hIs f hf g hg _ _ _ ht hc
      · exact hIs
    refine ih (st := ps.next) hIn (by rw [htemp]; exact gradual_nonneg (mul_nonneg hp0 h0)) ?_
      (by simp only [List.length_cons] at hlen; omega) h
    rw [htemp]
    refine gradual_le_pow (by omega) (mul_nonneg hp0 h0) ?_
    calc P.p * st.temperature ≤ (1 / 2) * 2 ^ ((N + 1 : ℕ) - E : ℤ) :=
          mul_le_mul hp hT h0 (by norm_num)
      _ = 2 ^ (N - E : ℤ) := by
          rw [show ((N + 1 : ℕ) - E : ℤ) = (N - E : ℤ) + 1 by push_cast; ring,
            zpow_add₀ (by norm_num), zpow_one]
          ring

/-- The temperature before the loop. -/
theorem initial_temperature {A : Problem S} {P : Params} {initial : S} (hE : 5 ≤ E) {m : ℕ}
    (hc : A.cost initial ≤ 0) (hm : -2 ^ m ≤ A.cost initial) (hl : P.logHalf ≤ -1 / 2) :
    0 ≤ (initState (gradualRound E) A P initial).temperature ∧
      (initState (gradualRound E) A P initial).temperature ≤ 2 ^ m := by
  obtain ⟨a, ha⟩ : ∃ a, a = gradualRound E (1 / 20) := ⟨_, rfl⟩
  have ha0 : 0 ≤ a := ha ▸ gradual_nonneg (by norm_num)
  have ha1 : a ≤ 2 ^ (-4 : ℤ) :=
    ha ▸ gradual_le_pow (by omega) (by norm_num) (by norm_num)
  obtain ⟨b, hb⟩ : ∃ b, b = gradualRound E (a * -A.cost initial) := ⟨_, rfl⟩
  have hb0 : 0 ≤ b := hb ▸ gradual_nonneg (mul_nonneg ha0 (by linarith))
  have hb1 : b ≤ 2 ^ (m - 4 : ℤ) := by
    rw [hb]
    refine gradual_le_pow (by omega) (mul_nonneg ha0 (by linarith)) ?_
    calc a * -A.cost initial ≤ 2 ^ (-4 : ℤ) * 2 ^ m :=
          mul_le_mul ha1 (by linarith) (by linarith) (by positivity)
      _ = 2 ^ (m - 4 : ℤ) := by
          rw [show (m - 4 : ℤ) = -4 + m by ring, zpow_add₀ (by norm_num), zpow_natCast]
  have hT : (initState (gradualRound E) A P initial).temperature =
      gradualRound E (b / -P.logHalf) := by
    unfold initState
    dsimp only
    rw [← ha, show a * A.cost initial = -(a * -A.cost initial) by ring, gradual_neg, ← hb,
      neg_div, div_neg]
  have hq0 : 0 ≤ b / -P.logHalf := div_nonneg hb0 (by linarith)
  refine ⟨hT ▸ gradual_nonneg hq0, ?_⟩
  rw [hT]
  have : gradualRound E (b / -P.logHalf) ≤ 2 ^ (m : ℤ) := by
    refine gradual_le_pow (by omega) hq0 ?_
    rw [div_le_iff₀ (by linarith)]
    have h1 : (2 : ℚ) ^ (m : ℤ) * (1 / 2) ≤ 2 ^ (m : ℤ) * -P.logHalf :=
      mul_le_mul_of_nonneg_left (by linarith) (by positivity)
    have h2 : (2 : ℚ) ^ (m - 4 : ℤ) ≤ 2 ^ (m : ℤ) * (1 / 2) := by
      rw [zpow_sub₀ (by norm_num)]
      have : (0 : ℚ) < 2 ^ (m : ℤ) := by positivity
      norm_num
      linarith
    linarith
  rwa [zpow_natCast] at this

/-- **C143** (false).  When the temperature is at least halved at every pass, a long search
raises: of solutions whose costs are among finitely many negative numbers, the smallest at least
`-2 ^ m`, `ALNS.solve` only returns one that is complete once the number of passes is `m + 1075`
more than the number of costs.  The temperature is then zero, and an acceptance test divides by
it. -/
theorem C143_cold_search_raises {A : Problem S} {P : Params} {I : S → Prop} (hI : Kept A P I)
    {C : Finset ℚ} (hC : ∀ s, I s → A.cost s ∈ C) (hp0 : 0 ≤ P.p) (hp : P.p ≤ 1 / 2)
    (hl : P.logHalf ≤ -1 / 2) {initial : S} (hi : I initial) {m : ℕ}
    (hneg : A.cost initial ≤ 0) (hm : -2 ^ m ≤ A.cost initial) {draws : List Draw}
    (hlen : m + 1075 + C.card ≤ draws.length) {s : S}
    (h : solve doubleRound A P initial draws = .ok s) : A.complete s = true := by
  obtain ⟨tr, h⟩ := solve_ok h
  unfold solveTrace doubleRound at h
  split_ifs at h with hc
  · simp only [Except.ok.injEq, Prod.mk.injEq] at h
    rw [← h.1, hc]
  · obtain ⟨h0, h1⟩ := initial_temperature (A := A) (P := P) (E := 1074) (by norm_num) hneg hm hl
    refine cool_loop hI hC hp0 hp (m + 1074) (st := initState (gradualRound 1074) A P initial)
      hi h0 ?_ (by omega) h
    rw [show ((m + 1074 : ℕ) - (1074 : ℕ) : ℤ) = m by push_cast; ring, zpow_natCast]
    exact h1

/-! ### Weights that vanish -/

/-- The size of a weight after `k` rejections. -/
def Small (E k : ℕ) (w : ℚ) : Prop := 0 ≤ w ∧ if k ≤ E then w ≤ 2 ^ (-k : ℤ) else w = 0

theorem small_reject {l : ℚ} (hl : 1 / 2 ≤ l) (hl1 : l ≤ 1) (hE : 1 ≤ E) {k : ℕ} {w : ℚ}
    (h : Small E k w) :
    Small E (k + 1) (gradualRound E (gradualRound E (gradualRound E (1 - l) * w) +
      gradualRound E (gradualRound E (l * rejectScore) / sumScore))) := by
  obtain ⟨h0, h⟩ := h
  obtain ⟨r, hr⟩ : ∃ r, r = gradualRound E (1 - l) := ⟨_, rfl⟩
  have hr0 : 0 ≤ r := hr ▸ gradual_nonneg (by linarith)
  have hr1 : r ≤ 2 ^ (-1 : ℤ) :=
    hr ▸ gradual_le_pow (by omega) (by linarith) (by norm_num; linarith)
  rw [← hr, rejectScore, mul_zero, gradual_zero, zero_div, gradual_zero, add_zero]
  have hn : 0 ≤ gradualRound E (r * w) := gradual_nonneg (mul_nonneg hr0 h0)
  refine ⟨gradual_nonneg hn, ?_⟩
  by_cases hk : k ≤ E
  · rw [if_pos hk] at h
    have hle : r * w ≤ 2 ^ (-(k + 1 : ℕ) : ℤ) := by
      calc r * w ≤ 2 ^ (-1 : ℤ) * 2 ^ (-k : ℤ) := mul_le_mul hr1 h h0 (by positivity)
        _ = 2 ^ (-(k + 1 : ℕ) : ℤ) := by
          rw [← zpow_add₀ (by norm_num)]
          congr 1
          push_cast
          ring
    by_cases hk1 : k + 1 ≤ E
    · rw [if_pos hk1]
      exact gradual_le_pow (by omega) hn (gradual_le_pow (by omega) (mul_nonneg hr0 h0) hle)
    · rw [if_neg hk1]
      have : k = E := by omega
      subst this
      rw [gradual_vanishes (mul_nonneg hr0 h0) hle, gradual_zero]
  · rw [if_neg hk] at h
    rw [if_neg (by omega), h, mul_zero, gradual_zero, gradual_zero]

/-- Choosing among weights that are all zero raises. -/
theorem getIndex_zero {fl : ℚ → ℚ} {sum : List ℚ → ℚ}
    (hsum : ∀ w : List ℚ, (∀ x ∈ w, x = 0) → sum w = 0) {w : List ℚ} (hne : w ≠ [])
    (hw : ∀ x ∈ w, x = 0) (u : ℚ) : getIndex fl sum w u = .error .zeroDivisionError := by
  unfold getIndex getProbabilities
  rw [if_pos ⟨hne, hsum w hw⟩]

/-- The choices of one kind of operators in a run of the loop. -/
theorem loop_vanish {A : Problem S} {P : Params}
    (hsum : ∀ w : List ℚ, (∀ x ∈ w, x = 0) → P.sum w = 0) (hl : 1 / 2 ≤ P.l) (hl1 : P.l ≤ 1)
    (hE : 1 ≤ E) (weights : State S → List ℚ) (index : Pass S → ℕ) (draw : Draw → ℚ)
    (hidx : ∀ st d ps, pass (gradualRound E) A P st d = .ok ps →
      getIndex (gradualRound E) P.sum (weights st) (draw d) = .ok (index ps))
    (hupd : ∀ st d ps, pass (gradualRound E) A P st d = .ok ps →
      weights ps.next = updateWeights (gradualRound E) (weights st) P.l ps.score (index ps))
    (front : List (Pass S)) :
    ∀ {draws : List Draw} {st : State S} {s : S} {x : Pass S} {rest : List (Pass S)} {k : ℕ → ℕ},
      weights st ≠ [] →
      (∀ i w, (weights st)[i]? = some w → Small E (k i) w) →
      (∀ q ∈ front, q.score = rejectScore) →
      loop (gradualRound E) A P draws st = .ok (s, front ++ x :: rest) →
      ∃ i < (weights st).length, k i + (front.filter (index · = i)).length ≤ E := by
  induction front with
  | nil =>
    intro draws st s x rest k hne hk _ h
    by_contra hall
    push Not at hall
    cases draws with
    | nil => simp [loop] at h
    | cons d ds =>
    obtain ⟨ps, hps, -⟩ := loop_cons h
    have hi := hidx _ _ _ hps
    rw [getIndex_zero hsum hne] at hi
    · simp at hi
    · intro w hw
      obtain ⟨i, hi', hw⟩ := List.getElem_of_mem hw
      have h1 := hall i hi'
      have h2 := hk i w (by rw [List.getElem?_eq_getElem hi', hw])
      simp only [List.filter_nil, List.length_nil, add_zero] at h1
      have := h2.2
      rwa [if_neg (by omega)] at this
  | cons q front ih =>
    intro draws st s x rest k hne hk hq h
    cases draws with
    | nil => simp [loop] at h
    | cons d ds =>
    obtain ⟨ps, hps, h⟩ := loop_cons h
    rcases h with ⟨-, -, h⟩ | ⟨tr', -, h, htr⟩
    · simp at h
    simp only [List.cons_append, List.cons.injEq] at htr
    obtain ⟨rfl, rfl⟩ := htr
    have hw := hupd _ _ _ hps
    rw [hq q (by simp)] at hw
    have hlen : (weights q.next).length = (weights st).length := by
      rw [hw]; simp [updateWeights]
    obtain ⟨i, hi, hle⟩ := ih (k := fun i => if index q = i then k i + 1 else k i)
      (st := q.next) (by rw [← List.length_pos_iff, hlen, List.length_pos_iff]; exact hne) (by
        intro i w hiw
        rw [hw, updateWeights, List.getElem?_modify] at hiw
        cases hs : (weights st)[i]? with
        | none => simp [hs] at hiw
        | some v =>
          have hv := hk i v hs
          rw [hs] at hiw
          by_cases hi : index q = i
          · simp only [hi, if_true, Option.map_eq_map, Option.map_some, Option.some.injEq] at hiw
            simp only [hi, if_true]
            rw [← hiw]
            exact small_reject hl hl1 hE hv
          · simp only [hi, if_false, Option.map_eq_map, Option.map_some, id,
              Option.some.injEq] at hiw
            simp only [hi, if_false]
            rw [← hiw]
            exact hv) (fun q' hq' => hq q' (by simp [hq'])) h
    refine ⟨i, hlen ▸ hi, ?_⟩
    rw [List.filter_cons]
    by_cases hqi : index q = i
    · simp only [hqi, if_true, decide_true, List.length_cons] at hle ⊢
      omega
    · simp only [hqi, if_false, decide_false, Bool.false_eq_true] at hle ⊢
      omega

theorem small_one (E : ℕ) {n i : ℕ} {w : ℚ} (h : (List.replicate n (1 : ℚ))[i]? = some w) :
    Small E 0 w := by
  rw [List.getElem?_replicate] at h
  split_ifs at h
  simp only [Option.some.injEq] at h
  subst h
  exact ⟨by norm_num, by simp⟩

/-- **C143** (false).  With a decay of at least one half a search whose candidates are rejected
cannot go on: if it made another pass, some destroy operator had been tried fewer than `1075`
times.  Once every one of them has been rejected that often all the weights are zero, and the
probabilities are divided by their sum. -/
theorem C143_destroy_weights_vanish {A : Problem S} {P : Params}
    (hsum : ∀ w : List ℚ, (∀ x ∈ w, x = 0) → P.sum w = 0) (hl : 1 / 2 ≤ P.l) (hl1 : P.l ≤ 1)
    (hne : A.destroy ≠ []) {initial : S} {draws : List Draw} {s : S} {front : List (Pass S)}
    {next : Pass S} {rest : List (Pass S)}
    (h : solveTrace doubleRound A P initial draws = .ok (s, front ++ next :: rest))
    (hrej : ∀ q ∈ front, q.score = rejectScore) :
    ∃ i < A.destroy.length, (front.filter (·.destroyIndex = i)).length < 1075 := by
  unfold solveTrace doubleRound at h
  split_ifs at h
  · simp at h
  obtain ⟨i, hi, hle⟩ := loop_vanish (E := 1074) hsum hl hl1 (by norm_num) (·.destroyWeights)
    (·.destroyIndex) (·.destroyDraw) (fun st d ps h => (pass_ok h).1)
    (fun st d ps h => by
      obtain ⟨-, -, _, _, _, _, _, _, _, _, _, _, _, _, _, h, _⟩ := pass_ok h
      exact h) front (k := fun _ => 0) (by simp [initState, hne])
    (fun i w hw => small_one _ hw) hrej h
  exact ⟨i, by simpa [initState] using hi, by omega⟩

/-- **C143** (false).  The same of the repair operators. -/
theorem C143_repair_weights_vanish {A : Problem S} {P : Params}
    (hsum : ∀ w : List ℚ, (∀ x ∈ w, x = 0) → P.sum w = 0) (hl : 1 / 2 ≤ P.l) (hl1 : P.l ≤ 1)
    (hne : A.repair ≠ []) {initial : S} {draws : List Draw} {s : S} {front : List (Pass S)}
    {next : Pass S} {rest : List (Pass S)}
    (h : solveTrace doubleRound A P initial draws = .ok (s, front ++ next :: rest))
    (hrej : ∀ q ∈ front, q.score = rejectScore) :
    ∃ i < A.repair.length, (front.filter (·.repairIndex = i)).length < 1075 := by
  unfold solveTrace doubleRound at h
  split_ifs at h
  · simp at h
  obtain ⟨i, hi, hle⟩ := loop_vanish (E := 1074) hsum hl hl1 (by norm_num) (·.repairWeights)
    (·.repairIndex) (·.repairDraw) (fun st d ps h => (pass_ok h).2.1)
    (fun st d ps h => by
      obtain ⟨-, -, _, _, _, _, _, _, _, _, _, _, _, _, _, _, h⟩ := pass_ok h
      exact h) front (k := fun _ => 0) (by simp [initState, hne])
    (fun i w hw => small_one _ hw) hrej h
  exact ⟨i, by simpa [initState] using hi, by omega⟩

/-! ### Searches that never raise -/

/-- What is asked of `sum`: of positive doubles it is positive, and at most `2 ^ (n + 1)` times the
largest. -/
def FairSum (E : ℕ) (sum : List ℚ → ℚ) : Prop :=
  ∀ w : List ℚ, w ≠ [] → (∀ x ∈ w, 2 ^ (-E : ℤ) ≤ x) →
    0 < sum w ∧ ∀ b, (∀ x ∈ w, x ≤ b) → sum w ≤ 2 ^ (w.length + 1) * b

/-- Summing exactly is fair. -/
theorem fairSum_exact (E : ℕ) : FairSum E List.sum := by
  intro w hne hw
  constructor
  · refine List.sum_pos _ (fun x hx => lt_of_lt_of_le (by positivity) (hw x hx)) hne
  · intro b hb
    have h1 : w.sum ≤ w.length * b := by
      have := List.sum_le_card_nsmul w b hb
      simpa using this
    obtain ⟨x, hx⟩ := List.exists_mem_of_ne_nil w hne
    have hb0 : 0 ≤ b := (lt_of_lt_of_le (by positivity) (hw x hx)).le.trans (hb x hx)
    have h2 : (w.length : ℚ) ≤ 2 ^ (w.length + 1) := by
      have : w.length < 2 ^ w.length := Nat.lt_two_pow_self
      have h3 : w.length ≤ 2 ^ (w.length + 1) := by rw [pow_succ]; omega
      exact_mod_cast h3
    exact h1.trans (mul_le_mul_of_nonneg_right h2 hb0)

/-- Adding from left to right and rounding every sum. -/
def roundedSum (E : ℕ) (w : List ℚ) : ℚ := total (gradualRound E) w

theorem foldl_round {w : List ℚ} (hw : ∀ x ∈ w, 2 ^ (-E : ℤ) ≤ x) :
    ∀ {acc b : ℚ}, 0 ≤ acc → 0 ≤ b → (∀ x ∈ w, x ≤ b) →
      (w ≠ [] ∨ 0 < acc → 0 < w.foldl (fun acc w => gradualRound E (acc + w)) acc) ∧
      w.foldl (fun acc w => gradualRound E (acc + w)) acc ≤ 2 ^ w.length * acc +
        (2 ^ (w.length + 1) - 2) * b := by
  induction w with
  | nil =>
    intro acc b h0 hb _
    refine ⟨fun h => by simpa using h, by simp⟩
  | cons y ys ih =>
    intro acc b h0 hb hyb
    have hy := hw y (by simp)
    have hs : 2 ^ (-E : ℤ) ≤ acc + y := by linarith
    have h1 := gradual_ge_pow (E := E) (le_refl _) hs
    have hpos : 0 < gradualRound E (acc + y) := lt_of_lt_of_le (by positivity) h1
    have h2 := gradual_le_double hs
    obtain ⟨h3, h4⟩ := ih (fun x hx => hw x (by simp [hx])) (acc := gradualRound E (acc + y))
      hpos.le hb (fun x hx => hyb x (by simp [hx]))
    refine ⟨fun _ => by simpa using h3 (.inr hpos), ?_⟩
    simp only [List.foldl_cons, List.length_cons]
    refine h4.trans ?_
    have h5 : gradualRound E (acc + y) ≤ 2 * acc + 2 * b := by
      have := hyb y (by simp)
      linarith
    have h6 := mul_le_mul_of_nonneg_left h5 (show (0 : ℚ) ≤ 2 ^ ys.length by positivity)
    rw [pow_succ (2 : ℚ) (ys.length + 1), pow_succ (2 : ℚ) ys.length]
    nlinarith [h6]

/-- Rounding every sum is fair too. -/
theorem fairSum_rounded (E : ℕ) : FairSum E (roundedSum E) := by
  intro w hne hw
  obtain ⟨x, hx⟩ := List.exists_mem_of_ne_nil w hne
  have hx0 : 0 < x := lt_of_lt_of_le (by positivity) (hw x hx)
  constructor
  · obtain ⟨b, hb⟩ : ∃ b, ∀ x ∈ w, x ≤ b := ⟨w.sum, fun x hx =>
      List.single_le_sum (fun y hy => (lt_of_lt_of_le (by positivity) (hw y hy)).le) x hx⟩
    exact (foldl_round hw (le_refl 0) (hx0.le.trans (hb x hx)) hb).1 (.inl hne)
  · intro b hb
    have hb0 := hx0.le.trans (hb x hx)
    have := (foldl_round hw (le_refl 0) hb0 hb).2
    unfold roundedSum total
    linarith

theorem total_pos {w : List ℚ} (h0 : ∀ x ∈ w, 0 ≤ x) :
    ∀ {acc : ℚ}, 0 ≤ acc → (2 ^ (-E : ℤ) ≤ acc ∨ ∃ x ∈ w, 2 ^ (-E : ℤ) ≤ x) →
      2 ^ (-E : ℤ) ≤ w.foldl (fun acc w => gradualRound E (acc + w)) acc := by
  induction w with
  | nil => intro acc _ h; simpa using h
  | cons y ys ih =>
    intro acc ha h
    have hy := h0 y (by simp)
    rw [List.foldl_cons]
    refine ih (fun x hx => h0 x (by simp [hx])) (gradual_nonneg (by linarith)) ?_
    rcases h with h | ⟨x, hx, h⟩
    · exact .inl (gradual_ge_pow (le_refl _) (by linarith))
    · rcases List.mem_cons.1 hx with rfl | hx
      · exact .inl (gradual_ge_pow (le_refl _) (by linarith))
      · exact .inr ⟨x, hx, h⟩

theorem choose_lt {fl : ℚ → ℚ} (u : ℚ) : ∀ (w : List ℚ) (acc : ℚ), w ≠ [] →
    choose fl u w acc < w.length
  | [], _, h => absurd rfl h
  | [_], _, _ => by simp [choose]
  | y :: z :: zs, acc, _ => by
    unfold choose
    split_ifs
    · simp
    · have := choose_lt (fl := fl) u (z :: zs) (fl (acc + y)) (by simp)
      simp only [List.length_cons] at this ⊢
      omega

/-- Choosing among positive weights does not raise. -/
theorem getIndex_ok {sum : List ℚ → ℚ} (hsum : FairSum E sum) {w : List ℚ} (hne : w ≠ [])
    (hlen : w.length + 1 ≤ E) (hw : ∀ x ∈ w, 2 ^ (-E : ℤ) ≤ x) (u : ℚ) :
    ∃ i < w.length, getIndex (gradualRound E) sum w u = .ok i := by
  obtain ⟨hs, hb⟩ := hsum w hne hw
  obtain ⟨b, hbw, hmax⟩ : ∃ b ∈ w, ∀ x ∈ w, x ≤ b := by
    obtain ⟨b, hb⟩ : ∃ b, b ∈ w.argmax id := by
      cases h : w.argmax id with
      | none => exact absurd (List.argmax_eq_none.1 h) hne
      | some b => exact ⟨b, rfl⟩
    exact ⟨b, List.argmax_mem hb, fun x hx => List.le_of_mem_argmax hx hb⟩
  have hb0 : 0 < b := lt_of_lt_of_le (by positivity) (hw b hbw)
  have hle := hb b hmax
  have hq : 2 ^ (-(w.length + 1 : ℕ) : ℤ) ≤ b / sum w := by
    rw [zpow_neg, zpow_natCast, le_div_iff₀ hs, inv_mul_le_iff₀ (by positivity)]
    exact hle
  have hfl := gradual_ge_pow (E := E) (by omega) hq
  have hmin : (2 : ℚ) ^ (-E : ℤ) ≤ 2 ^ (-(w.length + 1 : ℕ) : ℤ) :=
    zpow_le_zpow_right₀ (by norm_num) (by omega)
  obtain ⟨p, hp⟩ : ∃ p, p = w.map fun x => gradualRound E (x / sum w) := ⟨_, rfl⟩
  have hpne : p ≠ [] := by rw [hp]; simpa using hne
  have htot : 2 ^ (-E : ℤ) ≤ total (gradualRound E) p := by
    refine total_pos ?_ (le_refl 0) (.inr ⟨gradualRound E (b / sum w), ?_, hmin.trans hfl⟩)
    · intro x hx
      rw [hp, List.mem_map] at hx
      obtain ⟨y, hy, rfl⟩ := hx
      exact gradual_nonneg (div_nonneg ((lt_of_lt_of_le (by positivity) (hw y hy)).le) hs.le)
    · rw [hp]
      exact List.mem_map_of_mem hbw
  have htp : 0 < total (gradualRound E) p := lt_of_lt_of_le (by positivity) htot
  refine ⟨choose (gradualRound E) (gradualRound E (u * total (gradualRound E) p)) p 0, ?_, ?_⟩
  · have := choose_lt (fl := gradualRound E)
      (gradualRound E (u * total (gradualRound E) p)) p 0 hpne
    rwa [hp, List.length_map, ← hp] at this
  · unfold getIndex getProbabilities
    rw [if_neg (fun h => hs.ne' h.2)]
    dsimp only
    rw [← hp]
    unfold randomChoice
    rw [if_neg hpne, if_neg (not_le.2 htp)]

/-- Rounding a number between one half and one. -/
theorem gradual_gt_half (hE : 52 ≤ E) {x : ℚ} (h : 51 / 100 ≤ x) (h1 : x ≤ 1) :
    1 / 2 < gradualRound E x := by
  have hlog : Int.log 2 |x| ≤ 0 := by
    rw [abs_of_pos (by linarith)]
    have := Int.log_mono_right (b := 2) (show (0 : ℚ) < x by linarith) h1
    simpa using this
  unfold gradualRound
  obtain ⟨e, he⟩ : ∃ e, e = max (Int.log 2 |x| - 52) (-E) := ⟨_, rfl⟩
  rw [← he]
  have hle : e ≤ -52 := by omega
  have hpos : (0 : ℚ) < 2 ^ e := by positivity
  have herr := nearestEven_error (x / 2 ^ e)
  have h2 := (abs_le.1 herr).1
  have h3 : (2 : ℚ) ^ e < 1 / 100 :=
    (zpow_le_zpow_right₀ (by norm_num) hle).trans_lt (by norm_num)
  have h5 : x / 2 ^ e * 2 ^ e = x := div_mul_cancel₀ _ hpos.ne'
  have h6 := mul_le_mul_of_nonneg_right h2 hpos.le
  rw [sub_mul, h5] at h6
  linarith

/-- A positive double scaled by more than one half is a positive double. -/
theorem gradual_scale {a x : ℚ} (ha : 1 / 2 < a) (hx : 2 ^ (-E : ℤ) ≤ x) :
    2 ^ (-E : ℤ) ≤ gradualRound E (a * x) := by
  refine gradual_least (gradual_pos ?_)
  have h0 : (0 : ℚ) < 2 ^ (-E : ℤ) := by positivity
  calc (2 : ℚ) ^ (-(E + 1 : ℕ) : ℤ) = 1 / 2 * 2 ^ (-E : ℤ) := by
        rw [show (-(E + 1 : ℕ) : ℤ) = -E + (-1) by push_cast; ring, zpow_add₀ (by norm_num)]
        norm_num [mul_comm]
    _ < a * 2 ^ (-E : ℤ) := mul_lt_mul_of_pos_right ha h0
    _ ≤ a * x := mul_le_mul_of_nonneg_left hx (by linarith)

theorem updateWeights_pos (hE : 52 ≤ E) {l score : ℚ} (hl0 : 0 ≤ l) (hl : l ≤ 49 / 100)
    (hs : 0 ≤ score) {w : List ℚ} (hw : ∀ x ∈ w, 2 ^ (-E : ℤ) ≤ x) (i : ℕ) :
    ∀ x ∈ updateWeights (gradualRound E) w l score i, 2 ^ (-E : ℤ) ≤ x := by
  intro x hx
  obtain ⟨j, hj, hx⟩ := List.getElem_of_mem hx
  have hj' : j < w.length := by simpa [updateWeights] using hj
  have hwj := hw _ (List.getElem_mem hj')
  simp only [updateWeights, List.getElem_modify] at hx
  split_ifs at hx
  · rw [← hx]
    refine gradual_ge_pow (le_refl _) ?_
    have h1 := gradual_scale (gradual_gt_half hE (show 51 / 100 ≤ 1 - l by linarith)
      (by linarith)) hwj
    have h2 : 0 ≤ gradualRound E (gradualRound E (l * score) / sumScore) :=
      gradual_nonneg (div_nonneg (gradual_nonneg (mul_nonneg hl0 hs))
        (by norm_num [sumScore, bestScore, betterScore, acceptScore, rejectScore]))
    linarith
  · rw [← hx]; exact hwj

/-- The operators of the search never raise on solutions with `I`, keep it, and solutions with `I`
cost at most `-1`. -/
structure Runs (A : Problem S) (P : Params) (I : S → Prop) : Prop where
  cost : ∀ s, I s → A.cost s ≤ -1
  operators : ∀ s, I s → ∀ f ∈ A.destroy, ∀ picks, ∃ t, f s P.toRemove picks = .ok t ∧
    ∀ g ∈ A.repair, ∃ c, g t P.toAdd = .ok c ∧ I c

theorem pass_total (hE : 52 ≤ E) {A : Problem S} {P : Params} {I : S → Prop} (hR : Runs A P I)
    (hsum : FairSum E P.sum) (hp : 1 / 2 < P.p) (hl0 : 0 ≤ P.l) (hl : P.l ≤ 49 / 100)
    (hd : A.destroy ≠ []) (hr : A.repair ≠ []) (hdl : A.destroy.length + 1 ≤ E)
    (hrl : A.repair.length + 1 ≤ E) {st : State S} (hI : I st.current)
    (hT : 2 ^ (-E : ℤ) ≤ st.temperature)
    (hdw : st.destroyWeights.length = A.destroy.length)
    (hrw : st.repairWeights.length = A.repair.length)
    (hdp : ∀ x ∈ st.destroyWeights, 2 ^ (-E : ℤ) ≤ x)
    (hrp : ∀ x ∈ st.repairWeights, 2 ^ (-E : ℤ) ≤ x) (d : Draw) :
    ∃ ps, pass (gradualRound E) A P st d = .ok ps ∧ I ps.next.current ∧
      2 ^ (-E : ℤ) ≤ ps.next.temperature ∧
      ps.next.destroyWeights.length = A.destroy.length ∧
      ps.next.repairWeights.length = A.repair.length ∧
      (∀ x ∈ ps.next.destroyWeights, 2 ^ (-E : ℤ) ≤ x) ∧
      (∀ x ∈ ps.next.repairWeights, 2 ^ (-E : ℤ) ≤ x) := by
  obtain ⟨i, hi, hgi⟩ := getIndex_ok hsum
    (by rw [← List.length_pos_iff, hdw, List.length_pos_iff]; exact hd)
    (by omega) hdp d.destroyDraw
  obtain ⟨j, hj, hgj⟩ := getIndex_ok hsum
    (by rw [← List.length_pos_iff, hrw, List.length_pos_iff]; exact hr)
    (by omega) hrp d.repairDraw
  rw [hdw] at hi
  rw [hrw] at hj
  obtain ⟨t, ht, hg⟩ := hR.operators _ hI _ (List.getElem_mem hi) d.picks
  obtain ⟨c, hc, hIc⟩ := hg _ (List.getElem_mem hj)
  obtain ⟨b, hb⟩ : ∃ b, accept (gradualRound E) P.exp (A.cost c) (A.cost st.current)
      st.temperature d.acceptDraw = .ok b := by
    unfold accept
    split_ifs with h1 h2
    · exact ⟨_, rfl⟩
    · exfalso
      have hcost := hR.cost _ hI
      have h0 : (0 : ℚ) < 2 ^ (-E : ℤ) := by positivity
      have h4 : 2 ^ (-E : ℤ) ≤ st.temperature * -A.cost st.current := by nlinarith
      have h5 := gradual_ge_pow (E := E) (le_refl _) h4
      rw [mul_neg, gradual_neg, h2] at h5
      linarith
    · exact ⟨_, rfl⟩
  have hdi : A.destroy[i]? = some A.destroy[i] := List.getElem?_eq_getElem hi
  have hrj : A.repair[j]? = some A.repair[j] := List.getElem?_eq_getElem hj
  have hscore : ∀ (b : Bool) (x y : ℚ) (z : Bool), 0 ≤ (if z = true then bestScore else
      if b = true then if x > y then betterScore else acceptScore else rejectScore) := by
    intro b x y z
    unfold bestScore betterScore acceptScore rejectScore
    split_ifs <;> norm_num
  unfold pass
  simp only [bind, Except.bind, hgi, hgj, hdi, hrj, ht, hc, hb, pure, Except.pure]
  refine ⟨_, rfl, ?_, gradual_scale hp hT, by simpa [updateWeights] using hdw,
    by simpa [updateWeights] using hrw, updateWeights_pos hE hl0 hl (hscore _ _ _ _) hdp _,
    updateWeights_pos hE hl0 hl (hscore _ _ _ _) hrp _⟩
  dsimp only
  split_ifs
  · exact hIc
  · exact hI

theorem loop_total (hE : 52 ≤ E) {A : Problem S} {P : Params} {I : S → Prop} (hR : Runs A P I)
    (hsum : FairSum E P.sum) (hp : 1 / 2 < P.p) (hl0 : 0 ≤ P.l) (hl : P.l ≤ 49 / 100)
    (hd : A.destroy ≠ []) (hr : A.repair ≠ []) (hdl : A.destroy.length + 1 ≤ E)
    (hrl : A.repair.length + 1 ≤ E) (draws : List Draw) :
    ∀ {st : State S}, I st.current → 2 ^ (-E : ℤ) ≤ st.temperature →
    st.destroyWeights.length = A.destroy.length →
    st.repairWeights.length = A.repair.length →
    (∀ x ∈ st.destroyWeights, 2 ^ (-E : ℤ) ≤ x) →
    (∀ x ∈ st.repairWeights, 2 ^ (-E : ℤ) ≤ x) →
    ∃ r, loop (gradualRound E) A P draws st = .ok r := by
  induction draws with
  | nil => intro st _ _ _ _ _ _; exact ⟨_, rfl⟩
  | cons d ds ih =>
    intro st h1 h2 h3 h4 h5 h6
    obtain ⟨ps, hps, k1, k2, k3, k4, k5, k6⟩ :=
      pass_total hE hR hsum hp hl0 hl hd hr hdl hrl h1 h2 h3 h4 h5 h6 d
    obtain ⟨⟨s, tr⟩, hl⟩ := ih k1 k2 k3 k4 k5 k6
    unfold loop
    rw [hps]
    dsimp only
    split_ifs
    · exact ⟨_, rfl⟩
    · rw [hl]; exact ⟨_, rfl⟩

/-- **C143** (partial).  With an annealing coefficient above one half and a decay of at most 0.49,
a search over solutions that cost at most `-1`, whose operators do not raise, returns however many
passes are asked for.  Missing: coefficients of at most one half and decays of at least one half,
for which it is false. -/
theorem C143_long_search_partial {A : Problem S} {P : Params} {I : S → Prop} (hR : Runs A P I)
    (hsum : FairSum 1074 P.sum) (hp : 1 / 2 < P.p) (hl0 : 0 ≤ P.l) (hl : P.l ≤ 49 / 100)
    (hlog : P.logHalf ≤ -1 / 2) (hlog1 : -1 ≤ P.logHalf)
    (hd : A.destroy ≠ []) (hr : A.repair ≠ []) (hdl : A.destroy.length ≤ 1000)
    (hrl : A.repair.length ≤ 1000) {initial : S} (hi : I initial) (draws : List Draw) :
    ∃ s, solve doubleRound A P initial draws = .ok s ∧ A.cost s ≤ A.cost initial := by
  obtain ⟨E, hE⟩ : ∃ E, E = 1074 := ⟨_, rfl⟩
  have hfl : doubleRound = gradualRound E := by rw [hE]; rfl
  have hone : (2 : ℚ) ^ (-E : ℤ) ≤ 1 := zpow_le_one_of_nonpos₀ (by norm_num) (by omega)
  have hT : 2 ^ (-E : ℤ) ≤ (initState (gradualRound E) A P initial).temperature := by
    have hcost := hR.cost _ hi
    have h32 : (2 : ℚ) ^ (-5 : ℤ) = 1 / 32 := by norm_num
    have h5 : (2 : ℚ) ^ (-E : ℤ) ≤ 2 ^ (-5 : ℤ) :=
      zpow_le_zpow_right₀ (by norm_num) (by omega)
    obtain ⟨a, ha⟩ : ∃ a, a = gradualRound E (1 / 20) := ⟨_, rfl⟩
    have ha1 : 2 ^ (-5 : ℤ) ≤ a := ha ▸ gradual_ge_pow (by omega) (by norm_num)
    obtain ⟨b, hb⟩ : ∃ b, b = gradualRound E (a * -A.cost initial) := ⟨_, rfl⟩
    have hb1 : 2 ^ (-5 : ℤ) ≤ b := by
      rw [hb]
      refine gradual_ge_pow (by omega) ?_
      rw [h32] at ha1 ⊢
      nlinarith
    unfold initState
    dsimp only
    rw [← ha, show a * A.cost initial = -(a * -A.cost initial) by ring, gradual_neg, ← hb,
      neg_div, ← div_neg]
    refine h5.trans (gradual_ge_pow (by omega) ?_)
    rw [le_div_iff₀ (by linarith)]
    rw [h32] at hb1 ⊢
    nlinarith
  have key : ∃ r, solveTrace doubleRound A P initial draws = .ok r := by
    unfold solveTrace
    rw [hfl]
    split_ifs
    · exact ⟨_, rfl⟩
    · refine loop_total (by omega) hR (hE ▸ hsum) hp hl0 hl hd hr (by omega) (by omega) draws
        (st := initState (gradualRound E) A P initial) hi hT (by simp [initState])
        (by simp [initState]) ?_ ?_
      all_goals
        intro x hx
        simp only [initState, List.mem_replicate] at hx
        rw [hx.2]
        exact hone
  obtain ⟨⟨s, tr⟩, h⟩ := key
  have hs : solve doubleRound A P initial draws = .ok s := by
    unfold solve
    rw [h]
    rfl
  exact ⟨s, hs, C143_never_worse_partial hs⟩

/-! ### A small search -/

namespace Demo

/-- Two solutions, a bad one and a good one; the first operator finds the bad one, the second the
good one. -/
def toy : Problem Bool :=
  { cost := fun s => if s then -2 else -1
    complete := fun _ => false
    destroy := [fun _ _ _ => .ok false, fun _ _ _ => .ok true]
    repair := [fun s _ => .ok s] }

/-- Arguments of the search. -/
def params (p l : ℚ) : Params :=
  { p := p, l := l, toRemove := 1, toAdd := 1, sum := roundedSum 1074
    exp := fun x => if x ≤ -100 then 0 else 1, logHalf := -7 / 10 }

/-- Draws that choose the first operators. -/
def draw : Draw := { destroyDraw := 1 / 4, repairDraw := 1 / 4, acceptDraw := 1 / 2, picks := id }

theorem toy_kept (p l : ℚ) : Kept toy (params p l) fun _ => True := fun _ _ _ _ _ _ _ _ _ _ _ =>
  trivial

/-- Cooling by half, the search raises after 1,078 passes. -/
example (l : ℚ) : ∃ e, solve doubleRound toy (params (1 / 2) l) true
    (List.replicate 1078 draw) = .error e := by
  cases h : solve doubleRound toy (params (1 / 2) l) true (List.replicate 1078 draw) with
  | error e => exact ⟨e, rfl⟩
  | ok s =>
    have := C143_cold_search_raises (toy_kept (1 / 2) l) (C := {-2, -1})
      (fun s _ => by cases s <;> simp [toy]) (by norm_num [params]) (by norm_num [params])
      (by norm_num [params]) trivial (m := 1) (by norm_num [toy]) (by norm_num [toy])
      (by rw [show ({-2, -1} : Finset ℚ).card = 2 by decide +kernel, List.length_replicate]) h
    simp [toy] at this

theorem toy_runs (p l : ℚ) : Runs toy (params p l) fun _ => True where
  cost s _ := by cases s <;> norm_num [toy]
  operators s _ f hf picks := by
    simp only [toy, List.mem_cons, List.not_mem_nil, or_false] at hf
    rcases hf with rfl | rfl
    all_goals
      refine ⟨_, rfl, fun g hg => ?_⟩
      simp only [toy, List.mem_cons, List.not_mem_nil, or_false] at hg
      subst hg
      exact ⟨_, rfl, trivial⟩

/-- Cooling by a tenth, it never does. -/
example (draws : List Draw) :
    ∃ s, solve doubleRound toy (params (9 / 10) (1 / 10)) false draws = .ok s ∧
      toy.cost s ≤ toy.cost false :=
  C143_long_search_partial (toy_runs _ _) (fairSum_rounded 1074) (by norm_num [params])
    (by norm_num [params]) (by norm_num [params]) (by norm_num [params]) (by norm_num [params])
    (by simp [toy]) (by simp [toy]) (by simp [toy]) (by simp [toy]) trivial draws

/-- A search whose first candidates are rejected; each halves the weight of the operator. -/
example : (solveTrace doubleRound toy (params (1 / 1000) (1 / 2)) true [draw, draw, draw]).map
    (fun r => (r.1, r.2.map fun q => (q.destroyIndex, q.score, q.next.destroyWeights.take 1))) =
    .ok (true, [(0, 0, [1 / 2]), (0, 0, [1 / 4]), (1, 1, [1 / 4])]) := by
  decide +kernel

end Demo

end Alns.Rounded

end Celest
