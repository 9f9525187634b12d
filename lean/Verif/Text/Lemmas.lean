/-
Lemmas on number formatting and on joining lines.
-/
import Verif.Text.Spec
import Mathlib.Data.Nat.Digits.Lemmas
import Mathlib.Tactic.Linarith
import Mathlib.Tactic.FieldSimp
import Mathlib.Tactic.Ring
import Mathlib.Tactic.Positivity
import Mathlib.Tactic.IntervalCases

namespace Celest.Text

/-! ### Digits -/

theorem digitVal_digitChar (k : ℕ) (h : k < 10) : digitVal (digitChar k) = k := by
  interval_cases k <;> rfl

theorem isDigit_digitChar (k : ℕ) (h : k < 10) : (digitChar k).isDigit = true := by
  interval_cases k <;> rfl

theorem isDigit_ne (c : Char) (h : c.isDigit = true) :
    c ≠ '.' ∧ c ≠ '-' ∧ c ≠ ' ' ∧ c ≠ '\t' ∧ c ≠ '\n' := by
  refine ⟨?_, ?_, ?_, ?_, ?_⟩ <;> rintro rfl <;> revert h <;> decide

theorem natStr_digits (n : ℕ) : ∀ c ∈ natStr n, c.isDigit = true := by
  intro c hc
  unfold natStr at hc
  split at hc
  · simp only [List.mem_singleton] at hc; subst hc; rfl
  · rw [List.mem_map] at hc
    obtain ⟨k, hk, rfl⟩ := hc
    exact isDigit_digitChar k (Nat.digits_lt_base (by norm_num) (List.mem_reverse.1 hk))

theorem natStr_ne_nil (n : ℕ) : natStr n ≠ [] := by
  unfold natStr
  split
  · simp
  · rename_i h
    simpa using (Nat.digits_ne_nil_iff_ne_zero (b := 10) (n := n)).2 h

theorem natVal_append (s t : Str) : natVal (s ++ t) = natVal s * 10 ^ t.length + natVal t := by
  unfold natVal
  rw [List.foldl_append]
  generalize s.foldl (fun a c => 10 * a + digitVal c) 0 = a
  suffices h : ∀ (t : Str) (a b : ℕ), t.foldl (fun a c => 10 * a + digitVal c) (a + b) =
      a * 10 ^ t.length + t.foldl (fun a c => 10 * a + digitVal c) b by
    simpa using h t a 0
  intro t
  induction t with
  | nil => intro a b; simp
  | cons c t ih =>
    intro a b
    simp only [List.foldl_cons, List.length_cons]
    have : 10 * (a + b) + digitVal c = 10 * a + (10 * b + digitVal c) := by ring
    rw [this, ih]
    ring

theorem natVal_map_digits : ∀ (l : List ℕ), (∀ d ∈ l, d < 10) →
    natVal (l.reverse.map digitChar) = Nat.ofDigits 10 l := by
  intro l
  induction l with
  | nil => intro _; rfl
  | cons d l ih =>
    intro h
    rw [List.reverse_cons, List.map_append, natVal_append, ih (fun x hx => h x (by simp [hx])),
      Nat.ofDigits_cons]
    have : natVal (List.map digitChar [d]) = d := by
      simp [natVal, digitVal_digitChar d (h d (by simp))]
    rw [this]
    simp
    ring

theorem natVal_natStr (n : ℕ) : natVal (natStr n) = n := by
  unfold natStr
  split
  · rename_i h; subst h; rfl
  · rw [natVal_map_digits _ (fun d hd => Nat.digits_lt_base (by norm_num) hd),
      Nat.ofDigits_digits]

theorem natVal_zfill (w : ℕ) (s : Str) : natVal (zfill w s) = natVal s := by
  unfold zfill
  rw [natVal_append]
  have : ∀ k, natVal (List.replicate k '0') = 0 := by
    intro k
    induction k with
    | zero => rfl
    | succ k ih =>
      rw [List.replicate_succ']
      rw [natVal_append, ih]
      rfl
  rw [this]
  simp

theorem zfill_digits (w n : ℕ) : ∀ c ∈ zfill w (natStr n), c.isDigit = true := by
  intro c hc
  unfold zfill at hc
  rcases List.mem_append.1 hc with h | h
  · rw [(List.mem_replicate.1 h).2]; rfl
  · exact natStr_digits n c h

theorem natStr_length_le (n d : ℕ) (hd : 0 < d) (h : n < 10 ^ d) : (natStr n).length ≤ d := by
  unfold natStr
  split
  · simp only [List.length_cons, List.length_nil]; omega
  · rw [List.length_map, List.length_reverse]
    exact (Nat.digits_length_le_iff (by norm_num) n).2 h

theorem natStr_length_mono {m n : ℕ} (h : m ≤ n) : (natStr m).length ≤ (natStr n).length := by
  by_cases hm : m = 0
  · subst hm
    have : 0 < (natStr n).length := List.length_pos_iff.2 (natStr_ne_nil n)
    have h0 : (natStr 0).length = 1 := rfl
    omega
  · have hn : n ≠ 0 := by omega
    unfold natStr
    rw [if_neg hm, if_neg hn]
    simpa using Nat.le_length_digits_le 10 m n h

theorem zfill_length (w n : ℕ) (hw : 0 < w) (h : n < 10 ^ w) :
    (zfill w (natStr n)).length = w := by
  unfold zfill
  have := natStr_length_le n w hw h
  simp
  omega

/-! ### Rounding -/

theorem roundHalfEven_close (q : ℚ) (hq : 0 ≤ q) : |(roundHalfEven q : ℚ) - q| ≤ 1 / 2 := by
  unfold roundHalfEven
  have h1 := Nat.floor_le hq
  have h2 := Nat.lt_floor_add_one q
  simp only
  rw [abs_le]
  split
  · constructor <;> linarith
  · rename_i h
    split
    · push_cast; constructor <;> linarith
    · split
      · constructor <;> linarith
      · push_cast; constructor <;> linarith

theorem roundHalfEven_mono {p q : ℚ} (hp : 0 ≤ p) (h : p ≤ q) :
    roundHalfEven p ≤ roundHalfEven q := by
  have hf : ⌊p⌋₊ ≤ ⌊q⌋₊ := Nat.floor_mono h
  have hp1 := Nat.floor_le hp
  rcases Nat.lt_or_ge ⌊p⌋₊ ⌊q⌋₊ with hlt | hge
  · have h1 : roundHalfEven p ≤ ⌊p⌋₊ + 1 := by
      unfold roundHalfEven
      simp only
      split
      · omega
      · split
        · omega
        · split <;> omega
    have h2 : ⌊q⌋₊ ≤ roundHalfEven q := by
      unfold roundHalfEven
      simp only
      split
      · omega
      · split
        · omega
        · split <;> omega
    omega
  · have he : ⌊p⌋₊ = ⌊q⌋₊ := le_antisymm hf hge
    unfold roundHalfEven
    simp only [he]
    split
    · split
      · omega
      · split
        · omega
        · split <;> omega
    · rename_i hn
      have : ¬ (q - ⌊q⌋₊ < 1 / 2) := by
        intro hc; apply hn; linarith
      rw [if_neg this]
      split
      · rename_i h2
        have : 1 / 2 < q - ⌊q⌋₊ := by linarith
        rw [if_pos this]
      · split
        · split
          · omega
          · exact le_rfl
        · split <;> exact le_rfl

theorem roundHalfEven_natCast (n : ℕ) : roundHalfEven n = n := by
  unfold roundHalfEven
  simp

/-! ### `%.df` -/

theorem takeWhile_dot (s t : Str) (hs : ∀ c ∈ s, c.isDigit = true) :
    (s ++ '.' :: t).takeWhile (· ≠ '.') = s ∧ (s ++ '.' :: t).dropWhile (· ≠ '.') = '.' :: t := by
  have h : ∀ c ∈ s, (decide (c ≠ '.')) = true := by
    intro c hc; simpa using (isDigit_ne c (hs c hc)).1
  constructor
  · rw [List.takeWhile_append_of_pos h]; simp
  · rw [List.dropWhile_append_of_pos h]; simp

theorem takeWhile_nodot (s : Str) (hs : ∀ c ∈ s, c.isDigit = true) :
    s.takeWhile (· ≠ '.') = s ∧ s.dropWhile (· ≠ '.') = [] := by
  have h : ∀ c ∈ s, (decide (c ≠ '.')) = true := by
    intro c hc; simpa using (isDigit_ne c (hs c hc)).1
  constructor
  · have := List.takeWhile_append_of_pos (l₂ := []) h
    simpa using this
  · have := List.dropWhile_append_of_pos (l₂ := []) h
    simpa using this

/-- The unsigned part of `%.df` of a number that rounds to `n / 10^d`. -/
def unsignedText (d n : ℕ) : Str :=
  natStr (n / 10 ^ d) ++ (if d = 0 then [] else '.' :: zfill d (natStr (n % 10 ^ d)))

theorem fmtFixed_eq (d : ℕ) (x : ℚ) : fmtFixed d x =
    (if x < 0 then ['-'] else []) ++ unsignedText d (roundHalfEven (|x| * 10 ^ d)) := by
  unfold fmtFixed unsignedText
  simp

theorem unsignedVal_text (d n : ℕ) : unsignedVal (unsignedText d n) = n / 10 ^ d := by
  unfold unsignedText unsignedVal
  by_cases hd : d = 0
  · subst hd
    simp only [pow_zero, Nat.div_one, if_true, List.append_nil]
    obtain ⟨h1, h2⟩ := takeWhile_nodot (natStr n) (natStr_digits n)
    rw [h1, h2]
    simp [natVal_natStr]
    simp [natVal]
  · simp only [hd, if_false]
    obtain ⟨h1, h2⟩ := takeWhile_dot (natStr (n / 10 ^ d)) (zfill d (natStr (n % 10 ^ d)))
      (natStr_digits _)
    rw [h1, h2]
    simp only [List.drop_succ_cons, List.drop_zero]
    rw [natVal_zfill, natVal_natStr, natVal_natStr,
      zfill_length d _ (by omega) (Nat.mod_lt _ (by positivity))]
    have h := Nat.div_add_mod n (10 ^ d)
    have hc : ((10 ^ d * (n / 10 ^ d) + n % 10 ^ d : ℕ) : ℚ) = n := by rw [h]
    push_cast at hc
    have hp : (10 : ℚ) ^ d ≠ 0 := by positivity
    field_simp
    push_cast
    linarith

theorem unsignedText_head (d n : ℕ) : ∃ c t, unsignedText d n = c :: t ∧ c ≠ '-' := by
  unfold unsignedText
  cases hs : natStr (n / 10 ^ d) with
  | nil => exact absurd hs (natStr_ne_nil _)
  | cons c t =>
    refine ⟨c, _, rfl, ?_⟩
    have := natStr_digits (n / 10 ^ d) c (by rw [hs]; simp)
    exact (isDigit_ne c this).2.1

/-- Reading back a formatted number gives the number up to half a unit in the last place. -/
theorem decimalVal_fmtFixed (d : ℕ) (x : ℚ) :
    |decimalVal (fmtFixed d x) - x| ≤ 1 / 2 / 10 ^ d := by
  rw [fmtFixed_eq]
  have hp : (0 : ℚ) < 10 ^ d := by positivity
  have hc := roundHalfEven_close (|x| * 10 ^ d) (by positivity)
  set n := roundHalfEven (|x| * 10 ^ d)
  have hn : |(n : ℚ) / 10 ^ d - (|x|)| ≤ 1 / 2 / 10 ^ d := by
    rw [show (n : ℚ) / 10 ^ d - |x| = ((n : ℚ) - |x| * 10 ^ d) / 10 ^ d by field_simp]
    rw [abs_div, abs_of_pos hp]
    exact div_le_div_of_nonneg_right hc hp.le
  split
  · rename_i hx
    simp only [List.singleton_append, decimalVal]
    rw [unsignedVal_text]
    rw [abs_of_neg hx] at hn
    rw [abs_le] at hn ⊢
    constructor <;> linarith [hn.1, hn.2]
  · rename_i hx
    obtain ⟨c, t, h1, h2⟩ := unsignedText_head d n
    have : decimalVal (unsignedText d n) = unsignedVal (unsignedText d n) := by
      rw [h1]
      unfold decimalVal
      split
      · rename_i heq; cases heq; exact absurd rfl h2
      · rfl
    rw [List.nil_append, this, unsignedVal_text]
    rwa [abs_of_nonneg (not_lt.1 hx)] at hn

/-- A formatted number is made of digits, a minus sign and a dot. -/
theorem fmtFixed_chars (d : ℕ) (x : ℚ) :
    ∀ c ∈ fmtFixed d x, c.isDigit = true ∨ c = '-' ∨ c = '.' := by
  intro c hc
  rw [fmtFixed_eq] at hc
  unfold unsignedText at hc
  simp only [List.mem_append] at hc
  rcases hc with h | h | h
  · split at h
    · right; left; simpa using h
    · simp at h
  · left; exact natStr_digits _ c h
  · split at h
    · simp at h
    · rcases List.mem_cons.1 h with h | h
      · right; right; exact h
      · left; exact zfill_digits _ _ c h

theorem fmtFixed_no_space (d : ℕ) (x : ℚ) :
    ∀ c ∈ fmtFixed d x, c ≠ ' ' ∧ c ≠ '\t' ∧ c ≠ '\n' := by
  intro c hc
  rcases fmtFixed_chars d x c hc with h | h | h
  · exact (isDigit_ne c h).2.2
  · subst h; decide
  · subst h; decide

theorem unsignedText_length_mono (d : ℕ) {m n : ℕ} (h : m ≤ n) :
    (unsignedText d m).length ≤ (unsignedText d n).length := by
  unfold unsignedText
  have h1 := natStr_length_mono (Nat.div_le_div_right (c := 10 ^ d) h)
  by_cases hd : d = 0
  · simp [hd] at h1 ⊢; exact h1
  · have hm := zfill_length d (m % 10 ^ d) (by omega) (Nat.mod_lt _ (by positivity))
    have hn := zfill_length d (n % 10 ^ d) (by omega) (Nat.mod_lt _ (by positivity))
    simp only [hd, if_false, List.length_append, List.length_cons, hm, hn]
    omega

/-- Among nonnegative numbers a larger one is never printed shorter. -/
theorem fmtFixed_length_mono (d : ℕ) {x y : ℚ} (hx : 0 ≤ x) (h : x ≤ y) :
    (fmtFixed d x).length ≤ (fmtFixed d y).length := by
  rw [fmtFixed_eq, fmtFixed_eq, if_neg (not_lt.2 hx), if_neg (not_lt.2 (hx.trans h)),
    List.nil_append, List.nil_append, abs_of_nonneg hx, abs_of_nonneg (hx.trans h)]
  apply unsignedText_length_mono
  apply roundHalfEven_mono (by positivity)
  exact mul_le_mul_of_nonneg_right h (by positivity)

/-- A negative number is printed one longer than its absolute value. -/
theorem fmtFixed_neg_length (d : ℕ) {x : ℚ} (hx : 0 < x) :
    (fmtFixed d (-x)).length = (fmtFixed d x).length + 1 := by
  rw [fmtFixed_eq, fmtFixed_eq, if_pos (by linarith), if_neg (by linarith), abs_neg]
  simp [Nat.add_comm]

theorem natStr_no_space (n : ℕ) : ∀ c ∈ natStr n, c ≠ ' ' ∧ c ≠ '\t' ∧ c ≠ '\n' := fun c hc =>
  (isDigit_ne c (natStr_digits n c hc)).2.2

theorem intStr_no_space (z : ℤ) : ∀ c ∈ intStr z, c ≠ ' ' ∧ c ≠ '\t' ∧ c ≠ '\n' := by
  intro c hc
  unfold intStr at hc
  split at hc
  · rcases List.mem_cons.1 hc with h | h
    · subst h; decide
    · exact natStr_no_space _ c h
  · exact natStr_no_space _ c hc

/-! ### Padding -/

theorem rstrip_ljust (w : ℕ) (s : Str) (hs : ∀ c ∈ s.getLast?, c ≠ ' ') :
    rstrip (ljust w s) = s := by
  unfold rstrip ljust
  rw [List.reverse_append, List.reverse_replicate,
    List.dropWhile_append_of_pos (by
      intro c hc
      simpa using (List.mem_replicate.1 hc).2)]
  cases hr : s.reverse with
  | nil => simpa using hr
  | cons c t =>
    have : s = (c :: t).reverse := by rw [← hr, List.reverse_reverse]
    have hne : c ≠ ' ' := hs c (by rw [this]; simp)
    rw [List.dropWhile_cons_of_neg (by simpa using hne), ← hr, List.reverse_reverse]

theorem ljust_length (w : ℕ) (s : Str) : (ljust w s).length = max w s.length := by
  unfold ljust
  simp
  omega

theorem mem_ljust {w : ℕ} {s : Str} {c : Char} (h : c ∈ ljust w s) : c ∈ s ∨ c = ' ' := by
  unfold ljust at h
  rcases List.mem_append.1 h with h | h
  · exact Or.inl h
  · exact Or.inr (List.mem_replicate.1 h).2

/-! ### Joining -/

theorem joinFrom_eq (sep : Str) (total : ℕ) : ∀ (l : List Str) (i : ℕ), i + l.length = total →
    joinFrom sep total i l = List.intercalate sep l := by
  intro l
  induction l with
  | nil => intro i _; rfl
  | cons s l ih =>
    intro i h
    rw [List.length_cons] at h
    unfold joinFrom
    rw [ih (i + 1) (by omega)]
    cases l with
    | nil =>
      rw [if_neg (by simp at h; omega)]
      simp
    | cons s' l =>
      rw [if_pos (by simp at h; omega), List.intercalate_cons_cons]

theorem joinFrom_zero (sep : Str) (l : List Str) (n : ℕ) (h : l.length = n) :
    joinFrom sep n 0 l = List.intercalate sep l := joinFrom_eq sep n l 0 (by omega)

/-- Joining with a terminator after the last piece. -/
theorem intercalate_append (sep : Str) (l m : List Str) (hl : l ≠ []) (hm : m ≠ []) :
    List.intercalate sep (l ++ m) = List.intercalate sep l ++ sep ++ List.intercalate sep m := by
  induction l with
  | nil => exact absurd rfl hl
  | cons a l ih =>
    cases l with
    | nil =>
      simp only [List.cons_append, List.nil_append]
      rw [List.intercalate_cons_of_ne_nil hm, List.intercalate_singleton]
    | cons b l =>
      simp only [List.cons_append] at ih ⊢
      rw [List.intercalate_cons_cons, List.intercalate_cons_cons, ih (by simp)]
      simp

end Celest.Text
