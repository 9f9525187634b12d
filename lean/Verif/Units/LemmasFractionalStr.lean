/-
Lemmas for C125: the displayed form of a unit with fractional powers and its dimension string
determine exponents and dimension.
-/
import Verif.Units.LemmasFractional

namespace Celest.Units.Frac

open Celest.Text (Str natStr natStr_digits natStr_ne_nil)

/-! ### Tokens -/

section
variable {fs : ℚ → Str} (hfs : FloatText fs)

/-- The text appended to a name. -/
def powText (fs : ℚ → Str) (p : Num) : Str := if |p.value| = 1 then [] else p.absText fs

theorem token_eq (a : Str) (p : Num) : token fs a p = a ++ powText fs p := rfl

theorem natStr_first (n : ℕ) : ∃ c ∈ (natStr n).head?, c.isDigit = true := by
  cases h : natStr n with
  | nil => exact absurd h (natStr_ne_nil n)
  | cons c t => exact ⟨c, rfl, natStr_digits n c (by rw [h]; simp)⟩

include hfs in
theorem absText_first (p : Num) : ∃ c ∈ (p.absText fs).head?, c.isDigit = true := by
  cases p with
  | int n => exact natStr_first _
  | float x => exact hfs.first _ (abs_nonneg x)

include hfs in
theorem absText_ne_nil (p : Num) : p.absText fs ≠ [] := by
  obtain ⟨c, hc, _⟩ := absText_first hfs p
  intro h; rw [h] at hc; simp at hc

include hfs in
theorem absText_plain (p : Num) : ∀ c ∈ p.absText fs, c ≠ ' ' ∧ c ≠ '/' := by
  cases p with
  | int n =>
    intro c hc
    have := natStr_digits _ c hc
    constructor <;> (rintro rfl; revert this; decide)
  | float x => exact hfs.plain _ (abs_nonneg x)

include hfs in
theorem absText_injective {p q : Num} (h : p.absText fs = q.absText fs) :
    |p.value| = |q.value| := by
  cases p with
  | int m =>
    cases q with
    | int n =>
      have := natStr_injective (show natStr m.natAbs = natStr n.natAbs from h)
      simp only [Num.value]
      rw [← Int.cast_abs, ← Int.cast_abs, Int.abs_eq_natAbs, Int.abs_eq_natAbs, this]
    | float y =>
      obtain ⟨c, hc, hd⟩ := hfs.mark _ (abs_nonneg y)
      have h' : natStr m.natAbs = fs |y| := h
      rw [← h'] at hc
      rw [natStr_digits _ c hc] at hd
      cases hd
  | float x =>
    cases q with
    | int n =>
      obtain ⟨c, hc, hd⟩ := hfs.mark _ (abs_nonneg x)
      have h' : fs |x| = natStr n.natAbs := h
      rw [h'] at hc
      rw [natStr_digits _ c hc] at hd
      cases hd
    | float y => exact hfs.inj _ _ (abs_nonneg x) (abs_nonneg y) h

include hfs in
theorem powText_injective {p q : Num} (h : powText fs p = powText fs q) :
    |p.value| = |q.value| := by
  unfold powText at h
  split_ifs at h with h1 h2 h2
  · rw [h1, h2]
  · exact absurd h.symm (absText_ne_nil hfs _)
  · exact absurd h (absText_ne_nil hfs _)
  · exact absText_injective hfs h

include hfs in
theorem powText_plain (p : Num) : ∀ c ∈ powText fs p, c ≠ ' ' ∧ c ≠ '/' := by
  unfold powText
  split_ifs
  · simp
  · exact absText_plain hfs p

theorem digit_not_alpha {c : Char} (h : c.isDigit = true) : c.isAlpha = false := by
  simp only [Char.isDigit, Bool.and_eq_true, decide_eq_true_eq] at h
  have h1 : c.val.toNat ≤ 57 := UInt32.le_iff_toNat_le.1 h.2
  have hA : ¬ c.val ≥ 'A'.val := by
    intro h2
    have h3 : 65 ≤ c.val.toNat := UInt32.le_iff_toNat_le.1 h2
    omega
  have ha : ¬ c.val ≥ 'a'.val := by
    intro h2
    have h3 : 97 ≤ c.val.toNat := UInt32.le_iff_toNat_le.1 h2
    omega
  simp only [Char.isAlpha, Char.isUpper, Char.isLower, decide_eq_false hA, decide_eq_false ha,
    hA, ha, false_and, decide_false, Bool.false_and, Bool.or_self]

theorem takeWhile_append_stop (a b : Str) (hb : ∀ c ∈ b.head?, c.isAlpha = false) :
    (a ++ b).takeWhile Char.isAlpha = a.takeWhile Char.isAlpha := by
  induction a with
  | nil =>
    cases b with
    | nil => rfl
    | cons c b => simp [hb c (by simp)]
  | cons x a ih =>
    rw [List.cons_append, List.takeWhile_cons, List.takeWhile_cons, ih]

include hfs in
theorem token_letters (a : Str) (p : Num) :
    (token fs a p).takeWhile Char.isAlpha = a.takeWhile Char.isAlpha := by
  rw [token_eq]
  apply takeWhile_append_stop
  unfold powText
  split_ifs
  · simp
  · obtain ⟨c, hc, hd⟩ := absText_first hfs p
    intro x hx
    have : x = c := by
      rw [Option.mem_def] at hx hc
      rw [hc] at hx; exact (Option.some.inj hx).symm
    rw [this]; exact digit_not_alpha hd

/-- Names that can be told apart after exponents have been appended. -/
structure Names (P : Str → Prop) : Prop where
  letters : ∀ a b, P a → P b → a.takeWhile Char.isAlpha = b.takeWhile Char.isAlpha → a = b
  letter : ∀ a, P a → ∃ c ∈ a.head?, c.isAlpha = true
  plain : ∀ a, P a → ∀ c ∈ a, c ≠ ' ' ∧ c ≠ '/'

variable {P : Str → Prop} (hP : Names P)

include hP hfs in
theorem token_injective {a b : Str} {p q : Num} (ha : P a) (hb : P b)
    (h : token fs a p = token fs b q) : a = b ∧ |p.value| = |q.value| := by
  have hs : a.takeWhile Char.isAlpha = b.takeWhile Char.isAlpha := by
    rw [← token_letters hfs a p, h, token_letters hfs b q]
  have hab := hP.letters a b ha hb hs
  subst hab
  exact ⟨rfl, powText_injective hfs (List.append_cancel_left h)⟩

include hP hfs in
theorem token_plain {a : Str} {p : Num} (ha : P a) : ∀ c ∈ token fs a p, c ≠ ' ' ∧ c ≠ '/' := by
  intro c hc
  rw [token_eq, List.mem_append] at hc
  rcases hc with hc | hc
  · exact hP.plain a ha c hc
  · exact powText_plain hfs p c hc

include hP in
theorem token_head {a : Str} {p : Num} (ha : P a) :
    ∃ c ∈ (token fs a p).head?, c.isAlpha = true := by
  obtain ⟨c, hc, hl⟩ := hP.letter a ha
  refine ⟨c, ?_, hl⟩
  rw [token_eq]
  cases a with
  | nil => simp at hc
  | cons x a => simpa using hc

end

/-! ### Fractions -/

theorem fraction_join (pre : Str) (toks : List Str) (hpre : IsPrefix pre toks) (n d : List Str) :
    fraction pre n d = joinSpace (toks ++ (if n = [] then [['1']] else n) ++
      (if d = [] then [] else ['/'] :: d)) := by
  have hpn : ∀ s : List Str, s ≠ [] → joinSpace (toks ++ s) = pre ++ joinSpace s := by
    intro s hs
    rcases hpre with ⟨rfl, rfl⟩ | ⟨t, rfl, rfl, _, _⟩
    · simp
    · rw [joinSpace_append (by simp) hs, joinSpace_singleton]
  have hnum : (if n = [] then ['1'] else joinSpace n) =
      joinSpace (if n = [] then [['1']] else n) := by
    split_ifs
    · rw [joinSpace_singleton]
    · rfl
  have hne : (if n = [] then [['1']] else n) ≠ [] := by
    split_ifs with h
    · simp
    · exact h
  have hfr : fraction pre n d = if d = [] then
      pre ++ (if n = [] then ['1'] else joinSpace n)
      else joinSpace [pre ++ (if n = [] then ['1'] else joinSpace n), ['/'], joinSpace d] := rfl
  rw [hfr, hnum]
  by_cases hd : d = []
  · rw [if_pos hd, if_pos hd, List.append_nil, hpn _ hne]
  · rw [if_neg hd, if_neg hd, joinSpace_append (by simp [hne]) (by simp), hpn _ hne]
    have : ['/'] :: d = [['/']] ++ d := rfl
    rw [this, joinSpace_append (by simp) hd, joinSpace_singleton]
    simp [joinSpace, List.intercalate_cons_cons]

/-- Tokens that are names: no space, a letter first. -/
def NameTokens (l : List Str) : Prop := ∀ t ∈ l, ' ' ∉ t ∧ isName t = true ∧ t ≠ ['/']

theorem fraction_decode (pre : Str) (toks : List Str) (hpre : IsPrefix pre toks) (n d : List Str)
    (hn : NameTokens n) (hd : NameTokens d) :
    ((fraction pre n d).splitOn ' ').filter isName = n ++ (if d = [] then [] else ['/'] :: d) := by
  rw [fraction_join pre toks hpre, joinSpace_split]
  · rw [List.filter_append, List.filter_append]
    have h1 : toks.filter isName = [] := by
      rcases hpre with ⟨_, rfl⟩ | ⟨t, _, rfl, ht, _⟩
      · rfl
      · simp [ht]
    have h2 : (if n = [] then [['1']] else n).filter isName = n := by
      split_ifs with h
      · rw [h]; rfl
      · exact List.filter_eq_self.2 fun t ht => (hn t ht).2.1
    have h3 : (if d = [] then [] else ['/'] :: d).filter isName =
        (if d = [] then [] else ['/'] :: d) := by
      split_ifs with h
      · rfl
      · refine List.filter_eq_self.2 fun t ht => ?_
        rcases List.mem_cons.1 ht with rfl | ht
        · rfl
        · exact (hd t ht).2.1
    rw [h1, h2, h3, List.nil_append]
  · intro t ht
    simp only [List.mem_append] at ht
    rcases ht with (ht | ht) | ht
    · rcases hpre with ⟨_, rfl⟩ | ⟨t', _, rfl, _, ht'⟩
      · simp at ht
      · rw [List.mem_singleton] at ht; subst ht; exact ht'
    · split_ifs at ht with h
      · rw [List.mem_singleton] at ht; subst ht; decide
      · exact (hn t ht).1
    · split_ifs at ht with h
      · simp at ht
      · rcases List.mem_cons.1 ht with rfl | ht
        · decide
        · exact (hd t ht).1
  · split_ifs <;> simp_all

theorem fraction_injective (pre pre' : Str) (toks toks' : List Str) (hpre : IsPrefix pre toks)
    (hpre' : IsPrefix pre' toks') (n d n' d' : List Str) (hn : NameTokens n) (hd : NameTokens d)
    (hn' : NameTokens n') (hd' : NameTokens d') (h : fraction pre n d = fraction pre' n' d') :
    n = n' ∧ d = d' := by
  have hdec := fraction_decode pre toks hpre n d hn hd
  rw [h, fraction_decode pre' toks' hpre' n' d' hn' hd'] at hdec
  have hnum : n' = n := by
    rw [← takeWhile_slash _ d' (fun t ht => (hn' t ht).2.2), hdec,
      takeWhile_slash _ _ (fun t ht => (hn t ht).2.2)]
  refine ⟨hnum.symm, ?_⟩
  rw [hnum] at hdec
  have := List.append_cancel_left hdec
  split_ifs at this with h1 h2 h2
  · rw [h1, h2]
  · simpa using this.symm

section
variable {fs : ℚ → Str} (hfs : FloatText fs) {P : Str → Prop} (hP : Names P)

include hP hfs in
theorem tokens_name (Q : Num → Prop) [DecidablePred Q] (l : List (Str × Num))
    (hl : ∀ b ∈ l, P b.1) :
    NameTokens ((l.filter fun b => Q b.2).map fun b => token fs b.1 b.2) := by
  intro t ht
  obtain ⟨b, hb, rfl⟩ := List.mem_map.1 ht
  have hb' := hl b (List.mem_of_mem_filter hb)
  refine ⟨fun h => (token_plain hfs hP hb' _ h).1 rfl, isName_of_head (token_head hP hb'), ?_⟩
  intro e
  exact (token_plain hfs hP hb' '/' (by rw [e]; simp)).2 rfl

include hP hfs in
/-- Equal tokens carry equal names and equal exponents. -/
theorem sum_of_tokens (Q : Num → Prop) [DecidablePred Q]
    (hQ : ∀ p q, Q p → Q q → |p.value| = |q.value| → p.value = q.value) (l l' : List (Str × Num))
    (hl : ∀ b ∈ l, P b.1) (hl' : ∀ b ∈ l', P b.1) (f : Str → ℚ → ℚ)
    (h : (l.filter fun b => Q b.2).map (fun b => token fs b.1 b.2) =
      (l'.filter fun b => Q b.2).map (fun b => token fs b.1 b.2)) :
    ((l.filter fun b => Q b.2).map fun b => f b.1 b.2.value).sum =
      ((l'.filter fun b => Q b.2).map fun b => f b.1 b.2.value).sum := by
  have key : ∀ (a b : List (Str × Num)), (∀ x ∈ a, P x.1 ∧ Q x.2) → (∀ x ∈ b, P x.1 ∧ Q x.2) →
      a.map (fun b => token fs b.1 b.2) = b.map (fun b => token fs b.1 b.2) →
      (a.map fun b => f b.1 b.2.value).sum = (b.map fun b => f b.1 b.2.value).sum := by
    intro a
    induction a with
    | nil =>
      intro b _ _ h
      cases b with
      | nil => rfl
      | cons x b => simp at h
    | cons x a ih =>
      intro b ha hb h
      cases b with
      | nil => simp at h
      | cons y b =>
        rw [List.map_cons, List.map_cons, List.cons.injEq] at h
        have hx := ha x (by simp)
        have hy := hb y (by simp)
        obtain ⟨h1, h2⟩ := token_injective hfs hP hx.1 hy.1 h.1
        rw [List.map_cons, List.map_cons, List.sum_cons, List.sum_cons, h1,
          hQ _ _ hx.2 hy.2 h2,
          ih b (fun z hz => ha z (by simp [hz])) (fun z hz => hb z (by simp [hz])) h.2]
  refine key _ _ ?_ ?_ h
  · intro x hx
    rw [List.mem_filter] at hx
    exact ⟨hl x hx.1, by simpa using hx.2⟩
  · intro x hx
    rw [List.mem_filter] at hx
    exact ⟨hl' x hx.1, by simpa using hx.2⟩

theorem sum_split (f : Str × Num → ℚ) (l : List (Str × Num)) :
    (l.map f).sum = ((l.filter fun b => 0 < b.2.value).map f).sum +
      ((l.filter fun b => ¬ 0 < b.2.value).map f).sum := by
  induction l with
  | nil => simp
  | cons b l ih =>
    by_cases h : 0 < b.2.value
    · simp only [List.map_cons, List.sum_cons, ih, List.filter_cons, h, decide_true, if_true,
        not_true, decide_false, Bool.false_eq_true, if_false]
      ring
    · simp only [List.map_cons, List.sum_cons, ih, List.filter_cons, h, decide_true, if_true,
        not_false_iff, decide_false, Bool.false_eq_true, if_false]
      ring

include hP hfs in
/-- Equal displayed fractions have equal weighted exponent sums. -/
theorem sum_of_fraction (pre pre' : Str) (toks toks' : List Str) (hpre : IsPrefix pre toks)
    (hpre' : IsPrefix pre' toks') (l l' : List (Str × Num)) (hl : ∀ b ∈ l, P b.1)
    (hl' : ∀ b ∈ l', P b.1)
    (h : fraction pre (numTokens fs l) (denTokens fs l) =
      fraction pre' (numTokens fs l') (denTokens fs l')) (f : Str → ℚ → ℚ) :
    (l.map fun b => f b.1 b.2.value).sum = (l'.map fun b => f b.1 b.2.value).sum := by
  obtain ⟨h1, h2⟩ := fraction_injective pre pre' toks toks' hpre hpre' _ _ _ _
    (tokens_name hfs hP (fun p => 0 < p.value) l hl)
    (tokens_name hfs hP (fun p => ¬ 0 < p.value) l hl)
    (tokens_name hfs hP (fun p => 0 < p.value) l' hl')
    (tokens_name hfs hP (fun p => ¬ 0 < p.value) l' hl') h
  rw [sum_split _ l, sum_split _ l',
    sum_of_tokens hfs hP (fun p => 0 < p.value)
      (fun p q hp hq h => by rwa [abs_of_pos hp, abs_of_pos hq] at h) l l' hl hl' f h1,
    sum_of_tokens hfs hP (fun p => ¬ 0 < p.value)
      (fun p q hp hq h => by
        rw [abs_of_nonpos (not_lt.1 hp), abs_of_nonpos (not_lt.1 hq)] at h
        linarith) l l' hl hl' f h2]

end

/-! ### Units with equal `repr` -/

section
variable {S : List NamedUnit} (hS : UnitSystem S) (hL : DistinctLetters S) {fs : ℚ → Str}
  (hfs : FloatText fs) {fr : ℝ → Str} (hfr : ScaleText fr)

include hS hL in
theorem names_of_system : Names fun s => ∃ n ∈ S, n.name = s where
  letters := by
    rintro _ _ ⟨a, ha, rfl⟩ ⟨b, hb, rfl⟩ h
    rw [hL a ha b hb h]
  letter := by
    rintro _ ⟨a, ha, rfl⟩
    exact hS.letter a ha
  plain := by
    rintro _ ⟨a, ha, rfl⟩
    exact hS.plain a ha

include hfr in
theorem scale_prefix (x : ℝ) :
    IsPrefix (if x = 1 then [] else fr x ++ [' ']) (if x = 1 then [] else [fr x]) := by
  split_ifs
  · exact Or.inl ⟨rfl, rfl⟩
  · refine Or.inr ⟨fr x, rfl, rfl, ?_, fun h => (hfr x).2 _ h rfl⟩
    obtain ⟨c, hc, hl⟩ := (hfr x).1
    cases hx : fr x with
    | nil => rfl
    | cons y t =>
      rw [hx] at hc
      have : y = c := by simpa using hc
      subst this
      simp [isName, hl.1, hl.2]

include hS in
theorem lexpo_names (l : List (NamedUnit × Num)) (hl : OverS S l) (n : NamedUnit) (hn : n ∈ S) :
    lexpo l n = ((l.map fun b => (b.1.name, b.2)).map
      fun b => (fun s x => if s = n.name then x else 0) b.1 b.2.value).sum := by
  unfold lexpo
  rw [List.map_map]
  congr 1
  apply List.map_congr_left
  intro b hb
  simp only [Function.comp]
  by_cases h : b.1 = n
  · rw [if_pos h, if_pos (by rw [h])]
  · rw [if_neg h, if_neg]
    intro e
    exact h (name_injective hS (hl b hb) hn e)

include hS hL hfs hfr in
theorem expo_of_str {c c' : Compound} (hc : OverS S c.bases) (hc' : OverS S c'.bases)
    (h : c.str fr fs = c'.str fr fs) (n : NamedUnit) (hn : n ∈ S) :
    lexpo c.bases n = lexpo c'.bases n := by
  rw [lexpo_names hS _ hc n hn, lexpo_names hS _ hc' n hn]
  apply sum_of_fraction hfs (names_of_system hS hL) _ _ _ _ (scale_prefix hfr c.scale)
    (scale_prefix hfr c'.scale) _ _ _ _ h (fun s x => if s = n.name then x else 0)
  · intro b hb
    obtain ⟨x, hx, rfl⟩ := List.mem_map.1 hb
    exact ⟨x.1, hc x hx, rfl⟩
  · intro b hb
    obtain ⟨x, hx, rfl⟩ := List.mem_map.1 hb
    exact ⟨x.1, hc' x hx, rfl⟩

theorem repr_named (n : NamedUnit) :
    (FUnit.named n).repr fr fs = ('U' :: "nit(\"".toList) ++ n.name ++ "\")".toList := rfl

theorem repr_compound (c : Compound) :
    (FUnit.compound c).repr fr fs = ('C' :: "ompoundUnit(\"".toList) ++ c.str fr fs ++
      "\")".toList := rfl

include hS hL hfs hfr in
theorem exponent_of_repr {u v : FUnit} (hu : Good S u) (hv : Good S v)
    (h : u.repr fr fs = v.repr fr fs) (n : NamedUnit) : u.exponent n = v.exponent n := by
  cases u with
  | named a =>
    cases v with
    | named b =>
      rw [repr_named, repr_named] at h
      rw [name_injective hS hu hv (wrap_injective _ _ _ _ h)]
    | compound c =>
      rw [repr_named, repr_compound] at h
      exact absurd h (wrap_head _ _ _ _ _ _ _ _ (by decide))
  | compound c =>
    cases v with
    | named b =>
      rw [repr_named, repr_compound] at h
      exact absurd h (wrap_head _ _ _ _ _ _ _ _ (by decide))
    | compound c' =>
      by_cases hn : n ∈ S
      · rw [repr_compound, repr_compound] at h
        exact expo_of_str hS hL hfs hfr hu.1 hv.1 (wrap_injective _ _ _ _ h) n hn
      · rw [exponent_of_not_mem hu hn, exponent_of_not_mem hv hn]

include hS hL hfs hfr in
theorem unitScale_of_repr {u v : FUnit} (hu : Good S u) (hv : Good S v)
    (h : u.repr fr fs = v.repr fr fs) : unitScale u = unitScale v := by
  rw [unitScale_eq hS hu, unitScale_eq hS hv]
  exact Finset.prod_congr rfl fun n _ => by rw [exponent_of_repr hS hL hfs hfr hu hv h]

end

/-! ### Dimension strings -/

/-- Exponent of a dimension in a list of dimensions. -/
def dsum (l : List (Char × Num)) (d : Char) : ℚ :=
  (l.map fun b => if b.1 = d then b.2.value else 0).sum

@[simp] theorem dsum_nil (d : Char) : dsum [] d = 0 := rfl

@[simp] theorem dsum_cons (b : Char × Num) (l : List (Char × Num)) (d : Char) :
    dsum (b :: l) d = (if b.1 = d then b.2.value else 0) + dsum l d := by simp [dsum]

theorem addDimension_sum (l l' : List (Char × Num)) (x : Char) (p : Num)
    (h : addDimension id l x p = .ok l') (d : Char) :
    dsum l' d = dsum l d + if x = d then p.value else 0 := by
  induction l generalizing l' with
  | nil =>
    simp only [addDimension, Except.ok.injEq] at h
    subst h; simp
  | cons b l ih =>
    obtain ⟨b, q⟩ := b
    rw [addDimension] at h
    by_cases hb : b = x
    · rw [if_pos hb] at h
      split_ifs at h
      cases h
      rw [dsum_cons, dsum_cons, hb]
      dsimp only
      rw [Num.add_value]
      split_ifs <;> ring
    · rw [if_neg hb] at h
      cases hr : addDimension id l x p with
      | error e => rw [hr] at h; cases h
      | ok m =>
        rw [hr] at h; cases h
        rw [dsum_cons, dsum_cons, ih m hr]; ring

theorem addDimension_mem (fl : ℚ → ℚ) (l l' : List (Char × Num)) (x : Char) (p : Num)
    (h : addDimension fl l x p = .ok l') : ∀ b ∈ l', b.1 = x ∨ ∃ c ∈ l, c.1 = b.1 := by
  induction l generalizing l' with
  | nil =>
    simp only [addDimension, Except.ok.injEq] at h
    subst h; simp
  | cons b l ih =>
    obtain ⟨b, q⟩ := b
    rw [addDimension] at h
    by_cases hb : b = x
    · rw [if_pos hb] at h
      split_ifs at h
      cases h
      intro y hy
      rcases List.mem_cons.1 hy with rfl | hy
      · left; exact hb
      · right; exact ⟨y, by simp [hy], rfl⟩
    · rw [if_neg hb] at h
      cases hr : addDimension fl l x p with
      | error e => rw [hr] at h; cases h
      | ok m =>
        rw [hr] at h; cases h
        intro y hy
        rcases List.mem_cons.1 hy with rfl | hy
        · right; exact ⟨(b, q), by simp, rfl⟩
        · rcases ih m hr y hy with h | ⟨c, hc, e⟩
          · left; exact h
          · right; exact ⟨c, by simp [hc], e⟩

/-- Exponent of a dimension in a list of named powers. -/
def nsum (l : List (Str × Num)) (d : Char) : ℚ :=
  (l.map fun b => if dimensionDictionary.lookup b.1 = some d then b.2.value else 0).sum

theorem dimensionsFrom_sum (l : List (Str × Num)) (acc r : List (Char × Num))
    (h : dimensionsFrom id l acc = .ok r) (d : Char) : dsum r d = dsum acc d + nsum l d := by
  induction l generalizing acc with
  | nil =>
    simp only [dimensionsFrom, Except.ok.injEq] at h
    subst h; simp [nsum]
  | cons b l ih =>
    obtain ⟨name, p⟩ := b
    rw [dimensionsFrom] at h
    cases hl : dimensionDictionary.lookup name with
    | none => rw [hl] at h; cases h
    | some x =>
      rw [hl] at h
      dsimp only at h
      cases ha : addDimension id acc x p with
      | error e => rw [ha] at h; cases h
      | ok acc' =>
        rw [ha] at h
        dsimp only at h
        rw [ih acc' h, addDimension_sum acc acc' x p ha]
        simp only [nsum, List.map_cons, List.sum_cons, hl, Option.some.injEq]
        ring

theorem dimensionsFrom_letters (fl : ℚ → ℚ) (l : List (Str × Num)) (acc r : List (Char × Num))
    (hacc : ∀ b ∈ acc, b.1 ∈ ['L', 'T', 'D', 'A'])
    (h : dimensionsFrom fl l acc = .ok r) : ∀ b ∈ r, b.1 ∈ ['L', 'T', 'D', 'A'] := by
  induction l generalizing acc with
  | nil =>
    simp only [dimensionsFrom, Except.ok.injEq] at h
    subst h; exact hacc
  | cons b l ih =>
    obtain ⟨name, p⟩ := b
    rw [dimensionsFrom] at h
    cases hl : dimensionDictionary.lookup name with
    | none => rw [hl] at h; cases h
    | some x =>
      rw [hl] at h
      dsimp only at h
      cases ha : addDimension fl acc x p with
      | error e => rw [ha] at h; cases h
      | ok acc' =>
        rw [ha] at h
        refine ih acc' ?_ h
        intro b hb
        rcases addDimension_mem fl acc acc' x p ha b hb with e | ⟨c, hc, e⟩
        · rw [e]; exact dictionary_letters hl
        · rw [← e]; exact hacc c hc

theorem names_of_letters : Names fun s => ∃ d ∈ ['L', 'T', 'D', 'A'], [d] = s where
  letters := by
    rintro _ _ ⟨a, ha, rfl⟩ ⟨b, hb, rfl⟩
    revert a b
    decide
  letter := by
    rintro _ ⟨a, ha, rfl⟩
    refine ⟨a, rfl, ?_⟩
    revert a
    decide
  plain := by
    rintro _ ⟨a, ha, rfl⟩ c hc
    rw [List.mem_singleton] at hc
    subst hc
    revert c
    decide

theorem nsum_bases {S : List NamedUnit} (hS : UnitSystem S) {u : FUnit} (hu : Good S u) (d : Char) :
    nsum u.bases d = u.dim d := by
  cases u with
  | named n =>
    obtain ⟨x, hx, b, hb, hbx⟩ := hS.dims n hu
    simp [nsum, FUnit.bases, FUnit.dim, hb, hbx, hx]
  | compound c => simp [nsum, FUnit.bases, FUnit.dim, Compound.names, Function.comp_def]

theorem dim_of_dimension {S : List NamedUnit} (hS : UnitSystem S) {fs : ℚ → Str}
    (hfs : FloatText fs) {u v : FUnit} (hu : Good S u) (hv : Good S v) {s : Str}
    (h : u.dimension id fs = .ok s) (h' : v.dimension id fs = .ok s) (d : Char) :
    u.dim d = v.dim d := by
  unfold FUnit.dimension at h h'
  cases hr : dimensionsFrom id u.bases [] with
  | error e => rw [hr] at h; cases h
  | ok r =>
  cases hr' : dimensionsFrom id v.bases [] with
  | error e => rw [hr'] at h'; cases h'
  | ok r' =>
  rw [hr] at h; rw [hr'] at h'
  simp only [Except.map, Except.ok.injEq] at h h'
  have e := h.trans h'.symm
  have hsum := sum_of_fraction hfs names_of_letters [] [] [] [] (Or.inl ⟨rfl, rfl⟩)
    (Or.inl ⟨rfl, rfl⟩) _ _ ?_ ?_ e (fun b x => if b = [d] then x else 0)
  · have hd : ∀ r : List (Char × Num), ((r.map fun b => (([b.1] : Str), b.2)).map
        fun b => if b.1 = [d] then b.2.value else 0).sum = dsum r d := by
      intro r
      simp [dsum, Function.comp_def]
    rw [hd, hd] at hsum
    have h1 := dimensionsFrom_sum _ _ _ hr d
    have h2 := dimensionsFrom_sum _ _ _ hr' d
    rw [nsum_bases hS hu] at h1
    rw [nsum_bases hS hv] at h2
    simp only [dsum_nil, zero_add] at h1 h2
    rw [← h1, ← h2, hsum]
  · intro b hb
    obtain ⟨x, hx, rfl⟩ := List.mem_map.1 hb
    exact ⟨x.1, dimensionsFrom_letters _ _ _ _ (by simp) hr x hx, rfl⟩
  · intro b hb
    obtain ⟨x, hx, rfl⟩ := List.mem_map.1 hb
    exact ⟨x.1, dimensionsFrom_letters _ _ _ _ (by simp) hr' x hx, rfl⟩

end Celest.Units.Frac
