/-
The displayed form of a unit and the dimension string determine exponents and dimension.
-/
import Verif.Units.Lemmas

namespace Celest.Units

open Celest.Text (Str natStr natStr_digits natStr_ne_nil natVal_natStr natVal intercalate_append)

/-! ### Tokens -/

theorem stem_append_digits (a d : Str) (hd : ∀ c ∈ d, c.isDigit = true) :
    stem (a ++ d) = stem a := by
  unfold stem
  rw [List.reverse_append, List.dropWhile_append_of_pos]
  intro c hc
  exact hd c (List.mem_reverse.1 hc)

theorem natStr_injective {a b : ℕ} (h : natStr a = natStr b) : a = b := by
  rw [← natVal_natStr a, h, natVal_natStr]

/-- The digits appended to a name. -/
def powText (p : ℤ) : Str := if p.natAbs = 1 then [] else natStr p.natAbs

theorem token_eq (a : Str) (p : ℤ) : token a p = a ++ powText p := rfl

theorem powText_digits (p : ℤ) : ∀ c ∈ powText p, c.isDigit = true := by
  unfold powText
  split_ifs
  · simp
  · exact natStr_digits _

theorem powText_injective {p q : ℤ} (h : powText p = powText q) : p.natAbs = q.natAbs := by
  unfold powText at h
  split_ifs at h with h1 h2 h2
  · rw [h1, h2]
  · exact absurd h.symm (natStr_ne_nil _)
  · exact absurd h (natStr_ne_nil _)
  · exact natStr_injective h

/-- Names that can be told apart after exponents have been appended. -/
structure Names (P : Str → Prop) : Prop where
  stems : ∀ a b, P a → P b → stem a = stem b → a = b
  letter : ∀ a, P a → ∃ c ∈ a.head?, c.isAlpha = true
  plain : ∀ a, P a → ∀ c ∈ a, c ≠ ' ' ∧ c ≠ '/'

section
variable {P : Str → Prop} (hP : Names P)

include hP in
theorem token_injective {a b : Str} {p q : ℤ} (ha : P a) (hb : P b)
    (h : token a p = token b q) : a = b ∧ p.natAbs = q.natAbs := by
  rw [token_eq, token_eq] at h
  have hs : stem a = stem b := by
    rw [← stem_append_digits a _ (powText_digits p), h, stem_append_digits b _ (powText_digits q)]
  have hab := hP.stems a b ha hb hs
  subst hab
  exact ⟨rfl, powText_injective (List.append_cancel_left h)⟩

include hP in
theorem token_plain {a : Str} {p : ℤ} (ha : P a) : ∀ c ∈ token a p, c ≠ ' ' ∧ c ≠ '/' := by
  intro c hc
  rw [token_eq, List.mem_append] at hc
  rcases hc with hc | hc
  · exact hP.plain a ha c hc
  · have := powText_digits p c hc
    constructor <;> (rintro rfl; revert this; decide)

include hP in
theorem token_head {a : Str} {p : ℤ} (ha : P a) : ∃ c ∈ (token a p).head?, c.isAlpha = true := by
  obtain ⟨c, hc, hl⟩ := hP.letter a ha
  refine ⟨c, ?_, hl⟩
  rw [token_eq]
  cases a with
  | nil => simp at hc
  | cons x a => simpa using hc

end

/-- A token that is a unit name or the slash. -/
def isName (t : Str) : Bool :=
  match t with
  | [] => false
  | c :: _ => c.isAlpha || c = '/'

theorem isName_of_head {t : Str} (h : ∃ c ∈ t.head?, c.isAlpha = true) : isName t = true := by
  obtain ⟨c, hc, hl⟩ := h
  cases t with
  | nil => simp at hc
  | cons x t =>
    have : x = c := by simpa using hc
    subst this
    simp [isName, hl]

/-- Tokens of the numerator. -/
def numTokens (l : List (Str × ℤ)) : List Str :=
  (l.filter fun b => 0 < b.2).map fun b => token b.1 b.2

/-- Tokens of the denominator. -/
def denTokens (l : List (Str × ℤ)) : List Str :=
  (l.filter fun b => ¬ 0 < b.2).map fun b => token b.1 b.2

theorem joinSpace_append {l m : List Str} (hl : l ≠ []) (hm : m ≠ []) :
    joinSpace (l ++ m) = joinSpace l ++ [' '] ++ joinSpace m := intercalate_append [' '] l m hl hm

theorem joinSpace_singleton (s : Str) : joinSpace [s] = s := List.intercalate_singleton ..

/-- The prefix written before the numerator: nothing or the scale. -/
def IsPrefix (pre : Str) (toks : List Str) : Prop :=
  (pre = [] ∧ toks = []) ∨
    ∃ t, pre = t ++ [' '] ∧ toks = [t] ∧ isName t = false ∧ ' ' ∉ t

theorem fraction_join (pre : Str) (toks : List Str) (hpre : IsPrefix pre toks)
    (l : List (Str × ℤ)) :
    fraction pre l = joinSpace (toks ++ (if numTokens l = [] then [['1']] else numTokens l) ++
      (if denTokens l = [] then [] else ['/'] :: denTokens l)) := by
  have hpn : ∀ s : List Str, s ≠ [] → joinSpace (toks ++ s) = pre ++ joinSpace s := by
    intro s hs
    rcases hpre with ⟨rfl, rfl⟩ | ⟨t, rfl, rfl, _, _⟩
    · simp
    · rw [joinSpace_append (by simp) hs, joinSpace_singleton]
  have hnum : (if numTokens l = [] then ['1'] else joinSpace (numTokens l)) =
      joinSpace (if numTokens l = [] then [['1']] else numTokens l) := by
    split_ifs
    · rw [joinSpace_singleton]
    · rfl
  have hne : (if numTokens l = [] then [['1']] else numTokens l) ≠ [] := by
    split_ifs with h
    · simp
    · exact h
  have hfr : fraction pre l = if denTokens l = [] then
      pre ++ (if numTokens l = [] then ['1'] else joinSpace (numTokens l))
      else joinSpace [pre ++ (if numTokens l = [] then ['1'] else joinSpace (numTokens l)), ['/'],
        joinSpace (denTokens l)] := rfl
  rw [hfr, hnum]
  by_cases hd : denTokens l = []
  · rw [if_pos hd, if_pos hd, List.append_nil, hpn _ hne]
  · rw [if_neg hd, if_neg hd, joinSpace_append (by simp [hne]) (by simp), hpn _ hne]
    have : ['/'] :: denTokens l = [['/']] ++ denTokens l := rfl
    rw [this, joinSpace_append (by simp) hd, joinSpace_singleton]
    simp [joinSpace, List.intercalate_cons_cons]

theorem joinSpace_split (ls : List Str) (h : ∀ t ∈ ls, ' ' ∉ t) (hne : ls ≠ []) :
    (joinSpace ls).splitOn ' ' = ls := List.splitOn_intercalate ' ' h hne

section
variable {P : Str → Prop} (hP : Names P)

include hP in
theorem fraction_decode (pre : Str) (toks : List Str) (hpre : IsPrefix pre toks)
    (l : List (Str × ℤ)) (hl : ∀ b ∈ l, P b.1) :
    ((fraction pre l).splitOn ' ').filter isName = numTokens l ++
      (if denTokens l = [] then [] else ['/'] :: denTokens l) := by
  have hn : ∀ t ∈ numTokens l, ' ' ∉ t ∧ isName t = true := by
    intro t ht
    obtain ⟨b, hb, rfl⟩ := List.mem_map.1 ht
    have hb' := hl b (List.mem_of_mem_filter hb)
    exact ⟨fun h => (token_plain hP hb' _ h).1 rfl, isName_of_head (token_head hP hb')⟩
  have hd : ∀ t ∈ denTokens l, ' ' ∉ t ∧ isName t = true := by
    intro t ht
    obtain ⟨b, hb, rfl⟩ := List.mem_map.1 ht
    have hb' := hl b (List.mem_of_mem_filter hb)
    exact ⟨fun h => (token_plain hP hb' _ h).1 rfl, isName_of_head (token_head hP hb')⟩
  rw [fraction_join pre toks hpre, joinSpace_split]
  · rw [List.filter_append, List.filter_append]
    have h1 : toks.filter isName = [] := by
      rcases hpre with ⟨_, rfl⟩ | ⟨t, _, rfl, ht, _⟩
      · rfl
      · simp [ht]
    have h2 : (if numTokens l = [] then [['1']] else numTokens l).filter isName = numTokens l := by
      split_ifs with h
      · rw [h]; rfl
      · exact List.filter_eq_self.2 fun t ht => (hn t ht).2
    have h3 : (if denTokens l = [] then [] else ['/'] :: denTokens l).filter isName =
        (if denTokens l = [] then [] else ['/'] :: denTokens l) := by
      split_ifs with h
      · rfl
      · refine List.filter_eq_self.2 fun t ht => ?_
        rcases List.mem_cons.1 ht with rfl | ht
        · rfl
        · exact (hd t ht).2
    rw [h1, h2, h3, List.nil_append]
  · intro t ht
    simp only [List.mem_append] at ht
    rcases ht with (ht | ht) | ht
    · rcases hpre with ⟨_, rfl⟩ | ⟨t', _, rfl, _, ht'⟩
      · simp at ht
      · rw [List.mem_singleton] at ht; subst ht; exact ht'
    · split_ifs at ht with h
      · rw [List.mem_singleton] at ht; subst ht; decide
      · exact (hn t ht).1
    · split_ifs at ht with h
      · simp at ht
      · rcases List.mem_cons.1 ht with rfl | ht
        · decide
        · exact (hd t ht).1
  · split_ifs <;> simp_all

theorem takeWhile_slash (n d : List Str) (hn : ∀ t ∈ n, t ≠ ['/']) :
    (n ++ (if d = [] then [] else ['/'] :: d)).takeWhile (fun t => t ≠ ['/']) = n := by
  rw [List.takeWhile_append_of_pos (by simpa using hn)]
  split_ifs <;> simp

include hP in
theorem fraction_injective (pre pre' : Str) (toks toks' : List Str) (hpre : IsPrefix pre toks)
    (hpre' : IsPrefix pre' toks') (l l' : List (Str × ℤ)) (hl : ∀ b ∈ l, P b.1)
    (hl' : ∀ b ∈ l', P b.1) (h : fraction pre l = fraction pre' l') :
    numTokens l = numTokens l' ∧ denTokens l = denTokens l' := by
  have hns : ∀ l : List (Str × ℤ), (∀ b ∈ l, P b.1) → ∀ t ∈ numTokens l, t ≠ ['/'] := by
    intro l hl t ht
    obtain ⟨b, hb, rfl⟩ := List.mem_map.1 ht
    intro e
    exact (token_plain hP (hl b (List.mem_of_mem_filter hb)) '/' (by rw [e]; simp)).2 rfl
  have hdec := fraction_decode hP pre toks hpre l hl
  rw [h, fraction_decode hP pre' toks' hpre' l' hl'] at hdec
  have hnum : numTokens l' = numTokens l := by
    rw [← takeWhile_slash _ (denTokens l') (hns l' hl'), hdec, takeWhile_slash _ _ (hns l hl)]
  refine ⟨hnum.symm, ?_⟩
  rw [hnum] at hdec
  have := List.append_cancel_left hdec
  split_ifs at this with h1 h2 h2
  · rw [h1, h2]
  · simpa using this.symm

include hP in
theorem filter_of_tokens (Q : ℤ → Prop) [DecidablePred Q]
    (hQ : ∀ p q, Q p → Q q → p.natAbs = q.natAbs → p = q) (l l' : List (Str × ℤ))
    (hl : ∀ b ∈ l, P b.1) (hl' : ∀ b ∈ l', P b.1)
    (h : (l.filter fun b => Q b.2).map (fun b => token b.1 b.2) =
      (l'.filter fun b => Q b.2).map (fun b => token b.1 b.2)) :
    (l.filter fun b => Q b.2) = l'.filter fun b => Q b.2 := by
  have key : ∀ (a b : List (Str × ℤ)), (∀ x ∈ a, P x.1 ∧ Q x.2) → (∀ x ∈ b, P x.1 ∧ Q x.2) →
      a.map (fun b => token b.1 b.2) = b.map (fun b => token b.1 b.2) → a = b := by
    intro a
    induction a with
    | nil =>
      intro b _ _ h
      cases b with
      | nil => rfl
      | cons x b => simp at h
    | cons x a ih =>
      intro b ha hb h
      cases b with
      | nil => simp at h
      | cons y b =>
        rw [List.map_cons, List.map_cons, List.cons.injEq] at h
        have hx := ha x (by simp)
        have hy := hb y (by simp)
        obtain ⟨h1, h2⟩ := token_injective hP hx.1 hy.1 h.1
        have hxy : x = y := Prod.ext h1 (hQ _ _ hx.2 hy.2 h2)
        rw [hxy, ih b (fun z hz => ha z (by simp [hz])) (fun z hz => hb z (by simp [hz])) h.2]
  refine key _ _ ?_ ?_ h
  · intro x hx
    rw [List.mem_filter] at hx
    exact ⟨hl x hx.1, by simpa using hx.2⟩
  · intro x hx
    rw [List.mem_filter] at hx
    exact ⟨hl' x hx.1, by simpa using hx.2⟩

theorem sum_split (f : Str × ℤ → ℤ) (l : List (Str × ℤ)) :
    (l.map f).sum = ((l.filter fun b => 0 < b.2).map f).sum +
      ((l.filter fun b => ¬ 0 < b.2).map f).sum := by
  induction l with
  | nil => simp
  | cons b l ih =>
    by_cases h : 0 < b.2
    · simp only [List.map_cons, List.sum_cons, ih, List.filter_cons, h, decide_true, if_true,
        not_true, decide_false, Bool.false_eq_true, if_false]
      ring
    · simp only [List.map_cons, List.sum_cons, ih, List.filter_cons, h, decide_true, if_true,
        not_false_iff, decide_false, Bool.false_eq_true, if_false]
      ring

include hP in
/-- Equal displayed fractions have equal weighted exponent sums. -/
theorem sum_of_fraction (pre pre' : Str) (toks toks' : List Str) (hpre : IsPrefix pre toks)
    (hpre' : IsPrefix pre' toks') (l l' : List (Str × ℤ)) (hl : ∀ b ∈ l, P b.1)
    (hl' : ∀ b ∈ l', P b.1) (h : fraction pre l = fraction pre' l') (f : Str × ℤ → ℤ) :
    (l.map f).sum = (l'.map f).sum := by
  obtain ⟨h1, h2⟩ := fraction_injective hP pre pre' toks toks' hpre hpre' l l' hl hl' h
  rw [sum_split f l, sum_split f l',
    filter_of_tokens hP (fun p => 0 < p) (fun p q hp hq h => by omega) l l' hl hl' h1,
    filter_of_tokens hP (fun p => ¬ 0 < p) (fun p q hp hq h => by omega) l l' hl hl' h2]

end

/-! ### Units with equal `repr` -/

section
variable {S : List NamedUnit} (hS : UnitSystem S) {fs : ℚ → Str} (hfs : FloatStr fs)

include hS in
theorem names_of_system : Names fun s => ∃ n ∈ S, n.name = s where
  stems := by
    rintro _ _ ⟨a, ha, rfl⟩ ⟨b, hb, rfl⟩ h
    rw [hS.stems a ha b hb h]
  letter := by
    rintro _ ⟨a, ha, rfl⟩
    exact hS.letter a ha
  plain := by
    rintro _ ⟨a, ha, rfl⟩
    exact hS.plain a ha

include hS in
theorem name_injective {a b : NamedUnit} (ha : a ∈ S) (hb : b ∈ S) (h : a.name = b.name) :
    a = b := hS.stems a ha b hb (by rw [h])

include hfs in
theorem scale_prefix (x : ℚ) :
    IsPrefix (if x = 1 then [] else fs x ++ [' ']) (if x = 1 then [] else [fs x]) := by
  split_ifs
  · exact Or.inl ⟨rfl, rfl⟩
  · refine Or.inr ⟨fs x, rfl, rfl, ?_, fun h => (hfs x).2 _ h rfl⟩
    obtain ⟨c, hc, hl⟩ := (hfs x).1
    cases hx : fs x with
    | nil => rfl
    | cons y t =>
      rw [hx] at hc
      have : y = c := by simpa using hc
      subst this
      simp [isName, hl.1, hl.2]

include hS in
theorem lexpo_names (l : List (NamedUnit × ℤ)) (hl : OverS S l) (n : NamedUnit) (hn : n ∈ S) :
    lexpo l n = ((l.map fun b => (b.1.name, b.2)).map
      fun b => if b.1 = n.name then b.2 else 0).sum := by
  unfold lexpo
  rw [List.map_map]
  congr 1
  apply List.map_congr_left
  intro b hb
  simp only [Function.comp]
  by_cases h : b.1 = n
  · rw [if_pos h, if_pos (by rw [h])]
  · rw [if_neg h, if_neg]
    intro e
    exact h (name_injective hS (hl b hb) hn e)

include hS hfs in
theorem expo_of_str {c c' : Compound} (hc : OverS S c.bases) (hc' : OverS S c'.bases)
    (h : c.str fs = c'.str fs) (n : NamedUnit) (hn : n ∈ S) :
    lexpo c.bases n = lexpo c'.bases n := by
  rw [lexpo_names hS _ hc n hn, lexpo_names hS _ hc' n hn]
  apply sum_of_fraction (names_of_system hS) _ _ _ _ (scale_prefix hfs c.scale)
    (scale_prefix hfs c'.scale) _ _ _ _ h
  · intro b hb
    obtain ⟨x, hx, rfl⟩ := List.mem_map.1 hb
    exact ⟨x.1, hc x hx, rfl⟩
  · intro b hb
    obtain ⟨x, hx, rfl⟩ := List.mem_map.1 hb
    exact ⟨x.1, hc' x hx, rfl⟩

theorem wrap_injective (p q a b : Str) (h : p ++ a ++ q = p ++ b ++ q) : a = b :=
  List.append_cancel_left (List.append_cancel_right h)

theorem wrap_head (x y : Char) (p q r r' a b : Str) (hxy : x ≠ y) :
    (x :: p) ++ a ++ r ≠ (y :: q) ++ b ++ r' := by
  intro h
  rw [List.cons_append, List.cons_append, List.cons_append, List.cons_append,
    List.cons.injEq] at h
  exact hxy h.1

theorem repr_named (n : NamedUnit) :
    (BUnit.named n).repr fs = ('U' :: "nit(\"".toList) ++ n.name ++ "\")".toList := rfl

theorem repr_compound (c : Compound) :
    (BUnit.compound c).repr fs = ('C' :: "ompoundUnit(\"".toList) ++ c.str fs ++ "\")".toList := rfl

include hS hfs in
theorem exponent_of_repr {u v : BUnit} (hu : Good S u) (hv : Good S v)
    (h : u.repr fs = v.repr fs) (n : NamedUnit) : u.exponent n = v.exponent n := by
  cases u with
  | named a =>
    cases v with
    | named b =>
      rw [repr_named, repr_named] at h
      rw [name_injective hS hu hv (wrap_injective _ _ _ _ h)]
    | compound c =>
      rw [repr_named, repr_compound] at h
      exact absurd h (wrap_head _ _ _ _ _ _ _ _ (by decide))
  | compound c =>
    cases v with
    | named b =>
      rw [repr_named, repr_compound] at h
      exact absurd h (wrap_head _ _ _ _ _ _ _ _ (by decide))
    | compound c' =>
      by_cases hn : n ∈ S
      · rw [repr_compound, repr_compound] at h
        exact expo_of_str hS hfs hu.1 hv.1 (wrap_injective _ _ _ _ h) n hn
      · rw [exponent_of_not_mem hu hn, exponent_of_not_mem hv hn]

include hS hfs in
theorem unitScale_of_repr {u v : BUnit} (hu : Good S u) (hv : Good S v)
    (h : u.repr fs = v.repr fs) : unitScale u = unitScale v := by
  rw [unitScale_eq hS hu, unitScale_eq hS hv]
  exact Finset.prod_congr rfl fun n _ => by rw [exponent_of_repr hS hfs hu hv h]

end

/-! ### Dimension strings -/

/-- Exponent of a dimension in a list of dimensions. -/
def dsum (l : List (Char × ℤ)) (d : Char) : ℤ := (l.map fun b => if b.1 = d then b.2 else 0).sum

@[simp] theorem dsum_nil (d : Char) : dsum [] d = 0 := rfl

@[simp] theorem dsum_cons (b : Char × ℤ) (l : List (Char × ℤ)) (d : Char) :
    dsum (b :: l) d = (if b.1 = d then b.2 else 0) + dsum l d := by simp [dsum]

theorem addDimension_sum (l l' : List (Char × ℤ)) (x : Char) (p : ℤ)
    (h : addDimension l x p = .ok l') (d : Char) :
    dsum l' d = dsum l d + if x = d then p else 0 := by
  induction l generalizing l' with
  | nil =>
    simp only [addDimension, Except.ok.injEq] at h
    subst h; simp
  | cons b l ih =>
    obtain ⟨b, q⟩ := b
    rw [addDimension] at h
    by_cases hb : b = x
    · rw [if_pos hb] at h
      split_ifs at h
      cases h
      rw [dsum_cons, dsum_cons, hb]
      dsimp only
      split_ifs <;> ring
    · rw [if_neg hb] at h
      cases hr : addDimension l x p with
      | error e => rw [hr] at h; cases h
      | ok m =>
        rw [hr] at h; cases h
        rw [dsum_cons, dsum_cons, ih m hr]; ring

theorem addDimension_mem (l l' : List (Char × ℤ)) (x : Char) (p : ℤ)
    (h : addDimension l x p = .ok l') : ∀ b ∈ l', b.1 = x ∨ ∃ c ∈ l, c.1 = b.1 := by
  induction l generalizing l' with
  | nil =>
    simp only [addDimension, Except.ok.injEq] at h
    subst h; simp
  | cons b l ih =>
    obtain ⟨b, q⟩ := b
    rw [addDimension] at h
    by_cases hb : b = x
    · rw [if_pos hb] at h
      split_ifs at h
      cases h
      intro y hy
      rcases List.mem_cons.1 hy with rfl | hy
      · left; exact hb
      · right; exact ⟨y, by simp [hy], rfl⟩
    · rw [if_neg hb] at h
      cases hr : addDimension l x p with
      | error e => rw [hr] at h; cases h
      | ok m =>
        rw [hr] at h; cases h
        intro y hy
        rcases List.mem_cons.1 hy with rfl | hy
        · right; exact ⟨(b, q), by simp, rfl⟩
        · rcases ih m hr y hy with h | ⟨c, hc, e⟩
          · left; exact h
          · right; exact ⟨c, by simp [hc], e⟩

/-- Exponent of a dimension in a list of named powers. -/
def nsum (l : List (Str × ℤ)) (d : Char) : ℤ :=
  (l.map fun b => if dimensionDictionary.lookup b.1 = some d then b.2 else 0).sum

theorem dimensionsFrom_sum (l : List (Str × ℤ)) (acc r : List (Char × ℤ))
    (h : dimensionsFrom l acc = .ok r) (d : Char) : dsum r d = dsum acc d + nsum l d := by
  induction l generalizing acc with
  | nil =>
    simp only [dimensionsFrom, Except.ok.injEq] at h
    subst h; simp [nsum]
  | cons b l ih =>
    obtain ⟨name, p⟩ := b
    rw [dimensionsFrom] at h
    cases hl : dimensionDictionary.lookup name with
    | none => rw [hl] at h; cases h
    | some x =>
      rw [hl] at h
      dsimp only at h
      cases ha : addDimension acc x p with
      | error e => rw [ha] at h; cases h
      | ok acc' =>
        rw [ha] at h
        dsimp only at h
        rw [ih acc' h, addDimension_sum acc acc' x p ha]
        simp only [nsum, List.map_cons, List.sum_cons, hl, Option.some.injEq]
        ring

/-- The letters of the dimension dictionary. -/
theorem dictionary_letters {name : Str} {d : Char}
    (h : dimensionDictionary.lookup name = some d) : d ∈ ['L', 'T', 'D', 'A'] := by
  have key : ∀ (l : List (Str × Char)), (∀ b ∈ l, b.2 ∈ ['L', 'T', 'D', 'A']) →
      l.lookup name = some d → d ∈ ['L', 'T', 'D', 'A'] := by
    intro l
    induction l with
    | nil => intro _ h; cases h
    | cons b l ih =>
      intro hb h
      rw [List.lookup_cons] at h
      cases hn : name == b.1 with
      | true =>
        rw [hn] at h
        simp only [Option.some.injEq] at h
        subst h
        exact hb b (by simp)
      | false =>
        rw [hn] at h
        exact ih (fun x hx => hb x (by simp [hx])) h
  exact key dimensionDictionary (by decide) h

theorem dimensionsFrom_letters (l : List (Str × ℤ)) (acc r : List (Char × ℤ))
    (hacc : ∀ b ∈ acc, b.1 ∈ ['L', 'T', 'D', 'A'])
    (h : dimensionsFrom l acc = .ok r) : ∀ b ∈ r, b.1 ∈ ['L', 'T', 'D', 'A'] := by
  induction l generalizing acc with
  | nil =>
    simp only [dimensionsFrom, Except.ok.injEq] at h
    subst h; exact hacc
  | cons b l ih =>
    obtain ⟨name, p⟩ := b
    rw [dimensionsFrom] at h
    cases hl : dimensionDictionary.lookup name with
    | none => rw [hl] at h; cases h
    | some x =>
      rw [hl] at h
      dsimp only at h
      cases ha : addDimension acc x p with
      | error e => rw [ha] at h; cases h
      | ok acc' =>
        rw [ha] at h
        refine ih acc' ?_ h
        intro b hb
        rcases addDimension_mem acc acc' x p ha b hb with e | ⟨c, hc, e⟩
        · rw [e]; exact dictionary_letters hl
        · rw [← e]; exact hacc c hc

theorem names_of_letters : Names fun s => ∃ d ∈ ['L', 'T', 'D', 'A'], [d] = s where
  stems := by
    rintro _ _ ⟨a, ha, rfl⟩ ⟨b, hb, rfl⟩
    revert a b
    decide
  letter := by
    rintro _ ⟨a, ha, rfl⟩
    refine ⟨a, rfl, ?_⟩
    revert a
    decide
  plain := by
    rintro _ ⟨a, ha, rfl⟩ c hc
    rw [List.mem_singleton] at hc
    subst hc
    revert c
    decide

theorem nsum_bases {S : List NamedUnit} (hS : UnitSystem S) {u : BUnit} (hu : Good S u) (d : Char) :
    nsum u.bases d = u.dim d := by
  cases u with
  | named n =>
    obtain ⟨x, hx, b, hb, hbx⟩ := hS.dims n hu
    simp [nsum, BUnit.bases, BUnit.dim, hb, hbx, hx]
  | compound c => simp [nsum, BUnit.bases, BUnit.dim, Function.comp_def]

theorem dim_of_dimension {S : List NamedUnit} (hS : UnitSystem S) {u v : BUnit} (hu : Good S u)
    (hv : Good S v) {s : Str} (h : u.dimension = .ok s) (h' : v.dimension = .ok s) (d : Char) :
    u.dim d = v.dim d := by
  unfold BUnit.dimension BUnit.dimensions at h h'
  cases hr : dimensionsFrom u.bases [] with
  | error e => rw [hr] at h; cases h
  | ok r =>
  cases hr' : dimensionsFrom v.bases [] with
  | error e => rw [hr'] at h'; cases h'
  | ok r' =>
  rw [hr] at h; rw [hr'] at h'
  simp only [Except.map, Except.ok.injEq] at h h'
  have e : fraction [] (r.map fun b => ([b.1], b.2)) =
      fraction [] (r'.map fun b => ([b.1], b.2)) := by rw [h, h']
  have hsum := sum_of_fraction names_of_letters [] [] [] [] (Or.inl ⟨rfl, rfl⟩)
    (Or.inl ⟨rfl, rfl⟩) _ _ ?_ ?_ e (fun b => if b.1 = [d] then b.2 else 0)
  · have hd : ∀ r : List (Char × ℤ), ((r.map fun b => (([b.1] : Str), b.2)).map
        fun b => if b.1 = [d] then b.2 else 0).sum = dsum r d := by
      intro r
      simp [dsum, Function.comp_def]
    rw [hd, hd] at hsum
    have h1 := dimensionsFrom_sum _ _ _ hr d
    have h2 := dimensionsFrom_sum _ _ _ hr' d
    rw [nsum_bases hS hu] at h1
    rw [nsum_bases hS hv] at h2
    simp only [dsum_nil, zero_add] at h1 h2
    rw [← h1, ← h2, hsum]
  · intro b hb
    obtain ⟨x, hx, rfl⟩ := List.mem_map.1 hb
    exact ⟨x.1, dimensionsFrom_letters _ _ _ (by simp) hr x hx, rfl⟩
  · intro b hb
    obtain ⟨x, hx, rfl⟩ := List.mem_map.1 hb
    exact ⟨x.1, dimensionsFrom_letters _ _ _ (by simp) hr' x hx, rfl⟩

end Celest.Units
