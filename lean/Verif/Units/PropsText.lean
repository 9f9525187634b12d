/-
C132: the text of a quantity.

`print` shows a quantity as its number followed by its unit, e.g. `2.5 m / s`.  The specification
below says what such a text means, without reference to how the library stores units.
-/
import Verif.Units.Props
import Mathlib.Tactic.LinearCombination

namespace Celest.Units

open Celest.Text (Str natStr fmtFixed)

/-! ### Model -/

/-- `Quantity.__str__` (quantity.py 94-95); `fs` is `str` on floats (simplified: integers are
written like floats). -/
def Quantity.str (fs : ℚ → Str) (q : Quantity) : Str := fs q.data ++ [' '] ++ q.unit.str fs

/-! ### Specification: reading a text -/

/-- What a text `5.0 m2 kg / s` consists of: a number, perhaps a second number multiplying the
unit, the unit names with their exponents before the slash, and those after it. -/
structure Reading where
  number : ℚ
  multiple : Option ℚ
  over : List (NamedUnit × ℕ)
  under : List (NamedUnit × ℕ)

/-- A unit name followed by its exponent unless that is 1. -/
def powerWord (b : NamedUnit × ℕ) : Str := b.1.name ++ if b.2 = 1 then [] else natStr b.2

/-- The words of the text. -/
def Reading.words (fs : ℚ → Str) (r : Reading) : List Str :=
  [fs r.number] ++ r.multiple.toList.map fs ++
    (if r.over = [] then [['1']] else r.over.map powerWord) ++
    (if r.under = [] then [] else ['/'] :: r.under.map powerWord)

/-- What the text says the value is, in base units. -/
def Reading.value (r : Reading) : ℚ :=
  r.number * r.multiple.getD 1 * (r.over.map fun b => b.1.scale ^ b.2).prod /
    (r.under.map fun b => b.1.scale ^ b.2).prod

/-- The text `t`, read with the unit names of `S`, says the value is `v` (in base units). -/
def Says (fs : ℚ → Str) (S : List NamedUnit) (t : Str) (v : ℚ) : Prop :=
  ∃ r : Reading, (∀ b ∈ r.over ++ r.under, b.1 ∈ S) ∧ t = List.intercalate [' '] (r.words fs) ∧
    v = r.value

/-! ### Lemmas -/

theorem powerWord_eq (b : NamedUnit × ℕ) : powerWord b = token b.1.name b.2 := by
  simp [powerWord, token]

theorem powerWord_token (n : NamedUnit) (p : ℤ) : powerWord (n, p.natAbs) = token n.name p := by
  simp [powerWord, token]

theorem map_powerWord_nil {l : List (NamedUnit × ℕ)} : l.map powerWord = [] ↔ l = [] :=
  List.map_eq_nil_iff

section
variable {S : List NamedUnit} (hS : UnitSystem S) {fs : ℚ → Str} (hfs : FloatStr fs)

include hS in
theorem powerWord_facts {b : NamedUnit × ℕ} (hb : b.1 ∈ S) :
    ' ' ∉ powerWord b ∧ isName (powerWord b) = true ∧ powerWord b ≠ ['/'] := by
  have hN := names_of_system hS
  have hn : ∃ n ∈ S, n.name = b.1.name := ⟨b.1, hb, rfl⟩
  rw [powerWord_eq]
  refine ⟨fun h => (token_plain hN hn _ h).1 rfl, isName_of_head (token_head hN hn), fun h => ?_⟩
  exact (token_plain hN hn '/' (by rw [h]; simp)).2 rfl

include hS in
theorem powerWords_injective (l l' : List (NamedUnit × ℕ)) (hl : ∀ b ∈ l, b.1 ∈ S)
    (hl' : ∀ b ∈ l', b.1 ∈ S) (h : l.map powerWord = l'.map powerWord) : l = l' := by
  induction l generalizing l' with
  | nil =>
    cases l' with
    | nil => rfl
    | cons y l' => simp at h
  | cons x l ih =>
    cases l' with
    | nil => simp at h
    | cons y l' =>
      rw [List.map_cons, List.map_cons, List.cons.injEq] at h
      have hx := hl x (by simp)
      have hy := hl' y (by simp)
      rw [powerWord_eq, powerWord_eq] at h
      obtain ⟨h1, h2⟩ := token_injective (names_of_system hS) ⟨x.1, hx, rfl⟩ ⟨y.1, hy, rfl⟩ h.1
      have hxy : x = y := Prod.ext (name_injective hS hx hy h1) (by simpa using h2)
      rw [hxy, ih l' (fun z hz => hl z (by simp [hz])) (fun z hz => hl' z (by simp [hz])) h.2]

include hfs in
theorem float_word (x : ℚ) : ' ' ∉ fs x ∧ isName (fs x) = false := by
  refine ⟨fun h => (hfs x).2 _ h rfl, ?_⟩
  obtain ⟨c, hc, hl⟩ := (hfs x).1
  cases hx : fs x with
  | nil => rfl
  | cons y t =>
    rw [hx] at hc
    have : y = c := by simpa using hc
    subst this
    simp [isName, hl.1, hl.2]

include hS hfs in
theorem words_split (r : Reading) (hr : ∀ b ∈ r.over ++ r.under, b.1 ∈ S) :
    (List.intercalate [' '] (r.words fs)).splitOn ' ' = r.words fs := by
  refine joinSpace_split _ (fun t ht => ?_) (by simp [Reading.words])
  simp only [Reading.words, List.mem_append] at ht
  rcases ht with ((ht | ht) | ht) | ht
  · rw [List.mem_singleton] at ht; subst ht; exact (float_word hfs _).1
  · obtain ⟨k, _, rfl⟩ := List.mem_map.1 ht
    exact (float_word hfs _).1
  · split_ifs at ht with h
    · rw [List.mem_singleton] at ht; subst ht; decide
    · obtain ⟨b, hb, rfl⟩ := List.mem_map.1 ht
      exact (powerWord_facts hS (hr b (by simp [hb]))).1
  · split_ifs at ht with h
    · simp at ht
    · rcases List.mem_cons.1 ht with rfl | ht
      · decide
      · obtain ⟨b, hb, rfl⟩ := List.mem_map.1 ht
        exact (powerWord_facts hS (hr b (by simp [hb]))).1

include hS hfs in
theorem words_names (r : Reading) (hr : ∀ b ∈ r.over ++ r.under, b.1 ∈ S) :
    (r.words fs).filter isName = r.over.map powerWord ++
      (if r.under.map powerWord = [] then [] else ['/'] :: r.under.map powerWord) := by
  have hm : ∀ k : Option ℚ, (k.toList.map fs).filter isName = [] := by
    intro k
    cases k with
    | none => rfl
    | some k => simp [(float_word hfs k).2]
  have ho : (if r.over = [] then [['1']] else r.over.map powerWord).filter isName =
      r.over.map powerWord := by
    split_ifs with h
    · rw [h]; rfl
    · refine List.filter_eq_self.2 fun t ht => ?_
      obtain ⟨b, hb, rfl⟩ := List.mem_map.1 ht
      exact (powerWord_facts hS (hr b (by simp [hb]))).2.1
  have hu : (if r.under = [] then [] else ['/'] :: r.under.map powerWord).filter isName =
      (if r.under.map powerWord = [] then [] else ['/'] :: r.under.map powerWord) := by
    simp only [map_powerWord_nil]
    split_ifs with h
    · rfl
    · refine List.filter_eq_self.2 fun t ht => ?_
      rcases List.mem_cons.1 ht with rfl | ht
      · rfl
      · obtain ⟨b, hb, rfl⟩ := List.mem_map.1 ht
        exact (powerWord_facts hS (hr b (by simp [hb]))).2.1
  simp only [Reading.words, List.filter_append, hm, ho, hu]
  simp [(float_word hfs r.number).2]

include hS hfs in
/-- A text has at most one reading. -/
theorem reading_unique (hinj : Function.Injective fs) (r r' : Reading)
    (hr : ∀ b ∈ r.over ++ r.under, b.1 ∈ S) (hr' : ∀ b ∈ r'.over ++ r'.under, b.1 ∈ S)
    (h : List.intercalate [' '] (r.words fs) = List.intercalate [' '] (r'.words fs)) : r = r' := by
  have hw : r.words fs = r'.words fs := by
    rw [← words_split hS hfs r hr, h, words_split hS hfs r' hr']
  have hnames := words_names hS hfs r hr
  rw [hw, words_names hS hfs r' hr'] at hnames
  have hslash : ∀ r : Reading, (∀ b ∈ r.over ++ r.under, b.1 ∈ S) →
      ∀ t ∈ r.over.map powerWord, t ≠ ['/'] := by
    intro r hr t ht
    obtain ⟨b, hb, rfl⟩ := List.mem_map.1 ht
    exact (powerWord_facts hS (hr b (by simp [hb]))).2.2
  have hover : r'.over.map powerWord = r.over.map powerWord := by
    rw [← takeWhile_slash _ (r'.under.map powerWord) (hslash r' hr'), hnames,
      takeWhile_slash _ _ (hslash r hr)]
  rw [hover] at hnames
  have hunder : r'.under.map powerWord = r.under.map powerWord := by
    have := List.append_cancel_left hnames
    split_ifs at this with h1 h2 h2
    · rw [h1, h2]
    · simpa using this
  have ho := powerWords_injective hS _ _ (fun b hb => hr' b (by simp [hb]))
    (fun b hb => hr b (by simp [hb])) hover
  have hu := powerWords_injective hS _ _ (fun b hb => hr' b (by simp [hb]))
    (fun b hb => hr b (by simp [hb])) hunder
  obtain ⟨x, k, o, u⟩ := r
  obtain ⟨x', k', o', u'⟩ := r'
  dsimp only at ho hu
  subst ho hu
  simp only [Reading.words] at hw
  have h3 := List.append_cancel_right (List.append_cancel_right hw)
  simp only [List.cons_append, List.nil_append, List.cons.injEq] at h3
  obtain ⟨h3, h4⟩ := h3
  have hk : k = k' := by
    cases k with
    | none => cases k' with
      | none => rfl
      | some k' => simp at h4
    | some k => cases k' with
      | none => simp at h4
      | some k' =>
        have : fs k = fs k' := by simpa using h4
        rw [hinj this]
  rw [hinj h3, hk]

/-- The reading of the text of a quantity. -/
def readingOf (q : Quantity) : Reading where
  number := q.data
  multiple := match q.unit with
    | .named _ => none
    | .compound c => if c.scale = 1 then none else some c.scale
  over := (q.unit.entries.filter fun b => 0 < b.2).map fun b => (b.1, b.2.natAbs)
  under := (q.unit.entries.filter fun b => ¬ 0 < b.2).map fun b => (b.1, b.2.natAbs)

theorem over_words (l : List (NamedUnit × ℤ)) (p : ℤ → Bool) :
    ((l.filter fun b => p b.2).map fun b => (b.1, b.2.natAbs)).map powerWord =
      (((l.map fun b => (b.1.name, b.2)).filter fun b => p b.2).map fun b => token b.1 b.2) := by
  induction l with
  | nil => rfl
  | cons b l ih =>
    by_cases h : p b.2 = true
    · simp only [List.filter_cons, h, if_true, List.map_cons] at ih ⊢
      rw [ih, powerWord_token]
    · simp only [List.filter_cons, h, List.map_cons] at ih ⊢
      simpa using ih

include hfs in
theorem unit_text (u : BUnit) (x : ℚ) :
    List.intercalate [' '] ((readingOf ⟨x, u⟩).words fs) = (Quantity.mk x u).str fs := by
  have hov := over_words u.entries fun p => decide (0 < p)
  have hun := over_words u.entries fun p => decide (¬ 0 < p)
  have key : ∀ pre toks, IsPrefix pre toks → (readingOf ⟨x, u⟩).multiple.toList.map fs = toks →
      List.intercalate [' '] ((readingOf ⟨x, u⟩).words fs) =
        fs x ++ [' '] ++ fraction pre (u.entries.map fun b => (b.1.name, b.2)) := by
    intro pre toks hpre hm
    rw [fraction_join pre toks hpre]
    have e : (readingOf ⟨x, u⟩).words fs = [fs x] ++ (toks ++
        (if numTokens (u.entries.map fun b => (b.1.name, b.2)) = [] then [['1']] else
          numTokens (u.entries.map fun b => (b.1.name, b.2))) ++
        (if denTokens (u.entries.map fun b => (b.1.name, b.2)) = [] then [] else ['/'] ::
          denTokens (u.entries.map fun b => (b.1.name, b.2)))) := by
      unfold numTokens denTokens
      rw [← hov, ← hun]
      simp only [Reading.words, hm, map_powerWord_nil, List.append_assoc]
      rfl
    rw [e]
    change joinSpace _ = _
    rw [joinSpace_append (by simp), joinSpace_singleton]
    split_ifs <;> simp_all
  cases u with
  | named n =>
    rw [key [] [] (Or.inl ⟨rfl, rfl⟩) rfl]
    simp [BUnit.entries, Quantity.str, BUnit.str, fraction, token, joinSpace]
  | compound c =>
    rw [key _ _ (scale_prefix hfs c.scale)]
    · rfl
    · simp only [readingOf]
      split_ifs <;> rfl

theorem prod_parts (l : List (NamedUnit × ℤ)) :
    (((l.filter fun b => 0 < b.2).map fun b => (b.1, b.2.natAbs)).map
        fun b => b.1.scale ^ b.2).prod /
      (((l.filter fun b => ¬ 0 < b.2).map fun b => (b.1, b.2.natAbs)).map
        fun b => b.1.scale ^ b.2).prod = (l.map fun b => b.1.scale ^ b.2).prod := by
  induction l with
  | nil => simp
  | cons b l ih =>
    rw [List.map_cons, List.prod_cons, ← ih]
    by_cases h : 0 < b.2
    · have hb : b.1.scale ^ b.2 = b.1.scale ^ b.2.natAbs := by
        conv_lhs => rw [show b.2 = (b.2.natAbs : ℤ) by omega]
        exact zpow_natCast _ _
      simp only [List.filter_cons, h, decide_true, if_true, List.map_cons, List.prod_cons,
        not_true, decide_false, Bool.false_eq_true, if_false, hb]
      ring
    · have hb : b.1.scale ^ b.2 = (b.1.scale ^ b.2.natAbs)⁻¹ := by
        conv_lhs => rw [show b.2 = -(b.2.natAbs : ℤ) by omega]
        rw [zpow_neg, zpow_natCast]
      simp only [List.filter_cons, h, decide_true, if_true, List.map_cons, List.prod_cons,
        not_false_iff, decide_false, Bool.false_eq_true, if_false, hb]
      rw [mul_comm, div_eq_mul_inv, div_eq_mul_inv, mul_inv]
      ring

/-- The factor a unit object carries besides its named units (`unit.scale` of a compound unit). -/
def BUnit.multiple : BUnit → ℚ
  | .named _ => 1
  | .compound c => c.scale

theorem readingOf_value (x : ℚ) (u : BUnit) :
    (readingOf ⟨x, u⟩).value = x * u.multiple * u.size := by
  have hs : u.size = (u.entries.map fun b => b.1.scale ^ b.2).prod := by
    cases u <;> simp [BUnit.size, BUnit.entries]
  have hm : (readingOf ⟨x, u⟩).multiple.getD 1 = u.multiple := by
    cases u with
    | named n => rfl
    | compound c =>
      simp only [readingOf, BUnit.multiple]
      split_ifs with h
      · rw [h]; rfl
      · rfl
  rw [Reading.value, hm, hs, ← prod_parts u.entries, mul_div_assoc]
  rfl

include hfs in
theorem says_str (x : ℚ) (u : BUnit) (hu : Good S u) :
    Says fs S ((Quantity.mk x u).str fs) (x * u.multiple * u.size) := by
  refine ⟨readingOf ⟨x, u⟩, ?_, (unit_text hfs u x).symm, (readingOf_value x u).symm⟩
  intro b hb
  simp only [readingOf, List.mem_append, List.mem_map, List.mem_filter] at hb
  rcases hb with ⟨a, ⟨ha, _⟩, rfl⟩ | ⟨a, ⟨ha, _⟩, rfl⟩ <;> exact hu.over a ha

/-! ### C132 -/

include hS hfs in
/-- C132: a text says at most one value, so it is meaningful to ask what it says. -/
theorem C132_text_says_one_value (hinj : Function.Injective fs) (t : Str) (v w : ℚ)
    (hv : Says fs S t v) (hw : Says fs S t w) : v = w := by
  obtain ⟨r, hr, rfl, rfl⟩ := hv
  obtain ⟨r', hr', h, rfl⟩ := hw
  rw [reading_unique hS hfs hinj r r' hr hr' h]

include hS hfs in
/-- C132, exactly when: the text of a quantity other than zero says its value if and only if its
unit is a named unit or has `scale` 1. -/
theorem C132_exactly_when (hinj : Function.Injective fs) (x : ℚ) (hx : x ≠ 0) (u : BUnit)
    (hu : Built S u) :
    Says fs S ((Quantity.mk x u).str fs) (x * u.size) ↔
      (∃ n, u = .named n) ∨ u.scale = 1 := by
  have hg := built_good hu
  have hsize : u.size ≠ 0 := by rw [size_eq]; exact (unitScale_pos hS hg).ne'
  have hsays := says_str hfs (S := S) x u hg
  constructor
  · intro h
    have := C132_text_says_one_value hS hfs hinj _ _ _ h hsays
    cases u with
    | named n => exact Or.inl ⟨n, rfl⟩
    | compound c =>
      right
      have h2 : x * (BUnit.compound c).size * (c.scale - 1) = 0 := by
        simp only [BUnit.multiple] at this
        linear_combination -this
      rcases mul_eq_zero.1 h2 with h3 | h3
      · exact absurd h3 (mul_ne_zero hx hsize)
      · exact sub_eq_zero.1 h3
  · intro h
    have : u.multiple = 1 := by
      rcases h with ⟨n, rfl⟩ | h
      · rfl
      · cases u with
        | named n => rfl
        | compound c => exact h
    rwa [this, mul_one] at hsays

end

/-- Formulas whose units carry no factor of their own: no numeric multiples, and powers only of
base units, of quotients and inverses and powers, or with a negative exponent. -/
def UExpr.Shown : UExpr → Prop
  | .unit _ => True
  | .div _ _ => True
  | .inv _ => True
  | .mul a b => a.Shown ∧ b.Shown
  | .pow a k => k < 0 ∨ a.factor = 1 ∨ match a with
    | .div _ _ | .inv _ | .pow _ _ => True
    | _ => False
  | .smul _ _ => False

theorem init_two_scale (s : ℚ) (p q : BUnit × ℤ) : (Compound.init s [p, q]).scale = s := by
  obtain ⟨u, k⟩ := p
  cases u <;> rfl

theorem init_compound_scale (s : ℚ) (c : Compound) (k : ℤ) :
    (Compound.init s [(.compound c, k)]).scale = s := rfl

theorem init_negative_scale (s : ℚ) (u : BUnit) (k : ℤ) (hk : k < 0) :
    (Compound.init s [(u, k)]).scale = s := by
  cases u with
  | named n => simp [Compound.init, not_le.2 hk]
  | compound c => rfl

section
variable {S : List NamedUnit} (hS : UnitSystem S) {fs : ℚ → Str} (hfs : FloatStr fs)

include hS in
theorem shown_multiple (e : UExpr) (he : ∀ n ∈ e.atoms, n ∈ S) (hs : e.Safe) (h : e.Shown) :
    e.eval.multiple = 1 := by
  induction e with
  | unit n => rfl
  | mul a b iha ihb =>
    have h1 := iha (fun n hn => he n (by simp [UExpr.atoms, hn])) hs.1 h.1
    have h2 := ihb (fun n hn => he n (by simp [UExpr.atoms, hn])) hs.2 h.2
    simp only [UExpr.eval, BUnit.mul]
    split_ifs
    · exact h1
    · exact h2
    · exact init_two_scale _ _ _
  | div a b _ _ => exact init_two_scale _ _ _
  | inv a _ => exact init_negative_scale _ _ _ (by norm_num)
  | pow a k _ =>
    simp only [UExpr.eval, BUnit.pow, BUnit.multiple]
    rcases h with h | h | h
    · exact init_negative_scale _ _ _ h
    · have hsc := unitScale_eval hS a he hs
      cases ha : a.eval with
      | compound c => rfl
      | named n =>
        rw [ha, h] at hsc
        have : n.scale = 1 := hsc
        simp only [Compound.init, this]
        split_ifs <;> simp
    · cases a with
      | div a b => rfl
      | inv a => rfl
      | pow a j => rfl
      | unit n => exact h.elim
      | mul a b => exact h.elim
      | smul k a => exact h.elim
  | smul k a _ => exact h.elim

include hS hfs in
/-- C132, for formulas without numeric multiples, without the quotients of C33 and without
non-negative powers of units other than base units: the text of a quantity says its value.
Missing: those powers and multiples, for which it is false (below). -/
theorem C132_shows_value_partial (e : UExpr) (he : ∀ n ∈ e.atoms, n ∈ S) (hs : e.Safe)
    (h : e.Shown) (x : ℚ) :
    Says fs S ((Quantity.mk x e.eval).str fs) (x * e.factor) := by
  have := says_str hfs (S := S) x e.eval (eval_good e he)
  rwa [shown_multiple hS e he hs h, mul_one, size_eq, unitScale_eval hS e he hs] at this

/-- Kilometres per hour. -/
example : let e := UExpr.div (.unit km) (.unit hr)
    (∀ n ∈ e.atoms, n ∈ registry) ∧ e.Safe ∧ e.Shown ∧
    (Quantity.mk 36 e.eval).str (fmtFixed 1) = "36.0 km / hr".toList := by
  refine ⟨by decide +kernel, ?_, trivial, by decide +kernel⟩
  simp [UExpr.Safe, UExpr.isNamed]

include hfs in
/-- C132 fails for powers: the text of `x` in the `k`-th power of a unit has that unit's factor
to the `k` in it as well as the unit, so that what it says is wrong by that factor. -/
theorem C132_powers_counted_twice (a : NamedUnit) (ha : a ∈ S) (k : ℕ) (hk : 0 < k) (x : ℚ) :
    Says fs S ((Quantity.mk x ((BUnit.named a).pow k)).str fs)
      (a.scale ^ k * (x * (UExpr.pow (.unit a) k).factor)) := by
  have hg : Good S ((BUnit.named a).pow k) := init_one_good _ (.named a) _ ha
  have := says_str hfs (S := S) x _ hg
  have hb : (BUnit.named a).pow k = .compound ⟨a.scale ^ k, [(a, (k : ℤ))], false⟩ := by
    have h0 : k ≠ 0 := by omega
    simp [BUnit.pow, Compound.init, h0]
  rw [hb] at this ⊢
  convert this using 1
  simp only [BUnit.multiple, BUnit.size, UExpr.factor, List.map_cons, List.map_nil,
    List.prod_cons, List.prod_nil, mul_one]
  ring

include hS hfs in
/-- The text of an area in any unit but the metre squared: the product of two lengths in one unit
reads as the area times the square of the unit's factor. -/
theorem C132_squares_wrong (hinj : Function.Injective fs) (a : NamedUnit) (ha : a ∈ S)
    (h1 : a.scale ≠ 1) (x y : ℚ) (hx : x ≠ 0) (hy : y ≠ 0) (r : Quantity)
    (hr : (Quantity.mk x (.named a)).mul fs (.quantity ⟨y, .named a⟩) = .ok r) :
    ¬ Says fs S (r.str fs) (x * y * a.scale ^ 2) := by
  have hd : sameDimension (.named a) (.named a) = .ok true := by
    obtain ⟨d, hd, _⟩ := hS.dims a ha
    exact sameDimension_of (named_dimension hS ha hd) (named_dimension hS ha hd)
  have hto : (Quantity.mk y (.named a)).to fs (.named a) = .ok y := by
    rw [to_eq hS hfs y (u := .named a) (v := .named a) ha ha hd]
    rw [div_self, mul_one]
    rw [size_eq]
    exact (hS.pos a ha).ne'
  simp only [Quantity.mul, hd, hto] at hr
  have hr' : r = ⟨x * y, (BUnit.named a).pow 2⟩ := (Except.ok.inj hr).symm
  subst hr'
  intro h
  have h2 := C132_powers_counted_twice hfs a ha 2 (by norm_num) (x * y)
  have h3 := C132_text_says_one_value hS hfs hinj _ _ _ h h2
  have hp := hS.pos a ha
  simp only [UExpr.factor, Nat.cast_ofNat] at h3
  have h4 : x * y * a.scale ^ 2 * (a.scale ^ 2 - 1) = 0 := by
    have : (a.scale ^ (2 : ℤ) : ℚ) = a.scale ^ 2 := by norm_cast
    rw [this] at h3
    linear_combination -h3
  rcases mul_eq_zero.1 h4 with h5 | h5
  · exact (mul_ne_zero (mul_ne_zero hx hy) (pow_pos hp 2).ne') h5
  · have : (a.scale - 1) * (a.scale + 1) = 0 := by linear_combination h5
    rcases mul_eq_zero.1 this with h | h
    · exact h1 (sub_eq_zero.1 h)
    · linarith

/-- Two kilometres by three kilometres print as six million square kilometres. -/
example : ((Quantity.mk 2 (.named km)).mul (fmtFixed 1) (.quantity ⟨3, .named km⟩)).map
    (Quantity.str (fmtFixed 1)) = .ok "6.0 1000000.0 km2".toList := by decide +kernel

include hS hfs in
/-- Quantities with the same text have the same number and units of the same size: where both
can be converted to a unit, the results are the same. -/
theorem C132_same_text_same_value_partial (hinj : Function.Injective fs) (x y : ℚ) (u v : BUnit)
    (hu : Built S u) (hv : Built S v)
    (h : (Quantity.mk x u).str fs = (Quantity.mk y v).str fs) :
    x = y ∧ u.size = v.size ∧ ∀ w z z', Built S w → (Quantity.mk x u).to fs w = .ok z →
      (Quantity.mk y v).to fs w = .ok z' → z = z' := by
  have hgu := built_good hu
  have hgv := built_good hv
  have hin : ∀ (x : ℚ) (u : BUnit), Good S u →
      ∀ b ∈ (readingOf ⟨x, u⟩).over ++ (readingOf ⟨x, u⟩).under, b.1 ∈ S := by
    intro x u hu b hb
    simp only [readingOf, List.mem_append, List.mem_map, List.mem_filter] at hb
    rcases hb with ⟨a, ⟨ha, _⟩, rfl⟩ | ⟨a, ⟨ha, _⟩, rfl⟩ <;> exact hu.over a ha
  have hr : readingOf ⟨x, u⟩ = readingOf ⟨y, v⟩ :=
    reading_unique hS hfs hinj _ _ (hin x u hgu) (hin y v hgv)
      (by rw [unit_text hfs, unit_text hfs, h])
  have hxy : x = y := congrArg Reading.number hr
  have hsz : ∀ (x : ℚ) (u : BUnit), u.size =
      ((readingOf ⟨x, u⟩).over.map fun b => b.1.scale ^ b.2).prod /
        ((readingOf ⟨x, u⟩).under.map fun b => b.1.scale ^ b.2).prod := by
    intro x u
    have hs : u.size = (u.entries.map fun b => b.1.scale ^ b.2).prod := by
      cases u <;> simp [BUnit.size, BUnit.entries]
    rw [hs, ← prod_parts u.entries]
    rfl
  have huv : u.size = v.size := by rw [hsz x u, hsz y v, hr]
  refine ⟨hxy, huv, fun w z z' hw hz hz' => ?_⟩
  have hgw := built_good hw
  rw [to_eq hS hfs x hgu hgw (to_ok_same hz)] at hz
  rw [to_eq hS hfs y hgv hgw (to_ok_same hz')] at hz'
  rw [← Except.ok.inj hz, ← Except.ok.inj hz', hxy, huv]

include hS in
/-- Quantities with the same text need not behave alike: with three units of one dimension,
`a * b / c` and `a / c * b` are written the same, but the first can be converted and the second
cannot. -/
theorem C132_same_text_not_alike (a b c : NamedUnit) (ha : a ∈ S) (hb : b ∈ S) (hc : c ∈ S)
    (hab : a ≠ b) (hac : a ≠ c) (hbc : b ≠ c)
    (hdb : dimensionDictionary.lookup b.name = dimensionDictionary.lookup a.name)
    (hdc : dimensionDictionary.lookup c.name = dimensionDictionary.lookup a.name) (x : ℚ)
    (ρ : ℕ → ℕ) :
    let u := ((BUnit.named a).mul (.named b)).div (.named c)
    let v := ((BUnit.named a).div (.named c)).mul (.named b)
    (Quantity.mk x u).str fs = (Quantity.mk x v).str fs ∧
    (∃ r, (Quantity.mk x u).convertTo fs ρ u = .ok r) ∧
    ∀ w, (Quantity.mk x v).convertTo fs ρ w = .error .attributeError := by
  have hid : ∀ p ∈ S, ∀ q ∈ S, p ≠ q → p.id ≠ q.id := fun p hp q hq h e => h (hS.ids p hp q hq e)
  have h1 := hid a ha b hb hab
  have h2 := hid a ha c hc hac
  have h3 := hid b hb c hc hbc
  obtain ⟨d, had, _⟩ := hS.dims a ha
  rw [had] at hdb hdc
  have hu : ((BUnit.named a).mul (.named b)).div (.named c) =
      .compound ⟨1, [(a, 1), (b, 1), (c, -1)], false⟩ := by
    rw [mul_bases_two h1]
    simp [BUnit.div, Compound.init, expandAndCollect, collectStep, addNested, hasId, h1, h2, h3]
  have hv : ((BUnit.named a).div (.named c)).mul (.named b) =
      .compound ⟨1, [(a, 1), (c, -1), (b, 1)], false⟩ := by
    rw [div_bases_two h2]
    simp [BUnit.mul, BUnit.isUnity, Compound.init, expandAndCollect, collectStep, addNested,
      hasId, h1, h2, Ne.symm h3]
  intro u v
  have hu' : u = .compound ⟨1, [(a, 1), (b, 1), (c, -1)], false⟩ := hu
  have hv' : v = .compound ⟨1, [(a, 1), (c, -1), (b, 1)], false⟩ := hv
  rw [hu', hv']
  refine ⟨?_, ?_, fun w => ?_⟩
  · simp [Quantity.str, BUnit.str, Compound.str, fraction]
  · have hdim : (BUnit.compound ⟨1, [(a, 1), (b, 1), (c, -1)], false⟩).dimension =
        .ok [d] := by
      rw [compound_dimension]
      have e0 : addDimension [] d 1 = .ok [(d, 1)] := rfl
      have e1 : addDimension [(d, 1)] d 1 = .ok [(d, 2)] := by simp [addDimension]
      have e2 : addDimension [(d, 2)] d (-1) = .ok [(d, 1)] := by simp [addDimension]
      simp only [List.map_cons, List.map_nil, dimensionsFrom, had, hdb, hdc, e0, e1, e2,
        Except.map, fraction_one]
    unfold Quantity.convertTo
    simp only [hdim]
    simp
  · have hdim : (BUnit.compound ⟨1, [(a, 1), (c, -1), (b, 1)], false⟩).dimension =
        .error .attributeError := by
      rw [compound_dimension]
      simp only [List.map_cons, List.map_nil, dimensionsFrom, had, hdb, hdc, addDimension]
      simp [Except.map]
    unfold Quantity.convertTo
    simp only [hdim]

/-- Metres times centimetres per kilometre. -/
example : let u := ((BUnit.named m).mul (.named cm)).div (.named km)
    let v := ((BUnit.named m).div (.named km)).mul (.named cm)
    (Quantity.mk 1 u).str (fmtFixed 1) = "1.0 m cm / km".toList ∧
    (Quantity.mk 1 v).str (fmtFixed 1) = "1.0 m cm / km".toList ∧
    (Quantity.mk 1 u).to (fmtFixed 1) (.named m) = .ok (1 / 100000) ∧
    (Quantity.mk 1 v).to (fmtFixed 1) (.named m) = .error .attributeError := by decide +kernel

end

/-! ### A way of writing numbers that tells them all apart -/

/-- Numerator and denominator, written out. -/
def exactText (x : ℚ) : Str :=
  (if x < 0 then ['-'] else []) ++ natStr x.num.natAbs ++ ['|'] ++ natStr x.den

theorem exactText_floatStr : FloatStr exactText := by
  intro x
  have hdig : ∀ n, ∀ c ∈ natStr n, c.isDigit = true := Celest.Text.natStr_digits
  constructor
  · by_cases h : x < 0
    · exact ⟨'-', by simp [exactText, h], by decide, by decide⟩
    · cases hn : natStr x.num.natAbs with
      | nil => exact absurd hn (Celest.Text.natStr_ne_nil _)
      | cons c t =>
        have hc := hdig x.num.natAbs c (by rw [hn]; simp)
        refine ⟨c, by simp [exactText, h, hn], ?_, by rintro rfl; revert hc; decide⟩
        simp only [Char.isAlpha, Char.isUpper, Char.isLower, Char.isDigit] at *
        simp only [Bool.and_eq_true, decide_eq_true_eq, Bool.or_eq_false_iff,
          Bool.and_eq_false_iff, decide_eq_false_iff_not] at *
        constructor
        · intro h'
          have := UInt32.le_trans h'.1 hc.2
          revert this; decide
        · left
          intro h'
          have := UInt32.le_trans h' hc.2
          revert this; decide
  · intro c hc
    simp only [exactText, List.mem_append] at hc
    rcases hc with ((hc | hc) | hc) | hc
    · split_ifs at hc
      · rw [List.mem_singleton] at hc; subst hc; decide
      · simp at hc
    · rintro rfl; have := hdig _ _ hc; revert this; decide
    · rw [List.mem_singleton] at hc; subst hc; decide
    · rintro rfl; have := hdig _ _ hc; revert this; decide

theorem exactText_injective : Function.Injective exactText := by
  intro x y h
  have hbar : ∀ z : ℚ, ∀ c ∈ (if z < 0 then ['-'] else []) ++ natStr z.num.natAbs,
      (decide (c ≠ '|')) = true := by
    intro z c hc
    rw [List.mem_append] at hc
    rcases hc with hc | hc
    · split_ifs at hc
      · rw [List.mem_singleton] at hc; subst hc; decide
      · simp at hc
    · rw [decide_eq_true_eq]
      rintro rfl; have := Celest.Text.natStr_digits _ _ hc; revert this; decide
  have htake : ∀ z : ℚ, (exactText z).takeWhile (fun c => decide (c ≠ '|')) =
      (if z < 0 then ['-'] else []) ++ natStr z.num.natAbs := by
    intro z
    rw [exactText, List.append_assoc _ ['|'], List.takeWhile_append_of_pos (hbar z)]
    simp
  have h1 : (if x < 0 then ['-'] else []) ++ natStr x.num.natAbs =
      (if y < 0 then ['-'] else []) ++ natStr y.num.natAbs := by rw [← htake, h, htake]
  have h2 : natStr x.den = natStr y.den := by
    have h := h
    unfold exactText at h
    rw [h1] at h
    exact List.append_cancel_left h
  have hminus : ∀ n, (natStr n).head? ≠ some '-' := by
    intro n e
    cases hn : natStr n with
    | nil => simp [hn] at e
    | cons c t =>
      have hc := Celest.Text.natStr_digits n c (by rw [hn]; simp)
      rw [hn] at e
      have : c = '-' := by simpa using e
      subst this
      revert hc; decide
  have hden : x.den = y.den := natStr_injective h2
  have hnum : x.num = y.num := by
    by_cases hx : x < 0
    · by_cases hy : y < 0
      · rw [if_pos hx, if_pos hy] at h1
        have := natStr_injective (List.append_cancel_left h1)
        have := Rat.num_neg.2 hx
        have := Rat.num_neg.2 hy
        omega
      · rw [if_pos hx, if_neg hy] at h1
        exact absurd (by rw [← List.nil_append (natStr _), ← h1]; rfl) (hminus y.num.natAbs)
    · by_cases hy : y < 0
      · rw [if_neg hx, if_pos hy] at h1
        exact absurd (by rw [← List.nil_append (natStr _), h1]; rfl) (hminus x.num.natAbs)
      · rw [if_neg hx, if_neg hy] at h1
        have := natStr_injective h1
        have := Rat.num_nonneg.2 (not_lt.1 hx)
        have := Rat.num_nonneg.2 (not_lt.1 hy)
        omega
  exact Rat.ext hnum hden

/-- The hypotheses on the text of numbers can be met: `2.5 m / s` says two and a half metres per
second, and nothing else. -/
example : let q := Quantity.mk (5 / 2) ((BUnit.named m).div (.named s))
    ∀ v, Says exactText registry (q.str exactText) v ↔ v = 5 / 2 := by
  intro q v
  have he : ∀ n ∈ (UExpr.div (.unit m) (.unit s)).atoms, n ∈ registry := by decide +kernel
  have h := C132_shows_value_partial registry_system exactText_floatStr
    (UExpr.div (.unit m) (.unit s)) he (by simp [UExpr.Safe, UExpr.isNamed]) trivial (5 / 2)
  have hf : (UExpr.div (.unit m) (.unit s)).factor = 1 := by decide +kernel
  rw [hf, mul_one] at h
  constructor
  · exact fun hv => C132_text_says_one_value registry_system exactText_floatStr
      exactText_injective _ _ _ hv h
  · rintro rfl
    exact h

/-- Square kilometres: the hypotheses of `C132_squares_wrong` and `C132_exactly_when`. -/
example : km ∈ registry ∧ km.scale ≠ 1 ∧ Built registry ((BUnit.named km).pow 2) ∧
    ∃ r, (Quantity.mk 2 (.named km)).mul exactText (.quantity ⟨3, .named km⟩) = .ok r := by
  refine ⟨by decide +kernel, by decide +kernel, ⟨.pow (.unit km) 2, by decide +kernel, rfl⟩, ?_⟩
  exact ⟨⟨6, (BUnit.named km).pow 2⟩, by decide +kernel⟩

end Celest.Units
