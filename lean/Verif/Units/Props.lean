/-
C28-C34, C39, C40: unit arithmetic and conversion.
-/
import Verif.Units.Registry
import Verif.Tactic

namespace Celest.Units

open Celest.Text (Str fmtFixed)

section
variable {S : List NamedUnit} (hS : UnitSystem S) {fs : ℚ → Str} (hfs : FloatStr fs)

/-! ### C28 -/

include hS hfs in
/-- C28, for formulas without numeric multiples and without the quotients of C33: the converted
number times the new unit's factor is the old number times the old unit's factor. -/
theorem C28_conversion_partial (e e' : UExpr) (he : ∀ n ∈ e.atoms, n ∈ S)
    (he' : ∀ n ∈ e'.atoms, n ∈ S) (hs : e.Safe) (hs' : e'.Safe) (x y : ℚ)
    (h : (Quantity.mk x e.eval).to fs e'.eval = .ok y) : y * e'.factor = x * e.factor := by
  rw [to_eq hS hfs x (eval_good e he) (eval_good e' he') (to_ok_same h)] at h
  have hp := unitScale_pos hS (eval_good e' he')
  rw [← unitScale_eval hS e he hs, ← unitScale_eval hS e' he' hs', ← Except.ok.inj h, size_eq,
    size_eq]
  field_simp

/-- The case met by the example below: kilometres per hour to metres per second. -/
example : let e := UExpr.div (.unit km) (.unit hr)
    let e' := UExpr.div (.unit m) (.unit s)
    (∀ n ∈ e.atoms, n ∈ registry) ∧ (∀ n ∈ e'.atoms, n ∈ registry) ∧ e.Safe ∧ e'.Safe ∧
    (Quantity.mk 36 e.eval).to (fmtFixed 6) e'.eval = .ok 10 := by
  refine ⟨by decide +kernel, by decide +kernel, ?_, ?_, by decide +kernel⟩ <;>
    simp [UExpr.Safe, UExpr.isNamed]

include hS hfs in
/-- C28 fails for numeric multiples: a quantity in `k * u` converts to `u` with its number
unchanged, whatever `k` is. -/
theorem C28_multiples_ignored (u : BUnit) (hu : Built S u) (k x : ℚ) (d : Str)
    (hd : u.dimension = .ok d) :
    (Quantity.mk x (u.smul k)).to fs u = .ok x := by
  have hg := built_good hu
  have hgk : Good S (u.smul k) := init_one_good _ _ _ hg
  rw [to_eq hS hfs x hgk hg (sameDimension_of ((smul_dimension hS hg k).trans hd) hd)]
  have : (u.smul k).size = u.size := by
    rw [size_eq, size_eq, unitScale_eq hS hgk, unitScale_eq hS hg]
    refine Finset.prod_congr rfl fun n _ => ?_
    rw [BUnit.smul, init_one_expo (S := S) k u 1 hg, one_mul]
  rw [this, div_self (by rw [size_eq]; exact (unitScale_pos hS hg).ne'), mul_one]

/-- One "dozen metres" is reported to be one metre. -/
example : (Quantity.mk 1 ((BUnit.named m).smul 12)).to (fmtFixed 6) (.named m) = .ok 1 := by
  decide +kernel

/-! ### C29 -/

include hS hfs in
/-- C29: converting there and back returns the number, and going through an intermediate unit
gives the same number as converting directly. -/
theorem C29_round_trip_and_compose (u v w : BUnit) (hu : Built S u) (hv : Built S v)
    (hw : Built S w) (ρ : ℕ → ℕ) (x : ℚ) (r : Quantity)
    (h : (Quantity.mk x u).convertTo fs ρ v = .ok r) :
    r.to fs u = .ok x ∧
    ∀ z, r.to fs w = .ok z → (Quantity.mk x u).to fs w = .ok z := by
  have gu := built_good hu
  have gv := built_good hv
  have gw := built_good hw
  have hsame := convertTo_same h
  constructor
  · rw [convertTo_then_to hS hfs gu gv gu h (sameDimension_symm hsame), size_eq,
      div_self (unitScale_pos hS gu).ne', mul_one]
  · intro z hz
    have hd : sameDimension v w = .ok true := by
      have h1 := to_ok_same (x := r.data) (u := r.unit) hz
      rcases (convertTo_to h).2 with hr | ⟨hr, _⟩
      · rw [hr] at h1; exact h1
      · rw [hr] at h1
        obtain ⟨t, ht1, ht2⟩ := sameDimension_true h1
        rw [copy_dimension] at ht1
        exact sameDimension_trans (sameDimension_symm hsame) (sameDimension_of ht1 ht2)
    rw [convertTo_then_to hS hfs gu gv gw h hd] at hz
    rw [← Except.ok.inj hz]
    exact to_eq hS hfs x gu gw (sameDimension_trans hsame hd)

example : Built registry (.named km) ∧ Built registry (.named mi) ∧ Built registry (.named ft) ∧
    ∃ r, (Quantity.mk 5 (.named km)).convertTo (fmtFixed 6) (· + 100) (.named mi) = .ok r ∧
      ∃ z, r.to (fmtFixed 6) (.named ft) = .ok z := by
  refine ⟨⟨.unit km, by decide +kernel, rfl⟩, ⟨.unit mi, by decide +kernel, rfl⟩,
    ⟨.unit ft, by decide +kernel, rfl⟩, ⟨5000 / (1609344 / 1000), .named mi⟩, by decide +kernel,
    5000 / (305 / 1000), by decide +kernel⟩

/-! ### C30 -/

include hS in
/-- C30: conversion, addition, subtraction and the comparisons succeed only between units whose
listed exponents have the same physical dimension. -/
theorem C30_dimension_safety_partial (u v : BUnit) (hu : Built S u) (hv : Built S v) (x y : ℚ)
    (h : (∃ r ρ, (Quantity.mk x u).convertTo fs ρ v = .ok r) ∨
      (∃ r, (Quantity.mk x u).add fs (.quantity ⟨y, v⟩) = .ok r) ∨
      (∃ r, (Quantity.mk x u).sub fs (.quantity ⟨y, v⟩) = .ok r) ∨
      (∃ r, (Quantity.mk x u).eq fs (.quantity ⟨y, v⟩) = .ok r) ∨
      (∃ r, (Quantity.mk x u).lt fs (.quantity ⟨y, v⟩) = .ok r) ∨
      (∃ r, (Quantity.mk x u).gt fs (.quantity ⟨y, v⟩) = .ok r)) :
    ∀ d, u.dim d = v.dim d := by
  have key : sameDimension u v = .ok true → ∀ d, u.dim d = v.dim d := by
    intro hsd
    obtain ⟨s, h1, h2⟩ := sameDimension_true hsd
    exact dim_of_dimension hS (built_good hu) (built_good hv) h1 h2
  apply key
  have hadd : ∀ y r, (Quantity.mk x u).add fs (.quantity ⟨y, v⟩) = .ok r →
      sameDimension u v = .ok true := by
    intro y r h
    simp only [Quantity.add] at h
    cases hs : sameDimension u v with
    | error e => rw [hs] at h; cases h
    | ok b =>
      cases b with
      | true => rfl
      | false => rw [hs] at h; cases h
  have hcmp : ∀ t r, (Quantity.mk x u).compare fs t (.quantity ⟨y, v⟩) = .ok r →
      sameDimension u v = .ok true := by
    intro t r h
    simp only [Quantity.compare] at h
    cases hs : sameDimension u v with
    | error e => rw [hs] at h; cases h
    | ok b =>
      cases b with
      | true => rfl
      | false => rw [hs] at h; cases h
  rcases h with ⟨r, ρ, h⟩ | ⟨r, h⟩ | ⟨r, h⟩ | ⟨r, h⟩ | ⟨r, h⟩ | ⟨r, h⟩
  · exact convertTo_same h
  · exact hadd y r h
  · exact hadd (-y) r h
  · exact hcmp _ r h
  · exact hcmp _ r h
  · exact hcmp _ r h

include hS in
/-- C30 in terms of formulas, for those whose quotients are computed correctly (C33). -/
theorem C30_formulas_partial (e e' : UExpr) (he : ∀ n ∈ e.atoms, n ∈ S)
    (he' : ∀ n ∈ e'.atoms, n ∈ S) (hs : e.Safe) (hs' : e'.Safe) (x : ℚ) (r : Quantity) (ρ : ℕ → ℕ)
    (h : (Quantity.mk x e.eval).convertTo fs ρ e'.eval = .ok r) : ∀ d, e.dim d = e'.dim d := by
  intro d
  rw [← dim_eval hS e he hs, ← dim_eval hS e' he' hs']
  exact C30_dimension_safety_partial hS _ _ ⟨e, he, rfl⟩ ⟨e', he', rfl⟩ x 0 (Or.inl ⟨r, ρ, h⟩) d

example : (Quantity.mk 1 (.named hr)).convertTo (fmtFixed 6) id (.named s) = .ok ⟨3600, .named s⟩ ∧
    (Quantity.mk 1 (.named hr)).convertTo (fmtFixed 6) id (.named m) = .error .valueError := by
  decide +kernel

/-- Because of C33 the library takes `m / (m / s)`, a time, for a length squared times a time. -/
theorem C30_quotient_counterexample :
    let e := UExpr.div (.unit m) (.div (.unit m) (.unit s))
    let e' := UExpr.mul (.pow (.unit km) 2) (.unit s)
    (e.dim 'T' = 1 ∧ e.dim 'L' = 0) ∧ (e'.dim 'T' = 1 ∧ e'.dim 'L' = 2) ∧
    (Quantity.mk 1000000 e.eval).to (fmtFixed 6) e'.eval = .ok 1 ∧
    (Quantity.mk 1 e.eval).to (fmtFixed 6) (.named s) = .error .valueError := by
  decide +kernel

/-! ### C31 -/

include hS hfs in
/-- C31 for named units: equal dimension suffices. -/
theorem C31_named_units_partial (a b : NamedUnit) (ha : a ∈ S) (hb : b ∈ S)
    (h : ∀ d, (BUnit.named a).dim d = (BUnit.named b).dim d) (x : ℚ) (ρ : ℕ → ℕ) :
    ∃ r, (Quantity.mk x (.named a)).convertTo fs ρ (.named b) = .ok r := by
  obtain ⟨d, hd, _⟩ := hS.dims a ha
  have hbd : dimensionDictionary.lookup b.name = some d := by
    have := h d
    simp only [BUnit.dim, hd, if_true] at this
    by_contra hne
    rw [if_neg hne] at this
    exact absurd this (by decide)
  have hsd := sameDimension_of (named_dimension hS ha hd) (named_dimension hS hb hbd)
  obtain ⟨r, hr, _⟩ := convertTo_of_to (ρ := ρ)
    (to_eq hS hfs x (show Good S (.named a) from ha) (show Good S (.named b) from hb) hsd)
  exact ⟨r, hr⟩

theorem addDimension_new (l : List (Char × ℤ)) (d : Char) (p : ℤ) (h : ∀ b ∈ l, b.1 ≠ d) :
    addDimension l d p = .ok (l ++ [(d, p)]) := by
  induction l with
  | nil => rfl
  | cons b l ih =>
    rw [addDimension, if_neg (h b (by simp)), ih fun x hx => h x (by simp [hx])]
    rfl

theorem dimensionsFrom_congr (l l' : List (Str × ℤ))
    (h : List.Forall₂ (fun b b' => dimensionDictionary.lookup b.1 = dimensionDictionary.lookup b'.1 ∧
      b.2 = b'.2) l l') (acc : List (Char × ℤ)) : dimensionsFrom l acc = dimensionsFrom l' acc := by
  induction h generalizing acc with
  | nil => rfl
  | @cons b b' l l' hb _ ih =>
    obtain ⟨n, p⟩ := b
    obtain ⟨n', p'⟩ := b'
    simp only at hb
    rw [dimensionsFrom, dimensionsFrom, hb.1, hb.2]
    cases dimensionDictionary.lookup n' with
    | none => rfl
    | some d =>
      dsimp only
      cases addDimension acc d p' with
      | error e => rfl
      | ok acc' => exact ih acc'

theorem dimensionsFrom_distinct (l : List (Str × ℤ)) (acc : List (Char × ℤ))
    (hex : ∀ b ∈ l, ∃ d, dimensionDictionary.lookup b.1 = some d)
    (hp : l.Pairwise fun b b' =>
      dimensionDictionary.lookup b.1 ≠ dimensionDictionary.lookup b'.1)
    (ha : ∀ b ∈ l, ∀ c ∈ acc, dimensionDictionary.lookup b.1 ≠ some c.1) :
    ∃ r, dimensionsFrom l acc = .ok r := by
  induction l generalizing acc with
  | nil => exact ⟨acc, rfl⟩
  | cons b l ih =>
    obtain ⟨d, hd⟩ := hex b (by simp)
    obtain ⟨n, p⟩ := b
    rw [dimensionsFrom]
    simp only at hd
    rw [hd]
    dsimp only
    rw [addDimension_new]
    · dsimp only
      rw [List.pairwise_cons] at hp
      apply ih _ (fun x hx => hex x (by simp [hx])) hp.2
      intro x hx c hc
      rcases List.mem_append.1 hc with hc | hc
      · exact ha x (by simp [hx]) c hc
      · rw [List.mem_singleton] at hc
        subst hc
        have := hp.1 x hx
        simp only [hd] at this
        exact this.symm
    · intro c hc e
      exact ha (n, p) (by simp) c hc (by simp [hd, e])

include hS hfs in
/-- C31 for compound units that list units of pairwise different dimensions, in the same order and
with the same powers.  Missing from C31: any other order or grouping (see the next theorems). -/
theorem C31_same_shape_partial (c c' : Compound) (hc : Built S (.compound c))
    (hc' : Built S (.compound c'))
    (hd : c.bases.Pairwise fun b b' =>
      dimensionDictionary.lookup b.1.name ≠ dimensionDictionary.lookup b'.1.name)
    (h : List.Forall₂ (fun b b' => dimensionDictionary.lookup b.1.name =
      dimensionDictionary.lookup b'.1.name ∧ b.2 = b'.2) c.bases c'.bases) (x : ℚ) (ρ : ℕ → ℕ) :
    ∃ r, (Quantity.mk x (.compound c)).convertTo fs ρ (.compound c') = .ok r := by
  have gc := built_good hc
  have gc' := built_good hc'
  have hf : List.Forall₂ (fun b b' : Str × ℤ => dimensionDictionary.lookup b.1 =
      dimensionDictionary.lookup b'.1 ∧ b.2 = b'.2) (c.bases.map fun b => (b.1.name, b.2))
      (c'.bases.map fun b => (b.1.name, b.2)) := by
    rw [List.forall₂_map_left_iff, List.forall₂_map_right_iff]
    exact h
  obtain ⟨r, hr⟩ := dimensionsFrom_distinct (c.bases.map fun b => (b.1.name, b.2)) []
    (by
      intro b hb
      obtain ⟨y, hy, rfl⟩ := List.mem_map.1 hb
      obtain ⟨d, hd, _⟩ := hS.dims y.1 (gc.1 y hy)
      exact ⟨d, hd⟩)
    (by rw [List.pairwise_map]; exact hd) (by simp)
  have h1 : (BUnit.compound c).dimension =
      .ok (fraction [] (r.map fun b => ([b.1], b.2))) := by
    rw [compound_dimension, hr]; rfl
  have h2 : (BUnit.compound c').dimension =
      .ok (fraction [] (r.map fun b => ([b.1], b.2))) := by
    rw [compound_dimension, ← dimensionsFrom_congr _ _ hf, hr]; rfl
  obtain ⟨q, hq, _⟩ := convertTo_of_to (ρ := ρ) (to_eq hS hfs x gc gc' (sameDimension_of h1 h2))
  exact ⟨q, hq⟩

example : ∃ c c' : Compound, Built registry (.compound c) ∧ Built registry (.compound c') ∧
    (c.bases.Pairwise fun b b' =>
      dimensionDictionary.lookup b.1.name ≠ dimensionDictionary.lookup b'.1.name) ∧
    List.Forall₂ (fun b b' => dimensionDictionary.lookup b.1.name =
      dimensionDictionary.lookup b'.1.name ∧ b.2 = b'.2) c.bases c'.bases ∧ c.bases ≠ [] := by
  refine ⟨⟨1, [(km, 1), (hr, -2)], false⟩, ⟨1, [(m, 1), (s, -2)], false⟩,
    ⟨.div (.unit km) (.pow (.unit hr) 2), by decide +kernel, by decide +kernel⟩,
    ⟨.div (.unit m) (.pow (.unit s) 2), by decide +kernel, by decide +kernel⟩,
    by decide +kernel, ?_, by simp⟩
  exact .cons (by decide +kernel) (.cons (by decide +kernel) .nil)

include hS in
/-- C31 fails for the order of factors: `a * b` and `b * a` have the same dimension, but neither
converts to the other, for all named units of different dimensions. -/
theorem C31_order_matters (a b : NamedUnit) (ha : a ∈ S) (hb : b ∈ S) (da db : Char)
    (hda : dimensionDictionary.lookup a.name = some da)
    (hdb : dimensionDictionary.lookup b.name = some db) (hne : da ≠ db) (x : ℚ) (ρ : ℕ → ℕ) :
    (∀ d, ((BUnit.named a).mul (.named b)).dim d = ((BUnit.named b).mul (.named a)).dim d) ∧
    (Quantity.mk x ((BUnit.named a).mul (.named b))).convertTo fs ρ
      ((BUnit.named b).mul (.named a)) = .error .valueError := by
  have hid : a.id ≠ b.id := by
    intro e
    have := hS.ids a ha b hb e
    subst this
    rw [hda] at hdb
    exact hne (Option.some.inj hdb)
  rw [mul_bases_two hid, mul_bases_two (Ne.symm hid)]
  constructor
  · intro d
    simp only [BUnit.dim, List.map_cons, List.map_nil, List.sum_cons, List.sum_nil]
    ring
  · have hdim : ∀ (x y : NamedUnit) (dx dy : Char), dimensionDictionary.lookup x.name = some dx →
        dimensionDictionary.lookup y.name = some dy → dx ≠ dy →
        (BUnit.compound ⟨1, [(x, 1), (y, 1)], false⟩).dimension = .ok [dx, ' ', dy] := by
      intro x y dx dy hx hy hxy
      rw [compound_dimension]
      simp only [List.map_cons, List.map_nil, dimensionsFrom, hx, addDimension, hy, if_neg hxy,
        Except.map]
      simp [fraction, token, joinSpace, List.intercalate_cons_cons, List.intercalate_singleton]
    unfold Quantity.convertTo
    simp only [hdim a b da db hda hdb hne, hdim b a db da hdb hda (Ne.symm hne)]
    rw [if_pos]
    intro e
    simp only [List.cons.injEq] at e
    exact hne e.1

example : (Quantity.mk 1 ((BUnit.named m).mul (.named s))).convertTo (fmtFixed 6) id
    ((BUnit.named s).mul (.named m)) = .error .valueError := by decide +kernel

include hS in
/-- C31 fails for cancelling dimensions: the quotient of two different named units of one
dimension cannot be converted to any unit, not even to itself. -/
theorem C31_cancelled_dimension (a b : NamedUnit) (ha : a ∈ S) (hb : b ∈ S) (hab : a ≠ b)
    (hd : dimensionDictionary.lookup a.name = dimensionDictionary.lookup b.name) (x : ℚ)
    (ρ : ℕ → ℕ) (v : BUnit) :
    (Quantity.mk x ((BUnit.named a).div (.named b))).convertTo fs ρ v = .error .attributeError := by
  have hid : a.id ≠ b.id := fun e => hab (hS.ids a ha b hb e)
  obtain ⟨d, had, _⟩ := hS.dims a ha
  have hbd : dimensionDictionary.lookup b.name = some d := by rw [← hd, had]
  have hdim : ((BUnit.named a).div (.named b)).dimension = .error .attributeError := by
    rw [div_bases_two hid, compound_dimension]
    simp only [List.map_cons, List.map_nil, dimensionsFrom, had, hbd, addDimension]
    simp [Except.map]
  unfold Quantity.convertTo
  simp only [hdim]

example : (Quantity.mk 1 ((BUnit.named km).div (.named m))).convertTo (fmtFixed 6) id
    ((BUnit.named km).div (.named m)) = .error .attributeError := by decide +kernel

/-! ### C32 -/

include hS in
/-- C32: exponents of a product. -/
theorem C32_product_exponents (u v : BUnit) (hu : Built S u) (hv : Built S v) :
    Built S (u.mul v) ∧ ∀ n, (u.mul v).exponent n = u.exponent n + v.exponent n := by
  refine ⟨?_, mul_expo hS u v (built_good hu) (built_good hv)⟩
  obtain ⟨e, he, rfl⟩ := hu
  obtain ⟨e', he', rfl⟩ := hv
  refine ⟨.mul e e', ?_, rfl⟩
  intro n hn
  rcases List.mem_append.1 hn with h | h
  · exact he n h
  · exact he' n h

include hS in
/-- C32: multiplying by a dimensionless unit changes no exponent, and multiplying by a named unit
over itself returns the very same unit. -/
theorem C32_dimensionless_factor (u v : BUnit) (hu : Built S u) (hv : Built S v)
    (h : ∀ n, v.exponent n = 0) (a : NamedUnit) :
    (∀ n, (u.mul v).exponent n = u.exponent n) ∧ (∀ n, (v.mul u).exponent n = u.exponent n) ∧
    u.mul ((BUnit.named a).div (.named a)) = u := by
  refine ⟨fun n => ?_, fun n => ?_, ?_⟩
  · rw [mul_expo hS u v (built_good hu) (built_good hv), h n, add_zero]
  · rw [mul_expo hS v u (built_good hv) (built_good hu), h n, zero_add]
  · have : ((BUnit.named a).div (.named a)).isUnity = true := by
      simp [BUnit.div, BUnit.isUnity, Compound.init, expandAndCollect, collectStep, hasId,
        handleRepeated]
    rw [BUnit.mul, if_pos this]

example : ((((BUnit.named m).pow 2).div (.named s)).mul (.named s)).exponent m = 2 ∧
    ((((BUnit.named m).pow 2).div (.named s)).mul (.named s)).exponent s = 0 ∧
    Built registry (((BUnit.named m).pow 2).div (.named s)) := by
  refine ⟨by decide +kernel, by decide +kernel, ⟨.div (.pow (.unit m) 2) (.unit s), by
    decide +kernel, rfl⟩⟩

/-! ### C33 -/

include hS in
/-- C33, exactly: a quotient by a named unit subtracts exponents; a quotient by a compound unit
subtracts them only for the units the dividend does not list, and adds them for the others. -/
theorem C33_quotient_exponents (u v : BUnit) (hu : Built S u) (hv : Built S v) (n : NamedUnit)
    (hn : n ∈ S) :
    ((∃ a, v = .named a) → (u.div v).exponent n = u.exponent n - v.exponent n) ∧
    ((∃ c, v = .compound c) → ¬ u.lists n → (u.div v).exponent n = u.exponent n - v.exponent n) ∧
    ((∃ c, v = .compound c) → u.lists n → (u.div v).exponent n = u.exponent n + v.exponent n) := by
  have gu := built_good hu
  have gv := built_good hv
  have key := init_two_expo hS 1 u v (-1) gu gv n
  refine ⟨?_, ?_, ?_⟩
  · rintro ⟨a, rfl⟩
    rw [BUnit.div, key, coeff]; ring
  · rintro ⟨c, rfl⟩ h
    rw [BUnit.div, key, coeff, if_neg (fun e => h ((lists_iff hS gu hn).1 e))]; ring
  · rintro ⟨c, rfl⟩ h
    rw [BUnit.div, key, coeff, if_pos ((lists_iff hS gu hn).2 h)]; ring

include hS in
/-- C33 when the divisor is a named unit or shares no named unit with the dividend. -/
theorem C33_quotient_partial (u v : BUnit) (hu : Built S u) (hv : Built S v)
    (h : (∃ a, v = .named a) ∨ ∀ n, u.lists n → v.exponent n = 0) (n : NamedUnit) (hn : n ∈ S) :
    (u.div v).exponent n = u.exponent n - v.exponent n := by
  obtain ⟨h1, h2, h3⟩ := C33_quotient_exponents hS u v hu hv n hn
  rcases h with h | h
  · exact h1 h
  · cases v with
    | named a => exact h1 ⟨a, rfl⟩
    | compound c =>
      by_cases hl : u.lists n
      · rw [h3 ⟨c, rfl⟩ hl, h n hl]; ring
      · exact h2 ⟨c, rfl⟩ hl

example : Built registry ((BUnit.named km).div (.named s)) ∧
    Built registry ((BUnit.named hr).mul (.named deg)) ∧
    (∀ n, ((BUnit.named km).div (.named s)).lists n →
      ((BUnit.named hr).mul (.named deg)).exponent n = 0) := by
  refine ⟨⟨.div (.unit km) (.unit s), by decide +kernel, rfl⟩,
    ⟨.mul (.unit hr) (.unit deg), by decide +kernel, rfl⟩, ?_⟩
  have h1 : (BUnit.named km).div (.named s) = .compound ⟨1, [(km, 1), (s, -1)], false⟩ := by
    decide +kernel
  rw [h1]
  rintro n ⟨p, hp⟩
  simp only [List.mem_cons, Prod.mk.injEq, List.not_mem_nil, or_false] at hp
  rcases hp with ⟨rfl, _⟩ | ⟨rfl, _⟩ <;> decide +kernel

include hS in
/-- C33 fails: a compound unit divided by itself doubles every exponent, so unless it lists only
zero powers the result is not dimensionless. -/
theorem C33_self_quotient (c : Compound) (hc : Built S (.compound c)) (n : NamedUnit) (hn : n ∈ S) :
    ((BUnit.compound c).div (.compound c)).exponent n = 2 * (BUnit.compound c).exponent n := by
  obtain ⟨_, h2, h3⟩ := C33_quotient_exponents hS _ _ hc hc n hn
  by_cases hl : (BUnit.compound c).lists n
  · rw [h3 ⟨c, rfl⟩ hl]; ring
  · have h0 : (BUnit.compound c).exponent n = 0 := by
      have := (lists_iff hS (built_good hc) hn).not.2 hl
      rw [exponent_eq]
      exact lexpo_of_not_mem (by simpa using this)
    rw [h2 ⟨c, rfl⟩ hl, h0]; ring

/-- `(m / s) / (m / s)` is displayed as `m2 / s2`. -/
example : (((BUnit.named m).div (.named s)).div ((BUnit.named m).div (.named s))).str (fmtFixed 6) =
    "m2 / s2".toList := by decide +kernel

/-! ### C34 -/

/-- C34: exponents of a power. -/
theorem C34_power_exponents_partial (u : BUnit) (hu : Built S u) (k : ℤ) :
    Built S (u.pow k) ∧ ∀ n, (u.pow k).exponent n = k * u.exponent n := by
  refine ⟨?_, fun n => init_one_expo (S := S) 1 u k (built_good hu) n⟩
  obtain ⟨e, he, rfl⟩ := hu
  exact ⟨.pow e k, he, rfl⟩

/-- C34: the zeroth power of a named unit has the dimension string of a pure number. -/
theorem C34_zeroth_power_named_partial (a : NamedUnit) :
    ((BUnit.named a).pow 0).dimension = .ok ['1'] := by
  simp [BUnit.pow, Compound.init, BUnit.dimension, BUnit.dimensions, BUnit.bases, dimensionsFrom,
    Except.map, fraction]

include hS in
/-- C34 fails to make zeroth powers of compound units interchangeable with pure numbers: the
zeroth power of `a / b`, for named units of different dimensions, still lists both. -/
theorem C34_zeroth_power_compound (a b : NamedUnit) (ha : a ∈ S) (hb : b ∈ S) (da db : Char)
    (hda : dimensionDictionary.lookup a.name = some da)
    (hdb : dimensionDictionary.lookup b.name = some db) (hne : da ≠ db) (x : ℚ) (ρ : ℕ → ℕ) :
    (Quantity.mk x (((BUnit.named a).div (.named b)).pow 0)).convertTo fs ρ
      ((BUnit.named a).pow 0) = .error .valueError := by
  have hid : a.id ≠ b.id := by
    intro e
    have := hS.ids a ha b hb e
    subst this
    rw [hda] at hdb
    exact hne (Option.some.inj hdb)
  have h1 : ((BUnit.named a).div (.named b)).pow 0 = .compound ⟨1, [(a, 0), (b, 0)], false⟩ := by
    rw [div_bases_two hid]
    simp [BUnit.pow, Compound.init, expandAndCollect, collectStep, addNested, hasId, hid]
  have h2 : (BUnit.compound ⟨1, [(a, 0), (b, 0)], false⟩).dimension =
      .ok ['1', ' ', '/', ' ', da, '0', ' ', db, '0'] := by
    rw [compound_dimension]
    simp only [List.map_cons, List.map_nil, dimensionsFrom, hda, addDimension, hdb, if_neg hne,
      Except.map]
    simp [fraction, token, joinSpace, List.intercalate_cons_cons, List.intercalate_singleton,
      Celest.Text.natStr]
  rw [h1]
  unfold Quantity.convertTo
  simp only [h2, C34_zeroth_power_named_partial]
  rw [if_pos]
  intro e
  simp at e

example : ((((BUnit.named m).div (.named s)).pow 3)).exponent s = -3 ∧
    ((((BUnit.named m).div (.named s)).pow 0)).dimension = .ok "1 / L0 T0".toList := by
  decide +kernel

/-! ### C39 -/

/-- C39, for everything that reads a unit through its names: a deep copy has the same text,
dimension and size, and converts to the same numbers. -/
theorem C39_copy_converts_alike_partial (ρ : ℕ → ℕ) (u v : BUnit) (x : ℚ) :
    (u.copy ρ).str fs = u.str fs ∧ (u.copy ρ).dimension = u.dimension ∧
    (Quantity.mk x (u.copy ρ)).to fs v = (Quantity.mk x u).to fs v := by
  refine ⟨?_, copy_dimension ρ u, copy_to fs ρ x u v⟩
  cases u with
  | named n => rfl
  | compound c => simp [BUnit.copy, BUnit.str, Compound.str, NamedUnit.copy, Function.comp_def]

include hS in
/-- C39 fails for unit arithmetic: converting a quantity to its own unit `a` yields a unit object
that no longer cancels against `a`.  The quotient has no dimension, while that of `a` by `a` has;
the product is written `a a` instead of `a2`. -/
theorem C39_copy_does_not_cancel (a : NamedUnit) (ha : a ∈ S) (ρ : ℕ → ℕ) (hρ : ρ a.id ≠ a.id)
    (x : ℚ) : ∃ a' : NamedUnit,
    (Quantity.mk x (.named a)).convertTo fs ρ (.named a) = .ok ⟨x, .named a'⟩ ∧
    ((BUnit.named a').div (.named a)).dimension = .error .attributeError ∧
    ((BUnit.named a).div (.named a)).dimension = .ok ['1'] ∧
    ((BUnit.named a').mul (.named a)).str fs = a.name ++ ' ' :: a.name := by
  obtain ⟨d, hd, _⟩ := hS.dims a ha
  have hc : (BUnit.named (a.copy ρ)).dimension = (BUnit.named a).dimension :=
    copy_dimension ρ (.named a)
  have hname : (a.copy ρ).name = a.name := rfl
  refine ⟨a.copy ρ, ?_, ?_, ?_, ?_⟩
  · unfold Quantity.convertTo
    simp only [named_dimension hS ha hd, ne_eq, not_true, if_false]
    rfl
  · rw [div_bases_two (show (a.copy ρ).id ≠ a.id from hρ), compound_dimension]
    simp only [List.map_cons, List.map_nil, dimensionsFrom, hname, hd, addDimension]
    simp [Except.map]
  · simp [BUnit.div, Compound.init, expandAndCollect, collectStep, hasId, handleRepeated,
      BUnit.dimension, BUnit.dimensions, BUnit.bases, dimensionsFrom, Except.map, fraction]
  · rw [mul_bases_two (show (a.copy ρ).id ≠ a.id from hρ)]
    simp [BUnit.str, Compound.str, fraction, token, joinSpace, List.intercalate_cons_cons,
      List.intercalate_singleton, hname]

example : m ∈ registry ∧ (· + 100) m.id ≠ m.id := by decide +kernel

/-! ### C40 -/

include hS in
/-- C40 for a multiple of a named unit: one of the new unit is `k` of the old. -/
theorem C40_multiple_of_named_partial (a : NamedUnit) (ha : a ∈ S) (i : ℕ) (name : Str)
    (hname : name ≠ a.name) (k x : ℚ) :
    (Quantity.mk x (.named (defineUnit i name (some ((BUnit.named a).smul k))))).to fs (.named a) =
      .ok (x * k) := by
  obtain ⟨d, hd, _⟩ := hS.dims a ha
  have hdef : defineUnit i name (some ((BUnit.named a).smul k)) =
      ⟨i, name, k * a.scale, [(a.name, 1)]⟩ := by
    simp [defineUnit, BUnit.smul, Compound.init]
  have hdim : (BUnit.named ⟨i, name, k * a.scale, [(a.name, 1)]⟩).dimension = .ok [d] := by
    simp only [BUnit.dimension, BUnit.dimensions, BUnit.bases, dimensionsFrom, hd, addDimension,
      Except.map, List.map_cons, List.map_nil, fraction_one]
  have hrepr : (BUnit.named ⟨i, name, k * a.scale, [(a.name, 1)]⟩).repr fs ≠
      (BUnit.named a).repr fs := by
    rw [repr_named, repr_named]
    intro e
    exact hname (wrap_injective _ _ _ _ e)
  have hp := hS.pos a ha
  rw [hdef]
  unfold Quantity.to Quantity.convertTo
  simp only [hdim, named_dimension hS ha hd, ne_eq, not_true, if_false]
  rw [if_pos hrepr, if_neg (show unitScale (.named a) ≠ 0 from hp.ne')]
  simp only [Except.map, unitScale]
  congr 1
  field_simp

example : "nmi".toList ≠ m.name ∧ m ∈ registry ∧ (Quantity.mk 2 (.named (defineUnit 50 "nmi".toList
    (some ((BUnit.named m).smul 1852))))).to (fmtFixed 6) (.named m) = .ok 3704 := by
  decide +kernel

include hS in
/-- C40 fails for compound definitions: a unit defined as `a / b` has size 1 whatever the sizes
of `a` and `b`, so it converts to `a / b` by `b.scale / a.scale` instead of 1. -/
theorem C40_compound_definition (a b : NamedUnit) (ha : a ∈ S) (hb : b ∈ S) (da db : Char)
    (hda : dimensionDictionary.lookup a.name = some da)
    (hdb : dimensionDictionary.lookup b.name = some db) (hne : da ≠ db) (i : ℕ) (name : Str)
    (x : ℚ) :
    (Quantity.mk x (.named (defineUnit i name (some ((BUnit.named a).div (.named b)))))).to fs
      ((BUnit.named a).div (.named b)) = .ok (x * (b.scale / a.scale)) := by
  have hid : a.id ≠ b.id := by
    intro e
    have := hS.ids a ha b hb e
    subst this
    rw [hda] at hdb
    exact hne (Option.some.inj hdb)
  rw [div_bases_two hid]
  have hdim : (BUnit.compound ⟨1, [(a, 1), (b, -1)], false⟩).dimension =
      .ok [da, ' ', '/', ' ', db] := by
    rw [compound_dimension]
    simp only [List.map_cons, List.map_nil, dimensionsFrom, hda, addDimension, hdb, if_neg hne,
      Except.map]
    simp [fraction, token, joinSpace, List.intercalate_cons_cons, List.intercalate_singleton]
  have hdim' : (BUnit.named (defineUnit i name
      (some (.compound ⟨1, [(a, 1), (b, -1)], false⟩)))).dimension = .ok [da, ' ', '/', ' ', db] := by
    rw [← hdim]; rfl
  have hrepr : (BUnit.named (defineUnit i name (some (.compound ⟨1, [(a, 1), (b, -1)], false⟩)))).repr
      fs ≠ (BUnit.compound ⟨1, [(a, 1), (b, -1)], false⟩).repr fs := by
    rw [repr_named, repr_compound]
    exact wrap_head _ _ _ _ _ _ _ _ (by decide)
  have hpa := hS.pos a ha
  have hpb := hS.pos b hb
  have hsc : unitScale (.compound ⟨1, [(a, 1), (b, -1)], false⟩) = a.scale / b.scale := by
    simp [unitScale, div_eq_mul_inv]
  have hsn : unitScale (.named (defineUnit i name
      (some (.compound ⟨1, [(a, 1), (b, -1)], false⟩)))) = 1 := rfl
  unfold Quantity.to Quantity.convertTo
  simp only [hdim, hdim', ne_eq, not_true, if_false]
  rw [if_pos hrepr, hsc, hsn, if_neg (div_pos hpa hpb).ne']
  simp only [Except.map]
  congr 2
  field_simp

/-- `kph`, defined as `km / hr`: 3.6 of them are reported to be 12.96 km / hr. -/
example : (Quantity.mk (36 / 10) (.named (defineUnit 50 "kph".toList
    (some ((BUnit.named km).div (.named hr)))))).to (fmtFixed 6) ((BUnit.named km).div (.named hr)) =
    .ok (1296 / 100) := by decide +kernel

end

end Celest.Units
