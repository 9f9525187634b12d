/-
C35-C38, C64: arithmetic and comparison of quantities.
-/
import Verif.Units.Registry
import Verif.Tactic

namespace Celest.Units

open Celest.Text (Str fmtFixed)

section
variable {S : List NamedUnit} (hS : UnitSystem S) {fs : ℚ → Str} (hfs : FloatStr fs)

/-! ### Sizes and dimensions of results -/

include hS in
theorem size_of_expo {u v w : BUnit} (hu : Good S u) (hv : Good S v) (hw : Good S w) (k l : ℤ)
    (h : ∀ n ∈ S, w.exponent n = k * u.exponent n + l * v.exponent n) :
    w.size = u.size ^ k * v.size ^ l ∧ ∀ d, w.dim d = k * u.dim d + l * v.dim d := by
  constructor
  · rw [size_eq, size_eq, size_eq, unitScale_eq hS hu, unitScale_eq hS hv, unitScale_eq hS hw,
      ← Finset.prod_zpow, ← Finset.prod_zpow, ← Finset.prod_mul_distrib]
    refine Finset.prod_congr rfl fun n hn => ?_
    have h0 : n.scale ≠ 0 := ne_of_gt (hS.pos n (List.mem_toFinset.1 hn))
    rw [h n (List.mem_toFinset.1 hn), zpow_add₀ h0, zpow_mul', zpow_mul', ]
  · intro d
    rw [dim_eq hu, dim_eq hv, dim_eq hw, Finset.mul_sum, Finset.mul_sum, ← Finset.sum_add_distrib]
    refine Finset.sum_congr rfl fun n hn => ?_
    rw [h n (List.mem_toFinset.1 hn)]; ring

/-! ### C35 -/

include hS hfs in
/-- C35 for products: whenever the product of two quantities is returned, its value in base units
is the product of the values and its dimension the sum of the dimensions.  Missing: the factor of
a numeric multiple, which `size` (like the library) does not include. -/
theorem C35_product_partial (u v : BUnit) (hu : Built S u) (hv : Built S v) (x y : ℚ) (r : Quantity)
    (h : (Quantity.mk x u).mul fs (.quantity ⟨y, v⟩) = .ok r) :
    r.data * r.unit.size = (x * u.size) * (y * v.size) ∧
    ∀ d, r.unit.dim d = u.dim d + v.dim d := by
  have gu := built_good hu
  have gv := built_good hv
  simp only [Quantity.mul] at h
  cases hsd : sameDimension u v with
  | error e => rw [hsd] at h; cases h
  | ok b =>
    rw [hsd] at h
    cases b with
    | true =>
      dsimp only at h
      rw [to_eq hS hfs y gv gu (sameDimension_symm hsd)] at h
      cases h
      have hup := unitScale_pos hS gu
      obtain ⟨h1, h2⟩ := size_of_expo hS gu gu (init_one_good (S := S) 1 u 2 gu) 1 1 (by
        intro n _
        rw [init_one_expo (S := S) 1 u 2 gu]; ring)
      have hdim : ∀ d, u.dim d = v.dim d := by
        obtain ⟨s, e1, e2⟩ := sameDimension_true hsd
        exact dim_of_dimension hS gu gv e1 e2
      constructor
      · rw [BUnit.pow, h1]
        simp only [zpow_one]
        rw [size_eq u]
        field_simp
      · intro d
        have := h2 d
        rw [BUnit.pow, this, ← hdim d]; ring
    | false =>
      dsimp only at h
      cases h
      obtain ⟨h1, h2⟩ := size_of_expo hS gu gv (mul_good u v gu gv) 1 1 (by
        intro n _
        rw [mul_expo hS u v gu gv]; ring)
      constructor
      · rw [h1]; simp only [zpow_one]; ring
      · intro d
        rw [h2 d]; ring

/-- For formulas without multiples and bad quotients, `size` is the formula's factor. -/
theorem C35_size_is_factor (hS : UnitSystem S) (e : UExpr) (he : ∀ n ∈ e.atoms, n ∈ S)
    (hs : e.Safe) : e.eval.size = e.factor := by
  rw [size_eq, unitScale_eval hS e he hs]

example : (Quantity.mk 2 (.named km)).mul (fmtFixed 6) (.quantity ⟨500, .named m⟩) =
    .ok ⟨1, (BUnit.named km).pow 2⟩ ∧
    (Quantity.mk 2 (.named km)).mul (fmtFixed 6) (.quantity ⟨5, .named s⟩) =
    .ok ⟨10, (BUnit.named km).mul (.named s)⟩ := by decide +kernel

include hS hfs in
/-- C35 for quotients, when the units have different dimension strings and the divisor is a named
unit or shares none with the dividend, or when they have the same one and the dividend's unit is
named.  Missing: the quotients of C33. -/
theorem C35_quotient_partial (u v : BUnit) (hu : Built S u) (hv : Built S v) (x y : ℚ) (hy : y ≠ 0)
    (r : Quantity) (h : (Quantity.mk x u).div fs (.quantity ⟨y, v⟩) = .ok r)
    (hsafe : (sameDimension u v = .ok true ∧ ∃ a, u = .named a) ∨
      (sameDimension u v = .ok false ∧ ((∃ a, v = .named a) ∨ ∀ n, u.lists n → v.exponent n = 0))) :
    r.data * r.unit.size = (x * u.size) / (y * v.size) ∧
    ∀ d, r.unit.dim d = u.dim d - v.dim d := by
  have gu := built_good hu
  have gv := built_good hv
  have hup := unitScale_pos hS gu
  have hvp := unitScale_pos hS gv
  simp only [Quantity.div] at h
  rcases hsafe with ⟨hsd, a, rfl⟩ | ⟨hsd, hq⟩
  · rw [hsd] at h
    dsimp only at h
    rw [to_eq hS hfs y gv gu (sameDimension_symm hsd)] at h
    have hne : y * (v.size / (BUnit.named a).size) ≠ 0 := by
      rw [size_eq, size_eq]
      exact mul_ne_zero hy (div_ne_zero hvp.ne' hup.ne')
    simp only [pyDiv, if_neg hne, Except.map, Except.ok.injEq] at h
    subst h
    obtain ⟨h1, h2⟩ := size_of_expo hS gu gu
      (init_two_good (S := S) 1 (.named a) (.named a) (-1) gu gu) 1 (-1) (by
        intro n _
        rw [init_two_expo hS 1 _ _ (-1) gu gu, coeff]; ring)
    have hdim : ∀ d, (BUnit.named a).dim d = v.dim d := by
      obtain ⟨s, e1, e2⟩ := sameDimension_true hsd
      exact dim_of_dimension hS gu gv e1 e2
    constructor
    · rw [BUnit.div, h1]
      rw [← size_eq] at hup hvp
      simp only [zpow_one, zpow_neg]
      field_simp [hup.ne', hvp.ne']
    · intro d
      rw [BUnit.div, h2 d, ← hdim d]; ring
  · rw [hsd] at h
    dsimp only at h
    simp only [pyDiv, if_neg hy, Except.map, Except.ok.injEq] at h
    subst h
    obtain ⟨h1, h2⟩ := size_of_expo hS gu gv (init_two_good (S := S) 1 u v (-1) gu gv) 1 (-1) (by
      intro n hn
      rw [init_two_expo hS 1 u v (-1) gu gv]
      rcases hq with ⟨a, rfl⟩ | hq
      · rw [coeff]; ring
      · by_cases hl : hasId n.id u.entries = true
        · rw [hq n ((lists_iff hS gu hn).1 hl)]; ring
        · cases v <;> simp only [coeff, if_neg hl] <;> ring)
    constructor
    · rw [BUnit.div, h1]
      rw [← size_eq] at hup hvp
      simp only [zpow_one, zpow_neg]
      field_simp [hup.ne', hvp.ne']
    · intro d
      rw [BUnit.div, h2 d]; ring

example : (Quantity.mk 10 (.named km)).div (fmtFixed 6) (.quantity ⟨500, .named m⟩) =
    .ok ⟨20, .compound ⟨1, [], true⟩⟩ ∧
    sameDimension (.named km) (.named m) = .ok true ∧
    sameDimension (.named km) (.named s) = .ok false ∧
    (Quantity.mk 10 (.named km)).div (fmtFixed 6) (.quantity ⟨5, .named s⟩) =
    .ok ⟨2, (BUnit.named km).div (.named s)⟩ := by decide +kernel

include hS hfs in
/-- C35 fails for quotients of quantities in compound units of one dimension: the ratio, a pure
number, is given the square of the unit. -/
theorem C35_ratio_of_compounds (c : Compound) (v : BUnit) (hc : Built S (.compound c))
    (hv : Built S v) (x y : ℚ) (hy : y ≠ 0) (hsd : sameDimension (.compound c) v = .ok true) :
    ∃ r, (Quantity.mk x (.compound c)).div fs (.quantity ⟨y, v⟩) = .ok r ∧
      ∀ n, r.unit.exponent n = 2 * (BUnit.compound c).exponent n := by
  have gu := built_good hc
  have gv := built_good hv
  have hne : y * (v.size / (BUnit.compound c).size) ≠ 0 := by
    rw [size_eq, size_eq]
    exact mul_ne_zero hy (div_ne_zero (unitScale_pos hS gv).ne' (unitScale_pos hS gu).ne')
  refine ⟨⟨x / (y * (v.size / (BUnit.compound c).size)),
    (BUnit.compound c).div (.compound c)⟩, ?_, ?_⟩
  · simp only [Quantity.div, hsd]
    rw [to_eq hS hfs y gv gu (sameDimension_symm hsd)]
    simp only [pyDiv, if_neg hne, Except.map]
  · intro n
    dsimp only
    rw [BUnit.div, init_two_expo hS 1 _ _ (-1) gu gu, coeff]
    by_cases hl : hasId n.id (BUnit.compound c).entries = true
    · rw [if_pos hl]; ring
    · have h0 : (BUnit.compound c).exponent n = 0 := by
        rw [exponent_eq]; exact lexpo_of_not_mem (by simpa using hl)
      rw [h0]; ring

example : ((Quantity.mk 20 ((BUnit.named m).div (.named s))).div (fmtFixed 6)
    (.quantity ⟨10, (BUnit.named m).div (.named s)⟩)).map (fun r => (r.data, r.unit.str (fmtFixed 6))) =
    .ok (2, "m2 / s2".toList) := by decide +kernel

/-! ### C36 -/

include hS hfs in
/-- C36: sums and differences are exact in base units and keep the first operand's unit.  Missing:
the factor of a numeric multiple (see `C36_multiples`). -/
theorem C36_sums_partial (u v : BUnit) (hu : Built S u) (hv : Built S v) (x y : ℚ)
    (hsd : sameDimension u v = .ok true) :
    (∃ z, (Quantity.mk x u).add fs (.quantity ⟨y, v⟩) = .ok ⟨z, u⟩ ∧
      z * u.size = x * u.size + y * v.size) ∧
    (∃ z, (Quantity.mk x u).sub fs (.quantity ⟨y, v⟩) = .ok ⟨z, u⟩ ∧
      z * u.size = x * u.size - y * v.size) ∧
    (Quantity.mk x u).sub fs (.quantity ⟨x, u⟩) = .ok ⟨0, u⟩ := by
  have gu := built_good hu
  have gv := built_good hv
  have hup := unitScale_pos hS gu
  have hadd : ∀ y, (Quantity.mk x u).add fs (.quantity ⟨y, v⟩) =
      .ok ⟨x + y * (v.size / u.size), u⟩ := by
    intro y
    simp only [Quantity.add, hsd]
    rw [to_eq hS hfs y gv gu (sameDimension_symm hsd)]
  refine ⟨⟨_, hadd y, ?_⟩, ⟨_, hadd (-y), ?_⟩, ?_⟩
  · rw [size_eq u]; field_simp
  · rw [size_eq u]; field_simp; ring
  · have huu : sameDimension u u = .ok true := sameDimension_trans hsd (sameDimension_symm hsd)
    simp only [Quantity.sub, Arg.neg, Quantity.neg, Quantity.add, huu]
    rw [to_eq hS hfs (-x) gu gu huu, size_eq, div_self hup.ne']
    simp

include hS hfs in
/-- C36: addition is commutative and associative in value. -/
theorem C36_commutative_associative_partial (u v w : BUnit) (hu : Built S u) (hv : Built S v)
    (hw : Built S w) (x y z : ℚ) (huv : sameDimension u v = .ok true)
    (hvw : sameDimension v w = .ok true) :
    (∃ a b, (Quantity.mk x u).add fs (.quantity ⟨y, v⟩) = .ok ⟨a, u⟩ ∧
      (Quantity.mk y v).add fs (.quantity ⟨x, u⟩) = .ok ⟨b, v⟩ ∧
      (Quantity.mk b v).to fs u = .ok a) ∧
    ∃ a b c, (Quantity.mk x u).add fs (.quantity ⟨y, v⟩) = .ok ⟨a, u⟩ ∧
      (Quantity.mk y v).add fs (.quantity ⟨z, w⟩) = .ok ⟨b, v⟩ ∧
      (Quantity.mk a u).add fs (.quantity ⟨z, w⟩) = .ok ⟨c, u⟩ ∧
      (Quantity.mk x u).add fs (.quantity ⟨b, v⟩) = .ok ⟨c, u⟩ := by
  have gu := built_good hu
  have gv := built_good hv
  have gw := built_good hw
  have hup := unitScale_pos hS gu
  have hvp := unitScale_pos hS gv
  have huw := sameDimension_trans huv hvw
  have hadd : ∀ (p q : BUnit) (s t : ℚ), Good S p → Good S q → sameDimension p q = .ok true →
      (Quantity.mk s p).add fs (.quantity ⟨t, q⟩) = .ok ⟨s + t * (q.size / p.size), p⟩ := by
    intro p q s t gp gq h
    simp only [Quantity.add, h]
    rw [to_eq hS hfs t gq gp (sameDimension_symm h)]
  constructor
  · refine ⟨_, _, hadd u v x y gu gv huv, hadd v u y x gv gu (sameDimension_symm huv), ?_⟩
    rw [to_eq hS hfs _ gv gu (sameDimension_symm huv), size_eq u, size_eq v]
    congr 1
    field_simp
    ring
  · refine ⟨_, _, _, hadd u v x y gu gv huv, hadd v w y z gv gw hvw, hadd u w _ z gu gw huw, ?_⟩
    rw [hadd u v x _ gu gv huv, size_eq u, size_eq v]
    congr 2
    field_simp
    ring

example : sameDimension (.named km) (.named m) = .ok true ∧
    sameDimension (.named m) (.named ft) = .ok true ∧
    (Quantity.mk 1 (.named km)).add (fmtFixed 6) (.quantity ⟨500, .named m⟩) =
      .ok ⟨3 / 2, .named km⟩ ∧
    (Quantity.mk 1 (.named km)).sub (fmtFixed 6) (.quantity ⟨500, .named m⟩) =
      .ok ⟨1 / 2, .named km⟩ := by decide +kernel

include hS hfs in
/-- C36 fails for numeric multiples: `x (k u) + y u` is `(x + y) (k u)`, whatever `k` is. -/
theorem C36_multiples (u : BUnit) (hu : Built S u) (k x y : ℚ) (d : Str)
    (hd : u.dimension = .ok d) :
    (Quantity.mk x (u.smul k)).add fs (.quantity ⟨y, u⟩) = .ok ⟨x + y, u.smul k⟩ := by
  have hg := built_good hu
  have hgk : Good S (u.smul k) := init_one_good _ _ _ hg
  have hk : (u.smul k).dimension = .ok d := (smul_dimension hS hg k).trans hd
  have hsd : sameDimension (u.smul k) u = .ok true := sameDimension_of hk hd
  have : (u.smul k).size = u.size := by
    rw [size_eq, size_eq, unitScale_eq hS hgk, unitScale_eq hS hg]
    refine Finset.prod_congr rfl fun n _ => ?_
    rw [BUnit.smul, init_one_expo (S := S) k u 1 hg, one_mul]
  simp only [Quantity.add, hsd]
  rw [to_eq hS hfs y hg hgk (sameDimension_symm hsd), this,
    div_self (by rw [size_eq]; exact (unitScale_pos hS hg).ne'), mul_one]

example : (Quantity.mk 1 ((BUnit.named m).smul 12)).add (fmtFixed 6) (.quantity ⟨1, .named m⟩) =
    .ok ⟨2, (BUnit.named m).smul 12⟩ := by decide +kernel

/-- C36: a plain number is added to (subtracted from) the stored number, in whatever unit. -/
theorem C36_plain_numbers (q : Quantity) (x : ℚ) :
    q.add fs (.number x) = .ok ⟨q.data + x, q.unit⟩ ∧
    q.sub fs (.number x) = .ok ⟨q.data - x, q.unit⟩ ∧
    q.rsub fs (.number x) = .ok ⟨x - q.data, q.unit⟩ := by
  refine ⟨rfl, ?_, ?_⟩
  · simp [Quantity.sub, Arg.neg, Quantity.add, sub_eq_add_neg]
  · simp [Quantity.rsub, Quantity.sub, Arg.neg, Quantity.add, Except.map, Quantity.neg]
    ring

/-! ### C37 -/

include hS hfs in
/-- The comparisons compare values in base units. -/
theorem compare_eq (t : ℚ → ℚ → Bool) (u v : BUnit) (hu : Good S u) (hv : Good S v) (x y : ℚ)
    (hsd : sameDimension u v = .ok true) :
    (Quantity.mk x u).compare fs t (.quantity ⟨y, v⟩) =
      .ok (.bool (t x (y * (v.size / u.size)))) := by
  simp only [Quantity.compare, hsd]
  rw [to_eq hS hfs y hv hu (sameDimension_symm hsd)]

include hS hfs in
/-- C37: for units of one dimension string each comparison is that of the values in base units;
hence exactly one of `<`, `==`, `>` holds, `<=` negates `>`, `>=` negates `<`, and all are
transitive across units.  Missing: the factor of a numeric multiple, as in C36. -/
theorem C37_order_of_values_partial (u v : BUnit) (hu : Built S u) (hv : Built S v) (x y : ℚ)
    (hsd : sameDimension u v = .ok true) :
    (Quantity.mk x u).lt fs (.quantity ⟨y, v⟩) = .ok (.bool (x * u.size < y * v.size)) ∧
    (Quantity.mk x u).eq fs (.quantity ⟨y, v⟩) = .ok (.bool (x * u.size = y * v.size)) ∧
    (Quantity.mk x u).gt fs (.quantity ⟨y, v⟩) = .ok (.bool (y * v.size < x * u.size)) ∧
    (Quantity.mk x u).le fs (.quantity ⟨y, v⟩) = .ok (.bool (x * u.size ≤ y * v.size)) ∧
    (Quantity.mk x u).ge fs (.quantity ⟨y, v⟩) = .ok (.bool (y * v.size ≤ x * u.size)) := by
  have gu := built_good hu
  have gv := built_good hv
  have hup : 0 < u.size := by rw [size_eq]; exact unitScale_pos hS gu
  have e1 : x < y * (v.size / u.size) ↔ x * u.size < y * v.size := by
    rw [← mul_div_assoc, lt_div_iff₀ hup]
  have e2 : x = y * (v.size / u.size) ↔ x * u.size = y * v.size := by
    rw [← mul_div_assoc, eq_div_iff hup.ne']
  have e3 : y * (v.size / u.size) < x ↔ y * v.size < x * u.size := by
    rw [← mul_div_assoc, div_lt_iff₀ hup]
  have h1 : (Quantity.mk x u).lt fs (.quantity ⟨y, v⟩) =
      .ok (.bool (x * u.size < y * v.size)) := by
    rw [Quantity.lt, compare_eq hS hfs _ u v gu gv x y hsd]; simp only [e1]
  have h2 : (Quantity.mk x u).eq fs (.quantity ⟨y, v⟩) =
      .ok (.bool (x * u.size = y * v.size)) := by
    rw [Quantity.eq, compare_eq hS hfs _ u v gu gv x y hsd]; simp only [e2]
  have h3 : (Quantity.mk x u).gt fs (.quantity ⟨y, v⟩) =
      .ok (.bool (y * v.size < x * u.size)) := by
    rw [Quantity.gt, compare_eq hS hfs _ u v gu gv x y hsd]; simp only [e3]
  refine ⟨h1, h2, h3, ?_, ?_⟩
  · rw [Quantity.le, h1, h2, orElse]
    by_cases h : x * u.size = y * v.size
    · simp [h, Cmp.truthy]
    · simp only [h, decide_false, Cmp.truthy, Bool.false_eq_true, if_false]
      congr 2
      rw [decide_eq_decide]
      exact ⟨le_of_lt, fun h' => lt_of_le_of_ne h' h⟩
  · rw [Quantity.ge, h3, h2, orElse]
    by_cases h : x * u.size = y * v.size
    · simp [h, Cmp.truthy]
    · simp only [h, decide_false, Cmp.truthy, Bool.false_eq_true, if_false]
      congr 2
      rw [decide_eq_decide]
      exact ⟨le_of_lt, fun h' => lt_of_le_of_ne h' (Ne.symm h)⟩

example : (Quantity.mk 1 (.named mi)).gt (fmtFixed 6) (.quantity ⟨1, .named km⟩) = .ok (.bool true) ∧
    (Quantity.mk 1 (.named km)).le (fmtFixed 6) (.quantity ⟨1000, .named m⟩) = .ok (.bool true) := by
  decide +kernel

include hS hfs in
/-- C37, the laws of a total order: exactly one of `<`, `==`, `>` is true, `<=` is the negation of
`>` and `>=` of `<`, and `<` and `<=` are transitive across units. -/
theorem C37_total_order_partial (u v w : BUnit) (hu : Built S u) (hv : Built S v) (hw : Built S w)
    (x y z : ℚ) (huv : sameDimension u v = .ok true) (hvw : sameDimension v w = .ok true) :
    (∃ l e g, (Quantity.mk x u).lt fs (.quantity ⟨y, v⟩) = .ok (.bool l) ∧
      (Quantity.mk x u).eq fs (.quantity ⟨y, v⟩) = .ok (.bool e) ∧
      (Quantity.mk x u).gt fs (.quantity ⟨y, v⟩) = .ok (.bool g) ∧
      (Quantity.mk x u).le fs (.quantity ⟨y, v⟩) = .ok (.bool !g) ∧
      (Quantity.mk x u).ge fs (.quantity ⟨y, v⟩) = .ok (.bool !l) ∧
      ((l, e, g) = (true, false, false) ∨ (l, e, g) = (false, true, false) ∨
        (l, e, g) = (false, false, true))) ∧
    ((Quantity.mk x u).lt fs (.quantity ⟨y, v⟩) = .ok (.bool true) →
      (Quantity.mk y v).lt fs (.quantity ⟨z, w⟩) = .ok (.bool true) →
      (Quantity.mk x u).lt fs (.quantity ⟨z, w⟩) = .ok (.bool true)) ∧
    ((Quantity.mk x u).le fs (.quantity ⟨y, v⟩) = .ok (.bool true) →
      (Quantity.mk y v).le fs (.quantity ⟨z, w⟩) = .ok (.bool true) →
      (Quantity.mk x u).le fs (.quantity ⟨z, w⟩) = .ok (.bool true)) := by
  obtain ⟨h1, h2, h3, h4, h5⟩ := C37_order_of_values_partial hS hfs u v hu hv x y huv
  obtain ⟨i1, _, _, i4, _⟩ := C37_order_of_values_partial hS hfs v w hv hw y z hvw
  obtain ⟨j1, _, _, j4, _⟩ := C37_order_of_values_partial hS hfs u w hu hw x z
    (sameDimension_trans huv hvw)
  refine ⟨⟨_, _, _, h1, h2, h3, ?_, ?_, ?_⟩, ?_, ?_⟩
  · rw [h4]
    congr 2
    by_cases h : y * v.size < x * u.size
    · simp [h]
    · simp [h, not_lt.1 h]
  · rw [h5]
    congr 2
    by_cases h : x * u.size < y * v.size
    · simp [h]
    · simp [h, not_lt.1 h]
  · rcases lt_trichotomy (x * u.size) (y * v.size) with h | h | h
    · left; simp [h, h.ne, h.le]
    · right; left; simp [h]
    · right; right; simp [h, h.ne', h.le]
  · rw [h1, i1, j1]
    simp only [Except.ok.injEq, Cmp.bool.injEq, decide_eq_true_eq]
    exact lt_trans
  · rw [h4, i4, j4]
    simp only [Except.ok.injEq, Cmp.bool.injEq, decide_eq_true_eq]
    exact le_trans

include hS hfs in
/-- C37 fails for numeric multiples: `x (k u) == x u` holds whatever `k` is. -/
theorem C37_multiples (u : BUnit) (hu : Built S u) (k x : ℚ) (d : Str)
    (hd : u.dimension = .ok d) :
    (Quantity.mk x (u.smul k)).eq fs (.quantity ⟨x, u⟩) = .ok (.bool true) := by
  have hg := built_good hu
  have hgk : Good S (u.smul k) := init_one_good _ _ _ hg
  have hsd : sameDimension (u.smul k) u = .ok true :=
    sameDimension_of ((smul_dimension hS hg k).trans hd) hd
  have : (u.smul k).size = u.size := by
    rw [size_eq, size_eq, unitScale_eq hS hgk, unitScale_eq hS hg]
    refine Finset.prod_congr rfl fun n _ => ?_
    rw [BUnit.smul, init_one_expo (S := S) k u 1 hg, one_mul]
  rw [Quantity.eq, compare_eq hS hfs _ _ _ hgk hg x x hsd, this,
    div_self (by rw [size_eq]; exact (unitScale_pos hS hg).ne')]
  simp

/-! ### C38 -/

/-- C38 between quantities: `!=` is the negation of `==` whenever the latter is defined, and
raises the same exception otherwise. -/
theorem C38_quantities_partial (q r : Quantity) :
    q.ne fs (.quantity r) = (q.eqOperator fs (.quantity r)).map not := by
  simp only [Quantity.ne, Quantity.eqOperator, Quantity.eq, Quantity.compare]
  cases sameDimension q.unit r.unit with
  | error e => rfl
  | ok b =>
    cases b with
    | false => rfl
    | true =>
      dsimp only
      cases r.to fs q.unit with
      | error e => rfl
      | ok y => rfl

/-- C38 fails for operands that are not quantities: both `==` and `!=` are false. -/
theorem C38_other_operands (q : Quantity) (x : ℚ) :
    q.eqOperator fs (.number x) = .ok false ∧ q.ne fs (.number x) = .ok false ∧
    q.eqOperator fs .other = .ok false ∧ q.ne fs .other = .ok false := ⟨rfl, rfl, rfl, rfl⟩

include hS in
/-- C38 fails for arrays: `!=` between float arrays of equal length other than one raises. -/
theorem C38_arrays (u v : BUnit) (hu : Built S u) (a b : List ℚ)
    (hlen : a.length = b.length) (h1 : a.length ≠ 1) (hsd : sameDimension u v = .ok true) :
    neArr fs ⟨false, a⟩ u ⟨false, b⟩ v = .error .valueError := by
  have gu := built_good hu
  obtain ⟨s, e1, e2⟩ := sameDimension_true hsd
  have hne := (unitScale_pos hS gu).ne'
  simp only [neArr, hsd]
  have hconv : ∃ b' : Arr, convertArr fs ⟨false, b⟩ v u = .ok b' ∧ b'.data.length = b.length := by
    simp only [convertArr, e1, e2, ne_eq, not_true, if_false]
    by_cases hr : v.repr fs = u.repr fs
    · rw [if_neg (by simpa using hr)]; exact ⟨_, rfl, rfl⟩
    · rw [if_pos hr, if_neg hne]
      simp only [Bool.false_eq_true, if_false]
      exact ⟨_, rfl, by simp⟩
  obtain ⟨b', hb', hl⟩ := hconv
  rw [hb']
  dsimp only
  split
  · rename_i z hz
    exfalso
    have := congrArg List.length hz
    simp only [List.length_zipWith, List.length_cons, List.length_nil, hl, ← hlen, min_self] at this
    exact h1 this
  · rfl

example : neArr (fmtFixed 6) ⟨false, [1, 2]⟩ (.named km) ⟨false, [1000, 3]⟩ (.named m) =
    .error .valueError ∧ sameDimension (.named km) (.named m) = .ok true := by decide +kernel

/-! ### C64 -/

/-- C64 fails: an array of integers cannot be converted to any unit that is written differently
(`TypeError` from the in-place product), although the same numbers as floats can. -/
theorem C64_integer_arrays (hS : UnitSystem S) (u v : BUnit) (hv : Built S v) (a : List ℚ)
    (hsd : sameDimension u v = .ok true) (hr : u.repr fs ≠ v.repr fs) :
    convertArr fs ⟨true, a⟩ u v = .error .typeError ∧
    convertArr fs ⟨false, a⟩ u v = .ok ⟨false, a.map (· * (u.size / v.size))⟩ := by
  obtain ⟨s, e1, e2⟩ := sameDimension_true hsd
  have hne := (unitScale_pos hS (built_good hv)).ne'
  simp only [convertArr, e1, e2, ne_eq, not_true, if_false]
  rw [if_pos hr, if_neg hne]
  constructor
  · simp
  · rw [if_pos hr, if_neg hne]
    simp [size_eq]

example : convertArr (fmtFixed 6) ⟨true, [1, 2]⟩ (.named km) (.named m) = .error .typeError ∧
    convertArr (fmtFixed 6) ⟨false, [1, 2]⟩ (.named km) (.named m) = .ok ⟨false, [1000, 2000]⟩ := by
  decide +kernel

include hS hfs in
/-- C64 for float arrays: every element is converted like a number. -/
theorem C64_elementwise_partial (u v : BUnit) (hu : Built S u) (hv : Built S v) (a : List ℚ)
    (hsd : sameDimension u v = .ok true) :
    ∃ b, convertArr fs ⟨false, a⟩ u v = .ok ⟨false, b⟩ ∧
      a.map (fun x => (Quantity.mk x u).to fs v) = b.map .ok := by
  have gu := built_good hu
  have gv := built_good hv
  obtain ⟨s, e1, e2⟩ := sameDimension_true hsd
  have hne := (unitScale_pos hS gv).ne'
  refine ⟨a.map (· * (u.size / v.size)), ?_, ?_⟩
  · by_cases hr : u.repr fs = v.repr fs
    · simp only [convertArr, e1, e2, ne_eq, not_true, if_false]
      rw [if_neg (by simpa using hr), size_eq, size_eq, unitScale_of_repr hS hfs gu gv hr,
        div_self hne]
      simp
    · exact (C64_integer_arrays hS u v hv a hsd hr).2
  · rw [List.map_map]
    exact List.map_congr_left fun x _ => to_eq hS hfs x gu gv hsd

end

end Celest.Units
