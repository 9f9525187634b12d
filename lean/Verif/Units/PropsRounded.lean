/-
Theorems C102 and C103: conversions, sums and comparisons of quantities in floating-point
arithmetic.
-/
import Verif.Units.Rounded
import Verif.Units.Registry

namespace Celest.Units.Rounded

open Celest.Text (Str fmtFixed)

/-! ### specification -/

/-- Python's `float ** int` is within two roundings of the exact power. -/
def PowerWithin (ε : ℚ) (pw : ℚ → ℤ → ℚ) : Prop := ∀ x p, 0 < x → Near ε 2 (x ^ p) (pw x p)

/-- The roundings in the size of a unit: for each unit a compound one is made of, one product and
one power (two roundings). -/
def roundings : BUnit → ℕ
  | .named _ => 0
  | .compound c => 3 * c.bases.length

/-- The relative error of `n` roundings. -/
def errorOf (ε : ℚ) (n : ℕ) : ℚ := n * ε / (1 - n * ε)

/-! ### lemmas -/

section
variable {fl : ℚ → ℚ} {pw : ℚ → ℤ → ℚ} {ε : ℚ} {S : List NamedUnit} {fs : ℚ → Str}

theorem unitScale_near (hfl : Rounding fl ε) (hpw : PowerWithin ε pw) (hS : UnitSystem S)
    {u : BUnit} (hu : Good S u) : Near ε (roundings u) u.size (unitScale fl pw u) := by
  have h0 := hfl.nonneg
  have h1 := hfl.lt_one
  cases u with
  | named n => exact Near.refl h0 h1 _ _
  | compound c =>
    have hb : ∀ b ∈ c.bases, 0 < b.1.scale := fun b h => hS.pos _ (hu.1 b h)
    have key : ∀ (l : List (NamedUnit × ℤ)) (k : ℕ) (a a' : ℚ), (∀ b ∈ l, 0 < b.1.scale) →
        Near ε k a a' →
        Near ε (k + 3 * l.length) (a * (l.map fun b => b.1.scale ^ b.2).prod)
          (l.foldl (fun scale b => fl (scale * pw b.1.scale b.2)) a') := by
      intro l
      induction l with
      | nil => intro k a a' _ h; simpa using h
      | cons b l ih =>
        intro k a a' hb h
        have h2 := (h.mul h0 h1 (hpw _ b.2 (hb b List.mem_cons_self))).round hfl
        have := ih (k + 2 + 1) (a * b.1.scale ^ b.2) _
          (fun b' hb' => hb b' (List.mem_cons_of_mem _ hb')) h2
        rw [List.map_cons, List.prod_cons, ← mul_assoc, List.foldl_cons, List.length_cons]
        have e : k + 3 * (l.length + 1) = k + 2 + 1 + 3 * l.length := by ring
        rw [e]; exact this
    have := key c.bases 0 1 1 hb (Near.refl h0 h1 0 1)
    rw [size_eq]
    simpa [roundings, unitScale, Units.unitScale] using this

/-- What a conversion multiplies by. -/
def factor (fl : ℚ → ℚ) (pw : ℚ → ℤ → ℚ) (fs : ℚ → Str) (u v : BUnit) (x : ℚ) : ℚ :=
  if u.repr fs = v.repr fs then x else fl (x * fl (unitScale fl pw u / unitScale fl pw v))

theorem convertTo_eq (hfl : Rounding fl ε) (hpw : PowerWithin ε pw) (hS : UnitSystem S)
    (ρ : ℕ → ℕ) (x : ℚ) {u v : BUnit} (hv : Good S v) :
    convertTo fl pw fs ρ ⟨x, u⟩ v =
      ((Quantity.mk x u).convertTo fs ρ v).map fun r => ⟨factor fl pw fs u v x, r.unit⟩ := by
  have z1 : Units.unitScale v ≠ 0 := (unitScale_pos hS hv).ne'
  have z2 : unitScale fl pw v ≠ 0 :=
    ((unitScale_near hfl hpw hS hv).pos hfl.lt_one (by rw [size_eq]; exact unitScale_pos hS hv)).ne'
  unfold Quantity.convertTo convertTo factor
  cases u.dimension with
  | error e => rfl
  | ok d =>
    cases v.dimension with
    | error e => rfl
    | ok d' =>
      by_cases hd : d = d' <;> by_cases hr : u.repr fs = v.repr fs <;>
        simp [hd, hr, z1, z2, Except.map]

theorem factor_near (hfl : Rounding fl ε) (hpw : PowerWithin ε pw) (hS : UnitSystem S)
    (hfs : FloatStr fs) (x : ℚ) {u v : BUnit} (hu : Good S u) (hv : Good S v)
    (h : sameDimension u v = .ok true) :
    Near ε (roundings u + roundings v + 2) (x * (u.size / v.size)) (factor fl pw fs u v x) := by
  have h0 := hfl.nonneg
  have h1 := hfl.lt_one
  unfold factor
  split_ifs with hr
  · have e := to_eq hS hfs x hu hv h
    obtain ⟨s, d1, d2⟩ := sameDimension_true h
    unfold Quantity.to Quantity.convertTo at e
    simp only [d1, d2, hr, ne_eq, not_true_eq_false, if_false, Except.map, Except.ok.injEq] at e
    rw [← e]
    exact Near.refl h0 h1 _ _
  · have := ((Near.refl h0 h1 0 x).mul h0 h1 (((unitScale_near hfl hpw hS hu).div h0 h1
      (unitScale_near hfl hpw hS hv)).round hfl)).round hfl
    have e : 0 + (roundings u + roundings v + 1) + 1 = roundings u + roundings v + 2 := by ring
    rwa [e] at this

theorem inUnit_eq (hfl : Rounding fl ε) (hpw : PowerWithin ε pw) (hS : UnitSystem S)
    (x : ℚ) {u v : BUnit} (hv : Good S v) :
    inUnit fl pw fs ⟨x, u⟩ v =
      ((Quantity.mk x u).to fs v).map fun _ => factor fl pw fs u v x := by
  unfold inUnit Quantity.to
  rw [convertTo_eq hfl hpw hS id x hv]
  cases (Quantity.mk x u).convertTo fs id v <;> rfl

theorem inUnit_ok (hfl : Rounding fl ε) (hpw : PowerWithin ε pw) (hS : UnitSystem S)
    (hfs : FloatStr fs) (x : ℚ) {u v : BUnit} (hu : Good S u) (hv : Good S v)
    (h : sameDimension u v = .ok true) :
    inUnit fl pw fs ⟨x, u⟩ v = .ok (factor fl pw fs u v x) := by
  rw [inUnit_eq hfl hpw hS x hv, to_eq hS hfs x hu hv h]; rfl

theorem inUnit_same (hfl : Rounding fl ε) (hpw : PowerWithin ε pw) (hS : UnitSystem S)
    {x y : ℚ} {u v : BUnit} (hv : Good S v) (h : inUnit fl pw fs ⟨x, u⟩ v = .ok y) :
    sameDimension u v = .ok true ∧ y = factor fl pw fs u v x := by
  rw [inUnit_eq hfl hpw hS x hv] at h
  cases ht : (Quantity.mk x u).to fs v with
  | error e => rw [ht] at h; cases h
  | ok z => rw [ht] at h; cases h; exact ⟨to_ok_same ht, rfl⟩

/-! ### C102 -/

/-- **C102.** Without rounding, this is the exact model: the theorems about `Quantity` speak about
this program with `fl` the identity. -/
theorem C102_exact_arithmetic (fs : ℚ → Str) (ρ : ℕ → ℕ) (q : Quantity) (v : BUnit) (a : Arg) :
    let fl := fun x : ℚ => x
    let pw := fun (x : ℚ) (p : ℤ) => x ^ p
    convertTo fl pw fs ρ q v = q.convertTo fs ρ v ∧ inUnit fl pw fs q v = q.to fs v ∧
    add fl pw fs q a = q.add fs a ∧ sub fl pw fs q a = q.sub fs a ∧
    eq fl pw fs q a = q.eq fs a ∧ lt fl pw fs q a = q.lt fs a ∧ gt fl pw fs q a = q.gt fs a ∧
    le fl pw fs q a = q.le fs a ∧ ge fl pw fs q a = q.ge fs a := by
  intro fl pw
  have hs : unitScale fl pw = Units.unitScale := by
    funext u
    cases u with
    | named n => rfl
    | compound c =>
      have key : ∀ (l : List (NamedUnit × ℤ)) (k : ℚ),
          l.foldl (fun scale b => fl (scale * pw b.1.scale b.2)) k =
            k * (l.map fun b => b.1.scale ^ b.2).prod := by
        intro l
        induction l with
        | nil => intro k; simp
        | cons b l ih =>
          intro k
          rw [List.foldl_cons, ih, List.map_cons, List.prod_cons, ← mul_assoc]
      have := key c.bases 1
      rw [one_mul] at this
      exact this
  have hc : ∀ ρ q v, convertTo fl pw fs ρ q v = q.convertTo fs ρ v := by
    intro ρ q v; unfold convertTo Quantity.convertTo; rw [hs]; rfl
  have ht : ∀ q v, inUnit fl pw fs q v = q.to fs v := by
    intro q v; unfold inUnit Quantity.to; rw [hc]
  have ha : ∀ a, add fl pw fs q a = q.add fs a := by
    intro a; cases a <;> simp only [add, Quantity.add, ht] <;> rfl
  have hcmp : ∀ test, compare fl pw fs test q a = q.compare fs test a := by
    intro test; cases a <;> simp only [compare, Quantity.compare, ht] <;> rfl
  have hsub : sub fl pw fs q a = q.sub fs a := by
    unfold sub Quantity.sub; simp only [ha]; rfl
  refine ⟨hc ρ q v, ht q v, ha a, hsub, hcmp _, hcmp _, hcmp _, ?_, ?_⟩ <;>
    simp only [le, ge, Quantity.le, Quantity.ge, eq, lt, gt, Quantity.eq, Quantity.lt,
      Quantity.gt, hcmp]

/-- **C102.** Converting in floating-point arithmetic raises exactly when it does in exact
arithmetic, gives the same unit, and the number is the exact one up to the roundings in the two
units' sizes and two more. -/
theorem C102_conversion_error (hfl : Rounding fl ε) (hpw : PowerWithin ε pw) (hS : UnitSystem S)
    (hfs : FloatStr fs) (u v : BUnit) (hu : Built S u) (hv : Built S v) (ρ : ℕ → ℕ) (x : ℚ) :
    match (Quantity.mk x u).convertTo fs ρ v, convertTo fl pw fs ρ ⟨x, u⟩ v with
    | .ok exact, .ok computed => computed.unit = exact.unit ∧
        exact.data = x * (u.size / v.size) ∧
        ((roundings u + roundings v + 2 : ℕ) * ε < 1 →
          |computed.data - exact.data| ≤
            errorOf ε (roundings u + roundings v + 2) * |exact.data|)
    | .error e, .error e' => e = e'
    | _, _ => False := by
  have gu := built_good hu
  have gv := built_good hv
  rw [convertTo_eq hfl hpw hS ρ x gv]
  cases h : (Quantity.mk x u).convertTo fs ρ v with
  | error e => simp [Except.map]
  | ok r =>
    have hsd := convertTo_same h
    have hr : r.data = x * (u.size / v.size) := by
      have := (convertTo_to h).1
      rw [to_eq hS hfs x gu gv hsd] at this
      exact (Except.ok.inj this).symm
    simp only [Except.map]
    refine ⟨trivial, hr, fun hn => ?_⟩
    rw [hr]
    exact (factor_near hfl hpw hS hfs x gu gv hsd).error hfl.nonneg hfl.lt_one hn

/-- **C102.** Converting there and back returns the number up to the roundings of both ways. -/
theorem C102_round_trip (hfl : Rounding fl ε) (hpw : PowerWithin ε pw) (hS : UnitSystem S)
    (hfs : FloatStr fs) (u v : BUnit) (hu : Built S u) (hv : Built S v) (x y : ℚ)
    (h : inUnit fl pw fs ⟨x, u⟩ v = .ok y)
    (hn : (2 * (roundings u + roundings v + 2) : ℕ) * ε < 1) :
    ∃ z, inUnit fl pw fs ⟨y, v⟩ u = .ok z ∧
      |z - x| ≤ errorOf ε (2 * (roundings u + roundings v + 2)) * |x| := by
  have gu := built_good hu
  have gv := built_good hv
  have h0 := hfl.nonneg
  have h1 := hfl.lt_one
  obtain ⟨hsd, rfl⟩ := inUnit_same hfl hpw hS gv h
  refine ⟨_, inUnit_ok hfl hpw hS hfs _ gv gu (sameDimension_symm hsd), ?_⟩
  refine Near.error h0 h1 hn ?_
  obtain ⟨θ, e, l, w⟩ := factor_near hfl hpw hS hfs x gu gv hsd
  have n2 := factor_near hfl hpw hS hfs (factor fl pw fs u v x) gv gu (sameDimension_symm hsd)
  have pu : u.size ≠ 0 := by rw [size_eq]; exact (unitScale_pos hS gu).ne'
  have pv : v.size ≠ 0 := by rw [size_eq]; exact (unitScale_pos hS gv).ne'
  have e2 : factor fl pw fs u v x * (v.size / u.size) = x * θ := by
    rw [e]; field_simp
  rw [e2] at n2
  obtain ⟨θ', e', l', w'⟩ := n2
  have := Near.mul h0 h1 (x := x) (y := x * θ) (x' := 1) (y' := θ') ⟨θ, rfl, l, w⟩
    ⟨θ', by ring, l', w'⟩
  rw [mul_one, ← e'] at this
  exact this.mono h0 h1 (by omega)

/-- **C102.** Conversion never reverses an order: larger numbers convert to numbers at least as
large, exactly. -/
theorem C102_order_kept (hfl : Rounding fl ε) (hpw : PowerWithin ε pw) (hS : UnitSystem S)
    (u v : BUnit) (hu : Built S u) (hv : Built S v) (x x' y y' : ℚ) (hx : x ≤ x')
    (h : inUnit fl pw fs ⟨x, u⟩ v = .ok y) (h' : inUnit fl pw fs ⟨x', u⟩ v = .ok y') : y ≤ y' := by
  have gu := built_good hu
  have gv := built_good hv
  obtain ⟨-, rfl⟩ := inUnit_same hfl hpw hS gv h
  obtain ⟨-, rfl⟩ := inUnit_same hfl hpw hS gv h'
  have pu := (unitScale_near hfl hpw hS gu).pos hfl.lt_one
    (by rw [size_eq]; exact unitScale_pos hS gu)
  have pv := (unitScale_near hfl hpw hS gv).pos hfl.lt_one
    (by rw [size_eq]; exact unitScale_pos hS gv)
  unfold factor
  split_ifs
  · exact hx
  · exact hfl.mono (mul_le_mul_of_nonneg_right hx (hfl.fl_nonneg (div_pos pu pv).le))

/-- **C102.** The sum of two non-negative quantities is the exact sum up to the roundings of the
conversion and one more. -/
theorem C102_sum_error (hfl : Rounding fl ε) (hpw : PowerWithin ε pw) (hS : UnitSystem S)
    (hfs : FloatStr fs) (u v : BUnit) (hu : Built S u) (hv : Built S v) (x y : ℚ) (hx : 0 ≤ x)
    (hy : 0 ≤ y) (r : Quantity) (h : add fl pw fs ⟨x, u⟩ (.quantity ⟨y, v⟩) = .ok r)
    (hn : (roundings u + roundings v + 3 : ℕ) * ε < 1) :
    r.unit = u ∧ |r.data - (x + y * (v.size / u.size))| ≤
      errorOf ε (roundings u + roundings v + 3) * (x + y * (v.size / u.size)) := by
  have gu := built_good hu
  have gv := built_good hv
  have h0 := hfl.nonneg
  have h1 := hfl.lt_one
  have pu : 0 < u.size := by rw [size_eq]; exact unitScale_pos hS gu
  have pv : 0 < v.size := by rw [size_eq]; exact unitScale_pos hS gv
  have hyv : 0 ≤ y * (v.size / u.size) := by positivity
  have hsd : sameDimension u v = .ok true := by
    unfold add at h
    simp only at h
    split at h
    · cases h
    · cases h
    · assumption
  unfold add at h
  simp only [hsd, inUnit_ok hfl hpw hS hfs y gv gu (sameDimension_symm hsd)] at h
  cases h
  refine ⟨rfl, ?_⟩
  have n1 := factor_near hfl hpw hS hfs y gv gu (sameDimension_symm hsd)
  have n2 := ((Near.refl h0 h1 (roundings v + roundings u + 2) x).add h1 hx hyv n1).round hfl
  have e : roundings v + roundings u + 2 + 1 = roundings u + roundings v + 3 := by ring
  rw [e] at n2
  have := n2.error h0 h1 hn
  rwa [abs_of_nonneg (a := x + y * (v.size / u.size)) (by linarith)] at this

/-! ### C103 -/

/-- **C103.** Of `q < r`, `q == r` and `q > r` exactly one is true, and `<=` and `>=` agree with
them, whatever the rounding. -/
theorem C103_exactly_one_partial (fl : ℚ → ℚ) (pw : ℚ → ℤ → ℚ) (fs : ℚ → Str) (q r : Quantity) (c : Cmp)
    (h : eq fl pw fs q (.quantity r) = .ok c) :
    ∃ less equal greater : Bool,
      lt fl pw fs q (.quantity r) = .ok (.bool less) ∧
      eq fl pw fs q (.quantity r) = .ok (.bool equal) ∧
      gt fl pw fs q (.quantity r) = .ok (.bool greater) ∧
      le fl pw fs q (.quantity r) = .ok (.bool (less || equal)) ∧
      ge fl pw fs q (.quantity r) = .ok (.bool (greater || equal)) ∧
      [less, equal, greater].count true = 1 := by
  have hy : ∃ y, ∀ test : ℚ → ℚ → Bool,
      compare fl pw fs test q (.quantity r) = .ok (.bool (test q.data y)) := by
    unfold eq compare at h
    simp only at h
    split at h
    · cases h
    · cases h
    · rename_i hsd
      split at h
      · cases h
      · rename_i y hy
        exact ⟨y, fun test => by simp only [compare, hsd, hy]⟩
  obtain ⟨y, hy⟩ := hy
  refine ⟨decide (q.data < y), decide (q.data = y), decide (y < q.data), hy _, hy _, hy _, ?_⟩
  unfold le ge lt gt eq
  rw [hy, hy, hy]
  rcases lt_trichotomy q.data y with h | h | h
  · have h2 : ¬ y < q.data := not_lt.2 h.le
    simp [orElse, Cmp.truthy, h, h.ne, h2]
  · simp [orElse, Cmp.truthy, h]
  · have h2 : ¬ q.data < y := not_lt.2 h.le
    simp [orElse, Cmp.truthy, h, h.ne', h2]

/-- **C103 (partial).** Quantities whose values `x * u.size` and `y * v.size` differ by more than
the rounding error of a conversion are compared correctly, from both sides.  Missing: quantities
closer than that, for which the comparisons may contradict each other (the next theorems). -/
theorem C103_apart_partial (hfl : Rounding fl ε) (hpw : PowerWithin ε pw) (hS : UnitSystem S)
    (hfs : FloatStr fs) (u v : BUnit) (hu : Built S u) (hv : Built S v) (x y : ℚ)
    (h : sameDimension u v = .ok true) (hn : (roundings u + roundings v + 2 : ℕ) * ε < 1)
    (hx : errorOf ε (roundings u + roundings v + 2) * |x * u.size| < |x * u.size - y * v.size|)
    (hy : errorOf ε (roundings u + roundings v + 2) * |y * v.size| < |x * u.size - y * v.size|) :
    lt fl pw fs ⟨x, u⟩ (.quantity ⟨y, v⟩) = .ok (.bool (x * u.size < y * v.size)) ∧
    gt fl pw fs ⟨x, u⟩ (.quantity ⟨y, v⟩) = .ok (.bool (y * v.size < x * u.size)) ∧
    eq fl pw fs ⟨x, u⟩ (.quantity ⟨y, v⟩) = .ok (.bool false) ∧
    lt fl pw fs ⟨y, v⟩ (.quantity ⟨x, u⟩) = .ok (.bool (y * v.size < x * u.size)) ∧
    gt fl pw fs ⟨y, v⟩ (.quantity ⟨x, u⟩) = .ok (.bool (x * u.size < y * v.size)) ∧
    eq fl pw fs ⟨y, v⟩ (.quantity ⟨x, u⟩) = .ok (.bool false) := by
  have one : ∀ (u v : BUnit) (x y : ℚ), Good S u → Good S v → sameDimension u v = .ok true →
      (roundings u + roundings v + 2 : ℕ) * ε < 1 →
      errorOf ε (roundings u + roundings v + 2) * |y * v.size| < |x * u.size - y * v.size| →
      lt fl pw fs ⟨x, u⟩ (.quantity ⟨y, v⟩) = .ok (.bool (x * u.size < y * v.size)) ∧
      gt fl pw fs ⟨x, u⟩ (.quantity ⟨y, v⟩) = .ok (.bool (y * v.size < x * u.size)) ∧
      eq fl pw fs ⟨x, u⟩ (.quantity ⟨y, v⟩) = .ok (.bool false) := by
    intro u v x y gu gv h hn hy
    have pu : 0 < u.size := by rw [size_eq]; exact unitScale_pos hS gu
    have hio := inUnit_ok hfl hpw hS hfs y gv gu (sameDimension_symm h)
    have hnear := factor_near hfl hpw hS hfs y gv gu (sameDimension_symm h)
    rw [add_comm (roundings v)] at hnear
    have herr := hnear.error hfl.nonneg hfl.lt_one hn
    set z := factor fl pw fs v u y
    have e1 : y * (v.size / u.size) * u.size = y * v.size := by field_simp
    have hz : |z * u.size - y * v.size| ≤
        errorOf ε (roundings u + roundings v + 2) * |y * v.size| := by
      have := mul_le_mul_of_nonneg_right herr pu.le
      rw [← abs_of_pos pu, ← abs_mul, mul_assoc, ← abs_mul, abs_of_pos pu, sub_mul, e1] at this
      exact this
    have hc : ∀ test : ℚ → ℚ → Bool,
        compare fl pw fs test ⟨x, u⟩ (.quantity ⟨y, v⟩) = .ok (.bool (test x z)) := by
      intro test; simp only [compare, h, hio]
    unfold lt gt eq
    rw [hc, hc, hc]
    have hlt := lt_of_le_of_lt hz hy
    rcases lt_trichotomy (x * u.size) (y * v.size) with c | c | c
    · rw [abs_sub_comm (x * u.size), abs_of_pos (sub_pos.2 c)] at hlt
      have hxz : x < z := lt_of_mul_lt_mul_right (by linarith [(abs_lt.1 hlt).1]) pu.le
      rw [decide_eq_true hxz, decide_eq_true c, decide_eq_false hxz.ne,
        decide_eq_false (not_lt.2 hxz.le), decide_eq_false (not_lt.2 c.le)]
      exact ⟨rfl, rfl, rfl⟩
    · rw [c, sub_self, abs_zero] at hlt
      exact absurd hlt (not_lt.2 (abs_nonneg _))
    · rw [abs_of_pos (sub_pos.2 c)] at hlt
      have hxz : z < x := lt_of_mul_lt_mul_right (by linarith [(abs_lt.1 hlt).2]) pu.le
      rw [decide_eq_true hxz, decide_eq_true c, decide_eq_false hxz.ne',
        decide_eq_false (not_lt.2 hxz.le), decide_eq_false (not_lt.2 c.le)]
      exact ⟨rfl, rfl, rfl⟩
  have gu := built_good hu
  have gv := built_good hv
  obtain ⟨a1, a2, a3⟩ := one u v x y gu gv h hn hy
  rw [add_comm (roundings u)] at hn hx
  rw [abs_sub_comm] at hx
  obtain ⟨b1, b2, b3⟩ := one v u y x gv gu (sameDimension_symm h) hn hx
  exact ⟨a1, a2, a3, b1, b2, b3⟩

end

/-! ### the package's units in Python's arithmetic -/

/-- The package's units as stored are a unit system too. -/
theorem stored_system : UnitSystem (registry.map (stored (binaryRound 53))) where
  ids := by decide +kernel
  pos := by decide +kernel
  stems := by decide +kernel
  letter := by
    intro a ha
    obtain ⟨b, hb, rfl⟩ := List.mem_map.1 ha
    exact registry_system.letter b hb
  plain := by
    intro a ha
    obtain ⟨b, hb, rfl⟩ := List.mem_map.1 ha
    exact registry_system.plain b hb
  dims := by
    intro a ha
    obtain ⟨b, hb, rfl⟩ := List.mem_map.1 ha
    exact registry_system.dims b hb

/-- A named unit of the package as Python stores it. -/
abbrev py (n : NamedUnit) : BUnit := .named (stored (binaryRound 53) n)

theorem py_built {n : NamedUnit} (hn : n ∈ registry) :
    Built (registry.map (stored (binaryRound 53))) (py n) :=
  ⟨.unit (stored (binaryRound 53) n),
    fun m hm => by
      rw [UExpr.atoms, List.mem_singleton] at hm
      rw [hm]; exact List.mem_map_of_mem hn, rfl⟩

/-- **C102.** In Python's arithmetic, converting between two of the package's units gives the
number with the factors written in the source up to one part in 10¹⁵, the rounding of those
factors included. -/
theorem C102_python_floats {pw : ℚ → ℤ → ℚ} (hpw : PowerWithin (1 / 2 ^ 53) pw) {fs : ℚ → Str}
    (hfs : FloatStr fs) (a b : NamedUnit) (ha : a ∈ registry) (hb : b ∈ registry) (x y : ℚ)
    (h : inUnit (binaryRound 53) pw fs ⟨x, py a⟩ (py b) = .ok y) :
    |y - x * (a.scale / b.scale)| ≤ 1 / 10 ^ 15 * |x * (a.scale / b.scale)| := by
  have hfl := rounding_binary64
  have h0 := hfl.nonneg
  have h1 := hfl.lt_one
  obtain ⟨hsd, rfl⟩ := inUnit_same hfl hpw stored_system (built_good (py_built hb)) h
  obtain ⟨θ, e, l, w⟩ := factor_near hfl hpw stored_system hfs x (built_good (py_built ha))
    (built_good (py_built hb)) hsd
  have na : Near (1 / 2 ^ 53) 1 a.scale (binaryRound 53 a.scale) :=
    (Near.refl h0 h1 0 a.scale).round hfl
  have nb : Near (1 / 2 ^ 53) 1 b.scale (binaryRound 53 b.scale) :=
    (Near.refl h0 h1 0 b.scale).round hfl
  have n := (((Near.refl h0 h1 0 x).mul h0 h1 (na.div h0 h1 nb))).mul h0 h1
    (x' := 1) (y' := θ) ⟨θ, by ring, l, w⟩
  have e' : x * (binaryRound 53 a.scale / binaryRound 53 b.scale) * θ =
      factor (binaryRound 53) pw fs (py a) (py b) x := e.symm
  rw [mul_one, e'] at n
  refine (n.error h0 h1 (by norm_num [roundings])).trans
    (mul_le_mul_of_nonneg_right ?_ (abs_nonneg _))
  norm_num [roundings]

/-- **C102.** The tolerance is needed: three kilometres, converted to centimetres and back, are
more than three. -/
theorem C102_round_trip_inexact (pw : ℚ → ℤ → ℚ) :
    inUnit (binaryRound 53) pw (fmtFixed 6) ⟨3, py km⟩ (py cm) = .ok 300000 ∧
    ∃ z, inUnit (binaryRound 53) pw (fmtFixed 6) ⟨300000, py cm⟩ (py km) = .ok z ∧ 3 < z := by
  have key : inUnit (binaryRound 53) (fun x _ => x) (fmtFixed 6) ⟨3, py km⟩ (py cm) = .ok 300000 ∧
      inUnit (binaryRound 53) (fun x _ => x) (fmtFixed 6) ⟨300000, py cm⟩ (py km) =
        .ok (3 + 1 / 2 ^ 51) := by decide +kernel
  exact ⟨key.1, _, key.2, by norm_num⟩

/-- **C103.** Equality is not symmetric: a mile equals 63360 inches, but 63360 inches do not equal
a mile. -/
theorem C103_equality_not_symmetric (pw : ℚ → ℤ → ℚ) :
    eq (binaryRound 53) pw (fmtFixed 6) ⟨1, py mi⟩ (.quantity ⟨63360, py inch⟩) =
      .ok (.bool true) ∧
    eq (binaryRound 53) pw (fmtFixed 6) ⟨63360, py inch⟩ (.quantity ⟨1, py mi⟩) =
      .ok (.bool false) := by
  have key : eq (binaryRound 53) (fun x _ => x) (fmtFixed 6) ⟨1, py mi⟩
        (.quantity ⟨63360, py inch⟩) = .ok (.bool true) ∧
      eq (binaryRound 53) (fun x _ => x) (fmtFixed 6) ⟨63360, py inch⟩
        (.quantity ⟨1, py mi⟩) = .ok (.bool false) := by decide +kernel
  exact key

/-- **C103.** Two quantities, both floats, can each be less than the other: 253332 inches and
about 3.9983 miles.  Two others can each be greater than the other. -/
theorem C103_order_contradicts_itself (pw : ℚ → ℤ → ℚ) :
    (∃ y, IsFloat (binaryRound 53) y ∧
      lt (binaryRound 53) pw (fmtFixed 6) ⟨253332, py inch⟩ (.quantity ⟨y, py mi⟩) =
        .ok (.bool true) ∧
      lt (binaryRound 53) pw (fmtFixed 6) ⟨y, py mi⟩ (.quantity ⟨253332, py inch⟩) =
        .ok (.bool true)) ∧
    ∃ y, IsFloat (binaryRound 53) y ∧
      gt (binaryRound 53) pw (fmtFixed 6) ⟨484860, py km⟩ (.quantity ⟨y, py yd⟩) =
        .ok (.bool true) ∧
      gt (binaryRound 53) pw (fmtFixed 6) ⟨y, py yd⟩ (.quantity ⟨484860, py km⟩) =
        .ok (.bool true) := by
  have key : (IsFloat (binaryRound 53) (2250840239901007/562949953421312) ∧
      lt (binaryRound 53) (fun x _ => x) (fmtFixed 6) ⟨253332, py inch⟩
        (.quantity ⟨2250840239901007/562949953421312, py mi⟩) = .ok (.bool true) ∧
      lt (binaryRound 53) (fun x _ => x) (fmtFixed 6) ⟨2250840239901007/562949953421312, py mi⟩
        (.quantity ⟨253332, py inch⟩) = .ok (.bool true)) ∧
      IsFloat (binaryRound 53) (4450000519562363/8388608) ∧
      gt (binaryRound 53) (fun x _ => x) (fmtFixed 6) ⟨484860, py km⟩
        (.quantity ⟨4450000519562363/8388608, py yd⟩) = .ok (.bool true) ∧
      gt (binaryRound 53) (fun x _ => x) (fmtFixed 6) ⟨4450000519562363/8388608, py yd⟩
        (.quantity ⟨484860, py km⟩) = .ok (.bool true) := by decide +kernel
  exact ⟨⟨_, key.1⟩, _, key.2⟩

/-! ### the hypotheses are met -/

/-- Correctly rounded powers are within two roundings. -/
theorem powerWithin_round {fl : ℚ → ℚ} {ε : ℚ} (hfl : Rounding fl ε) :
    PowerWithin ε fun x p => fl (x ^ p) :=
  fun _ _ _ => ((Near.refl hfl.nonneg hfl.lt_one 1 _).round hfl)

/-- 36 km/h in m/s, in Python's arithmetic: the units are built from the stored ones, and the
conversion makes at most fourteen roundings. -/
example :
    let S := registry.map (stored (binaryRound 53))
    let u := (py km).div (py hr)
    let v := (py m).div (py s)
    PowerWithin (1 / 2 ^ 53) (fun x p => binaryRound 53 (x ^ p)) ∧ FloatStr (fmtFixed 6) ∧
    UnitSystem S ∧ Built S u ∧ Built S v ∧ roundings u + roundings v + 2 = 14 ∧
    (2 * (roundings u + roundings v + 2) : ℕ) * (1 / 2 ^ 53 : ℚ) < 1 ∧
    inUnit (binaryRound 53) (fun x p => binaryRound 53 (x ^ p)) (fmtFixed 6) ⟨36, u⟩ v = .ok 10 ∧
    sameDimension u v = .ok true := by
  refine ⟨powerWithin_round rounding_binary64, floatStr_fixed, stored_system,
    ⟨.div (.unit (stored _ km)) (.unit (stored _ hr)), by decide +kernel, rfl⟩,
    ⟨.div (.unit (stored _ m)) (.unit (stored _ s)), by decide +kernel, rfl⟩,
    by decide +kernel, by decide +kernel, by decide +kernel, by decide +kernel⟩

/-- One kilometre and one mile are far enough apart for `C103_apart_partial`. -/
example :
    sameDimension (py km) (py mi) = .ok true ∧
    errorOf (1 / 2 ^ 53) (roundings (py km) + roundings (py mi) + 2) * |1 * (py km).size| <
      |1 * (py km).size - 1 * (py mi).size| ∧
    errorOf (1 / 2 ^ 53) (roundings (py km) + roundings (py mi) + 2) * |1 * (py mi).size| <
      |1 * (py km).size - 1 * (py mi).size| ∧
    lt (binaryRound 53) (fun x _ => x) (fmtFixed 6) ⟨1, py km⟩ (.quantity ⟨1, py mi⟩) =
      .ok (.bool true) := by
  decide +kernel

/-- A sum of three feet and two yards. -/
example : (add (binaryRound 53) (fun x _ => x) (fmtFixed 6) ⟨3, py ft⟩
    (.quantity ⟨2, py yd⟩)).isOk = true := by decide +kernel

end Celest.Units.Rounded
