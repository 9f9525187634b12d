/-
C89-C91: units defined by the user, the name space of units, and the sizes of the package's units.
-/
import Verif.Units.PropsQuantity
import Verif.Units.Registry
import Mathlib.Analysis.Real.Pi.Bounds

namespace Celest.Units

open Celest.Text (Str)

/-! ### C89: user-defined units -/

theorem repr_named_inj (fs : ℚ → Str) (a b : NamedUnit) :
    (BUnit.named a).repr fs = (BUnit.named b).repr fs ↔ a.name = b.name := by
  rw [show (BUnit.named a).repr fs = "Unit(\"".toList ++ a.name ++ "\")".toList from rfl,
    show (BUnit.named b).repr fs = "Unit(\"".toList ++ b.name ++ "\")".toList from rfl,
    List.append_left_inj, List.append_right_inj]

/-- A unit defined as a multiple of a named unit. -/
theorem defineUnit_smul (id : ℕ) (name : Str) (k : ℚ) (b : NamedUnit) :
    defineUnit id name (some ((BUnit.named b).smul k)) =
      ⟨id, name, k * b.scale, [(b.name, 1)]⟩ := by
  simp [BUnit.smul, Compound.init, defineUnit]

theorem dimension_single (u : NamedUnit) (n : Str) (d : Char) (h : u.bases = [(n, 1)])
    (hd : dimensionDictionary.lookup n = some d) : (BUnit.named u).dimension = .ok [d] := by
  simp [BUnit.dimension, BUnit.dimensions, BUnit.bases, h, dimensionsFrom, hd, addDimension,
    Except.map, fraction, token, joinSpace]

/-- **C89.** A unit defined as a multiple of a unit in hand, under a new name, converts to and from
every unit of the same dimension with the defined factor. -/
theorem C89_defined_unit_converts_partial (fs : ℚ → Str) (S : List NamedUnit) (hS : UnitSystem S)
    (b v : NamedUnit) (hb : b ∈ S) (hv : v ∈ S)
    (hd : dimensionDictionary.lookup b.name = dimensionDictionary.lookup v.name)
    (id : ℕ) (name : Str) (hname : ∀ a ∈ S, a.name ≠ name) (k : ℚ) (hk : k ≠ 0) (x : ℚ) :
    Quantity.to fs ⟨x, .named (defineUnit id name (some ((BUnit.named b).smul k)))⟩ (.named v) =
      .ok (x * (k * b.scale / v.scale)) ∧
    Quantity.to fs ⟨x, .named v⟩ (.named (defineUnit id name (some ((BUnit.named b).smul k)))) =
      .ok (x * (v.scale / (k * b.scale))) := by
  obtain ⟨d, hbd, -⟩ := hS.dims b hb
  obtain ⟨d', hvd, n, hn, hnd⟩ := hS.dims v hv
  obtain rfl : d = d' := by
    rw [hbd, hvd] at hd; exact Option.some.inj hd
  have hb0 := (hS.pos b hb).ne'
  have hv0 := (hS.pos v hv).ne'
  rw [defineUnit_smul]
  have e1 : (BUnit.named ⟨id, name, k * b.scale, [(b.name, 1)]⟩).dimension = .ok [d] :=
    dimension_single _ b.name d rfl hbd
  have e2 : (BUnit.named v).dimension = .ok [d] := dimension_single v n d hn hnd
  have r1 : (BUnit.named ⟨id, name, k * b.scale, [(b.name, 1)]⟩).repr fs ≠
      (BUnit.named v).repr fs := by
    rw [Ne, repr_named_inj]; exact fun h => hname v hv h.symm
  constructor
  · simp [Quantity.to, Quantity.convertTo, e1, e2, r1, unitScale, hv0, Except.map]
  · simp [Quantity.to, Quantity.convertTo, e1, e2, r1.symm, unitScale, hk, hb0, Except.map]

/-- Non-vacuity: a nautical mile is 1.852 km. -/
example : Quantity.to (fun _ => []) ⟨10, .named (defineUnit 99 "nmi".toList
    (some ((BUnit.named m).smul 1852)))⟩ (.named km) = .ok (1852 / 100) ∧
    (∀ a ∈ registry, a.name ≠ "nmi".toList) := by decide +kernel

theorem dimensionsFrom_unknown (l : List (Str × ℤ)) (acc : List (Char × ℤ))
    (h : ∃ b ∈ l, dimensionDictionary.lookup b.1 = none) :
    ∃ e, dimensionsFrom l acc = .error e := by
  induction l generalizing acc with
  | nil => simp at h
  | cons b l ih =>
    obtain ⟨n, p⟩ := b
    unfold dimensionsFrom
    cases hl : dimensionDictionary.lookup n with
    | none => exact ⟨_, rfl⟩
    | some d =>
      have h' : ∃ b ∈ l, dimensionDictionary.lookup b.1 = none := by
        obtain ⟨b, hb, hn⟩ := h
        rcases List.mem_cons.1 hb with rfl | hb
        · rw [hl] at hn; cases hn
        · exact ⟨b, hb, hn⟩
      cases hA : addDimension acc d p with
      | error e => exact ⟨e, by simp [hA]⟩
      | ok acc' => simpa [hA] using ih acc' h'

/-- What the failure of a dimension means: nothing can be done with quantities of the unit. -/
theorem no_dimension (fs : ℚ → Str) (u : BUnit) (h : ∃ e, u.dimension = .error e) (x y : ℚ)
    (v : BUnit) :
    (∃ e, Quantity.to fs ⟨x, u⟩ v = .error e) ∧ (∃ e, Quantity.to fs ⟨y, v⟩ u = .error e) ∧
    (∃ e, Quantity.add fs ⟨x, u⟩ (.quantity ⟨y, v⟩) = .error e) ∧
    (∃ e, Quantity.eq fs ⟨x, u⟩ (.quantity ⟨y, v⟩) = .error e) := by
  obtain ⟨e, he⟩ := h
  refine ⟨⟨e, by simp [Quantity.to, Quantity.convertTo, he, Except.map]⟩, ?_,
    ⟨e, by simp [Quantity.add, sameDimension, he]⟩,
    ⟨e, by simp [Quantity.eq, Quantity.compare, sameDimension, he]⟩⟩
  cases hv : v.dimension with
  | error e' => exact ⟨e', by simp [Quantity.to, Quantity.convertTo, hv, Except.map]⟩
  | ok d => exact ⟨e, by simp [Quantity.to, Quantity.convertTo, hv, he, Except.map]⟩

/-- **C89 (failure).** A unit object that lists a unit whose name the package does not know has no
dimension: quantities of such a unit cannot be converted, added or compared, not even to themselves.
Products, quotients and powers with a user-defined unit of a new name are such objects. -/
theorem C89_compound_of_new_name_unusable (fs : ℚ → Str) (u : NamedUnit)
    (hname : dimensionDictionary.lookup u.name = none) (c : Compound) (p : ℤ)
    (hc : (u, p) ∈ c.bases) (x y : ℚ) (v : BUnit) :
    (∃ e, Quantity.to fs ⟨x, .compound c⟩ v = .error e) ∧
    (∃ e, Quantity.to fs ⟨y, v⟩ (.compound c) = .error e) ∧
    (∃ e, Quantity.add fs ⟨x, .compound c⟩ (.quantity ⟨y, v⟩) = .error e) ∧
    (∃ e, Quantity.eq fs ⟨x, .compound c⟩ (.quantity ⟨y, v⟩) = .error e) := by
  apply no_dimension
  obtain ⟨e, he⟩ := dimensionsFrom_unknown (BUnit.compound c).bases []
    ⟨(u.name, p), List.mem_map.2 ⟨(u, p), hc, rfl⟩, hname⟩
  exact ⟨e, by simp [BUnit.dimension, BUnit.dimensions, he, Except.map]⟩

/-- **C89 (failure).** The products and quotients of a user-defined unit with another named unit and
its powers list it, so `C89_compound_of_new_name_unusable` applies to them. -/
theorem C89_arithmetic_lists_unit (u w : NamedUnit) (hid : u.id ≠ w.id) (k : ℤ) (hk : k ≠ 0) :
    (∃ c, (BUnit.named u).mul (.named w) = .compound c ∧ (u, 1) ∈ c.bases) ∧
    (∃ c, (BUnit.named u).div (.named w) = .compound c ∧ (u, 1) ∈ c.bases) ∧
    (∃ c, (BUnit.named w).div (.named u) = .compound c ∧ (u, -1) ∈ c.bases) ∧
    (∃ c, (BUnit.named u).pow k = .compound c ∧ (u, k) ∈ c.bases) := by
  refine ⟨⟨_, by simp [BUnit.mul, BUnit.isUnity]; rfl, ?_⟩, ⟨_, rfl, ?_⟩, ⟨_, rfl, ?_⟩,
    ⟨_, rfl, ?_⟩⟩
  · simp [Compound.init, expandAndCollect, collectStep, hasId, hid]
  · simp [Compound.init, expandAndCollect, collectStep, hasId, hid]
  · simp [Compound.init, expandAndCollect, collectStep, hasId, hid.symm]
  · unfold Compound.init
    by_cases h0 : 0 ≤ k
    · simp [h0, hk]
    · simp [h0, expandAndCollect, collectStep, hasId]

/-- **C89 (failure).** A new base unit (without definition) of a new name has no dimension: its
quantities cannot be converted even to their own unit. -/
theorem C89_new_base_unit_unusable (fs : ℚ → Str) (id : ℕ) (name : Str)
    (hname : dimensionDictionary.lookup name = none) (x y : ℚ) (v : BUnit) :
    (∃ e, Quantity.to fs ⟨x, .named (defineUnit id name none)⟩ v = .error e) ∧
    (∃ e, Quantity.to fs ⟨y, v⟩ (.named (defineUnit id name none)) = .error e) ∧
    (∃ e, Quantity.add fs ⟨x, .named (defineUnit id name none)⟩ (.quantity ⟨y, v⟩) = .error e) ∧
    (∃ e, Quantity.eq fs ⟨x, .named (defineUnit id name none)⟩ (.quantity ⟨y, v⟩) =
      .error e) := by
  apply no_dimension
  exact ⟨.keyError, by simp [BUnit.dimension, BUnit.dimensions, BUnit.bases, defineUnit,
    dimensionsFrom, hname, Except.map]⟩

/-- **C89 (failure).** Units are told apart by name: a user-defined unit that reuses the name of a
unit in hand is converted to it without applying any factor. -/
theorem C89_reused_name_not_converted (fs : ℚ → Str) (S : List NamedUnit) (hS : UnitSystem S)
    (b v : NamedUnit) (hb : b ∈ S) (hv : v ∈ S)
    (hd : dimensionDictionary.lookup b.name = dimensionDictionary.lookup v.name)
    (id : ℕ) (k x : ℚ) :
    Quantity.to fs ⟨x, .named (defineUnit id v.name (some ((BUnit.named b).smul k)))⟩ (.named v) =
      .ok x := by
  obtain ⟨d, hbd, -⟩ := hS.dims b hb
  obtain ⟨d', hvd, n, hn, hnd⟩ := hS.dims v hv
  obtain rfl : d = d' := by
    rw [hbd, hvd] at hd; exact Option.some.inj hd
  rw [defineUnit_smul]
  have e1 : (BUnit.named ⟨id, v.name, k * b.scale, [(b.name, 1)]⟩).dimension = .ok [d] :=
    dimension_single _ b.name d rfl hbd
  have e2 : (BUnit.named v).dimension = .ok [d] := dimension_single v n d hn hnd
  have r1 : (BUnit.named ⟨id, v.name, k * b.scale, [(b.name, 1)]⟩).repr fs =
      (BUnit.named v).repr fs := (repr_named_inj fs _ _).2 rfl
  simp [Quantity.to, Quantity.convertTo, e1, e2, r1, Except.map]

/-- The failing cases occur: knots cannot be converted, and a second kilometre of 1024 m counts as a
kilometre. -/
example : dimensionDictionary.lookup "nmi".toList = none ∧
    Quantity.to (fun _ => []) ⟨1, (BUnit.named (defineUnit 99 "nmi".toList
      (some ((BUnit.named m).smul 1852)))).div (.named hr)⟩ ((BUnit.named m).div (.named s)) =
      .error .keyError ∧
    Quantity.to (fun _ => []) ⟨1, .named (defineUnit 99 "km".toList
      (some ((BUnit.named m).smul 1024)))⟩ (.named km) = .ok 1 := by decide +kernel

/-! ### C90: the name space -/

/-- A name space of units: what each name refers to.  Entries of the dictionary that are not units are
left out: they block a name in the same way. -/
abbrev Namespace := Str → Option NamedUnit

/-- `_insert_into_namespace` (core.py 134-137): only a name not yet present is bound. -/
def Namespace.insert (ns : Namespace) (u : NamedUnit) : Namespace := fun n =>
  if n = u.name ∧ ns n = none then some u else ns n

/-- A sequence of unit definitions in one name space (`setup_unit`, utils.py 4-5). -/
def Namespace.define (ns : Namespace) (us : List NamedUnit) : Namespace := us.foldl .insert ns

/-- **C90.** Whatever units are defined afterwards, a name keeps its meaning; a new name means the
first unit defined under it. -/
theorem C90_names_keep_meaning (ns : Namespace) (us : List NamedUnit) (n : Str) :
    (∀ u, ns n = some u → (ns.define us) n = some u) ∧
    (ns n = none → (ns.define us) n = us.find? (fun u => u.name = n)) := by
  induction us generalizing ns with
  | nil => exact ⟨fun u h => h, fun h => h⟩
  | cons v us ih =>
    obtain ⟨h1, h2⟩ := ih (ns.insert v)
    have hdef : ns.define (v :: us) = (ns.insert v).define us := rfl
    rw [hdef]
    constructor
    · intro u hu
      apply h1
      simp [Namespace.insert, hu]
    · intro hn
      by_cases hv : v.name = n
      · rw [List.find?_cons_of_pos (by simpa using hv)]
        apply h1
        simp [Namespace.insert, hn, hv]
      · rw [List.find?_cons_of_neg (by simpa using hv)]
        apply h2
        simp [Namespace.insert, hn, Ne.symm hv]

/-- Non-vacuity: the package's own definitions make every name of the registry available, and a
later redefinition of a name changes nothing. -/
example : (∀ u ∈ registry, Namespace.define (fun _ => none) (registry ++
    [defineUnit 99 "km".toList (some ((BUnit.named m).smul 1024))]) u.name = some u) := by
  decide +kernel

/-! ### C91: sizes of the package's units -/

/-- The sizes of units by their definitions, in metres, seconds and degrees (international inch,
foot, yard and mile). -/
def officialSize : List (NamedUnit × ℚ) :=
  [(m, 1), (mm, 1 / 1000), (cm, 1 / 100), (km, 1000), (inch, 254 / 10000), (ft, 3048 / 10000),
   (yd, 9144 / 10000), (mi, 1609344 / 1000), (s, 1), (min', 60), (hr, 3600), (dy, 86400), (deg, 1),
   (arcsec, 1 / 3600), (arcmin, 1 / 60), (hourangle, 15)]

/-- Conversion between the named units of a system multiplies by the ratio of scales. -/
theorem named_to (fs : ℚ → Str) (S : List NamedUnit) (hS : UnitSystem S) (a b : NamedUnit)
    (ha : a ∈ S) (hb : b ∈ S)
    (hd : dimensionDictionary.lookup a.name = dimensionDictionary.lookup b.name) (x : ℚ) :
    Quantity.to fs ⟨x, .named a⟩ (.named b) = .ok (x * a.scale / b.scale) := by
  obtain ⟨d, had, n, hn, hnd⟩ := hS.dims a ha
  obtain ⟨d', hbd, n', hn', hnd'⟩ := hS.dims b hb
  obtain rfl : d = d' := by
    rw [had, hbd] at hd; exact Option.some.inj hd
  have e1 : (BUnit.named a).dimension = .ok [d] := dimension_single a n d hn hnd
  have e2 : (BUnit.named b).dimension = .ok [d] := dimension_single b n' d hn' hnd'
  have hb0 := (hS.pos b hb).ne'
  by_cases hr : a.name = b.name
  · obtain rfl := hS.stems a ha b hb (by rw [hr])
    simp [Quantity.to, Quantity.convertTo, e1, Except.map, hb0]
  · have r1 : (BUnit.named a).repr fs ≠ (BUnit.named b).repr fs := by
      rwa [Ne, repr_named_inj]
    simp [Quantity.to, Quantity.convertTo, e1, e2, r1, unitScale, hb0, Except.map, mul_div_assoc]

/-- **C91 (partial).** Conversions between the package's units of length, time and angle other than
foot, yard and radian are exact for every value.  Missing: foot and yard, for which
`C91_foot_and_yard_wrong` refutes it, and the radian, see `C91_radian_partial`. -/
theorem C91_exact_conversions_partial (fs : ℚ → Str) (a b : NamedUnit × ℚ) (ha : a ∈ officialSize)
    (hb : b ∈ officialSize) (h : ∀ u ∈ [a.1, b.1], u ≠ ft ∧ u ≠ yd)
    (hd : dimensionDictionary.lookup a.1.name = dimensionDictionary.lookup b.1.name) (x : ℚ) :
    Quantity.to fs ⟨x, .named a.1⟩ (.named b.1) = .ok (x * a.2 / b.2) := by
  have key : ∀ a ∈ officialSize, a.1 ≠ ft → a.1 ≠ yd → a.1 ∈ registry ∧ a.1.scale = a.2 := by
    decide +kernel
  obtain ⟨ha1, ha2⟩ := key a ha (h a.1 (by simp)).1 (h a.1 (by simp)).2
  obtain ⟨hb1, hb2⟩ := key b hb (h b.1 (by simp)).1 (h b.1 (by simp)).2
  rw [named_to fs registry registry_system a.1 b.1 ha1 hb1 hd, ha2, hb2]

/-- Non-vacuity: 3 miles are 4828.032 m. -/
example : (mi, 1609344 / 1000) ∈ officialSize ∧ (m, 1) ∈ officialSize ∧
    Quantity.to (fun _ => []) ⟨3, .named mi⟩ (.named m) = .ok (4828032 / 1000) := by
  decide +kernel

/-- **C91 (failure).** Converting between inches, feet, yards and miles does not follow their
definitions, whatever the value. -/
theorem C91_foot_and_yard_wrong (fs : ℚ → Str) (x : ℚ) (hx : x ≠ 0) :
    Quantity.to fs ⟨x, .named ft⟩ (.named inch) ≠ .ok (12 * x) ∧
    Quantity.to fs ⟨x, .named yd⟩ (.named ft) ≠ .ok (3 * x) ∧
    Quantity.to fs ⟨x, .named mi⟩ (.named yd) ≠ .ok (1760 * x) ∧
    Quantity.to fs ⟨x, .named mi⟩ (.named inch) = .ok (63360 * x) := by
  have mem : ∀ u ∈ [ft, inch, yd, mi], u ∈ registry ∧
      dimensionDictionary.lookup u.name = some 'L' := by decide +kernel
  have conv : ∀ a ∈ [ft, inch, yd, mi], ∀ b ∈ [ft, inch, yd, mi],
      Quantity.to fs ⟨x, .named a⟩ (.named b) = .ok (x * a.scale / b.scale) := fun a ha b hb =>
    named_to fs registry registry_system a b (mem a ha).1 (mem b hb).1
      (by rw [(mem a ha).2, (mem b hb).2]) x
  have s1 : ft.scale = 305 / 1000 := by decide +kernel
  have s2 : inch.scale = 254 / 10000 := by decide +kernel
  have s3 : yd.scale = 914 / 1000 := by decide +kernel
  have s4 : mi.scale = 1609344 / 1000 := by decide +kernel
  rw [conv ft (by simp) inch (by simp), conv yd (by simp) ft (by simp),
    conv mi (by simp) yd (by simp), conv mi (by simp) inch (by simp), s1, s2, s3, s4]
  refine ⟨fun h => hx ?_, fun h => hx ?_, fun h => hx ?_, ?_⟩
  · have := Except.ok.inj h; linarith
  · have := Except.ok.inj h; linarith
  · have := Except.ok.inj h; linarith
  · congr 1; ring

/-- **C91.** The radian is `180 / π` degrees to within `10⁻¹³`. -/
theorem C91_radian_partial : |((rad.scale : ℚ) : ℝ) - 180 / Real.pi| < 10 ^ (-13 : ℤ) := by
  have h : rad.scale = 5729577951308232 / 100000000000000 := by decide +kernel
  rw [h, abs_lt]
  have h1 := Real.pi_gt_d20
  have h2 := Real.pi_lt_d20
  have h0 := Real.pi_pos
  push_cast
  constructor
  · rw [lt_sub_iff_add_lt, ← lt_sub_iff_add_lt', div_lt_iff₀ h0]
    norm_num
    nlinarith
  · rw [sub_lt_comm, lt_div_iff₀ h0]
    norm_num
    nlinarith

end Celest.Units
