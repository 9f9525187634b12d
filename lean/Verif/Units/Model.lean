/-
Model of celest/units/core.py, display.py, quantity.py and unit_initialization.py.

Floats are exact rationals, exponents are integers (simplified: no fractional powers), quantity
data is a number (arrays are modelled at the end).  Python objects are told apart by `id`:
`in` and `list.index` on units compare identities, since no unit class defines `__eq__`.
-/
import Verif.Text.Model

namespace Celest.Units

open Celest.Text (Str natStr)

/-- `Unit` (core.py 140-199).  `bases` are the short names and powers of `Unit.bases` and
`Unit.powers`, all that is read of them (display.py 86-87). -/
structure NamedUnit where
  id : ℕ
  name : Str
  scale : ℚ
  bases : List (Str × ℤ)
deriving DecidableEq

/-- `CompoundUnit` (core.py 202-294): `_scale`, `_bases` with `_powers`, `_is_unity`. -/
structure Compound where
  scale : ℚ
  bases : List (NamedUnit × ℤ)
  unity : Bool
deriving DecidableEq

/-- A `Unit` or a `CompoundUnit`. -/
inductive BUnit
  | named (n : NamedUnit)
  | compound (c : Compound)
deriving DecidableEq

/-- `base in bases` (core.py 274, 282): by identity. -/
def hasId (id : ℕ) (l : List (NamedUnit × ℤ)) : Bool := l.any fun b => b.1.id = id

/-- `handle_repeated_units` (core.py 262-269). -/
def handleRepeated (l : List (NamedUnit × ℤ)) (b : NamedUnit) (p : ℤ) : List (NamedUnit × ℤ) :=
  match l with
  | [] => []
  | (b', p') :: l =>
    if b'.id = b.id then
      if p' + p = 0 then l else (b', p' + p) :: l
    else (b', p') :: handleRepeated l b p

/-- One base of a nested compound unit (core.py 274-281).  The inner `else` (line 279) is
unreachable; line 281 adds `p`, not `p * power`. -/
def addNested (power : ℤ) (l : List (NamedUnit × ℤ)) (bp : NamedUnit × ℤ) :
    List (NamedUnit × ℤ) :=
  if hasId bp.1.id l then handleRepeated l bp.1 bp.2 else l ++ [(bp.1, bp.2 * power)]

/-- One pass of the loop of `_expand_and_collect` (core.py 271-286). -/
def collectStep (l : List (NamedUnit × ℤ)) (part : BUnit × ℤ) : List (NamedUnit × ℤ) :=
  match part.1 with
  | .compound c => c.bases.foldl (addNested part.2) l
  | .named n => if hasId n.id l then handleRepeated l n part.2 else l ++ [(n, part.2)]

/-- `_expand_and_collect` (core.py 254-291). -/
def expandAndCollect (parts : List (BUnit × ℤ)) : List (NamedUnit × ℤ) :=
  parts.foldl collectStep []

/-- `CompoundUnit.__init__` (core.py 218-237). -/
def Compound.init (scale : ℚ) (parts : List (BUnit × ℤ)) : Compound :=
  let general : Compound :=
    let bases := expandAndCollect parts
    ⟨scale, bases, bases.isEmpty⟩
  match parts with
  | [(.named n, p)] =>
    if 0 ≤ p then
      if p = 0 then ⟨scale * n.scale, [], false⟩
      else ⟨scale * n.scale ^ p, [(n, p)], false⟩
    else general
  | _ => general

/-- `is_unity` (core.py 83-87, 293-294). -/
def BUnit.isUnity : BUnit → Bool
  | .named _ => false
  | .compound c => c.unity

/-- `scale` (core.py 181-185, 242-244). -/
def BUnit.scale : BUnit → ℚ
  | .named n => n.scale
  | .compound c => c.scale

/-- `__pow__` with an integer (core.py 43-47). -/
def BUnit.pow (u : BUnit) (p : ℤ) : BUnit := .compound (.init 1 [(u, p)])

/-- `__truediv__` with a unit (core.py 49-53). -/
def BUnit.div (u v : BUnit) : BUnit := .compound (.init 1 [(u, 1), (v, -1)])

/-- `1 / unit` (core.py 55-57). -/
def BUnit.inv (u : BUnit) : BUnit := .compound (.init 1 [(u, -1)])

/-- `__mul__` with a unit (core.py 63-69). -/
def BUnit.mul (u v : BUnit) : BUnit :=
  if v.isUnity then u
  else if u.isUnity then v
  else .compound (.init 1 [(u, 1), (v, 1)])

/-- `__mul__`/`__rmul__` with a number (core.py 70-71, 80-81). -/
def BUnit.smul (k : ℚ) (u : BUnit) : BUnit := .compound (.init k [(u, 1)])

/-- Right operand of `*` on a unit. -/
inductive Operand
  | unit (u : BUnit)
  | number (k : ℚ)
  | other

/-- `__mul__` in full (core.py 63-71): any other operand falls through and yields `None`. -/
def BUnit.mulAny (u : BUnit) : Operand → Option BUnit
  | .unit v => some (u.mul v)
  | .number k => some (u.smul k)
  | .other => none

/-- `Unit.__init__` (core.py 163-175) for a unit object with identity `id`. -/
def defineUnit (id : ℕ) (name : Str) : Option BUnit → NamedUnit
  | none => ⟨id, name, 1, [(name, 1)]⟩
  | some (.named n) => ⟨id, name, n.scale, n.bases⟩
  | some (.compound c) => ⟨id, name, c.scale, c.bases.map fun b => (b.1.name, b.2)⟩

/-! ### display.py -/

/-- Name and power (display.py 19-20, 67). -/
def token (name : Str) (p : ℤ) : Str :=
  name ++ (if p.natAbs = 1 then [] else natStr p.natAbs)

/-- `" ".join(strings)`. -/
def joinSpace (l : List Str) : Str := List.intercalate [' '] l

/-- The common shape of `generate_compound_unit_string` and `get_dimension_string`
(display.py 16-35, 61-79): numerator and denominator of named powers. -/
def fraction (prefix_ : Str) (l : List (Str × ℤ)) : Str :=
  let num := (l.filter fun b => 0 < b.2).map fun b => token b.1 b.2
  let den := (l.filter fun b => ¬ 0 < b.2).map fun b => token b.1 b.2
  let numerator := if num = [] then ['1'] else joinSpace num
  if den = [] then prefix_ ++ numerator
  else joinSpace [prefix_ ++ numerator, ['/'], joinSpace den]

/-- `generate_compound_unit_string` (display.py 15-35); `fs` is `str` on floats. -/
def Compound.str (fs : ℚ → Str) (c : Compound) : Str :=
  fraction (if c.scale = 1 then [] else fs c.scale ++ [' ']) (c.bases.map fun b => (b.1.name, b.2))

/-- `_to_string` (display.py 6-12). -/
def BUnit.str (fs : ℚ → Str) : BUnit → Str
  | .named n => n.name
  | .compound c => c.str fs

/-- `__repr__` (core.py 177-178, 239-240). -/
def BUnit.repr (fs : ℚ → Str) : BUnit → Str
  | .named n => "Unit(\"".toList ++ n.name ++ "\")".toList
  | .compound c => "CompoundUnit(\"".toList ++ c.str fs ++ "\")".toList

/-- `UNIT_TO_DIMENSION_DICTIONARY` (display.py 38-57). -/
def dimensionDictionary : List (Str × Char) :=
  [("m".toList, 'L'), ("mm".toList, 'L'), ("cm".toList, 'L'), ("km".toList, 'L'),
   ("inch".toList, 'L'), ("ft".toList, 'L'), ("yd".toList, 'L'), ("mi".toList, 'L'),
   ("s".toList, 'T'), ("min".toList, 'T'), ("hr".toList, 'T'), ("dy".toList, 'T'),
   ("jd2000".toList, 'D'), ("deg".toList, 'A'), ("rad".toList, 'A'), ("arcsec".toList, 'A'),
   ("arcmin".toList, 'A'), ("hourangle".toList, 'A')]

/-- `unit.bases`, `unit.powers` as names and powers. -/
def BUnit.bases : BUnit → List (Str × ℤ)
  | .named n => n.bases
  | .compound c => c.bases.map fun b => (b.1.name, b.2)

/-- Add to the power of a dimension already present (display.py 88-95).  When the powers
cancel, line 93 calls `pop` on an integer: `AttributeError`. -/
def addDimension (l : List (Char × ℤ)) (d : Char) (p : ℤ) : Py (List (Char × ℤ)) :=
  match l with
  | [] => .ok [(d, p)]
  | (d', p') :: l =>
    if d' = d then
      if p' + p = 0 then .error .attributeError else .ok ((d', p' + p) :: l)
    else
      match addDimension l d p with
      | .ok l => .ok ((d', p') :: l)
      | .error e => .error e

/-- The loop of `get_dimensions_from_unit` (display.py 86-98). -/
def dimensionsFrom : List (Str × ℤ) → List (Char × ℤ) → Py (List (Char × ℤ))
  | [], acc => .ok acc
  | (name, p) :: l, acc =>
    match dimensionDictionary.lookup name with
    | none => .error .keyError
    | some d =>
      match addDimension acc d p with
      | .error e => .error e
      | .ok acc => dimensionsFrom l acc

/-- `get_dimensions_from_unit` (display.py 82-100). -/
def BUnit.dimensions (u : BUnit) : Py (List (Char × ℤ)) := dimensionsFrom u.bases []

/-- `get_dimension_string` (display.py 60-79), the `dimension` property (core.py 15-20). -/
def BUnit.dimension (u : BUnit) : Py Str :=
  u.dimensions.map fun l => fraction [] (l.map fun b => ([b.1], b.2))

/-! ### quantity.py -/

/-- `Quantity` (quantity.py 74-92) holding a number. -/
structure Quantity where
  data : ℚ
  unit : BUnit
deriving DecidableEq

/-- `_get_unit_scale` (quantity.py 281-288): of a compound unit the product over its bases,
without the compound's own scale. -/
def unitScale : BUnit → ℚ
  | .named n => n.scale
  | .compound c => (c.bases.map fun b => b.1.scale ^ b.2).prod

/-- `deepcopy` of a unit: new objects, i.e. identities renamed by `ρ`. -/
def NamedUnit.copy (ρ : ℕ → ℕ) (n : NamedUnit) : NamedUnit := { n with id := ρ n.id }

/-- `deepcopy` of a unit. -/
def BUnit.copy (ρ : ℕ → ℕ) : BUnit → BUnit
  | .named n => .named (n.copy ρ)
  | .compound c => .compound { c with bases := c.bases.map fun b => (b.1.copy ρ, b.2) }

/-- `Quantity.convert_to` (quantity.py 253-297). -/
def Quantity.convertTo (fs : ℚ → Str) (ρ : ℕ → ℕ) (q : Quantity) (v : BUnit) : Py Quantity :=
  match q.unit.dimension with
  | .error e => .error e
  | .ok d =>
    match v.dimension with
    | .error e => .error e
    | .ok d' =>
      if d ≠ d' then .error .valueError
      else if q.unit.repr fs ≠ v.repr fs then
        if unitScale v = 0 then .error .zeroDivisionError
        else .ok ⟨q.data * (unitScale q.unit / unitScale v), v⟩
      else .ok ⟨q.data, q.unit.copy ρ⟩

/-- `Quantity.to` (quantity.py 231-251).  The identities of the copy do not show in the data. -/
def Quantity.to (fs : ℚ → Str) (q : Quantity) (v : BUnit) : Py ℚ :=
  (q.convertTo fs id v).map Quantity.data

/-- A numeric or quantity operand, or anything else. -/
inductive Arg
  | number (x : ℚ)
  | quantity (q : Quantity)
  | other

/-- The comparison of dimension strings in the operators (quantity.py 108, 130, 148, 176, 188,
200). -/
def sameDimension (u v : BUnit) : Py Bool :=
  match u.dimension with
  | .error e => .error e
  | .ok d =>
    match v.dimension with
    | .error e => .error e
    | .ok d' => .ok (d = d')

/-- `Quantity.__neg__` (quantity.py 100-101). -/
def Quantity.neg (q : Quantity) : Quantity := ⟨-q.data, q.unit⟩

/-- `Quantity.__add__`, `__radd__` (quantity.py 103-117); other operands yield
`NotImplemented`, a `TypeError`. -/
def Quantity.add (fs : ℚ → Str) (q : Quantity) : Arg → Py Quantity
  | .number x => .ok ⟨q.data + x, q.unit⟩
  | .quantity r =>
    match sameDimension q.unit r.unit with
    | .error e => .error e
    | .ok false => .error .arithmeticError
    | .ok true =>
      match r.to fs q.unit with
      | .error e => .error e
      | .ok y => .ok ⟨q.data + y, q.unit⟩
  | .other => .error .typeError

/-- Unary minus on an operand (quantity.py 120). -/
def Arg.neg : Arg → Py Arg
  | .number x => .ok (.number (-x))
  | .quantity q => .ok (.quantity q.neg)
  | .other => .error .typeError

/-- `Quantity.__sub__` (quantity.py 119-120). -/
def Quantity.sub (fs : ℚ → Str) (q : Quantity) (a : Arg) : Py Quantity :=
  match a.neg with
  | .error e => .error e
  | .ok a' => q.add fs a'

/-- `number - quantity`: `Quantity.__rsub__` (quantity.py 122-123). -/
def Quantity.rsub (fs : ℚ → Str) (q : Quantity) (a : Arg) : Py Quantity :=
  (q.sub fs a).map Quantity.neg

/-- `Quantity.__mul__`, `__rmul__` (quantity.py 125-141). -/
def Quantity.mul (fs : ℚ → Str) (q : Quantity) : Arg → Py Quantity
  | .number x => .ok ⟨q.data * x, q.unit⟩
  | .quantity r =>
    match sameDimension q.unit r.unit with
    | .error e => .error e
    | .ok true =>
      match r.to fs q.unit with
      | .error e => .error e
      | .ok y => .ok ⟨q.data * y, q.unit.pow 2⟩
    | .ok false => .ok ⟨q.data * r.data, q.unit.mul r.unit⟩
  | .other => .error .typeError

/-- Division of numbers. -/
def pyDiv (x y : ℚ) : Py ℚ := if y = 0 then .error .zeroDivisionError else .ok (x / y)

/-- `Quantity.__truediv__` (quantity.py 143-156). -/
def Quantity.div (fs : ℚ → Str) (q : Quantity) : Arg → Py Quantity
  | .number x => (pyDiv q.data x).map fun d => ⟨d, q.unit⟩
  | .quantity r =>
    match sameDimension q.unit r.unit with
    | .error e => .error e
    | .ok true =>
      match r.to fs q.unit with
      | .error e => .error e
      | .ok y => (pyDiv q.data y).map fun d => ⟨d, q.unit.div q.unit⟩
    | .ok false => (pyDiv q.data r.data).map fun d => ⟨d, q.unit.div r.unit⟩
  | .other => .error .typeError

/-- `number / quantity`: `Quantity.__rtruediv__` (quantity.py 158-162). -/
def Quantity.rdivNumber (q : Quantity) (x : ℚ) : Py Quantity :=
  (pyDiv x q.data).map fun d => ⟨d, q.unit.inv⟩

/-- Result of a comparison method: a truth value or `NotImplemented`. -/
inductive Cmp
  | bool (b : Bool)
  | notImplemented
deriving DecidableEq

/-- `__eq__`, `__lt__`, `__gt__` share this shape (quantity.py 174-181, 186-193, 198-205). -/
def Quantity.compare (fs : ℚ → Str) (test : ℚ → ℚ → Bool) (q : Quantity) : Arg → Py Cmp
  | .quantity r =>
    match sameDimension q.unit r.unit with
    | .error e => .error e
    | .ok false => .error .arithmeticError
    | .ok true =>
      match r.to fs q.unit with
      | .error e => .error e
      | .ok y => .ok (.bool (test q.data y))
  | _ => .ok .notImplemented

/-- `Quantity.__eq__` (quantity.py 174-181). -/
def Quantity.eq (fs : ℚ → Str) (q : Quantity) (a : Arg) : Py Cmp :=
  q.compare fs (fun x y => x = y) a

/-- `Quantity.__lt__` (quantity.py 186-193). -/
def Quantity.lt (fs : ℚ → Str) (q : Quantity) (a : Arg) : Py Cmp :=
  q.compare fs (fun x y => x < y) a

/-- `Quantity.__gt__` (quantity.py 198-205). -/
def Quantity.gt (fs : ℚ → Str) (q : Quantity) (a : Arg) : Py Cmp :=
  q.compare fs (fun x y => y < x) a

/-- Truth value of a comparison result: `NotImplemented` is truthy. -/
def Cmp.truthy : Cmp → Bool
  | .bool b => b
  | .notImplemented => true

/-- `Quantity.__ne__` (quantity.py 183-184): `not self.__eq__(other)`. -/
def Quantity.ne (fs : ℚ → Str) (q : Quantity) (a : Arg) : Py Bool :=
  (q.eq fs a).map fun c => !c.truthy

/-- `a or b` (quantity.py 196, 208). -/
def orElse (a b : Py Cmp) : Py Cmp :=
  match a with
  | .error e => .error e
  | .ok c => if c.truthy then .ok c else b

/-- `Quantity.__le__` (quantity.py 195-196). -/
def Quantity.le (fs : ℚ → Str) (q : Quantity) (a : Arg) : Py Cmp := orElse (q.eq fs a) (q.lt fs a)

/-- `Quantity.__ge__` (quantity.py 207-208). -/
def Quantity.ge (fs : ℚ → Str) (q : Quantity) (a : Arg) : Py Cmp := orElse (q.eq fs a) (q.gt fs a)

/-- The `==` operator: on `NotImplemented` from both sides Python compares identities, and a
quantity is not identical to an object that is no quantity. -/
def Quantity.eqOperator (fs : ℚ → Str) (q : Quantity) (a : Arg) : Py Bool :=
  (q.eq fs a).map fun c => match c with
    | .bool b => b
    | .notImplemented => false

/-! ### Array data -/

/-- A one-dimensional NumPy array; `ints` says whether its dtype is an integer one. -/
structure Arr where
  ints : Bool
  data : List ℚ
deriving DecidableEq

/-- `convert_to(..).data` for an array (quantity.py 290-297): `*=` with a float on an integer
array raises a `TypeError` (`UFuncTypeError`). -/
def convertArr (fs : ℚ → Str) (a : Arr) (u v : BUnit) : Py Arr :=
  match u.dimension with
  | .error e => .error e
  | .ok d =>
    match v.dimension with
    | .error e => .error e
    | .ok d' =>
      if d ≠ d' then .error .valueError
      else if u.repr fs ≠ v.repr fs then
        if unitScale v = 0 then .error .zeroDivisionError
        else if a.ints then .error .typeError
        else .ok { a with data := a.data.map (· * (unitScale u / unitScale v)) }
      else .ok a

/-- `q != r` for arrays of equal length (quantity.py 183-184): `not` of an array of two or more
elements raises `ValueError`. -/
def neArr (fs : ℚ → Str) (a : Arr) (u : BUnit) (b : Arr) (v : BUnit) : Py Bool :=
  match sameDimension u v with
  | .error e => .error e
  | .ok false => .error .arithmeticError
  | .ok true =>
    match convertArr fs b v u with
    | .error e => .error e
    | .ok b' =>
      match List.zipWith (fun x y : ℚ => decide (x = y)) a.data b'.data with
      | [x] => .ok (!x)
      | _ => .error .valueError

/-! ### unit_initialization.py -/

/-- A unit without definition. -/
def baseUnit (id : ℕ) (name : String) : NamedUnit := defineUnit id name.toList none

/-- `setup_unit(name, .., k * base)` (unit_initialization.py 10-39). -/
def scaledUnit (id : ℕ) (name : String) (k : ℚ) (base : NamedUnit) : NamedUnit :=
  defineUnit id name.toList (some ((BUnit.named base).smul k))

def m := baseUnit 0 "m"
def mm := scaledUnit 1 "mm" (1 / 1000) m
def cm := scaledUnit 2 "cm" (1 / 100) m
def km := scaledUnit 3 "km" 1000 m
def inch := scaledUnit 4 "inch" (254 / 10000) m
def ft := scaledUnit 5 "ft" (305 / 1000) m
def yd := scaledUnit 6 "yd" (914 / 1000) m
def mi := scaledUnit 7 "mi" (1609344 / 1000) m
def s := baseUnit 8 "s"
def min' := scaledUnit 9 "min" 60 s
def hr := scaledUnit 10 "hr" 3600 s
def dy := scaledUnit 11 "dy" 86400 s
def jd2000 := baseUnit 12 "jd2000"
def deg := baseUnit 13 "deg"
def rad := scaledUnit 14 "rad" (5729577951308232 / 100000000000000) deg
def arcsec := scaledUnit 15 "arcsec" (1 / 3600) deg
def arcmin := scaledUnit 16 "arcmin" (1 / 60) deg
def hourangle := scaledUnit 17 "hourangle" 15 deg

/-- The units the package defines (unit_initialization.py 8-39). -/
def registry : List NamedUnit :=
  [m, mm, cm, km, inch, ft, yd, mi, s, min', hr, dy, jd2000, deg, rad, arcsec, arcmin, hourangle]

end Celest.Units
