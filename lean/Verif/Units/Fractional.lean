/-
Model of celest/units/core.py, display.py and `convert_to` of quantity.py with exponents that are
Python numbers: integers or floats.

Factors and quantity data are exact real numbers; sums and products of exponents are rounded by `fl`
when a float is involved.
-/
import Verif.Units.Model
import Mathlib.Analysis.SpecialFunctions.Pow.Real

namespace Celest.Units.Frac

open Celest.Text (Str natStr)

/-- A Python number used as an exponent. -/
inductive Num
  | int (n : ℤ)
  | float (x : ℚ)
deriving DecidableEq

namespace Num

/-- The number itself. -/
def value : Num → ℚ
  | int n => n
  | float x => x

/-- `a + b`: a float as soon as one of the two is. -/
def add (fl : ℚ → ℚ) : Num → Num → Num
  | int m, int n => int (m + n)
  | a, b => float (fl (a.value + b.value))

/-- `a * b`: a float as soon as one of the two is. -/
def mul (fl : ℚ → ℚ) : Num → Num → Num
  | int m, int n => int (m * n)
  | a, b => float (fl (a.value * b.value))

/-- `str(abs(power))`; `fs` is `str` on floats (display.py 20, 67). -/
def absText (fs : ℚ → Str) : Num → Str
  | int n => natStr n.natAbs
  | float x => fs |x|

end Num

/-- `CompoundUnit` (core.py 202-294): `_scale`, `_bases` with `_powers`, `_is_unity`. -/
structure Compound where
  scale : ℝ
  bases : List (NamedUnit × Num)
  unity : Bool

/-- A `Unit` or a `CompoundUnit`.  Simplified: named units are those of the integer model, i.e. not
defined by a formula with fractional powers. -/
inductive FUnit
  | named (n : NamedUnit)
  | compound (c : Compound)

/-- `base in bases` (core.py 274, 282): by identity. -/
def hasId (id : ℕ) (l : List (NamedUnit × Num)) : Bool := l.any fun b => b.1.id = id

section
variable (fl : ℚ → ℚ)

/-- `handle_repeated_units` (core.py 262-269). -/
def handleRepeated (l : List (NamedUnit × Num)) (b : NamedUnit) (p : Num) :
    List (NamedUnit × Num) :=
  match l with
  | [] => []
  | (b', p') :: l =>
    if b'.id = b.id then
      if (p'.add fl p).value = 0 then l else (b', p'.add fl p) :: l
    else (b', p') :: handleRepeated l b p

/-- One base of a nested compound unit (core.py 274-281).  The inner `else` (line 279) is
unreachable; line 281 adds `p`, not `p * power`. -/
def addNested (power : Num) (l : List (NamedUnit × Num)) (bp : NamedUnit × Num) :
    List (NamedUnit × Num) :=
  if hasId bp.1.id l then handleRepeated fl l bp.1 bp.2 else l ++ [(bp.1, bp.2.mul fl power)]

/-- One pass of the loop of `_expand_and_collect` (core.py 271-286). -/
def collectStep (l : List (NamedUnit × Num)) (part : FUnit × Num) : List (NamedUnit × Num) :=
  match part.1 with
  | .compound c => c.bases.foldl (addNested fl part.2) l
  | .named n => if hasId n.id l then handleRepeated fl l n part.2 else l ++ [(n, part.2)]

/-- `_expand_and_collect` (core.py 254-291). -/
def expandAndCollect (parts : List (FUnit × Num)) : List (NamedUnit × Num) :=
  parts.foldl (collectStep fl) []

/-- `CompoundUnit.__init__` (core.py 218-237). -/
noncomputable def Compound.init (scale : ℝ) (parts : List (FUnit × Num)) : Compound :=
  let general : Compound :=
    let bases := expandAndCollect fl parts
    ⟨scale, bases, bases.isEmpty⟩
  match parts with
  | [(.named n, p)] =>
    if 0 ≤ p.value then
      if p.value = 0 then ⟨scale * n.scale, [], false⟩
      else ⟨scale * (n.scale : ℝ) ^ (p.value : ℝ), [(n, p)], false⟩
    else general
  | _ => general

/-- `is_unity` (core.py 83-87, 293-294). -/
def FUnit.isUnity : FUnit → Bool
  | .named _ => false
  | .compound c => c.unity

/-- `__pow__` (core.py 43-47). -/
noncomputable def FUnit.pow (u : FUnit) (p : Num) : FUnit := .compound (.init fl 1 [(u, p)])

/-- `__truediv__` with a unit (core.py 49-53). -/
noncomputable def FUnit.div (u v : FUnit) : FUnit :=
  .compound (.init fl 1 [(u, .int 1), (v, .int (-1))])

/-- `1 / unit` (core.py 55-57). -/
noncomputable def FUnit.inv (u : FUnit) : FUnit := .compound (.init fl 1 [(u, .int (-1))])

/-- `__mul__` with a unit (core.py 63-69). -/
noncomputable def FUnit.mul (u v : FUnit) : FUnit :=
  if v.isUnity then u
  else if u.isUnity then v
  else .compound (.init fl 1 [(u, .int 1), (v, .int 1)])

/-- `__mul__`/`__rmul__` with a number (core.py 70-71, 80-81). -/
noncomputable def FUnit.smul (k : ℝ) (u : FUnit) : FUnit := .compound (.init fl k [(u, .int 1)])

/-! ### display.py -/

/-- Name and power (display.py 19-20, 67). -/
def token (fs : ℚ → Str) (name : Str) (p : Num) : Str :=
  name ++ (if |p.value| = 1 then [] else p.absText fs)

/-- Tokens of the numerator (display.py 17, 21-22, 63, 68-69). -/
def numTokens (fs : ℚ → Str) (l : List (Str × Num)) : List Str :=
  (l.filter fun b => 0 < b.2.value).map fun b => token fs b.1 b.2

/-- Tokens of the denominator (display.py 18, 23-24, 64, 70-71). -/
def denTokens (fs : ℚ → Str) (l : List (Str × Num)) : List Str :=
  (l.filter fun b => ¬ 0 < b.2.value).map fun b => token fs b.1 b.2

/-- The common shape of `generate_compound_unit_string` and `get_dimension_string`
(display.py 16-35, 61-79): numerator and denominator of named powers. -/
def fraction (prefix_ : Str) (num den : List Str) : Str :=
  let numerator := if num = [] then ['1'] else joinSpace num
  if den = [] then prefix_ ++ numerator
  else joinSpace [prefix_ ++ numerator, ['/'], joinSpace den]

/-- The bases with their names. -/
def Compound.names (c : Compound) : List (Str × Num) := c.bases.map fun b => (b.1.name, b.2)

/-- `generate_compound_unit_string` (display.py 15-35); `fr` is `str` on the scale. -/
noncomputable def Compound.str (fr : ℝ → Str) (fs : ℚ → Str) (c : Compound) : Str :=
  fraction (if c.scale = 1 then [] else fr c.scale ++ [' ']) (numTokens fs c.names)
    (denTokens fs c.names)

/-- `__repr__` (core.py 177-178, 239-240). -/
noncomputable def FUnit.repr (fr : ℝ → Str) (fs : ℚ → Str) : FUnit → Str
  | .named n => "Unit(\"".toList ++ n.name ++ "\")".toList
  | .compound c => "CompoundUnit(\"".toList ++ c.str fr fs ++ "\")".toList

/-- `unit.bases`, `unit.powers` as names and powers. -/
def FUnit.bases : FUnit → List (Str × Num)
  | .named n => n.bases.map fun b => (b.1, .int b.2)
  | .compound c => c.names

/-- Add to the power of a dimension already present (display.py 88-95).  When the powers
cancel, line 93 calls `pop` on a number: `AttributeError`. -/
def addDimension (l : List (Char × Num)) (d : Char) (p : Num) : Py (List (Char × Num)) :=
  match l with
  | [] => .ok [(d, p)]
  | (d', p') :: l =>
    if d' = d then
      if (p'.add fl p).value = 0 then .error .attributeError else .ok ((d', p'.add fl p) :: l)
    else
      match addDimension l d p with
      | .ok l => .ok ((d', p') :: l)
      | .error e => .error e

/-- The loop of `get_dimensions_from_unit` (display.py 86-98). -/
def dimensionsFrom : List (Str × Num) → List (Char × Num) → Py (List (Char × Num))
  | [], acc => .ok acc
  | (name, p) :: l, acc =>
    match dimensionDictionary.lookup name with
    | none => .error .keyError
    | some d =>
      match addDimension fl acc d p with
      | .error e => .error e
      | .ok acc => dimensionsFrom l acc

/-- `get_dimension_string` (display.py 60-79), the `dimension` property (core.py 15-20). -/
def FUnit.dimension (fs : ℚ → Str) (u : FUnit) : Py Str :=
  (dimensionsFrom fl u.bases []).map fun l =>
    fraction [] (numTokens fs (l.map fun b => ([b.1], b.2)))
      (denTokens fs (l.map fun b => ([b.1], b.2)))

/-! ### quantity.py -/

/-- `_get_unit_scale` (quantity.py 281-288): of a compound unit the product over its bases,
without the compound's own scale.  Simplified: `**` is the real power, as for positive scales. -/
noncomputable def unitScale : FUnit → ℝ
  | .named n => n.scale
  | .compound c => (c.bases.map fun b => (b.1.scale : ℝ) ^ (b.2.value : ℝ)).prod

/-- `Quantity(x, u).to(v)` (quantity.py 231-297). -/
noncomputable def convert (fr : ℝ → Str) (fs : ℚ → Str) (x : ℝ) (u v : FUnit) : Py ℝ :=
  match u.dimension fl fs with
  | .error e => .error e
  | .ok d =>
    match v.dimension fl fs with
    | .error e => .error e
    | .ok d' =>
      if d ≠ d' then .error .valueError
      else if u.repr fr fs ≠ v.repr fr fs then
        if unitScale v = 0 then .error .zeroDivisionError
        else .ok (x * (unitScale u / unitScale v))
      else .ok x

end

end Celest.Units.Frac
