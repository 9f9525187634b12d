/-
Conversions, sums and comparisons of quantities in floating-point arithmetic: celest/units/
quantity.py and unit_initialization.py once more, with every operation on floats followed by the
rounding `fl` (`Verif/Rounding.lean`); theorems C102 and C103 (`PropsRounded`), among them
`C102_exact_arithmetic`: without rounding this is `Units/Model`.

Simplified: no overflow, underflow or NaN; products and quotients of quantities are left out.
`pw` is Python's `float ** int`, which is not correctly rounded.
-/
import Verif.Rounding
import Verif.Units.Model

namespace Celest.Units.Rounded

open Celest.Text (Str)

variable (fl : ℚ → ℚ) (pw : ℚ → ℤ → ℚ)

/-- `_get_unit_scale` (quantity.py 281-288). -/
def unitScale : BUnit → ℚ
  | .named n => n.scale
  | .compound c => c.bases.foldl (fun scale b => fl (scale * pw b.1.scale b.2)) 1

/-- `Quantity.convert_to` (quantity.py 253-297). -/
def convertTo (fs : ℚ → Str) (ρ : ℕ → ℕ) (q : Quantity) (v : BUnit) : Py Quantity :=
  match q.unit.dimension with
  | .error e => .error e
  | .ok d =>
    match v.dimension with
    | .error e => .error e
    | .ok d' =>
      if d ≠ d' then .error .valueError
      else if q.unit.repr fs ≠ v.repr fs then
        if unitScale fl pw v = 0 then .error .zeroDivisionError
        else .ok ⟨fl (q.data * fl (unitScale fl pw q.unit / unitScale fl pw v)), v⟩
      else .ok ⟨q.data, q.unit.copy ρ⟩

/-- `Quantity.to` (quantity.py 231-251). -/
def inUnit (fs : ℚ → Str) (q : Quantity) (v : BUnit) : Py ℚ :=
  (convertTo fl pw fs id q v).map Quantity.data

/-- `Quantity.__add__`, `__radd__` (quantity.py 103-117). -/
def add (fs : ℚ → Str) (q : Quantity) : Arg → Py Quantity
  | .number x => .ok ⟨fl (q.data + x), q.unit⟩
  | .quantity r =>
    match sameDimension q.unit r.unit with
    | .error e => .error e
    | .ok false => .error .arithmeticError
    | .ok true =>
      match inUnit fl pw fs r q.unit with
      | .error e => .error e
      | .ok y => .ok ⟨fl (q.data + y), q.unit⟩
  | .other => .error .typeError

/-- `Quantity.__sub__` (quantity.py 119-120). -/
def sub (fs : ℚ → Str) (q : Quantity) (a : Arg) : Py Quantity :=
  match a.neg with
  | .error e => .error e
  | .ok a' => add fl pw fs q a'

/-- `Quantity.__eq__`, `__lt__`, `__gt__` (quantity.py 174-181, 186-193, 198-205). -/
def compare (fs : ℚ → Str) (test : ℚ → ℚ → Bool) (q : Quantity) : Arg → Py Cmp
  | .quantity r =>
    match sameDimension q.unit r.unit with
    | .error e => .error e
    | .ok false => .error .arithmeticError
    | .ok true =>
      match inUnit fl pw fs r q.unit with
      | .error e => .error e
      | .ok y => .ok (.bool (test q.data y))
  | _ => .ok .notImplemented

/-- `Quantity.__eq__` (quantity.py 174-181). -/
def eq (fs : ℚ → Str) (q : Quantity) (a : Arg) : Py Cmp :=
  compare fl pw fs (fun x y => x = y) q a

/-- `Quantity.__lt__` (quantity.py 186-193). -/
def lt (fs : ℚ → Str) (q : Quantity) (a : Arg) : Py Cmp :=
  compare fl pw fs (fun x y => x < y) q a

/-- `Quantity.__gt__` (quantity.py 198-205). -/
def gt (fs : ℚ → Str) (q : Quantity) (a : Arg) : Py Cmp :=
  compare fl pw fs (fun x y => y < x) q a

/-- `Quantity.__le__` (quantity.py 195-196). -/
def le (fs : ℚ → Str) (q : Quantity) (a : Arg) : Py Cmp :=
  orElse (eq fl pw fs q a) (lt fl pw fs q a)

/-- `Quantity.__ge__` (quantity.py 207-208). -/
def ge (fs : ℚ → Str) (q : Quantity) (a : Arg) : Py Cmp :=
  orElse (eq fl pw fs q a) (gt fl pw fs q a)

/-- A unit of the package as it is stored (unit_initialization.py 8-39): the factor written in
the source, such as `0.001` or `1 / 3600`, is rounded; multiplying it by the scale 1.0 of the base
unit changes nothing. -/
def stored (n : NamedUnit) : NamedUnit := { n with scale := fl n.scale }

end Celest.Units.Rounded
