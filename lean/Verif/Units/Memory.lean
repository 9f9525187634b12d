/-
Quantities whose data are NumPy arrays, which live in memory, can be shared and can be changed in
place (quantity.py).

`Verif/Units/Model.lean` has the same operations on numbers.  Here an array is known by its address,
so that it can be said which operations share an array, copy one or write to one.
-/
import Verif.Units.Registry

namespace Celest.Units

open Celest.Text (Str)

/-- The arrays that exist, by address. -/
abbrev Memory := List Arr

/-- What `Quantity._data` refers to (quantity.py 91): a Python number, of which `int` says whether
it is an `int`, or an array.  Numbers are immutable. -/
inductive Ref
  | number (int : Bool) (x : ℚ)
  | array (address : ℕ)
deriving DecidableEq

/-- A computation that can raise and can read, write and create arrays. -/
def Run (α : Type) := Memory → Py α × Memory

namespace Run

/-- A computation that does nothing. -/
def done {α : Type} (a : α) : Run α := fun m => (.ok a, m)

/-- Raising an exception. -/
def raise {α : Type} (e : PyErr) : Run α := fun m => (.error e, m)

/-- A computation that does not touch the memory. -/
def lift {α : Type} (p : Py α) : Run α := fun m => (p, m)

/-- One computation after another. -/
def andThen {α β : Type} (r : Run α) (f : α → Run β) : Run β := fun m =>
  match r m with
  | (.ok a, m') => f a m'
  | (.error e, m') => (.error e, m')

instance : Monad Run where
  pure := done
  bind := andThen

end Run

/-- Creating an array. -/
def newArray (a : Arr) : Run ℕ := fun m => (.ok m.length, m ++ [a])

/-- Reading an array.  Addresses in use always exist (`WellFormed`). -/
def readArray (address : ℕ) : Run Arr := fun m =>
  match m[address]? with
  | some a => (.ok a, m)
  | none => (.error .exception, m)

/-- Overwriting an array. -/
def writeArray (address : ℕ) (a : Arr) : Run Unit := fun m => (.ok (), m.set address a)

/-- `deepcopy` of the data (quantity.py 290). -/
def copyData : Ref → Run Ref
  | .number i x => pure (.number i x)
  | .array p => do
    let a ← readArray p
    let p' ← newArray a
    pure (.array p')

/-- `data *= factor` with a float (quantity.py 293-294): arrays change in place, and an integer
array raises a `TypeError`. -/
def scaleData (k : ℚ) : Ref → Run Ref
  | .number _ x => pure (.number false (x * k))
  | .array p => do
    let a ← readArray p
    if a.ints then Run.raise .typeError
    else do
      writeArray p ⟨false, a.data.map (· * k)⟩
      pure (.array p)

/-- A quantity (quantity.py 74-92). -/
structure MQuantity where
  data : Ref
  unit : BUnit
deriving DecidableEq

/-- `Quantity.convert_to` (quantity.py 253-297). -/
def MQuantity.convertTo (fs : ℚ → Str) (ρ : ℕ → ℕ) (q : MQuantity) (v : BUnit) : Run MQuantity := do
  let d ← Run.lift q.unit.dimension
  let d' ← Run.lift v.dimension
  if d ≠ d' then Run.raise .valueError
  else do
    let copy ← copyData q.data
    if q.unit.repr fs ≠ v.repr fs then
      if unitScale v = 0 then Run.raise .zeroDivisionError
      else do
        let data ← scaleData (unitScale q.unit / unitScale v) copy
        pure ⟨data, v⟩
    else pure ⟨copy, q.unit.copy ρ⟩

/-- `Quantity.to` (quantity.py 231-251). -/
def MQuantity.to (fs : ℚ → Str) (q : MQuantity) (v : BUnit) : Run Ref := do
  let r ← q.convertTo fs id v
  pure r.data

/-- Broadcasting of one-dimensional arrays: equal lengths, or one of the two has one element. -/
def broadcast (f : ℚ → ℚ → ℚ) (xs ys : List ℚ) : Py (List ℚ) :=
  if xs.length = ys.length then .ok (List.zipWith f xs ys)
  else
    match xs, ys with
    | [x], _ => .ok (ys.map (f x))
    | _, [y] => .ok (xs.map (f · y))
    | _, _ => .error .valueError

/-- `+`, `*`, `/` of numbers and arrays.  `float` says that the result is a float in any case
(`/`).  Operations on arrays create a new array. -/
def binary (float : Bool) (scalar : ℚ → ℚ → Py ℚ) (f : ℚ → ℚ → ℚ) : Ref → Ref → Run Ref
  | .number i x, .number j y => do
    let z ← Run.lift (scalar x y)
    pure (.number (i && j && !float) z)
  | .number i x, .array p => do
    let a ← readArray p
    let r ← newArray ⟨i && a.ints && !float, a.data.map (f x)⟩
    pure (.array r)
  | .array p, .number i y => do
    let a ← readArray p
    let r ← newArray ⟨i && a.ints && !float, a.data.map (f · y)⟩
    pure (.array r)
  | .array p, .array p' => do
    let a ← readArray p
    let b ← readArray p'
    let zs ← Run.lift (broadcast f a.data b.data)
    let r ← newArray ⟨a.ints && b.ints && !float, zs⟩
    pure (.array r)

/-- Unary minus creates a new array. -/
def negData : Ref → Run Ref
  | .number i x => pure (.number i (-x))
  | .array p => do
    let a ← readArray p
    let r ← newArray ⟨a.ints, a.data.map (- ·)⟩
    pure (.array r)

/-- An operand: a number, a quantity, or anything else. -/
inductive MArg
  | number (int : Bool) (x : ℚ)
  | quantity (q : MQuantity)
  | other

/-- Addition of data. -/
def addData : Ref → Ref → Run Ref := binary false (fun x y => .ok (x + y)) (· + ·)

/-- Multiplication of data. -/
def mulData : Ref → Ref → Run Ref := binary false (fun x y => .ok (x * y)) (· * ·)

/-- Division of data.  `quo` is the element-wise division of arrays, where dividing by zero gives
infinity or NaN instead of raising; what it is there is left open. -/
def divData (quo : ℚ → ℚ → ℚ) : Ref → Ref → Run Ref := binary true pyDiv quo

/-- `Quantity.__neg__` (quantity.py 100-101). -/
def MQuantity.neg (q : MQuantity) : Run MQuantity := do
  let d ← negData q.data
  pure ⟨d, q.unit⟩

/-- `Quantity.__add__`, `__radd__` (quantity.py 103-117). -/
def MQuantity.add (fs : ℚ → Str) (q : MQuantity) : MArg → Run MQuantity
  | .number i x => do
    let d ← addData q.data (.number i x)
    pure ⟨d, q.unit⟩
  | .quantity r => do
    let same ← Run.lift (sameDimension q.unit r.unit)
    if same then do
      let y ← r.to fs q.unit
      let d ← addData q.data y
      pure ⟨d, q.unit⟩
    else Run.raise .arithmeticError
  | .other => Run.raise .typeError

/-- Unary minus on an operand (quantity.py 120). -/
def MArg.neg : MArg → Run MArg
  | .number i x => pure (.number i (-x))
  | .quantity q => do
    let r ← q.neg
    pure (.quantity r)
  | .other => Run.raise .typeError

/-- `Quantity.__sub__` (quantity.py 119-120). -/
def MQuantity.sub (fs : ℚ → Str) (q : MQuantity) (a : MArg) : Run MQuantity := do
  let a' ← a.neg
  q.add fs a'

/-- `Quantity.__rsub__` (quantity.py 122-123). -/
def MQuantity.rsub (fs : ℚ → Str) (q : MQuantity) (a : MArg) : Run MQuantity := do
  let r ← q.sub fs a
  r.neg

/-- `Quantity.__mul__`, `__rmul__` (quantity.py 125-141). -/
def MQuantity.mul (fs : ℚ → Str) (q : MQuantity) : MArg → Run MQuantity
  | .number i x => do
    let d ← mulData q.data (.number i x)
    pure ⟨d, q.unit⟩
  | .quantity r => do
    let same ← Run.lift (sameDimension q.unit r.unit)
    if same then do
      let y ← r.to fs q.unit
      let d ← mulData q.data y
      pure ⟨d, q.unit.pow 2⟩
    else do
      let d ← mulData q.data r.data
      pure ⟨d, q.unit.mul r.unit⟩
  | .other => Run.raise .typeError

/-- `Quantity.__truediv__` (quantity.py 143-156). -/
def MQuantity.div (fs : ℚ → Str) (quo : ℚ → ℚ → ℚ) (q : MQuantity) : MArg → Run MQuantity
  | .number i x => do
    let d ← divData quo q.data (.number i x)
    pure ⟨d, q.unit⟩
  | .quantity r => do
    let same ← Run.lift (sameDimension q.unit r.unit)
    if same then do
      let y ← r.to fs q.unit
      let d ← divData quo q.data y
      pure ⟨d, q.unit.div q.unit⟩
    else do
      let d ← divData quo q.data r.data
      pure ⟨d, q.unit.div r.unit⟩
  | .other => Run.raise .typeError

/-- `Quantity.__rtruediv__` (quantity.py 158-172). -/
def MQuantity.rdiv (fs : ℚ → Str) (quo : ℚ → ℚ → ℚ) (q : MQuantity) : MArg → Run MQuantity
  | .number i x => do
    let d ← divData quo (.number i x) q.data
    pure ⟨d, q.unit.inv⟩
  | .quantity r => do
    let same ← Run.lift (sameDimension q.unit r.unit)
    if same then do
      let y ← r.to fs q.unit
      let d ← divData quo y q.data
      pure ⟨d, q.unit.div q.unit⟩
    else do
      let d ← divData quo r.data q.data
      pure ⟨d, r.unit.div q.unit⟩
  | .other => Run.raise .typeError

/-- Comparison of data: the truth values, as they stand in the resulting array (one truth value for
two numbers). -/
def compareData (test : ℚ → ℚ → Bool) : Ref → Ref → Run (List Bool)
  | .number _ x, .number _ y => pure [test x y]
  | .number _ x, .array p => do
    let a ← readArray p
    pure (a.data.map (test x))
  | .array p, .number _ y => do
    let a ← readArray p
    pure (a.data.map (test · y))
  | .array p, .array p' => do
    let a ← readArray p
    let b ← readArray p'
    if a.data.length = b.data.length then pure (List.zipWith test a.data b.data)
    else
      match a.data, b.data with
      | [x], _ => pure (b.data.map (test x))
      | _, [y] => pure (a.data.map (test · y))
      | _, _ => Run.raise .valueError

/-- `__eq__`, `__lt__`, `__gt__` between quantities (quantity.py 174-181, 186-193, 198-205). -/
def MQuantity.compare (fs : ℚ → Str) (test : ℚ → ℚ → Bool) (q r : MQuantity) : Run (List Bool) := do
  let same ← Run.lift (sameDimension q.unit r.unit)
  if same then do
    let y ← r.to fs q.unit
    compareData test q.data y
  else Run.raise .arithmeticError

/-- Truth value of a comparison result: one element decides, any other number of elements raises
`ValueError`. -/
def truth : List Bool → Run Bool
  | [b] => pure b
  | _ => Run.raise .valueError

/-- `Quantity.__le__` and `__ge__` between quantities (quantity.py 195-196, 207-208):
`self.__eq__(other) or …`. -/
def MQuantity.orEqual (fs : ℚ → Str) (test : ℚ → ℚ → Bool) (q r : MQuantity) : Run (List Bool) := do
  let e ← q.compare fs (fun x y => x = y) r
  let b ← truth e
  if b then pure e else q.compare fs test r

/-- `Quantity.__ne__` between quantities (quantity.py 183-184). -/
def MQuantity.notEqual (fs : ℚ → Str) (q r : MQuantity) : Run Bool := do
  let e ← q.compare fs (fun x y => x = y) r
  let b ← truth e
  pure (!b)

/-! ### Programs -/

/-- What a user program holds: the arrays in memory and its quantities, oldest first. -/
structure Session where
  memory : Memory
  quantities : List MQuantity

/-- The second operand of an operation in a program. -/
inductive Second
  | number (int : Bool) (x : ℚ)
  | quantity (j : ℕ)
  | other

/-- Operations on quantities, by their position in the session. -/
inductive Operation
  | neg (i : ℕ)
  | add (i : ℕ) (b : Second)
  | sub (i : ℕ) (b : Second)
  | rsub (i : ℕ) (b : Second)
  | mul (i : ℕ) (b : Second)
  | div (i : ℕ) (b : Second)
  | rdiv (i : ℕ) (b : Second)
  | convert (i : ℕ) (v : BUnit) (ρ : ℕ → ℕ)

/-- Steps of a user program. -/
inductive Step
  /-- a new array -/
  | array (a : Arr)
  /-- `Quantity(data, unit)` -/
  | construct (data : Ref) (unit : BUnit)
  /-- an operation that gives a quantity -/
  | operate (o : Operation)
  /-- a comparison with `==`, `<`, `>` (`test`) -/
  | compare (test : ℚ → ℚ → Bool) (i j : ℕ)
  /-- `array[k] = x` -/
  | assign (address k : ℕ) (x : ℚ)

/-- The operand a program refers to. -/
def Second.get (qs : List MQuantity) : Second → Option MArg
  | .number i x => some (.number i x)
  | .quantity j => qs[j]?.map .quantity
  | .other => some .other

/-- The computation of an operation; `none` if it names a quantity that does not exist. -/
def Operation.run (fs : ℚ → Str) (quo : ℚ → ℚ → ℚ) (qs : List MQuantity) :
    Operation → Option (Run MQuantity)
  | .neg i => qs[i]?.map MQuantity.neg
  | .add i b => do return (← qs[i]?).add fs (← b.get qs)
  | .sub i b => do return (← qs[i]?).sub fs (← b.get qs)
  | .rsub i b => do return (← qs[i]?).rsub fs (← b.get qs)
  | .mul i b => do return (← qs[i]?).mul fs (← b.get qs)
  | .div i b => do return (← qs[i]?).div fs quo (← b.get qs)
  | .rdiv i b => do return (← qs[i]?).rdiv fs quo (← b.get qs)
  | .convert i v ρ => qs[i]?.map fun q => q.convertTo fs ρ v

/-- One step of a program.  A step that raises adds no quantity; what it did to the memory stays.
Steps that name something that does not exist do nothing. -/
def Session.step (fs : ℚ → Str) (quo : ℚ → ℚ → ℚ) (s : Session) : Step → Session
  | .array a => { s with memory := s.memory ++ [a] }
  | .construct (.number i x) u => { s with quantities := s.quantities ++ [⟨.number i x, u⟩] }
  | .construct (.array p) u =>
    if p < s.memory.length then { s with quantities := s.quantities ++ [⟨.array p, u⟩] } else s
  | .operate o =>
    match o.run fs quo s.quantities with
    | none => s
    | some r =>
      match r s.memory with
      | (.ok q, m) => ⟨m, s.quantities ++ [q]⟩
      | (.error _, m) => ⟨m, s.quantities⟩
  | .compare test i j =>
    match s.quantities[i]?, s.quantities[j]? with
    | some q, some r => { s with memory := (q.compare fs test r s.memory).2 }
    | _, _ => s
  | .assign p k x =>
    match s.memory[p]? with
    | some a => { s with memory := s.memory.set p { a with data := a.data.set k x } }
    | none => s

/-- A whole program, from the empty session. -/
def Session.run (fs : ℚ → Str) (quo : ℚ → ℚ → ℚ) (steps : List Step) : Session :=
  steps.foldl (Session.step fs quo) ⟨[], []⟩

end Celest.Units
