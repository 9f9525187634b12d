/-
Specification for the unit system: what a unit expression means.

A unit expression is a formula in named units.  It has an exponent for every named unit, a factor
to base units and a physical dimension; none of these refers to how the library stores units.
-/
import Verif.Units.Model
import Mathlib.Tactic.Ring

namespace Celest.Units

open Celest.Text (Str)

/-- A formula for a unit: named units, `*`, `/`, `1 / _`, `**` and numeric multiples. -/
inductive UExpr
  | unit (n : NamedUnit)
  | mul (a b : UExpr)
  | div (a b : UExpr)
  | inv (a : UExpr)
  | pow (a : UExpr) (k : ℤ)
  | smul (k : ℚ) (a : UExpr)

namespace UExpr

/-- The unit object the library builds for the formula. -/
def eval : UExpr → BUnit
  | unit n => .named n
  | mul a b => a.eval.mul b.eval
  | div a b => a.eval.div b.eval
  | inv a => a.eval.inv
  | pow a k => a.eval.pow k
  | smul k a => a.eval.smul k

/-- Exponent of the named unit `n` in the formula. -/
def expo : UExpr → NamedUnit → ℤ
  | unit m, n => if m = n then 1 else 0
  | mul a b, n => a.expo n + b.expo n
  | div a b, n => a.expo n - b.expo n
  | inv a, n => -a.expo n
  | pow a k, n => k * a.expo n
  | smul _ a, n => a.expo n

/-- Size of the unit in base units. -/
def factor : UExpr → ℚ
  | unit m => m.scale
  | mul a b => a.factor * b.factor
  | div a b => a.factor / b.factor
  | inv a => (a.factor)⁻¹
  | pow a k => a.factor ^ k
  | smul k a => k * a.factor

/-- Exponent of the dimension `d` (`L`ength, `T`ime, `D`ate, `A`ngle) in the formula. -/
def dim : UExpr → Char → ℤ
  | unit m, d => if dimensionDictionary.lookup m.name = some d then 1 else 0
  | mul a b, d => a.dim d + b.dim d
  | div a b, d => a.dim d - b.dim d
  | inv a, d => -a.dim d
  | pow a k, d => k * a.dim d
  | smul _ a, d => a.dim d

/-- Named units in the formula. -/
def atoms : UExpr → List NamedUnit
  | unit m => [m]
  | mul a b | div a b => a.atoms ++ b.atoms
  | inv a | pow a _ | smul _ a => a.atoms

/-- The formula is a single named unit. -/
def isNamed : UExpr → Bool
  | unit _ => true
  | _ => false

/-- No numeric multiples, and no compound divisor sharing a named unit with its dividend. -/
def Safe : UExpr → Prop
  | unit _ => True
  | mul a b => a.Safe ∧ b.Safe
  | div a b => a.Safe ∧ b.Safe ∧ (b.isNamed = true ∨ ∀ n ∈ a.atoms, n ∉ b.atoms)
  | inv a | pow a _ => a.Safe
  | smul _ _ => False

end UExpr

/-- A name without its trailing digits. -/
def stem (s : Str) : Str := (s.reverse.dropWhile Char.isDigit).reverse

/-- A set of named units as a user has it in hand: different objects, positive factors, names
that start with a letter and stay distinct when exponents are appended, and a known dimension
that agrees with that of the unit's definition. -/
structure UnitSystem (S : List NamedUnit) : Prop where
  ids : ∀ a ∈ S, ∀ b ∈ S, a.id = b.id → a = b
  pos : ∀ a ∈ S, 0 < a.scale
  stems : ∀ a ∈ S, ∀ b ∈ S, stem a.name = stem b.name → a = b
  letter : ∀ a ∈ S, ∃ c ∈ a.name.head?, c.isAlpha = true
  plain : ∀ a ∈ S, ∀ c ∈ a.name, c ≠ ' ' ∧ c ≠ '/'
  dims : ∀ a ∈ S, ∃ d, dimensionDictionary.lookup a.name = some d ∧
    ∃ b, a.bases = [(b, 1)] ∧ dimensionDictionary.lookup b = some d

/-- `str` on floats: what the theorems need of it. -/
def FloatStr (fs : ℚ → Str) : Prop :=
  ∀ x, (∃ c ∈ (fs x).head?, c.isAlpha = false ∧ c ≠ '/') ∧ ∀ c ∈ fs x, c ≠ ' '

/-! ### What a user sees of a unit object -/

/-- Exponent of the named unit `n` in a unit object. -/
def BUnit.exponent : BUnit → NamedUnit → ℤ
  | .named m, n => if m = n then 1 else 0
  | .compound c, n => (c.bases.map fun b => if b.1 = n then b.2 else 0).sum

/-- `n` is listed in the unit object (possibly with power zero). -/
def BUnit.lists : BUnit → NamedUnit → Prop
  | .named m, n => m = n
  | .compound c, n => ∃ p, (n, p) ∈ c.bases

/-- Physical dimension of a unit object, from the exponents it lists. -/
def BUnit.dim : BUnit → Char → ℤ
  | .named m, d => if dimensionDictionary.lookup m.name = some d then 1 else 0
  | .compound c, d =>
    (c.bases.map fun b => if dimensionDictionary.lookup b.1.name = some d then b.2 else 0).sum

/-- Size of a unit object in base units, from the exponents it lists. -/
def BUnit.size : BUnit → ℚ
  | .named m => m.scale
  | .compound c => (c.bases.map fun b => b.1.scale ^ b.2).prod

/-- The unit objects obtainable from `S` by unit arithmetic. -/
def Built (S : List NamedUnit) (u : BUnit) : Prop := ∃ e : UExpr, (∀ n ∈ e.atoms, n ∈ S) ∧ e.eval = u

end Celest.Units
