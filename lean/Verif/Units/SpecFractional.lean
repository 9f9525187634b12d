/-
Specification for units with fractional powers: what a formula means.
-/
import Verif.Units.Fractional
import Verif.Units.Spec

namespace Celest.Units.Frac

open Celest.Text (Str)

/-- A formula for a unit, with exponents that are integers or floats. -/
inductive FExpr
  | unit (n : NamedUnit)
  | mul (a b : FExpr)
  | div (a b : FExpr)
  | inv (a : FExpr)
  | pow (a : FExpr) (k : Num)
  | smul (k : ℝ) (a : FExpr)

namespace FExpr

/-- The unit object the library builds for the formula. -/
noncomputable def eval (fl : ℚ → ℚ) : FExpr → FUnit
  | unit n => .named n
  | mul a b => (a.eval fl).mul fl (b.eval fl)
  | div a b => (a.eval fl).div fl (b.eval fl)
  | inv a => (a.eval fl).inv fl
  | pow a k => (a.eval fl).pow fl k
  | smul k a => (a.eval fl).smul fl k

/-- Exponent of the named unit `n` in the formula. -/
def expo : FExpr → NamedUnit → ℚ
  | unit m, n => if m = n then 1 else 0
  | mul a b, n => a.expo n + b.expo n
  | div a b, n => a.expo n - b.expo n
  | inv a, n => -a.expo n
  | pow a k, n => k.value * a.expo n
  | smul _ a, n => a.expo n

/-- Size of the unit in base units. -/
noncomputable def factor : FExpr → ℝ
  | unit m => m.scale
  | mul a b => a.factor * b.factor
  | div a b => a.factor / b.factor
  | inv a => (a.factor)⁻¹
  | pow a k => a.factor ^ (k.value : ℝ)
  | smul k a => k * a.factor

/-- Exponent of the dimension `d` (`L`ength, `T`ime, `D`ate, `A`ngle) in the formula. -/
def dim : FExpr → Char → ℚ
  | unit m, d => if dimensionDictionary.lookup m.name = some d then 1 else 0
  | mul a b, d => a.dim d + b.dim d
  | div a b, d => a.dim d - b.dim d
  | inv a, d => -a.dim d
  | pow a k, d => k.value * a.dim d
  | smul _ a, d => a.dim d

/-- Named units in the formula. -/
def atoms : FExpr → List NamedUnit
  | unit m => [m]
  | mul a b | div a b => a.atoms ++ b.atoms
  | inv a | pow a _ | smul _ a => a.atoms

/-- The formula is a single named unit. -/
def isNamed : FExpr → Bool
  | unit _ => true
  | _ => false

/-- No numeric multiples, and no compound divisor sharing a named unit with its dividend. -/
def Safe : FExpr → Prop
  | unit _ => True
  | mul a b => a.Safe ∧ b.Safe
  | div a b => a.Safe ∧ b.Safe ∧ (b.isNamed = true ∨ ∀ n ∈ a.atoms, n ∉ b.atoms)
  | inv a | pow a _ => a.Safe
  | smul _ _ => False

end FExpr

/-- Exponent of the named unit `n` in a unit object. -/
def FUnit.exponent : FUnit → NamedUnit → ℚ
  | .named m, n => if m = n then 1 else 0
  | .compound c, n => (c.bases.map fun b => if b.1 = n then b.2.value else 0).sum

/-- `n` is listed in the unit object (possibly with power zero). -/
def FUnit.lists : FUnit → NamedUnit → Prop
  | .named m, n => m = n
  | .compound c, n => ∃ p, (n, p) ∈ c.bases

/-- Physical dimension of a unit object, from the exponents it lists. -/
def FUnit.dim : FUnit → Char → ℚ
  | .named m, d => if dimensionDictionary.lookup m.name = some d then 1 else 0
  | .compound c, d => (c.bases.map fun b =>
      if dimensionDictionary.lookup b.1.name = some d then b.2.value else 0).sum

/-- The unit objects obtainable from `S` by unit arithmetic. -/
def Built (fl : ℚ → ℚ) (S : List NamedUnit) (u : FUnit) : Prop :=
  ∃ e : FExpr, (∀ n ∈ e.atoms, n ∈ S) ∧ e.eval fl = u

/-- What `str` gives for nonnegative floats, as far as the theorems need it: a digit first, then
digits and at least one other character, no letter first, no space or slash, and different texts for
different numbers. -/
structure FloatText (fs : ℚ → Str) : Prop where
  first : ∀ x, 0 ≤ x → ∃ c ∈ (fs x).head?, c.isDigit = true
  mark : ∀ x, 0 ≤ x → ∃ c ∈ fs x, c.isDigit = false
  plain : ∀ x, 0 ≤ x → ∀ c ∈ fs x, c ≠ ' ' ∧ c ≠ '/'
  inj : ∀ x y, 0 ≤ x → 0 ≤ y → fs x = fs y → x = y

/-- Two exponents are displayed alike: the same number of the same type, or both 1 or both -1, which
are displayed as nothing. -/
def Alike (p q : Num) : Prop := p = q ∨ (p.value = q.value ∧ |p.value| = 1)

/-- The two named units have the same dimension. -/
def SameKind (a b : NamedUnit) : Prop :=
  dimensionDictionary.lookup a.name = dimensionDictionary.lookup b.name

/-- A formula with integer exponents as a formula. -/
noncomputable def FExpr.ofInteger : UExpr → FExpr
  | .unit n => .unit n
  | .mul a b => .mul (ofInteger a) (ofInteger b)
  | .div a b => .div (ofInteger a) (ofInteger b)
  | .inv a => .inv (ofInteger a)
  | .pow a k => .pow (ofInteger a) (.int k)
  | .smul k a => .smul k (ofInteger a)

/-- What `str` gives for a scale, as far as the theorems need it. -/
def ScaleText (fr : ℝ → Str) : Prop :=
  ∀ x, (∃ c ∈ (fr x).head?, c.isAlpha = false ∧ c ≠ '/') ∧ ∀ c ∈ fr x, c ≠ ' '

/-- No two names begin with the same letters: the names stay distinct when numbers are appended. -/
def DistinctLetters (S : List NamedUnit) : Prop :=
  ∀ a ∈ S, ∀ b ∈ S, a.name.takeWhile Char.isAlpha = b.name.takeWhile Char.isAlpha → a = b

end Celest.Units.Frac
