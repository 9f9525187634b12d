/-
Vocabulary for the text-file properties: how a reader recovers numbers and rows from text,
independent of how the writer produces them.
-/
import Verif.Text.Model

namespace Celest.Text

/-- The value of a decimal digit. -/
def digitVal (c : Char) : ℕ := c.toNat - 48

/-- The natural number a string of digits denotes. -/
def natVal (s : Str) : ℕ := s.foldl (fun a c => 10 * a + digitVal c) 0

/-- The number `digits` or `digits.digits` denotes. -/
def unsignedVal (s : Str) : ℚ :=
  let i := s.takeWhile (· ≠ '.')
  let f := (s.dropWhile (· ≠ '.')).drop 1
  natVal i + natVal f / 10 ^ f.length

/-- The number a decimal string denotes. -/
def decimalVal : Str → ℚ
  | '-' :: s => -unsignedVal s
  | s => unsignedVal s

/-- Remove trailing spaces. -/
def rstrip (s : Str) : Str := (s.reverse.dropWhile (· = ' ')).reverse

/-- `s` is `x` followed by nothing but spaces. -/
def Padded (x s : Str) : Prop := ∃ k, s = x ++ List.replicate k ' '

/-- `s` is the numeral of `n`, possibly with leading zeros. -/
def IsNumeral (s : Str) (n : ℕ) : Prop := (∀ c ∈ s, c.isDigit) ∧ natVal s = n ∧ s ≠ []

/-- `s` is a decimal with an optional minus sign, at least one digit before the point and exactly
`d` after it (and no point if `d` is zero). -/
def IsFixed (d : ℕ) (s : Str) : Prop :=
  ∃ sign whole frac : Str, (sign = [] ∨ sign = ['-']) ∧ whole ≠ [] ∧ (∀ c ∈ whole, c.isDigit) ∧
    frac.length = d ∧ (∀ c ∈ frac, c.isDigit) ∧
    s = sign ++ whole ++ (if d = 0 then [] else '.' :: frac)

/-- Number of rows of a column. -/
def Data.rows : Data → ℕ
  | .floats xs => xs.length
  | .ints xs => xs.length
  | .objs xs => xs.length

/-- The text a reader expects for entry `i` of a column, before padding: numbers in `%.{d}f`
(integers as integers if the whole table is made of integers), objects as themselves. -/
def Data.text (d : ℕ) (intTable : Bool) : Data → ℕ → Str
  | .floats xs, i => fmtFixed d (xs.getD i 0)
  | .ints xs, i => if intTable then intStr (xs.getD i 0) else fmtFixed d (xs.getD i 0)
  | .objs xs, i => xs.getD i []

/-- All columns hold integers. -/
def IntegerTable (cols : List Column) : Prop := ∀ c ∈ cols, ∃ xs, c.data = .ints xs

instance (c : Column) : Decidable (∃ xs, c.data = .ints xs) :=
  match h : c.data with
  | .ints xs => .isTrue ⟨xs, rfl⟩
  | .floats _ => .isFalse (by simp)
  | .objs _ => .isFalse (by simp)

instance (cols : List Column) : Decidable (IntegerTable cols) :=
  inferInstanceAs (Decidable (∀ c ∈ cols, ∃ xs, c.data = .ints xs))

/-- The heading of a column: the label, with the unit in parentheses if it is a quantity. -/
def Column.heading (c : Column) : Str :=
  c.label ++ (match c.unit with | some u => " (".toList ++ u ++ ")".toList | none => [])

/-- The lines of a table: padded labels, underlines, then one line per row, cells separated
by tabs and padded with spaces to the column's width. -/
def tableLines (d : ℕ) (cols : List Column) (widths : List ℕ) (n : ℕ) : List Str :=
  [List.intercalate ['\t'] (List.zipWith ljust widths (cols.map Column.heading)),
    List.intercalate ['\t'] (widths.map fun w => List.replicate w '-')] ++
  (List.range n).map fun i => List.intercalate ['\t']
    (List.zipWith (fun w (c : Column) =>
      ljust w (c.data.text d (decide (IntegerTable cols)) i)) widths cols)

/-- `t` shows the table `cols` with `n` rows. -/
def IsTable (d : ℕ) (cols : List Column) (n : ℕ) (t : Str) : Prop :=
  ∃ widths : List ℕ, widths.length = cols.length ∧ (∀ c ∈ cols, c.data.rows = n) ∧
    t = List.intercalate ['\n'] (tableLines d cols widths n)

/-- `t` shows the layer `l`: its parts separated by blank lines. -/
def IsLayer (l : Layer) (t : Str) : Prop :=
  ∃ table : Option Str,
    (match l.data, table with
      | some cols, some tt => ∃ n, 0 < n ∧ IsTable l.digits cols n tt
      | none, none => True
      | _, _ => False) ∧
    t = List.intercalate ['\n', '\n'] (l.subheading.toList ++
      (l.parameters.map fun ps =>
        List.intercalate ['\n'] (ps.map fun p => p.1 ++ ": ".toList ++ p.2)).toList ++
      table.toList)

/-- A table that can be written: some column, all columns of the same nonzero length, and no
quantity that holds objects. -/
def Savable (cols : List Column) : Prop :=
  cols ≠ [] ∧ (∃ n, 0 < n ∧ ∀ c ∈ cols, c.data.rows = n) ∧
    ∀ c ∈ cols, ∀ xs, c.data = .objs xs → c.unit = none

/-- No label, unit or object text contains a tab or a line break. -/
def Clean (cols : List Column) : Prop :=
  ∀ c ∈ cols, (∀ ch ∈ c.heading, ch ≠ '\t' ∧ ch ≠ '\n') ∧
    ∀ xs, c.data = .objs xs → ∀ s ∈ xs, ∀ ch ∈ s, ch ≠ '\t' ∧ ch ≠ '\n'

/-- Every column starts at the same offset in every line (a tab counts as one character). -/
def Aligned (t : Str) : Prop :=
  ∀ l ∈ t.splitOn '\n', ∀ l' ∈ t.splitOn '\n',
    ((l.splitOn '\t').map List.length).dropLast = ((l'.splitOn '\t').map List.length).dropLast

end Celest.Text
