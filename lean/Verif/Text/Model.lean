/-
Model of celest/file_save.py and celest/angle_strings.py, and of the parts of
`save_text_file` in celest/encounter/window_handling.py and celest/satellite.py that
assemble tables.  Strings are lists of characters; floats are exact rationals.
-/
import Verif.Windows.Model
import Mathlib.Data.Nat.Digits.Defs
import Mathlib.Data.Rat.Floor
import Mathlib.Algebra.Order.Floor.Semiring

namespace Celest.Text

/-- Python strings. -/
abbrev Str := List Char

/-! ### Number formatting (Python built-ins) -/

/-- The character of a decimal digit. -/
def digitChar (k : ℕ) : Char := Char.ofNat (48 + k)

/-- `str(n)` for a natural number. -/
def natStr (n : ℕ) : Str := if n = 0 then ['0'] else ((Nat.digits 10 n).reverse).map digitChar

/-- `str(z)` for an integer. -/
def intStr (z : ℤ) : Str := if z < 0 then '-' :: natStr z.natAbs else natStr z.natAbs

/-- `s.zfill(w)` for a string without sign. -/
def zfill (w : ℕ) (s : Str) : Str := List.replicate (w - s.length) '0' ++ s

/-- `s.ljust(w)`. -/
def ljust (w : ℕ) (s : Str) : Str := s ++ List.replicate (w - s.length) ' '

/-- Round a nonnegative rational to the nearest natural number, ties to even, as C's
`printf` does with the exact value. -/
def roundHalfEven (q : ℚ) : ℕ :=
  let f := ⌊q⌋₊
  if q - f < 1 / 2 then f
  else if 1 / 2 < q - f then f + 1
  else if f % 2 = 0 then f else f + 1

/-- `"%.{d}f" % x`.  Simplified: no negative zero, infinities or NaN. -/
def fmtFixed (d : ℕ) (x : ℚ) : Str :=
  let n := roundHalfEven (|x| * 10 ^ d)
  (if x < 0 then ['-'] else []) ++ natStr (n / 10 ^ d) ++
    (if d = 0 then [] else '.' :: zfill d (natStr (n % 10 ^ d)))

/-! ### file_save.py -/

/-- The array in a table column.  `objs` holds the `str()` of arbitrary objects.  Simplified:
one-dimensional arrays only, and no NumPy string arrays (the library passes none). -/
inductive Data
  | floats (xs : List ℚ)
  | ints (xs : List ℤ)
  | objs (xs : List Str)
deriving DecidableEq

/-- A `[label, value]` entry of the `data` argument of `add_layer` (file_save.py 60-108);
`unit` is `str(value.unit)` for a `Quantity`, `none` for a plain array. -/
structure Column where
  label : Str
  unit : Option Str
  data : Data
deriving DecidableEq

/-- An element of the concatenated table. -/
inductive Cell
  | num (x : ℚ)
  | int (z : ℤ)
  | obj (s : Str)
deriving DecidableEq

/-- The elements of a column (`reshape((-1, 1))`, file_save.py 225-229). -/
def Data.cells : Data → List Cell
  | .floats xs => xs.map .num
  | .ints xs => xs.map .int
  | .objs xs => xs.map .obj

/-- The text and failure of a sequence of writes. -/
abbrev Out := Str × Option PyErr

/-- Run one writer after another; an exception skips the second. -/
def Out.andThen (a b : Out) : Out :=
  match a.2 with
  | some _ => a
  | none => (a.1 ++ b.1, b.2)

/-- One successful `file.write`. -/
def write (s : Str) : Out := (s, none)

/-- The `enumerate` idiom of lines 158-162, 235-246: `sep` after every piece but the last. -/
def joinFrom (sep : Str) (total : ℕ) : ℕ → List Str → Str
  | _, [] => []
  | i, s :: ss => s ++ (if i < total - 1 then sep else []) ++ joinFrom sep total (i + 1) ss

/-- `max` of a list of naturals, Python's `ValueError` on an empty one. -/
def pyMaxNat : List ℕ → Py ℕ
  | [] => .error .valueError
  | a :: l => .ok (l.foldl max a)

/-- `np.max`, `ValueError` on an empty array. -/
def npMax : List ℚ → Py ℚ
  | [] => .error .valueError
  | a :: l => .ok (l.foldl max a)

/-- `_get_maximum_value_width` (file_save.py 213-222), format `%.{d}f`.  `strOf` is NumPy's
`astype(str)` on floats.  Line 217 tests the dtype object against `(int, float)`, which no
dtype is, so plain arrays always take line 220.  A `Quantity` of objects fails in `np.max` or
in the format with `TypeError`. -/
def maxValueWidth (d : ℕ) (strOf : ℚ → Str) (c : Column) : Py ℕ :=
  match c.unit, c.data with
  | some _, .floats xs => (npMax xs).map fun m => (fmtFixed d m).length
  | some _, .ints xs => (npMax (xs.map fun z : ℤ => (z : ℚ))).map fun m => (fmtFixed d m).length
  | some _, .objs xs => if xs = [] then .error .valueError else .error .typeError
  | none, .floats xs => pyMaxNat (xs.map fun x => (strOf x).length)
  | none, .ints xs => pyMaxNat (xs.map fun z => (intStr z).length)
  | none, .objs xs => pyMaxNat (xs.map List.length)

/-- The column label (file_save.py 199-201). -/
def columnLabel (c : Column) : Str :=
  match c.unit with
  | some u => c.label ++ " (".toList ++ u ++ ")".toList
  | none => c.label

/-- `_get_column_information` (file_save.py 197-210): padded label, underline, width. -/
def columnInformation (d : ℕ) (strOf : ℚ → Str) (c : Column) : Py (Str × Str × ℕ) :=
  match maxValueWidth d strOf c with
  | .error e => .error e
  | .ok vw =>
    let label := columnLabel c
    let w := max vw label.length
    .ok (ljust w label, List.replicate w '-', w)

/-- `np.concatenate((raw, column), axis=1)` (file_save.py 190), `ValueError` on different
numbers of rows. -/
def concatenate (raw : List (List Cell)) (col : List Cell) : Py (List (List Cell)) :=
  if raw.length = col.length then .ok (List.zipWith (fun r c => r ++ [c]) raw col)
  else .error .valueError

/-- State of the column loop: label line, underline, widths, table (`none`: unbound). -/
structure Acc where
  labels : Str
  underline : Str
  widths : List ℕ
  raw : Option (List (List Cell))

/-- The column loop (file_save.py 170-190). -/
def columnLoop (d : ℕ) (strOf : ℚ → Str) (total : ℕ) : ℕ → List Column → Acc → Py Acc
  | _, [], a => .ok a
  | i, c :: cs, a =>
    match columnInformation d strOf c with
    | .error e => .error e
    | .ok (label, underline, w) =>
      let ending := if i < total - 1 then ['\t'] else ['\n']
      let raw := match a.raw with
        | none => Except.ok (c.data.cells.map fun x => [x])
        | some r => concatenate r c.data.cells
      match raw with
      | .error e => .error e
      | .ok r => columnLoop d strOf total (i + 1) cs
          ⟨a.labels ++ label ++ ending, a.underline ++ underline ++ ending, a.widths ++ [w],
            some r⟩

/-- Does the concatenated table have an integer dtype?  NumPy promotes integers next to floats
to floats, and everything next to objects to Python objects. -/
def allInts (data : List Column) : Bool :=
  data.all fun c => match c.data with | .ints _ => true | _ => false

/-- The text of one entry (file_save.py 250-253).  `np.float64`, Python floats and Python ints
are instances of `(int, float)`; `np.int64` is not. -/
def entryText (d : ℕ) (intTable : Bool) : Cell → Str
  | .num x => fmtFixed d x
  | .int z => if intTable then intStr z else fmtFixed d z
  | .obj s => s

/-- `_write_column_data_to_file` (file_save.py 232-246). -/
def columnData (d : ℕ) (intTable : Bool) (widths : List ℕ) (raw : List (List Cell)) : Str :=
  joinFrom ['\n'] raw.length 0 (raw.map fun row =>
    joinFrom ['\t'] row.length 0
      (List.zipWith (fun c w => ljust w (entryText d intTable c)) row widths))

/-- `_write_data_to_file` (file_save.py 165-194). -/
def writeData (d : ℕ) (strOf : ℚ → Str) (data : List Column) : Out :=
  match columnLoop d strOf data.length 0 data ⟨[], [], [], none⟩ with
  | .error e => ([], some e)
  | .ok a =>
    let w := (write a.labels).andThen (write a.underline)
    match a.raw with
    | none => w.andThen ([], some .unboundLocalError)
    | some raw => w.andThen (write (columnData d (allInts data) a.widths raw))

/-- A stored layer (file_save.py 108). -/
structure Layer where
  subheading : Option Str
  parameters : Option (List (Str × Str))
  data : Option (List Column)
  digits : ℕ

/-- `_write_parameters_to_file` (file_save.py 157-162). -/
def parametersText (ps : List (Str × Str)) : Str :=
  joinFrom ['\n'] ps.length 0 (ps.map fun p => p.1 ++ ": ".toList ++ p.2)

/-- `BLANK_LINE_STRING` (file_save.py 9). -/
def blank : Str := ['\n', '\n']

/-- `_write_layer_to_file` (file_save.py 139-150). -/
def writeLayer (strOf : ℚ → Str) (l : Layer) : Out :=
  let a := match l.subheading with
    | some s => write s
    | none => write []
  let b := if l.subheading.isSome && l.parameters.isSome then write blank else write []
  let c := match l.parameters with
    | some ps => write (parametersText ps)
    | none => write []
  let e := if (l.subheading.isSome || l.parameters.isSome) && l.data.isSome then write blank
    else write []
  let f := match l.data with
    | some cols => writeData l.digits strOf cols
    | none => write []
  (((a.andThen b).andThen c).andThen e).andThen f

/-- The layer loop of `save` (file_save.py 124-128). -/
def writeLayers (strOf : ℚ → Str) (total : ℕ) : ℕ → List Layer → Out
  | _, [] => write []
  | i, l :: ls =>
    ((writeLayer strOf l).andThen (write (if i < total - 1 then blank else []))).andThen
      (writeLayers strOf total (i + 1) ls)

/-- `TextFileWriter` (file_save.py 55-58, 108). -/
structure Writer where
  fileName : Str
  header : Option Str
  layers : List Layer

/-- `_process_file_name` (file_save.py 131-132). -/
def processFileName (name : Str) : Str :=
  if ".txt".toList.isSuffixOf name then name else name ++ ".txt".toList

/-- `TextFileWriter.__init__` (file_save.py 55-58). -/
def Writer.new (name : Str) (header : Option Str) : Writer := ⟨processFileName name, header, []⟩

/-- `TextFileWriter.add_layer` (file_save.py 60-108). -/
def Writer.addLayer (w : Writer) (l : Layer) : Writer := { w with layers := w.layers ++ [l] }

/-- The text `save` writes after opening the file (file_save.py 117-128). -/
def Writer.output (strOf : ℚ → Str) (w : Writer) : Out :=
  let h := match w.header with
    | some h => (write (h ++ ['\n'] ++ List.replicate h.length '=')).andThen
        (write (if 0 < w.layers.length then blank else []))
    | none => write []
  h.andThen (writeLayers strOf w.layers.length 0 w.layers)

/-- Files by name. -/
abbrev Files := Str → Option Str

/-- `TextFileWriter.save` (file_save.py 110-128): `open(.., "w")` truncates the file, the `with`
block flushes what was written even when an exception leaves it.  Simplified: `open` succeeds
and the disk does not fill up. -/
def Writer.save (strOf : ℚ → Str) (w : Writer) (fs : Files) : Files × Option PyErr :=
  let out := w.output strOf
  (fun n => if n = w.fileName then some out.1 else fs n, out.2)

/-- `save_text_file` of a writer with one table and a header, as in
coordinates/frames/gcrs.py 85-103 (the same in itrs.py, lvlh.py, wgs84.py, azel.py,
attitude.py) and satellite.py 264-285, window_handling.py 221-223; default format `%.15f`. -/
def saveTable (strOf : ℚ → Str) (name header : Str) (cols : List Column) (fs : Files) :
    Files × Option PyErr :=
  ((Writer.new name (some header)).addLayer ⟨none, none, some cols, 15⟩).save strOf fs

/-- `WindowCollection.save_text_file` (window_handling.py 202-261).  For observations, line
251-253 take element 0 of the attitude series; `locStr` is `str(location)`.  Simplified: an
observation's attitude samples are given as one list of (roll, pitch, yaw). -/
def saveVisible (strOf : ℚ → Str) (name : Str) (ws : List Celest.Schedule.VTW) (fs : Files) :
    Files × Option PyErr :=
  if ws = [] then (fs, some .exception)
  else saveTable strOf name "VisibleTimeWindow Data".toList
    [⟨"Rise Time".toList, some "jd2000".toList, .floats (ws.map (·.rise))⟩,
     ⟨"Set Time".toList, some "jd2000".toList, .floats (ws.map (·.set))⟩] fs

/-- An observation window as saved: start, duration, `str(location)`, attitude samples. -/
structure ObsRow where
  start : ℚ
  duration : ℚ
  location : Str
  attitude : List (ℚ × ℚ × ℚ)

/-- `attitude.roll[0]` etc. (window_handling.py 251-253). -/
def firstAttitude (w : ObsRow) : Py (ℚ × ℚ × ℚ) :=
  match w.attitude with
  | [] => .error .indexError
  | a :: _ => .ok a

/-- `WindowCollection.save_text_file` for observation windows (window_handling.py 202-261). -/
def saveObservations (strOf : ℚ → Str) (name : Str) (ws : List ObsRow) (fs : Files) :
    Files × Option PyErr :=
  if ws = [] then (fs, some .exception)
  else
    match ws.mapM firstAttitude with
    | .error e => (fs, some e)
    | .ok att => saveTable strOf name "ObservationWindow Data".toList
      [⟨"Start Time".toList, some "jd2000".toList, .floats (ws.map (·.start))⟩,
       ⟨"Duration".toList, some "s".toList, .floats (ws.map (·.duration))⟩,
       ⟨"Location".toList, none, .objs (ws.map (·.location))⟩,
       ⟨"Roll".toList, some "deg".toList, .floats (att.map (·.1))⟩,
       ⟨"Pitch".toList, some "deg".toList, .floats (att.map (·.2.1))⟩,
       ⟨"Yaw".toList, some "deg".toList, .floats (att.map (·.2.2))⟩] fs

/-! ### angle_strings.py -/

/-- `_get_sexagesimal_string` (angle_strings.py 42-63) of a nonnegative angle. -/
def sexagesimal (x : ℚ) : Str :=
  let deg := (zfill 2 (natStr ⌊x⌋₊)).take 3
  let mn := (zfill 2 (natStr ⌊x * 60 - 60 * ⌊x * 60 / 60⌋₊⌋₊)).take 2
  let sec := zfill 5 (fmtFixed 2 (x * 3600 - 60 * ⌊x * 3600 / 60⌋₊))
  deg ++ ['°'] ++ mn ++ ['′'] ++ sec ++ ['″']

/-- `_get_latitude_string` (angle_strings.py 35-39); `deg` is the angle in degrees, `raw` the
number stored in the quantity. -/
def latitudeString (deg raw : ℚ) : Str :=
  sexagesimal |deg| ++ (if 0 ≤ raw then ['N'] else ['S'])

/-- `_get_longitude_string` (angle_strings.py 66-70). -/
def longitudeString (deg raw : ℚ) : Str :=
  sexagesimal |deg| ++ (if 0 ≤ raw then ['E'] else ['W'])

/-- `_get_height_string` (angle_strings.py 73-74). -/
def heightString (raw : ℚ) (unit : Str) : Str := fmtFixed 2 raw ++ unit

/-- `_ISO6709_representation` (angle_strings.py 12-32). -/
def iso6709 (latDeg latRaw lonDeg lonRaw height : ℚ) (unit : Str) : Str :=
  List.intercalate [' '] [latitudeString latDeg latRaw, longitudeString lonDeg lonRaw,
    heightString height unit]

end Celest.Text
