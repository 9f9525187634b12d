/-
`TextFileWriter.save` of celest/file_save.py as a sequence of calls on a buffered file, so that it
can be interrupted between any two of them and while the buffer is on its way to the disk.
-/
import Mathlib.Logic.Relation
import Verif.Text.Model

namespace Celest.Text

/-- The strings passed to `file.write` one after the other, and the exception that ended the
sequence, if any. -/
abbrev Calls := List Str × Option PyErr

/-- Run one writer after another; an exception skips the second. -/
def Calls.andThen (a b : Calls) : Calls :=
  match a.2 with
  | some _ => a
  | none => (a.1 ++ b.1, b.2)

/-- One successful `file.write`. -/
def call (s : Str) : Calls := ([s], none)

/-- No call. -/
def noCall : Calls := ([], none)

/-- The loops that write one piece at a time, with `sep` after every piece but the last
(file_save.py 157-162 and 232-246). -/
def pieces (sep : Str) (total : ℕ) : ℕ → List Str → List Str
  | _, [] => []
  | i, s :: ss => (s ++ (if i < total - 1 then sep else [])) :: pieces sep total (i + 1) ss

/-- `_write_data_to_file` (file_save.py 165-194): nothing is written before every column has been
looked at; then the labels, the underlines and one string per row. -/
def dataCalls (d : ℕ) (strOf : ℚ → Str) (data : List Column) : Calls :=
  match columnLoop d strOf data.length 0 data ⟨[], [], [], none⟩ with
  | .error e => ([], some e)
  | .ok a =>
    let w := (call a.labels).andThen (call a.underline)
    match a.raw with
    | none => w.andThen ([], some .unboundLocalError)
    | some raw => w.andThen (pieces ['\n'] raw.length 0 (raw.map fun row =>
        joinFrom ['\t'] row.length 0
          (List.zipWith (fun c w => ljust w (entryText d (allInts data) c)) row a.widths)), none)

/-- `_write_layer_to_file` (file_save.py 139-150). -/
def layerCalls (strOf : ℚ → Str) (l : Layer) : Calls :=
  let a := match l.subheading with
    | some s => call s
    | none => noCall
  let b := if l.subheading.isSome && l.parameters.isSome then call blank else noCall
  let c := match l.parameters with
    | some ps => (pieces ['\n'] ps.length 0 (ps.map fun p => p.1 ++ ": ".toList ++ p.2), none)
    | none => noCall
  let e := if (l.subheading.isSome || l.parameters.isSome) && l.data.isSome then call blank
    else noCall
  let f := match l.data with
    | some cols => dataCalls l.digits strOf cols
    | none => noCall
  (((a.andThen b).andThen c).andThen e).andThen f

/-- The layer loop of `save` (file_save.py 124-128). -/
def layersCalls (strOf : ℚ → Str) (total : ℕ) : ℕ → List Layer → Calls
  | _, [] => noCall
  | i, l :: ls =>
    ((layerCalls strOf l).andThen (if i < total - 1 then call blank else noCall)).andThen
      (layersCalls strOf total (i + 1) ls)

/-- The calls of `save` on the open file (file_save.py 117-128). -/
def Writer.calls (strOf : ℚ → Str) (w : Writer) : Calls :=
  let h := match w.header with
    | some h => (call (h ++ ['\n'] ++ List.replicate h.length '=')).andThen
        (if 0 < w.layers.length then call blank else noCall)
    | none => noCall
  h.andThen (layersCalls strOf w.layers.length 0 w.layers)

/-- What `save` asks of the operating system. -/
inductive Op
  | openFile
  | write (s : Str)
  | closeFile

/-- `TextFileWriter.save` (file_save.py 110-128): open for writing, the calls, and the end of the
`with` block, which closes the file whether or not an exception was raised. -/
def Writer.program (strOf : ℚ → Str) (w : Writer) : List Op :=
  .openFile :: (w.calls strOf).1.map .write ++ [.closeFile]

/-- A saving process: what is left to do, the files, and what was written but has not reached the
disk. -/
structure Saving where
  todo : List Op
  files : Files
  buffer : Str

/-- The files with one of them replaced. -/
def Files.set (fs : Files) (name t : Str) : Files := fun n => if n = name then some t else fs n

/-- One step of a process saving the file `name`: `open(.., "w")` empties the file; `write` fills
the buffer; at any time any part of the buffer may be moved to the file; closing the file moves all
of it.  Simplified: characters are not cut into bytes. -/
inductive Saving.Step (name : Str) : Saving → Saving → Prop
  | openFile (r : List Op) (fs : Files) (b : Str) :
      Step name ⟨.openFile :: r, fs, b⟩ ⟨r, fs.set name [], []⟩
  | write (s : Str) (r : List Op) (fs : Files) (b : Str) :
      Step name ⟨.write s :: r, fs, b⟩ ⟨r, fs, b ++ s⟩
  | flush (r : List Op) (fs : Files) (t b c : Str) : fs name = some t →
      Step name ⟨r, fs, b ++ c⟩ ⟨r, fs.set name (t ++ b), c⟩
  | closeFile (r : List Op) (fs : Files) (t b : Str) : fs name = some t →
      Step name ⟨.closeFile :: r, fs, b⟩ ⟨r, fs.set name (t ++ b), []⟩

/-- `save` has begun with the files `fs` and has come to the state `s`. -/
def Writer.Reaches (strOf : ℚ → Str) (w : Writer) (fs : Files) (s : Saving) : Prop :=
  Relation.ReflTransGen (Saving.Step w.fileName) ⟨w.program strOf, fs, []⟩ s

/-- The files a process leaves that is killed, loses power, cannot open the file or runs out of
disk space at some point of `save`: what was in the buffer is lost. -/
def Writer.Interrupted (strOf : ℚ → Str) (w : Writer) (fs fs' : Files) : Prop :=
  ∃ s, w.Reaches strOf fs s ∧ s.files = fs'

/-- The files `save` leaves when nothing interrupts it. -/
def Writer.Completed (strOf : ℚ → Str) (w : Writer) (fs fs' : Files) : Prop :=
  ∃ s, w.Reaches strOf fs s ∧ s.todo = [] ∧ s.files = fs'

end Celest.Text
