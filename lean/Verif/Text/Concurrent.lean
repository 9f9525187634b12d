/-
Several processes that run `TextFileWriter.save` of celest/file_save.py on one file at the same
time.
-/
import Verif.Text.Crash

namespace Celest.Text

/-- The content of a file after `s` was written at position `o`: a gap is filled with zeros. -/
def writeAt (t : Str) (o : ℕ) (s : Str) : Str :=
  (t ++ List.replicate (o - t.length) '\x00').take o ++ s ++ t.drop (o + s.length)

/-- One saving process: what is left to do, what has not reached the disk, and its position in the
file. -/
structure Proc where
  todo : List Op
  buffer : Str
  offset : ℕ

/-- The file and the processes. -/
structure Shared (ι : Type) where
  content : Option Str
  proc : ι → Proc

variable {ι : Type} [DecidableEq ι]

/-- One step of one of the processes: `open(.., "w")` empties the file under the feet of the others,
whose positions stay as they are (file_save.py 117).  Simplified: characters are not cut into
bytes. -/
inductive Shared.Step : Shared ι → Shared ι → Prop
  | openFile (i : ι) (c : Option Str) (p : ι → Proc) (r : List Op) (b : Str) (o : ℕ) :
      p i = ⟨.openFile :: r, b, o⟩ →
      Step ⟨c, p⟩ ⟨some [], Function.update p i ⟨r, [], 0⟩⟩
  | write (i : ι) (c : Option Str) (p : ι → Proc) (s : Str) (r : List Op) (b : Str) (o : ℕ) :
      p i = ⟨.write s :: r, b, o⟩ →
      Step ⟨c, p⟩ ⟨c, Function.update p i ⟨r, b ++ s, o⟩⟩
  | flush (i : ι) (t : Str) (p : ι → Proc) (r : List Op) (b b' : Str) (o : ℕ) :
      p i = ⟨r, b ++ b', o⟩ →
      Step ⟨some t, p⟩ ⟨some (writeAt t o b), Function.update p i ⟨r, b', o + b.length⟩⟩
  | closeFile (i : ι) (t : Str) (p : ι → Proc) (r : List Op) (b : Str) (o : ℕ) :
      p i = ⟨.closeFile :: r, b, o⟩ →
      Step ⟨some t, p⟩ ⟨some (writeAt t o b), Function.update p i ⟨r, [], o + b.length⟩⟩

/-- The processes with the writers `w` run side by side from the content `c` of the file, in any
order, until all are finished, and leave the content `c'`. -/
def SavedTogether (strOf : ℚ → Str) (w : ι → Writer) (c c' : Option Str) : Prop :=
  ∃ s : Shared ι, Relation.ReflTransGen Shared.Step
    ⟨c, fun i => ⟨(w i).program strOf, [], 0⟩⟩ s ∧ (∀ i, (s.proc i).todo = []) ∧ s.content = c'

end Celest.Text
