/-
Model of celest/encounter/window_generator.py and of the container part of
celest/encounter/window_handling.py.
-/
import Verif.Schedule.Scheduler

namespace Celest.Windows

open Celest.Schedule (VTW Observation)

/-! ### window_generator.py -/

/-- `Lighting` (window_generator.py 12-32) as the `lighting` argument; `invalid` is any
other object. -/
inductive Lighting
  | night
  | anytime
  | day
  | invalid
deriving DecidableEq

/-- What `generate_vtws` obtains from the satellite, the location and the ephemeris:
one entry per time sample.  `elevation` and `sunElevation` in degrees
(`Coordinate.convert_to(AzEl, location)`, modelled in `Verif/Frames`), `julian` in jd2000,
`pitch` the attitude series attached to every window.  Simplified: roll and yaw dropped.
The elevations are NaN (`none`) or of any ordered type `K`: rationals in the examples, real
numbers in `Verif/Windows/Geometry.lean`. -/
structure Scene (K : Type) where
  hasVelocity : Bool
  julian : List ℚ
  elevation : List (Option K)
  sunElevation : List (Option K)
  pitch : List ℚ

variable {K : Type} [LinearOrder K] [Zero K] [OfNat K 90]

/-- `np.where(mask)[0]` (window_generator.py 77, 112, 137).  Comparisons with NaN are false. -/
def whereIndices {α : Type} (p : α → Bool) (l : List α) : List ℕ :=
  (List.range l.length).filter fun i => (l[i]?).any p

/-- `_lighting_constraint_indices` (window_generator.py 97-137). -/
def lightingIndices (sc : Scene K) : Lighting → Py (List ℕ)
  | .night => .ok (whereIndices (fun x => x.any (· < 0)) sc.sunElevation)
  | .anytime => .ok (List.range sc.julian.length)
  | .day => .ok (whereIndices (fun x => x.any (0 < ·)) sc.sunElevation)
  | .invalid => .error .valueError

/-- `np.intersect1d` of two duplicate-free ascending index lists (window_generator.py 80). -/
def intersect1d (a b : List ℕ) : List ℕ := a.filter fun i => i ∈ b

/-- `np.diff` (window_generator.py 83). -/
def diff : List ℕ → List ℤ
  | a :: b :: l => ((b : ℤ) - a) :: diff (b :: l)
  | _ => []

/-- `np.where(np.diff(w) != 1)[0] + 1` (window_generator.py 83). -/
def splitPoints (w : List ℕ) : List ℕ :=
  ((List.range (diff w).length).filter fun i => (diff w)[i]? ≠ some 1).map (· + 1)

/-- `np.split(w, points)`: the slices between consecutive split points. -/
def splitAt (w : List ℕ) : ℕ → List ℕ → List (List ℕ)
  | start, [] => [w.drop start]
  | start, p :: ps => (w.take p).drop start :: splitAt w p ps

/-- `np.split` (window_generator.py 82-84). -/
def split (w points : List ℕ) : List (List ℕ) := splitAt w 0 points

/-- `array[k]` for a possibly negative integer index. -/
def pyGet {α : Type} (l : List α) (k : ℤ) : Py α :=
  let k' := if k < 0 then k + l.length else k
  if k' < 0 then .error .indexError
  else
    match l[k'.toNat]? with
    | some x => .ok x
    | none => .error .indexError

/-- One pass of the window loop (window_generator.py 89-92). -/
def toWindow {K : Type} (sc : Scene K) (run : List ℕ) : Py VTW := do
  let first ← pyGet run 0
  let rise ← pyGet sc.julian ((first : ℤ) - 1)
  let last ← pyGet run (-1)
  let set ← pyGet sc.julian last
  return ⟨rise, set, sc.julian, sc.pitch⟩

/-- `generate_vtws` (window_generator.py 35-94).  The windows are all of one type, so
`add_window` cannot fail here (window_generator.py 92). -/
def generateVtws (sc : Scene K) (threshold : K) (lighting : Lighting) : Py (List VTW) :=
  if !sc.hasVelocity then .error .warning
  else if threshold < 0 || 90 < threshold then .error .valueError
  else
    let w := whereIndices (fun e => e.any (threshold < ·)) sc.elevation
    match lightingIndices sc lighting with
    | .error e => .error e
    | .ok li =>
      let w := intersect1d w li
      (split w (splitPoints w)).mapM (toWindow sc)

/-! ### window_handling.py -/

/-- An argument of `WindowCollection.add_window`. -/
inductive Window
  | visible (v : VTW)
  | observation (o : Observation)
  | other (id : ℕ)
deriving DecidableEq

/-- The class of an argument. -/
inductive Kind
  | visible
  | observation
  | other
deriving DecidableEq

/-- `window.__class__`. -/
def Window.kind : Window → Kind
  | .visible _ => .visible
  | .observation _ => .observation
  | .other _ => .other

/-- `WindowCollection` (window_handling.py 151-153). -/
structure Collection where
  data : List Window
  index : ℕ
deriving DecidableEq

/-- `WindowCollection.__init__` (window_handling.py 151-153). -/
def Collection.empty : Collection := ⟨[], 0⟩

/-- `WindowCollection.add_window` (window_handling.py 180-200): the collection afterwards and
the raised exception, if any. -/
def Collection.add (c : Collection) (w : Window) : Collection × Option PyErr :=
  if w.kind = .other then (c, some .typeError)
  else
    match c.data with
    | [] => ({ c with data := c.data ++ [w] }, none)
    | first :: _ =>
      if w.kind = first.kind then ({ c with data := c.data ++ [w] }, none)
      else (c, some .typeError)

/-- `WindowCollection.__next__` (window_handling.py 168-174); `none` is `StopIteration`. -/
def Collection.next (c : Collection) : Option Window × Collection :=
  if c.index < c.data.length then (c.data[c.index]?, { c with index := c.index + 1 })
  else (none, { c with index := 0 })

/-- A `for` loop whose body runs `body` on the collection and says whether to `break`, given
the number of passes made.  `__iter__` (window_handling.py 165-166) returns the collection
itself.  At most `fuel` passes; the flag tells whether the loop ended. -/
def Collection.forLoop (body : ℕ → Collection → Collection × Bool) :
    ℕ → ℕ → Collection → List Window × Collection × Bool
  | 0, _, c => ([], c, false)
  | fuel + 1, k, c =>
    match c.next with
    | (none, c') => ([], c', true)
    | (some w, c') =>
      match body k c' with
      | (c'', true) => ([w], c'', true)
      | (c'', false) =>
        let (ws, c₃, done) := forLoop body fuel (k + 1) c''
        (w :: ws, c₃, done)

/-- A complete loop: the body leaves the collection alone. -/
def Collection.loopAll (c : Collection) : List Window × Collection × Bool :=
  c.forLoop (fun _ c => (c, false)) (c.data.length + 1) 0

/-- A loop with `break` in its `n`-th pass (`n ≥ 1`). -/
def Collection.loopBreak (n : ℕ) (c : Collection) : List Window × Collection × Bool :=
  c.forLoop (fun k c => (c, k + 1 = n)) (c.data.length + 1) 0

/-- A loop with a complete loop over the same collection nested in its body. -/
def Collection.loopNested (fuel : ℕ) (c : Collection) : List Window × Collection × Bool :=
  c.forLoop (fun _ c => (c.loopAll.2.1, false)) fuel 0

/-- `WindowCollection.__getitem__` with an integer key (window_handling.py 176-178). -/
def Collection.get (c : Collection) (k : ℤ) : Py Window := pyGet c.data k

/-- A step in the life of a collection. -/
inductive Use
  | add (w : Window)
  | loop
  | loopBreak (n : ℕ)

/-- The collection after one step. -/
def Collection.use (c : Collection) : Use → Collection
  | .add w => (c.add w).1
  | .loop => c.loopAll.2.1
  | .loopBreak n => (c.loopBreak n).2.1

/-- The collection after a history. -/
def Collection.run (us : List Use) : Collection := us.foldl Collection.use Collection.empty

end Celest.Windows
