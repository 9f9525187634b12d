/-
Position and time objects whose data are NumPy arrays, which live in memory, can be shared and can
be changed in place (coordinates/frames, coordinates/transforms.py, coordinates/coordinate.py,
satellite.py, time.py).

`Verif/Frames/Containers.lean` has the same conversions on values.  Here an array is known by its
address, so that it can be said which operations share an array, copy one or write to one.

Simplified: the arrays are arrays of floats; the sizes of units are numbers.
-/
import Verif.Frames.Containers

namespace Celest.Frames

/-- The float arrays that exist, by address; `none` is NaN. -/
abbrev Memory := List (List (Option ℝ))

/-- Creating arrays: their addresses, and the memory with them. -/
def alloc (arrays : List (List (Option ℝ))) (m : Memory) : List ℕ × Memory :=
  (List.range' m.length arrays.length, m ++ arrays)

/-- The content of an array.  Addresses in use always exist (`Session.Sound`). -/
def content (m : Memory) (address : ℕ) : List (Option ℝ) := m[address]?.getD []

/-- `array[k] = x` of an existing element (NumPy). -/
def assign (m : Memory) (address k : ℕ) (x : ℝ) : Memory :=
  m.set address ((content m address).set k (some x))

/-- A position object (base_positions.py 29-31, 85-88): its class, the sizes of its units, its
ground location if it has one, and the arrays of its time and its components. -/
structure Object where
  frame : FrameName
  unit : ℝ
  unit2 : ℝ
  location : Option Ground
  time : ℕ
  components : List ℕ

/-- The arrays an object refers to. -/
def Object.arrays (o : Object) : List ℕ := o.time :: o.components

/-- The rows of four arrays of one length without NaN. -/
def rows3 : List (Option ℝ) → List (Option ℝ) → List (Option ℝ) → List (Option ℝ) →
    Option (List (ℝ × Vec))
  | [], [], [], [] => some []
  | some t :: ts, some x :: xs, some y :: ys, some z :: zs =>
    (rows3 ts xs ys zs).map ((t, ![x, y, z]) :: ·)
  | _, _, _, _ => none

/-- The rows of the arrays of a `WGS84` object: latitudes can be NaN. -/
def rowsGeo : List (Option ℝ) → List (Option ℝ) → List (Option ℝ) → List (Option ℝ) →
    Option (List (ℝ × Option ℝ × ℝ × ℝ))
  | [], [], [], [] => some []
  | some t :: ts, x :: xs, some y :: ys, some z :: zs =>
    (rowsGeo ts xs ys zs).map ((t, x, y, z) :: ·)
  | _, _, _, _ => none

/-- The rows of the arrays of an `AzEl` object: both angles can be NaN. -/
def rowsAzEl : List (Option ℝ) → List (Option ℝ) → List (Option ℝ) →
    Option (List (ℝ × Option ℝ × Option ℝ))
  | [], [], [] => some []
  | some t :: ts, x :: xs, y :: ys => (rowsAzEl ts xs ys).map ((t, x, y) :: ·)
  | _, _, _ => none

/-- The position an object stands for now, or `none` if its arrays are not of one length or
hold NaN where the model of positions has numbers only. -/
def Object.value (o : Object) (m : Memory) : Option Position :=
  match o.frame, o.location, o.components.map (content m) with
  | .gcrs, _, [x, y, z] => (rows3 (content m o.time) x y z).map fun s => .gcrs ⟨o.unit, s⟩
  | .itrs, _, [x, y, z] => (rows3 (content m o.time) x y z).map fun s => .itrs ⟨o.unit, s⟩
  | .lvlh, _, [x, y, z] => (rows3 (content m o.time) x y z).map fun s => .lvlh ⟨o.unit, s⟩
  | .attitude, _, [x, y, z] =>
    (rows3 (content m o.time) x y z).map fun s => .attitude ⟨o.unit, s⟩
  | .wgs84, _, [x, y, z] =>
    (rowsGeo (content m o.time) x y z).map fun s => .wgs84 ⟨o.unit, o.unit2, s⟩
  | .azel, some l, [x, y] => (rowsAzEl (content m o.time) x y).map fun s => .azel ⟨l, s⟩
  | _, _, _ => none

/-- The time array and the component arrays of rows of three coordinates. -/
def columns3 (s : List (ℝ × Vec)) : List (Option ℝ) × List (List (Option ℝ)) :=
  (s.map fun r => some r.1, [s.map fun r => some (r.2 0), s.map fun r => some (r.2 1),
    s.map fun r => some (r.2 2)])

/-- What a conversion does at the level of objects; `unmodelled` if the object it starts from
has no `value`. -/
inductive Result
  | object (o : Object)
  | notImplemented
  | raised (e : PyErr)
  | diverges
  | unmodelled

/-- `deepcopy` of an object (transforms.py 55, 134).  Simplified: arrays that the object has twice
are copied twice. -/
def deepcopy (o : Object) (m : Memory) : Object × Memory :=
  let t := alloc [content m o.time] m
  let c := alloc (o.components.map (content m)) t.2
  ({ o with time := t.1.headD 0, components := c.1 }, c.2)

/-- The end of `_gcrs_to_itrs` and `_itrs_to_gcrs` (transforms.py 75, 154): the time array is the
one of `base`, the coordinates are new arrays. -/
def withCoordinates (base : Object) (frame : FrameName) (c : Cartesian) (m : Memory) :
    Object × Memory :=
  let a := alloc (columns3 c.samples).2 m
  (⟨frame, c.unit, 1, none, base.time, a.1⟩, a.2)

/-- `_gcrs_to_itrs` (transforms.py 26-75). -/
noncomputable def gcrsToItrsM (o : Object) (m : Memory) : Result × Memory :=
  let d := deepcopy o m
  match d.1.value d.2 with
  | some (.gcrs c) =>
    let r := withCoordinates d.1 .itrs (gcrsToItrs c) d.2
    (.object r.1, r.2)
  | _ => (.unmodelled, m)

/-- `_itrs_to_gcrs` (transforms.py 105-154). -/
noncomputable def itrsToGcrsM (o : Object) (m : Memory) : Result × Memory :=
  let d := deepcopy o m
  match d.1.value d.2 with
  | some (.itrs c) =>
    let r := withCoordinates d.1 .gcrs (itrsToGcrs c) d.2
    (.object r.1, r.2)
  | _ => (.unmodelled, m)

/-- A new object with new arrays.  `Quantity.to` gives a new array (quantity.py 231-297), as NumPy
arithmetic does. -/
def newObject (frame : FrameName) (u u2 : ℝ) (l : Option Ground)
    (columns : List (Option ℝ) × List (List (Option ℝ))) (m : Memory) : Object × Memory :=
  let t := alloc [columns.1] m
  let c := alloc columns.2 t.2
  (⟨frame, u, u2, l, t.1.headD 0, c.1⟩, c.2)

/-- A new object for a position (the constructor calls of transforms.py 189, 302, 332). -/
def build (p : Position) : Memory → Object × Memory :=
  match p with
  | .gcrs c => newObject .gcrs c.unit 1 none (columns3 c.samples)
  | .itrs c => newObject .itrs c.unit 1 none (columns3 c.samples)
  | .lvlh c => newObject .lvlh c.unit 1 none (columns3 c.samples)
  | .attitude c => newObject .attitude c.unit 1 none (columns3 c.samples)
  | .wgs84 w => newObject .wgs84 w.angularUnit w.lengthUnit none (w.samples.map fun r => some r.1,
      [w.samples.map fun r => r.2.1, w.samples.map fun r => some r.2.2.1,
        w.samples.map fun r => some r.2.2.2])
  | .azel h => newObject .azel 1 1 (some h.location) (h.samples.map fun r => some r.1,
      [h.samples.map fun r => r.2.1, h.samples.map fun r => r.2.2])

/-- `_itrs_to_wgs84` (transforms.py 157-189): the time array comes from `Quantity.to`. -/
noncomputable def itrsToWgs84M (o : Object) (m : Memory) : Result × Memory :=
  match o.value m with
  | some (.itrs c) =>
    match itrsToWgs84 c with
    | .returned p => let r := build p m; (.object r.1, r.2)
    | .notImplemented => (.notImplemented, m)
    | .raised e => (.raised e, m)
    | .diverges => (.diverges, m)
  | _ => (.unmodelled, m)

/-- `_wgs84_to_itrs` (transforms.py 254-302). -/
noncomputable def wgs84ToItrsM (o : Object) (m : Memory) : Result × Memory :=
  match o.value m with
  | some (.wgs84 w) => let r := build (.itrs (wgs84ToItrs w)) m; (.object r.1, r.2)
  | _ => (.unmodelled, m)

/-- `_itrs_to_azel` (transforms.py 305-332). -/
noncomputable def itrsToAzelM (l : Ground) (o : Object) (m : Memory) : Result × Memory :=
  match o.value m with
  | some (.itrs c) => let r := build (itrsToAzel c l) m; (.object r.1, r.2)
  | _ => (.unmodelled, m)

/-- One conversion after another. -/
def followedBy (r : Result × Memory) (f : Object → Memory → Result × Memory) : Result × Memory :=
  match r.1 with
  | .object o => f o r.2
  | _ => r

/-- `_convert_from_gcrs` (coordinate.py 92-104). -/
noncomputable def convertFromGcrsM (o : Object) (frame : FrameName) (location : Option Ground)
    (m : Memory) : Result × Memory :=
  followedBy (gcrsToItrsM o m) fun itrs m' =>
    match frame with
    | .itrs => (.object itrs, m')
    | .wgs84 => itrsToWgs84M itrs m'
    | .azel =>
      match location with
      | none => (.raised .valueError, m')
      | some l => itrsToAzelM l itrs m'
    | _ => (.notImplemented, m')

/-- `_convert_from_itrs` (coordinate.py 106-117). -/
noncomputable def convertFromItrsM (o : Object) (frame : FrameName) (location : Option Ground)
    (m : Memory) : Result × Memory :=
  match frame with
  | .gcrs => itrsToGcrsM o m
  | .wgs84 => itrsToWgs84M o m
  | .azel =>
    match location with
    | none => (.raised .valueError, m)
    | some l => itrsToAzelM l o m
  | _ => (.notImplemented, m)

/-- `_convert_from_wgs84` (coordinate.py 119-131). -/
noncomputable def convertFromWgs84M (o : Object) (frame : FrameName) (location : Option Ground)
    (m : Memory) : Result × Memory :=
  followedBy (wgs84ToItrsM o m) fun itrs m' =>
    match frame with
    | .itrs => (.object itrs, m')
    | .gcrs => itrsToGcrsM itrs m'
    | .azel =>
      match location with
      | none => (.raised .valueError, m')
      | some l => itrsToAzelM l itrs m'
    | _ => (.notImplemented, m')

/-- `Coordinate(o).convert_to(frame, location)` (coordinate.py 55-90): to the object's own frame
the object itself is returned. -/
noncomputable def convertM (o : Object) (frame : FrameName) (location : Option Ground)
    (m : Memory) : Result × Memory :=
  if o.frame ≠ .itrs ∧ o.frame ≠ .gcrs ∧ o.frame ≠ .wgs84 then (.raised .valueError, m)
  else if o.frame = frame then (.object o, m)
  else
    match o.frame with
    | .gcrs => convertFromGcrsM o frame location m
    | .itrs => convertFromItrsM o frame location m
    | .wgs84 => convertFromWgs84M o frame location m
    | _ => (.notImplemented, m)

/-- `Satellite(position)` (satellite.py 64-70): the object it keeps as `satellite.position`.  A
velocity is treated alike (satellite.py 72-79). -/
noncomputable def satellitePosition (o : Object) (m : Memory) : Result × Memory :=
  match o.frame with
  | .itrs => (.object o, m)
  | .gcrs => gcrsToItrsM o m
  | _ => (.raised .valueError, m)

/-- A `Time` object (time.py 106-107). -/
structure TimeObject where
  julian : ℕ
  length : ℕ

/-- What `Time` is given (time.py 83-99): a number, a one-dimensional array or list by its array,
or something of more dimensions. -/
inductive TimeInput
  | number (x : ℝ)
  | array (address : ℕ)
  | deeper

/-- `Time.__init__` (time.py 99-107): `np.array` copies, a number becomes an array of one element,
and `+` gives a new array.  Simplified: the copy made by `np.array`, which nothing else refers to,
is not given an address. -/
def timeInit (input : TimeInput) (offset : ℝ) (m : Memory) : Py TimeObject × Memory :=
  let plus (xs : List (Option ℝ)) : Py TimeObject × Memory :=
    let a := alloc [xs.map (Option.map (· + offset))] m
    (.ok ⟨a.1.headD 0, xs.length⟩, a.2)
  match input with
  | .number x => plus [some x]
  | .array p => plus (content m p)
  | .deeper => (.error .valueError, m)

/-- The Julian dates of a `Time` object now: what `time.julian` shows and its methods use. -/
def TimeObject.dates (t : TimeObject) (m : Memory) : List (Option ℝ) := content m t.julian

/-- `len(time)` (time.py 109-110). -/
def TimeObject.len (t : TimeObject) : ℕ := t.length

/-! ### Programs using the library -/

/-- A running program: the arrays that exist, those the program has hold of (so that it can assign
to their elements), and the `Time` and position objects it has made.  Of a satellite there is the
position object it keeps. -/
structure Session where
  memory : Memory
  held : List ℕ
  times : List TimeObject
  positions : List Object

/-- A program with nothing yet. -/
def Session.start : Session := ⟨[], [], [], []⟩

/-- What a program does.  Arrays, times and positions are named by the order they were obtained
in. -/
inductive Step
  /-- Making an array. -/
  | array (xs : List (Option ℝ))
  /-- `arrays[h][k] = x`. -/
  | assign (h k : ℕ) (x : ℝ)
  /-- `Time(x, offset)`. -/
  | timeOf (x offset : ℝ)
  /-- `Time(arrays[h], offset)`. -/
  | time (h : ℕ) (offset : ℝ)
  /-- `times[i].julian.data`. -/
  | julian (i : ℕ)
  /-- A position object made from arrays: `frame(julian, ..., unit, ...)`. -/
  | position (frame : FrameName) (unit unit2 : ℝ) (location : Option Ground) (time : ℕ)
      (components : List ℕ)
  /-- `positions[i].time.data`. -/
  | timeData (i : ℕ)
  /-- `positions[i].x.data` (0), `.y.data` (1), ... -/
  | component (i c : ℕ)
  /-- `Coordinate(positions[i]).convert_to(frame, location)`. -/
  | convert (i : ℕ) (frame : FrameName) (location : Option Ground)
  /-- `Satellite(positions[i]).position`. -/
  | satellite (i : ℕ)

/-- The constructor's checks (base_positions.py 24-27, 80-83). -/
def constructorAccepts (m : Memory) (time : ℕ) : List ℕ → Prop
  | [x, y, z] => position3dInit ⟨[(content m x).length]⟩ ⟨[(content m y).length]⟩
      ⟨[(content m z).length]⟩ ⟨[(content m time).length]⟩ = .ok ()
  | [x, y] => position2dInit ⟨[(content m x).length]⟩ ⟨[(content m y).length]⟩
      ⟨[(content m time).length]⟩ = .ok ()
  | _ => False

/-- Adding a resulting object, if there is one, to the positions of a program. -/
def Session.obtain (s : Session) (r : Result × Memory) : Session :=
  match r.1 with
  | .object o => { s with memory := r.2, positions := s.positions ++ [o] }
  | _ => { s with memory := r.2 }

/-- Adding a `Time` object, if one was made, to those of a program. -/
def Session.obtainTime (s : Session) (r : Py TimeObject × Memory) : Session :=
  match r.1 with
  | .ok t => { s with memory := r.2, times := s.times ++ [t] }
  | .error _ => s

open Classical in
/-- One step of a program.  A step that names something that does not exist, or that raises, does
nothing.  Constructors keep the arrays they are given, and the accessors give out the arrays of
the object (base_positions.py 29-41, 85-100; time.py 112-118). -/
noncomputable def Session.step (s : Session) : Step → Session
  | .array xs =>
    let a := alloc [xs] s.memory
    { s with memory := a.2, held := s.held ++ a.1 }
  | .assign h k x =>
    match s.held[h]? with
    | some p => { s with memory := assign s.memory p k x }
    | none => s
  | .timeOf x offset => s.obtainTime (timeInit (.number x) offset s.memory)
  | .time h offset =>
    match s.held[h]? with
    | some p => s.obtainTime (timeInit (.array p) offset s.memory)
    | none => s
  | .julian i =>
    match s.times[i]? with
    | some t => { s with held := s.held ++ [t.julian] }
    | none => s
  | .position frame unit unit2 location t cs =>
    match s.held[t]?, cs.mapM (s.held[·]?) with
    | some time, some components =>
      if constructorAccepts s.memory time components then
        { s with positions := s.positions ++ [⟨frame, unit, unit2, location, time, components⟩] }
      else s
    | _, _ => s
  | .timeData i =>
    match s.positions[i]? with
    | some o => { s with held := s.held ++ [o.time] }
    | none => s
  | .component i c =>
    match s.positions[i]? with
    | some o =>
      match o.components[c]? with
      | some p => { s with held := s.held ++ [p] }
      | none => s
    | none => s
  | .convert i frame location =>
    match s.positions[i]? with
    | some o => s.obtain (convertM o frame location s.memory)
    | none => s
  | .satellite i =>
    match s.positions[i]? with
    | some o => s.obtain (satellitePosition o s.memory)
    | none => s

/-- Several steps. -/
noncomputable def Session.run (s : Session) (steps : List Step) : Session :=
  steps.foldl Session.step s

/-- The position that object `i` of a program stands for now. -/
def Session.positionNow (s : Session) (i : ℕ) : Option Position :=
  s.positions[i]?.bind (·.value s.memory)

/-- What array `h` of a program holds now. -/
def Session.arrayNow (s : Session) (h : ℕ) : Option (List (Option ℝ)) :=
  s.held[h]?.map (content s.memory)

/-- The Julian dates that `Time` object `i` of a program has now. -/
def Session.datesNow (s : Session) (i : ℕ) : Option (List (Option ℝ)) :=
  s.times[i]?.map (·.dates s.memory)

end Celest.Frames
