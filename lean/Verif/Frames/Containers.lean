/-
Model of celest/coordinates/coordinate.py, the frame containers
(celest/coordinates/frames/base_positions.py and subclasses) and of the list-level parts of
celest/coordinates/transforms.py that build them.
-/
import Verif.Frames.Model

namespace Celest.Frames

open Matrix Celest.TimeScale

/-- The shape of a NumPy array: all that the constructors look at. -/
structure Shape where
  dims : List ℕ
deriving DecidableEq

/-- `ndarray.ndim`. -/
def Shape.ndim (s : Shape) : ℕ := s.dims.length

/-- `ndarray.size`. -/
def Shape.size (s : Shape) : ℕ := s.dims.prod

/-- The checks of `Position2d.__init__` (base_positions.py 24-27).  `a != b != c` is
`a != b and b != c`. -/
def position2dInit (x y time : Shape) : Py Unit :=
  if time.ndim ≠ 1 ∨ x.ndim ≠ 1 ∨ y.ndim ≠ 1 then .error .valueError
  else if time.size ≠ x.size ∧ x.size ≠ y.size then .error .valueError
  else .ok ()

/-- The checks of `Position3d.__init__` (base_positions.py 80-83). -/
def position3dInit (x y z time : Shape) : Py Unit :=
  if time.ndim ≠ 1 ∨ x.ndim ≠ 1 ∨ y.ndim ≠ 1 ∨ z.ndim ≠ 1 then .error .valueError
  else if time.size ≠ x.size ∧ x.size ≠ y.size ∧ y.size ≠ z.size then .error .valueError
  else .ok ()

/-- A `WGS84` object (frames/wgs84.py): sizes of the units in radians and kilometres, samples
`(julian date, latitude, longitude, height)`; a latitude can be NaN.  Simplified: the arrays have
one length. -/
structure Geographic where
  angularUnit : ℝ
  lengthUnit : ℝ
  samples : List (ℝ × Option ℝ × ℝ × ℝ)

/-- An `AzEl` object (frames/azel.py) in degrees. -/
structure Horizontal where
  location : Ground
  samples : List (ℝ × Option ℝ × Option ℝ)

/-- A position object of any frame.  The attitude object is modelled by its samples only. -/
inductive Position
  | gcrs (c : Cartesian)
  | itrs (c : Cartesian)
  | wgs84 (w : Geographic)
  | azel (h : Horizontal)
  | lvlh (c : Cartesian)
  | attitude (c : Cartesian)

/-- The class of a position object. -/
def Position.frame : Position → FrameName
  | .gcrs _ => .gcrs
  | .itrs _ => .itrs
  | .wgs84 _ => .wgs84
  | .azel _ => .azel
  | .lvlh _ => .lvlh
  | .attitude _ => .attitude

/-- What a conversion does: return a position, return `NotImplemented`, raise, or not return
because the loop of `_altitude` does not end. -/
inductive Outcome
  | returned (p : Position)
  | notImplemented
  | raised (e : PyErr)
  | diverges

open Classical in
/-- `_altitude` (transforms.py 192-251) for points in kilometres; `none` if its loop does not
end. -/
noncomputable def altitude (pts : List Vec) : Option (List ℝ) :=
  if h : ∃ k, ¬ altContinue pts k then some ((altState pts (Nat.find h)).map (·.1)) else none

/-- `_itrs_to_wgs84` (transforms.py 157-189): radians and kilometres. -/
noncomputable def itrsToWgs84 (c : Cartesian) : Outcome :=
  let km := c.samples.map fun s => (s.1, c.unit • s.2)
  match altitude (km.map (·.2)) with
  | none => .diverges
  | some hs => .returned (.wgs84 ⟨1, 1, List.zipWith
      (fun s h => (s.1, itrsLatitude s.2, itrsLongitude s.2, h)) km hs⟩)

/-- `_wgs84_to_itrs` (transforms.py 254-302).  A NaN latitude makes the coordinates NaN: such
samples cannot be expressed with real coordinates, so this is defined for objects without. -/
noncomputable def wgs84ToItrs (w : Geographic) : Cartesian :=
  ⟨1, w.samples.map fun s => (s.1,
    wgs84ToItrs1 (s.2.1.getD 0 * w.angularUnit) (s.2.2.1 * w.angularUnit)
      (s.2.2.2 * w.lengthUnit))⟩

/-- `_itrs_to_azel` (transforms.py 305-332). -/
noncomputable def itrsToAzel (c : Cartesian) (location : Ground) : Position :=
  .azel ⟨location, c.samples.map fun s =>
    (s.1, azimuth (c.unit • s.2) location, elevation (c.unit • s.2) location)⟩

/-- `Coordinate.__init__` (coordinate.py 55-61). -/
def coordinateInit (p : Position) : Py Position :=
  if p.frame = .itrs ∨ p.frame = .gcrs ∨ p.frame = .wgs84 then .ok p else .error .valueError

/-- `_convert_from_gcrs` (coordinate.py 92-104). -/
noncomputable def convertFromGcrs (c : Cartesian) (frame : FrameName) (location : Option Ground) :
    Outcome :=
  let itrs := gcrsToItrs c
  match frame with
  | .itrs => .returned (.itrs itrs)
  | .wgs84 => itrsToWgs84 itrs
  | .azel =>
    match location with
    | none => .raised .valueError
    | some l => .returned (itrsToAzel itrs l)
  | _ => .notImplemented

/-- `_convert_from_itrs` (coordinate.py 106-117). -/
noncomputable def convertFromItrs (c : Cartesian) (frame : FrameName) (location : Option Ground) :
    Outcome :=
  match frame with
  | .gcrs => .returned (.gcrs (itrsToGcrs c))
  | .wgs84 => itrsToWgs84 c
  | .azel =>
    match location with
    | none => .raised .valueError
    | some l => .returned (itrsToAzel c l)
  | _ => .notImplemented

/-- `_convert_from_wgs84` (coordinate.py 119-131). -/
noncomputable def convertFromWgs84 (w : Geographic) (frame : FrameName) (location : Option Ground) :
    Outcome :=
  let itrs := wgs84ToItrs w
  match frame with
  | .itrs => .returned (.itrs itrs)
  | .gcrs => .returned (.gcrs (itrsToGcrs itrs))
  | .azel =>
    match location with
    | none => .raised .valueError
    | some l => .returned (itrsToAzel itrs l)
  | _ => .notImplemented

/-- `Coordinate.convert_to` (coordinate.py 63-90). -/
noncomputable def convertTo (base : Position) (frame : FrameName) (location : Option Ground) :
    Outcome :=
  if base.frame = frame then .returned base
  else
    match base with
    | .gcrs c => convertFromGcrs c frame location
    | .itrs c => convertFromItrs c frame location
    | .wgs84 w => convertFromWgs84 w frame location
    | _ => .notImplemented

/-- `Coordinate(position).convert_to(frame, location)`. -/
noncomputable def convert (p : Position) (frame : FrameName) (location : Option Ground) : Outcome :=
  match coordinateInit p with
  | .error e => .raised e
  | .ok base => convertTo base frame location

end Celest.Frames
