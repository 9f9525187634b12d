/-
Model of celest/satellite.py: construction of a satellite and its queries.
-/
import Verif.Frames.Containers

namespace Celest.Frames

open Matrix Celest.TimeScale

/-- A `Satellite` object: positions and velocities in the ITRS frame (satellite.py 61-80). -/
structure Satellite where
  position : Cartesian
  velocity : Option Cartesian

/-- One argument of `Satellite.__init__`: ITRS is kept, GCRS converted, anything else refused
(satellite.py 61-67 and 69-77). -/
noncomputable def toItrs (p : Position) : Py Cartesian :=
  match p with
  | .itrs c => .ok c
  | .gcrs c => .ok (gcrsToItrs c)
  | _ => .error .valueError

/-- `Satellite.__init__` (satellite.py 50-80). -/
noncomputable def Satellite.make (position : Position) (velocity : Option Position) :
    Py Satellite :=
  match toItrs position with
  | .error e => .error e
  | .ok p =>
    match velocity with
    | none => .ok ⟨p, none⟩
    | some v =>
      match toItrs v with
      | .error e => .error e
      | .ok w => .ok ⟨p, some w⟩

/-- The positions in kilometres, as `self.position.x.to(u.km)` and so on. -/
noncomputable def Satellite.points (s : Satellite) : List Vec :=
  s.position.samples.map fun x => s.position.unit • x.2

/-- `Satellite.altitude` (satellite.py 106): `none` if the loop of `_altitude` does not end. -/
noncomputable def Satellite.altitudes (s : Satellite) : Option (List ℝ) := altitude s.points

/-- `Satellite.distance` (satellite.py 201-221). -/
noncomputable def Satellite.distances (s : Satellite) (g : Ground) : List ℝ :=
  s.points.map fun v => distance v g

/-- `Satellite.look_angle` (satellite.py 223-253). -/
noncomputable def Satellite.lookAngles (s : Satellite) (g : Ground) : List (Option ℝ) :=
  s.points.map fun v => lookAngle v g

/-- One sample of `Satellite.attitude` (satellite.py 137-199): `x` is the instant and position,
`y` the instant and velocity, each rotated at its own instant.  `posUnit` and `velUnit` are the
sizes of the stored units in kilometres and metres per second. -/
noncomputable def attitudeSample (posUnit velUnit : ℝ) (g : Ground) (x y : ℝ × Vec) : ℝ × ℝ × ℝ :=
  let r := itrsToGcrs1 x.1 x.2
  let v := itrsToGcrs1 y.1 y.2
  attitudeOf (posUnit • (gcrsToLvlh1 r v).1)
    (lvlhMatrix (posUnit • r) (velUnit • v) *ᵥ itrsToGcrs1 x.1 g.itrs)

/-- `Satellite.attitude` (satellite.py 134-199): the k-th angles come from the k-th position and
the k-th velocity.  Arrays of different lengths do not broadcast (`np.cross`): `ValueError`.
Simplified: an array of length one would broadcast against any other. -/
noncomputable def Satellite.attitudes (s : Satellite) (g : Ground) : Py (List (ℝ × ℝ × ℝ)) :=
  match s.velocity with
  | none => .error .valueError
  | some w =>
    if s.position.samples.length = w.samples.length then
      .ok (List.zipWith (attitudeSample s.position.unit (1000 * w.unit) g)
        s.position.samples w.samples)
    else .error .valueError

/-- One column of the table `Satellite.save_text_file` builds: its name and values in the unit of
the object. -/
structure SatColumn where
  name : String
  values : List ℝ

/-- The three columns of a Cartesian object. -/
noncomputable def components (name : String) (c : Cartesian) : List SatColumn :=
  [⟨name ++ "X", c.samples.map fun x => x.2 0⟩, ⟨name ++ "Y", c.samples.map fun x => x.2 1⟩,
   ⟨name ++ "Z", c.samples.map fun x => x.2 2⟩]

/-- The table of `Satellite.save_text_file` (satellite.py 266-283).  Without a velocity
`_itrs_to_gcrs(None)` refuses its argument (transforms.py 127-129): `ValueError`. -/
noncomputable def Satellite.saveTable (s : Satellite) : Py (List SatColumn) :=
  match s.velocity with
  | none => .error .valueError
  | some w =>
    .ok (⟨"Time", s.position.samples.map (·.1)⟩ :: components "Itrs " s.position ++
      components "Itrs V" w ++ components "Gcrs " (itrsToGcrs s.position) ++
      components "Gcrs V" (itrsToGcrs w))

end Celest.Frames
