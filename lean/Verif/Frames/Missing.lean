/-
Attitudes that are not numbers: `Satellite.attitude` with the divisions by zero of numpy.
-/
import Verif.Frames.Model

namespace Celest.Frames

open Matrix Celest.TimeScale

/-- A numpy division whose result is used further (satellite.py 178-189): `none`, for NaN, if the
denominator is zero.  Simplified: numpy gives an infinity instead if only the denominator is zero;
`divide_unknown` shows that the numerators below vanish with the denominator. -/
noncomputable def divide (x y : ℝ) : Option ℝ := if y = 0 then none else some (x / y)

/-- A vector divided by its norm (satellite.py 175-179; transforms.py 527-528): all components are
`0 / 0` for the zero vector. -/
noncomputable def unitNan (v : Vec) : Option Vec :=
  if vnorm v = 0 then none else some ((vnorm v)⁻¹ • v)

/-- `np.arcsin` (satellite.py 191): NaN outside [-1, 1]. -/
noncomputable def arcsinNan (x : ℝ) : Option ℝ := if |x| ≤ 1 then some (Real.arcsin x) else none

/-- `np.arctan2` (satellite.py 192-193): NaN if either argument is. -/
noncomputable def arctan2Nan (y x : Option ℝ) : Option ℝ :=
  y.bind fun y => x.map fun x => arctan2 y x

/-- One slice of `_gcrs_to_lvlh_matrix` (transforms.py 523-536).  Simplified: `none` if any row is
NaN.  The norm of every position in that frame is then NaN as well. -/
noncomputable def lvlhMatrixNan (r v : Vec) : Option Mat :=
  (unitNan r).bind fun r' => (unitNan (r ⨯₃ v)).map fun w =>
    Matrix.of ![(-w) ⨯₃ (-r'), -w, -r']

/-- Roll, pitch and yaw in radians from the satellite and the target in the LVLH frame
(satellite.py 175-193). -/
noncomputable def attitudeOfNan (position ground : Vec) : Option ℝ × Option ℝ × Option ℝ :=
  match unitNan position, unitNan (ground - position) with
  | some p, some g =>
    let s : Vec := -p
    let v : Vec := s ⨯₃ g
    let c := s ⬝ᵥ g
    let a32 := (divide (v 1 * v 2) (1 + c)).map fun q => v 0 + q
    let a31 := (divide (v 0 * v 2) (1 + c)).map fun q => -v 1 + q
    let a33 := (divide (v 0 ^ 2 + v 1 ^ 2) (1 + c)).map fun q => 1 - q
    let a12 := (divide (v 0 * v 1) (1 + c)).map fun q => -v 2 + q
    let a22 := (divide (v 0 ^ 2 + v 2 ^ 2) (1 + c)).map fun q => 1 - q
    ((a32.bind arcsinNan).map fun x => -x, arctan2Nan a31 a33, arctan2Nan a12 a22)
  | _, _ => (none, none, none)

/-- `Satellite.attitude` for one sample (satellite.py 137-199), with the arguments of `attitude`. -/
noncomputable def attitudeNan (jd posUnit velUnit : ℝ) (position velocity : Vec) (g : Ground) :
    Option ℝ × Option ℝ × Option ℝ :=
  let r := itrsToGcrs1 jd position
  let v := itrsToGcrs1 jd velocity
  match lvlhMatrixNan r v, lvlhMatrixNan (posUnit • r) (velUnit • v) with
  | some m, some m' => attitudeOfNan (posUnit • (m *ᵥ r)) (m' *ᵥ itrsToGcrs1 jd g.itrs)
  | _, _ => (none, none, none)

end Celest.Frames
