/-
Vocabulary for the statements about frames: elementary rotations and Euclidean space.
-/
import Verif.Frames.Model
import Mathlib.LinearAlgebra.UnitaryGroup
import Mathlib.Analysis.InnerProductSpace.PiL2
import Mathlib.Geometry.Euclidean.Angle.Unoriented.Basic

namespace Celest.Frames

open Matrix

/-- Proper rotations: orthogonal matrices of determinant one. -/
abbrev Rotation (m : Mat) : Prop := m ∈ Matrix.specialOrthogonalGroup (Fin 3) ℝ

/-- Change of axes by a rotation about the first axis. -/
noncomputable def R1 (a : ℝ) : Mat :=
  !![1, 0, 0; 0, Real.cos a, Real.sin a; 0, -Real.sin a, Real.cos a]

/-- Change of axes by a rotation about the second axis. -/
noncomputable def R2 (a : ℝ) : Mat :=
  !![Real.cos a, 0, -Real.sin a; 0, 1, 0; Real.sin a, 0, Real.cos a]

/-- Change of axes by a rotation about the third axis. -/
noncomputable def R3 (a : ℝ) : Mat :=
  !![Real.cos a, Real.sin a, 0; -Real.sin a, Real.cos a, 0; 0, 0, 1]

/-- The vector as a point of Euclidean space. -/
noncomputable abbrev toE (v : Vec) : EuclideanSpace ℝ (Fin 3) := WithLp.toLp 2 v

/-- The point lies on the ellipsoid of revolution with squared semi-axes `a2` (equatorial) and
`b2` (polar). -/
def OnEllipsoid (a2 b2 : ℝ) (v : Vec) : Prop := v 0 ^ 2 / a2 + v 1 ^ 2 / a2 + v 2 ^ 2 / b2 = 1

/-- Half the gradient of the ellipsoid's equation: it is normal to the surface, pointing
outwards. -/
noncomputable def ellipsoidGradient (a2 b2 : ℝ) (v : Vec) : Vec := ![v 0 / a2, v 1 / a2, v 2 / b2]

/-- `h` is the height of `v` above the ellipsoid: `v` is reached from a surface point by going
`h` along the outward unit normal. -/
def IsHeight (a2 b2 : ℝ) (v : Vec) (h : ℝ) : Prop :=
  ∃ s : Vec, OnEllipsoid a2 b2 s ∧ ∃ n : Vec, ‖toE n‖ = 1 ∧
    (∃ k : ℝ, 0 < k ∧ n = k • ellipsoidGradient a2 b2 s) ∧ v = s + h • n

/-- The local east direction at a longitude. -/
noncomputable def east (lon : ℝ) : Vec := ![-Real.sin lon, Real.cos lon, 0]

/-- The direction of the northern half of the meridian at a station: perpendicular to its position
vector, in the plane of its meridian, with positive third coordinate. -/
def IsNorth (g : Ground) (n : Vec) : Prop :=
  n ⬝ᵥ g.itrs = 0 ∧ n ⬝ᵥ east g.lon = 0 ∧ 0 < n 2

end Celest.Frames
