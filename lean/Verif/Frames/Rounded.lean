/-
Model of the rotations of celest/coordinates/transforms.py and of `_get_ang` in floating-point
arithmetic.
-/
import Verif.Frames.Spec
import Verif.RoundingReal

namespace Celest.Frames

open Matrix

/-- A floating-point machine: the rounding of the result of every arithmetic operation and square
root, NumPy's sine, cosine and arccosine, its sum of three products (`np.einsum`, `np.sum`,
`np.linalg.norm`, in whatever order they add), and `np.linalg.inv` of a 3 by 3 matrix. -/
structure Machine where
  fl : ℝ → ℝ
  sin : ℝ → ℝ
  cos : ℝ → ℝ
  arccos : ℝ → ℝ
  dot : Vec → Vec → ℝ
  inv : Mat → Mat

/-- What is assumed about the machine: arithmetic and square roots are rounded with relative error
at most `u`; sine and cosine are off by at most `2u` and the arccosine by at most `4u` (one unit in
the last place for `u = 2⁻⁵³`); three products are added with the standard error bound, whatever
the order; and inverting a matrix that is within `20u` of a rotation leaves a residual of at most
`100u`. -/
structure Machine.Accurate (M : Machine) (u : ℝ) : Prop where
  nonneg : 0 ≤ u
  small : u ≤ 1 / 10 ^ 12
  fl : ∀ x, |M.fl x - x| ≤ u * |x|
  sin : ∀ x, |M.sin x - Real.sin x| ≤ 2 * u
  cos : ∀ x, |M.cos x - Real.cos x| ≤ 2 * u
  arccos : ∀ x, |x| ≤ 1 → |M.arccos x - Real.arccos x| ≤ 4 * u
  dot : ∀ a b, |M.dot a b - a ⬝ᵥ b| ≤ 4 * u * (|a 0 * b 0| + |a 1 * b 1| + |a 2 * b 2|)
  inv : ∀ A R : Mat, Rotation R →
    (∀ i j, |A i j - R i j| ≤ 20 * u) →
    ∀ i j, |(M.inv A * A) i j - (1 : Mat) i j| ≤ 100 * u

namespace Rounded

variable (M : Machine)

/-- The matrix filled in at nutation_precession_matrices.py 38-53. -/
noncomputable def biasOf (a1 a2 a3 : ℝ) : Mat :=
  let fl := M.fl
  let s1 := M.sin a1; let c1 := M.cos a1
  let s2 := M.sin a2; let c2 := M.cos a2
  let s3 := M.sin a3; let c3 := M.cos a3
  !![fl (c1 * c2), fl (s1 * c2), -s2;
     fl (fl (-s1 * c3) + fl (fl (c1 * s2) * s3)), fl (fl (c1 * c3) + fl (fl (s1 * s2) * s3)),
       fl (c2 * s3);
     fl (fl (s1 * s3) + fl (fl (c1 * s2) * c3)), fl (fl (-c1 * s3) + fl (fl (s1 * s2) * c3)),
       fl (c2 * c3)]

/-- The matrix filled in at nutation_precession_matrices.py 88-102. -/
noncomputable def precessionOf (a1 a2 a3 : ℝ) : Mat :=
  let fl := M.fl
  let s1 := M.sin a1; let c1 := M.cos a1
  let s2 := M.sin a2; let c2 := M.cos a2
  let s3 := M.sin a3; let c3 := M.cos a3
  !![fl (fl (-s1 * s3) + fl (fl (c1 * c2) * c3)), fl (fl (c1 * s3) + fl (fl (s1 * c2) * c3)),
       fl (-s2 * c3);
     fl (fl (-s1 * c3) - fl (fl (c1 * c2) * s3)), fl (fl (c1 * c3) - fl (fl (s1 * c2) * s3)),
       fl (s2 * s3);
     fl (c1 * s2), fl (s1 * s2), c2]

/-- The matrix filled in at nutation_precession_matrices.py 139-153. -/
noncomputable def nutationOf (a1 a2 a3 : ℝ) : Mat :=
  let fl := M.fl
  let s1 := M.sin a1; let c1 := M.cos a1
  let s2 := M.sin a2; let c2 := M.cos a2
  let s3 := M.sin a3; let c3 := M.cos a3
  !![c2, fl (s1 * s2), fl (-c1 * s2);
     fl (s2 * s3), fl (fl (c1 * c3) - fl (fl (s1 * c2) * s3)),
       fl (fl (s1 * c3) + fl (fl (c1 * c2) * s3));
     fl (s2 * c3), fl (fl (-c1 * s3) - fl (fl (s1 * c2) * c3)),
       fl (fl (-s1 * s3) + fl (fl (c1 * c2) * c3))]

/-- One row of `np.einsum('ijk, ik -> ij', A, v)` and of `np.einsum('ij, kj -> ki', A, v)`
(transforms.py 69-71 and 150-152). -/
noncomputable def apply (A : Mat) (v : Vec) : Vec := fun i => M.dot (A i) v

/-- `_rotate_by_earth_rotation_angle` on one row, angle in radians (transforms.py 95-100). -/
noncomputable def rotateEra (v : Vec) (a : ℝ) : Vec :=
  let fl := M.fl
  let c := M.cos a; let s := M.sin a
  ![fl (fl (c * v 0) - fl (s * v 1)), fl (fl (s * v 0) + fl (c * v 1)), v 2]

/-- The ten angles of the conversion between GCRS and ITRS at one instant, in radians, as the
machine computes them (nutation_precession_matrices.py 34-36, 84-86 and 135-137; transforms.py 94).
Simplified: how they are computed is left open. -/
structure Angles where
  bias : Fin 3 → ℝ
  precession : Fin 3 → ℝ
  nutation : Fin 3 → ℝ
  era : ℝ

/-- One row of `_gcrs_to_itrs` (transforms.py 64-73).  `-era` is exact. -/
noncomputable def gcrsToItrs1 (g : Angles) (v : Vec) : Vec :=
  let v := apply M (biasOf M (g.bias 0) (g.bias 1) (g.bias 2)) v
  let v := apply M (precessionOf M (g.precession 0) (g.precession 1) (g.precession 2)) v
  let v := apply M (nutationOf M (g.nutation 0) (g.nutation 1) (g.nutation 2)) v
  rotateEra M v (-g.era)

/-- One row of `_itrs_to_gcrs` (transforms.py 143-152). -/
noncomputable def itrsToGcrs1 (g : Angles) (v : Vec) : Vec :=
  let v := rotateEra M v g.era
  let v := apply M (M.inv (nutationOf M (g.nutation 0) (g.nutation 1) (g.nutation 2))) v
  let v := apply M (M.inv (precessionOf M (g.precession 0) (g.precession 1) (g.precession 2))) v
  apply M (M.inv (biasOf M (g.bias 0) (g.bias 1) (g.bias 2))) v

/-- `np.linalg.norm` of one vector. -/
noncomputable def vnorm (v : Vec) : ℝ := M.fl (Real.sqrt (M.dot v v))

/-- The argument of the arccosine in `_get_ang` (transforms.py 399-401). -/
noncomputable def cosine (a b : Vec) : ℝ := M.fl (M.dot a b / M.fl (vnorm M a * vnorm M b))

open Classical in
/-- `_get_ang` for two vectors, degrees (transforms.py 396-403).  NaN if the denominator is zero or
the quotient is not between -1 and 1. -/
noncomputable def getAng (a b : Vec) : Option ℝ :=
  if M.fl (vnorm M a * vnorm M b) = 0 then none
  else if 1 < |cosine M a b| then none
  else some (M.fl (M.arccos (cosine M a b) * M.fl (180 / M.fl Real.pi)))

/-- `_elevation` of one row, degrees (transforms.py 422-429), from the coordinates of the satellite
and of the station in kilometres. -/
noncomputable def elevation (sat ground : Vec) : Option ℝ :=
  (getAng M (fun i => M.fl (sat i - ground i)) ground).map fun a => M.fl (90 - a)

end Rounded

end Celest.Frames
