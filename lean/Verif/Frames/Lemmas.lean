/-
Lemmas about rotations, norms and angles.
-/
import Verif.Frames.Spec
import Verif.TimeScale.Props
import Mathlib.LinearAlgebra.Matrix.Notation
import Mathlib.Tactic.LinearCombination

namespace Celest.Frames

open Matrix Celest.TimeScale

theorem rotation_iff (m : Mat) : Rotation m ↔ m * mᵀ = 1 ∧ m.det = 1 := by
  rw [Rotation, Matrix.mem_specialOrthogonalGroup_iff, Matrix.mem_orthogonalGroup_iff]

theorem R1_rotation (a : ℝ) : Rotation (R1 a) := by
  have h := Real.sin_sq_add_cos_sq a
  rw [rotation_iff]
  constructor
  · ext i j
    fin_cases i <;> fin_cases j <;>
      simp [R1, Matrix.mul_apply, Fin.sum_univ_three] <;> first | linear_combination h | ring1
  · rw [Matrix.det_fin_three]
    simp [R1]
    linear_combination h

theorem R2_rotation (a : ℝ) : Rotation (R2 a) := by
  have h := Real.sin_sq_add_cos_sq a
  rw [rotation_iff]
  constructor
  · ext i j
    fin_cases i <;> fin_cases j <;>
      simp [R2, Matrix.mul_apply, Fin.sum_univ_three] <;> first | linear_combination h | ring1
  · rw [Matrix.det_fin_three]
    simp [R2]
    linear_combination h

theorem R3_rotation (a : ℝ) : Rotation (R3 a) := by
  have h := Real.sin_sq_add_cos_sq a
  rw [rotation_iff]
  constructor
  · ext i j
    fin_cases i <;> fin_cases j <;>
      simp [R3, Matrix.mul_apply, Fin.sum_univ_three] <;> first | linear_combination h | ring1
  · rw [Matrix.det_fin_three]
    simp [R3]
    linear_combination h

theorem Rotation.mul {m n : Mat} (hm : Rotation m) (hn : Rotation n) : Rotation (m * n) :=
  Submonoid.mul_mem _ hm hn

theorem biasOf_eq (a b c : ℝ) : biasOf a b c = R1 c * (R2 b * R3 a) := by
  ext i j
  fin_cases i <;> fin_cases j <;>
    simp [biasOf, R1, R2, R3, Matrix.mul_apply, Fin.sum_univ_three] <;> ring

theorem precessionOf_eq (a b c : ℝ) : precessionOf a b c = R3 c * (R2 b * R3 a) := by
  ext i j
  fin_cases i <;> fin_cases j <;>
    simp [precessionOf, R2, R3, Matrix.mul_apply, Fin.sum_univ_three] <;> ring

theorem nutationOf_eq (a b c : ℝ) : nutationOf a b c = R1 c * (R2 b * R1 a) := by
  ext i j
  fin_cases i <;> fin_cases j <;>
    simp [nutationOf, R1, R2, Matrix.mul_apply, Fin.sum_univ_three] <;> ring

theorem bias_rotation : Rotation biasMatrix := by
  unfold biasMatrix; rw [biasOf_eq]
  exact (R1_rotation _).mul ((R2_rotation _).mul (R3_rotation _))

theorem precession_rotation (jd : ℝ) : Rotation (precessionMatrix jd) := by
  unfold precessionMatrix; rw [precessionOf_eq]
  exact (R3_rotation _).mul ((R2_rotation _).mul (R3_rotation _))

theorem nutation_rotation (jd : ℝ) : Rotation (nutationMatrix jd) := by
  unfold nutationMatrix; rw [nutationOf_eq]
  exact (R1_rotation _).mul ((R2_rotation _).mul (R1_rotation _))

theorem rotateEra_eq (v : Vec) (d : ℝ) : rotateEra v d = R3 (-rad d) *ᵥ v := by
  ext i
  fin_cases i <;>
    simp [rotateEra, R3, Matrix.mulVec, dotProduct, Fin.sum_univ_three, Real.sin_neg,
      Real.cos_neg] <;> ring

theorem rotateEra_inv (v : Vec) (d : ℝ) : rotateEra (rotateEra v (-d)) d = v := by
  have h := Real.sin_sq_add_cos_sq (rad d)
  have e : rad (-d) = -rad d := by unfold rad; ring
  ext i
  fin_cases i <;> simp [rotateEra, e, Real.sin_neg, Real.cos_neg]
  · linear_combination v 0 * h
  · linear_combination v 1 * h

theorem rotateEra_inv' (v : Vec) (d : ℝ) : rotateEra (rotateEra v d) (-d) = v := by
  have := rotateEra_inv v (-d)
  rwa [neg_neg] at this

theorem Rotation.isUnit {m : Mat} (h : Rotation m) : IsUnit m.det := by
  rw [((rotation_iff m).1 h).2]; exact isUnit_one

theorem Rotation.inv_mulVec {m : Mat} (h : Rotation m) (v : Vec) : m⁻¹ *ᵥ (m *ᵥ v) = v := by
  rw [Matrix.mulVec_mulVec, Matrix.nonsing_inv_mul _ h.isUnit, Matrix.one_mulVec]

theorem Rotation.mulVec_inv {m : Mat} (h : Rotation m) (v : Vec) : m *ᵥ (m⁻¹ *ᵥ v) = v := by
  rw [Matrix.mulVec_mulVec, Matrix.mul_nonsing_inv _ h.isUnit, Matrix.one_mulVec]

theorem Rotation.inv {m : Mat} (h : Rotation m) : Rotation m⁻¹ := by
  have h' := (rotation_iff m).1 h
  have e : m⁻¹ = mᵀ := Matrix.inv_eq_right_inv h'.1
  rw [rotation_iff, e, Matrix.transpose_transpose, Matrix.det_transpose]
  exact ⟨mul_eq_one_comm.1 h'.1, h'.2⟩

theorem Rotation.dot {m : Mat} (h : Rotation m) (u v : Vec) : (m *ᵥ u) ⬝ᵥ (m *ᵥ v) = u ⬝ᵥ v := by
  have h' : mᵀ * m = 1 := mul_eq_one_comm.1 ((rotation_iff m).1 h).1
  rw [Matrix.dotProduct_mulVec, ← Matrix.mulVec_transpose, Matrix.mulVec_mulVec, h',
    Matrix.one_mulVec]

theorem Rotation.vnorm {m : Mat} (h : Rotation m) (v : Vec) : vnorm (m *ᵥ v) = vnorm v := by
  unfold Frames.vnorm; rw [h.dot]

/-! ### Euclidean space -/

theorem inner_toE (u v : Vec) : inner ℝ (toE u) (toE v) = u ⬝ᵥ v := by
  simp [toE, PiLp.inner_apply, dotProduct, mul_comm]

theorem norm_toE (v : Vec) : ‖toE v‖ = vnorm v := by
  rw [vnorm, ← inner_toE, real_inner_self_eq_norm_sq, Real.sqrt_sq (norm_nonneg _)]

theorem dist_toE (u v : Vec) : dist (toE u) (toE v) = vnorm (u - v) := by
  rw [dist_eq_norm, ← norm_toE]
  rfl

theorem vnorm_nonneg (v : Vec) : 0 ≤ vnorm v := Real.sqrt_nonneg _

theorem vnorm_eq_zero (v : Vec) : vnorm v = 0 ↔ v = 0 := by
  rw [← norm_toE, norm_eq_zero]
  constructor
  · intro h
    have := congrArg WithLp.ofLp h
    simpa using this
  · rintro rfl; rfl

theorem vnorm_pos {v : Vec} (h : v ≠ 0) : 0 < vnorm v :=
  lt_of_le_of_ne (vnorm_nonneg v) (Ne.symm (mt (vnorm_eq_zero v).1 h))

theorem vnorm_sq (v : Vec) : vnorm v ^ 2 = v ⬝ᵥ v := by
  unfold vnorm
  exact Real.sq_sqrt (by rw [← inner_toE]; exact real_inner_self_nonneg)

theorem vnorm_mul_self (v : Vec) : vnorm v * vnorm v = v ⬝ᵥ v := by
  rw [← pow_two, vnorm_sq]

theorem vnorm_smul (a : ℝ) (v : Vec) : vnorm (a • v) = |a| * vnorm v := by
  rw [← norm_toE, ← norm_toE, ← Real.norm_eq_abs, ← norm_smul]
  rfl

/-- `_get_ang` is the angle of Euclidean geometry, in degrees. -/
theorem getAng_eq (u v : Vec) (hu : u ≠ 0) (hv : v ≠ 0) :
    getAng u v = some (InnerProductGeometry.angle (toE u) (toE v) * (180 / Real.pi)) := by
  unfold getAng
  rw [if_neg (mul_ne_zero (vnorm_pos hu).ne' (vnorm_pos hv).ne')]
  unfold InnerProductGeometry.angle
  rw [inner_toE, norm_toE, norm_toE]

theorem getAng_none (u v : Vec) : getAng u v = none ↔ u = 0 ∨ v = 0 := by
  unfold getAng
  split_ifs with h
  · simpa [mul_eq_zero, vnorm_eq_zero] using h
  · simpa [mul_eq_zero, vnorm_eq_zero] using h

theorem getAng_range {u v : Vec} {a : ℝ} (h : getAng u v = some a) : 0 ≤ a ∧ a ≤ 180 := by
  unfold getAng at h
  split_ifs at h
  have hp := Real.pi_pos
  rw [← Option.some.inj h]
  constructor
  · exact mul_nonneg (Real.arccos_nonneg _) (by positivity)
  · have := Real.arccos_le_pi (u ⬝ᵥ v / (vnorm u * vnorm v))
    calc _ ≤ Real.pi * (180 / Real.pi) := mul_le_mul_of_nonneg_right this (by positivity)
      _ = 180 := by field_simp

end Celest.Frames
