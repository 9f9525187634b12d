/-
How fast the conversion between GCRS and ITRS turns: the Earth rotation angle, and a bound for
precession and nutation.
-/
import Verif.Frames.PropsRotation
import Verif.TimeScale.PropsGast
import Mathlib.Analysis.Calculus.Deriv.Mul
import Mathlib.Analysis.Calculus.Deriv.Pow
import Mathlib.Analysis.SpecialFunctions.Trigonometric.Deriv
import Mathlib.Analysis.SpecialFunctions.Trigonometric.Bounds
import Mathlib.Analysis.Real.Pi.Bounds

namespace Celest.Frames

open Matrix Celest.TimeScale

/-! ### Norms -/

theorem vnorm_add_le (u v : Vec) : vnorm (u + v) ≤ vnorm u + vnorm v := by
  rw [← norm_toE, ← norm_toE, ← norm_toE, show toE (u + v) = toE u + toE v from rfl]
  exact norm_add_le _ _

theorem abs_dot_le_vnorm (u v : Vec) : |u ⬝ᵥ v| ≤ vnorm u * vnorm v := by
  rw [← norm_toE, ← norm_toE, ← inner_toE]
  exact abs_real_inner_le_norm _ _

/-! ### Elementary rotations by nearby angles -/

private theorem chord (a b : ℝ) :
    (Real.cos a - Real.cos b) ^ 2 + (Real.sin a - Real.sin b) ^ 2 ≤ (a - b) ^ 2 := by
  have h := Real.one_sub_sq_div_two_le_cos (x := a - b)
  rw [Real.cos_sub] at h
  nlinarith [Real.sin_sq_add_cos_sq a, Real.sin_sq_add_cos_sq b]

private theorem vnorm_le_of_sq {u v : Vec} {d : ℝ} (h : u ⬝ᵥ u ≤ d ^ 2 * (v ⬝ᵥ v)) :
    vnorm u ≤ |d| * vnorm v := by
  rw [← vnorm_smul]
  unfold vnorm
  apply Real.sqrt_le_sqrt
  rw [smul_dotProduct, dotProduct_smul, smul_eq_mul, smul_eq_mul]
  linarith

theorem R1_near (a b : ℝ) (x : Vec) : vnorm (R1 a *ᵥ x - R1 b *ᵥ x) ≤ |a - b| * vnorm x := by
  apply vnorm_le_of_sq
  have h := chord a b
  have e : (R1 a *ᵥ x - R1 b *ᵥ x) ⬝ᵥ (R1 a *ᵥ x - R1 b *ᵥ x) =
      ((Real.cos a - Real.cos b) ^ 2 + (Real.sin a - Real.sin b) ^ 2) * (x 1 ^ 2 + x 2 ^ 2) := by
    simp [R1, mulVec, dotProduct, Fin.sum_univ_three]; ring
  rw [e]
  simp only [dotProduct, Fin.sum_univ_three]
  nlinarith [mul_le_mul_of_nonneg_right h (by positivity : 0 ≤ x 1 ^ 2 + x 2 ^ 2),
    mul_nonneg (sq_nonneg (a - b)) (sq_nonneg (x 0))]

theorem R2_near (a b : ℝ) (x : Vec) : vnorm (R2 a *ᵥ x - R2 b *ᵥ x) ≤ |a - b| * vnorm x := by
  apply vnorm_le_of_sq
  have h := chord a b
  have e : (R2 a *ᵥ x - R2 b *ᵥ x) ⬝ᵥ (R2 a *ᵥ x - R2 b *ᵥ x) =
      ((Real.cos a - Real.cos b) ^ 2 + (Real.sin a - Real.sin b) ^ 2) * (x 0 ^ 2 + x 2 ^ 2) := by
    simp [R2, mulVec, dotProduct, Fin.sum_univ_three]; ring
  rw [e]
  simp only [dotProduct, Fin.sum_univ_three]
  nlinarith [mul_le_mul_of_nonneg_right h (by positivity : 0 ≤ x 0 ^ 2 + x 2 ^ 2),
    mul_nonneg (sq_nonneg (a - b)) (sq_nonneg (x 1))]

theorem R3_near (a b : ℝ) (x : Vec) : vnorm (R3 a *ᵥ x - R3 b *ᵥ x) ≤ |a - b| * vnorm x := by
  apply vnorm_le_of_sq
  have h := chord a b
  have e : (R3 a *ᵥ x - R3 b *ᵥ x) ⬝ᵥ (R3 a *ᵥ x - R3 b *ᵥ x) =
      ((Real.cos a - Real.cos b) ^ 2 + (Real.sin a - Real.sin b) ^ 2) * (x 0 ^ 2 + x 1 ^ 2) := by
    simp [R3, mulVec, dotProduct, Fin.sum_univ_three]; ring
  rw [e]
  simp only [dotProduct, Fin.sum_univ_three]
  nlinarith [mul_le_mul_of_nonneg_right h (by positivity : 0 ≤ x 0 ^ 2 + x 1 ^ 2),
    mul_nonneg (sq_nonneg (a - b)) (sq_nonneg (x 2))]

/-- One more rotation applied after nearby vectors. -/
theorem near_step {m n : Mat} {x y : Vec} {d e r : ℝ} (hm : Rotation m)
    (hmn : ∀ z, vnorm (m *ᵥ z - n *ᵥ z) ≤ d * vnorm z) (hxy : vnorm (x - y) ≤ e * r)
    (hy : vnorm y = r) : vnorm (m *ᵥ x - n *ᵥ y) ≤ (d + e) * r := by
  have h := vnorm_add_le (m *ᵥ (x - y)) (m *ᵥ y - n *ᵥ y)
  have e1 : m *ᵥ (x - y) + (m *ᵥ y - n *ᵥ y) = m *ᵥ x - n *ᵥ y := by
    rw [Matrix.mulVec_sub]; abel
  rw [e1, hm.vnorm] at h
  have := hmn y
  rw [hy] at this
  linarith

/-! ### The angles -/

private theorem pow_near {s t b : ℝ} (hs : |s| ≤ b) (ht : |t| ≤ b) (n : ℕ) :
    |s ^ (n + 1) - t ^ (n + 1)| ≤ (n + 1) * b ^ n * |s - t| := by
  have b0 : 0 ≤ b := (abs_nonneg s).trans hs
  induction n with
  | zero => simp
  | succ n ih =>
    have e : s ^ (n + 1 + 1) - t ^ (n + 1 + 1) =
        s * (s ^ (n + 1) - t ^ (n + 1)) + t ^ (n + 1) * (s - t) := by ring
    rw [e]
    refine (abs_add_le _ _).trans ?_
    rw [abs_mul, abs_mul]
    have h1 : |s| * |s ^ (n + 1) - t ^ (n + 1)| ≤ b * ((n + 1) * b ^ n * |s - t|) :=
      mul_le_mul hs ih (abs_nonneg _) b0
    have h2 : |t ^ (n + 1)| * |s - t| ≤ b ^ (n + 1) * |s - t| := by
      rw [abs_pow]
      exact mul_le_mul_of_nonneg_right (pow_le_pow_left₀ (abs_nonneg _) ht _) (abs_nonneg _)
    push_cast
    calc _ ≤ b * ((n + 1) * b ^ n * |s - t|) + b ^ (n + 1) * |s - t| := add_le_add h1 h2
      _ = (n + 1 + 1) * b ^ (n + 1) * |s - t| := by ring

variable {s t : ℝ}

/-- The precession angles turn by less than 2400, 2100 and 2400 arcseconds per century. -/
theorem precession_near (hs : |centuries s| ≤ 10) (ht : |centuries t| ≤ 10) :
    |zetaPrecession s - zetaPrecession t| ≤ 2400 * |centuries s - centuries t| ∧
    |thetaPrecession s - thetaPrecession t| ≤ 2100 * |centuries s - centuries t| ∧
    |zPrecession s - zPrecession t| ≤ 2400 * |centuries s - centuries t| := by
  unfold zetaPrecession thetaPrecession zPrecession
  simp only
  set S := centuries s
  set T := centuries t
  have p1 := abs_le.1 (le_refl |S - T|)
  have p2 := abs_le.1 (pow_near hs ht 1)
  have p3 := abs_le.1 (pow_near hs ht 2)
  have p4 := abs_le.1 (pow_near hs ht 3)
  have p5 := abs_le.1 (pow_near hs ht 4)
  norm_num at p2 p3 p4 p5
  have d0 := abs_nonneg (S - T)
  refine ⟨abs_le.2 ⟨?_, ?_⟩, abs_le.2 ⟨?_, ?_⟩, abs_le.2 ⟨?_, ?_⟩⟩ <;>
    linarith [p1.1, p1.2, p2.1, p2.2, p3.1, p3.2, p4.1, p4.2, p5.1, p5.2]

/-- The obliquity used by the nutation matrix changes by less than 100 arcseconds per century. -/
theorem epsA_near (hs : |centuries s| ≤ 10) (ht : |centuries t| ≤ 10) :
    |epsA s - epsA t| ≤ 100 * |centuries s - centuries t| := by
  unfold epsA meanObliquity
  simp only
  set S := centuries s
  set T := centuries t
  have hu : |S / 100| ≤ 0.1 := by
    rw [abs_div, abs_of_pos (by norm_num : (0 : ℝ) < 100), div_le_iff₀ (by norm_num)]; linarith
  have hw : |T / 100| ≤ 0.1 := by
    rw [abs_div, abs_of_pos (by norm_num : (0 : ℝ) < 100), div_le_iff₀ (by norm_num)]; linarith
  have hd : |S / 100 - T / 100| = |S - T| / 100 := by
    rw [← sub_div, abs_div, abs_of_pos (by norm_num : (0 : ℝ) < 100)]
  have p1 := abs_le.1 (le_refl |S - T|)
  have p2 := abs_le.1 (pow_near hs ht 1)
  have p3 := abs_le.1 (pow_near hs ht 2)
  have u := fun n => pow_near hu hw n
  rw [hd] at u
  have u2 := abs_le.1 (u 1)
  have u3 := abs_le.1 (u 2)
  have u4 := abs_le.1 (u 3)
  have u5 := abs_le.1 (u 4)
  have u6 := abs_le.1 (u 5)
  have u7 := abs_le.1 (u 6)
  have u8 := abs_le.1 (u 7)
  have u9 := abs_le.1 (u 8)
  have u10 := abs_le.1 (u 9)
  norm_num at p2 p3 u2 u3 u4 u5 u6 u7 u8 u9 u10
  have d0 := abs_nonneg (S - T)
  refine abs_le.2 ⟨?_, ?_⟩ <;>
    linarith [p1.1, p1.2, p2.1, p2.2, p3.1, p3.2, u2.1, u2.2, u3.1, u3.2, u4.1, u4.2, u5.1, u5.2,
      u6.1, u6.2, u7.1, u7.2, u8.1, u8.2, u9.1, u9.2, u10.1, u10.2]

/-- The longitude of the ascending node before it is reduced, degrees. -/
noncomputable def nodeAngle (jd : ℝ) : ℝ :=
  125.04452 - 1934.136261 * centuries jd + 0.0020708 * centuries jd ^ 2 + centuries jd ^ 3 / 450000

theorem nutation_eq (jd : ℝ) :
    (nutationComponents jd).1 = -17.20 * Real.sin (rad (nodeAngle jd)) +
      -1.32 * Real.sin (2 * rad (sunLongitude jd)) + -0.23 * Real.sin (2 * rad (moonLongitude jd)) +
      0.21 * Real.sin (2 * rad (nodeAngle jd)) ∧
    (nutationComponents jd).2 = 9.20 * Real.cos (rad (nodeAngle jd)) +
      0.57 * Real.cos (2 * rad (sunLongitude jd)) + 0.10 * Real.cos (2 * rad (moonLongitude jd)) +
      -0.09 * Real.cos (2 * rad (nodeAngle jd)) := by
  have e : ascendingNode jd = fmod (nodeAngle jd) 360 := rfl
  unfold nutationComponents nutationInLongitude nutationInObliquity
  simp only [e, Real.sin_two_mul (rad (fmod (nodeAngle jd) 360)),
    Real.cos_two_mul (rad (fmod (nodeAngle jd) 360)), sin_rad_fmod, cos_rad_fmod,
    Real.sin_two_mul (rad (nodeAngle jd)), Real.cos_two_mul (rad (nodeAngle jd)), and_self]

private theorem rad_near {x y d D : ℝ} (h : |x - y| ≤ d * D) (hd : 0 ≤ d * D) :
    |rad x - rad y| ≤ 0.0175 * d * D := by
  have e : rad x - rad y = (Real.pi / 180) * (x - y) := by unfold rad; ring
  rw [e, abs_mul, abs_of_pos (by linarith [Real.pi_pos])]
  have : Real.pi / 180 ≤ 0.0175 := by linarith [Real.pi_lt_d2]
  calc _ ≤ 0.0175 * (d * D) := mul_le_mul this h (abs_nonneg _) (by norm_num)
    _ = _ := by ring

private theorem two_near {x y d D : ℝ} (h : |x - y| ≤ d * D) : |2 * x - 2 * y| ≤ 2 * d * D := by
  rw [← mul_sub, abs_mul, abs_two]; linarith

/-- Nutation in longitude and obliquity change by less than 6300 and 2800 arcseconds per
century. -/
theorem nutation_near (hs : |centuries s| ≤ 10) (ht : |centuries t| ≤ 10) :
    |(nutationComponents s).1 - (nutationComponents t).1| ≤
      6300 * |centuries s - centuries t| ∧
    |(nutationComponents s).2 - (nutationComponents t).2| ≤
      2800 * |centuries s - centuries t| := by
  rw [(nutation_eq s).1, (nutation_eq t).1, (nutation_eq s).2, (nutation_eq t).2]
  set D := |centuries s - centuries t| with hD
  have d0 : 0 ≤ D := abs_nonneg _
  have p1 := abs_le.1 (le_refl |centuries s - centuries t|)
  have p2 := abs_le.1 (pow_near hs ht 1)
  have p3 := abs_le.1 (pow_near hs ht 2)
  norm_num at p2 p3
  rw [← hD] at p1 p2 p3
  have n0 : |nodeAngle s - nodeAngle t| ≤ 1935 * D := by
    unfold nodeAngle
    refine abs_le.2 ⟨?_, ?_⟩ <;> linarith [p1.1, p1.2, p2.1, p2.2, p3.1, p3.2]
  have s0 : |sunLongitude s - sunLongitude t| ≤ 36001 * D := by
    unfold sunLongitude
    refine abs_le.2 ⟨?_, ?_⟩ <;> linarith [p1.1, p1.2]
  have m0 : |moonLongitude s - moonLongitude t| ≤ 481268 * D := by
    unfold moonLongitude
    refine abs_le.2 ⟨?_, ?_⟩ <;> linarith [p1.1, p1.2]
  have n1 := rad_near n0 (by positivity)
  have s1 := rad_near s0 (by positivity)
  have m1 := rad_near m0 (by positivity)
  have n2 := two_near n1
  have s2 := two_near s1
  have m2 := two_near m1
  have a1 := abs_le.1 ((Real.abs_sin_sub_sin_le _ _).trans n1)
  have a2 := abs_le.1 ((Real.abs_sin_sub_sin_le _ _).trans n2)
  have a3 := abs_le.1 ((Real.abs_sin_sub_sin_le _ _).trans s2)
  have a4 := abs_le.1 ((Real.abs_sin_sub_sin_le _ _).trans m2)
  have b1 := abs_le.1 ((Real.abs_cos_sub_cos_le _ _).trans n1)
  have b2 := abs_le.1 ((Real.abs_cos_sub_cos_le _ _).trans n2)
  have b3 := abs_le.1 ((Real.abs_cos_sub_cos_le _ _).trans s2)
  have b4 := abs_le.1 ((Real.abs_cos_sub_cos_le _ _).trans m2)
  refine ⟨abs_le.2 ⟨?_, ?_⟩, abs_le.2 ⟨?_, ?_⟩⟩ <;>
    linarith [a1.1, a1.2, a2.1, a2.2, a3.1, a3.2, a4.1, a4.2, b1.1, b1.2, b2.1, b2.2, b3.1, b3.2,
      b4.1, b4.2]

/-! ### Precession and nutation together -/

private theorem arcsec_near {x y d : ℝ} (h : |x - y| ≤ d * |centuries s - centuries t|)
    (hd : 0 ≤ d) : |arcsec x - arcsec y| ≤ d * 1.3274e-10 * |s - t| := by
  have e : arcsec x - arcsec y = (Real.pi / 648000) * (x - y) := by unfold arcsec rad; ring
  have ec : |centuries s - centuries t| = |s - t| / 36525 := by
    unfold centuries
    rw [← sub_div, abs_div, abs_of_pos (by norm_num : (0 : ℝ) < 36525)]; congr 2; ring
  rw [ec] at h
  rw [e, abs_mul, abs_of_pos (by linarith [Real.pi_pos])]
  have hp : Real.pi / 648000 ≤ 4.8483e-6 := by linarith [Real.pi_lt_d4]
  have h0 := abs_nonneg (s - t)
  have hq : 0 ≤ d * |s - t| := mul_nonneg hd h0
  calc Real.pi / 648000 * |x - y| ≤ 4.8483e-6 * (d * (|s - t| / 36525)) :=
        mul_le_mul hp h (abs_nonneg _) (by norm_num)
    _ ≤ _ := by linarith

theorem precession_turn (hs : |centuries s| ≤ 10) (ht : |centuries t| ≤ 10) (x : Vec) :
    vnorm (precessionMatrix s *ᵥ x - precessionMatrix t *ᵥ x) ≤
      6900 * 1.3274e-10 * |s - t| * vnorm x := by
  obtain ⟨h1, h2, h3⟩ := precession_near hs ht
  have a1 := arcsec_near h1 (by norm_num)
  have a2 := arcsec_near h2 (by norm_num)
  have a3 := arcsec_near h3 (by norm_num)
  unfold precessionMatrix
  rw [precessionOf_eq, precessionOf_eq]
  simp only [← Matrix.mulVec_mulVec]
  have r1 := R3_near (arcsec (zetaPrecession s)) (arcsec (zetaPrecession t)) x
  have r2 := near_step (R2_rotation (arcsec (thetaPrecession s)))
    (R2_near (arcsec (thetaPrecession s)) (arcsec (thetaPrecession t))) r1
    ((R3_rotation _).vnorm x)
  have r3 := near_step (R3_rotation (-arcsec (zPrecession s)))
    (R3_near (-arcsec (zPrecession s)) (-arcsec (zPrecession t))) r2
    (((R2_rotation _).vnorm _).trans ((R3_rotation _).vnorm x))
  rw [neg_sub_neg, abs_sub_comm] at r3
  refine r3.trans (mul_le_mul_of_nonneg_right ?_ (vnorm_nonneg x))
  linarith

theorem nutation_turn (hs : |centuries s| ≤ 10) (ht : |centuries t| ≤ 10) (x : Vec) :
    vnorm (nutationMatrix s *ᵥ x - nutationMatrix t *ᵥ x) ≤
      9300 * 1.3274e-10 * |s - t| * vnorm x := by
  have h1 := epsA_near hs ht
  obtain ⟨h2, h3⟩ := nutation_near hs ht
  have h4 : |(epsA s + (nutationComponents s).2) - (epsA t + (nutationComponents t).2)| ≤
      2900 * |centuries s - centuries t| := by
    have := abs_add_le (epsA s - epsA t) ((nutationComponents s).2 - (nutationComponents t).2)
    rw [show epsA s - epsA t + ((nutationComponents s).2 - (nutationComponents t).2) =
      (epsA s + (nutationComponents s).2) - (epsA t + (nutationComponents t).2) by ring] at this
    linarith
  have a1 := arcsec_near h1 (by norm_num)
  have a2 := arcsec_near h2 (by norm_num)
  have a3 := arcsec_near h4 (by norm_num)
  have e : ∀ j, nutationMatrix j = R1 (-arcsec (epsA j + (nutationComponents j).2)) *
      (R2 (-arcsec (nutationComponents j).1) * R1 (arcsec (epsA j))) := fun j => by
    unfold nutationMatrix
    rw [nutationOf_eq, ← add_div]
    rfl
  rw [e s, e t]
  simp only [← Matrix.mulVec_mulVec]
  have r1 := R1_near (arcsec (epsA s)) (arcsec (epsA t)) x
  have r2 := near_step (R2_rotation (-arcsec (nutationComponents s).1))
    (R2_near (-arcsec (nutationComponents s).1) (-arcsec (nutationComponents t).1)) r1
    ((R1_rotation _).vnorm x)
  have r3 := near_step (R1_rotation (-arcsec (epsA s + (nutationComponents s).2)))
    (R1_near (-arcsec (epsA s + (nutationComponents s).2))
      (-arcsec (epsA t + (nutationComponents t).2))) r2
    (((R2_rotation _).vnorm _).trans ((R1_rotation _).vnorm x))
  rw [neg_sub_neg, abs_sub_comm, neg_sub_neg, abs_sub_comm (arcsec (nutationComponents t).1)] at r3
  refine r3.trans (mul_le_mul_of_nonneg_right ?_ (vnorm_nonneg x))
  linarith

/-- Precession and nutation together turn by less than 2.2 microradians per day. -/
theorem pn_turn (hs : |centuries s| ≤ 10) (ht : |centuries t| ≤ 10) (x : Vec) :
    vnorm ((nutationMatrix s * precessionMatrix s) *ᵥ x -
      (nutationMatrix t * precessionMatrix t) *ᵥ x) ≤ 2.2e-6 * |s - t| * vnorm x := by
  simp only [← Matrix.mulVec_mulVec]
  have := near_step (nutation_rotation s) (fun z => nutation_turn hs ht z)
    (precession_turn hs ht x) ((precession_rotation t).vnorm x)
  refine this.trans (mul_le_mul_of_nonneg_right ?_ (vnorm_nonneg x))
  linarith [abs_nonneg (s - t)]

/-! ### Rates of change -/

/-- The point `p` moves with velocity `v` (per day) at the instant `t`: each coordinate has that
derivative. -/
def Rate (p : ℝ → Vec) (t : ℝ) (v : Vec) : Prop := ∀ i, HasDerivAt (fun τ => p τ i) (v i) t

private theorem nutationOf_differentiable {a b c : ℝ → ℝ} (ha : Differentiable ℝ a)
    (hb : Differentiable ℝ b) (hc : Differentiable ℝ c) (i j : Fin 3) :
    Differentiable ℝ fun τ => nutationOf (a τ) (b τ) (c τ) i j := by
  fin_cases i <;> fin_cases j <;> simp [nutationOf] <;> fun_prop

private theorem precessionOf_differentiable {a b c : ℝ → ℝ} (ha : Differentiable ℝ a)
    (hb : Differentiable ℝ b) (hc : Differentiable ℝ c) (i j : Fin 3) :
    Differentiable ℝ fun τ => precessionOf (a τ) (b τ) (c τ) i j := by
  fin_cases i <;> fin_cases j <;> simp [precessionOf] <;> fun_prop

private theorem arcsec_differentiable {f : ℝ → ℝ} (hf : Differentiable ℝ f) :
    Differentiable ℝ fun τ => arcsec (f τ) := by
  unfold arcsec rad; fun_prop

theorem nutationMatrix_differentiable (i j : Fin 3) :
    Differentiable ℝ fun τ => nutationMatrix τ i j := by
  have e1 : (fun τ => (nutationComponents τ).1) = fun τ => _ := funext fun τ => (nutation_eq τ).1
  have e2 : (fun τ => (nutationComponents τ).2) = fun τ => _ := funext fun τ => (nutation_eq τ).2
  have d1 : Differentiable ℝ fun τ => (nutationComponents τ).1 := by
    rw [e1]; unfold nodeAngle sunLongitude moonLongitude rad centuries; fun_prop
  have d2 : Differentiable ℝ fun τ => (nutationComponents τ).2 := by
    rw [e2]; unfold nodeAngle sunLongitude moonLongitude rad centuries; fun_prop
  have d3 : Differentiable ℝ fun τ => epsA τ := by
    unfold epsA meanObliquity centuries; fun_prop
  have e : (fun τ => nutationMatrix τ i j) = fun τ => nutationOf (arcsec (epsA τ))
      (-arcsec (nutationComponents τ).1) (-arcsec (epsA τ + (nutationComponents τ).2)) i j := by
    funext τ
    unfold nutationMatrix
    rw [← add_div]
    rfl
  rw [e]
  exact nutationOf_differentiable (arcsec_differentiable d3) (arcsec_differentiable d1).neg
    (arcsec_differentiable (d3.add d2)).neg i j

theorem precessionMatrix_differentiable (i j : Fin 3) :
    Differentiable ℝ fun τ => precessionMatrix τ i j := by
  have d4 : Differentiable ℝ fun τ => zetaPrecession τ := by
    unfold zetaPrecession centuries; fun_prop
  have d5 : Differentiable ℝ fun τ => thetaPrecession τ := by
    unfold thetaPrecession centuries; fun_prop
  have d6 : Differentiable ℝ fun τ => zPrecession τ := by
    unfold zPrecession centuries; fun_prop
  exact precessionOf_differentiable (arcsec_differentiable d4) (arcsec_differentiable d5)
    (arcsec_differentiable d6).neg i j

theorem pn_differentiable (i j : Fin 3) :
    Differentiable ℝ fun τ => (nutationMatrix τ * precessionMatrix τ) i j := by
  simp only [Matrix.mul_apply, Fin.sum_univ_three]
  have n := nutationMatrix_differentiable
  have p := precessionMatrix_differentiable
  exact (((n i 0).mul (p 0 j)).add ((n i 1).mul (p 1 j))).add ((n i 2).mul (p 2 j))

/-- A point carried by precession and nutation and itself moving. -/
theorem pn_rate {y : ℝ → Vec} {y' : Vec} {t : ℝ} (hy : Rate y t y') (ht : |t - 2451545| < 365250) :
    ∃ d : Vec, Rate (fun τ => (nutationMatrix τ * precessionMatrix τ) *ᵥ y τ) t
      ((nutationMatrix t * precessionMatrix t) *ᵥ y' + d) ∧ vnorm d ≤ 2.2e-6 * vnorm (y t) := by
  set Q : ℝ → Mat := fun τ => nutationMatrix τ * precessionMatrix τ with hQ
  set Q' : Mat := fun i j => deriv (fun τ => Q τ i j) t with hQ'
  have q : ∀ i j, HasDerivAt (fun τ => Q τ i j) (Q' i j) t := fun i j =>
    (pn_differentiable i j t).hasDerivAt
  refine ⟨Q' *ᵥ y t, fun i => ?_, ?_⟩
  · have h := fun j => (q i j).mul (hy j)
    have := ((h 0).add (h 1)).add (h 2)
    simp only [Matrix.mulVec, dotProduct, Fin.sum_univ_three, Pi.add_apply]
    refine this.congr_deriv ?_
    ring
  · set d := Q' *ᵥ y t with hd
    have hf : HasDerivAt (fun τ => d ⬝ᵥ (Q τ *ᵥ y t)) (d ⬝ᵥ d) t := by
      have h : ∀ i, HasDerivAt (fun τ => (Q τ *ᵥ y t) i) (d i) t := fun i => by
        have g := fun j => (q i j).mul_const (y t j)
        have := ((g 0).add (g 1)).add (g 2)
        rw [hd]
        simp only [Matrix.mulVec, dotProduct, Fin.sum_univ_three]
        exact this
      have := (((h 0).const_mul (d 0)).add ((h 1).const_mul (d 1))).add ((h 2).const_mul (d 2))
      simp only [dotProduct, Fin.sum_univ_three]
      exact this
    have hcent : ∀ s, |s - 2451545| < 365250 → |centuries s| ≤ 10 := fun s hs => by
      unfold centuries
      rw [abs_div, abs_of_pos (by norm_num : (0 : ℝ) < 36525), div_le_iff₀ (by norm_num)]
      linarith
    have hb := hf.le_of_lip' (C := vnorm d * (2.2e-6 * vnorm (y t)))
      (mul_nonneg (vnorm_nonneg _) (mul_nonneg (by norm_num) (vnorm_nonneg _))) (by
        have hopen : ∀ᶠ s in nhds t, |s - 2451545| < 365250 :=
          (continuous_abs.comp (continuous_id.sub continuous_const)).continuousAt.eventually
            (gt_mem_nhds ht)
        filter_upwards [hopen] with s hs
        rw [← dotProduct_sub, Real.norm_eq_abs, Real.norm_eq_abs]
        refine (abs_dot_le_vnorm _ _).trans ?_
        rw [mul_assoc]
        refine mul_le_mul_of_nonneg_left ?_ (vnorm_nonneg _)
        have := pn_turn (hcent s hs) (hcent t ht) (y t)
        linarith)
    rw [← vnorm_mul_self, Real.norm_eq_abs, abs_of_nonneg (mul_self_nonneg _)] at hb
    rcases (vnorm_nonneg d).eq_or_lt with h0 | h0
    · rw [← h0]; exact mul_nonneg (by norm_num) (vnorm_nonneg _)
    · exact le_of_mul_le_mul_left hb h0

/-- The rotation of the Earth, radians per day. -/
noncomputable def earthSpin : ℝ := rad 360.9856123035484

theorem rotateEra_raw (v : Vec) (jd : ℝ) : rotateEra v (-earthRotationAngle jd) =
    ![Real.cos (earthSpin * (jd - 2451545) + rad 280.46) * v 0 +
        Real.sin (earthSpin * (jd - 2451545) + rad 280.46) * v 1,
      -Real.sin (earthSpin * (jd - 2451545) + rad 280.46) * v 0 +
        Real.cos (earthSpin * (jd - 2451545) + rad 280.46) * v 1, v 2] := by
  have e : rad (-earthRotationAngle jd) = -rad (earthRotationAngle jd) := by unfold rad; ring
  have e' : earthSpin * (jd - 2451545) + rad 280.46 =
      rad (360.9856123035484 * (jd - 2451545) + 280.46) := by unfold earthSpin rad; ring
  unfold rotateEra
  simp only
  rw [e, Real.cos_neg, Real.sin_neg, e']
  unfold earthRotationAngle
  rw [sin_rad_fmod, cos_rad_fmod]
  congr 1
  ring

end Celest.Frames
