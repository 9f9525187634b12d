/-
Error bounds for the rotations in floating-point arithmetic.
-/
import Mathlib.Analysis.Real.Pi.Bounds
import Verif.Frames.LemmasAngle
import Verif.Frames.Rounded
import Verif.Frames.Lemmas

namespace Celest.Frames

open Matrix

/-! ### Entries -/

namespace Machine.Accurate

variable {M : Machine} {u : ℝ}

/-- A rounded product of two numbers of size at most one. -/
theorem mul (h : M.Accurate u) {a b a' b' : ℝ} (p q : ℝ) (hp0 : 0 ≤ p) (hp : p ≤ 20) (hq0 : 0 ≤ q)
    (hq : q ≤ 20) (ha : |a| ≤ 1) (hb : |b| ≤ 1) (ha' : |a' - a| ≤ p * u) (hb' : |b' - b| ≤ q * u) :
    |M.fl (a' * b') - a * b| ≤ (p + q + 2) * u := by
  have hu0 := h.nonneg
  have hu1 := h.small
  have hpu : p * u ≤ 20 * u := by gcongr
  have hqu : q * u ≤ 20 * u := by gcongr
  have e1 : |a' * b' - a * b| ≤ (p + q) * u + p * u * (q * u) := by
    have e : a' * b' - a * b = (a' - a) * b + a * (b' - b) + (a' - a) * (b' - b) := by ring
    rw [e]
    have t1 : |(a' - a) * b| ≤ p * u * 1 := by
      rw [abs_mul]; gcongr
    have t2 : |a * (b' - b)| ≤ 1 * (q * u) := by
      rw [abs_mul]; gcongr
    have t3 : |(a' - a) * (b' - b)| ≤ p * u * (q * u) := by
      rw [abs_mul]; gcongr
    have := abs_add_three ((a' - a) * b) (a * (b' - b)) ((a' - a) * (b' - b))
    linarith
  have e2 : |a' * b'| ≤ 1 + ((p + q) * u + p * u * (q * u)) := by
    have t1 : |a * b| ≤ 1 := by
      rw [abs_mul]; exact mul_le_one₀ ha (abs_nonneg _) hb
    have t2 := abs_sub_abs_le_abs_sub (a' * b') (a * b)
    linarith
  have e3 := h.fl (a' * b')
  have e4 : |M.fl (a' * b') - a * b| ≤ |M.fl (a' * b') - a' * b'| + |a' * b' - a * b| :=
    abs_sub_le _ _ _
  have e5 : u * |a' * b'| ≤ u * (1 + ((p + q) * u + p * u * (q * u))) := by gcongr
  have e6 : p * u * (q * u) ≤ 20 * u * (20 * u) := by gcongr
  have e7 : u * ((p + q) * u + p * u * (q * u)) ≤ u * (1 / 10) := by
    have : (p + q) * u + p * u * (q * u) ≤ 1 / 10 := by nlinarith
    gcongr
  have e8 : 20 * u * (20 * u) ≤ u * (1 / 10) := by nlinarith
  nlinarith

/-- A rounded sum of two numbers of size at most one. -/
theorem add (h : M.Accurate u) {a b a' b' : ℝ} (p q : ℝ) (hp0 : 0 ≤ p) (hp : p ≤ 20) (hq0 : 0 ≤ q)
    (hq : q ≤ 20) (ha : |a| ≤ 1) (hb : |b| ≤ 1) (ha' : |a' - a| ≤ p * u) (hb' : |b' - b| ≤ q * u) :
    |M.fl (a' + b') - (a + b)| ≤ (p + q + 3) * u := by
  have hu0 := h.nonneg
  have hu1 := h.small
  have hpu : p * u ≤ 20 * u := by gcongr
  have hqu : q * u ≤ 20 * u := by gcongr
  have e1 : |(a' + b') - (a + b)| ≤ p * u + q * u := by
    have e : (a' + b') - (a + b) = (a' - a) + (b' - b) := by ring
    rw [e]
    exact (abs_add_le _ _).trans (add_le_add ha' hb')
  have e2 : |a' + b'| ≤ 3 := by
    have t1 := abs_add_le a b
    have t2 := abs_sub_abs_le_abs_sub (a' + b') (a + b)
    linarith
  have e3 := h.fl (a' + b')
  have e4 := abs_sub_le (M.fl (a' + b')) (a' + b') (a + b)
  have e5 : u * |a' + b'| ≤ u * 3 := by gcongr
  linarith

theorem sub (h : M.Accurate u) {a b a' b' : ℝ} (p q : ℝ) (hp0 : 0 ≤ p) (hp : p ≤ 20) (hq0 : 0 ≤ q)
    (hq : q ≤ 20) (ha : |a| ≤ 1) (hb : |b| ≤ 1) (ha' : |a' - a| ≤ p * u) (hb' : |b' - b| ≤ q * u) :
    |M.fl (a' - b') - (a - b)| ≤ (p + q + 3) * u := by
  have := h.add (a := a) (b := -b) (a' := a') (b' := -b') p q hp0 hp hq0 hq ha (by rwa [abs_neg]) ha'
    (by rw [← abs_neg]; convert hb' using 2; ring)
  simpa [sub_eq_add_neg] using this

/-- Two sines or cosines. -/
theorem two (h : M.Accurate u) {a b a' b' : ℝ} (ha : |a| ≤ 1) (hb : |b| ≤ 1)
    (ha' : |a' - a| ≤ 2 * u) (hb' : |b' - b| ≤ 2 * u) : |M.fl (a' * b') - a * b| ≤ 6 * u := by
  have := h.mul 2 2 (by norm_num) (by norm_num) (by norm_num) (by norm_num) ha hb ha' hb'
  linarith

/-- Three sines or cosines. -/
theorem three (h : M.Accurate u) {a b c a' b' c' : ℝ} (ha : |a| ≤ 1) (hb : |b| ≤ 1) (hc : |c| ≤ 1)
    (ha' : |a' - a| ≤ 2 * u) (hb' : |b' - b| ≤ 2 * u) (hc' : |c' - c| ≤ 2 * u) :
    |M.fl (M.fl (a' * b') * c') - a * b * c| ≤ 10 * u := by
  have := h.mul 6 2 (by norm_num) (by norm_num) (by norm_num) (by norm_num)
    (by rw [abs_mul]; exact mul_le_one₀ ha (abs_nonneg _) hb) hc (h.two ha hb ha' hb') hc'
  linarith

/-- An entry that is the sum of a product of two and a product of three. -/
theorem twoThree (h : M.Accurate u) {a b c d e a' b' c' d' e' : ℝ} (ha : |a| ≤ 1) (hb : |b| ≤ 1)
    (hc : |c| ≤ 1) (hd : |d| ≤ 1) (he : |e| ≤ 1)
    (ha' : |a' - a| ≤ 2 * u) (hb' : |b' - b| ≤ 2 * u) (hc' : |c' - c| ≤ 2 * u)
    (hd' : |d' - d| ≤ 2 * u) (he' : |e' - e| ≤ 2 * u) :
    |M.fl (M.fl (a' * b') + M.fl (M.fl (c' * d') * e')) - (a * b + c * d * e)| ≤ 20 * u := by
  have hu := h.nonneg
  have hcd : |c * d| ≤ 1 := by rw [abs_mul]; exact mul_le_one₀ hc (abs_nonneg _) hd
  have := h.add 6 10 (by norm_num) (by norm_num) (by norm_num) (by norm_num)
    (by rw [abs_mul]; exact mul_le_one₀ ha (abs_nonneg _) hb)
    (by rw [abs_mul]; exact mul_le_one₀ hcd (abs_nonneg _) he)
    (h.two ha hb ha' hb') (h.three hc hd he hc' hd' he')
  linarith

theorem twoThree' (h : M.Accurate u) {a b c d e a' b' c' d' e' : ℝ} (ha : |a| ≤ 1) (hb : |b| ≤ 1)
    (hc : |c| ≤ 1) (hd : |d| ≤ 1) (he : |e| ≤ 1)
    (ha' : |a' - a| ≤ 2 * u) (hb' : |b' - b| ≤ 2 * u) (hc' : |c' - c| ≤ 2 * u)
    (hd' : |d' - d| ≤ 2 * u) (he' : |e' - e| ≤ 2 * u) :
    |M.fl (M.fl (a' * b') - M.fl (M.fl (c' * d') * e')) - (a * b - c * d * e)| ≤ 20 * u := by
  have hu := h.nonneg
  have hcd : |c * d| ≤ 1 := by rw [abs_mul]; exact mul_le_one₀ hc (abs_nonneg _) hd
  have := h.sub 6 10 (by norm_num) (by norm_num) (by norm_num) (by norm_num)
    (by rw [abs_mul]; exact mul_le_one₀ ha (abs_nonneg _) hb)
    (by rw [abs_mul]; exact mul_le_one₀ hcd (abs_nonneg _) he)
    (h.two ha hb ha' hb') (h.three hc hd he hc' hd' he')
  linarith

theorem two' (h : M.Accurate u) {a b a' b' : ℝ} (ha : |a| ≤ 1) (hb : |b| ≤ 1)
    (ha' : |a' - a| ≤ 2 * u) (hb' : |b' - b| ≤ 2 * u) : |M.fl (a' * b') - a * b| ≤ 20 * u := by
  have := h.two ha hb ha' hb'
  have := h.nonneg
  linarith

end Machine.Accurate

theorem neg_close {a a' k : ℝ} (h : |a' - a| ≤ k) : |-a' - -a| ≤ k := by
  rw [← abs_neg]
  convert h using 2
  ring

theorem one_to_twenty {x u : ℝ} (hu : 0 ≤ u) (h : |x| ≤ 2 * u) : |x| ≤ 20 * u := by linarith

/-- The computed bias matrix. -/
theorem biasOf_close {M : Machine} {u : ℝ} (h : M.Accurate u) (a b c : ℝ) (i j : Fin 3) :
    |Rounded.biasOf M a b c i j - biasOf a b c i j| ≤ 20 * u := by
  have s : ∀ x, |Real.sin x| ≤ 1 := Real.abs_sin_le_one
  have k : ∀ x, |Real.cos x| ≤ 1 := Real.abs_cos_le_one
  have s' : ∀ x, |-Real.sin x| ≤ 1 := fun x => by rw [abs_neg]; exact s x
  have k' : ∀ x, |-Real.cos x| ≤ 1 := fun x => by rw [abs_neg]; exact k x
  have hs := h.sin
  have hk := h.cos
  fin_cases i <;> fin_cases j
  · exact h.two' (k _) (k _) (hk _) (hk _)
  · exact h.two' (s _) (k _) (hs _) (hk _)
  · exact one_to_twenty h.nonneg (neg_close (hs _))
  · exact h.twoThree (s' _) (k _) (k _) (s _) (s _) (neg_close (hs _)) (hk _) (hk _) (hs _) (hs _)
  · exact h.twoThree (k _) (k _) (s _) (s _) (s _) (hk _) (hk _) (hs _) (hs _) (hs _)
  · exact h.two' (k _) (s _) (hk _) (hs _)
  · exact h.twoThree (s _) (s _) (k _) (s _) (k _) (hs _) (hs _) (hk _) (hs _) (hk _)
  · exact h.twoThree (k' _) (s _) (s _) (s _) (k _) (neg_close (hk _)) (hs _) (hs _) (hs _) (hk _)
  · exact h.two' (k _) (k _) (hk _) (hk _)

/-- The computed precession matrix. -/
theorem precessionOf_close {M : Machine} {u : ℝ} (h : M.Accurate u) (a b c : ℝ) (i j : Fin 3) :
    |Rounded.precessionOf M a b c i j - precessionOf a b c i j| ≤ 20 * u := by
  have s : ∀ x, |Real.sin x| ≤ 1 := Real.abs_sin_le_one
  have k : ∀ x, |Real.cos x| ≤ 1 := Real.abs_cos_le_one
  have s' : ∀ x, |-Real.sin x| ≤ 1 := fun x => by rw [abs_neg]; exact s x
  have hs := h.sin
  have hk := h.cos
  fin_cases i <;> fin_cases j
  · exact h.twoThree (s' _) (s _) (k _) (k _) (k _) (neg_close (hs _)) (hs _) (hk _) (hk _) (hk _)
  · exact h.twoThree (k _) (s _) (s _) (k _) (k _) (hk _) (hs _) (hs _) (hk _) (hk _)
  · exact h.two' (s' _) (k _) (neg_close (hs _)) (hk _)
  · exact h.twoThree' (s' _) (k _) (k _) (k _) (s _) (neg_close (hs _)) (hk _) (hk _) (hk _) (hs _)
  · exact h.twoThree' (k _) (k _) (s _) (k _) (s _) (hk _) (hk _) (hs _) (hk _) (hs _)
  · exact h.two' (s _) (s _) (hs _) (hs _)
  · exact h.two' (k _) (s _) (hk _) (hs _)
  · exact h.two' (s _) (s _) (hs _) (hs _)
  · exact one_to_twenty h.nonneg (hk _)

/-- The computed nutation matrix. -/
theorem nutationOf_close {M : Machine} {u : ℝ} (h : M.Accurate u) (a b c : ℝ) (i j : Fin 3) :
    |Rounded.nutationOf M a b c i j - nutationOf a b c i j| ≤ 20 * u := by
  have s : ∀ x, |Real.sin x| ≤ 1 := Real.abs_sin_le_one
  have k : ∀ x, |Real.cos x| ≤ 1 := Real.abs_cos_le_one
  have s' : ∀ x, |-Real.sin x| ≤ 1 := fun x => by rw [abs_neg]; exact s x
  have k' : ∀ x, |-Real.cos x| ≤ 1 := fun x => by rw [abs_neg]; exact k x
  have hs := h.sin
  have hk := h.cos
  fin_cases i <;> fin_cases j
  · exact one_to_twenty h.nonneg (hk _)
  · exact h.two' (s _) (s _) (hs _) (hs _)
  · exact h.two' (k' _) (s _) (neg_close (hk _)) (hs _)
  · exact h.two' (s _) (s _) (hs _) (hs _)
  · exact h.twoThree' (k _) (k _) (s _) (k _) (s _) (hk _) (hk _) (hs _) (hk _) (hs _)
  · exact h.twoThree (s _) (k _) (k _) (k _) (s _) (hs _) (hk _) (hk _) (hk _) (hs _)
  · exact h.two' (s _) (k _) (hs _) (hk _)
  · exact h.twoThree' (k' _) (s _) (s _) (k _) (k _) (neg_close (hk _)) (hs _) (hs _) (hk _) (hk _)
  · exact h.twoThree (s' _) (s _) (k _) (k _) (k _) (neg_close (hs _)) (hs _) (hk _) (hk _) (hk _)

/-! ### Vectors -/

/-- The sum of the sizes of the coordinates. -/
def size1 (v : Vec) : ℝ := |v 0| + |v 1| + |v 2|

theorem size1_nonneg (v : Vec) : 0 ≤ size1 v := by unfold size1; positivity

theorem vnorm_sq_coords (v : Vec) : vnorm v ^ 2 = v 0 ^ 2 + v 1 ^ 2 + v 2 ^ 2 := by
  rw [vnorm_sq]
  simp [dotProduct, Fin.sum_univ_three]
  ring

theorem size1_sq (v : Vec) : size1 v ^ 2 ≤ 3 * vnorm v ^ 2 := by
  rw [vnorm_sq_coords, ← sq_abs (v 0), ← sq_abs (v 1), ← sq_abs (v 2)]
  unfold size1
  nlinarith [sq_nonneg (|v 0| - |v 1|), sq_nonneg (|v 1| - |v 2|), sq_nonneg (|v 0| - |v 2|)]

/-- If every coordinate is off by at most `k` times the sum of the sizes, the vector is off by at
most `3k` times the norm. -/
theorem vnorm_of_coords {e v : Vec} {k : ℝ} (hk : 0 ≤ k) (h : ∀ i, |e i| ≤ k * size1 v) :
    vnorm e ≤ 3 * k * vnorm v := by
  have hv := vnorm_nonneg v
  refine abs_le_of_sq_le_sq' ?_ (by positivity) |>.2
  have t : ∀ i, e i ^ 2 ≤ k ^ 2 * (3 * vnorm v ^ 2) := by
    intro i
    have h1 : e i ^ 2 ≤ (k * size1 v) ^ 2 := by
      rw [← sq_abs]
      exact pow_le_pow_left₀ (abs_nonneg _) (h i) 2
    have h2 : k ^ 2 * size1 v ^ 2 ≤ k ^ 2 * (3 * vnorm v ^ 2) := by
      have := size1_sq v
      gcongr
    calc e i ^ 2 ≤ (k * size1 v) ^ 2 := h1
      _ = k ^ 2 * size1 v ^ 2 := by ring
      _ ≤ _ := h2
  rw [vnorm_sq_coords]
  have := t 0
  have := t 1
  have := t 2
  have e : (3 * k * vnorm v) ^ 2 = 3 * (k ^ 2 * (3 * vnorm v ^ 2)) := by ring
  rw [e]
  linarith

theorem vnorm_add (a b : Vec) : vnorm (a + b) ≤ vnorm a + vnorm b := by
  rw [← norm_toE, ← norm_toE, ← norm_toE]
  exact norm_add_le (toE a) (toE b)

theorem vnorm_sub_le (a b c : Vec) : vnorm (a - c) ≤ vnorm (a - b) + vnorm (b - c) := by
  have := vnorm_add (a - b) (b - c)
  rwa [sub_add_sub_cancel] at this

theorem vnorm_sub_comm (a b : Vec) : vnorm (a - b) = vnorm (b - a) := by
  rw [← neg_sub, ← norm_toE, ← norm_toE]
  exact norm_neg (toE (b - a))

/-- `f` differs from the linear map `R` by at most `k` times the norm of its argument. -/
def Follows (k : ℝ) (f : Vec → Vec) (R : Mat) : Prop := ∀ v, vnorm (f v - R *ᵥ v) ≤ k * vnorm v

/-- Entries of a rotation are at most one. -/
theorem Rotation.entry {R : Mat} (h : Rotation R) (i j : Fin 3) : |R i j| ≤ 1 := by
  have h1 := congrFun (congrFun ((rotation_iff R).1 h).1 i) i
  simp only [Matrix.mul_apply, Fin.sum_univ_three, Matrix.transpose_apply, Matrix.one_apply_eq] at h1
  have : R i j ^ 2 ≤ 1 := by
    fin_cases j <;> simp only [Fin.zero_eta, Fin.mk_one, Fin.reduceFinMk] <;>
      nlinarith [sq_nonneg (R i 0), sq_nonneg (R i 1), sq_nonneg (R i 2)]
  rw [← sq_abs] at this
  exact (sq_le_one_iff₀ (abs_nonneg _)).1 this

theorem vnorm_follows {k : ℝ} {f : Vec → Vec} {R : Mat} (hR : Rotation R) (h : Follows k f R)
    (v : Vec) : vnorm (f v) ≤ (1 + k) * vnorm v := by
  have h1 := h v
  have h2 := vnorm_add (f v - R *ᵥ v) (R *ᵥ v)
  rw [sub_add_cancel, hR.vnorm] at h2
  linarith

/-- One conversion after another. -/
theorem Follows.comp {k l : ℝ} {f g : Vec → Vec} {R S : Mat} (hR : Rotation R) (hS : Rotation S)
    (hl : 0 ≤ l) (hf : Follows k f R) (hg : Follows l g S) :
    Follows (k + l * (1 + k)) (fun v => g (f v)) (S * R) := by
  intro v
  have h1 := hg (f v)
  have h2 := vnorm_follows hR hf v
  have h3 := hf v
  have h4 : vnorm (S *ᵥ f v - (S * R) *ᵥ v) = vnorm (f v - R *ᵥ v) := by
    rw [← Matrix.mulVec_mulVec, ← Matrix.mulVec_sub, hS.vnorm]
  have h5 := vnorm_sub_le (g (f v)) (S *ᵥ f v) ((S * R) *ᵥ v)
  have h6 : l * vnorm (f v) ≤ l * ((1 + k) * vnorm v) := by gcongr
  rw [h4] at h5
  calc vnorm (g (f v) - (S * R) *ᵥ v) ≤ l * ((1 + k) * vnorm v) + k * vnorm v := by linarith
    _ = _ := by ring

theorem Follows.mono {k l : ℝ} {f : Vec → Vec} {R : Mat} (h : Follows k f R) (hkl : k ≤ l) :
    Follows l f R := fun v =>
  (h v).trans (mul_le_mul_of_nonneg_right hkl (vnorm_nonneg v))

/-- Applying a computed matrix. -/
theorem apply_follows {M : Machine} {u : ℝ} (h : M.Accurate u) {A R : Mat} (p : ℝ) (hp0 : 0 ≤ p)
    (hp : p ≤ 10 ^ 6) (hR : Rotation R) (hA : ∀ i j, |A i j - R i j| ≤ p * u) :
    Follows (3 * ((p + 5) * u)) (Rounded.apply M A) R := by
  have hu0 := h.nonneg
  have hu1 := h.small
  intro v
  refine vnorm_of_coords (by positivity) fun i => ?_
  have h1 := h.dot (A i) v
  have hpu : p * u ≤ 1 / 10 := by
    calc p * u ≤ 10 ^ 6 * (1 / 10 ^ 12) := by gcongr
      _ ≤ 1 / 10 := by norm_num
  have ent : ∀ j, |A i j| ≤ 1 + p * u := by
    intro j
    have t1 := hR.entry i j
    have t2 := abs_sub_abs_le_abs_sub (A i j) (R i j)
    have t3 := hA i j
    linarith
  have prod : ∀ j, |A i j * v j| ≤ (1 + p * u) * |v j| := by
    intro j
    rw [abs_mul]
    gcongr
    exact ent j
  have diff : ∀ j, |(A i j - R i j) * v j| ≤ p * u * |v j| := by
    intro j
    rw [abs_mul]
    gcongr
    exact hA i j
  have e1 : A i ⬝ᵥ v - (R *ᵥ v) i = (A i 0 - R i 0) * v 0 + (A i 1 - R i 1) * v 1 +
      (A i 2 - R i 2) * v 2 := by
    simp only [Matrix.mulVec, dotProduct, Fin.sum_univ_three]
    ring
  have e2 : |A i ⬝ᵥ v - (R *ᵥ v) i| ≤ p * u * size1 v := by
    rw [e1]
    have := abs_add_three ((A i 0 - R i 0) * v 0) ((A i 1 - R i 1) * v 1) ((A i 2 - R i 2) * v 2)
    have := diff 0
    have := diff 1
    have := diff 2
    unfold size1
    linarith
  have e3 : |A i 0 * v 0| + |A i 1 * v 1| + |A i 2 * v 2| ≤ (1 + p * u) * size1 v := by
    have := prod 0
    have := prod 1
    have := prod 2
    unfold size1
    linarith
  have e4 := abs_sub_le (M.dot (A i) v) (A i ⬝ᵥ v) ((R *ᵥ v) i)
  have hs := size1_nonneg v
  have e5 : 4 * u * (|A i 0 * v 0| + |A i 1 * v 1| + |A i 2 * v 2|) ≤
      4 * u * ((1 + p * u) * size1 v) := by gcongr
  have e6 : 4 * u * ((1 + p * u) * size1 v) ≤ 5 * u * size1 v := by
    have : 4 * (1 + p * u) ≤ 5 := by linarith
    calc 4 * u * ((1 + p * u) * size1 v) = u * size1 v * (4 * (1 + p * u)) := by ring
      _ ≤ u * size1 v * 5 := by gcongr
      _ = _ := by ring
  have e7 : (Rounded.apply M A v - R *ᵥ v) i = M.dot (A i) v - (R *ᵥ v) i := rfl
  rw [e7]
  calc |M.dot (A i) v - (R *ᵥ v) i| ≤ 5 * u * size1 v + p * u * size1 v := by linarith
    _ = _ := by ring

/-- Rotating about the third axis. -/
theorem rotateEra_follows {M : Machine} {u : ℝ} (h : M.Accurate u) (a : ℝ) :
    Follows (3 * (5 * u)) (fun v => Rounded.rotateEra M v a) (R3 (-a)) := by
  have hu0 := h.nonneg
  have hu1 := h.small
  have term : ∀ c' c x : ℝ, |c| ≤ 1 → |c' - c| ≤ 2 * u →
      |M.fl (c' * x) - c * x| ≤ 3.1 * u * |x| := by
    intro c' c x hc hc'
    have t1 := h.fl (c' * x)
    have t2 : |c' * x - c * x| ≤ 2 * u * |x| := by
      rw [← sub_mul, abs_mul]
      gcongr
    have t3 : |c' * x| ≤ (1 + 2 * u) * |x| := by
      rw [abs_mul]
      have := abs_sub_abs_le_abs_sub c' c
      gcongr
      linarith
    have t4 := abs_sub_le (M.fl (c' * x)) (c' * x) (c * x)
    have t5 : u * |c' * x| ≤ u * ((1 + 2 * u) * |x|) := by gcongr
    have t6 : u * ((1 + 2 * u) * |x|) ≤ 1.1 * u * |x| := by
      have : 1 + 2 * u ≤ 1.1 := by linarith
      calc u * ((1 + 2 * u) * |x|) ≤ u * (1.1 * |x|) := by gcongr
        _ = _ := by ring
    have hx := abs_nonneg x
    nlinarith
  have both : ∀ p q x y X Y : ℝ, |p - X| ≤ 3.1 * u * |x| → |q - Y| ≤ 3.1 * u * |y| → |X| ≤ |x| →
      |Y| ≤ |y| → |M.fl (p + q) - (X + Y)| ≤ 5 * u * (|x| + |y|) := by
    intro p q x y X Y hp hq hX hY
    have t1 := h.fl (p + q)
    have t2 : |(p + q) - (X + Y)| ≤ 3.1 * u * (|x| + |y|) := by
      have e : (p + q) - (X + Y) = (p - X) + (q - Y) := by ring
      rw [e]
      have := abs_add_le (p - X) (q - Y)
      linarith
    have hx := abs_nonneg x
    have hy := abs_nonneg y
    have t3 : |p + q| ≤ 1.1 * (|x| + |y|) := by
      have s1 := abs_sub_abs_le_abs_sub (p + q) (X + Y)
      have s2 := abs_add_le X Y
      have s3 : 3.1 * u * (|x| + |y|) ≤ 0.1 * (|x| + |y|) := by
        gcongr
        linarith
      linarith
    have t4 := abs_sub_le (M.fl (p + q)) (p + q) (X + Y)
    have t5 : u * |p + q| ≤ u * (1.1 * (|x| + |y|)) := by gcongr
    have t6 : 0 ≤ u * (|x| + |y|) := by positivity
    nlinarith
  have small : ∀ c x : ℝ, |c| ≤ 1 → |c * x| ≤ |x| := by
    intro c x hc
    rw [abs_mul]
    have := mul_le_mul_of_nonneg_right hc (abs_nonneg x)
    linarith
  have hs := Real.abs_sin_le_one a
  have hk := Real.abs_cos_le_one a
  intro v
  refine vnorm_of_coords (by positivity) fun i => ?_
  have h2 := abs_nonneg (v 2)
  have h01 : 5 * u * (|v 0| + |v 1|) ≤ 5 * u * size1 v := by
    have : |v 0| + |v 1| ≤ size1 v := by unfold size1; linarith
    exact mul_le_mul_of_nonneg_left this (by positivity)
  fin_cases i
  · have := both (M.fl (M.cos a * v 0)) (-M.fl (M.sin a * v 1)) (v 0) (v 1) (Real.cos a * v 0)
      (-(Real.sin a * v 1)) (term _ _ _ hk (h.cos a))
      (by rw [← neg_sub_neg, neg_neg, neg_neg, abs_sub_comm]; exact term _ _ _ hs (h.sin a))
      (small _ _ hk) (by rw [abs_neg]; exact small _ _ hs)
    refine le_trans (le_of_eq ?_) (this.trans h01)
    simp [Rounded.rotateEra, R3, Matrix.mulVec, dotProduct, Fin.sum_univ_three, sub_eq_add_neg]
  · have := both (M.fl (M.sin a * v 0)) (M.fl (M.cos a * v 1)) (v 0) (v 1) (Real.sin a * v 0)
      (Real.cos a * v 1) (term _ _ _ hs (h.sin a)) (term _ _ _ hk (h.cos a)) (small _ _ hs)
      (small _ _ hk)
    refine le_trans (le_of_eq ?_) (this.trans h01)
    simp [Rounded.rotateEra, R3, Matrix.mulVec, dotProduct, Fin.sum_univ_three]
  · have : (Rounded.rotateEra M v a - R3 (-a) *ᵥ v) 2 = 0 := by
      simp [Rounded.rotateEra, R3, Matrix.mulVec, dotProduct, Fin.sum_univ_three]
    change |(Rounded.rotateEra M v a - R3 (-a) *ᵥ v) 2| ≤ _
    rw [this, abs_zero]
    have := size1_nonneg v
    positivity

/-- A computed inverse is close to the transposed rotation. -/
theorem inv_close {M : Machine} {u : ℝ} (h : M.Accurate u) {A R : Mat} (hR : Rotation R)
    (hA : ∀ i j, |A i j - R i j| ≤ 20 * u) (i j : Fin 3) : |M.inv A i j - R⁻¹ i j| ≤ 500 * u := by
  have hu0 := h.nonneg
  have hu1 := h.small
  set X := M.inv A with hX
  have hE := h.inv A R hR hA
  have hRi : Rotation R⁻¹ := hR.inv
  have hRR : R * R⁻¹ = 1 := Matrix.mul_nonsing_inv _ hR.isUnit
  set F : Mat := (X * A - 1) - X * (A - R) with hF
  have hXF : X = R⁻¹ + F * R⁻¹ := by
    have : X * R = 1 + F := by rw [hF]; noncomm_ring
    calc X = X * (R * R⁻¹) := by rw [hRR, mul_one]
      _ = (1 + F) * R⁻¹ := by rw [← mul_assoc, this]
      _ = _ := by rw [add_mul, one_mul]
  obtain ⟨x, hx⟩ : ∃ x, x = (Finset.univ.sup' (Finset.univ_nonempty) fun p : Fin 3 × Fin 3 => |X p.1 p.2|) :=
    ⟨_, rfl⟩
  have hxl : ∀ i j, |X i j| ≤ x := by
    intro i j
    rw [hx]
    exact Finset.le_sup' (fun p : Fin 3 × Fin 3 => |X p.1 p.2|) (Finset.mem_univ (i, j))
  have hx0 : 0 ≤ x := (abs_nonneg _).trans (hxl 0 0)
  have hFl : ∀ i j, |F i j| ≤ 100 * u + 60 * u * x := by
    intro i j
    have t1 := hE i j
    have t2 : |(X * (A - R)) i j| ≤ 60 * u * x := by
      simp only [Matrix.mul_apply, Fin.sum_univ_three, Matrix.sub_apply]
      have p : ∀ k, |X i k * (A k j - R k j)| ≤ x * (20 * u) := by
        intro k
        rw [abs_mul]
        exact mul_le_mul (hxl i k) (hA k j) (abs_nonneg _) hx0
      have := abs_add_three (X i 0 * (A 0 j - R 0 j)) (X i 1 * (A 1 j - R 1 j))
        (X i 2 * (A 2 j - R 2 j))
      have := p 0
      have := p 1
      have := p 2
      linarith
    have t3 : |(X * A) i j - (1 : Mat) i j - (X * (A - R)) i j| ≤ _ := abs_sub _ _
    rw [hF]
    simp only [Matrix.sub_apply (X * A - 1), Matrix.sub_apply (X * A)]
    linarith
  have hd : ∀ i j, |X i j - R⁻¹ i j| ≤ 3 * (100 * u + 60 * u * x) := by
    intro i j
    have e : X i j - R⁻¹ i j = (F * R⁻¹) i j := by
      have := congrFun (congrFun hXF i) j
      rw [Matrix.add_apply] at this
      linarith
    rw [e]
    simp only [Matrix.mul_apply, Fin.sum_univ_three]
    have p : ∀ k, |F i k * R⁻¹ k j| ≤ 100 * u + 60 * u * x := by
      intro k
      rw [abs_mul]
      have := mul_le_mul (hFl i k) (hRi.entry k j) (abs_nonneg _) (by positivity)
      linarith
    have := abs_add_three (F i 0 * R⁻¹ 0 j) (F i 1 * R⁻¹ 1 j) (F i 2 * R⁻¹ 2 j)
    have := p 0
    have := p 1
    have := p 2
    linarith
  have hx2 : x ≤ 1.05 := by
    have : x ≤ 1 + 3 * (100 * u + 60 * u * x) := by
      conv_lhs => rw [hx]
      refine Finset.sup'_le _ _ fun p _ => ?_
      have t1 := hd p.1 p.2
      have t2 := hRi.entry p.1 p.2
      have t3 := abs_sub_abs_le_abs_sub (X p.1 p.2) (R⁻¹ p.1 p.2)
      linarith
    have t : 60 * u * x ≤ 1 / 1000 * x := by gcongr; linarith
    linarith
  have t : 60 * u * x ≤ 60 * u * 1.05 := by gcongr
  have := hd i j
  linarith

/-! ### The whole conversion -/

/-- The rotation that `_gcrs_to_itrs` stands for when its angles are `g`. -/
noncomputable def Rounded.Angles.rotation (g : Rounded.Angles) : Mat :=
  R3 g.era * (Frames.nutationOf (g.nutation 0) (g.nutation 1) (g.nutation 2) *
    (Frames.precessionOf (g.precession 0) (g.precession 1) (g.precession 2) *
      Frames.biasOf (g.bias 0) (g.bias 1) (g.bias 2)))

theorem biasOf_rotation (a b c : ℝ) : Rotation (biasOf a b c) := by
  rw [biasOf_eq]
  exact (R1_rotation _).mul ((R2_rotation _).mul (R3_rotation _))

theorem precessionOf_rotation (a b c : ℝ) : Rotation (precessionOf a b c) := by
  rw [precessionOf_eq]
  exact (R3_rotation _).mul ((R2_rotation _).mul (R3_rotation _))

theorem nutationOf_rotation (a b c : ℝ) : Rotation (nutationOf a b c) := by
  rw [nutationOf_eq]
  exact (R1_rotation _).mul ((R2_rotation _).mul (R1_rotation _))

theorem Rounded.Angles.rotation_rotation (g : Rounded.Angles) : Rotation g.rotation :=
  (R3_rotation _).mul ((nutationOf_rotation _ _ _).mul
    ((precessionOf_rotation _ _ _).mul (biasOf_rotation _ _ _)))

/-- Products of small errors are small. -/
theorem comp_small {u k l : ℝ} (hu0 : 0 ≤ u) (hu1 : u ≤ 1 / 10 ^ 12) (hk : k ≤ 10000)
    (hl0 : 0 ≤ l) (hl : l ≤ 10000) : k * u + l * u * (1 + k * u) ≤ (k + l + 1 / 1000) * u := by
  have h1 : l * (k * u) ≤ 1 / 1000 := by
    have : k * u ≤ 10000 * (1 / 10 ^ 12) := by
      calc k * u ≤ 10000 * u := by gcongr
        _ ≤ _ := by gcongr
    calc l * (k * u) ≤ l * (10000 * (1 / 10 ^ 12)) := by gcongr
      _ ≤ 10000 * (10000 * (1 / 10 ^ 12)) := by gcongr
      _ ≤ 1 / 1000 := by norm_num
  nlinarith [mul_le_mul_of_nonneg_right h1 hu0]

theorem Follows.comp' {u k l : ℝ} {f g : Vec → Vec} {R S : Mat} (hu0 : 0 ≤ u)
    (hu1 : u ≤ 1 / 10 ^ 12) (hk : k ≤ 10000) (hl0 : 0 ≤ l) (hl : l ≤ 10000) (hR : Rotation R)
    (hS : Rotation S) (hf : Follows (k * u) f R) (hg : Follows (l * u) g S) :
    Follows ((k + l + 1 / 1000) * u) (fun v => g (f v)) (S * R) :=
  (Follows.comp hR hS (by positivity) hf hg).mono (comp_small hu0 hu1 hk hl0 hl)

theorem gcrsToItrs1_follows {M : Machine} {u : ℝ} (h : M.Accurate u) (g : Rounded.Angles) :
    Follows (241 * u) (Rounded.gcrsToItrs1 M g) g.rotation := by
  have hu0 := h.nonneg
  have hu1 := h.small
  have b := apply_follows h 20 (by norm_num) (by norm_num) (biasOf_rotation _ _ _)
    (biasOf_close h (g.bias 0) (g.bias 1) (g.bias 2))
  have p := apply_follows h 20 (by norm_num) (by norm_num) (precessionOf_rotation _ _ _)
    (precessionOf_close h (g.precession 0) (g.precession 1) (g.precession 2))
  have n := apply_follows h 20 (by norm_num) (by norm_num) (nutationOf_rotation _ _ _)
    (nutationOf_close h (g.nutation 0) (g.nutation 1) (g.nutation 2))
  have e := rotateEra_follows h (-g.era)
  rw [neg_neg] at e
  replace b := b.mono (l := 75 * u) (by linarith)
  replace p := p.mono (l := 75 * u) (by linarith)
  replace n := n.mono (l := 75 * u) (by linarith)
  replace e := e.mono (l := 15 * u) (by linarith)
  have bp := b.comp' hu0 hu1 (by norm_num) (by norm_num) (by norm_num) (biasOf_rotation _ _ _)
    (precessionOf_rotation _ _ _) p
  have hbp := (precessionOf_rotation (g.precession 0) (g.precession 1) (g.precession 2)).mul
    (biasOf_rotation (g.bias 0) (g.bias 1) (g.bias 2))
  have bpn := bp.comp' hu0 hu1 (by norm_num) (by norm_num) (by norm_num) hbp
    (nutationOf_rotation _ _ _) n
  have all := bpn.comp' hu0 hu1 (by norm_num) (by norm_num) (by norm_num)
    ((nutationOf_rotation _ _ _).mul hbp) (R3_rotation _) e
  exact all.mono (by linarith)

theorem R3_inv (a : ℝ) : (R3 a)⁻¹ = R3 (-a) := by
  have h : R3 a * R3 (-a) = 1 := by
    ext i j
    fin_cases i <;> fin_cases j <;> simp [R3, Matrix.mul_apply, Fin.sum_univ_three] <;>
      nlinarith [Real.sin_sq_add_cos_sq a]
  exact Matrix.inv_eq_right_inv h

theorem itrsToGcrs1_follows {M : Machine} {u : ℝ} (h : M.Accurate u) (g : Rounded.Angles) :
    Follows (4600 * u) (Rounded.itrsToGcrs1 M g) g.rotation⁻¹ := by
  have hu0 := h.nonneg
  have hu1 := h.small
  have hB := biasOf_rotation (g.bias 0) (g.bias 1) (g.bias 2)
  have hP := precessionOf_rotation (g.precession 0) (g.precession 1) (g.precession 2)
  have hN := nutationOf_rotation (g.nutation 0) (g.nutation 1) (g.nutation 2)
  have b := apply_follows h 500 (by norm_num) (by norm_num) hB.inv
    (inv_close h hB (biasOf_close h (g.bias 0) (g.bias 1) (g.bias 2)))
  have p := apply_follows h 500 (by norm_num) (by norm_num) hP.inv
    (inv_close h hP (precessionOf_close h (g.precession 0) (g.precession 1) (g.precession 2)))
  have n := apply_follows h 500 (by norm_num) (by norm_num) hN.inv
    (inv_close h hN (nutationOf_close h (g.nutation 0) (g.nutation 1) (g.nutation 2)))
  have e := rotateEra_follows h g.era
  replace b := b.mono (l := 1515 * u) (by linarith)
  replace p := p.mono (l := 1515 * u) (by linarith)
  replace n := n.mono (l := 1515 * u) (by linarith)
  replace e := e.mono (l := 15 * u) (by linarith)
  have en := e.comp' hu0 hu1 (by norm_num) (by norm_num) (by norm_num) (R3_rotation _) hN.inv n
  have enp := en.comp' hu0 hu1 (by norm_num) (by norm_num) (by norm_num)
    (hN.inv.mul (R3_rotation _)) hP.inv p
  have all := enp.comp' hu0 hu1 (by norm_num) (by norm_num) (by norm_num)
    (hP.inv.mul (hN.inv.mul (R3_rotation _))) hB.inv b
  have hi : g.rotation⁻¹ = (biasOf (g.bias 0) (g.bias 1) (g.bias 2))⁻¹ *
      ((precessionOf (g.precession 0) (g.precession 1) (g.precession 2))⁻¹ *
        ((nutationOf (g.nutation 0) (g.nutation 1) (g.nutation 2))⁻¹ * R3 (-g.era))) := by
    rw [Rounded.Angles.rotation, Matrix.mul_inv_rev, Matrix.mul_inv_rev, Matrix.mul_inv_rev,
      R3_inv]
    simp only [mul_assoc]
  rw [hi]
  exact all.mono (by linarith)

/-! ### Sensitivity to the angles -/

theorem turn_close (a b x y : ℝ) :
    (Real.cos a * x + Real.sin a * y - (Real.cos b * x + Real.sin b * y)) ^ 2 +
      (-Real.sin a * x + Real.cos a * y - (-Real.sin b * x + Real.cos b * y)) ^ 2 ≤
    (a - b) ^ 2 * (x ^ 2 + y ^ 2) := by
  have h1 := Real.one_sub_sq_div_two_le_cos (x := a - b)
  rw [Real.cos_sub] at h1
  have ha := Real.sin_sq_add_cos_sq a
  have hb := Real.sin_sq_add_cos_sq b
  have e : (Real.cos a * x + Real.sin a * y - (Real.cos b * x + Real.sin b * y)) ^ 2 +
      (-Real.sin a * x + Real.cos a * y - (-Real.sin b * x + Real.cos b * y)) ^ 2 =
      (2 * (1 - (Real.cos a * Real.cos b + Real.sin a * Real.sin b))) * (x ^ 2 + y ^ 2) := by
    linear_combination (x ^ 2 + y ^ 2) * (ha + hb)
  rw [e]
  have : 0 ≤ x ^ 2 + y ^ 2 := by positivity
  apply mul_le_mul_of_nonneg_right _ this
  linarith

theorem follows_of_sq {k : ℝ} {A B : Mat} (hk : 0 ≤ k)
    (h : ∀ v, vnorm (A *ᵥ v - B *ᵥ v) ^ 2 ≤ k ^ 2 * vnorm v ^ 2) : Follows k (fun v => A *ᵥ v) B := by
  intro v
  have hv := vnorm_nonneg v
  refine (abs_le_of_sq_le_sq' ?_ (by positivity)).2
  rw [mul_pow]
  exact h v

theorem R1_follows (a b : ℝ) : Follows |a - b| (fun v => R1 a *ᵥ v) (R1 b) := by
  refine follows_of_sq (abs_nonneg _) fun v => ?_
  rw [vnorm_sq_coords, vnorm_sq_coords, sq_abs]
  have := turn_close a b (v 1) (v 2)
  have h0 : 0 ≤ (a - b) ^ 2 * v 0 ^ 2 := by positivity
  simp [R1, Matrix.mulVec, dotProduct, Fin.sum_univ_three] at this ⊢
  linarith

theorem R2_follows (a b : ℝ) : Follows |a - b| (fun v => R2 a *ᵥ v) (R2 b) := by
  refine follows_of_sq (abs_nonneg _) fun v => ?_
  rw [vnorm_sq_coords, vnorm_sq_coords, sq_abs]
  have := turn_close a b (v 2) (v 0)
  have h0 : 0 ≤ (a - b) ^ 2 * v 1 ^ 2 := by positivity
  simp [R2, Matrix.mulVec, dotProduct, Fin.sum_univ_three] at this ⊢
  linarith

theorem R3_follows (a b : ℝ) : Follows |a - b| (fun v => R3 a *ᵥ v) (R3 b) := by
  refine follows_of_sq (abs_nonneg _) fun v => ?_
  rw [vnorm_sq_coords, vnorm_sq_coords, sq_abs]
  have := turn_close a b (v 0) (v 1)
  have h0 : 0 ≤ (a - b) ^ 2 * v 2 ^ 2 := by positivity
  simp [R3, Matrix.mulVec, dotProduct, Fin.sum_univ_three] at this ⊢
  linarith

/-- Errors of rotations add up. -/
theorem Follows.mul {k l : ℝ} {A A' B B' : Mat} (hA : Rotation A) (hB' : Rotation B')
    (hk : Follows k (fun v => A *ᵥ v) A') (hl : Follows l (fun v => B *ᵥ v) B') :
    Follows (k + l) (fun v => (B * A) *ᵥ v) (B' * A') := by
  intro v
  have h1 := hl (A *ᵥ v)
  rw [hA.vnorm] at h1
  have h2 := hk v
  have h3 : vnorm (B' *ᵥ (A *ᵥ v) - (B' * A') *ᵥ v) = vnorm (A *ᵥ v - A' *ᵥ v) := by
    rw [← Matrix.mulVec_mulVec, ← Matrix.mulVec_sub, hB'.vnorm]
  have h4 := vnorm_sub_le ((B * A) *ᵥ v) (B' *ᵥ (A *ᵥ v)) ((B' * A') *ᵥ v)
  rw [h3] at h4
  simp only [← Matrix.mulVec_mulVec] at h1 h4 ⊢
  linarith

/-- The total difference of two sets of angles. -/
def Rounded.Angles.gap (g h : Rounded.Angles) : ℝ :=
  (|g.bias 0 - h.bias 0| + |g.bias 1 - h.bias 1| + |g.bias 2 - h.bias 2|) +
  (|g.precession 0 - h.precession 0| + |g.precession 1 - h.precession 1| +
    |g.precession 2 - h.precession 2|) +
  (|g.nutation 0 - h.nutation 0| + |g.nutation 1 - h.nutation 1| +
    |g.nutation 2 - h.nutation 2|) + |g.era - h.era|

theorem rotation_follows (g h : Rounded.Angles) :
    Follows (g.gap h) (fun v => g.rotation *ᵥ v) h.rotation := by
  have B : Follows (|g.bias 0 - h.bias 0| + |g.bias 1 - h.bias 1| + |g.bias 2 - h.bias 2|)
      (fun v => biasOf (g.bias 0) (g.bias 1) (g.bias 2) *ᵥ v)
      (biasOf (h.bias 0) (h.bias 1) (h.bias 2)) := by
    rw [biasOf_eq, biasOf_eq]
    exact ((R3_follows _ _).mul (R3_rotation _) (R2_rotation _) (R2_follows _ _)).mul
      ((R2_rotation _).mul (R3_rotation _)) (R1_rotation _) (R1_follows _ _)
  have P : Follows (|g.precession 0 - h.precession 0| + |g.precession 1 - h.precession 1| +
      |g.precession 2 - h.precession 2|)
      (fun v => precessionOf (g.precession 0) (g.precession 1) (g.precession 2) *ᵥ v)
      (precessionOf (h.precession 0) (h.precession 1) (h.precession 2)) := by
    rw [precessionOf_eq, precessionOf_eq]
    exact ((R3_follows _ _).mul (R3_rotation _) (R2_rotation _) (R2_follows _ _)).mul
      ((R2_rotation _).mul (R3_rotation _)) (R3_rotation _) (R3_follows _ _)
  have N : Follows (|g.nutation 0 - h.nutation 0| + |g.nutation 1 - h.nutation 1| +
      |g.nutation 2 - h.nutation 2|)
      (fun v => nutationOf (g.nutation 0) (g.nutation 1) (g.nutation 2) *ᵥ v)
      (nutationOf (h.nutation 0) (h.nutation 1) (h.nutation 2)) := by
    rw [nutationOf_eq, nutationOf_eq]
    exact ((R1_follows _ _).mul (R1_rotation _) (R2_rotation _) (R2_follows _ _)).mul
      ((R2_rotation _).mul (R1_rotation _)) (R1_rotation _) (R1_follows _ _)
  have BP := B.mul (biasOf_rotation _ _ _) (precessionOf_rotation _ _ _) P
  have BPN := BP.mul ((precessionOf_rotation _ _ _).mul (biasOf_rotation _ _ _))
    (nutationOf_rotation _ _ _) N
  exact BPN.mul ((nutationOf_rotation _ _ _).mul
    ((precessionOf_rotation _ _ _).mul (biasOf_rotation _ _ _))) (R3_rotation _) (R3_follows _ _)

/-! ### Angles between vectors -/

/-- `x` is `X` up to a relative error of `k u`. -/
def Rel (u k x X : ℝ) : Prop := |x - X| ≤ k * u * |X|

theorem Rel.abs_le {u k x X : ℝ} (h : Rel u k x X) : |x| ≤ (1 + k * u) * |X| := by
  have := abs_sub_abs_le_abs_sub x X
  unfold Rel at h
  linarith

theorem Rel.fl {M : Machine} {u k x X : ℝ} (hM : M.Accurate u) (hk : k ≤ 1000) (h : Rel u k x X) :
    Rel u (k + 1.1) (M.fl x) X := by
  have hu0 := hM.nonneg
  have hu1 := hM.small
  have h1 := hM.fl x
  have h2 := h.abs_le
  have h3 : k * u ≤ 0.1 := by
    calc k * u ≤ 1000 * (1 / 10 ^ 12) := by
          calc k * u ≤ 1000 * u := by gcongr
            _ ≤ _ := by gcongr
      _ ≤ 0.1 := by norm_num
  have h4 := abs_sub_le (M.fl x) x X
  have h5 : u * |x| ≤ u * (1.1 * |X|) := by
    have : (1 + k * u) * |X| ≤ 1.1 * |X| := by gcongr; linarith
    gcongr
    linarith
  unfold Rel at h ⊢
  calc |M.fl x - X| ≤ u * (1.1 * |X|) + k * u * |X| := by linarith
    _ = _ := by ring

theorem Rel.mul {u k l x X y Y : ℝ} (hu0 : 0 ≤ u) (hu1 : u ≤ 1 / 10 ^ 12) (hk0 : 0 ≤ k)
    (hk : k ≤ 1000) (hl0 : 0 ≤ l) (hl : l ≤ 1000) (hx : Rel u k x X) (hy : Rel u l y Y) :
    Rel u (k + l + 0.1) (x * y) (X * Y) := by
  unfold Rel at *
  have e : x * y - X * Y = (x - X) * (y - Y) + (x - X) * Y + X * (y - Y) := by ring
  have h1 : |(x - X) * (y - Y)| ≤ (k * u * |X|) * (l * u * |Y|) := by
    rw [abs_mul]
    exact mul_le_mul hx hy (abs_nonneg _) (by positivity)
  have h2 : |(x - X) * Y| ≤ k * u * |X| * |Y| := by
    rw [abs_mul]
    exact mul_le_mul_of_nonneg_right hx (abs_nonneg _)
  have h3 : |X * (y - Y)| ≤ |X| * (l * u * |Y|) := by
    rw [abs_mul]
    exact mul_le_mul_of_nonneg_left hy (abs_nonneg _)
  have h4 : k * l * u ≤ 0.1 := by
    calc k * l * u ≤ 1000 * 1000 * (1 / 10 ^ 12) := by gcongr
      _ ≤ 0.1 := by norm_num
  have h5 : (k * u * |X|) * (l * u * |Y|) ≤ 0.1 * u * (|X| * |Y|) := by
    calc (k * u * |X|) * (l * u * |Y|) = (k * l * u) * (u * (|X| * |Y|)) := by ring
      _ ≤ 0.1 * (u * (|X| * |Y|)) := by gcongr
      _ = _ := by ring
  have h6 := abs_add_three ((x - X) * (y - Y)) ((x - X) * Y) (X * (y - Y))
  rw [e, abs_mul X Y]
  calc |(x - X) * (y - Y) + (x - X) * Y + X * (y - Y)| ≤
        0.1 * u * (|X| * |Y|) + k * u * |X| * |Y| + |X| * (l * u * |Y|) := by linarith
    _ = _ := by ring

/-- Cauchy's inequality for the sizes of the products. -/
theorem products_le (a b : Vec) :
    |a 0 * b 0| + |a 1 * b 1| + |a 2 * b 2| ≤ vnorm a * vnorm b := by
  refine (abs_le_of_sq_le_sq' ?_ (mul_nonneg (vnorm_nonneg _) (vnorm_nonneg _))).2
  rw [mul_pow, vnorm_sq_coords, vnorm_sq_coords, abs_mul, abs_mul, abs_mul, ← sq_abs (a 0),
    ← sq_abs (a 1), ← sq_abs (a 2), ← sq_abs (b 0), ← sq_abs (b 1), ← sq_abs (b 2)]
  nlinarith [sq_nonneg (|a 0| * |b 1| - |a 1| * |b 0|), sq_nonneg (|a 0| * |b 2| - |a 2| * |b 0|),
    sq_nonneg (|a 1| * |b 2| - |a 2| * |b 1|)]

theorem vnorm_rel {M : Machine} {u : ℝ} (h : M.Accurate u) (a : Vec) :
    Rel u 3.2 (Rounded.vnorm M a) (vnorm a) := by
  have hu0 := h.nonneg
  have hu1 := h.small
  have ha := vnorm_nonneg a
  have h1 := h.dot a a
  have e : |a 0 * a 0| + |a 1 * a 1| + |a 2 * a 2| = vnorm a ^ 2 := by
    rw [vnorm_sq_coords, abs_mul_self, abs_mul_self, abs_mul_self]
    ring
  rw [e, ← vnorm_sq] at h1
  have h2 := abs_le.1 h1
  have hr : Rel u 2.1 (Real.sqrt (M.dot a a)) (vnorm a) := by
    unfold Rel
    rw [abs_of_nonneg ha, abs_le]
    constructor
    · have : vnorm a * (1 - 2.1 * u) ≤ Real.sqrt (M.dot a a) := by
        apply Real.le_sqrt_of_sq_le
        have t : (1 - 2.1 * u) ^ 2 ≤ 1 - 4 * u := by nlinarith
        calc (vnorm a * (1 - 2.1 * u)) ^ 2 = vnorm a ^ 2 * (1 - 2.1 * u) ^ 2 := by ring
          _ ≤ vnorm a ^ 2 * (1 - 4 * u) := by gcongr
          _ ≤ M.dot a a := by linarith
      linarith
    · have : Real.sqrt (M.dot a a) ≤ vnorm a * (1 + 2.1 * u) := by
        rw [Real.sqrt_le_left (by positivity)]
        have t : 1 + 4 * u ≤ (1 + 2.1 * u) ^ 2 := by nlinarith
        calc M.dot a a ≤ vnorm a ^ 2 * (1 + 4 * u) := by linarith
          _ ≤ vnorm a ^ 2 * (1 + 2.1 * u) ^ 2 := by gcongr
          _ = _ := by ring
      linarith
  have := hr.fl h (by norm_num)
  rwa [show (2.1 + 1.1 : ℝ) = 3.2 by norm_num] at this

/-- The computed product of the lengths. -/
theorem lengths_rel {M : Machine} {u : ℝ} (h : M.Accurate u) (a b : Vec) :
    Rel u 7.6 (M.fl (Rounded.vnorm M a * Rounded.vnorm M b)) (vnorm a * vnorm b) := by
  have := ((vnorm_rel h a).mul h.nonneg h.small (by norm_num) (by norm_num) (by norm_num)
    (by norm_num) (vnorm_rel h b)).fl h (by norm_num)
  rwa [show (3.2 + 3.2 + 0.1 + 1.1 : ℝ) = 7.6 by norm_num] at this

/-- The denominator of `_get_ang` is zero only for the zero vector. -/
theorem lengths_pos {M : Machine} {u : ℝ} (h : M.Accurate u) {a b : Vec} (ha : a ≠ 0)
    (hb : b ≠ 0) : 0.99 * (vnorm a * vnorm b) ≤ M.fl (Rounded.vnorm M a * Rounded.vnorm M b) := by
  have hu0 := h.nonneg
  have hu1 := h.small
  have hP : 0 < vnorm a * vnorm b := mul_pos (vnorm_pos ha) (vnorm_pos hb)
  have h1 := (abs_le.1 (lengths_rel h a b)).1
  rw [abs_of_pos hP] at h1
  have : 7.6 * u * (vnorm a * vnorm b) ≤ 0.01 * (vnorm a * vnorm b) := by
    gcongr
    linarith
  linarith

/-- The computed cosine of the angle between two vectors. -/
theorem cosine_close {M : Machine} {u : ℝ} (h : M.Accurate u) {a b : Vec} (ha : a ≠ 0)
    (hb : b ≠ 0) :
    |Rounded.cosine M a b - Real.cos (InnerProductGeometry.angle (toE a) (toE b))| ≤ 13 * u := by
  have hu0 := h.nonneg
  have hu1 := h.small
  set P := vnorm a * vnorm b with hPdef
  have hP : 0 < P := mul_pos (vnorm_pos ha) (vnorm_pos hb)
  set D := M.fl (Rounded.vnorm M a * Rounded.vnorm M b) with hD
  have hDP := lengths_pos h ha hb
  rw [← hPdef, ← hD] at hDP
  have hD0 : 0 < D := by linarith
  have hrel := lengths_rel h a b
  unfold Rel at hrel
  rw [← hPdef, ← hD, abs_of_pos hP] at hrel
  set c := Real.cos (InnerProductGeometry.angle (toE a) (toE b)) with hc
  have hcP : c * P = a ⬝ᵥ b := by
    have := InnerProductGeometry.cos_angle_mul_norm_mul_norm (toE a) (toE b)
    rwa [norm_toE, norm_toE, inner_toE] at this
  have hc1 : |c| ≤ 1 := Real.abs_cos_le_one _
  have hd : |M.dot a b - c * P| ≤ 4 * u * P := by
    rw [hcP]
    refine (h.dot a b).trans ?_
    have := products_le a b
    gcongr
  have hq : |M.dot a b / D - c| ≤ 11.8 * u := by
    have e : M.dot a b / D - c = (M.dot a b - c * P + c * (P - D)) / D := by
      field_simp
      ring
    rw [e, abs_div, abs_of_pos hD0, div_le_iff₀ hD0]
    have t1 := abs_add_le (M.dot a b - c * P) (c * (P - D))
    have t2 : |c * (P - D)| ≤ 7.6 * u * P := by
      rw [abs_mul, abs_sub_comm P D]
      calc |c| * |D - P| ≤ 1 * (7.6 * u * P) := mul_le_mul hc1 hrel (abs_nonneg _) (by norm_num)
        _ = _ := one_mul _
    have t3 : 11.8 * u * (0.99 * P) ≤ 11.8 * u * D := by gcongr
    have t4 : 0 ≤ u * P := by positivity
    nlinarith
  have hfl := h.fl (M.dot a b / D)
  have habs : |M.dot a b / D| ≤ 1.1 := by
    have := abs_sub_abs_le_abs_sub (M.dot a b / D) c
    linarith
  have h4 := abs_sub_le (M.fl (M.dot a b / D)) (M.dot a b / D) c
  have h5 : u * |M.dot a b / D| ≤ u * 1.1 := by gcongr
  change |M.fl (M.dot a b / D) - c| ≤ _
  linarith

/-- The factor from radians to degrees. -/
theorem degrees_close {M : Machine} {u : ℝ} (h : M.Accurate u) :
    |M.fl (180 / M.fl Real.pi) - 180 / Real.pi| ≤ 140 * u ∧ 180 / Real.pi ≤ 57.5 := by
  have hu0 := h.nonneg
  have hu1 := h.small
  have hp3 : 3.14 < Real.pi := Real.pi_gt_d2
  have hp4 : Real.pi < 3.15 := Real.pi_lt_d2
  have h57 : 180 / Real.pi ≤ 57.5 := by
    rw [div_le_iff₀ (by linarith)]
    linarith
  have h1 := h.fl Real.pi
  rw [abs_of_pos (by linarith : 0 < Real.pi)] at h1
  have h1' := abs_le.1 h1
  have hu3 : u * Real.pi ≤ 0.01 := by nlinarith
  have hx0 : 3.1 < M.fl Real.pi := by linarith
  have h2 : |180 / M.fl Real.pi - 180 / Real.pi| ≤ 60 * u := by
    have e : 180 / M.fl Real.pi - 180 / Real.pi =
        -(180 / Real.pi) * (M.fl Real.pi - Real.pi) / M.fl Real.pi := by
      field_simp
      ring
    rw [e, abs_div, abs_mul, abs_neg, abs_of_pos (by linarith : 0 < M.fl Real.pi),
      div_le_iff₀ (by linarith), abs_of_pos (by positivity : 0 < 180 / Real.pi)]
    calc 180 / Real.pi * |M.fl Real.pi - Real.pi| ≤ 180 / Real.pi * (u * Real.pi) := by gcongr
      _ = 180 * u := by field_simp
      _ ≤ 60 * u * 3.1 := by linarith
      _ ≤ 60 * u * M.fl Real.pi := by gcongr
  have h3 := h.fl (180 / M.fl Real.pi)
  have h4 : |180 / M.fl Real.pi| ≤ 60 := by
    have := abs_sub_abs_le_abs_sub (180 / M.fl Real.pi) (180 / Real.pi)
    rw [abs_of_pos (by positivity : 0 < 180 / Real.pi)] at this
    linarith
  have h5 := abs_sub_le (M.fl (180 / M.fl Real.pi)) (180 / M.fl Real.pi) (180 / Real.pi)
  have h6 : u * |180 / M.fl Real.pi| ≤ u * 60 := by gcongr
  exact ⟨by linarith, h57⟩

/-- The computed angle is the angle whose cosine is the computed quotient, in degrees. -/
theorem getAng_close {M : Machine} {u : ℝ} (h : M.Accurate u) {a b : Vec} {x : ℝ}
    (hx : Rounded.getAng M a b = some x) :
    |Rounded.cosine M a b| ≤ 1 ∧
    |x - Real.arccos (Rounded.cosine M a b) * (180 / Real.pi)| ≤ 890 * u ∧ |x| ≤ 181 := by
  have hu0 := h.nonneg
  have hu1 := h.small
  unfold Rounded.getAng at hx
  split_ifs at hx with h0 h1
  have hc : |Rounded.cosine M a b| ≤ 1 := not_lt.1 h1
  set q := Rounded.cosine M a b
  have hx' := (Option.some.inj hx).symm
  obtain ⟨hK, h57⟩ := degrees_close h
  set K := M.fl (180 / M.fl Real.pi)
  set κ := 180 / Real.pi with hκ
  have hκ0 : 0 < κ := by positivity
  have hA := h.arccos q hc
  set A := M.arccos q
  have ht0 := Real.arccos_nonneg q
  have htp := Real.arccos_le_pi q
  have hp4 : Real.pi < 3.15 := Real.pi_lt_d2
  set t := Real.arccos q
  have hA' : |A| ≤ 3.2 := by
    have := abs_sub_abs_le_abs_sub A t
    rw [abs_of_nonneg ht0] at this
    linarith
  have hK' : |K| ≤ 58 := by
    have := abs_sub_abs_le_abs_sub K κ
    rw [abs_of_pos hκ0] at this
    linarith
  have h2 : |A * K - t * κ| ≤ 3.2 * (140 * u) + 4 * u * 57.5 := by
    have e : A * K - t * κ = A * (K - κ) + (A - t) * κ := by ring
    rw [e]
    refine (abs_add_le _ _).trans (add_le_add ?_ ?_)
    · rw [abs_mul]
      exact mul_le_mul hA' hK (abs_nonneg _) (by norm_num)
    · rw [abs_mul, abs_of_pos hκ0]
      exact mul_le_mul hA h57 hκ0.le (by positivity)
  have h3 : |A * K| ≤ 3.2 * 58 := by
    rw [abs_mul]
    exact mul_le_mul hA' hK' (abs_nonneg _) (by norm_num)
  have h4 := h.fl (A * K)
  have h5 : u * |A * K| ≤ u * (3.2 * 58) := by gcongr
  have h6 := abs_sub_le (M.fl (A * K)) (A * K) (t * κ)
  have h7 : |x - t * κ| ≤ 890 * u := by
    rw [hx']
    linarith
  refine ⟨hc, h7, ?_⟩
  have h8 : t * κ ≤ 180 := by
    rw [hκ]
    calc t * (180 / Real.pi) ≤ Real.pi * (180 / Real.pi) := by gcongr
      _ = 180 := by field_simp
  have h9 := abs_sub_abs_le_abs_sub x (t * κ)
  rw [abs_of_nonneg (mul_nonneg ht0 hκ0.le)] at h9
  linarith

end Celest.Frames
