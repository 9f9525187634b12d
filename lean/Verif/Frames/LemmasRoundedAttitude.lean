/-
Lemmas for C126: cross products, unit vectors and the LVLH matrix in floating-point arithmetic.
-/
import Mathlib.Analysis.SpecialFunctions.Trigonometric.InverseDeriv
import Verif.Frames.PropsRotation
import Verif.Frames.PropsRoundedAngles
import Verif.Frames.LemmasRoundedStation
import Verif.Frames.LemmasRoundedTime
import Verif.Frames.RoundedAttitude

namespace Celest.Frames

open Matrix

variable {M : Machine} {u : ℝ}

/-! ### Vectors -/

theorem coord_le (v : Vec) (i : Fin 3) : |v i| ≤ vnorm v := by
  refine abs_le_of_sq_le_sq ?_ (vnorm_nonneg v)
  rw [vnorm_sq_coords]
  fin_cases i <;> simp only [Fin.zero_eta, Fin.mk_one, Fin.reduceFinMk] <;>
    nlinarith [sq_nonneg (v 0), sq_nonneg (v 1), sq_nonneg (v 2)]

theorem vnorm_le_of_coords {e : Vec} {k : ℝ} (h : ∀ i, |e i| ≤ k) : vnorm e ≤ 1.8 * k := by
  have hk : 0 ≤ k := (abs_nonneg _).trans (h 0)
  refine (abs_le_of_sq_le_sq' ?_ (by positivity)).2
  have t : ∀ i, e i ^ 2 ≤ k ^ 2 := fun i => by
    rw [← sq_abs]
    exact pow_le_pow_left₀ (abs_nonneg _) (h i) 2
  rw [vnorm_sq_coords]
  have := t 0
  have := t 1
  have := t 2
  nlinarith [sq_nonneg k]

theorem vnorm_le_of_rel {e v : Vec} {k : ℝ} (hk : 0 ≤ k) (h : ∀ i, |e i| ≤ k * |v i|) :
    vnorm e ≤ k * vnorm v := by
  refine (abs_le_of_sq_le_sq' ?_ (mul_nonneg hk (vnorm_nonneg v))).2
  have t : ∀ i, e i ^ 2 ≤ k ^ 2 * v i ^ 2 := fun i => by
    rw [← sq_abs, ← sq_abs (v i), ← mul_pow]
    exact pow_le_pow_left₀ (abs_nonneg _) (h i) 2
  rw [mul_pow, vnorm_sq_coords, vnorm_sq_coords]
  have := t 0
  have := t 1
  have := t 2
  linarith

theorem vnorm_neg (v : Vec) : vnorm (-v) = vnorm v := by
  rw [← norm_toE, ← norm_toE]
  exact norm_neg (toE v)

theorem vnorm_cross_le (a b : Vec) : vnorm (a ⨯₃ b) ≤ vnorm a * vnorm b := by
  refine (abs_le_of_sq_le_sq' ?_ (mul_nonneg (vnorm_nonneg _) (vnorm_nonneg _))).2
  rw [mul_pow, vnorm_sq, vnorm_sq, vnorm_sq, cross_dot_cross, dotProduct_comm b a]
  nlinarith [sq_nonneg (a ⬝ᵥ b)]

/-- A vector and its length are off by as much as another vector is. -/
theorem vnorm_near {a a' : Vec} {e : ℝ} (h : vnorm (a' - a) ≤ e * vnorm a) :
    |vnorm a' - vnorm a| ≤ e * vnorm a := by
  have h1 := vnorm_add (a' - a) a
  have h2 := vnorm_add (a - a') a'
  rw [sub_add_cancel] at h1 h2
  rw [vnorm_sub_comm] at h2
  rw [abs_le]
  constructor <;> linarith

/-- Rotations carry cross products to cross products. -/
theorem Rotation.cross {R : Mat} (hR : Rotation R) (a b : Vec) :
    R *ᵥ (a ⨯₃ b) = (R *ᵥ a) ⨯₃ (R *ᵥ b) := by
  have key : ∀ c : Vec, (R *ᵥ c) ⬝ᵥ ((R *ᵥ a) ⨯₃ (R *ᵥ b)) = (R *ᵥ c) ⬝ᵥ (R *ᵥ (a ⨯₃ b)) := by
    intro c
    rw [hR.dot, triple_product_eq_det, triple_product_eq_det]
    have e : Matrix.of ![R *ᵥ c, R *ᵥ a, R *ᵥ b] = Matrix.of ![c, a, b] * Rᵀ := by
      ext i j
      fin_cases i <;>
        simp [Matrix.mul_apply, Matrix.mulVec, dotProduct, Fin.sum_univ_three, mul_comm]
    change (Matrix.of ![R *ᵥ c, R *ᵥ a, R *ᵥ b]).det = (Matrix.of ![c, a, b]).det
    rw [e, Matrix.det_mul, Matrix.det_transpose, ((rotation_iff R).1 hR).2, mul_one]
  have h : ∀ w : Vec, w ⬝ᵥ ((R *ᵥ a) ⨯₃ (R *ᵥ b) - R *ᵥ (a ⨯₃ b)) = 0 := by
    intro w
    have := key (R⁻¹ *ᵥ w)
    rw [hR.mulVec_inv] at this
    rw [dotProduct_sub, this, sub_self]
  have := h ((R *ᵥ a) ⨯₃ (R *ᵥ b) - R *ᵥ (a ⨯₃ b))
  rw [← vnorm_mul_self, mul_self_eq_zero, vnorm_eq_zero] at this
  exact (sub_eq_zero.1 this).symm

/-- The LVLH frame turns with the state. -/
theorem lvlh_turned {R : Mat} (hR : Rotation R) (r v w : Vec) :
    Frames.lvlhMatrix (R *ᵥ r) (R *ᵥ v) *ᵥ (R *ᵥ w) = Frames.lvlhMatrix r v *ᵥ w := by
  unfold Frames.lvlhMatrix
  simp only [hR.vnorm, ← hR.cross, ← Matrix.mulVec_smul, ← Matrix.mulVec_neg]
  ext i
  fin_cases i
  · exact hR.dot _ _
  · exact hR.dot _ _
  · exact hR.dot _ _

/-! ### Cross products -/

theorem cross_coord {p q : ℝ} (h : M.Accurate u) :
    |M.fl (M.fl p - M.fl q) - (p - q)| ≤ 2.1 * u * (|p| + |q|) := by
  have hu0 := h.nonneg
  have hu1 := h.small
  have h1 := h.fl p
  have h2 := h.fl q
  have h3 := h.fl (M.fl p - M.fl q)
  have h4 : |M.fl p - M.fl q - (p - q)| ≤ u * (|p| + |q|) := by
    rw [show M.fl p - M.fl q - (p - q) = (M.fl p - p) - (M.fl q - q) by ring]
    have := abs_sub (M.fl p - p) (M.fl q - q)
    linarith
  have h5 : |M.fl p - M.fl q| ≤ (1 + u) * (|p| + |q|) := by
    have := abs_sub_abs_le_abs_sub (M.fl p - M.fl q) (p - q)
    have := abs_sub p q
    linarith
  have h6 : u * |M.fl p - M.fl q| ≤ u * ((1 + u) * (|p| + |q|)) := by gcongr
  have h7 : u * ((1 + u) * (|p| + |q|)) ≤ u * (1.1 * (|p| + |q|)) := by gcongr; linarith
  have h8 := abs_sub_le (M.fl (M.fl p - M.fl q)) (M.fl p - M.fl q) (p - q)
  linarith

theorem pair_le (a b : Vec) (i j : Fin 3) (hij : i ≠ j) :
    |a i * b j| + |a j * b i| ≤ vnorm a * vnorm b := by
  refine (abs_le_of_sq_le_sq' ?_ (mul_nonneg (vnorm_nonneg _) (vnorm_nonneg _))).2
  have e : (|a i * b j| + |a j * b i|) ^ 2 ≤ (a i ^ 2 + a j ^ 2) * (b i ^ 2 + b j ^ 2) := by
    rw [abs_mul, abs_mul, ← sq_abs (a i), ← sq_abs (a j), ← sq_abs (b i), ← sq_abs (b j)]
    nlinarith [sq_nonneg (|a i| * |b i| - |a j| * |b j|)]
  have t : ∀ w : Vec, w i ^ 2 + w j ^ 2 ≤ vnorm w ^ 2 := by
    intro w
    rw [vnorm_sq_coords]
    have h0 := sq_nonneg (w 0)
    have h1 := sq_nonneg (w 1)
    have h2 := sq_nonneg (w 2)
    fin_cases i <;> fin_cases j <;>
      simp only [Fin.zero_eta, Fin.mk_one, Fin.reduceFinMk, ne_eq, not_true_eq_false] at hij ⊢ <;>
      linarith
  rw [mul_pow]
  exact e.trans (mul_le_mul (t a) (t b) (by positivity) (by positivity))

theorem cross_round (h : M.Accurate u) (a b : Vec) :
    vnorm (Rounded.cross M a b - a ⨯₃ b) ≤ 3.8 * u * (vnorm a * vnorm b) := by
  have hu0 := h.nonneg
  have t : ∀ i, |(Rounded.cross M a b - a ⨯₃ b) i| ≤ 2.1 * u * (vnorm a * vnorm b) := by
    intro i
    rw [Pi.sub_apply, cross_apply]
    fin_cases i
    · refine (cross_coord h).trans ?_
      have := pair_le a b 1 2 (by decide)
      gcongr
    · refine (cross_coord h).trans ?_
      have := pair_le a b 2 0 (by decide)
      gcongr
    · refine (cross_coord h).trans ?_
      have := pair_le a b 0 1 (by decide)
      gcongr
  have := vnorm_le_of_coords t
  have : 0 ≤ u * (vnorm a * vnorm b) :=
    mul_nonneg hu0 (mul_nonneg (vnorm_nonneg _) (vnorm_nonneg _))
  linarith

theorem cross_close (h : M.Accurate u) {a b a' b' : Vec} {e f : ℝ} (he : e ≤ 1 / 1000)
    (hf : f ≤ 1 / 1000) (he0 : 0 ≤ e) (hf0 : 0 ≤ f) (ha : vnorm (a' - a) ≤ e * vnorm a)
    (hb : vnorm (b' - b) ≤ f * vnorm b) :
    vnorm (Rounded.cross M a' b' - a ⨯₃ b) ≤ (1.001 * (e + f) + 4 * u) * (vnorm a * vnorm b) := by
  have hu0 := h.nonneg
  have na := vnorm_nonneg a
  have nb := vnorm_nonneg b
  have h1 := cross_round h a' b'
  have ha' : vnorm a' ≤ 1.001 * vnorm a := by
    have := (abs_le.1 (vnorm_near ha)).2
    nlinarith
  have hb' : vnorm b' ≤ (1 + f) * vnorm b := by
    have := (abs_le.1 (vnorm_near hb)).2
    linarith
  have hb'' : vnorm b' ≤ 1.001 * vnorm b := by nlinarith
  have h2 : vnorm (a' ⨯₃ b' - a ⨯₃ b) ≤ (e * (1 + f) + f) * (vnorm a * vnorm b) := by
    have e1 : a' ⨯₃ b' - a ⨯₃ b = (a' - a) ⨯₃ b' + a ⨯₃ (b' - b) := by
      rw [map_sub, LinearMap.sub_apply, map_sub]
      abel
    rw [e1]
    have t1 := vnorm_add ((a' - a) ⨯₃ b') (a ⨯₃ (b' - b))
    have t2 := vnorm_cross_le (a' - a) b'
    have t3 := vnorm_cross_le a (b' - b)
    have t4 : vnorm (a' - a) * vnorm b' ≤ e * vnorm a * ((1 + f) * vnorm b) :=
      mul_le_mul ha hb' (vnorm_nonneg _) (by positivity)
    have t5 : vnorm a * vnorm (b' - b) ≤ vnorm a * (f * vnorm b) := by gcongr
    linarith
  have h3 : 3.8 * u * (vnorm a' * vnorm b') ≤ 3.8 * u * ((1.001 * vnorm a) * (1.001 * vnorm b)) := by
    have := vnorm_nonneg b'
    gcongr
  have h4 := vnorm_sub_le (Rounded.cross M a' b') (a' ⨯₃ b') (a ⨯₃ b)
  have h5 : (e * (1 + f) + f) ≤ 1.001 * (e + f) := by nlinarith
  have h6 : (e * (1 + f) + f) * (vnorm a * vnorm b) ≤ 1.001 * (e + f) * (vnorm a * vnorm b) := by
    gcongr
  have h7 : 0 ≤ u * (vnorm a * vnorm b) := by positivity
  linarith

/-! ### Unit vectors -/

theorem unit_round (h : M.Accurate u) {b : Vec} (hb : b ≠ 0) {N : ℝ}
    (hN : |N - vnorm b| ≤ 3.2 * u * vnorm b) :
    0 < N ∧ vnorm ((fun i => M.fl (b i / N)) - (vnorm b)⁻¹ • b) ≤ 5 * u := by
  have hu0 := h.nonneg
  have hu1 := h.small
  have hpos := vnorm_pos hb
  have hN' := abs_le.1 hN
  have hNlow : 0.999 * vnorm b ≤ N := by nlinarith
  have hN0 : 0 < N := by linarith
  refine ⟨hN0, ?_⟩
  have key : ∀ i, |((fun i => M.fl (b i / N)) - (vnorm b)⁻¹ • b) i| ≤
      5 * u * |((vnorm b)⁻¹ • b) i| := by
    intro i
    simp only [Pi.sub_apply, Pi.smul_apply, smul_eq_mul]
    have e1 : |b i / N - (vnorm b)⁻¹ * b i| ≤ 3.3 * u * |(vnorm b)⁻¹ * b i| := by
      have : b i / N - (vnorm b)⁻¹ * b i = (vnorm b)⁻¹ * b i * ((vnorm b - N) / N) := by
        field_simp
      rw [this, abs_mul, mul_comm]
      gcongr
      rw [abs_div, abs_of_pos hN0, div_le_iff₀ hN0, abs_sub_comm]
      have : 3.3 * u * (0.999 * vnorm b) ≤ 3.3 * u * N := by gcongr
      have : 0 ≤ u * vnorm b := by positivity
      linarith
    have e2 := h.fl (b i / N)
    have e3 : |b i / N| ≤ 1.1 * |(vnorm b)⁻¹ * b i| := by
      have := abs_sub_abs_le_abs_sub (b i / N) ((vnorm b)⁻¹ * b i)
      have h0 := abs_nonneg ((vnorm b)⁻¹ * b i)
      nlinarith
    have e4 : u * |b i / N| ≤ u * (1.1 * |(vnorm b)⁻¹ * b i|) := by gcongr
    have e5 := abs_sub_le (M.fl (b i / N)) (b i / N) ((vnorm b)⁻¹ * b i)
    have e6 : 0 ≤ u * |(vnorm b)⁻¹ * b i| := by positivity
    linarith
  have := vnorm_le_of_rel (by positivity) key
  rwa [vnorm_smul, abs_of_pos (inv_pos.2 hpos), inv_mul_cancel₀ hpos.ne', mul_one] at this

theorem unit_exact {a a' : Vec} (ha : a ≠ 0) {e : ℝ} (he : e ≤ 1 / 1000)
    (h : vnorm (a' - a) ≤ e * vnorm a) :
    a' ≠ 0 ∧ vnorm ((vnorm a')⁻¹ • a' - (vnorm a)⁻¹ • a) ≤ 2 * e := by
  have hpos := vnorm_pos ha
  have hn := abs_le.1 (vnorm_near h)
  have hpos' : 0 < vnorm a' := by nlinarith
  have ha' : a' ≠ 0 := by
    rintro rfl
    rw [(vnorm_eq_zero 0).2 rfl] at hpos'
    exact lt_irrefl _ hpos'
  refine ⟨ha', ?_⟩
  have e1 : (vnorm a')⁻¹ • a' - (vnorm a)⁻¹ • a =
      (vnorm a)⁻¹ • (a' - a) + ((vnorm a')⁻¹ - (vnorm a)⁻¹) • a' := by
    rw [smul_sub, sub_smul]
    abel
  rw [e1]
  refine (vnorm_add _ _).trans ?_
  rw [vnorm_smul, vnorm_smul, abs_of_pos (inv_pos.2 hpos)]
  have t1 : (vnorm a)⁻¹ * vnorm (a' - a) ≤ e := by
    rw [inv_mul_le_iff₀ hpos]
    linarith
  have t2 : |(vnorm a')⁻¹ - (vnorm a)⁻¹| * vnorm a' ≤ e := by
    have : (vnorm a')⁻¹ - (vnorm a)⁻¹ = (vnorm a - vnorm a') * ((vnorm a)⁻¹ * (vnorm a')⁻¹) := by
      field_simp
    rw [this, abs_mul, abs_of_pos (mul_pos (inv_pos.2 hpos) (inv_pos.2 hpos')), mul_assoc, mul_assoc,
      inv_mul_cancel₀ hpos'.ne', mul_one, mul_inv_le_iff₀ hpos, abs_sub_comm]
    exact vnorm_near h
  linarith

theorem normalize_close (h : M.Accurate u) {a a' : Vec} (ha : a ≠ 0) {e : ℝ} (he : e ≤ 1 / 1000)
    (hd : vnorm (a' - a) ≤ e * vnorm a) :
    0 < Rounded.vnorm M a' ∧
    vnorm (Rounded.normalize M a' - (vnorm a)⁻¹ • a) ≤ 2 * e + 5 * u ∧
    vnorm (Rounded.negNormalize M a' - -((vnorm a)⁻¹ • a)) ≤ 2 * e + 5 * u := by
  obtain ⟨ha', h1⟩ := unit_exact ha he hd
  have hrel := vnorm_rel h a'
  unfold Rel at hrel
  rw [abs_of_pos (vnorm_pos ha')] at hrel
  obtain ⟨hN, h2⟩ := unit_round h ha' hrel
  obtain ⟨-, h3⟩ := unit_round h (b := -a') (neg_ne_zero.2 ha') (by rw [vnorm_neg]; exact hrel)
  refine ⟨hN, ?_, ?_⟩
  · have := vnorm_sub_le (Rounded.normalize M a') ((vnorm a')⁻¹ • a') ((vnorm a)⁻¹ • a)
    have e : Rounded.normalize M a' = fun i => M.fl (a' i / Rounded.vnorm M a') := rfl
    rw [← e] at h2
    linarith
  · have := vnorm_sub_le (Rounded.negNormalize M a') (-((vnorm a')⁻¹ • a')) (-((vnorm a)⁻¹ • a))
    rw [vnorm_neg, smul_neg] at h3
    have e : Rounded.negNormalize M a' = fun i => M.fl ((-a') i / Rounded.vnorm M a') := rfl
    rw [← e] at h3
    have h4 : vnorm (-((vnorm a')⁻¹ • a') - -((vnorm a)⁻¹ • a)) =
        vnorm ((vnorm a')⁻¹ • a' - (vnorm a)⁻¹ • a) := by
      rw [← vnorm_neg]
      congr 1
      abel
    linarith

/-- The computed LVLH matrix. -/
theorem lvlhMatrix_close (h : M.Accurate u) {r v r' v' : Vec} (hr : r ≠ 0) (hv : v ≠ 0)
    (hh : vnorm r * vnorm v ≤ 2 * vnorm (r ⨯₃ v))
    (hr' : vnorm (r' - r) ≤ 4600 * u * vnorm r) (hv' : vnorm (v' - v) ≤ 4600 * u * vnorm v) :
    0 < Rounded.vnorm M r' ∧ 0 < Rounded.vnorm M (Rounded.cross M r' v') ∧
    ∀ i j, |Rounded.lvlhMatrix M r' v' i j - Frames.lvlhMatrix r v i j| ≤ 47000 * u := by
  have hu0 := h.nonneg
  have hu1 := h.small
  have he : 4600 * u ≤ 1 / 1000 := by linarith
  have pr := vnorm_pos hr
  have pv := vnorm_pos hv
  have hp : 0 < vnorm r * vnorm v := mul_pos pr pv
  have hw : 0 < vnorm (r ⨯₃ v) := by linarith
  have hw0 : r ⨯₃ v ≠ 0 := by
    intro h0
    rw [h0, (vnorm_eq_zero 0).2 rfl] at hw
    exact lt_irrefl _ hw
  obtain ⟨p1, -, z⟩ := normalize_close h hr he hr'
  have c := cross_close h he he (by positivity) (by positivity) hr' hv'
  have c' : vnorm (Rounded.cross M r' v' - r ⨯₃ v) ≤ 18430 * u * vnorm (r ⨯₃ v) := by
    refine c.trans ?_
    have t : (1.001 * (4600 * u + 4600 * u) + 4 * u) ≤ 9215 * u := by linarith
    calc _ ≤ 9215 * u * (vnorm r * vnorm v) := by gcongr
      _ ≤ 9215 * u * (2 * vnorm (r ⨯₃ v)) := by gcongr
      _ = _ := by ring
  obtain ⟨p2, -, y⟩ := normalize_close h hw0 (e := 18430 * u) (by linarith) c'
  refine ⟨p1, p2, ?_⟩
  have uz : vnorm (-((vnorm r)⁻¹ • r)) = 1 := by
    rw [vnorm_neg, vnorm_smul, abs_of_pos (inv_pos.2 pr), inv_mul_cancel₀ pr.ne']
  have uy : vnorm (-((vnorm (r ⨯₃ v))⁻¹ • (r ⨯₃ v))) = 1 := by
    rw [vnorm_neg, vnorm_smul, abs_of_pos (inv_pos.2 hw), inv_mul_cancel₀ hw.ne']
  have x := cross_close h (a := -((vnorm (r ⨯₃ v))⁻¹ • (r ⨯₃ v))) (b := -((vnorm r)⁻¹ • r))
    (a' := Rounded.negNormalize M (Rounded.cross M r' v')) (b' := Rounded.negNormalize M r')
    (e := 2 * (18430 * u) + 5 * u) (f := 2 * (4600 * u) + 5 * u) (by linarith) (by linarith)
    (by positivity) (by positivity) (by rw [uy, mul_one]; exact y) (by rw [uz, mul_one]; exact z)
  rw [uy, uz, mul_one, mul_one] at x
  intro i j
  fin_cases i
  · have := (coord_le _ j).trans x
    rw [Pi.sub_apply] at this
    refine this.trans ?_
    linarith
  · have := (coord_le _ j).trans y
    rw [Pi.sub_apply] at this
    refine this.trans ?_
    linarith
  · have := (coord_le _ j).trans z
    rw [Pi.sub_apply] at this
    refine this.trans ?_
    linarith

/-! ### From vectors to angles -/

/-- The same machine seen with coarser eyes; matrices are not inverted in what follows. -/
noncomputable def Machine.exactInv (M : Machine) : Machine := { M with inv := fun A => A⁻¹ }

theorem Machine.Accurate.coarsen (h : M.Accurate u) {k : ℝ} (hk : u ≤ k) (hs : k ≤ 1 / 10 ^ 12) :
    M.exactInv.Accurate k where
  nonneg := h.nonneg.trans hk
  small := hs
  fl x := (h.fl x).trans (by gcongr)
  sin x := (h.sin x).trans (by gcongr)
  cos x := (h.cos x).trans (by gcongr)
  arccos x hx := (h.arccos x hx).trans (by gcongr)
  dot a b := (h.dot a b).trans (by gcongr)
  inv A R hR hA i j := by
    have hu := isUnit_of_close (h.nonneg.trans hk) hs hR hA
    change |((A⁻¹ * A : Mat)) i j - (1 : Mat) i j| ≤ _
    rw [Matrix.nonsing_inv_mul _ hu, sub_self, abs_zero]
    have := h.nonneg.trans hk
    positivity

/-- The arcsine away from its ends. -/
theorem arcsin_close {x y δ : ℝ} (hx : x ^ 2 ≤ 0.96) (h : |y - x| ≤ δ) (hδ : δ ≤ 1 / 1000) :
    |y| ≤ 0.981 ∧ |Real.arcsin y - Real.arcsin x| ≤ 5.2 * δ := by
  have hx' : |x| ≤ 0.98 := by
    refine abs_le_of_sq_le_sq ?_ (by norm_num)
    linarith
  have hy : |y| ≤ 0.981 := by
    have := abs_sub_abs_le_abs_sub y x
    linarith
  refine ⟨hy, ?_⟩
  have hd : ∀ z ∈ Set.Icc (-0.981 : ℝ) 0.981, DifferentiableAt ℝ Real.arcsin z := by
    intro z hz
    exact Real.differentiableAt_arcsin.2 ⟨by linarith [hz.1], by linarith [hz.2]⟩
  have hb : ∀ z ∈ Set.Icc (-0.981 : ℝ) 0.981, ‖deriv Real.arcsin z‖ ≤ 5.2 := by
    intro z hz
    have hz2 : z ^ 2 ≤ 0.962361 := by nlinarith [hz.1, hz.2]
    have hs : 0.194 ≤ Real.sqrt (1 - z ^ 2) := by
      apply Real.le_sqrt_of_sq_le
      linarith
    rw [Real.deriv_arcsin, Real.norm_eq_abs, abs_of_pos (by positivity), div_le_iff₀ (by linarith)]
    linarith
  have := Convex.norm_image_sub_le_of_norm_deriv_le hd hb (convex_Icc _ _)
    (x := x) (y := y) ⟨by linarith [(abs_le.1 hx').1], by linarith [(abs_le.1 hx').2]⟩
    ⟨by linarith [(abs_le.1 hy).1], by linarith [(abs_le.1 hy).2]⟩
  rw [Real.norm_eq_abs, Real.norm_eq_abs] at this
  linarith

/-- `arctan2` in the right half plane. -/
theorem arctan2_close {x y x' y' δ : ℝ} (hx : 0.2 ≤ x) (h : |x' - x| + |y' - y| ≤ δ)
    (hδ : δ ≤ 0.04) : |TimeScale.arctan2 y' x' - TimeScale.arctan2 y x| ≤ 10 * δ := by
  set z : ℂ := ⟨x, y⟩ with hz
  set w : ℂ := ⟨x', y'⟩ with hw
  have hzre : 0.2 ≤ ‖z‖ := hx.trans ((le_abs_self _).trans (Complex.abs_re_le_norm z))
  have hz0 : z ≠ 0 := by
    intro h0
    rw [h0, norm_zero] at hzre
    norm_num at hzre
  have hδ0 : 0 ≤ δ := (by positivity : 0 ≤ |x' - x| + |y' - y|).trans h
  have hd : ‖w - z‖ ≤ 5 * δ * ‖z‖ := by
    have h1 := Complex.norm_le_abs_re_add_abs_im (w - z)
    have h2 : |(w - z).re| + |(w - z).im| = |x' - x| + |y' - y| := rfl
    have h3 : 5 * δ * 0.2 ≤ 5 * δ * ‖z‖ := by gcongr
    linarith
  obtain ⟨n, hn⟩ := arg_close hz0 (by linarith) hd
  have hpi := Real.pi_gt_three
  have a1 : |z.arg| < Real.pi / 2 := by
    rw [Complex.abs_arg_lt_pi_div_two_iff]
    left
    change 0 < x
    linarith
  have a2 : |w.arg| < Real.pi / 2 := by
    rw [Complex.abs_arg_lt_pi_div_two_iff]
    left
    change 0 < x'
    have := abs_nonneg (y' - y)
    have := (abs_le.1 (show |x' - x| ≤ δ by linarith)).1
    linarith
  have hn0 : n = 0 := by
    have h1 := abs_lt.1 a1
    have h2 := abs_lt.1 a2
    have h3 := abs_le.1 hn
    have h4 : (n : ℝ) * (2 * Real.pi) < 2 * Real.pi := by linarith
    have h5 : -(2 * Real.pi) < (n : ℝ) * (2 * Real.pi) := by linarith
    have h6 : (n : ℝ) < 1 := by nlinarith
    have h7 : (-1 : ℝ) < n := by nlinarith
    have h8 : n < 1 := by exact_mod_cast h6
    have h9 : -1 < n := by exact_mod_cast h7
    omega
  rw [hn0, Int.cast_zero, zero_mul, sub_zero] at hn
  change |w.arg - z.arg| ≤ _
  linarith

/-- The computed roll, pitch and yaw, from satellite and target in the LVLH frame. -/
theorem attitudeOf_close (h : M.Accurate u) {A : Trig} (hA : A.Accurate u) {arcsin : ℝ → ℝ}
    (has : ∀ x, |x| ≤ 1 → |arcsin x - Real.arcsin x| ≤ 4 * u) {rho : ℝ} (hrho : 0 < rho)
    {p q p' q' n : Vec} (hp : p = ![0, 0, -rho]) (hn : n = q - p) (hn0 : n ≠ 0)
    (hlos : 0.2 ≤ ((vnorm n)⁻¹ • n) 2) (hp' : vnorm (p' - p) ≤ 145800 * u * vnorm p)
    (hd : vnorm (q' - p' - n) ≤ 292000 * u * vnorm n) :
    ∃ a, Rounded.attitudeOf M A arcsin p' q' = some a ∧
      |a.1 - (Frames.attitudeOf p q).1| + |a.2.1 - (Frames.attitudeOf p q).2.1| +
        |a.2.2 - (Frames.attitudeOf p q).2.2| ≤ 141000000 * u := by
  have hu0 := h.nonneg
  have hu1 := h.small
  have hp0 : p ≠ 0 := by
    rw [hp]
    intro h0
    have := congrFun h0 2
    simp at this
    exact hrho.ne' this
  have hpn : vnorm p = rho := by
    rw [hp]
    unfold vnorm
    simp [dotProduct, Fin.sum_univ_three, Real.sqrt_mul_self hrho.le]
  have hs0 : -((vnorm p)⁻¹ • p) = ![0, 0, 1] := by
    rw [hpn, hp]
    ext i
    fin_cases i <;> simp [hrho.ne']
  -- directions
  obtain ⟨n1, -, s1⟩ := normalize_close h hp0 (e := 145800 * u) (by linarith) hp'
  rw [hs0] at s1
  set d : Vec := fun i => M.fl (q' i - p' i) with hdd
  have hd' : vnorm (d - n) ≤ 292002 * u * vnorm n := by
    have t1 : vnorm (d - (q' - p')) ≤ u * vnorm (q' - p') :=
      vnorm_le_of_rel hu0 fun i => h.fl (q' i - p' i)
    have t2 := (abs_le.1 (vnorm_near hd)).2
    have t3 := vnorm_sub_le d (q' - p') n
    have t4 := vnorm_nonneg n
    have t5 : vnorm (q' - p') ≤ 2 * vnorm n := by nlinarith
    have t6 : u * vnorm (q' - p') ≤ u * (2 * vnorm n) := by gcongr
    linarith
  obtain ⟨n2, g1, -⟩ := normalize_close h hn0 (e := 292002 * u) (by linarith) hd'
  set s := Rounded.negNormalize M p' with hs
  set g := Rounded.normalize M d with hg
  set los := (vnorm n)⁻¹ • n with hlosdef
  have hunit : los 0 ^ 2 + los 1 ^ 2 + los 2 ^ 2 = 1 := by
    have := vnorm_pos hn0
    rw [← vnorm_sq_coords, hlosdef, vnorm_smul, abs_of_pos (inv_pos.2 this),
      inv_mul_cancel₀ this.ne', one_pow]
  have e0 := sq_nonneg (los 0)
  have e1 := sq_nonneg (los 1)
  have e2 := sq_nonneg (los 2)
  have l0 : |los 0| ≤ 1 := abs_le_one_iff_mul_self_le_one.2 (by nlinarith)
  have l1 : |los 1| ≤ 1 := abs_le_one_iff_mul_self_le_one.2 (by nlinarith)
  have l2 : |los 2| ≤ 1 := abs_le_one_iff_mul_self_le_one.2 (by nlinarith)
  have l2' := (abs_le.1 l2).2
  have sc : ∀ i, |s i - (![0, 0, 1] : Vec) i| ≤ 291610 * u := fun i => by
    have := (coord_le _ i).trans s1
    rw [Pi.sub_apply] at this
    linarith
  have gc : ∀ i, |g i - los i| ≤ 584010 * u := fun i => by
    have := (coord_le _ i).trans g1
    rw [Pi.sub_apply] at this
    linarith
  have cs0 : Close u 291610 0 (s 0) 0 := ⟨sc 0, by simp⟩
  have cs1 : Close u 291610 0 (s 1) 0 := ⟨sc 1, by simp⟩
  have cs2 : Close u 291610 1 (s 2) 1 := ⟨sc 2, by simp⟩
  have cg0 : Close u 584010 1 (g 0) (los 0) := ⟨gc 0, l0⟩
  have cg1 : Close u 584010 1 (g 1) (los 1) := ⟨gc 1, l1⟩
  have cg2 : Close u 584010 1 (g 2) (los 2) := ⟨gc 2, l2⟩
  -- the cross product
  have small : ∀ {x y Y : ℝ}, Close u 291610 0 x 0 → Close u 584010 1 y Y →
      Close u 291612 0 (M.fl (x * y)) (0 * Y) := fun a b =>
    ((a.mul h b (by norm_num)).fl h).mono hu0 (by norm_num) (by norm_num)
  have large : ∀ {y Y : ℝ}, Close u 584010 1 y Y →
      Close u 875623 1 (M.fl (s 2 * y)) (1 * Y) := fun b =>
    ((cs2.mul h b (by norm_num)).fl h).mono hu0 (by norm_num) (by norm_num)
  have v0 : Close u 1167300 1 (Rounded.cross M s g 0) (-los 1) := by
    have := (((small cs1 cg2).sub (large cg1)).fl h).mono hu0 (l := 1167300) (C := 1)
      (by norm_num) (by norm_num)
    rwa [show 0 * los 2 - 1 * los 1 = -los 1 by ring] at this
  have v1 : Close u 1167300 1 (Rounded.cross M s g 1) (los 0) := by
    have := (((large cg0).sub (small cs0 cg2)).fl h).mono hu0 (l := 1167300) (C := 1)
      (by norm_num) (by norm_num)
    rwa [show 1 * los 0 - 0 * los 2 = los 0 by ring] at this
  have v2 : Close u 583230 0 (Rounded.cross M s g 2) 0 := by
    have := (((small cs0 cg1).sub (small cs1 cg0)).fl h).mono hu0 (l := 583230) (C := 0)
      (by norm_num) (by norm_num)
    rwa [show 0 * los 1 - 0 * los 0 = 0 by ring] at this
  set v := Rounded.cross M s g with hv
  -- the denominator
  have cdot : Close u 1458850 1 (M.dot s g) (los 2) := by
    have sum := ((cs0.mul h cg0 (by norm_num)).add (cs1.mul h cg1 (by norm_num))).add
      (cs2.mul h cg2 (by norm_num))
    have dot := h.dot s g
    have ns : vnorm s ≤ 1.01 := by
      have := vnorm_add (s - ![0, 0, 1]) ![0, 0, 1]
      rw [sub_add_cancel] at this
      have e : vnorm (![0, 0, 1] : Vec) = 1 := by
        unfold vnorm
        simp [dotProduct, Fin.sum_univ_three]
      linarith
    have ng : vnorm g ≤ 1.01 := by
      have := vnorm_add (g - los) los
      rw [sub_add_cancel] at this
      have e : vnorm los = 1 := by
        have := vnorm_pos hn0
        rw [hlosdef, vnorm_smul, abs_of_pos (inv_pos.2 this), inv_mul_cancel₀ this.ne']
      linarith
    have pr := products_le s g
    have pr' : vnorm s * vnorm g ≤ 1.01 * 1.01 :=
      mul_le_mul ns ng (vnorm_nonneg _) (by norm_num)
    have dot' : |M.dot s g - s ⬝ᵥ g| ≤ 5 * u := by
      refine dot.trans ?_
      have : 4 * u * (|s 0 * g 0| + |s 1 * g 1| + |s 2 * g 2|) ≤ 4 * u * (1.01 * 1.01) := by
        gcongr
        exact pr.trans pr'
      linarith
    have e : s ⬝ᵥ g = s 0 * g 0 + s 1 * g 1 + s 2 * g 2 := by
      simp [dotProduct, Fin.sum_univ_three]
    rw [e] at dot'
    refine ⟨?_, l2⟩
    have t := sum.err
    rw [show 0 * los 0 + 0 * los 1 + 1 * los 2 = los 2 by ring] at t
    have := abs_sub_le (M.dot s g) (s 0 * g 0 + s 1 * g 1 + s 2 * g 2) (los 2)
    linarith
  have c1 : Close u 1458860 2 (M.fl (1 + M.dot s g)) (1 + los 2) :=
    (((Close.exact (u := u) (show |(1 : ℝ)| ≤ 1 by norm_num)).add cdot).fl h).mono hu0
      (by norm_num) (by norm_num)
  have c1low : 1.19 ≤ M.fl (1 + M.dot s g) := by
    have := (abs_le.1 c1.err).1
    linarith
  have ic : Close u 1030200 0.84034 (1 / M.fl (1 + M.dot s g)) (1 / (1 + los 2)) :=
    (c1.inv (m := 1.19) (by norm_num) c1low (by linarith)).mono hu0 (by norm_num) (by norm_num)
  set c := M.fl (1 + M.dot s g) with hc
  have quot : ∀ {k B x X : ℝ}, Close u k B x X →
      Close u (k * (0.84034 + 1030200 / 10 ^ 12) + B * 1030200 + B * 0.84034 +
        (k * (0.84034 + 1030200 / 10 ^ 12) + B * 1030200) / 10 ^ 12) (B * 0.84034)
        (M.fl (x / c)) (X / (1 + los 2)) := fun a => by
    have t := (a.mul h ic (by norm_num)).fl h
    rwa [mul_one_div, mul_one_div] at t
  -- the entries of the matrix
  have prod0 : ∀ {x X : ℝ}, Close u 1167300 1 x X → Close u 583232 0 (M.fl (x * v 2)) (X * 0) :=
    fun a => ((a.mul h v2 (by norm_num)).fl h).mono hu0 (by norm_num) (by norm_num)
  have prod1 : ∀ {x y X Y : ℝ}, Close u 1167300 1 x X → Close u 1167300 1 y Y →
      Close u 2334605 1 (M.fl (x * y)) (X * Y) :=
    fun a b => ((a.mul h b (by norm_num)).fl h).mono hu0 (by norm_num) (by norm_num)
  have a32 : Close u 1657430 1 (M.fl (v 0 + M.fl (M.fl (v 1 * v 2) / c))) (-los 1) := by
    have t := ((v0.add (quot (prod0 v1))).fl h).mono hu0 (l := 1657430) (C := 1)
      (by norm_num) (by norm_num)
    rwa [mul_zero, zero_div, add_zero] at t
  have a31 : Close u 1657430 1 (M.fl (-v 1 + M.fl (M.fl (v 0 * v 2) / c))) (-los 0) := by
    have t := ((v1.neg.add (quot (prod0 v0))).fl h).mono hu0 (l := 1657430) (C := 1)
      (by norm_num) (by norm_num)
    rwa [mul_zero, zero_div, add_zero] at t
  have one : Close u 0 1 1 1 := Close.exact (by norm_num)
  have a33 : Close u 4954200 2 (M.fl (1 - M.fl (M.fl (M.fl (v 0 * v 0) + M.fl (v 1 * v 1)) / c)))
      (1 - (los 1 ^ 2 + los 0 ^ 2) / (1 + los 2)) := by
    have t := (((prod1 v0 v0).add (prod1 v1 v1)).fl h).mono hu0 (l := 4669300) (C := 2)
      (by norm_num) (by norm_num)
    have t' := t.resize (C := 1) (by
      rw [abs_of_nonneg (by nlinarith [mul_self_nonneg (los 0), mul_self_nonneg (los 1)])]
      nlinarith)
    have t'' := ((one.sub (quot t')).fl h).mono hu0 (l := 4954200) (C := 2)
      (by norm_num) (by norm_num)
    rwa [show -los 1 * -los 1 + los 0 * los 0 = los 1 ^ 2 + los 0 ^ 2 by ring] at t''
  have a12 : Close u 3575400 1 (M.fl (-v 2 + M.fl (M.fl (v 0 * v 1) / c)))
      (-(los 1) * los 0 / (1 + los 2)) := by
    have t := ((v2.neg.add (quot (prod1 v0 v1))).fl h).mono hu0 (l := 3575400) (C := 1)
      (by norm_num) (by norm_num)
    rwa [neg_zero, zero_add] at t
  have a22 : Close u 2992200 2 (M.fl (1 - M.fl (M.fl (M.fl (v 0 * v 0) + M.fl (v 2 * v 2)) / c)))
      (1 - los 1 ^ 2 / (1 + los 2)) := by
    have sq2 : Close u 2 0 (M.fl (v 2 * v 2)) (0 * 0) :=
      ((v2.mul h v2 (by norm_num)).fl h).mono hu0 (by norm_num) (by norm_num)
    have t := (((prod1 v0 v0).add sq2).fl h).mono hu0 (l := 2334610) (C := 1)
      (by norm_num) (by norm_num)
    have t'' := ((one.sub (quot t)).fl h).mono hu0 (l := 2992200) (C := 2)
      (by norm_num) (by norm_num)
    rwa [show -los 1 * -los 1 + 0 * 0 = los 1 ^ 2 by ring] at t''
  -- the angles
  have hroll : (-los 1) ^ 2 ≤ 0.96 := by nlinarith
  obtain ⟨b32, roll⟩ := arcsin_close hroll a32.err (by linarith)
  have low33 : 0.2 ≤ 1 - (los 1 ^ 2 + los 0 ^ 2) / (1 + los 2) := by
    have : 1 - (los 1 ^ 2 + los 0 ^ 2) / (1 + los 2) = los 2 := by
      have : (1 + los 2) ≠ 0 := by linarith
      field_simp
      linarith
    rw [this]
    exact hlos
  have low22 : 0.2 ≤ 1 - los 1 ^ 2 / (1 + los 2) := by
    have : los 1 ^ 2 / (1 + los 2) ≤ 1 - los 2 := by
      rw [div_le_iff₀ (by linarith)]
      nlinarith
    linarith
  have pitch := arctan2_close low33 (δ := 6611700 * u)
    (by have := a33.err; have := a31.err; linarith) (by linarith)
  have yaw := arctan2_close low22 (δ := 6567700 * u)
    (by have := a22.err; have := a12.err; linarith) (by linarith)
  have hatt := attitudeOf_eq rho hrho q los (by rw [hlosdef, hn, hp])
  rw [← hp] at hatt
  rw [hatt]
  refine ⟨_, if_neg ?_, ?_⟩
  · rintro (h0 | h0 | h0 | h0)
    · exact n1.ne' h0
    · exact n2.ne' h0
    · change c = 0 at h0
      linarith
    · change 1 < |M.fl (v 0 + M.fl (M.fl (v 1 * v 2) / c))| at h0
      linarith
  · have r1 := has _ (b32.trans (by norm_num))
    have r2 := hA.arctan2 (M.fl (-v 1 + M.fl (M.fl (v 0 * v 2) / c)))
      (M.fl (1 - M.fl (M.fl (M.fl (v 0 * v 0) + M.fl (v 1 * v 1)) / c)))
    have r3 := hA.arctan2 (M.fl (-v 2 + M.fl (M.fl (v 0 * v 1) / c)))
      (M.fl (1 - M.fl (M.fl (M.fl (v 0 * v 0) + M.fl (v 2 * v 2)) / c)))
    have f1 : |(-arcsin (M.fl (v 0 + M.fl (M.fl (v 1 * v 2) / c)))) - Real.arcsin (los 1)| ≤
        5.2 * (1657430 * u) + 4 * u := by
      have e : Real.arcsin (los 1) = -Real.arcsin (-los 1) := by rw [Real.arcsin_neg, neg_neg]
      rw [e, neg_sub_neg, abs_sub_comm]
      exact (abs_sub_le _ (Real.arcsin (M.fl (v 0 + M.fl (M.fl (v 1 * v 2) / c)))) _).trans
        (by linarith)
    have f2 := (abs_sub_le _ _ _).trans (add_le_add r2 pitch)
    have f3 := (abs_sub_le _ _ _).trans (add_le_add r3 yaw)
    refine (add_le_add (add_le_add f1 f2) f3).trans ?_
    linarith

end Celest.Frames
