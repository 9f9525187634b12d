/-
C138: attitudes that are not numbers.
-/
import Verif.Frames.Missing
import Verif.Frames.PropsRotation
import Verif.Frames.LemmasRoundedAttitude

namespace Celest.Frames

open Matrix Celest.TimeScale

/-! ### Specification -/

/-- The states for which the attitude is not defined: the satellite is at the centre of the Earth or
moves, in the frame of the stored velocities, straight up, straight down or not at all; or the
target is at the satellite or straight above it. -/
def NoAttitude (posUnit : ℝ) (position velocity : Vec) (g : Ground) : Prop :=
  position ⨯₃ velocity = 0 ∨ ∃ k : ℝ, 1 ≤ k ∧ g.itrs = k • (posUnit • position)

/-! ### Proofs -/

theorem lvlhMatrixNan_some (r v : Vec) (h : r ⨯₃ v ≠ 0) :
    lvlhMatrixNan r v = some (lvlhMatrix r v) := by
  have hr : r ≠ 0 := by
    rintro rfl
    exact h (by simp)
  unfold lvlhMatrixNan unitNan lvlhMatrix
  rw [if_neg (vnorm_pos hr).ne', if_neg (vnorm_pos h).ne']
  rfl

theorem lvlhMatrixNan_none (r v : Vec) (h : r ⨯₃ v = 0) : lvlhMatrixNan r v = none := by
  unfold lvlhMatrixNan
  have : unitNan (r ⨯₃ v) = none := by
    unfold unitNan
    rw [if_pos ((vnorm_eq_zero _).2 h)]
  rw [this]
  cases unitNan r <;> rfl

/-- When the denominator `1 + c` of `attitudeOfNan` vanishes, so do the numerators: numpy computes
`0 / 0`. -/
theorem divide_unknown (p g : Vec) (hp : p ⬝ᵥ p = 1) (hg : g ⬝ᵥ g = 1)
    (h : 1 + (-p) ⬝ᵥ g = 0) : (-p) ⨯₃ g = 0 := by
  have e : (p - g) ⬝ᵥ (p - g) = 0 := by
    rw [sub_dotProduct, dotProduct_sub, dotProduct_sub, hp, hg, dotProduct_comm g p]
    rw [neg_dotProduct] at h
    linarith
  have : p - g = 0 := by
    rw [← vnorm_eq_zero]
    have := vnorm_sq (p - g)
    rw [e] at this
    exact pow_eq_zero_iff (two_ne_zero) |>.1 this
  have : p = g := sub_eq_zero.1 this
  rw [this]
  simp

theorem attitudeOfNan_eq (rho : ℝ) (hrho : 0 < rho) (ground : Vec)
    (hn : ground - ![0, 0, -rho] ≠ 0)
    (g : Vec) (hg : g = (vnorm (ground - ![0, 0, -rho]))⁻¹ • (ground - ![0, 0, -rho])) :
    (g 2 = -1 → attitudeOfNan ![0, 0, -rho] ground = (none, none, none)) ∧
    (g 2 ≠ -1 → attitudeOfNan ![0, 0, -rho] ground =
      (some (Real.arcsin (g 1)), some (arctan2 (-g 0) (1 - (g 1 ^ 2 + g 0 ^ 2) / (1 + g 2))),
        some (arctan2 (-(g 1) * g 0 / (1 + g 2)) (1 - g 1 ^ 2 / (1 + g 2))))) := by
  have hv : vnorm (![0, 0, -rho] : Vec) = rho := by
    unfold vnorm
    simp [dotProduct, Fin.sum_univ_three, Real.sqrt_mul_self hrho.le]
  have hs : -((vnorm (![0, 0, -rho] : Vec))⁻¹ • (![0, 0, -rho] : Vec)) = ![0, 0, 1] := by
    rw [hv]
    ext i
    fin_cases i <;> simp [hrho.ne']
  have hunit : g ⬝ᵥ g = 1 := by
    have := los_unit _ hn
    rw [norm_toE, ← hg] at this
    exact this
  have h1 : |g 1| ≤ 1 := by
    simp only [dotProduct, Fin.sum_univ_three] at hunit
    rw [← sq_le_one_iff_abs_le_one]
    nlinarith [mul_self_nonneg (g 0), mul_self_nonneg (g 2)]
  have hu1 : unitNan (![0, 0, -rho] : Vec) =
      some ((vnorm (![0, 0, -rho] : Vec))⁻¹ • (![0, 0, -rho] : Vec)) := by
    unfold unitNan
    rw [if_neg (by rw [hv]; exact hrho.ne')]
  have hu2 : unitNan (ground - ![0, 0, -rho]) = some g := by
    unfold unitNan
    rw [if_neg (vnorm_pos hn).ne', ← hg]
  have hd : (![0, 0, 1] : Vec) ⬝ᵥ g = g 2 := by simp [dotProduct, Fin.sum_univ_three]
  constructor
  · intro h
    have : 1 + g 2 = 0 := by rw [h]; norm_num
    unfold attitudeOfNan
    simp only [hu1, hu2, hs, hd, divide, this, if_true, arctan2Nan]
    rfl
  · intro h
    have : 1 + g 2 ≠ 0 := fun h' => h (by linarith)
    unfold attitudeOfNan
    simp only [hu1, hu2, hs, hd, divide, this, if_false, arctan2Nan, arcsinNan]
    simp [cross_apply, arcsinNan, Real.arcsin_neg, h1]

/-- **C138.** At every instant and for every state and target, the three angles are numbers, those
of the model over the reals, unless the satellite moves along its own vertical or the target is at
the satellite or straight above it; in those cases all three are NaN. -/
theorem C138_attitude_numbers_partial (jd posUnit velUnit : ℝ) (position velocity : Vec) (g : Ground)
    (hp : 0 < posUnit) (hv : 0 < velUnit) :
    (NoAttitude posUnit position velocity g →
      attitudeNan jd posUnit velUnit position velocity g = (none, none, none)) ∧
    (¬ NoAttitude posUnit position velocity g →
      ∃ roll pitch yaw, attitude jd posUnit velUnit position velocity g = (roll, pitch, yaw) ∧
        attitudeNan jd posUnit velUnit position velocity g =
          (some roll, some pitch, some yaw)) := by
  obtain ⟨m, hm, -, h'⟩ := (C47_rotations jd).2.2.2.1
  have hinj : ∀ u w, itrsToGcrs1 jd u = itrsToGcrs1 jd w → u = w := by
    intro u w h
    have h0 : itrsToGcrs1 jd (u - (1 : ℝ) • w) = 0 := by
      rw [itrsToGcrs1_linear, h, one_smul, sub_self]
    rw [h', one_smul] at h0
    have : vnorm (u - w) = 0 := by rw [← hm.inv.vnorm, h0, (vnorm_eq_zero _).2 rfl]
    exact sub_eq_zero.1 ((vnorm_eq_zero _).1 this)
  have hcross : itrsToGcrs1 jd position ⨯₃ itrsToGcrs1 jd velocity = 0 ↔
      position ⨯₃ velocity = 0 := by
    rw [h', h', ← hm.inv.cross, ← vnorm_eq_zero, hm.inv.vnorm, vnorm_eq_zero]
  by_cases hstate : itrsToGcrs1 jd position ⨯₃ itrsToGcrs1 jd velocity = 0
  · refine ⟨fun _ => ?_, fun h => absurd (Or.inl (hcross.1 hstate)) h⟩
    unfold attitudeNan
    simp only [lvlhMatrixNan_none _ _ hstate]
  have hstate' : (posUnit • itrsToGcrs1 jd position) ⨯₃ (velUnit • itrsToGcrs1 jd velocity) ≠ 0 := by
    rw [map_smul, map_smul, LinearMap.smul_apply, smul_smul]
    exact smul_ne_zero (mul_pos hv hp).ne' hstate
  have hr : itrsToGcrs1 jd position ≠ 0 := by
    intro h
    rw [h] at hstate
    exact hstate (by simp)
  have hpos := (C48_lvlh_frame _ _ hstate).2.1
  have hR := (C48_lvlh_frame _ _ hstate).1
  rw [norm_toE] at hpos
  obtain ⟨rho, hrho⟩ : ∃ rho, rho = posUnit * vnorm (itrsToGcrs1 jd position) := ⟨_, rfl⟩
  have hrp : 0 < rho := by
    rw [hrho]
    exact mul_pos hp (vnorm_pos hr)
  obtain ⟨M, hM⟩ : ∃ M, M = lvlhMatrix (itrsToGcrs1 jd position) (itrsToGcrs1 jd velocity) :=
    ⟨_, rfl⟩
  have e1 : posUnit • (M *ᵥ itrsToGcrs1 jd position) = ![0, 0, -rho] := by
    unfold gcrsToLvlh1 at hpos
    simp only [← hM] at hpos
    rw [hpos, hrho]
    ext i
    fin_cases i <;> simp
  obtain ⟨n, hn⟩ : ∃ n, n = lineOfSight jd posUnit position velocity g := ⟨_, rfl⟩
  have e2 : M *ᵥ itrsToGcrs1 jd g.itrs - ![0, 0, -rho] = n := by
    rw [hn, ← e1]
    simp only [lineOfSight, ← hM]
    rw [itrsToGcrs1_linear, Matrix.mulVec_sub, Matrix.mulVec_smul]
  have e3 : attitudeNan jd posUnit velUnit position velocity g =
      attitudeOfNan ![0, 0, -rho] (M *ᵥ itrsToGcrs1 jd g.itrs) := by
    unfold attitudeNan
    simp only [lvlhMatrixNan_some _ _ hstate, lvlhMatrixNan_some _ _ hstate',
      C48_scale_invariant _ _ _ _ hp hv, ← hM, e1]
  -- the target relative to the satellite, back in the Earth-fixed frame
  have back : ∀ c : ℝ, n = c • ![0, 0, -rho] → g.itrs = (1 + c) • (posUnit • position) := by
    intro c hc
    rw [← e2, sub_eq_iff_eq_add, ← e1] at hc
    apply hinj
    have hR' : itrsToGcrs1 jd g.itrs = ((1 + c) * posUnit) • itrsToGcrs1 jd position := by
      rw [hM] at hc
      have h0 : vnorm (lvlhMatrix (itrsToGcrs1 jd position) (itrsToGcrs1 jd velocity) *ᵥ
          (itrsToGcrs1 jd g.itrs - ((1 + c) * posUnit) • itrsToGcrs1 jd position)) = 0 := by
        rw [vnorm_eq_zero, Matrix.mulVec_sub, Matrix.mulVec_smul, hc, smul_smul, ← add_smul]
        rw [sub_eq_zero]
        congr 1
        ring
      rw [hR.vnorm, vnorm_eq_zero, sub_eq_zero] at h0
      exact h0
    rw [hR', h', h', smul_smul, Matrix.mulVec_smul]
  have forth : ∀ k : ℝ, g.itrs = k • (posUnit • position) → n = (k - 1) • ![0, 0, -rho] := by
    intro k hk
    have : itrsToGcrs1 jd g.itrs = k • (posUnit • itrsToGcrs1 jd position) := by
      rw [hk, h', h', Matrix.mulVec_smul, Matrix.mulVec_smul]
    rw [← e2, this, Matrix.mulVec_smul, Matrix.mulVec_smul, e1, sub_smul, one_smul]
  by_cases hn0 : n = 0
  · have hg1 : g.itrs = (1 + 0 : ℝ) • (posUnit • position) := back 0 (by rw [hn0, zero_smul])
    refine ⟨fun _ => ?_, fun h => absurd (Or.inr ⟨1, le_rfl, by simpa using hg1⟩) h⟩
    rw [e3]
    unfold attitudeOfNan
    have : unitNan (M *ᵥ itrsToGcrs1 jd g.itrs - ![0, 0, -rho]) = none := by
      unfold unitNan
      rw [e2, hn0, if_pos ((vnorm_eq_zero _).2 rfl)]
    rw [this]
    cases unitNan (![0, 0, -rho] : Vec) <;> rfl
  have key := attitudeOfNan_eq rho hrp (M *ᵥ itrsToGcrs1 jd g.itrs) (by rw [e2]; exact hn0)
    ((vnorm n)⁻¹ • n) (by rw [e2])
  have hnp := vnorm_pos hn0
  have hup : ((vnorm n)⁻¹ • n) 2 = -1 ↔ ∃ k : ℝ, 1 ≤ k ∧ g.itrs = k • (posUnit • position) := by
    constructor
    · intro h
      have hu := los_unit n hn0
      rw [norm_toE] at hu
      simp only [dotProduct, Fin.sum_univ_three, h] at hu
      have h0 : ((vnorm n)⁻¹ • n) 0 = 0 := by
        nlinarith [mul_self_nonneg (((vnorm n)⁻¹ • n) 0), mul_self_nonneg (((vnorm n)⁻¹ • n) 1)]
      have h1 : ((vnorm n)⁻¹ • n) 1 = 0 := by
        nlinarith [mul_self_nonneg (((vnorm n)⁻¹ • n) 0), mul_self_nonneg (((vnorm n)⁻¹ • n) 1)]
      refine ⟨1 + vnorm n / rho, ?_, back _ ?_⟩
      · have : 0 < vnorm n / rho := by positivity
        linarith
      · have en : ∀ i, n i = vnorm n * ((vnorm n)⁻¹ • n) i := by
          intro i
          rw [Pi.smul_apply, smul_eq_mul, ← mul_assoc, mul_inv_cancel₀ hnp.ne', one_mul]
        ext i
        fin_cases i
        · show n 0 = _
          rw [en 0, h0]
          simp
        · show n 1 = _
          rw [en 1, h1]
          simp
        · show n 2 = _
          rw [en 2, h]
          simp
          field_simp
    · rintro ⟨k, hk, hg⟩
      have hnk := forth k hg
      have hk1 : k - 1 ≠ 0 := by
        intro h
        rw [h, zero_smul] at hnk
        exact hn0 hnk
      have hk2 : 0 < k - 1 := lt_of_le_of_ne (by linarith) (Ne.symm hk1)
      have hvn : vnorm n = (k - 1) * rho := by
        rw [hnk, vnorm_smul, abs_of_pos hk2]
        congr 1
        unfold vnorm
        simp [dotProduct, Fin.sum_univ_three, Real.sqrt_mul_self hrp.le]
      rw [hvn, hnk]
      simp only [Pi.smul_apply, smul_eq_mul]
      simp
      field_simp
  constructor
  · rintro (h | h)
    · exact absurd (hcross.2 h) hstate
    · rw [e3]
      exact key.1 (hup.2 h)
  · intro h
    have h2 : ((vnorm n)⁻¹ • n) 2 ≠ -1 := fun h2 => h (Or.inr (hup.1 h2))
    refine ⟨_, _, _, attitude_eq jd posUnit velUnit position velocity g hp hv hstate, ?_⟩
    rw [e3, key.2 h2, ← hn, norm_toE]

/-- **C138.** For every target closer to the centre of the Earth than the satellite, the attitude is
a number exactly if the satellite does not move along its vertical. -/
theorem C138_closer_targets_partial (jd posUnit velUnit : ℝ) (position velocity : Vec) (g : Ground)
    (hp : 0 < posUnit) (hv : 0 < velUnit) (hfar : ‖toE g.itrs‖ < ‖toE (posUnit • position)‖) :
    (∃ roll pitch yaw, attitudeNan jd posUnit velUnit position velocity g =
      (some roll, some pitch, some yaw)) ↔ position ⨯₃ velocity ≠ 0 := by
  obtain ⟨h1, h2⟩ := C138_attitude_numbers_partial jd posUnit velUnit position velocity g hp hv
  constructor
  · rintro ⟨a, b, c, h⟩ h0
    rw [h1 (Or.inl h0)] at h
    simp at h
  · intro h0
    have : ¬ NoAttitude posUnit position velocity g := by
      rintro (h | ⟨k, hk, hg⟩)
      · exact h0 h
      · rw [hg, norm_toE, norm_toE, vnorm_smul, abs_of_pos (by linarith)] at hfar
        have := vnorm_nonneg (posUnit • position)
        nlinarith
    obtain ⟨a, b, c, -, h⟩ := h2 this
    exact ⟨a, b, c, h⟩

/-- **C138.** A satellite that stands still over the rotating Earth, a geostationary one, has no
attitude at any instant and for any target. -/
theorem C138_geostationary (jd posUnit velUnit : ℝ) (position : Vec) (g : Ground)
    (hp : 0 < posUnit) (hv : 0 < velUnit) :
    attitudeNan jd posUnit velUnit position 0 g = (none, none, none) :=
  (C138_attitude_numbers_partial jd posUnit velUnit position 0 g hp hv).1 (Or.inl (by simp))

/-- A state with an attitude. -/
example (jd : ℝ) : ∃ roll pitch yaw, attitudeNan jd 1 1 ![7000, 0, 0] ![0, 7.5, 1] ⟨0, 0, 0⟩ =
    (some roll, some pitch, some yaw) := by
  rw [C138_closer_targets_partial jd 1 1 _ _ _ one_pos one_pos]
  · intro h
    have := congrFun h 2
    simp [cross_apply] at this
    norm_num at this
  · have e : (⟨0, 0, 0⟩ : Ground).itrs = ![axisA, 0, 0] := by
      simp [Ground.itrs, primeVertical]
    rw [e, norm_toE, norm_toE]
    have e1 : vnorm (![axisA, 0, 0] : Vec) = axisA := by
      unfold vnorm
      simp [dotProduct, Fin.sum_univ_three, Real.sqrt_mul_self (show 0 ≤ axisA by norm_num [axisA])]
    have e2 : vnorm ((1 : ℝ) • (![7000, 0, 0] : Vec)) = 7000 := by
      unfold vnorm
      simp [dotProduct, Fin.sum_univ_three]
    rw [e1, e2]
    norm_num [axisA]

end Celest.Frames
