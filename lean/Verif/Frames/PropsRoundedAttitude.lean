/-
C126: attitudes in floating-point arithmetic.
-/
import Verif.Frames.LemmasRoundedAttitude
import Verif.Frames.PropsAngles
import Verif.Frames.PropsRoundedTime
import Verif.Windows.PropsLook

namespace Celest.Frames

open Matrix Celest.TimeScale

variable {M : Machine} {pw : ℝ → ℕ → ℝ} {u jd : ℝ} {A : Trig} {arcsin : ℝ → ℝ} {s : Site}
  {r v : Vec}

/-! ### Specification -/

/-- The direction a camera looks along the nadir axis after turning by pitch, roll and yaw, in the
LVLH frame. -/
noncomputable def aimed (a : ℝ × ℝ × ℝ) : Vec := (R3 a.2.2 * (R1 a.1 * R2 a.2.1)) *ᵥ ![0, 0, 1]

/-! ### Proofs -/

/-- The exact attitude depends only on the Earth-fixed vectors. -/
theorem attitude_fixed (jd : ℝ) (r v : Vec) (g : Ground) :
    attitude jd 1 1 r v g =
      Frames.attitudeOf (Frames.lvlhMatrix r v *ᵥ r) (Frames.lvlhMatrix r v *ᵥ g.itrs) := by
  unfold attitude gcrsToLvlh1
  have hR := (exactAngles jd).rotation_rotation.inv
  simp only [one_smul, exact_inverse, lvlh_turned hR]

theorem lineOfSight_fixed (jd : ℝ) (r v : Vec) (g : Ground) :
    lineOfSight jd 1 r v g = Frames.lvlhMatrix r v *ᵥ (g.itrs - r) := by
  unfold lineOfSight
  have hR := (exactAngles jd).rotation_rotation.inv
  simp only [one_smul, exact_inverse, lvlh_turned hR]

/-- A state whose velocity is at least 30 degrees off the vertical has an angular momentum. -/
theorem momentum_pos (hr : r ≠ 0) (hv : v ≠ 0)
    (hh : vnorm r * vnorm v ≤ 2 * vnorm (r ⨯₃ v)) : r ⨯₃ v ≠ 0 := by
  intro h0
  have := mul_pos (vnorm_pos hr) (vnorm_pos hv)
  rw [h0, (vnorm_eq_zero 0).2 rfl] at hh
  linarith

theorem attitude_close (S : Setup M pw u) (hA : A.Accurate u)
    (has : ∀ x, |x| ≤ 1 → |arcsin x - Real.arcsin x| ≤ 4 * u) (hs : s.Valid) (hv : v ≠ 0)
    (hh : vnorm r * vnorm v ≤ 2 * vnorm (r ⨯₃ v)) (hfar : vnorm s.ground.itrs ≤ vnorm r)
    (hnear : vnorm (s.ground.itrs - r) ≤ vnorm r)
    (hn0 : s.ground.itrs ≠ r) (hsmall : u * vnorm r ≤ 1 / 10 ^ 12 * vnorm (s.ground.itrs - r))
    (hlos : 0.2 * vnorm (s.ground.itrs - r) ≤ lineOfSight jd 1 r v s.ground 2) :
    ∃ a, Rounded.attitude M pw A arcsin jd r v s = some a ∧
      let b := attitude jd 1 1 r v s.ground
      |a.1 - b.1| + |a.2.1 - b.2.1| + |a.2.2 - b.2.2| ≤
        141000000 * u * vnorm r / vnorm (s.ground.itrs - r) := by
  have hu0 := S.acc.nonneg
  have hu1 := S.acc.small
  have hg := station_far hs
  have hr : r ≠ 0 := by
    rintro rfl
    rw [(vnorm_eq_zero 0).2 rfl] at hfar
    linarith
  have hrp := vnorm_pos hr
  have hr6 : 6300 ≤ vnorm r := hg.trans hfar
  set G := s.ground.itrs with hG
  have hn : G - r ≠ 0 := sub_ne_zero.2 hn0
  have hnp := vnorm_pos hn
  set F := (Rounded.angles M pw jd).rotation⁻¹ with hF
  have hFR : Rotation F := (Rounded.angles M pw jd).rotation_rotation.inv
  have follow := itrsToGcrs1_follows S.acc (Rounded.angles M pw jd)
  rw [← hF] at follow
  set r' := Rounded.itrsToGcrs1 M (Rounded.angles M pw jd) r with hr'
  set v' := Rounded.itrsToGcrs1 M (Rounded.angles M pw jd) v with hv'
  set g' := Rounded.itrsToGcrs1 M (Rounded.angles M pw jd) (Rounded.itrs M pw s) with hg'
  have nz : ∀ {w : Vec}, w ≠ 0 → F *ᵥ w ≠ 0 := by
    intro w hw h0
    have := hFR.vnorm w
    rw [h0, (vnorm_eq_zero 0).2 rfl] at this
    exact (vnorm_pos hw).ne this
  obtain ⟨p1, p2, hL⟩ := lvlhMatrix_close S.acc (nz hr) (nz hv)
    (by rw [← hFR.cross, hFR.vnorm, hFR.vnorm, hFR.vnorm]; exact hh)
    (by rw [hFR.vnorm]; exact follow r) (by rw [hFR.vnorm]; exact follow v)
  rw [← hr'] at p1 hL p2
  rw [← hv'] at hL p2
  have hw0 : (F *ᵥ r) ⨯₃ (F *ᵥ v) ≠ 0 := by
    rw [← hFR.cross]
    exact nz (momentum_pos hr hv hh)
  have hLR := lvlh_rotation _ _ hw0
  set L := Frames.lvlhMatrix (F *ᵥ r) (F *ᵥ v) with hLdef
  have fol := apply_follows S.acc 47000 (by norm_num) (by norm_num) hLR hL
  have turn : ∀ w, L *ᵥ (F *ᵥ w) = Frames.lvlhMatrix r v *ᵥ w := fun w => lvlh_turned hFR r v w
  -- the satellite
  have hr1 : vnorm (r' - F *ᵥ r) ≤ 4600 * u * vnorm r := follow r
  have hr2 : vnorm r' ≤ 1.001 * vnorm r := by
    have := vnorm_follows hFR follow r
    rw [← hr'] at this
    nlinarith
  set p' := Rounded.apply M (Rounded.lvlhMatrix M r' v') r' with hp'
  set p := Frames.lvlhMatrix r v *ᵥ r with hp
  have hpp : vnorm (p' - p) ≤ 145800 * u * vnorm r := by
    have t1 := fol r'
    rw [← hp'] at t1
    have t2 := vnorm_sub_le p' (L *ᵥ r') p
    have t3 : vnorm (L *ᵥ r' - p) = vnorm (r' - F *ᵥ r) := by
      rw [hp, ← turn, ← Matrix.mulVec_sub, hLR.vnorm]
    have t4 : 3 * ((47000 + 5) * u) * vnorm r' ≤ 3 * ((47000 + 5) * u) * (1.001 * vnorm r) := by
      gcongr
    have t5 : 0 ≤ u * vnorm r := by positivity
    rw [t3] at t2
    linarith
  -- the target
  set q' := Rounded.apply M (Rounded.lvlhMatrix M r' v') g' with hq'
  set q := Frames.lvlhMatrix r v *ᵥ G with hq
  have hqq : vnorm (q' - q) ≤ 146150 * u * vnorm r := by
    have st := station_close S hs
    rw [← hG] at st
    have st' : 2000000 * u ≤ 318 * u * vnorm r := by nlinarith
    have n1 : vnorm (Rounded.itrs M pw s) ≤ 1.001 * vnorm r := by
      have := vnorm_add (Rounded.itrs M pw s - G) G
      rw [sub_add_cancel] at this
      nlinarith
    have g1 := follow (Rounded.itrs M pw s)
    rw [← hg'] at g1
    have g2 : vnorm (F *ᵥ Rounded.itrs M pw s - F *ᵥ G) = vnorm (Rounded.itrs M pw s - G) := by
      rw [← Matrix.mulVec_sub, hFR.vnorm]
    have g3 := vnorm_sub_le g' (F *ᵥ Rounded.itrs M pw s) (F *ᵥ G)
    have g4 : 4600 * u * vnorm (Rounded.itrs M pw s) ≤ 4600 * u * (1.001 * vnorm r) := by gcongr
    have t5 : 0 ≤ u * vnorm r := by positivity
    have g5 : vnorm (g' - F *ᵥ G) ≤ 4923 * u * vnorm r := by linarith
    have g6 : vnorm g' ≤ 1.001 * vnorm r := by
      have := vnorm_add (g' - F *ᵥ G) (F *ᵥ G)
      rw [sub_add_cancel, hFR.vnorm] at this
      nlinarith
    have t1 := fol g'
    rw [← hq'] at t1
    have t2 := vnorm_sub_le q' (L *ᵥ g') q
    have t3 : vnorm (L *ᵥ g' - q) = vnorm (g' - F *ᵥ G) := by
      rw [hq, ← turn, ← Matrix.mulVec_sub, hLR.vnorm]
    have t4 : 3 * ((47000 + 5) * u) * vnorm g' ≤ 3 * ((47000 + 5) * u) * (1.001 * vnorm r) := by
      gcongr
    rw [t3] at t2
    linarith
  -- together
  set k := u * vnorm r / vnorm (G - r) with hk
  have hku : u ≤ k := by
    rw [hk, le_div_iff₀ hnp]
    gcongr
  have hks : k ≤ 1 / 10 ^ 12 := by
    rw [hk, div_le_iff₀ hnp]
    exact hsmall
  have hkn : k * vnorm (G - r) = u * vnorm r := by
    rw [hk]
    field_simp
  have hmom := momentum_pos hr hv hh
  have hp0 : p = ![0, 0, -vnorm r] := by
    have := (C48_lvlh_frame r v hmom).2.1
    rw [norm_toE] at this
    exact this
  have hRot := lvlh_rotation r v hmom
  have hnqp : Frames.lvlhMatrix r v *ᵥ (G - r) = q - p := Matrix.mulVec_sub _ _ _
  have hnn : vnorm (Frames.lvlhMatrix r v *ᵥ (G - r)) = vnorm (G - r) := hRot.vnorm _
  obtain ⟨a, ha, hb⟩ := attitudeOf_close (S.acc.coarsen hku hks) (A := A)
    ⟨fun x hx => (hA.tan x hx).trans (by gcongr), fun y x => (hA.arctan2 y x).trans (by gcongr)⟩
    (fun x hx => (has x hx).trans (by gcongr)) hrp hp0 hnqp
    (by
      intro h0
      rw [h0, (vnorm_eq_zero 0).2 rfl] at hnn
      exact hnp.ne hnn)
    (by
      rw [Pi.smul_apply, smul_eq_mul, hnn, le_inv_mul_iff₀ hnp, mul_comm]
      rw [lineOfSight_fixed] at hlos
      exact hlos)
    (p' := p') (q' := q')
    (by
      refine hpp.trans ?_
      have : vnorm p = vnorm r := hRot.vnorm r
      rw [this]
      gcongr)
    (by
      rw [hnn, mul_assoc, hkn, hnqp]
      have t := vnorm_add (q' - q) (p - p')
      rw [vnorm_sub_comm p p'] at t
      have e : q' - p' - (q - p) = (q' - q) + (p - p') := by abel
      rw [e]
      have : 0 ≤ u * vnorm r := by positivity
      linarith)
  refine ⟨a, ?_, ?_⟩
  · unfold Rounded.attitude
    simp only
    rw [if_neg]
    · exact ha
    · rintro (h0 | h0)
      · exact p1.ne' h0
      · exact p2.ne' h0
  · intro b
    have e : b = Frames.attitudeOf p q := attitude_fixed jd r v s.ground
    rw [e]
    refine hb.trans (le_of_eq ?_)
    rw [hk]
    ring

/-- Turning by slightly different angles. -/
theorem aimed_close (a b : ℝ × ℝ × ℝ) :
    vnorm (aimed a - aimed b) ≤ |a.1 - b.1| + |a.2.1 - b.2.1| + |a.2.2 - b.2.2| := by
  have h1 := Follows.mul (R2_rotation a.2.1) (R1_rotation b.1) (R2_follows a.2.1 b.2.1)
    (R1_follows a.1 b.1)
  have h2 := Follows.mul ((R1_rotation a.1).mul (R2_rotation a.2.1)) (R3_rotation b.2.2) h1
    (R3_follows a.2.2 b.2.2)
  have := h2 ![0, 0, 1]
  have e : vnorm (![0, 0, 1] : Vec) = 1 := by
    unfold vnorm
    simp [dotProduct, Fin.sum_univ_three]
  rw [e, mul_one] at this
  unfold aimed
  linarith

/-- The cosine of 78 degrees. -/
theorem cos_78 {l : ℝ} (h0 : 0 ≤ l) (h : l ≤ 78) : 0.2 ≤ Real.cos (rad l) := by
  have hpi := Real.pi_gt_d2
  have hpi2 := Real.pi_lt_d2
  have h1 : rad l ≤ Real.pi / 2 - Real.pi / 15 := by
    unfold rad
    have : l * (Real.pi / 180) ≤ 78 * (Real.pi / 180) := by gcongr
    linarith
  have h2 : 0 ≤ rad l := by
    unfold rad
    positivity
  have h3 : Real.cos (Real.pi / 2 - Real.pi / 15) ≤ Real.cos (rad l) :=
    Real.cos_le_cos_of_nonneg_of_le_pi h2 (by linarith) h1
  rw [Real.cos_pi_div_two_sub] at h3
  have h4 : Real.pi / 15 - (Real.pi / 15) ^ 3 / 6 < Real.sin (Real.pi / 15) :=
    Real.sin_gt_sub_cube (by linarith)
  have h5 : (Real.pi / 15) ^ 3 ≤ 0.21 ^ 3 := by
    gcongr
    linarith
  have h6 : (0.209 : ℝ) ≤ Real.pi / 15 := by linarith
  norm_num at h5
  linarith

/-- **C126.** In double precision the attitude of a satellite for a target below it and less than
78 degrees off nadir is within `1.6e-8` times `|position| / distance` of the attitude without
rounding, all three angles (in radians) taken together, at every instant.  The velocity must be at
least 30 degrees off the vertical, and the target nearer than the centre of the Earth. -/
theorem C126_angles (S : Setup M pw (1 / 2 ^ 53)) (hA : A.Accurate (1 / 2 ^ 53))
    (has : ∀ x, |x| ≤ 1 → |arcsin x - Real.arcsin x| ≤ 4 * (1 / 2 ^ 53)) (hs : s.Valid)
    (hv : v ≠ 0) (hh : vnorm r * vnorm v ≤ 2 * vnorm (r ⨯₃ v))
    (hfar : vnorm s.ground.itrs < vnorm r)
    (hnear : distance r s.ground ≤ vnorm r) (hrange : vnorm r ≤ 9000 * distance r s.ground)
    {l : ℝ} (hl : lookAngle r s.ground = some l) (hl78 : l ≤ 78) :
    ∃ a, Rounded.attitude M pw A arcsin jd r v s = some a ∧
      let b := attitude jd 1 1 r v s.ground
      |a.1 - b.1| + |a.2.1 - b.2.1| + |a.2.2 - b.2.2| ≤
        1.6 / 10 ^ 8 * (vnorm r / distance r s.ground) := by
  unfold distance at *
  rw [vnorm_sub_comm] at hnear hrange ⊢
  have hr : r ≠ 0 := by
    rintro rfl
    rw [(vnorm_eq_zero 0).2 rfl] at hfar
    exact absurd hfar (not_lt.2 (vnorm_nonneg _))
  have hmom := momentum_pos hr hv hh
  have hne : s.ground.itrs ≠ r := by
    intro h0
    rw [h0] at hfar
    exact lt_irrefl _ hfar
  have hnp := vnorm_pos (sub_ne_zero.2 hne)
  have hstate : itrsToGcrs1 jd r ⨯₃ itrsToGcrs1 jd v ≠ 0 := by
    have hR := (exactAngles jd).rotation_rotation.inv
    rw [exact_inverse, exact_inverse, ← hR.cross]
    intro h0
    have := hR.vnorm (r ⨯₃ v)
    rw [h0, (vnorm_eq_zero 0).2 rfl] at this
    exact (vnorm_pos hmom).ne this
  have hfar' : ‖toE s.ground.itrs‖ < ‖toE ((1 : ℝ) • r)‖ := by
    rw [norm_toE, norm_toE, one_smul]
    exact hfar
  have c1 := (C49_points_at_target jd 1 1 r v s.ground one_pos one_pos hstate hfar').2
  obtain ⟨l', hl', c2⟩ := C49_off_nadir_angle jd 1 1 r v s.ground one_pos one_pos hstate hfar'
  rw [one_smul, hl, Option.some.injEq] at hl'
  rw [c2, ← hl', norm_toE] at c1
  have hn : vnorm (lineOfSight jd 1 r v s.ground) = vnorm (s.ground.itrs - r) := by
    rw [lineOfSight_fixed, (lvlh_rotation r v hmom).vnorm]
  have hcos := cos_78 (getAng_range hl).1 hl78
  rw [c1, hn, le_inv_mul_iff₀ hnp] at hcos
  obtain ⟨a, ha, hb⟩ := attitude_close (jd := jd) S hA has hs hv hh hfar.le hnear hne (by
      calc 1 / 2 ^ 53 * vnorm r ≤ 1 / 2 ^ 53 * (9000 * vnorm (s.ground.itrs - r)) := by gcongr
        _ = 9000 / 2 ^ 53 * vnorm (s.ground.itrs - r) := by ring
        _ ≤ 1 / 10 ^ 12 * vnorm (s.ground.itrs - r) :=
          mul_le_mul_of_nonneg_right (by norm_num) hnp.le) (by linarith)
  refine ⟨a, ha, hb.trans ?_⟩
  rw [mul_div_assoc]
  exact mul_le_mul_of_nonneg_right (by norm_num) (div_nonneg (vnorm_nonneg r) hnp.le)

/-- **C126.** In double precision the camera misses the target by less than `1.6e-8` of the
satellite's distance from the centre of the Earth: going the distance of the target along the
direction it is turned to ends that close to the target (eleven centimetres for a satellite 500 km
up). -/
theorem C126_aim (S : Setup M pw (1 / 2 ^ 53)) (hA : A.Accurate (1 / 2 ^ 53))
    (has : ∀ x, |x| ≤ 1 → |arcsin x - Real.arcsin x| ≤ 4 * (1 / 2 ^ 53)) (hs : s.Valid)
    (hv : v ≠ 0) (hh : vnorm r * vnorm v ≤ 2 * vnorm (r ⨯₃ v))
    (hfar : vnorm s.ground.itrs < vnorm r)
    (hnear : distance r s.ground ≤ vnorm r) (hrange : vnorm r ≤ 9000 * distance r s.ground)
    {l : ℝ} (hl : lookAngle r s.ground = some l) (hl78 : l ≤ 78) :
    ∃ a, Rounded.attitude M pw A arcsin jd r v s = some a ∧
      vnorm (distance r s.ground • aimed a - lineOfSight jd 1 r v s.ground) ≤
        1.6 / 10 ^ 8 * vnorm r := by
  obtain ⟨a, ha, hb⟩ := C126_angles (jd := jd) S hA has hs hv hh hfar hnear hrange hl hl78
  refine ⟨a, ha, ?_⟩
  have hr : r ≠ 0 := by
    rintro rfl
    rw [(vnorm_eq_zero 0).2 rfl] at hfar
    exact absurd hfar (not_lt.2 (vnorm_nonneg _))
  have hmom := momentum_pos hr hv hh
  have hne : r ≠ s.ground.itrs := by
    intro h0
    rw [h0] at hfar
    exact lt_irrefl _ hfar
  have hnp : 0 < distance r s.ground := vnorm_pos (sub_ne_zero.2 hne)
  have hstate : itrsToGcrs1 jd r ⨯₃ itrsToGcrs1 jd v ≠ 0 := by
    have hR := (exactAngles jd).rotation_rotation.inv
    rw [exact_inverse, exact_inverse, ← hR.cross]
    intro h0
    have := hR.vnorm (r ⨯₃ v)
    rw [h0, (vnorm_eq_zero 0).2 rfl] at this
    exact (vnorm_pos hmom).ne this
  have c1 := (C49_points_at_target jd 1 1 r v s.ground one_pos one_pos hstate (by
    rw [norm_toE, norm_toE, one_smul]
    exact hfar)).1
  have hn : ‖toE (lineOfSight jd 1 r v s.ground)‖ = distance r s.ground := by
    rw [norm_toE, lineOfSight_fixed, (lvlh_rotation r v hmom).vnorm, vnorm_sub_comm]
    rfl
  rw [hn] at c1
  have e : lineOfSight jd 1 r v s.ground =
      distance r s.ground • aimed (attitude jd 1 1 r v s.ground) := by
    unfold aimed
    rw [c1, smul_smul, mul_inv_cancel₀ hnp.ne', one_smul]
  rw [e, ← smul_sub, vnorm_smul, abs_of_pos hnp]
  calc _ ≤ distance r s.ground * (1.6 / 10 ^ 8 * (vnorm r / distance r s.ground)) := by
        gcongr
        exact (aimed_close _ _).trans hb
    _ = _ := by field_simp

/-- **C126.** Coordinates in the LVLH frame, computed with relative precision `u` from GCRS position
and velocity, are within `141015 u` times the length of the converted vector. -/
theorem C126_lvlh (h : M.Accurate u) (hr : r ≠ 0) (hv : v ≠ 0)
    (hh : vnorm r * vnorm v ≤ 2 * vnorm (r ⨯₃ v)) (w : Vec) :
    vnorm (Rounded.apply M (Rounded.lvlhMatrix M r v) w - lvlhMatrix r v *ᵥ w) ≤
      141015 * u * vnorm w := by
  have hu0 := h.nonneg
  have z : ∀ x : Vec, vnorm (x - x) ≤ 4600 * u * vnorm x := fun x => by
    rw [sub_self, (vnorm_eq_zero 0).2 rfl]
    have := vnorm_nonneg x
    positivity
  obtain ⟨-, -, hL⟩ := lvlhMatrix_close h hr hv hh (z r) (z v)
  have := apply_follows h 47000 (by norm_num) (by norm_num)
    (lvlh_rotation r v (momentum_pos hr hv hh)) hL w
  linarith

/-! ### A satellite seen on the horizon, flying north -/

open Celest.Windows in
theorem eastPoint_look : lookAngle eastPoint equator.ground = some 45 := by
  have hA := axisA_pos
  have h2 : 0 < Real.sqrt 2 := by positivity
  have h0 : ∀ w : Vec, 0 < vnorm w → w ≠ 0 := by
    rintro w hw rfl
    rw [(vnorm_eq_zero 0).2 rfl] at hw
    exact lt_irrefl _ hw
  have := eastPoint_offNadir 0
  rw [(offNadirAt_eq _ _ _).1, itrs_gcrs1] at this
  unfold lookAngle
  rw [getAng_eq _ _ (h0 _ (by rw [eastPoint_from, vnorm_east]; exact hA))
    (h0 _ (by rw [vnorm_eastPoint]; positivity)), this]

open Celest.Windows in
/-- Non-vacuity for C126: from 9020 km, flying north, at a target 45 degrees off nadir, the camera
is turned to within 15 centimetres of the target. -/
example : ∃ a, Rounded.attitude binary64 power64 trig64 (fun x => roundReal 53 (Real.arcsin x))
      2460311.25 eastPoint ![0, 0, 7.5] equator = some a ∧
    vnorm (distance eastPoint equator.ground • aimed a -
      lineOfSight 2460311.25 1 eastPoint ![0, 0, 7.5] equator.ground) ≤ 1.5 / 10 ^ 4 := by
  have hA := axisA_pos
  have hA' : axisA = 6378.137 := rfl
  have h1 : 1.4 ≤ Real.sqrt 2 := Real.le_sqrt_of_sq_le (by norm_num)
  have h2 : Real.sqrt 2 ≤ 1.42 := by
    rw [Real.sqrt_le_left (by norm_num)]
    norm_num
  have hd : distance eastPoint equator.ground = axisA := by
    unfold distance
    rw [eastPoint_from, vnorm_east]
  have hc : eastPoint ⨯₃ ![0, 0, 7.5] = (7.5 : ℝ) • ![axisA, -axisA, 0] := by
    simp only [eastPoint, cross_apply]
    ext i
    fin_cases i <;> simp <;> ring
  have hcn : vnorm ![axisA, -axisA, 0] = vnorm eastPoint := by
    rw [← Real.sqrt_sq (vnorm_nonneg _), ← Real.sqrt_sq (vnorm_nonneg eastPoint),
      vnorm_sq_coords, vnorm_sq_coords]
    simp [eastPoint]
  have hvn : vnorm ![0, 0, 7.5] = 7.5 := by
    rw [← Real.sqrt_sq (vnorm_nonneg _), vnorm_sq_coords]
    simp
    exact Real.sqrt_sq (by norm_num)
  obtain ⟨a, ha, hb⟩ := C126_aim (M := binary64) (pw := power64) (A := trig64)
    (arcsin := fun x => roundReal 53 (Real.arcsin x)) (jd := 2460311.25) (s := equator)
    (r := eastPoint) (v := ![0, 0, 7.5]) binary64_setup trig64_accurate
    (fun x _ => by
      have h1 := roundReal_error (p := 53) (Real.arcsin x)
      have h2 : |Real.arcsin x| ≤ 4 := by
        have := Real.neg_pi_div_two_le_arcsin x
        have := Real.arcsin_le_pi_div_two x
        have := Real.pi_le_four
        rw [abs_le]
        constructor <;> linarith
      refine h1.trans ?_
      norm_num at h2 ⊢
      linarith) equator_valid
    (by
      intro h0
      rw [h0, (vnorm_eq_zero 0).2 rfl] at hvn
      norm_num at hvn)
    (by
      rw [hc, vnorm_smul, hcn, hvn, abs_of_pos (by norm_num)]
      have := vnorm_nonneg eastPoint
      linarith)
    (by
      rw [equator_itrs, vnorm_axis, abs_of_pos hA, vnorm_eastPoint, hA']
      linarith)
    (by
      rw [hd, vnorm_eastPoint, hA']
      linarith)
    (by
      rw [hd, vnorm_eastPoint, hA']
      linarith) eastPoint_look (by norm_num)
  refine ⟨a, ha, hb.trans ?_⟩
  rw [vnorm_eastPoint, hA']
  linarith

end Celest.Frames
