/-
The scheduler in floating-point arithmetic: C100, C101.
-/
import Verif.Schedule.LemmasRounded
import Verif.Schedule.PropsSchedule

namespace Celest.Schedule.Rounded

variable {fl : ℚ → ℚ} {ε T : ℚ}

/-! ### specification -/

/-- A submission the theorems speak about: its deadline and the set times of its windows are
floats, its duration is not negative and its windows lie between the instants 0 and `T`. -/
structure Submittable (fl : ℚ → ℚ) (T : ℚ) (s : Submission) : Prop where
  duration : 0 ≤ s.duration
  deadline : IsFloat fl s.deadline
  windows : ∀ v ∈ s.vtws, 0 ≤ v.rise ∧ v.set ≤ T ∧ IsFloat fl v.set

/-- The image quality of instant `s` in the window `[a, b]`, before rounding down to a grade. -/
def exactGrade (a b s : ℚ) : ℚ := 10 - 9 * (|s - (a + b) / 2| / ((b - a) / 2))

/-- The observation starts when it should, but for `δ` days. -/
def StartUpTo (δ : ℚ) (look : Option LookAngle) (duration : ℚ) (v : VTW) (s : ℚ) : Prop :=
  match look with
  | none => |s - (v.rise + v.set + days duration) / 2| ≤ δ
  | some a => StartTime (some a) duration v s

theorem StartUpTo.mono {δ δ' : ℚ} (h : δ ≤ δ') {look : Option LookAngle} {duration : ℚ} {v : VTW}
    {s : ℚ} (hs : StartUpTo δ look duration v s) : StartUpTo δ' look duration v s := by
  cases look with
  | none => exact le_trans (show _ ≤ δ from hs) h
  | some a => exact hs

/-- Feasible up to rounding: the observation starts strictly after the rise; its end, computed
with unlimited precision, overshoots the set time and the deadline by less than `3 ε` of the
observation's own length; and, unless the window is shorter than `1000 ε T`, its exact image
quality falls short of the minimum by at most `140 ε T / (length of the window)`.  It starts at the
requested look angle if there is one, otherwise within `6 ε T` of half its length after the middle
of the window. -/
def FeasibleUpTo (ε T : ℚ) (windows : List VTW) (look : Option LookAngle)
    (deadline duration minGrade s : ℚ) : Prop :=
  ∃ v ∈ windows, v.rise < s ∧
    s + days duration < v.set + 3 * ε * days duration ∧
    s + days duration < deadline + 3 * ε * days duration ∧
    (1000 * ε * T ≤ v.set - v.rise →
      minGrade ≤ exactGrade v.rise v.set s + 140 * ε * T / (v.set - v.rise)) ∧
    StartUpTo (6 * ε * T) look duration v s

/-- The observation `o` serves the submission `s` up to rounding. -/
def ServesUpTo (ε T : ℚ) (s : Submission) (o : Observation) : Prop :=
  o.location = s.location ∧ o.duration = s.duration ∧
    FeasibleUpTo ε T s.vtws s.lookAngle s.deadline s.duration s.quality o.start

/-- The length, in days, for which two observations overlap (negative: the gap between them). -/
def overlapLength (s₁ d₁ s₂ d₂ : ℚ) : ℚ := min (s₁ + d₁) (s₂ + d₂) - max s₁ s₂

/-- Two scheduled rows overlap for more than `δ` days. -/
def RowsOverlapBy (δ : ℚ) (r r' : Request) : Prop :=
  ∃ s d s' d', r.isScheduled = true ∧ r'.isScheduled = true ∧
    r.start = some s ∧ r.schedDuration = some d ∧ r'.start = some s' ∧ r'.schedDuration = some d' ∧
    δ < overlapLength s (days d) s' (days d')

/-! ### the image quality with rounding -/

/-- One more rounding on top of an error `η`. -/
theorem Rounding.step (hfl : Rounding fl ε) {x y η : ℚ} (h : |y - x| ≤ η) :
    |fl y - x| ≤ η + ε * (|x| + η) := by
  have h1 := hfl.error y
  have h2 : |y| ≤ |x| + η := by
    have := abs_sub_abs_le_abs_sub y x
    linarith
  have h3 := abs_sub_le (fl y) y x
  have h4 := mul_le_mul_of_nonneg_left h2 hfl.nonneg
  linarith

theorem quotient_bound {A H h x δ : ℚ} (hh : 0 < h) (hA0 : 0 ≤ A) (hx0 : 0 ≤ x) (hx1 : x ≤ 1)
    (hδ0 : 0 ≤ δ) (hδ : δ ≤ 1 / 500) (hA : h * (x - 13 / 5 * δ) ≤ A)
    (hA' : A ≤ h * (x + 13 / 5 * δ)) (hH : h * (1 - 13 / 5 * δ) ≤ H)
    (hH' : H ≤ h * (1 + 13 / 5 * δ)) :
    x - 6 * δ ≤ A / H ∧ A / H ≤ 51 / 50 ∧ 0 < H := by
  have hHpos : 0 < H := by
    have : 0 < h * (1 - 13 / 5 * δ) := mul_pos hh (by linarith)
    linarith
  refine ⟨?_, ?_, hHpos⟩
  · rw [le_div_iff₀ hHpos]
    rcases le_or_gt (x - 6 * δ) 0 with hc | hc
    · exact (mul_nonpos_of_nonpos_of_nonneg hc hHpos.le).trans hA0
    · refine (mul_le_mul_of_nonneg_left hH' hc.le).trans (le_trans ?_ hA)
      have : (x - 6 * δ) * (1 + 13 / 5 * δ) ≤ x - 13 / 5 * δ := by nlinarith
      calc (x - 6 * δ) * (h * (1 + 13 / 5 * δ)) = h * ((x - 6 * δ) * (1 + 13 / 5 * δ)) := by ring
        _ ≤ _ := mul_le_mul_of_nonneg_left this hh.le
  · rw [div_le_iff₀ hHpos]
    refine hA'.trans (le_trans ?_ (mul_le_mul_of_nonneg_left hH (by norm_num)))
    have : x + 13 / 5 * δ ≤ 51 / 50 * (1 - 13 / 5 * δ) := by linarith
    calc h * (x + 13 / 5 * δ) ≤ h * (51 / 50 * (1 - 13 / 5 * δ)) :=
          mul_le_mul_of_nonneg_left this hh.le
      _ = _ := by ring

/-- The computed quality is at most the exact one plus `140 ε T / (window length)`. -/
theorem imageQuality_error (hfl : Rounding fl ε) {v : VTW} {s : ℚ} {q : ℤ} (h0 : 0 ≤ v.rise)
    (h1 : v.rise < s) (h2 : s ≤ v.set) (hT : v.set ≤ T)
    (hw : 1000 * ε * T ≤ v.set - v.rise) (hq : imageQuality fl v s = .ok q) :
    (q : ℚ) ≤ exactGrade v.rise v.set s + 140 * ε * T / (v.set - v.rise) := by
  have hε := hfl.nonneg
  have hs := hfl.small
  unfold imageQuality at hq
  simp only at hq
  split at hq
  · cases hq
  simp only [Except.ok.injEq] at hq
  obtain ⟨a, ha⟩ : ∃ a, a = v.rise := ⟨_, rfl⟩
  obtain ⟨b, hb⟩ : ∃ b, b = v.set := ⟨_, rfl⟩
  rw [← ha] at h0 h1 hw hq ⊢
  rw [← hb] at h2 hT hw hq ⊢
  clear ha hb
  have hab : a < b := h1.trans_le h2
  have hT0 : 0 < T := by linarith
  obtain ⟨m, hm⟩ : ∃ m, m = (a + b) / 2 := ⟨_, rfl⟩
  obtain ⟨w, hw'⟩ : ∃ w, w = (b - a) / 2 := ⟨_, rfl⟩
  have hwp : 0 < w := by linarith
  have hmp : 0 ≤ m := by linarith
  have hmT : m ≤ T := by linarith
  have hwT : 2 * w ≤ T := by linarith
  have hεT0 : 0 ≤ ε * T := mul_nonneg hε hT0.le
  have hεT : 500 * (ε * T) ≤ w := by linarith
  have hεw : ε * (2 * w) ≤ ε * T := mul_le_mul_of_nonneg_left hwT hε
  have hεm : ε * m ≤ ε * T := mul_le_mul_of_nonneg_left hmT hε
  have hεε : ε * (ε * T) ≤ 1 / 1000 * (ε * T) := mul_le_mul_of_nonneg_right hs hεT0
  -- the midpoint
  have hN : |fl (fl (a + b) / 2) - m| ≤ 2001 / 1000 * (ε * T) := by
    have e1 : |fl (a + b) / 2 - m| ≤ ε * m := by
      have := hfl.error (a + b)
      have e : fl (a + b) / 2 - m = (fl (a + b) - (a + b)) / 2 := by rw [hm]; ring
      rw [e, abs_div, abs_of_pos (by norm_num : (0 : ℚ) < 2)]
      rw [abs_of_nonneg (by linarith : (0 : ℚ) ≤ a + b)] at this
      rw [hm]; linarith
    have e2 := Rounding.step hfl e1
    rw [abs_of_nonneg hmp] at e2
    have e3 : ε * (ε * m) ≤ ε * (ε * T) := mul_le_mul_of_nonneg_left hεm hε
    linarith
  obtain ⟨N, hNd⟩ : ∃ N, N = fl (fl (a + b) / 2) := ⟨_, rfl⟩
  rw [← hNd] at hN hq
  -- the distance from the midpoint
  have haw : |s - m| ≤ w := by rw [abs_le]; constructor <;> linarith
  have hA : |fl (s - N) - (s - m)| ≤ 13 / 5 * (ε * T) := by
    have e1 : |s - N - (s - m)| ≤ 2001 / 1000 * (ε * T) := by
      have : s - N - (s - m) = -(N - m) := by ring
      rw [this, abs_neg]; exact hN
    have e2 := Rounding.step hfl e1
    have e3 : ε * |s - m| ≤ ε * w := mul_le_mul_of_nonneg_left haw hε
    linarith
  have hH : |fl (N - a) - w| ≤ 13 / 5 * (ε * T) := by
    have e1 : |N - a - w| ≤ 2001 / 1000 * (ε * T) := by
      have : N - a - w = N - m := by rw [hm, hw']; ring
      rw [this]; exact hN
    have e2 := Rounding.step hfl e1
    rw [abs_of_pos hwp] at e2
    linarith
  obtain ⟨A, hAd⟩ : ∃ A, A = |fl (s - N)| := ⟨_, rfl⟩
  obtain ⟨H, hHd⟩ : ∃ H, H = fl (N - a) := ⟨_, rfl⟩
  rw [← hAd, ← hHd] at hq
  rw [← hHd] at hH
  have hA' : abs (A - |s - m|) ≤ 13 / 5 * (ε * T) := by
    rw [hAd]; exact (abs_abs_sub_abs_le _ _).trans hA
  obtain ⟨δ, hδd⟩ : ∃ δ, δ = ε * T / w := ⟨_, rfl⟩
  obtain ⟨x, hxd⟩ : ∃ x, x = |s - m| / w := ⟨_, rfl⟩
  have hδw : w * δ = ε * T := by rw [hδd]; field_simp
  have hxw : w * x = |s - m| := by rw [hxd]; field_simp
  have hδ0 : 0 ≤ δ := by rw [hδd]; positivity
  have hδ1 : δ ≤ 1 / 500 := by rw [hδd, div_le_iff₀ hwp]; linarith
  have hx0 : 0 ≤ x := by rw [hxd]; positivity
  have hx1 : x ≤ 1 := by rw [hxd, div_le_one hwp]; exact haw
  have hεδ : ε ≤ δ / 2 := by
    rw [hδd, div_div, le_div_iff₀ (by linarith)]
    linarith
  rw [abs_le] at hA' hH
  obtain ⟨q1, q2, hHp⟩ := quotient_bound (A := A) (H := H) (h := w) (x := x) (δ := δ) hwp
    (by rw [hAd]; exact abs_nonneg _) hx0 hx1 hδ0 hδ1 (by linarith [hA'.1]) (by linarith [hA'.2])
    (by linarith [hH.1]) (by linarith [hH.2])
  have hA0 : 0 ≤ A := by rw [hAd]; exact abs_nonneg _
  -- the quotient
  obtain ⟨Q₁, hQ1d⟩ : ∃ Q, Q = fl (9 * A) := ⟨_, rfl⟩
  obtain ⟨Q, hQd⟩ : ∃ Q, Q = fl (Q₁ / H) := ⟨_, rfl⟩
  rw [← hQ1d, ← hQd] at hq
  have hQ1 : |Q₁ - 9 * A| ≤ ε * (9 * A) := by
    have := hfl.error (9 * A)
    rwa [abs_of_nonneg (by linarith : (0 : ℚ) ≤ 9 * A), ← hQ1d] at this
  have hR : |Q₁ / H - 9 * (A / H)| ≤ ε * (9 * (A / H)) := by
    have e : Q₁ / H - 9 * (A / H) = (Q₁ - 9 * A) / H := by ring
    rw [e, abs_div, abs_of_pos hHp, div_le_iff₀ hHp]
    have : ε * (9 * (A / H)) * H = ε * (9 * A) := by field_simp
    rw [this]; exact hQ1
  have hAH : 0 ≤ A / H := div_nonneg hA0 hHp.le
  have hQ := Rounding.step hfl hR
  rw [← hQd, abs_of_nonneg (by linarith : (0 : ℚ) ≤ 9 * (A / H))] at hQ
  have hεAH : ε * (A / H) ≤ ε * (51 / 50) := mul_le_mul_of_nonneg_left q2 hε
  have hεεAH : ε * (ε * (A / H)) ≤ 1 / 1000 * (ε * (A / H)) :=
    mul_le_mul_of_nonneg_right hs (mul_nonneg hε hAH)
  rw [abs_le] at hQ
  have hQlo : 9 * x - 54 * δ - 19 * ε ≤ Q := by linarith [hQ.1]
  have hQhi : Q ≤ 20 := by linarith [hQ.2]
  have hQ0 : 0 ≤ Q := by
    rw [hQd, hQ1d]
    exact hfl.fl_nonneg (div_nonneg (hfl.fl_nonneg (by linarith)) hHp.le)
  have hG : fl (10 - Q) ≤ 10 - Q + ε * 10 := by
    have := hfl.fl_le (x := 10 - Q)
    have h10 : |10 - Q| ≤ 10 := by rw [abs_le]; constructor <;> linarith
    have := mul_le_mul_of_nonneg_left h10 hε
    linarith
  have hfloor : (q : ℚ) ≤ fl (10 - Q) := by rw [← hq]; exact Int.floor_le _
  have hfinal : (q : ℚ) ≤ 10 - 9 * x + 70 * δ := by linarith
  have e1 : exactGrade a b s = 10 - 9 * x := by
    unfold exactGrade; rw [hxd, hm, hw']
  have e2 : 140 * ε * T / (b - a) = 70 * δ := by
    rw [hδd, hw', div_div_eq_mul_div]
    ring
  rw [e1, e2]; exact hfinal

/-! ### C100 -/

/-- **C100.** Without rounding, the floating-point scheduler is the exact one: all theorems about
`generate` speak about this program with `fl` the identity. -/
theorem C100_exact_arithmetic (h : Handler) (a : GenerateArgs) (history : List Op) :
    generate (fun x => x) h a = Schedule.generate h a ∧
      run (fun x => x) history = Schedule.run history :=
  ⟨by rw [generate_id], by rw [run_id]⟩

theorem Submittable.row {s : Submission} (h : Submittable fl T s) : RowOk fl T s.row :=
  ⟨h.duration, h.deadline, h.windows⟩

theorem startUpTo_of (hfl : Rounding fl ε) {r : Request} (hd : 0 ≤ r.duration) {v : VTW} {s : ℚ}
    (w0 : 0 ≤ v.rise) (ws : v.rise ≤ v.set) (wT : v.set ≤ T)
    (hdT : durationInDays fl r.duration ≤ T) (h : proposedStart fl r v = .ok (some s)) :
    StartUpTo (6 * ε * T) r.lookAngle r.duration v s := by
  unfold proposedStart at h
  unfold StartUpTo
  split at h
  · cases h
  · rename_i a ha
    rw [ha]
    rw [lookAngleTime_eq hfl] at h
    exact h
  · rename_i hn
    rw [hn]
    simp only [Except.ok.injEq, Option.some.injEq] at h ⊢
    have he := hfl.small
    have he0 := hfl.nonneg
    have hdd := durationInDays_error hfl r.duration
    have hdn : 0 ≤ days r.duration := div_nonneg hd (by norm_num)
    rw [abs_of_nonneg hdn, abs_le] at hdd
    have hD : days r.duration ≤ 101 / 100 * T := by
      have : ε * days r.duration ≤ 1 / 1000 * days r.duration := by gcongr
      linarith [hdd.1]
    have hT : 0 ≤ T := by linarith
    set D := durationInDays fl r.duration
    have a1 := Rounding.step hfl (x := v.rise + v.set) (η := 0) (y := v.rise + v.set) (by simp)
    rw [abs_of_nonneg (by linarith : 0 ≤ v.rise + v.set)] at a1
    have b1 : ε * (v.rise + v.set + 0) ≤ 2 * ε * T := by
      have := mul_le_mul_of_nonneg_left (by linarith : v.rise + v.set + 0 ≤ 2 * T) he0
      linarith
    have b2 : 3 * ε * days r.duration ≤ 3.03 * ε * T := by
      have := mul_le_mul_of_nonneg_left hD he0
      linarith
    have hεT : ε * T ≤ 1 / 1000 * T := by gcongr
    have hεT0 : 0 ≤ ε * T := by positivity
    have a2 : |fl (v.rise + v.set) + D - (v.rise + v.set + days r.duration)| ≤ 5.03 * ε * T := by
      rw [abs_le] at a1 ⊢
      constructor <;> linarith [a1.1, a1.2, hdd.1, hdd.2]
    have a3 := Rounding.step hfl a2
    rw [abs_of_nonneg (by linarith : 0 ≤ v.rise + v.set + days r.duration)] at a3
    have b3 : ε * (v.rise + v.set + days r.duration + 5.03 * ε * T) ≤ 3.02 * ε * T := by
      have := mul_le_mul_of_nonneg_left
        (by linarith : v.rise + v.set + days r.duration + 5.03 * ε * T ≤ 3.02 * T) he0
      linarith
    have a4 : |fl (fl (v.rise + v.set) + D) / 2 - (v.rise + v.set + days r.duration) / 2| ≤
        4.025 * ε * T := by
      rw [abs_le] at a3 ⊢
      constructor <;> linarith [a3.1, a3.2]
    have a5 := Rounding.step hfl a4
    rw [abs_of_nonneg (by linarith : 0 ≤ (v.rise + v.set + days r.duration) / 2)] at a5
    have b5 : ε * ((v.rise + v.set + days r.duration) / 2 + 4.025 * ε * T) ≤ 1.6 * ε * T := by
      have := mul_le_mul_of_nonneg_left
        (by linarith : (v.rise + v.set + days r.duration) / 2 + 4.025 * ε * T ≤ 1.6 * T) he0
      linarith
    rw [← h]
    linarith

theorem Fits.feasible (hfl : Rounding fl ε) {r : Request} (hr : RowOk fl T r) {s : ℚ}
    (h : Fits fl r s) : FeasibleUpTo ε T r.vtws r.lookAngle r.deadline r.duration r.quality s := by
  obtain ⟨v, hv, h1, h2, h3, ⟨q, hq, hqq⟩, h0⟩ := h
  have hd := durationInDays_error hfl r.duration
  have hdn : 0 ≤ days r.duration := div_nonneg hr.duration (by norm_num)
  have hfn := durationInDays_nonneg hfl hr.duration
  rw [abs_of_nonneg hdn, abs_le] at hd
  obtain ⟨w0, wT, -⟩ := hr.windows v hv
  refine ⟨v, hv, h1, by linarith [hd.1], by linarith [hd.1], fun hw => ?_,
    startUpTo_of hfl hr.duration w0 (by linarith) wT (by linarith) h0⟩
  exact hqq.trans (imageQuality_error hfl w0 h1 (by linarith) wT hw hq)

theorem emits_serves (hfl : Rounding fl ε) {r : Request} {s : Submission} {o : Observation}
    (hr : r.Clear ∨ AssignedR fl r) (hok : RowOk fl T r) (hf : r.fixed = s.fixed)
    (he : Emits r o) : ServesUpTo ε T s o := by
  obtain ⟨h1, h2, h3, h4⟩ := he
  rcases hr with hr | hr
  · rw [hr.1] at h1; cases h1
  · obtain ⟨-, h5, s', h6, hfe⟩ := hr
    rw [h6, Option.some.injEq] at h2
    rw [h5, Option.some.injEq] at h3
    have hfeas := hfe.feasible hfl hok
    simp only [Request.fixed, Submission.fixed, Fixed.mk.injEq] at hf
    obtain ⟨f1, f2, f3, f4, f5, f6, f7⟩ := hf
    refine ⟨h4.trans f1, by rw [← h3, f3], ?_⟩
    rw [← h2, ← f2, ← f3, ← f5, ← f6]
    obtain ⟨v, hv, hh⟩ := hfeas
    exact ⟨v, (Multiset.coe_eq_coe.1 f7).subset hv, hh⟩

/-- **C100.** In floating-point arithmetic, after any history and for any draws: the windows
`generate` returns can be matched with distinct submissions so that each serves its submission up
to rounding. -/
theorem C100_windows_feasible_up_to_rounding (hfl : Rounding fl ε) (history : List Op)
    (a : GenerateArgs) (ws : List Observation)
    (hsub : ∀ s ∈ submissions history, Submittable fl T s)
    (h : (generate fl (run fl history) a).1 = .ok ws) :
    ∃ served, served.Subperm (submissions history) ∧ List.Forall₂ (ServesUpTo ε T) served ws := by
  obtain ⟨h', best, hi, hs, ho⟩ := generate_ok h
  have hg : Good fl T (submissions history) h' := by
    have := initializeSolution_good hfl
      (good_run hfl history fun s hs => (hsub s hs).row)
    rwa [hi] at this
  have hb := solve_good hfl hg hs
  unfold outputWindows at ho
  rw [forLoop_eq] at ho
  have he := toObservations_facts ho
  obtain ⟨subs', hp, hf⟩ := holds_forall₂ hb.holds
  obtain ⟨k, hk, hfk⟩ := Forall₂.sublist hf (sublist_filter_dropLast best.requests)
  refine ⟨k, hk.subperm.trans hp.subperm, ?_⟩
  have hrows : ∀ r ∈ best.requests.dropLast.filter (fun r => r.isScheduled),
      (r.Clear ∨ AssignedR fl r) ∧ RowOk fl T r := fun r hr =>
    have hm := (sublist_filter_dropLast best.requests).subset hr
    ⟨hb.rows r hm, hb.ok r hm⟩
  have hfk' : List.Forall₂ (fun r s => ((r.Clear ∨ AssignedR fl r) ∧ RowOk fl T r) ∧
      r.fixed = s.fixed) (best.requests.dropLast.filter fun r => r.isScheduled) k := by
    clear he hk
    generalize best.requests.dropLast.filter (fun r => r.isScheduled) = m at hfk hrows
    revert hrows
    induction hfk with
    | nil => intro _; exact .nil
    | cons h1 _ ih =>
      intro hrows
      exact .cons ⟨hrows _ List.mem_cons_self, h1⟩
        (ih fun r hr => hrows r (List.mem_cons_of_mem _ hr))
  exact Forall₂.comp (S := Emits) (T := ServesUpTo ε T)
    (fun r s o h1 h2 => emits_serves hfl h1.1.1 h1.1.2 h1.2 h2) hfk' he

/-- **C100.** The same in Python's arithmetic: an observation of at most a day overshoots its
window and its deadline by less than a nanosecond, and in a window of at least a minute its image
quality is at most a ten-thousandth below the minimum.  It starts at the requested look angle, or
within 0.2 milliseconds of half its length after the middle of the window.  The instants are Julian
dates up to 3000000, the year 3501. -/
theorem C100_python_floats (history : List Op) (a : GenerateArgs) (ws : List Observation)
    (hsub : ∀ s ∈ submissions history, Submittable (binaryRound 53) 3000000 s)
    (h : (generate (binaryRound 53) (run (binaryRound 53) history) a).1 = .ok ws) :
    ∀ o ∈ ws, ∃ s ∈ submissions history, o.location = s.location ∧ o.duration = s.duration ∧
      ∃ v ∈ s.vtws, v.rise < o.start ∧
        (o.duration ≤ 86400 →
          o.start + o.duration / 86400 < v.set + 1 / 10 ^ 9 / 86400 ∧
          o.start + o.duration / 86400 < s.deadline + 1 / 10 ^ 9 / 86400) ∧
        (1 / 1440 ≤ v.set - v.rise →
          s.quality ≤ exactGrade v.rise v.set o.start + 1 / 10 ^ 4) ∧
        StartUpTo (2 / 10 ^ 4 / 86400) s.lookAngle s.duration v o.start := by
  obtain ⟨served, hsp, hf⟩ := C100_windows_feasible_up_to_rounding rounding_binary64 history a ws
    hsub h
  intro o ho
  obtain ⟨s, hs, h1, h2, v, hv, h3, h4, h5, h6, h7⟩ := Forall₂.mem_right hf ho
  refine ⟨s, hsp.subset hs, h1, h2, v, hv, h3, fun hd => ?_, fun hw => ?_,
    h7.mono (by norm_num)⟩
  · rw [h2] at hd ⊢
    unfold days at h4 h5
    constructor <;> linarith
  · have := h6 (by linarith)
    refine this.trans (add_le_add le_rfl ?_)
    rw [div_le_iff₀ (by linarith)]
    linarith

/-! ### C101 -/

theorem overlapLength_le_left {s₁ d₁ s₂ d₂ : ℚ} :
    overlapLength s₁ d₁ s₂ d₂ ≤ s₁ + d₁ - s₂ := by
  unfold overlapLength
  have := min_le_left (s₁ + d₁) (s₂ + d₂)
  have := le_max_right s₁ s₂
  linarith

theorem overlapLength_comm (s₁ d₁ s₂ d₂ : ℚ) :
    overlapLength s₁ d₁ s₂ d₂ = overlapLength s₂ d₂ s₁ d₁ := by
  unfold overlapLength; rw [min_comm, max_comm]

/-- How far the computed end of an observation is from its exact end. -/
theorem end_error (hfl : Rounding fl ε) {s d : ℚ} (hs : 0 ≤ s) (hd : 0 ≤ d)
    (hT : s + durationInDays fl d ≤ T) :
    |fl (s + durationInDays fl d) - (s + days d)| ≤ 5 * ε * T := by
  have hε := hfl.nonneg
  have hsm := hfl.small
  have hn := durationInDays_nonneg hfl hd
  have hdn : 0 ≤ days d := div_nonneg hd (by norm_num)
  have h1 := durationInDays_error hfl d
  rw [abs_of_nonneg hdn] at h1
  have h2 := hfl.error (s + durationInDays fl d)
  rw [abs_of_nonneg (by linarith : 0 ≤ s + durationInDays fl d)] at h2
  have h3 : ε * (s + durationInDays fl d) ≤ ε * T := mul_le_mul_of_nonneg_left hT hε
  have h4 : days d ≤ 11 / 10 * T := by
    rw [abs_le] at h1
    have : 3 * ε * days d ≤ 3 / 1000 * days d := mul_le_mul_of_nonneg_right (by linarith) hdn
    linarith [h1.1]
  have h5 : ε * days d ≤ ε * (11 / 10 * T) := mul_le_mul_of_nonneg_left h4 hε
  have h6 : 0 ≤ ε * T := mul_nonneg hε (by linarith)
  have h7 : |s + durationInDays fl d - (s + days d)| ≤ 3 * ε * days d := by
    rw [add_sub_add_left_eq_sub]; exact h1
  have h8 := abs_sub_le (fl (s + durationInDays fl d)) (s + durationInDays fl d) (s + days d)
  linarith

theorem conflictsWith_false (hfl : Rounding fl ε) {r : Request} {s d ss sd : ℚ}
    (hs : 0 ≤ s) (hd : 0 ≤ d) (hT : s + durationInDays fl d ≤ T)
    (hss : 0 ≤ ss) (hsd : 0 ≤ sd) (hsT : ss + durationInDays fl sd ≤ T)
    (hr : r.isScheduled = true) (h1 : r.start = some ss) (h2 : r.schedDuration = some sd)
    (h : conflictsWith fl r s (durationInDays fl d) = .ok false) :
    overlapLength s (days d) ss (days sd) ≤ 5 * ε * T := by
  have e1 := abs_le.1 (end_error hfl hs hd hT)
  have e2 := abs_le.1 (end_error hfl hss hsd hsT)
  unfold conflictsWith at h
  rw [hr, h1, h2] at h
  simp only [if_true] at h
  split at h
  · cases h
  · rename_i c1
    split at h
    · cases h
    · rename_i c2
      split at h
      · cases h
      · rename_i c3
        simp only [Bool.and_eq_true, decide_eq_true_eq, not_and, not_lt, not_le] at c1 c2 c3
        rcases le_or_gt s ss with h3 | h3
        · have := c1 h3
          refine overlapLength_le_left.trans ?_
          linarith [e1.1]
        · have h4 := c3 h3.le
          have h5 : fl (ss + durationInDays fl sd) ≤ s := by
            by_contra hc
            exact absurd (c2 (not_le.1 hc)) (by linarith)
          rw [overlapLength_comm]
          refine overlapLength_le_left.trans ?_
          linarith [e2.1]

theorem conflictsWith_true (hfl : Rounding fl ε) {r : Request} {s d : ℚ}
    (hs : 0 ≤ s) (hd : 0 ≤ d) (hT : s + durationInDays fl d ≤ T)
    (hrow : r.Clear ∨ AssignedR fl r) (hok : RowOk fl T r)
    (h : conflictsWith fl r s (durationInDays fl d) = .ok true) :
    r.isScheduled = true ∧ ∃ ss sd, r.start = some ss ∧ r.schedDuration = some sd ∧
      -(10 * ε * T) ≤ overlapLength s (days d) ss (days sd) := by
  rcases hrow with hc | ⟨hr, h2, ss, h1, v, hv, w1, w2, -⟩
  · unfold conflictsWith at h; rw [hc.1] at h; cases h
  have hε := hfl.nonneg
  obtain ⟨v0, vT, -⟩ := hok.windows v hv
  have hss : 0 ≤ ss := by linarith
  have e1 := abs_le.1 (end_error hfl hs hd hT)
  have e2 := abs_le.1 (end_error hfl hss hok.duration (by linarith : _ ≤ T))
  have hdn : 0 ≤ days d := div_nonneg hd (by norm_num)
  have hsdn : 0 ≤ days r.duration := div_nonneg hok.duration (by norm_num)
  have hT0 : 0 ≤ 5 * ε * T := by
    have := durationInDays_nonneg hfl hd
    have : 0 ≤ T := by linarith
    positivity
  refine ⟨hr, ss, r.duration, h1, h2, ?_⟩
  unfold conflictsWith at h
  rw [hr, h1, h2] at h
  simp only [if_true] at h
  have key : s ≤ ss + days r.duration + 10 * ε * T → ss ≤ s + days d + 10 * ε * T →
      -(10 * ε * T) ≤ overlapLength s (days d) ss (days r.duration) := by
    intro k1 k2
    unfold overlapLength
    rcases min_choice (s + days d) (ss + days r.duration) with hm | hm <;>
      rcases max_choice s ss with hM | hM <;> rw [hm, hM] <;> linarith
  split at h
  · rename_i c
    simp only [Bool.and_eq_true, decide_eq_true_eq] at c
    exact key (by linarith) (by linarith [c.2, e1.2])
  · split at h
    · rename_i c
      simp only [Bool.and_eq_true, decide_eq_true_eq] at c
      exact key (by linarith [c.1, e2.2]) (by linarith [c.2, e1.2, e2.1])
    · split at h
      · rename_i c
        simp only [Bool.and_eq_true, decide_eq_true_eq] at c
        exact key (by linarith [c.2, e1.1, e2.2]) (by linarith [c.1])
      · cases h

/-- **C101.** The conflict test in floating-point arithmetic, after any history, for a proposed
observation between the instants 0 and `T`.  A proposal it accepts overlaps each observation the
test looks at (all rows but the last, C05) for at most `5 ε T` days.  A proposal it rejects
overlaps one of them, or misses it by at most `10 ε T` days. -/
theorem C101_conflict_test_up_to_rounding_partial (hfl : Rounding fl ε) (history : List Op)
    (hsub : ∀ s ∈ submissions history, Submittable fl T s) (s d : ℚ) (hs : 0 ≤ s) (hd : 0 ≤ d)
    (hT : s + durationInDays fl d ≤ T) :
    (doesConflictExist fl (run fl history) s (durationInDays fl d) = .ok false →
      ∀ r ∈ (run fl history).requests.dropLast, r.isScheduled = true →
        ∀ ss sd, r.start = some ss → r.schedDuration = some sd →
          overlapLength s (days d) ss (days sd) ≤ 5 * ε * T) ∧
    (doesConflictExist fl (run fl history) s (durationInDays fl d) = .ok true →
      ∃ r ∈ (run fl history).requests.dropLast, r.isScheduled = true ∧
        ∃ ss sd, r.start = some ss ∧ r.schedDuration = some sd ∧
          -(10 * ε * T) ≤ overlapLength s (days d) ss (days sd)) := by
  have hg := good_run hfl history fun s hs => (hsub s hs).row
  have hmem : ∀ r ∈ (run fl history).requests.dropLast, r ∈ (run fl history).requests :=
    fun r hr => (List.dropLast_sublist _).subset hr
  unfold doesConflictExist
  rw [forLoop_eq]
  refine ⟨fun h r hr hsch ss sd h1 h2 => ?_, fun h => ?_⟩
  · have hrow := hg.ok r (hmem r hr)
    rcases hg.rows r (hmem r hr) with hc | ⟨-, e2, ss', e1, v, hv, w1, w2, -⟩
    · rw [hc.1] at hsch; cases hsch
    · rw [e1, Option.some.injEq] at h1
      rw [e2, Option.some.injEq] at h2
      subst h1 h2
      obtain ⟨v0, vT, -⟩ := hrow.windows v hv
      exact conflictsWith_false hfl hs hd hT (by linarith) hrow.duration (by linarith) hsch e1 e2
        (anyConflict_false h r hr)
  · obtain ⟨r, hr, hc⟩ := anyConflict_true h
    exact ⟨r, hr, conflictsWith_true hfl hs hd hT (hg.rows r (hmem r hr)) (hg.ok r (hmem r hr)) hc⟩

theorem insertLoop_nearly (hfl : Rounding fl ε) {subs : List Submission} : ∀ (m i : ℕ)
    (h : Handler) (n : ℤ), i + m = h.requests.length → Good fl T subs h →
    (∀ j r, i ≤ j → h.requests[j]? = some r → r.isScheduled = false) →
    h.requests.Pairwise (fun a b => ¬ RowsOverlapBy (5 * ε * T) a b) →
    (insertLoop fl (List.range' i m) h n).1.requests.Pairwise
      (fun a b => ¬ RowsOverlapBy (5 * ε * T) a b) := by
  intro m
  induction m with
  | zero => intro i h n _ _ _ hp; exact hp
  | succ m ih =>
    intro i h n hlen hg hun hp
    rw [List.range'_succ]
    unfold insertLoop
    split
    · exact hp
    · split
      · exact hp
      · rename_i r hr
        have hun' : ∀ j r, i + 1 ≤ j → h.requests[j]? = some r → r.isScheduled = false :=
          fun j r hj => hun j r (by omega)
        have hrs : r.isScheduled = false := hun i r le_rfl hr
        rw [hrs]
        simp only [Bool.false_eq_true, if_false]
        split
        · exact hp
        · exact ih (i + 1) h n (by omega) hg hun' hp
        · rename_i idx s ht
          have hrow := hg.ok r (List.mem_of_getElem? hr)
          obtain ⟨hf, hconf⟩ := tryVtws_fits hfl hrow ht
          obtain ⟨v, hv, hv1, hv2, -⟩ := id hf
          obtain ⟨v0, vT, -⟩ := hrow.windows v hv
          have hg' := hg.schedule (idx := idx) hr hf
          obtain ⟨l₁, l₂, hl, hll, hm⟩ := modify_split hr
          have hreq : (h.schedule i idx s r.duration).requests =
              l₁ ++ r.assignWith idx s r :: l₂ := hm (r.assignWith idx s)
          refine ih (i + 1) _ _ ?_ hg' ?_ ?_
          · rw [hreq]; rw [hl] at hlen; simp at hlen ⊢; omega
          · intro j r' hj hr'
            refine hun' j r' hj ?_
            rw [← hr', hreq, hl, List.getElem?_append_right (by omega),
              List.getElem?_append_right (by omega)]
            have : j - l₁.length = (j - l₁.length - 1) + 1 := by omega
            rw [this]; rfl
          · rw [hreq]
            rw [hl] at hp
            have hl1 : ∀ a ∈ l₁, ¬ RowsOverlapBy (5 * ε * T) a (r.assignWith idx s r) := by
              intro a ha hov
              have hmemh : a ∈ h.requests := by rw [hl]; exact List.mem_append_left _ ha
              have hmem : a ∈ h.forLoop := by
                rw [forLoop_eq, hl, List.dropLast_append_cons]
                exact List.mem_append_left _ ha
              have hc := anyConflict_false hconf a hmem
              obtain ⟨s1, d1, s2, d2, h1, h2, h3, h4, h5, h6, h7⟩ := hov
              simp only [Request.assignWith, Option.some.injEq] at h5 h6
              subst h5 h6
              have hrowa := hg.ok a hmemh
              rcases hg.rows a hmemh with hcl | ⟨-, e2, ss', e1, w, hw, w1, w2, -⟩
              · rw [hcl.1] at h1; cases h1
              · rw [e1, Option.some.injEq] at h3
                rw [e2, Option.some.injEq] at h4
                subst h3 h4
                obtain ⟨w0, wT, -⟩ := hrowa.windows w hw
                have := conflictsWith_false hfl (T := T) (by linarith) hrow.duration (by linarith)
                  (by linarith) hrowa.duration (by linarith) h1 e1 e2 hc
                rw [overlapLength_comm] at this
                linarith
            have hl2 : ∀ b ∈ l₂, ¬ RowsOverlapBy (5 * ε * T) (r.assignWith idx s r) b := by
              intro b hb hov
              obtain ⟨k, hk⟩ := List.getElem?_of_mem hb
              have : b.isScheduled = false := by
                refine hun (i + 1 + k) b (by omega) ?_
                rw [hl, List.getElem?_append_right (by omega)]
                have : i + 1 + k - l₁.length = k + 1 := by omega
                rw [this]; simpa using hk
              obtain ⟨_, _, _, _, _, h2, _⟩ := hov
              rw [this] at h2; cases h2
            rw [List.pairwise_append, List.pairwise_cons] at hp ⊢
            obtain ⟨p1, ⟨p2, p3⟩, p4⟩ := hp
            refine ⟨p1, ⟨hl2, p3⟩, ?_⟩
            intro a ha b hb
            rcases List.mem_cons.1 hb with rfl | hb
            · exact hl1 a ha
            · exact p4 a ha b (List.mem_cons_of_mem _ hb)

/-- **C101.** The greedy initial schedule of any submissions has no two observations that overlap
for more than `5 ε T` days (even if building it stops with an exception). -/
theorem C101_initial_schedule_nearly_conflict_free_partial (hfl : Rounding fl ε) (subs : List Submission)
    (hsub : ∀ s ∈ subs, Submittable fl T s) :
    (initializeSolution fl (submit subs)).1.requests.Pairwise fun r r' =>
      ¬ RowsOverlapBy (5 * ε * T) r r' := by
  have hg := good_submit (fl := fl) (T := T) fun s hs => (hsub s hs).row
  have hg' : Good fl T subs (submit subs).sortByDecreasingPriority.sortVtwsByIncreasingRiseTime :=
    (hg.of_perm (perm_sortPriority _)).of_sameRow (riseSort_facts _)
  have hun : ∀ r ∈ (submit subs).sortByDecreasingPriority.sortVtwsByIncreasingRiseTime.requests,
      r.isScheduled = false := by
    intro r hr
    obtain ⟨r1, hr1, hs⟩ := Forall₂.mem_right (riseSort_facts _) hr
    rw [hs.isScheduled]
    have := (perm_sortPriority (submit subs)).subset hr1
    rw [submit_requests] at this
    obtain ⟨s, -, rfl⟩ := List.mem_map.1 this
    rfl
  have := insertLoop_nearly hfl
    (submit subs).sortByDecreasingPriority.sortVtwsByIncreasingRiseTime.requests.length 0
    (submit subs).sortByDecreasingPriority.sortVtwsByIncreasingRiseTime
    (submit subs).sortByDecreasingPriority.sortVtwsByIncreasingRiseTime.requests.length
    (by simp) hg'
    (fun j r _ hj => hun r (List.mem_of_getElem? hj))
    (List.pairwise_of_forall_mem_list fun a ha b _ hov => by
      obtain ⟨_, _, _, _, h1, _⟩ := hov
      rw [hun a ha] at h1; cases h1)
  rw [← List.range_eq_range'] at this
  exact this

/-- **C101 (partial).** With no search iterations, no two windows that `generate` returns for
freshly submitted requests overlap for more than `5 ε T` days.  Missing: any number of iterations,
for which overlaps of any length occur even without rounding (`C02_overlap_possible`). -/
theorem C101_no_overlap_partial (hfl : Rounding fl ε) (subs : List Submission)
    (hsub : ∀ s ∈ subs, Submittable fl T s) (a : GenerateArgs) (ha : a.draws = [])
    (ws : List Observation) (h : (generate fl (submit subs) a).1 = .ok ws) :
    ws.Pairwise fun o o' =>
      overlapLength o.start (days o.duration) o'.start (days o'.duration) ≤ 5 * ε * T := by
  obtain ⟨h', best, hi, hs, ho⟩ := generate_ok h
  have hbest : best = h' := by
    rw [ha] at hs
    unfold Alns.Rounded.solve Alns.Rounded.solveTrace at hs
    split_ifs at hs <;> cases hs <;> rfl
  subst hbest
  have hp := C101_initial_schedule_nearly_conflict_free_partial hfl subs hsub
  rw [hi] at hp
  unfold outputWindows at ho
  rw [forLoop_eq] at ho
  have he := toObservations_facts ho
  have hp' := hp.sublist (sublist_filter_dropLast best.requests)
  clear hp hs
  generalize best.requests.dropLast.filter (fun r => r.isScheduled) = m at he hp'
  clear ho h
  induction he with
  | nil => exact List.Pairwise.nil
  | @cons r o l os h1 h2 ih =>
    rw [List.pairwise_cons] at hp' ⊢
    refine ⟨fun o' ho' => ?_, ih hp'.2⟩
    obtain ⟨r', hr', e'⟩ := Forall₂.mem_right h2 ho'
    by_contra hov
    exact hp'.1 r' hr' ⟨o.start, o.duration, o'.start, o'.duration, h1.1, e'.1, h1.2.1, h1.2.2.1,
      e'.2.1, e'.2.2.1, not_le.1 hov⟩

/-- **C101.** In Python's arithmetic, with Julian dates up to 3000000 (the year 3501), two
observations of the initial schedule overlap for at most 150 microseconds. -/
theorem C101_python_floats_partial (subs : List Submission)
    (hsub : ∀ s ∈ subs, Submittable (binaryRound 53) 3000000 s) :
    (initializeSolution (binaryRound 53) (submit subs)).1.requests.Pairwise fun r r' =>
      ¬ RowsOverlapBy (150 / 10 ^ 6 / 86400) r r' := by
  refine (C101_initial_schedule_nearly_conflict_free_partial rounding_binary64 subs hsub).imp ?_
  rintro r r' h ⟨s, d, s', d', h1, h2, h3, h4, h5, h6, h7⟩
  exact h ⟨s, d, s', d', h1, h2, h3, h4, h5, h6, lt_of_le_of_lt (by norm_num) h7⟩

/-! ### concrete data -/

/-- Four requests, with times that are floats and durations that are not whole numbers of days. -/
def fourPasses : List Submission :=
  [ ⟨0, 2459100, 30, 4, 1, none, [win 2459000 (2459000 + 1 / 128), win 2459001 (2459001 + 1 / 128)]⟩,
    ⟨1, 2459100, 45, 8, 1, none, [win 2459000 (2459000 + 1 / 128)]⟩,
    ⟨2, 2459100, 60, 3, 1, none, [win (2459000 + 1 / 1024) (2459000 + 1 / 64)]⟩,
    ⟨3, 2459100, 20, 7, 1, none, [win 2459000 (2459000 + 1 / 256)]⟩ ]

theorem fourPasses_submittable : ∀ s ∈ fourPasses, Submittable (binaryRound 53) 3000000 s := by
  intro s hs
  simp only [fourPasses, List.mem_cons, List.not_mem_nil, or_false] at hs
  rcases hs with rfl | rfl | rfl | rfl <;> refine ⟨by norm_num, by decide +kernel, ?_⟩ <;>
    (intro v hv
     simp only [List.mem_cons, List.not_mem_nil, or_false] at hv
     rcases hv with rfl | rfl <;>
       exact ⟨by norm_num [win], by norm_num [win], by decide +kernel⟩)

/-- Non-vacuity for C100 and C101: these requests are submittable, `generate` returns three
windows for them in Python's arithmetic, and the start times are rounded: they differ from those
of exact arithmetic. -/
example : (∀ s ∈ fourPasses, Submittable (binaryRound 53) 3000000 s) ∧
    (generate (binaryRound 53) (run (binaryRound 53) (fourPasses.map Op.add))
      (args (fun _ => 0) (-1) [])).1.map List.length = .ok 3 ∧
    (generate (binaryRound 53) (run (binaryRound 53) (fourPasses.map Op.add))
      (args (fun _ => 0) (-1) [])).1 ≠
      (Schedule.generate (Schedule.run (fourPasses.map Op.add)) (args (fun _ => 0) (-1) [])).1 := by
  refine ⟨fourPasses_submittable, ?_, ?_⟩ <;> decide +kernel

/-- Three requests; the second wants the look angle 0, which its window passes between the second
and the third sample, and the second sample is the computed end of the first observation. -/
def touchingPasses : List Submission :=
  [ ⟨0, 2459100, 63, 10, 1, none, [win 2459000 (2459000 + 1 / 128)]⟩,
    ⟨1, 2459100, 30, 9, 1, some (.quantity 0),
      [⟨2459000, 2459000 + 1 / 64, [2459000, 2640331150584709 / 1073741824, 2459000 + 3 / 256, 2459000 + 1 / 64],
        [2, 1, -1, -2]⟩]⟩,
    ⟨2, 2459100, 30, 8, 1, none, []⟩ ]

/-- **C101.** The tolerance is needed: in Python's arithmetic there are submittable requests whose
initial schedule holds two observations that overlap, by more than 10 microseconds, because the
computed end of the first is before its exact end.  In exact arithmetic no such requests exist
(`C12_initial_schedule_conflict_free`). -/
theorem C101_exact_disjointness_lost :
    ∃ subs, (∀ s ∈ subs, Submittable (binaryRound 53) 3000000 s) ∧
      ∃ r ∈ (initializeSolution (binaryRound 53) (submit subs)).1.requests,
      ∃ r' ∈ (initializeSolution (binaryRound 53) (submit subs)).1.requests, r ≠ r' ∧
        RowsOverlapBy (10 / 10 ^ 6 / 86400) r r' := by
  refine ⟨touchingPasses, ?_, ?_⟩
  · intro s hs
    simp only [touchingPasses, List.mem_cons, List.not_mem_nil, or_false] at hs
    rcases hs with rfl | rfl | rfl <;> refine ⟨by norm_num, by decide +kernel, ?_⟩ <;>
      (intro v hv
       simp only [List.mem_cons, List.not_mem_nil, or_false] at hv
       all_goals
         rcases hv with rfl
         exact ⟨by norm_num [win], by norm_num [win], by decide +kernel⟩)
  · have h0 : ((initializeSolution (binaryRound 53) (submit touchingPasses)).1.requests[0]?.map
        fun r => (r.isScheduled, r.start, r.schedDuration)) =
        some (true, some (5280662299603545 / 2147483648), some 63) := by decide +kernel
    have h1 : ((initializeSolution (binaryRound 53) (submit touchingPasses)).1.requests[1]?.map
        fun r => (r.isScheduled, r.start, r.schedDuration)) =
        some (true, some (2640331150584709 / 1073741824), some 30) := by decide +kernel
    rw [Option.map_eq_some_iff] at h0 h1
    obtain ⟨r, hr, e⟩ := h0
    obtain ⟨r', hr', e'⟩ := h1
    simp only [Prod.mk.injEq] at e e'
    refine ⟨r, List.mem_of_getElem? hr, r', List.mem_of_getElem? hr', ?_, _, _, _, _, e.1, e'.1,
      e.2.1, e.2.2, e'.2.1, e'.2.2, ?_⟩
    · rintro rfl
      rw [e.2.1] at e'
      have := Option.some.inj e'.2.1
      norm_num at this
    · unfold overlapLength days
      rw [min_def, max_def]
      norm_num

end Celest.Schedule.Rounded
