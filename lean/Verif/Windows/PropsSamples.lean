/-
Property C23, read for single samples: which samples lie in a window of `generate_vtws`.
-/
import Verif.Windows.Props

namespace Celest.Windows

open Celest.Schedule (VTW)

variable {K : Type} [LinearOrder K] [Zero K] [OfNat K 90]

/-- In a strictly increasing series, samples are ordered as their indices. -/
theorem sample_lt_iff (l : List ℚ) (h : l.Pairwise (· < ·)) (i j : ℕ) (x y : ℚ)
    (hi : l[i]? = some x) (hj : l[j]? = some y) : x < y ↔ i < j := by
  refine ⟨fun hxy => ?_, sample_lt l h i j x y hi hj⟩
  by_contra hc
  rcases Nat.lt_or_eq_of_le (not_lt.1 hc) with hlt | rfl
  · exact absurd (sample_lt l h j i y x hj hi hlt) (not_lt.2 hxy.le)
  · rw [hi] at hj
    cases hj
    exact lt_irrefl _ hxy

/-- **C23 (partial).** If sample times increase strictly and the first sample is not visible, the
time of a sample lies in a window — after its rise and not after its set — exactly when the sample
is visible, and then in exactly one; no window occurs twice.  Missing: series whose first sample
is visible, where the claim is false (`C23_first_run_in_no_window`), and series without visible
samples (C25). -/
theorem C23_samples_in_windows_partial (sc : Scene K) (wf : sc.WellFormed) (threshold : K)
    (lighting : Lighting) (ws : List VTW) (h : generateVtws sc threshold lighting = .ok ws)
    (hinc : sc.julian.Pairwise (· < ·)) (h0 : ¬ Visible sc threshold lighting 0) :
    ws.Nodup ∧ ∀ k t, sc.julian[k]? = some t →
      ((Visible sc threshold lighting k ↔ ∃ w ∈ ws, w.rise < t ∧ t ≤ w.set) ∧
        ∀ v ∈ ws, ∀ w ∈ ws, v.rise < t → t ≤ v.set → w.rise < t → t ≤ w.set → v = w) := by
  obtain ⟨hlt, hdis⟩ := C24_windows_ordered_disjoint_partial sc wf threshold lighting ws h hinc h0
  have hnd : ws.Nodup := by
    refine (List.Pairwise.and_mem.1 hdis).imp ?_
    rintro v w ⟨hv, -, hvw⟩ rfl
    exact lt_asymm (hlt v hv) hvw
  refine ⟨hnd, fun k t ht => ⟨?_, ?_⟩⟩
  · obtain ⟨runs, -, h2, h3, h4⟩ := runs_of_ok sc wf threshold lighting ws h
    constructor
    · intro hk
      obtain ⟨p, hp, hp1, hp2⟩ : ∃ p ∈ runs, p.1 ≤ k ∧ k ≤ p.2 := by
        classical
        have hkn : k < sc.julian.length := (List.getElem?_eq_some_iff.1 ht).1
        -- the run to the right of `k`, and to its left
        have hr : ∃ j, k + j + 1 = sc.julian.length ∨ ¬ Visible sc threshold lighting (k + j + 1) :=
          ⟨sc.julian.length - 1 - k, Or.inl (by omega)⟩
        have hl : ∃ j, k - j = 0 ∨ ¬ Visible sc threshold lighting (k - j - 1) :=
          ⟨k, Or.inl (by omega)⟩
        refine ⟨(k - Nat.find hl, k + Nat.find hr), (h2 _ _).2 ⟨by omega, ?_, ?_, ?_, ?_⟩,
          by simp, by simp⟩
        · have : Nat.find hr ≤ sc.julian.length - 1 - k := Nat.find_min' hr (Or.inl (by omega))
          omega
        · intro i hi1 hi2
          rcases Nat.lt_trichotomy i k with hik | rfl | hik
          · have := Nat.find_min hl (m := k - i - 1) (by omega)
            push Not at this
            have h3 := this.2
            rwa [show k - (k - i - 1) - 1 = i by omega] at h3
          · exact hk
          · have := Nat.find_min hr (m := i - k - 1) (by omega)
            push Not at this
            have h3 := this.2
            rwa [show k + (i - k - 1) + 1 = i by omega] at h3
        · exact Nat.find_spec hl
        · exact Nat.find_spec hr
      obtain ⟨w, hw, w1, w2, -, -⟩ : ∃ w ∈ ws, _ := by
        obtain ⟨w, hw, hr⟩ := forall₂_mem_right h4.flip hp
        exact ⟨w, hw, hr⟩
      have hpos : p.1 ≠ 0 := by
        intro he
        exact h0 (((h2 p.1 p.2).1 hp).2.2.1 0 (by omega) (by omega))
      rw [if_neg hpos] at w1
      exact ⟨w, hw, (sample_lt_iff _ hinc _ _ _ _ w1 ht).2 (by omega),
        not_lt.1 fun hc => absurd ((sample_lt_iff _ hinc _ _ _ _ w2 ht).1 hc) (by omega)⟩
    · rintro ⟨w, hw, hw1, hw2⟩
      obtain ⟨p, hp, w1, w2, -, -⟩ := forall₂_mem_right h4 hw
      obtain ⟨m1, m2, m3, m4, m5⟩ := (h2 p.1 p.2).1 hp
      have hpos : p.1 ≠ 0 := fun he => h0 (m3 0 (by omega) (by omega))
      rw [if_neg hpos] at w1
      have a1 := (sample_lt_iff _ hinc _ _ _ _ w1 ht).1 hw1
      have a2 : ¬ p.2 < k := fun hc => absurd ((sample_lt_iff _ hinc _ _ _ _ w2 ht).2 hc)
        (not_lt.2 hw2)
      exact m3 k (by omega) (by omega)
  · intro v hv w hw v1 v2 w1 w2
    obtain ⟨i, hi, rfl⟩ := List.getElem_of_mem hv
    obtain ⟨j, hj, rfl⟩ := List.getElem_of_mem hw
    rcases Nat.lt_trichotomy i j with hij | rfl | hij
    · have := List.pairwise_iff_getElem.1 hdis i j hi hj hij
      linarith
    · rfl
    · have := List.pairwise_iff_getElem.1 hdis j i hj hi hij
      linarith

/-- Non-vacuity: the hypotheses hold for the demo scene (see the examples for C23 and C24), whose
windows are `(1, 3]` and `(5, 6]` and whose visible samples are those at 2, 3 and 6. -/
example : ∃ ws, generateVtws demo 10 .anytime = .ok ws ∧ ws.length = 2 ∧
    demo.WellFormed ∧ demo.julian.Pairwise (· < ·) ∧ ¬ Visible demo 10 .anytime 0 ∧
    ∀ w ∈ ws, ¬ (w.rise < 4 ∧ 4 ≤ w.set) := by
  have hwf : demo.WellFormed := by unfold Scene.WellFormed; decide
  obtain ⟨_, ws, h, -⟩ := C23_windows_are_maximal_runs_partial demo hwf 10 .anytime rfl (by norm_num)
    (by simp) ⟨2, ⟨12, rfl, by norm_num⟩, trivial⟩
  have hl : (generateVtws demo 10 .anytime).toOption.map List.length = some 2 := by decide +kernel
  have hw : (generateVtws demo 10 .anytime).toOption.map
      (fun ws => ws.all fun w => decide (¬ (w.rise < 4 ∧ 4 ≤ w.set))) = some true := by
    decide +kernel
  rw [h] at hl hw
  refine ⟨ws, h, by simpa [Except.toOption] using hl, hwf, by decide +kernel, ?_,
    by simpa only [Except.toOption, Option.map_some, Option.some.injEq, List.all_eq_true,
      decide_eq_true_eq] using hw⟩
  rintro ⟨⟨e, he, hlt⟩, -⟩
  simp only [demo, sceneQ, List.map_cons, List.getElem?_cons_zero, Option.some.injEq] at he
  subst he
  norm_num at hlt

/-- **C23 (failure).** If the series begins with visible samples, none of the samples of that
first block lies in a window, except possibly the last sample of the whole series: the pass under
way at the beginning is lost. -/
theorem C23_first_run_in_no_window (sc : Scene K) (wf : sc.WellFormed) (threshold : K)
    (lighting : Lighting) (ws : List VTW) (h : generateVtws sc threshold lighting = .ok ws)
    (hinc : sc.julian.Pairwise (· < ·)) (k : ℕ) (hk : ∀ j ≤ k, Visible sc threshold lighting j)
    (hlast : k + 1 < sc.julian.length) (t : ℚ) (ht : sc.julian[k]? = some t) :
    ∀ w ∈ ws, ¬ (w.rise ≤ t ∧ t ≤ w.set) := by
  rintro w hw ⟨hw1, hw2⟩
  obtain ⟨runs, -, h2, h3, h4⟩ := runs_of_ok sc wf threshold lighting ws h
  obtain ⟨p, hp, w1, w2, -, -⟩ := forall₂_mem_right h4 hw
  obtain ⟨m1, m2, m3, m4, m5⟩ := (h2 p.1 p.2).1 hp
  by_cases hz : p.1 = 0
  · rw [if_pos hz] at w1
    have := (sample_lt_iff _ hinc _ _ _ _ ht w1).2 (by omega)
    linarith
  · rw [if_neg hz] at w1
    have hv : ¬ Visible sc threshold lighting (p.1 - 1) := by tauto
    have hlt : k < p.1 - 1 := by
      by_contra hc
      exact hv (hk _ (by omega))
    have := (sample_lt_iff _ hinc _ _ _ _ ht w1).2 hlt
    linarith

/-- The failing case occurs: samples 0 and 1 are visible, but the windows returned are `(4, 1]`
and `(2, 3]`, and the times 0 and 1 lie in neither. -/
example : (generateVtws (sceneQ [0, 1, 2, 3, 4] [30, 20, 5, 15, 2] [1, 1, 1, 1, 1] [4, 3, 2, 1, 0])
      10 .anytime).toOption.map (·.map fun w => (w.rise, w.set)) = some [(4, 1), (2, 3)] ∧
    ∀ j ≤ 1, Visible (sceneQ [0, 1, 2, 3, 4] [30, 20, 5, 15, 2] [1, 1, 1, 1, 1] [4, 3, 2, 1, 0])
      10 .anytime j := by
  refine ⟨by decide +kernel, fun j hj => ?_⟩
  obtain rfl | rfl : j = 0 ∨ j = 1 := by omega
  · exact ⟨⟨30, rfl, by norm_num⟩, trivial⟩
  · exact ⟨⟨20, rfl, by norm_num⟩, trivial⟩

end Celest.Windows
