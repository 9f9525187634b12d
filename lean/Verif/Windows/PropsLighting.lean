/-
Properties C77-C79: what windows cover, and how windows under different conditions compare.
-/
import Verif.Windows.Props

namespace Celest.Windows

open Celest.Schedule (VTW)

variable {K : Type} [LinearOrder K] [Zero K] [OfNat K 90]

/-- Condition `t', l'` is at least as strict as condition `t, l`: no lower threshold, and either
the same lighting or no lighting requirement in the looser one. -/
def Stricter (t' : K) (l' : Lighting) (t : K) (l : Lighting) : Prop :=
  t ≤ t' ∧ (l = .anytime ∨ l = l')

/-- `w` takes place during `v`. -/
def Within (w v : VTW) : Prop := v.rise ≤ w.rise ∧ w.set ≤ v.set

theorem Stricter.visible {t' t : K} {l' l : Lighting} (hs : Stricter t' l' t l) {sc : Scene K} {k : ℕ}
    (h : Visible sc t' l' k) : Visible sc t l k := by
  obtain ⟨⟨e, he, hlt⟩, hl⟩ := h
  refine ⟨⟨e, he, lt_of_le_of_lt hs.1 hlt⟩, ?_⟩
  rcases hs.2 with rfl | rfl
  · exact trivial
  · exact hl

theorem Visible.lt_length {sc : Scene K} (wf : sc.WellFormed) {t : K} {l : Lighting} {k : ℕ}
    (h : Visible sc t l k) : k < sc.julian.length := by
  obtain ⟨⟨e, he, -⟩, -⟩ := h
  rw [← wf.1]
  exact (List.getElem?_eq_some_iff.1 he).1

/-- Every sample satisfying `P` lies in a maximal run. -/
theorem run_around (P : ℕ → Prop) : ∀ (n k : ℕ), P k → k < n →
    ∃ a b, MaximalRun P n a b ∧ a ≤ k ∧ k ≤ b := by
  intro n k
  induction k generalizing P n with
  | zero =>
    intro h hn
    obtain ⟨b, hb⟩ := exists_maximalRun_zero P n h hn
    exact ⟨0, b, hb, le_rfl, Nat.zero_le _⟩
  | succ k ih =>
    intro h hn
    obtain ⟨a, b, ⟨h1, h2, h3, h4, h5⟩, h6, h7⟩ := ih (fun j => P (j + 1)) (n - 1) h (by omega)
    have hsub : ∀ j, a + 1 ≤ j → j ≤ b + 1 → P j := by
      intro j hj1 hj2
      have := h3 (j - 1) (by omega) (by omega)
      simpa [show j - 1 + 1 = j by omega] using this
    have hend : b + 1 + 1 = n ∨ ¬ P (b + 1 + 1) := by
      rcases h5 with h5 | h5
      · left; omega
      · right; exact h5
    by_cases hp : P a ∧ a = 0
    · obtain ⟨hp, rfl⟩ := hp
      refine ⟨0, b + 1, ⟨by omega, by omega, ?_, Or.inl rfl, hend⟩, by omega, by omega⟩
      intro j _ hj
      rcases Nat.eq_zero_or_pos j with rfl | hj0
      · exact hp
      · exact hsub j hj0 hj
    · refine ⟨a + 1, b + 1, ⟨by omega, by omega, hsub, Or.inr ?_, hend⟩, by omega, by omega⟩
      rcases Nat.eq_zero_or_pos a with rfl | ha
      · simpa using hp
      · rcases h4 with h4 | h4
        · omega
        · simpa [show a - 1 + 1 = a by omega] using h4

/-- In a strictly increasing series, indices are ordered as the times are. -/
theorem index_lt (l : List ℚ) (h : l.Pairwise (· < ·)) (i j : ℕ) (x y : ℚ)
    (hi : l[i]? = some x) (hj : l[j]? = some y) (hxy : x < y) : i < j := by
  by_contra hc
  rcases Nat.lt_or_ge j i with h1 | h1
  · exact absurd (sample_lt l h j i y x hj hi h1) (by linarith)
  · obtain rfl : i = j := by omega
    rw [hi] at hj
    cases hj
    exact lt_irrefl _ hxy

theorem sample_le (l : List ℚ) (h : l.Pairwise (· < ·)) (i j : ℕ) (x y : ℚ)
    (hi : l[i]? = some x) (hj : l[j]? = some y) (hij : i ≤ j) : x ≤ y := by
  rcases Nat.lt_or_ge i j with h1 | h1
  · exact (sample_lt l h i j x y hi hj h1).le
  · obtain rfl : i = j := by omega
    rw [hi] at hj
    cases hj
    exact le_rfl

theorem forall₂_mem_left {α β : Type} {R : α → β → Prop} {l : List α} {m : List β}
    (h : List.Forall₂ R l m) {x : α} (hx : x ∈ l) : ∃ y ∈ m, R x y := by
  induction h with
  | nil => simp at hx
  | cons h _ ih =>
    rcases List.mem_cons.1 hx with rfl | hx
    · exact ⟨_, by simp, h⟩
    · obtain ⟨y, hy, hr⟩ := ih hx
      exact ⟨y, by simp [hy], hr⟩

/-- A window that rises before it sets comes from a run that does not start at sample 0. -/
theorem proper_window {sc : Scene K} (hinc : sc.julian.Pairwise (· < ·)) {a b : ℕ} {w : VTW}
    (w1 : sc.julian[if a = 0 then sc.julian.length - 1 else a - 1]? = some w.rise)
    (w2 : sc.julian[b]? = some w.set) (hlt : w.rise < w.set) : a ≠ 0 := by
  rintro rfl
  rw [if_pos rfl] at w1
  have := index_lt _ hinc _ _ _ _ w1 w2 hlt
  have hb := (List.getElem?_eq_some_iff.1 w2).1
  omega

/-! ### C79: what a window covers -/

/-- **C79 (partial).** Every sample after the rise time of a window up to and including its set
time is visible.  Missing: the converse, that every visible sample is covered, which
`C79_covers_partial` proves when the first sample is not visible and
`C79_first_pass_not_covered` refutes otherwise. -/
theorem C79_contains_only_visible_partial (sc : Scene K) (wf : sc.WellFormed) (threshold : K)
    (lighting : Lighting) (ws : List VTW) (h : generateVtws sc threshold lighting = .ok ws)
    (hinc : sc.julian.Pairwise (· < ·)) (w : VTW) (hw : w ∈ ws) (k : ℕ) (t : ℚ)
    (hk : sc.julian[k]? = some t) (hr : w.rise < t) (hs : t ≤ w.set) :
    Visible sc threshold lighting k := by
  obtain ⟨runs, -, h2, -, h4⟩ := runs_of_ok sc wf threshold lighting ws h
  obtain ⟨⟨a, b⟩, hp, w1, w2, -, -⟩ := forall₂_mem_right h4 hw
  simp only at w1 w2
  obtain ⟨-, -, m3, -, -⟩ := (h2 a b).1 hp
  have ha := proper_window hinc w1 w2 (lt_of_lt_of_le hr hs)
  rw [if_neg ha] at w1
  have h5 := index_lt _ hinc _ _ _ _ w1 hk hr
  have h6 : k ≤ b := by
    by_contra hc
    exact absurd (sample_lt _ hinc b k _ _ w2 hk (by omega)) (by linarith)
  exact m3 k (by omega) h6

/-- **C79 (partial).** If the first sample is not visible, every visible sample lies in a window,
after its rise time and not after its set time. -/
theorem C79_covers_partial (sc : Scene K) (wf : sc.WellFormed) (threshold : K)
    (lighting : Lighting) (ws : List VTW) (h : generateVtws sc threshold lighting = .ok ws)
    (hinc : sc.julian.Pairwise (· < ·)) (h0 : ¬ Visible sc threshold lighting 0) (k : ℕ) (t : ℚ)
    (hk : sc.julian[k]? = some t) (hv : Visible sc threshold lighting k) :
    ∃ w ∈ ws, w.rise < t ∧ t ≤ w.set := by
  obtain ⟨runs, -, h2, -, h4⟩ := runs_of_ok sc wf threshold lighting ws h
  obtain ⟨a, b, hm, hak, hkb⟩ := run_around _ sc.julian.length k hv (hv.lt_length wf)
  obtain ⟨w, hw, w1, w2, -, -⟩ := forall₂_mem_left h4 ((h2 a b).2 hm)
  have ha : a ≠ 0 := by
    rintro rfl
    exact h0 (hm.2.2.1 0 le_rfl hm.1)
  simp only [ha, if_false] at w1 w2
  exact ⟨w, hw, sample_lt _ hinc _ _ _ _ w1 hk (by omega), sample_le _ hinc _ _ _ _ hk w2 hkb⟩

/-- **C79 (failure).** When the first sample is visible, no sample of the pass under way at the
start of the series is covered by any window. -/
theorem C79_first_pass_not_covered (sc : Scene K) (wf : sc.WellFormed) (threshold : K)
    (lighting : Lighting) (ws : List VTW) (h : generateVtws sc threshold lighting = .ok ws)
    (hinc : sc.julian.Pairwise (· < ·)) (k : ℕ) (t : ℚ) (hk : sc.julian[k]? = some t)
    (hv : ∀ j ≤ k, Visible sc threshold lighting j) :
    ∀ w ∈ ws, ¬ (w.rise < t ∧ t ≤ w.set) := by
  rintro w hw ⟨hr, hs⟩
  obtain ⟨runs, -, h2, -, h4⟩ := runs_of_ok sc wf threshold lighting ws h
  obtain ⟨⟨a, b⟩, hp, w1, w2, -, -⟩ := forall₂_mem_right h4 hw
  simp only at w1 w2
  obtain ⟨m1, m2, m3, m4, m5⟩ := (h2 a b).1 hp
  have ha := proper_window hinc w1 w2 (lt_of_lt_of_le hr hs)
  rw [if_neg ha] at w1
  have h5 := index_lt _ hinc _ _ _ _ w1 hk hr
  rcases m4 with m4 | m4
  · exact ha m4
  · exact m4 (hv _ (by omega))

/-- Non-vacuity for C79: two passes, the first under way at the start; sample 3 is covered,
samples 0 and 1 are not. -/
example : (generateVtws (sceneQ [0, 1, 2, 3] [30, 20, 5, 11] [1, 1, 1, 1] [4, 3, 2, 1]) 10
    .anytime).toOption.map (·.map fun w => (w.rise, w.set)) = some [(3, 1), (2, 3)] := by
  decide +kernel

/-! ### C77: stricter conditions -/

/-- **C77 (partial).** If the first sample is not visible under the looser condition, every window
generated under the stricter condition takes place during a window generated under the looser
one.  Missing: a first sample visible under the looser condition, where the claim is false
(`C77_stricter_window_outside`). -/
theorem C77_stricter_windows_within_partial (sc : Scene K) (wf : sc.WellFormed) (t t' : K)
    (l l' : Lighting) (hst : Stricter t' l' t l) (ws ws' : List VTW)
    (h : generateVtws sc t l = .ok ws) (h' : generateVtws sc t' l' = .ok ws')
    (hinc : sc.julian.Pairwise (· < ·)) (h0 : ¬ Visible sc t l 0) :
    ∀ w ∈ ws', ∃ v ∈ ws, Within w v := by
  intro w hw
  obtain ⟨runs, -, h2, -, h4⟩ := runs_of_ok sc wf t l ws h
  obtain ⟨runs', -, h2', -, h4'⟩ := runs_of_ok sc wf t' l' ws' h'
  obtain ⟨⟨a, b⟩, hp, w1, w2, -, -⟩ := forall₂_mem_right h4' hw
  simp only at w1 w2
  obtain ⟨m1, m2, m3, m4, m5⟩ := (h2' a b).1 hp
  have hvis : ∀ k, a ≤ k → k ≤ b → Visible sc t l k := fun k x y => hst.visible (m3 k x y)
  obtain ⟨c, d, ⟨n1, n2, n3, n4, n5⟩, hca, had⟩ :=
    run_around _ sc.julian.length a (hvis a le_rfl m1) (by omega)
  have hbd : b ≤ d := by
    by_contra hc
    rcases n5 with n5 | n5
    · omega
    · exact n5 (hvis _ (by omega) (by omega))
  obtain ⟨v, hv, v1, v2, -, -⟩ := forall₂_mem_left h4 ((h2 c d).2 ⟨n1, n2, n3, n4, n5⟩)
  simp only at v1 v2
  have hc0 : c ≠ 0 := by
    rintro rfl
    exact h0 (n3 0 le_rfl n1)
  rw [if_neg hc0] at v1
  rw [if_neg (by omega)] at w1
  exact ⟨v, hv, sample_le _ hinc _ _ _ _ v1 w1 (by omega), sample_le _ hinc _ _ _ _ w2 v2 hbd⟩

/-- **C77 (failure).** If the first sample is visible under the looser condition and the pass goes
on until a sample visible under the stricter condition, which the first sample is not, then some
window generated under the stricter condition takes place during no window generated under the
looser one. -/
theorem C77_stricter_window_outside (sc : Scene K) (wf : sc.WellFormed) (t t' : K)
    (l l' : Lighting) (ws ws' : List VTW)
    (h : generateVtws sc t l = .ok ws) (h' : generateVtws sc t' l' = .ok ws')
    (hinc : sc.julian.Pairwise (· < ·)) (k : ℕ) (hk : ∀ j ≤ k, Visible sc t l j)
    (h0 : ¬ Visible sc t' l' 0) (hk' : Visible sc t' l' k) :
    ∃ w ∈ ws', ∀ v ∈ ws, ¬ Within w v := by
  have hkl := hk'.lt_length wf
  obtain ⟨w, hw, hr, hs⟩ := C79_covers_partial sc wf t' l' ws' h' hinc h0 k _
    (List.getElem?_eq_getElem hkl) hk'
  refine ⟨w, hw, fun v hv hwv => ?_⟩
  exact C79_first_pass_not_covered sc wf t l ws h hinc k _ (List.getElem?_eq_getElem hkl) hk v hv
    ⟨lt_of_le_of_lt hwv.1 hr, hs.trans hwv.2⟩

/-- Non-vacuity for C77, holding: threshold 20 by day against threshold 10 at any time. -/
example : Stricter 20 .day 10 .anytime ∧
    (generateVtws (sceneQ [0, 1, 2, 3, 4] [5, 12, 25, 30, 12] [1, 1, 1, 1, -1] [4, 3, 2, 1, 0]) 20
      .day).toOption.map (·.map fun w => (w.rise, w.set)) = some [(1, 3)] ∧
    (generateVtws (sceneQ [0, 1, 2, 3, 4] [5, 12, 25, 30, 12] [1, 1, 1, 1, -1] [4, 3, 2, 1, 0]) 10
      .anytime).toOption.map (·.map fun w => (w.rise, w.set)) = some [(0, 4)] := by
  refine ⟨⟨by norm_num, Or.inl rfl⟩, by decide +kernel, by decide +kernel⟩

/-- Non-vacuity for C77, failing: raising the threshold from 10 to 20 degrees turns the window
from 4 back to 4 into a window from 1 to 3. -/
example :
    (generateVtws (sceneQ [0, 1, 2, 3, 4] [15, 12, 25, 30, 12] [1, 1, 1, 1, 1] [4, 3, 2, 1, 0]) 20
      .anytime).toOption.map (·.map fun w => (w.rise, w.set)) = some [(1, 3)] ∧
    (generateVtws (sceneQ [0, 1, 2, 3, 4] [15, 12, 25, 30, 12] [1, 1, 1, 1, 1] [4, 3, 2, 1, 0]) 10
      .anytime).toOption.map (·.map fun w => (w.rise, w.set)) = some [(4, 4)] := by
  refine ⟨by decide +kernel, by decide +kernel⟩

/-! ### C78: day and night -/

/-- **C78.** No instant is strictly inside both a window generated for daylight and one generated
for night, whatever the thresholds. -/
theorem C78_day_night_disjoint (sc : Scene K) (wf : sc.WellFormed) (t t' : K) (ws ws' : List VTW)
    (h : generateVtws sc t .day = .ok ws) (h' : generateVtws sc t' .night = .ok ws')
    (hinc : sc.julian.Pairwise (· < ·)) (v : VTW) (hv : v ∈ ws) (w : VTW) (hw : w ∈ ws') (x : ℚ) :
    ¬ ((v.rise < x ∧ x < v.set) ∧ (w.rise < x ∧ x < w.set)) := by
  rintro ⟨⟨x1, x2⟩, x3, x4⟩
  obtain ⟨runs, -, h2, -, h4⟩ := runs_of_ok sc wf t .day ws h
  obtain ⟨runs', -, h2', -, h4'⟩ := runs_of_ok sc wf t' .night ws' h'
  obtain ⟨⟨a, b⟩, hp, v1, v2, -, -⟩ := forall₂_mem_right h4 hv
  obtain ⟨⟨c, d⟩, hq, w1, w2, -, -⟩ := forall₂_mem_right h4' hw
  simp only at v1 v2 w1 w2
  obtain ⟨m1, m2, m3, -, -⟩ := (h2 a b).1 hp
  obtain ⟨n1, n2, n3, -, -⟩ := (h2' c d).1 hq
  have ha := proper_window hinc v1 v2 (x1.trans x2)
  have hc := proper_window hinc w1 w2 (x3.trans x4)
  rw [if_neg ha] at v1
  rw [if_neg hc] at w1
  have hdis : b < c ∨ d < a := by
    by_contra hcon
    push Not at hcon
    obtain ⟨-, s, hs, hs0⟩ := m3 (max a c) (le_max_left _ _) (by omega)
    obtain ⟨-, s', hs', hs0'⟩ := n3 (max a c) (le_max_right _ _) (by omega)
    rw [hs] at hs'
    cases hs'
    exact lt_asymm hs0 hs0'
  rcases hdis with hd | hd
  · have := sample_le _ hinc _ _ _ _ v2 w1 (by omega)
    linarith
  · have := sample_le _ hinc _ _ _ _ w2 v1 (by omega)
    linarith

/-- **C78.** Every window generated for daylight or for night has only daylit, respectively dark,
samples after its rise time up to and including its set time. -/
theorem C78_lighting_respected (sc : Scene K) (wf : sc.WellFormed) (t : K) (lighting : Lighting)
    (ws : List VTW) (h : generateVtws sc t lighting = .ok ws) (hinc : sc.julian.Pairwise (· < ·))
    (w : VTW) (hw : w ∈ ws) (k : ℕ) (x : ℚ) (sun : K) (hk : sc.julian[k]? = some x)
    (hsun : sc.sunElevation[k]? = some (some sun)) (hr : w.rise < x) (hs : x ≤ w.set) :
    (lighting = .day → 0 < sun) ∧ (lighting = .night → sun < 0) := by
  obtain ⟨-, hl⟩ := C79_contains_only_visible_partial sc wf t lighting ws h hinc w hw k x hk hr hs
  refine ⟨?_, ?_⟩
  · rintro rfl
    obtain ⟨s, h1, h2⟩ := hl
    rw [hsun] at h1; cases h1; exact h2
  · rintro rfl
    obtain ⟨s, h1, h2⟩ := hl
    rw [hsun] at h1; cases h1; exact h2

/-- Non-vacuity for C78: a pass across sunset gives a day window and a night window that touch. -/
example : demo.WellFormed ∧ demo.julian.Pairwise (· < ·) ∧
    (generateVtws demo 10 .day).toOption.map (·.map fun w => (w.rise, w.set)) =
      some [(1, 2), (5, 6)] ∧
    (generateVtws demo 10 .night).toOption.map (·.map fun w => (w.rise, w.set)) =
      some [(2, 3)] := by
  refine ⟨⟨rfl, rfl, rfl⟩, by decide +kernel, by decide +kernel, by decide +kernel⟩

end Celest.Windows
