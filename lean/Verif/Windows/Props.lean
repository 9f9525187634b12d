/-
Properties C23-C27.
-/
import Verif.Windows.Lemmas
import Mathlib.Data.List.Induction
import Verif.Schedule.PropsQuality

namespace Celest.Windows

open Celest.Schedule (VTW)

variable {K : Type} [LinearOrder K] [Zero K] [OfNat K 90]

/-- A scene with velocities and rational elevations. -/
def sceneQ (julian elevation sunElevation pitch : List ℚ) : Scene ℚ :=
  ⟨true, julian, elevation.map some, sunElevation.map some, pitch⟩

/-- A scene used for the non-vacuity examples: samples 2, 3 and 6 are above 10 degrees. -/
def demo : Scene ℚ :=
  (sceneQ [0, 1, 2, 3, 4, 5, 6, 7] [-5, 3, 12, 30, 10, 2, 11, 1] [1, 1, 1, -1, -1, 1, 1, 1] [80, 70, 60, 50, 40, 30, 20, 10])

/-- **C23.** With valid arguments and at least one visible sample, `generate_vtws` returns one
window for each maximal block of consecutive visible samples, in chronological order, and no
other.  Each window sets at the last visible sample, rises at the sample before the first
visible one (the last sample of the series if the block starts at the first sample) and carries
the complete attitude series. -/
theorem C23_windows_are_maximal_runs_partial (sc : Scene K) (wf : sc.WellFormed) (threshold : K)
    (lighting : Lighting) (hv : sc.hasVelocity = true) (ht : 0 ≤ threshold ∧ threshold ≤ 90)
    (hl : lighting ≠ .invalid) (hvis : ∃ k, Visible sc threshold lighting k) :
    ∃ (runs : List (ℕ × ℕ)) (ws : List VTW), generateVtws sc threshold lighting = .ok ws ∧
      (∀ a b, (a, b) ∈ runs ↔
        MaximalRun (Visible sc threshold lighting) sc.julian.length a b) ∧
      runs.Pairwise (fun p q => p.2 < q.1) ∧
      List.Forall₂ (fun p w =>
        sc.julian[if p.1 = 0 then sc.julian.length - 1 else p.1 - 1]? = some w.rise ∧
        sc.julian[p.2]? = some w.set ∧ w.attTime = sc.julian ∧ w.attPitch = sc.pitch)
        runs ws := by
  obtain ⟨li, hli, hs, hmem⟩ := indices_spec sc wf threshold lighting hl
  have hPn : ∀ k, Visible sc threshold lighting k → k < sc.julian.length := by
    rintro k ⟨⟨e, he, -⟩, -⟩
    rw [← wf.1]
    exact (List.getElem?_eq_some_iff.1 he).1
  have hne : intersect1d (whereIndices (fun e => e.any (threshold < ·)) sc.elevation) li ≠ [] := by
    obtain ⟨k, hk⟩ := hvis
    exact List.ne_nil_of_mem ((hmem k).2 hk)
  obtain ⟨runs, h1, h2, h3, h4, -⟩ := split_blocks _ hne hs
  have h4' : ∀ k, Visible sc threshold lighting k ↔ ∃ p ∈ runs, p.1 ≤ k ∧ k ≤ p.2 := by
    intro k; rw [← hmem, h4]
  have hn : ∀ p ∈ runs, p.2 < sc.julian.length := fun p hp =>
    hPn _ ((h4' p.2).2 ⟨p, hp, h2 p hp, le_rfl⟩)
  obtain ⟨ws, hw1, hw2⟩ := mapM_toWindow sc runs h2 hn
  refine ⟨runs, ws, ?_, maximalRun_iff _ _ hPn runs h2 h3 h4', h3.imp (by intros; omega), hw2⟩
  have hb : ¬ (threshold < 0 ∨ 90 < threshold) := by
    rintro (h | h)
    · exact not_lt.2 ht.1 h
    · exact not_lt.2 ht.2 h
  unfold generateVtws
  simp only [hv, hli, Bool.not_true, Bool.false_eq_true, if_false, Bool.or_eq_true,
    decide_eq_true_eq, hb, h1, hw1]

/-- Non-vacuity for C23. -/
example : demo.WellFormed ∧ Visible demo 10 .anytime 2 ∧
    (generateVtws demo 10 .anytime).toOption.map (·.map fun w => (w.rise, w.set)) =
      some [(1, 3), (5, 6)] ∧
    (generateVtws demo 10 .day).toOption.map (·.map fun w => (w.rise, w.set)) =
      some [(1, 2), (5, 6)] ∧
    (generateVtws demo 10 .night).toOption.map (·.map fun w => (w.rise, w.set)) =
      some [(2, 3)] := by
  refine ⟨by unfold Scene.WellFormed; decide, ⟨⟨12, rfl, by norm_num⟩, trivial⟩, ?_, ?_, ?_⟩ <;>
  decide +kernel

/-- **C23 (rejected arguments).** A satellite without velocity, a threshold outside [0, 90] or
an unknown lighting condition is refused, whatever the samples. -/
theorem C23_rejected_arguments_partial (sc : Scene K) (threshold : K) (lighting : Lighting)
    (h : sc.hasVelocity = false ∨ threshold < 0 ∨ 90 < threshold ∨ lighting = .invalid) :
    generateVtws sc threshold lighting =
      .error (if sc.hasVelocity then .valueError else .warning) := by
  unfold generateVtws
  cases hv : sc.hasVelocity with
  | false => simp
  | true =>
    simp only [hv, Bool.true_eq_false, false_or] at h
    by_cases hb : threshold < 0 ∨ 90 < threshold
    · simp [hb]
    · have hl : lighting = .invalid := by tauto
      simp [hb, hl, lightingIndices]

/-- A call that returned had valid arguments. -/
theorem valid_of_ok (sc : Scene K) (threshold : K) (lighting : Lighting) (ws : List VTW)
    (h : generateVtws sc threshold lighting = .ok ws) :
    sc.hasVelocity = true ∧ (0 ≤ threshold ∧ threshold ≤ 90) ∧ lighting ≠ .invalid := by
  by_contra hc
  rw [C23_rejected_arguments_partial sc threshold lighting (by
    by_contra hn
    push Not at hn
    obtain ⟨h1, h2, h3, h4⟩ := hn
    exact hc ⟨by simpa using h1, ⟨h2, h3⟩, h4⟩)] at h
  cases h

/-- Every sample satisfying `P` lies in a maximal run; one at position 0 in a run from 0. -/
theorem exists_maximalRun_zero (P : ℕ → Prop) (n : ℕ) (h0 : P 0) (hn : 0 < n) :
    ∃ b, MaximalRun P n 0 b := by
  classical
  have hex : ∃ b, b + 1 = n ∨ ¬ P (b + 1) := ⟨n - 1, Or.inl (by omega)⟩
  refine ⟨Nat.find hex, by omega, ?_, ?_, Or.inl rfl, Nat.find_spec hex⟩
  · have : Nat.find hex ≤ n - 1 := Nat.find_min' hex (Or.inl (by omega))
    omega
  · intro k _ hk
    cases k with
    | zero => exact h0
    | succ k =>
      have := Nat.find_min hex (m := k) (by omega)
      push Not at this
      exact this.2

theorem exists_maximalRun (P : ℕ → Prop) : ∀ (n k : ℕ), P k → k < n →
    ∃ a b, MaximalRun P n a b := by
  intro n k
  induction k generalizing P n with
  | zero =>
    intro h hn
    obtain ⟨b, hb⟩ := exists_maximalRun_zero P n h hn
    exact ⟨0, b, hb⟩
  | succ k ih =>
    intro h hn
    by_cases h0 : P 0
    · obtain ⟨b, hb⟩ := exists_maximalRun_zero P n h0 (by omega)
      exact ⟨0, b, hb⟩
    · obtain ⟨a, b, h1, h2, h3, h4, h5⟩ := ih (fun j => P (j + 1)) (n - 1) h (by omega)
      refine ⟨a + 1, b + 1, by omega, by omega, ?_, ?_, ?_⟩
      · intro j hj1 hj2
        have := h3 (j - 1) (by omega) (by omega)
        simpa [show j - 1 + 1 = j by omega] using this
      · right
        rcases h4 with rfl | h4
        · exact h0
        · by_cases ha : a = 0
          · subst ha; exact h0
          · simpa [show a - 1 + 1 = a by omega] using h4
      · rcases h5 with h5 | h5
        · left; omega
        · right; exact h5

/-- A member of the right list of a `Forall₂` has a partner. -/
theorem forall₂_mem_right {α β : Type} {R : α → β → Prop} {l : List α} {m : List β}
    (h : List.Forall₂ R l m) {y : β} (hy : y ∈ m) : ∃ x ∈ l, R x y := by
  induction h with
  | nil => simp at hy
  | cons h _ ih =>
    rcases List.mem_cons.1 hy with rfl | hy
    · exact ⟨_, by simp, h⟩
    · obtain ⟨x, hx, hr⟩ := ih hy
      exact ⟨x, by simp [hx], hr⟩

/-- **C25.** With valid arguments but no visible sample at all, `generate_vtws` does not return
an empty collection: it always raises `IndexError`. -/
theorem C25_no_visible_sample_raises (sc : Scene K) (wf : sc.WellFormed) (threshold : K)
    (lighting : Lighting) (hv : sc.hasVelocity = true) (ht : 0 ≤ threshold ∧ threshold ≤ 90)
    (hl : lighting ≠ .invalid) (hvis : ∀ k, ¬ Visible sc threshold lighting k) :
    generateVtws sc threshold lighting = .error .indexError := by
  obtain ⟨li, hli, hs, hmem⟩ := indices_spec sc wf threshold lighting hl
  have he : intersect1d (whereIndices (fun e => e.any (threshold < ·)) sc.elevation) li = [] := by
    rw [List.eq_nil_iff_forall_not_mem]
    intro k hk
    exact hvis k ((hmem k).1 hk)
  have hb : ¬ (threshold < 0 ∨ 90 < threshold) := by
    rintro (h | h)
    · exact not_lt.2 ht.1 h
    · exact not_lt.2 ht.2 h
  unfold generateVtws
  simp only [hv, hli, Bool.not_true, Bool.false_eq_true, if_false, Bool.or_eq_true,
    decide_eq_true_eq, hb, he]
  rfl

/-- Non-vacuity for C25: a satellite that stays below the threshold. -/
example : (∀ k, ¬ Visible demo 60 .anytime k) ∧
    generateVtws demo 60 .anytime = .error .indexError := by
  refine ⟨?_, by decide +kernel⟩
  rintro k ⟨⟨e, he, hlt⟩, -⟩
  have hm := List.mem_of_getElem? he
  have : ∀ x ∈ demo.elevation, x.all (· ≤ 60) := by decide +kernel
  have h60 : e ≤ 60 := by simpa using this _ hm
  linarith

/-- **C25 (never empty).** A collection returned by `generate_vtws` always holds a window. -/
theorem C25_never_returns_empty (sc : Scene K) (wf : sc.WellFormed) (threshold : K)
    (lighting : Lighting) : generateVtws sc threshold lighting ≠ .ok [] := by
  intro h
  obtain ⟨hv, ht, hl⟩ := valid_of_ok sc threshold lighting [] h
  by_cases hvis : ∃ k, Visible sc threshold lighting k
  · obtain ⟨runs, ws, h1, h2, h3, h4⟩ :=
      C23_windows_are_maximal_runs_partial sc wf threshold lighting hv ht hl hvis
    rw [h] at h1
    cases h1
    cases h4
    obtain ⟨k, hk⟩ := hvis
    obtain ⟨a, b, hab⟩ := exists_maximalRun _ sc.julian.length k hk (by
      obtain ⟨⟨e, he, -⟩, -⟩ := hk
      rw [← wf.1]
      exact (List.getElem?_eq_some_iff.1 he).1)
    exact absurd ((h2 a b).2 hab) (by simp)
  · rw [C25_no_visible_sample_raises sc wf threshold lighting hv ht hl (by simpa using hvis)] at h
    cases h

/-- C23 read off a call that returned. -/
theorem runs_of_ok (sc : Scene K) (wf : sc.WellFormed) (threshold : K)
    (lighting : Lighting) (ws : List VTW) (h : generateVtws sc threshold lighting = .ok ws) :
    ∃ (runs : List (ℕ × ℕ)), runs ≠ [] ∧
      (∀ a b, (a, b) ∈ runs ↔
        MaximalRun (Visible sc threshold lighting) sc.julian.length a b) ∧
      runs.Pairwise (fun p q => p.2 < q.1) ∧
      List.Forall₂ (fun p w =>
        sc.julian[if p.1 = 0 then sc.julian.length - 1 else p.1 - 1]? = some w.rise ∧
        sc.julian[p.2]? = some w.set ∧ w.attTime = sc.julian ∧ w.attPitch = sc.pitch)
        runs ws := by
  obtain ⟨hv, ht, hl⟩ := valid_of_ok sc threshold lighting ws h
  by_cases hvis : ∃ k, Visible sc threshold lighting k
  · obtain ⟨runs, ws', h1, h2, h3, h4⟩ :=
      C23_windows_are_maximal_runs_partial sc wf threshold lighting hv ht hl hvis
    rw [h] at h1
    cases h1
    refine ⟨runs, ?_, h2, h3, h4⟩
    rintro rfl
    cases h4
    exact C25_never_returns_empty sc wf threshold lighting h
  · rw [C25_no_visible_sample_raises sc wf threshold lighting hv ht hl (by simpa using hvis)] at h
    cases h

/-- In a strictly increasing series, earlier samples are those with smaller index. -/
theorem sample_lt (l : List ℚ) (h : l.Pairwise (· < ·)) (i j : ℕ) (x y : ℚ)
    (hi : l[i]? = some x) (hj : l[j]? = some y) (hij : i < j) : x < y := by
  obtain ⟨h1, rfl⟩ := List.getElem?_eq_some_iff.1 hi
  obtain ⟨h2, rfl⟩ := List.getElem?_eq_some_iff.1 hj
  exact List.pairwise_iff_getElem.1 h i j h1 h2 hij

/-- **C24 (partial).** If sample times increase strictly and the first sample is not visible,
every window rises strictly before it sets and sets strictly before the next one rises.
Missing: series whose first sample is visible, where the claim is false
(`C24_first_sample_visible`). -/
theorem C24_windows_ordered_disjoint_partial (sc : Scene K) (wf : sc.WellFormed) (threshold : K)
    (lighting : Lighting) (ws : List VTW) (h : generateVtws sc threshold lighting = .ok ws)
    (hinc : sc.julian.Pairwise (· < ·)) (h0 : ¬ Visible sc threshold lighting 0) :
    (∀ w ∈ ws, w.rise < w.set) ∧ ws.Pairwise (fun v w => v.set < w.rise) := by
  obtain ⟨runs, -, h2, h3, h4⟩ := runs_of_ok sc wf threshold lighting ws h
  have hpos : ∀ p ∈ runs, 0 < p.1 ∧ p.1 ≤ p.2 ∧ ¬ Visible sc threshold lighting (p.1 - 1) := by
    rintro ⟨a, b⟩ hp
    obtain ⟨m1, m2, m3, m4, m5⟩ := (h2 a b).1 hp
    have ha : a ≠ 0 := by
      rintro rfl
      exact h0 (m3 0 le_rfl m1)
    exact ⟨by simp only; omega, m1, by tauto⟩
  have hvis2 : ∀ p ∈ runs, Visible sc threshold lighting p.2 := by
    rintro ⟨a, b⟩ hp
    obtain ⟨m1, m2, m3, m4, m5⟩ := (h2 a b).1 hp
    exact m3 b m1 le_rfl
  clear h h2
  induction h4 with
  | nil => simp
  | @cons p w runs ws hpw hf ih =>
    rw [List.pairwise_cons] at h3
    obtain ⟨ih1, ih2⟩ := ih h3.2 (fun q hq => hpos q (by simp [hq]))
      (fun q hq => hvis2 q (by simp [hq]))
    obtain ⟨p1, p2, p3⟩ := hpos p (by simp)
    obtain ⟨w1, w2, -, -⟩ := hpw
    rw [if_neg (by omega)] at w1
    refine ⟨?_, List.pairwise_cons.2 ⟨?_, ih2⟩⟩
    · intro v hv
      rcases List.mem_cons.1 hv with rfl | hv
      · exact sample_lt _ hinc _ _ _ _ w1 w2 (by omega)
      · exact ih1 v hv
    · intro v hv
      obtain ⟨q, hq, hqv⟩ := forall₂_mem_right hf hv
      obtain ⟨q1, q2, q3⟩ := hpos q (by simp [hq])
      have hlt := h3.1 q hq
      obtain ⟨v1, -, -, -⟩ := hqv
      rw [if_neg (by omega)] at v1
      have hne : p.2 ≠ q.1 - 1 := fun he => q3 (he ▸ hvis2 p (by simp))
      exact sample_lt _ hinc _ _ _ _ w2 v1 (by omega)

/-- Non-vacuity for C24. -/
example : demo.julian.Pairwise (· < ·) ∧ ¬ Visible demo 10 .anytime 0 := by
  refine ⟨by decide +kernel, ?_⟩
  rintro ⟨⟨e, he, hlt⟩, -⟩
  simp only [demo, sceneQ, List.map_cons, List.getElem?_cons_zero, Option.some.injEq] at he
  subst he
  norm_num at hlt

/-- **C24 (failure).** If the first sample is visible, the first window's rise time is the last
sample time of the whole series, so it does not rise before it sets. -/
theorem C24_first_sample_visible (sc : Scene K) (wf : sc.WellFormed) (threshold : K)
    (lighting : Lighting) (ws : List VTW) (h : generateVtws sc threshold lighting = .ok ws)
    (hinc : sc.julian.Pairwise (· < ·)) (h0 : Visible sc threshold lighting 0) :
    ∃ w, ws.head? = some w ∧ sc.julian.getLast? = some w.rise ∧ w.set ≤ w.rise := by
  obtain ⟨runs, hne, h2, h3, h4⟩ := runs_of_ok sc wf threshold lighting ws h
  have hn : 0 < sc.julian.length := by
    obtain ⟨⟨e, he, -⟩, -⟩ := h0
    rw [← wf.1]
    exact (List.getElem?_eq_some_iff.1 he).1
  obtain ⟨a, b, hab⟩ := exists_maximalRun _ sc.julian.length 0 h0 hn
  cases h4 with
  | nil => exact absurd rfl hne
  | @cons p w runs ws hpw _ =>
    have hp0 : p.1 = 0 := by
      have hp := (h2 p.1 p.2).1 (by simp)
      obtain ⟨b', hb'⟩ := exists_maximalRun_zero _ sc.julian.length h0 hn
      have hm := (h2 0 b').2 hb'
      rcases List.mem_cons.1 hm with he | hm
      · rw [← he]
      · have := (List.pairwise_cons.1 h3).1 _ hm
        simp only at this
        omega
    obtain ⟨w1, w2, -, -⟩ := hpw
    rw [if_pos hp0] at w1
    refine ⟨w, rfl, ?_, ?_⟩
    · rw [List.getLast?_eq_getElem?]; exact w1
    · have hb : p.2 < sc.julian.length := (List.getElem?_eq_some_iff.1 w2).1
      rcases Nat.lt_or_ge p.2 (sc.julian.length - 1) with hlt | hge
      · exact (sample_lt _ hinc _ _ _ _ w2 w1 hlt).le
      · have : p.2 = sc.julian.length - 1 := by omega
        rw [this, w1] at w2
        simp only [Option.some.injEq] at w2
        exact w2.ge

/-- The failing case of C24 occurs: a pass already under way at the first sample. -/
example : (generateVtws (sceneQ [0, 1, 2, 3] [30, 20, 5, 1] [1, 1, 1, 1] [4, 3, 2, 1]) 10
    .anytime).toOption.map (·.map fun w => (w.rise, w.set)) = some [(3, 1)] := by
  decide +kernel

/-- **C22 on generated windows.** For every window of a series whose first sample is not
visible, and every requested angle, the look-angle search of the scheduler returns; a time it
returns lies in the window. -/
theorem C22_generated_windows (sc : Scene K) (wf : sc.WellFormed) (threshold : K)
    (lighting : Lighting) (ws : List VTW) (h : generateVtws sc threshold lighting = .ok ws)
    (hinc : sc.julian.Pairwise (· < ·)) (h0 : ¬ Visible sc threshold lighting 0)
    (w : VTW) (hw : w ∈ ws) (desired : ℚ) :
    ∃ res, Schedule.lookAngleTime w.attPitch desired w.attTime w.rise w.set = .ok res ∧
      ∀ t, res = some t → w.rise ≤ t ∧ t < w.set := by
  obtain ⟨runs, -, h2, h3, h4⟩ := runs_of_ok sc wf threshold lighting ws h
  obtain ⟨⟨a, b⟩, hp, w1, w2, w3, w4⟩ := forall₂_mem_right h4 hw
  obtain ⟨m1, m2, m3, m4, m5⟩ := (h2 a b).1 hp
  have ha : a ≠ 0 := by
    rintro rfl
    exact h0 (m3 0 le_rfl m1)
  rw [if_neg ha] at w1
  simp only at w1 w2
  have hidx : ∀ (i : ℕ) (x : ℚ), sc.julian[i]? = some x → sc.julian.idxOf? x = some i := by
    intro i x hx
    obtain ⟨hi, rfl⟩ := List.getElem?_eq_some_iff.1 hx
    rw [List.idxOf?_eq_some_iff]
    refine ⟨hi, by simp, ?_⟩
    intro j hj
    have := List.pairwise_iff_getElem.1 hinc j i (by omega) hi hj
    exact this.ne
  have hpl : b < sc.pitch.length := by rw [wf.2.2]; exact m2
  obtain ⟨res, r1, r2, r3⟩ := Schedule.C22_bisection sc.pitch sc.julian desired w.rise w.set
    (a - 1) b (by omega) (hidx _ _ w1) (hidx _ _ w2) hpl sc.pitch[a - 1] sc.pitch[b]
    (List.getElem?_eq_getElem (by omega)) (List.getElem?_eq_getElem (by omega))
  rw [w3, w4]
  refine ⟨res, r1, ?_⟩
  intro t ht
  obtain ⟨i, x, y, i1, i2, i3, -⟩ := r3 t ht
  refine ⟨?_, sample_lt _ hinc _ _ _ _ i3 w2 i2⟩
  rcases Nat.lt_or_ge (a - 1) i with hlt | hge
  · exact (sample_lt _ hinc _ _ _ _ w1 i3 hlt).le
  · have : i = a - 1 := by omega
    rw [this, w1] at i3
    exact (Option.some.inj i3).le

/-! ### The window collection -/

/-- Is an argument of `add_window` a window at all? -/
abbrev Window.isWindow (w : Window) : Prop := w.kind ≠ .other

/-- What a collection should hold after adding `ws` one by one, ignoring refusals: the windows
of the same class as the first one that is a window. -/
def expectedContents (ws : List Window) : List Window :=
  match ws.filter (fun w => w.isWindow) with
  | [] => []
  | first :: _ => ws.filter fun w => w.kind = first.kind

/-- Adding a list of arguments one by one. -/
def addAll (ws : List Window) : Collection := ws.foldl (fun c w => (c.add w).1) Collection.empty

theorem expectedContents_snoc (ws : List Window) (w : Window) :
    expectedContents (ws ++ [w]) = expectedContents ws ++
      (if w.isWindow ∧ ∀ first ∈ (expectedContents ws).head?, w.kind = first.kind
        then [w] else []) := by
  unfold expectedContents
  rw [List.filter_append]
  cases hf : ws.filter (fun w => w.isWindow) with
  | nil =>
    by_cases hw : w.isWindow
    · have : ws.filter (fun v => v.kind = w.kind) = [] := by
        rw [List.filter_eq_nil_iff] at hf ⊢
        intro v hv
        have := hf v hv
        simp only [decide_eq_true_eq, Window.isWindow, ne_eq, not_not] at this ⊢
        rw [this]
        exact fun h => hw h.symm
      simp [hw, this]
    · simp [hw]
  | cons first t =>
    have hfirst : (ws.filter (fun v => v.kind = first.kind)).head? = some first := by
      have hsub : ws.filter (fun v => v.kind = first.kind) =
          (ws.filter (fun w => w.isWindow)).filter (fun v => v.kind = first.kind) := by
        rw [List.filter_filter]
        apply List.filter_congr
        intro v _
        have hfw : first.isWindow := by
          have : first ∈ ws.filter (fun w => w.isWindow) := by rw [hf]; simp
          simpa using (List.mem_filter.1 this).2
        by_cases hk : v.kind = first.kind
        · have : v.isWindow := by unfold Window.isWindow at hfw ⊢; rw [hk]; exact hfw
          simpa [hk] using hfw
        · simp [hk]
      rw [hsub, hf]
      simp
    have hfw : first.isWindow := by
      have : first ∈ ws.filter (fun w => w.isWindow) := by rw [hf]; simp
      simpa using (List.mem_filter.1 this).2
    simp only [List.cons_append]
    rw [List.filter_append, hfirst]
    by_cases hk : w.kind = first.kind
    · have : w.isWindow := by unfold Window.isWindow at hfw ⊢; rw [hk]; exact hfw
      simpa [hk] using hfw
    · simp [hk]

/-- **C26.** Whatever is passed to `add_window`, in any order, the collection afterwards holds,
in order, exactly the arguments of the class of the first window passed: all windows in it have
one class and no accepted window is lost or repeated.  The next call raises `TypeError` exactly
if its argument is no window or of the other class, and then leaves the collection as it
was. -/
theorem C26_collection_homogeneous (ws : List Window) (w : Window) :
    (addAll ws).data = expectedContents ws ∧
    (∀ v ∈ (addAll ws).data, ∀ v' ∈ (addAll ws).data, v.kind = v'.kind ∧ v.kind ≠ .other) ∧
    (((addAll ws).add w).2 =
      if w.isWindow ∧ ∀ v ∈ (addAll ws).data, v.kind = w.kind then none else some .typeError) ∧
    (((addAll ws).add w).2 ≠ none → ((addAll ws).add w).1 = addAll ws) ∧
    (((addAll ws).add w).2 = none → ((addAll ws).add w).1.data = (addAll ws).data ++ [w]) := by
  have hadd : ∀ (c : Collection) (w : Window), (c.add w).1.data = c.data ++
      (if w.isWindow ∧ ∀ first ∈ c.data.head?, w.kind = first.kind then [w] else []) := by
    intro c w
    unfold Collection.add Window.isWindow
    by_cases hw : w.kind = .other
    · simp [hw]
    · cases hd : c.data with
      | nil => simp [hw]
      | cons first t =>
        by_cases hk : w.kind = first.kind
        · have hw' : first.kind ≠ .other := hk ▸ hw
          simp [hk, hw']
        · simp [hw, hk, hd]
  have hdata : ∀ ws : List Window, (addAll ws).data = expectedContents ws := by
    intro ws
    induction ws using List.reverseRecOn with
    | nil => rfl
    | append_singleton ws w ih =>
      rw [expectedContents_snoc, ← ih]
      unfold addAll
      rw [List.foldl_append]
      exact hadd _ w
  have hhom : ∀ v ∈ (addAll ws).data, ∀ v' ∈ (addAll ws).data,
      v.kind = v'.kind ∧ v.kind ≠ .other := by
    rw [hdata]
    unfold expectedContents
    cases hf : ws.filter (fun w => w.isWindow) with
    | nil => simp
    | cons first t =>
      have hfw : first.isWindow := by
        have : first ∈ ws.filter (fun w => w.isWindow) := by rw [hf]; simp
        simpa using (List.mem_filter.1 this).2
      intro v hv v' hv'
      have h1 := (List.mem_filter.1 hv).2
      have h2 := (List.mem_filter.1 hv').2
      simp only [decide_eq_true_eq] at h1 h2
      exact ⟨h1.trans h2.symm, h1 ▸ hfw⟩
  refine ⟨hdata ws, hhom, ?_, ?_, ?_⟩
  · generalize addAll ws = c at hhom
    unfold Collection.add Window.isWindow
    by_cases hw : w.kind = .other
    · simp [hw]
    · cases hd : c.data with
      | nil => simp [hw]
      | cons first t =>
        rw [hd] at hhom
        have hall : (∀ v ∈ first :: t, v.kind = w.kind) ↔ w.kind = first.kind := by
          constructor
          · intro h; exact (h first (by simp)).symm
          · intro h v hv; rw [h]; exact (hhom v hv first (by simp)).1
        by_cases hk : w.kind = first.kind
        · have := hall.2 hk
          rw [if_neg hw, if_pos ⟨hw, this⟩]
          simp only [hk, if_true]
        · have : ¬ ∀ v ∈ first :: t, v.kind = w.kind := fun h => hk (hall.1 h)
          rw [if_neg hw, if_neg (fun h => this h.2)]
          simp only [hk, if_false]
  · generalize addAll ws = c
    unfold Collection.add
    split
    · simp
    · split
      · simp
      · split <;> simp
  · generalize addAll ws = c
    unfold Collection.add
    split
    · simp
    · split
      · simp
      · split <;> simp

/-- Windows for the examples. -/
def demoW (k : ℕ) : Window := .visible ⟨k, k + 1, [], []⟩

/-- An observation for the examples. -/
def demoO : Window := .observation ⟨0, 1, 3, []⟩

/-- Non-vacuity for C26. -/
example : (addAll [.other 7, demoW 0, demoO, demoW 2]).data = [demoW 0, demoW 2] ∧
    ((addAll [.other 7, demoW 0]).add demoO).2 = some .typeError ∧
    ((addAll [.other 7, demoW 0]).add (demoW 1)).2 = none := by decide +kernel

theorem next_lt (c : Collection) (h : c.index < c.data.length) :
    c.next = (some c.data[c.index], { c with index := c.index + 1 }) := by
  unfold Collection.next
  rw [if_pos h, List.getElem?_eq_getElem h]

theorem next_ge (c : Collection) (h : ¬ c.index < c.data.length) :
    c.next = (none, { c with index := 0 }) := by
  unfold Collection.next
  rw [if_neg h]

/-- A complete loop visits what is left from the current index and resets the index. -/
theorem forLoop_all : ∀ (fuel k : ℕ) (c : Collection), c.data.length - c.index < fuel →
    c.forLoop (fun _ c => (c, false)) fuel k =
      (c.data.drop c.index, { c with index := 0 }, true) := by
  intro fuel
  induction fuel with
  | zero => intro k c h; omega
  | succ fuel ih =>
    intro k c h
    unfold Collection.forLoop
    by_cases hi : c.index < c.data.length
    · rw [next_lt c hi]
      simp only
      rw [ih _ _ (by simp only; omega)]
      simp only
      rw [List.drop_eq_getElem_cons hi]
    · rw [next_ge c hi]
      simp only
      rw [List.drop_eq_nil_of_le (by omega)]

theorem loopAll_eq (c : Collection) :
    c.loopAll = (c.data.drop c.index, { c with index := 0 }, true) :=
  forLoop_all _ _ _ (by omega)

/-- A loop left by `break` in pass `n` visits at most `n` windows. -/
theorem forLoop_break (n : ℕ) : ∀ (fuel k : ℕ) (c : Collection), k < n →
    c.data.length - c.index < fuel →
    c.forLoop (fun k c => (c, k + 1 = n)) fuel k =
      ((c.data.drop c.index).take (n - k),
        { c with index := if c.index + (n - k) ≤ c.data.length then c.index + (n - k) else 0 },
        true) := by
  intro fuel
  induction fuel with
  | zero => intro k c _ h; omega
  | succ fuel ih =>
    intro k c hk h
    unfold Collection.forLoop
    by_cases hi : c.index < c.data.length
    · rw [next_lt c hi]
      simp only
      by_cases hn : k + 1 = n
      · have : n - k = 1 := by omega
        simp only [hn, decide_true, this]
        rw [if_pos (by omega), List.drop_eq_getElem_cons hi, List.take_succ_cons, List.take_zero]
      · simp only [hn, decide_false]
        rw [ih _ _ (by omega) (by simp only; omega)]
        simp only
        rw [List.drop_eq_getElem_cons hi]
        have h1 : n - k = (n - (k + 1)) + 1 := by omega
        rw [h1, List.take_succ_cons]
        have h2 : c.index + 1 + (n - (k + 1)) = c.index + (n - (k + 1) + 1) := by omega
        rw [h2]
    · rw [next_ge c hi]
      simp only
      rw [List.drop_eq_nil_of_le (by omega), if_neg (by omega)]
      simp

/-- Does a step leave the iteration index alone? -/
def Use.complete : Use → Prop
  | .add _ => True
  | .loop => True
  | .loopBreak _ => False

theorem index_zero (us : List Use) (h : ∀ u ∈ us, u.complete) : (Collection.run us).index = 0 := by
  unfold Collection.run
  induction us using List.reverseRecOn with
  | nil => rfl
  | append_singleton us u ih =>
    rw [List.foldl_append]
    have h1 := ih (fun v hv => h v (by simp [hv]))
    have h2 := h u (by simp)
    generalize us.foldl Collection.use Collection.empty = c at h1
    cases u with
    | add w =>
      simp only [List.foldl_cons, List.foldl_nil, Collection.use, Collection.add]
      split
      · exact h1
      · split
        · exact h1
        · split <;> exact h1
    | loop =>
      simp only [List.foldl_cons, List.foldl_nil, Collection.use, loopAll_eq]
    | loopBreak n => exact h2.elim

/-- **C27 (partial).** After any history of additions and completed loops, a loop over the
collection terminates having visited every window once, in order of addition.  Missing:
histories with a loop left early, and nested loops, where the claim is false
(`C27_stale_after_break`, `C27_nested_never_ends`). -/
theorem C27_complete_loops_partial (us : List Use) (h : ∀ u ∈ us, u.complete) :
    (Collection.run us).loopAll =
      ((Collection.run us).data, Collection.run us, true) := by
  have h0 := index_zero us h
  rw [loopAll_eq]
  generalize Collection.run us = c at h0
  obtain ⟨d, i⟩ := c
  simp only at h0
  subst h0
  simp

/-- **C27 (failure, early exit).** After additions and completed loops, a loop left by `break`
in pass `n` makes the next loop skip the first `n` windows. -/
theorem C27_stale_after_break (us : List Use) (h : ∀ u ∈ us, u.complete) (n : ℕ) (hn : 0 < n)
    (hlen : n ≤ (Collection.run us).data.length) :
    ((Collection.run us).use (.loopBreak n)).loopAll.1 = (Collection.run us).data.drop n := by
  have h0 := index_zero us h
  generalize Collection.run us = c at h0 hlen
  show (c.loopBreak n).2.1.loopAll.1 = _
  unfold Collection.loopBreak
  rw [forLoop_break n _ _ _ hn (by omega), loopAll_eq]
  simp only [h0, Nat.zero_add, Nat.sub_zero, hlen, if_true]

/-- **C27 (failure, nested loops).** A loop over a nonempty collection whose body runs a
complete loop over the same collection never ends: however many passes are made, it goes on,
and every pass but possibly the first visits the first window. -/
theorem C27_nested_never_ends (c : Collection) (first : Window) (hf : c.data.head? = some first)
    (h0 : c.index = 0) (fuel : ℕ) :
    c.loopNested fuel = (List.replicate fuel first, c, false) := by
  unfold Collection.loopNested
  have key : ∀ (fuel k : ℕ), c.forLoop (fun _ c => (c.loopAll.2.1, false)) fuel k =
      (List.replicate fuel first, c, false) := by
    intro fuel
    induction fuel with
    | zero => intro k; rfl
    | succ fuel ih =>
      intro k
      have hlen : c.index < c.data.length := by
        rw [h0]
        cases hd : c.data with
        | nil => rw [hd] at hf; simp at hf
        | cons a l => simp
      unfold Collection.forLoop
      rw [next_lt c hlen]
      simp only
      have hc : ({ c with index := c.index + 1 } : Collection).loopAll.2.1 = c := by
        rw [loopAll_eq]
        obtain ⟨d, i⟩ := c
        simp only at h0
        subst h0
        rfl
      have hx : c.data[c.index] = first := by
        rw [List.head?_eq_getElem?] at hf
        have := List.getElem?_eq_some_iff.1 hf
        obtain ⟨_, h⟩ := this
        simp only [h0]
        exact h
      rw [hc, ih, hx]
      rfl
  exact key fuel 0

/-- Non-vacuity for C27. -/
example : (Collection.run [.add (demoW 0), .loop, .add (demoW 1), .add (demoW 2)]).loopAll.1 =
      [demoW 0, demoW 1, demoW 2] ∧
    (Collection.run [.add (demoW 0), .add (demoW 1), .add (demoW 2),
      .loopBreak 2]).loopAll.1 = [demoW 2] ∧
    ((Collection.run [.add (demoW 0), .add (demoW 1)]).loopNested 3) =
      ([demoW 0, demoW 0, demoW 0], Collection.run [.add (demoW 0), .add (demoW 1)], false) := by
  decide +kernel

/-- **C27 (indexing).** `collection[k]` returns the `k`-th window added, counting from the end
for negative `k`, and raises `IndexError` exactly outside `-len .. len - 1`. -/
theorem C27_indexing_partial (c : Collection) (k : ℤ) :
    (∀ w, c.get k = .ok w ↔ (0 ≤ k ∧ c.data[k.toNat]? = some w) ∨
      (k < 0 ∧ 0 ≤ k + c.data.length ∧ c.data[(k + c.data.length).toNat]? = some w)) ∧
    (c.get k = .error .indexError ↔ k < -(c.data.length : ℤ) ∨ (c.data.length : ℤ) ≤ k) := by
  unfold Collection.get pyGet
  by_cases hk : k < 0
  · simp only [hk, if_true]
    by_cases h2 : k + (c.data.length : ℤ) < 0
    · simp only [h2, if_true]
      refine ⟨?_, ?_⟩
      · intro w
        constructor
        · intro h; cases h
        · rintro (h | h) <;> omega
      · simp only [true_iff]; omega
    · simp only [h2, if_false]
      have hlt : (k + (c.data.length : ℤ)).toNat < c.data.length := by omega
      rw [List.getElem?_eq_getElem hlt]
      refine ⟨?_, ?_⟩
      · intro w
        constructor
        · intro h; cases h; right; exact ⟨trivial, by omega, rfl⟩
        · rintro (h | ⟨-, -, h⟩)
          · omega
          · cases h; rfl
      · constructor
        · intro h; cases h
        · intro h; omega
  · simp only [hk, if_false]
    cases hg : c.data[k.toNat]? with
    | none =>
      have := List.getElem?_eq_none_iff.1 hg
      refine ⟨?_, ?_⟩
      · intro w
        constructor
        · intro h; cases h
        · rintro (⟨-, h⟩ | ⟨h, -⟩)
          · cases h
          · exact h.elim
      · simp only [true_iff]; omega
    | some x =>
      have := (List.getElem?_eq_some_iff.1 hg).1
      refine ⟨?_, ?_⟩
      · intro w
        constructor
        · intro h; cases h; left; exact ⟨by omega, rfl⟩
        · rintro (⟨-, h⟩ | ⟨h, -⟩)
          · cases h; rfl
          · exact h.elim
      · constructor
        · intro h; cases h
        · intro h; omega

/-- Non-vacuity for indexing. -/
example : (Collection.run [.add (demoW 0), .add (demoW 1)]).get (-1) = .ok (demoW 1) ∧
    (Collection.run [.add (demoW 0), .add (demoW 1)]).get 2 = .error .indexError := by
  decide +kernel

end Celest.Windows
