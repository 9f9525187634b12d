/-
C119: the windows are the passes, one for one, and rise and set times are true to one sample.
-/
import Verif.Windows.PropsBetween

namespace Celest.Windows

open Celest.Schedule (VTW)
open Celest.Frames Celest.TimeScale Matrix

/-! ### Specification -/

/-- At the instant `τ`, sampled or not, the satellite is above the mask and the Sun on the requested
side of the horizon. -/
def InSight (g : Ground) (p q : ℝ → Vec) (threshold : ℝ) (lighting : Lighting) (τ : ℝ) : Prop :=
  zenithAngle g (p τ) < rad (90 - threshold) ∧ SunWithin g 0 (q τ) lighting

/-- `passes` are the intervals, in order, at which `V` holds between `first` and `last`; each takes
longer than `gap`, and there are at least `gap` days between two of them. -/
structure Passes (V : ℝ → Prop) (first last gap : ℝ) (passes : List (ℝ × ℝ)) : Prop where
  holds : ∀ τ, first ≤ τ → τ ≤ last → (V τ ↔ ∃ q ∈ passes, q.1 < τ ∧ τ < q.2)
  inside : ∀ q ∈ passes, first ≤ q.1 ∧ q.2 ≤ last
  long : ∀ q ∈ passes, gap < q.2 - q.1
  apart : passes.Pairwise fun q r => q.2 + gap ≤ r.1

/-- The window `w` reports the pass from `q.1` to `q.2`: it begins and ends at most a sampling
interval early, and its length is right to a sampling interval. -/
def Reports (gap : ℝ) (q : ℝ × ℝ) (w : VTW) : Prop :=
  ((w.rise : ℝ) ≤ q.1 ∧ q.1 < w.rise + gap) ∧ ((w.set : ℝ) < q.2 ∧ q.2 ≤ w.set + gap) ∧
    |((w.set : ℝ) - w.rise) - (q.2 - q.1)| ≤ gap

/-- At the instant `τ` the satellite crosses the mask, or the Sun, if it matters, the horizon. -/
def Crossing (g : Ground) (p q : ℝ → Vec) (threshold : ℝ) (lighting : Lighting) (τ : ℝ) : Prop :=
  zenithAngle g (p τ) = rad (90 - threshold) ∨
    (lighting ≠ .anytime ∧ zenithAngle g (q τ) = Real.pi / 2)

/-! ### Matching ordered lists -/

theorem forall₂_of_ordered {α β : Type} {R : α → β → Prop} {P : α → α → Prop} {Q : β → β → Prop}
    (hP : ∀ a b a' b', R a b → R a' b' → P a a' → ¬ P a' a)
    (h1 : ∀ a b a' b', R a b → R a' b' → P a a' → Q b b')
    (h2 : ∀ a b a' b', R a b → R a' b' → Q b b' → P a a') :
    ∀ (l : List α) (m : List β), l.Pairwise P → m.Pairwise Q → (∀ a ∈ l, ∃ b ∈ m, R a b) →
      (∀ b ∈ m, ∃ a ∈ l, R a b) → List.Forall₂ R l m
  | [], [], _, _, _, _ => .nil
  | [], b :: m, _, _, _, hb => by
    obtain ⟨a, ha, -⟩ := hb b (by simp)
    simp at ha
  | a :: l, [], _, _, ha, _ => by
    obtain ⟨b, hb, -⟩ := ha a (by simp)
    simp at hb
  | a :: l, b :: m, hl, hm, ha, hb => by
    rw [List.pairwise_cons] at hl hm
    have hab : R a b := by
      obtain ⟨b', hb', hr⟩ := ha a (by simp)
      obtain ⟨a', ha', hr'⟩ := hb b (by simp)
      rcases List.mem_cons.1 hb' with rfl | hb'
      · exact hr
      rcases List.mem_cons.1 ha' with rfl | ha'
      · exact hr'
      exact absurd (h2 _ _ _ _ hr' hr (hm.1 b' hb')) (hP _ _ _ _ hr hr' (hl.1 a' ha'))
    refine .cons hab (forall₂_of_ordered hP h1 h2 l m hl.2 hm.2 ?_ ?_)
    · intro x hx
      obtain ⟨y, hy, hr⟩ := ha x (by simp [hx])
      rcases List.mem_cons.1 hy with rfl | hy
      · have hp := h2 _ _ _ _ hab hab (h1 _ _ _ _ hab hr (hl.1 x hx))
        exact absurd hp (hP _ _ _ _ hab hab hp)
      · exact ⟨y, hy, hr⟩
    · intro y hy
      obtain ⟨x, hx, hr⟩ := hb y (by simp [hy])
      rcases List.mem_cons.1 hx with rfl | hx
      · have hp := h2 _ _ _ _ hab hr (hm.1 y hy)
        exact absurd hp (hP _ _ _ _ hab hab hp)
      · exact ⟨x, hx, hr⟩

theorem forall₂_comp {α β γ : Type} {R : α → β → Prop} {S : β → γ → Prop} {l : List α} {m : List β}
    {n : List γ} (h : List.Forall₂ R l m) (h' : List.Forall₂ S m n) :
    List.Forall₂ (fun a c => ∃ b, R a b ∧ S b c) l n := by
  induction h generalizing n with
  | nil =>
    cases h'
    exact .nil
  | cons hR _ ih =>
    cases h' with
    | cons hS hs => exact .cons ⟨_, hR, hS⟩ (ih hs)

/-! ### Passes and samples -/

section

variable {V : ℝ → Prop} {times : List ℚ} {first last gap : ℝ} {passes : List (ℝ × ℝ)}

theorem Passes.trichotomy (h : Passes V first last gap passes) {q r : ℝ × ℝ}
    (hq : q ∈ passes) (hr : r ∈ passes) : q = r ∨ q.2 + gap ≤ r.1 ∨ r.2 + gap ≤ q.1 :=
  List.Pairwise.forall_of_forall_of_flip (R := fun q r : ℝ × ℝ => q = r ∨ q.2 + gap ≤ r.1 ∨
    r.2 + gap ≤ q.1) (fun _ _ => Or.inl rfl) (h.apart.imp fun hx => Or.inr (Or.inl hx))
    (h.apart.imp fun hx => Or.inr (Or.inr hx)) hq hr

/-- Consecutive visible samples belong to the same pass. -/
theorem Passes.same (h : Passes V first last gap passes) (hg : 0 ≤ gap) {q r : ℝ × ℝ}
    (hq : q ∈ passes) (hr : r ∈ passes) {x y : ℝ} (h1 : q.1 < x) (h2 : x < q.2) (h3 : r.1 < y)
    (h4 : y < r.2) (hxy : x ≤ y) (hgap : y - x ≤ gap) : q = r := by
  rcases h.trichotomy hq hr with h | h | h
  · exact h
  · linarith
  · linarith

/-- All samples of a run are in one pass. -/
theorem Passes.run (h : Passes V first last gap passes) (hg : 0 ≤ gap)
    (hinc : times.Pairwise (· < ·)) (hgap : GapsAtMost times gap)
    (hin : ∀ t ∈ times, first ≤ (t : ℝ) ∧ (t : ℝ) ≤ last) (a n : ℕ) (x : ℚ)
    (hx : times[a]? = some x) {q : ℝ × ℝ} (hq : q ∈ passes) (h1 : q.1 < x) (h2 : (x : ℝ) < q.2)
    (y : ℚ) (hy : times[a + n]? = some y)
    (hV : ∀ k t, a ≤ k → k ≤ a + n → times[k]? = some t → V (t : ℚ)) :
    q.1 < y ∧ (y : ℝ) < q.2 := by
  induction n generalizing y with
  | zero =>
    rw [Nat.add_zero, hx] at hy
    cases hy
    exact ⟨h1, h2⟩
  | succ n ih =>
    have hlt := (List.getElem?_eq_some_iff.1 hy).1
    obtain ⟨c, hc⟩ : ∃ c, times[a + n]? = some c := ⟨_, List.getElem?_eq_getElem (by omega)⟩
    obtain ⟨i1, i2⟩ := ih c hc fun k t k1 k2 => hV k t k1 (by omega)
    obtain ⟨y1, y2⟩ := hin y (List.mem_of_getElem? hy)
    obtain ⟨r, hr, r1, r2⟩ := (h.holds y y1 y2).1 (hV _ y (by omega) le_rfl hy)
    have hcy : (c : ℝ) < y := by exact_mod_cast sample_lt _ hinc _ _ _ _ hc hy (by omega)
    obtain rfl := h.same hg hq hr i1 i2 r1 r2 hcy.le (hgap _ _ _ hc hy)
    exact ⟨r1, r2⟩

/-- Every pass has a sample. -/
theorem Passes.sampled (h : Passes V first last gap passes) {f l : ℚ} (hf : times.head? = some f)
    (hl : times.getLast? = some l) (hf' : first = f) (hl' : last = l) (hg : 0 ≤ gap)
    (hgap : GapsAtMost times gap) {q : ℝ × ℝ} (hq : q ∈ passes) :
    ∃ (k : ℕ) (t : ℚ), times[k]? = some t ∧ q.1 < t ∧ (t : ℝ) < q.2 := by
  have h0 : times[0]? = some f := by rw [← List.head?_eq_getElem?]; exact hf
  have h1 : times[0 + (times.length - 1)]? = some l := by
    rw [zero_add, ← List.getLast?_eq_getElem?]; exact hl
  obtain ⟨i1, i2⟩ := h.inside q hq
  have h2 := h.long q hq
  -- the instant `gap` after the beginning of the pass
  obtain ⟨k, x, y, -, -, hx, hy, hxτ, hyτ⟩ := between_samples times (q.2 - (q.2 - q.1 - gap) / 2) 0
    (times.length - 1) f l h0 h1 (by linarith) (by linarith)
  have hg' := hgap k x y hx hy
  by_cases hc : q.1 < x
  · exact ⟨k, x, hx, hc, by linarith⟩
  · refine ⟨k + 1, y, hy, by linarith, ?_⟩
    linarith

end

/-! ### C119 -/

/-- The windows of a scene whose samples are visible exactly at the instants at which `V` holds. -/
theorem windows_report {K : Type} [LinearOrder K] [Zero K] [OfNat K 90] (sc : Scene K)
    (wf : sc.WellFormed) (threshold : K) (lighting : Lighting) (hv : sc.hasVelocity = true)
    (ht : 0 ≤ threshold ∧ threshold ≤ 90) (hl : lighting ≠ .invalid)
    (hinc : sc.julian.Pairwise (· < ·)) (gap : ℝ) (hgap : GapsAtMost sc.julian gap)
    (first last : ℚ) (hfirst : sc.julian.head? = some first)
    (hlast : sc.julian.getLast? = some last) (V : ℝ → Prop)
    (hV : ∀ (k : ℕ) (t : ℚ), sc.julian[k]? = some t → (Visible sc threshold lighting k ↔ V t))
    (passes : List (ℝ × ℝ)) (h : Passes V first last gap passes) (hg : 0 ≤ gap)
    (hne : passes ≠ []) :
    ∃ ws, generateVtws sc threshold lighting = .ok ws ∧ List.Forall₂ (Reports gap) passes ws := by
  set times := sc.julian with htimes
  have h0 : times[0]? = some first := by rw [← List.head?_eq_getElem?]; exact hfirst
  have h1 : times[times.length - 1]? = some last := by
    rw [← List.getLast?_eq_getElem?]; exact hlast
  have hin : ∀ t ∈ times, (first : ℝ) ≤ (t : ℝ) ∧ (t : ℝ) ≤ last := by
    intro t htm
    obtain ⟨k, hk⟩ := List.mem_iff_getElem?.1 htm
    have hkn := (List.getElem?_eq_some_iff.1 hk).1
    exact ⟨by exact_mod_cast sample_le _ hinc _ _ _ _ h0 hk (Nat.zero_le _),
      by exact_mod_cast sample_le _ hinc _ _ _ _ hk h1 (by omega)⟩
  have hvis : ∃ k, Visible sc threshold lighting k := by
    obtain ⟨q, hq⟩ := List.exists_mem_of_ne_nil _ hne
    obtain ⟨k, t, hk, k1, k2⟩ := h.sampled hfirst hlast rfl rfl hg hgap hq
    obtain ⟨t1, t2⟩ := hin t (List.mem_of_getElem? hk)
    exact ⟨k, (hV k t hk).2 ((h.holds t t1 t2).2 ⟨q, hq, k1, k2⟩)⟩
  obtain ⟨runs, ws, hok, r2, r3, r4⟩ :=
    C23_windows_are_maximal_runs_partial sc wf threshold lighting hv ht hl hvis
  refine ⟨ws, hok, ?_⟩
  -- a pass and the run of its samples
  let R : ℝ × ℝ → ℕ × ℕ → Prop := fun q r => q ∈ passes ∧
    MaximalRun (Visible sc threshold lighting) times.length r.1 r.2 ∧
    ∃ x y : ℚ, times[r.1]? = some x ∧ times[r.2]? = some y ∧ q.1 < x ∧ (y : ℝ) < q.2
  -- every run belongs to the pass of any of its samples
  have run : ∀ a b, MaximalRun (Visible sc threshold lighting) times.length a b →
      ∃ q ∈ passes, R q (a, b) := by
    intro a b hm
    obtain ⟨m1, m2, m3, -, -⟩ := id hm
    obtain ⟨x, hx⟩ : ∃ x, times[a]? = some x := ⟨_, List.getElem?_eq_getElem (by omega)⟩
    obtain ⟨y, hy⟩ : ∃ y, times[b]? = some y := ⟨_, List.getElem?_eq_getElem m2⟩
    obtain ⟨x1, x2⟩ := hin x (List.mem_of_getElem? hx)
    obtain ⟨q, hq, q1, q2⟩ := (h.holds x x1 x2).1 ((hV a x hx).1 (m3 a le_rfl m1))
    have := h.run hg hinc hgap hin a (b - a) x hx hq q1 q2 y
      (by rw [Nat.add_sub_cancel' m1]; exact hy)
      fun k t k1 k2 hk => (hV k t hk).1 (m3 k k1 (by omega))
    exact ⟨q, hq, hq, hm, x, y, hx, hy, q1, this.2⟩
  have hord : List.Forall₂ R passes runs := by
    refine forall₂_of_ordered (P := fun q r : ℝ × ℝ => q.2 + gap ≤ r.1)
      (Q := fun p q : ℕ × ℕ => p.2 < q.1) ?_ ?_ ?_ _ _ h.apart r3 ?_ ?_
    · rintro q - r - ⟨hq, -⟩ ⟨hr, -⟩ hp hp'
      have := h.long q hq
      have := h.long r hr
      linarith
    · rintro q ⟨a, b⟩ r ⟨c, d⟩ ⟨hq, -, x, y, hx, hy, k1, k2⟩ ⟨hr, -, z, w, hz, hw, k3, k4⟩ hp
      refine index_lt _ hinc b c y z hy hz ?_
      have : (y : ℝ) < z := by linarith
      exact_mod_cast this
    · rintro q ⟨a, b⟩ r ⟨c, d⟩ ⟨hq, hm, x, y, hx, hy, k1, k2⟩ ⟨hr, hm', z, w, hz, hw, k3, k4⟩ hp
      simp only at hx hy hz hw hp
      have hyz : (y : ℝ) < z := by exact_mod_cast sample_lt _ hinc _ _ _ _ hy hz hp
      have hxy : (x : ℝ) ≤ y := by exact_mod_cast sample_le _ hinc _ _ _ _ hx hy hm.1
      have hzw : (z : ℝ) ≤ w := by exact_mod_cast sample_le _ hinc _ _ _ _ hz hw hm'.1
      rcases h.trichotomy hq hr with rfl | hc | hc
      · exfalso
        rcases hm.2.2.2.2 with hb | hb
        · have := hm'.1
          have := hm'.2.1
          simp only at *
          omega
        · refine hb ?_
          have hcn := (List.getElem?_eq_some_iff.1 hz).1
          obtain ⟨t, htb⟩ : ∃ t, times[b + 1]? = some t :=
            ⟨_, List.getElem?_eq_getElem (by omega)⟩
          obtain ⟨t1, t2⟩ := hin t (List.mem_of_getElem? htb)
          refine (hV _ t htb).2 ((h.holds t t1 t2).2 ⟨q, hq, ?_, ?_⟩)
          · have : (y : ℝ) < t := by exact_mod_cast sample_lt _ hinc _ _ _ _ hy htb (by omega)
            linarith
          · have : (t : ℝ) ≤ z := by exact_mod_cast sample_le _ hinc _ _ _ _ htb hz (by omega)
            linarith
      · exact hc
      · exfalso
        linarith
    · intro q hq
      obtain ⟨k, t, hk, k1, k2⟩ := h.sampled hfirst hlast rfl rfl hg hgap hq
      obtain ⟨t1, t2⟩ := hin t (List.mem_of_getElem? hk)
      obtain ⟨a, b, hm, ha, hb⟩ := run_around _ times.length k
        ((hV k t hk).2 ((h.holds t t1 t2).2 ⟨q, hq, k1, k2⟩)) (List.getElem?_eq_some_iff.1 hk).1
      obtain ⟨r, hr, hR⟩ := run a b hm
      obtain ⟨-, -, x, y, hx, hy, r1, r2'⟩ := id hR
      have hxt : (x : ℝ) ≤ t := by exact_mod_cast sample_le _ hinc _ _ _ _ hx hk ha
      have hty : (t : ℝ) ≤ y := by exact_mod_cast sample_le _ hinc _ _ _ _ hk hy hb
      obtain rfl := h.same hg hq hr k1 k2 (by linarith : r.1 < t) (by linarith) le_rfl (by simpa)
      exact ⟨(a, b), (r2 a b).2 hm, hR⟩
    · rintro ⟨a, b⟩ hm
      exact run a b ((r2 a b).1 hm)
  have hcomp := List.Forall₂.imp (R := fun q w => ∃ r, R q r ∧
      (times[if r.1 = 0 then times.length - 1 else r.1 - 1]? = some w.rise ∧
        times[r.2]? = some w.set ∧ w.attTime = times ∧ w.attPitch = sc.pitch))
      (S := Reports gap) ?_ (?_ : List.Forall₂ _ passes ws)
  · exact hcomp
  · rintro q w ⟨⟨a, b⟩, ⟨hq, hm, x, y, hx, hy, q1, q2⟩, w1, w2, -, -⟩
    simp only at w1 w2 hx hy hm
    rw [hy] at w2
    cases w2
    obtain ⟨i1, i2⟩ := h.inside q hq
    obtain ⟨m1, m2, m3, m4, m5⟩ := hm
    have ha : a ≠ 0 := by
      rintro rfl
      rw [h0] at hx
      cases hx
      linarith
    rw [if_neg ha] at w1
    obtain ⟨t1, t2⟩ := hin _ (List.mem_of_getElem? w1)
    have hrx : (w.rise : ℝ) < x := by exact_mod_cast sample_lt _ hinc _ _ _ _ w1 hx (by omega)
    have hxy : (x : ℝ) ≤ w.set := by exact_mod_cast sample_le _ hinc _ _ _ _ hx hy m1
    have e1 : (w.rise : ℝ) ≤ q.1 := by
      by_contra hc
      refine m4.resolve_left ha ((hV _ _ w1).2 ((h.holds _ t1 t2).2 ⟨q, hq, ?_, ?_⟩)) <;> linarith
    have e2 : q.1 < w.rise + gap := by
      have := hgap (a - 1) _ _ w1 (by rw [Nat.sub_add_cancel (by omega)]; exact hx)
      linarith
    have hb : b + 1 ≠ times.length := by
      intro hb
      have : times.length - 1 = b := by omega
      rw [this, hy] at h1
      cases h1
      linarith
    obtain ⟨z, hz⟩ : ∃ z, times[b + 1]? = some z := ⟨_, List.getElem?_eq_getElem (by omega)⟩
    obtain ⟨z1, z2⟩ := hin z (List.mem_of_getElem? hz)
    have hyz : (w.set : ℝ) < z := by exact_mod_cast sample_lt _ hinc _ _ _ _ hy hz (by omega)
    have e3 : q.2 ≤ w.set + gap := by
      have hg' := hgap b _ _ hy hz
      have : q.2 ≤ z := by
        by_contra hc
        refine m5.resolve_left hb ((hV _ _ hz).2 ((h.holds _ z1 z2).2 ⟨q, hq, ?_, ?_⟩)) <;> linarith
      linarith
    refine ⟨⟨e1, e2⟩, ⟨q2, e3⟩, ?_⟩
    rw [abs_le]
    constructor <;> linarith
  · exact forall₂_comp hord r4

/-- **C119.** The windows are the passes, one for one: if the satellite is in sight of the station,
with the Sun on the requested side of the horizon, during some intervals that each take longer than
the sampling interval and are at least that far apart, `generate_vtws` returns exactly one window
for each of them, in order; each begins at most a sampling interval before the satellite rises, ends
at most a sampling interval before it sets, and is as long as the pass to a sampling interval. -/
theorem C119_windows_are_passes (s : Satellite) (g : Ground) (times : List ℚ) (sun : ℝ → Vec)
    (pitch : List ℚ) (threshold : ℝ) (lighting : Lighting) (p : ℝ → Vec) (gap : ℝ)
    (hp : s.points = times.map fun t : ℚ => p t) (hv : s.velocity.isSome)
    (hpitch : pitch.length = times.length) (hinc : times.Pairwise (· < ·))
    (hgap : GapsAtMost times gap) (hg : 0 ≤ gap) (h0 : 0 ≤ threshold) (h90 : threshold ≤ 90)
    (hl : lighting ≠ .invalid) (first last : ℚ) (hfirst : times.head? = some first)
    (hlast : times.getLast? = some last) (passes : List (ℝ × ℝ)) (hne : passes ≠ [])
    (h : Passes (InSight g p (fun t => gcrsToItrs1 t (sun t)) threshold lighting) first last gap
      passes) :
    ∃ ws, generateVtws (sceneOf s g times sun pitch) threshold lighting = .ok ws ∧
      List.Forall₂ (Reports gap) passes ws :=
  windows_report _ (sceneOf_wf' hp hpitch) threshold lighting hv ⟨h0, h90⟩ hl hinc gap hgap first
    last hfirst hlast _ (fun k t hk => visible_track hp h0 lighting k t hk) passes h hg hne

/-- A function that changes at most proportionally to time and changes sides has a zero. -/
theorem crossing_between {f : ℝ → ℝ} {c a b x : ℝ} (hf : ∀ s t, |f s - f t| ≤ c * |s - t|)
    (hab : a ≤ b) (h : (f a ≤ x ∧ x ≤ f b) ∨ (f b ≤ x ∧ x ≤ f a)) :
    ∃ τ, a ≤ τ ∧ τ ≤ b ∧ f τ = x := by
  have hc : Continuous f := by
    have hc0 : 0 ≤ c := by
      have := (abs_nonneg _).trans (hf 1 0)
      simpa using this
    exact (LipschitzWith.of_dist_le_mul (K := ⟨c, hc0⟩) fun s t => by
      rw [Real.dist_eq, Real.dist_eq]; exact hf s t).continuous
  rcases h with ⟨h1, h2⟩ | ⟨h1, h2⟩
  · obtain ⟨τ, ⟨t1, t2⟩, ht⟩ := intermediate_value_Icc hab hc.continuousOn ⟨h1, h2⟩
    exact ⟨τ, t1, t2, ht⟩
  · obtain ⟨τ, ⟨t1, t2⟩, ht⟩ := intermediate_value_Icc' hab hc.continuousOn ⟨h1, h2⟩
    exact ⟨τ, t1, t2, ht⟩

/-- Between an instant in sight and one out of sight there is a crossing. -/
theorem crossing_of {p q : ℝ → Vec} {g : Ground} {V d W e threshold : ℝ} {lighting : Lighting}
    (hsat : Track p g V d) (hsun : Track q g W e) (hl : lighting ≠ .invalid) {a b : ℝ}
    (hab : a ≤ b) (h : (InSight g p q threshold lighting a ∧ ¬ InSight g p q threshold lighting b) ∨
      (¬ InSight g p q threshold lighting a ∧ InSight g p q threshold lighting b)) :
    ∃ τ, a ≤ τ ∧ τ ≤ b ∧ Crossing g p q threshold lighting τ := by
  have key : ∀ u v, (u = a ∧ v = b ∨ u = b ∧ v = a) → InSight g p q threshold lighting u →
      ¬ InSight g p q threshold lighting v →
      ∃ τ, a ≤ τ ∧ τ ≤ b ∧ Crossing g p q threshold lighting τ := by
    rintro u v huv ⟨u1, u2⟩ hvn
    by_cases h1 : zenithAngle g (p v) < rad (90 - threshold)
    · have h2 : ¬ SunWithin g 0 (q v) lighting := fun hc => hvn ⟨h1, hc⟩
      have : lighting ≠ .anytime ∧ ((zenithAngle g (q u) ≤ Real.pi / 2 ∧
          Real.pi / 2 ≤ zenithAngle g (q v)) ∨ (zenithAngle g (q v) ≤ Real.pi / 2 ∧
          Real.pi / 2 ≤ zenithAngle g (q u))) := by
        cases lighting with
        | anytime => exact absurd trivial h2
        | invalid => exact absurd rfl hl
        | day =>
          simp only [SunWithin, add_zero, not_lt] at u2 h2
          exact ⟨by simp, Or.inl ⟨u2.le, h2⟩⟩
        | night =>
          simp only [SunWithin, sub_zero, not_lt] at u2 h2
          exact ⟨by simp, Or.inr ⟨h2, u2.le⟩⟩
      obtain ⟨τ, t1, t2, t3⟩ := crossing_between (f := fun t => zenithAngle g (q t))
        (x := Real.pi / 2) (C113_rate hsun) hab (by
          rcases huv with ⟨rfl, rfl⟩ | ⟨rfl, rfl⟩
          · exact this.2
          · exact this.2.symm)
      exact ⟨τ, t1, t2, Or.inr ⟨this.1, t3⟩⟩
    · obtain ⟨τ, t1, t2, t3⟩ := crossing_between (f := fun t => zenithAngle g (p t))
        (x := rad (90 - threshold)) (C113_rate hsat) hab (by
          rcases huv with ⟨rfl, rfl⟩ | ⟨rfl, rfl⟩
          · exact Or.inl ⟨u1.le, not_lt.1 h1⟩
          · exact Or.inr ⟨u1.le, not_lt.1 h1⟩)
      exact ⟨τ, t1, t2, Or.inl t3⟩
  rcases h with ⟨h1, h2⟩ | ⟨h1, h2⟩
  · exact key a b (Or.inl ⟨rfl, rfl⟩) h1 h2
  · exact key b a (Or.inr ⟨rfl, rfl⟩) h2 h1

/-- **C119.** Whatever the passes are like, rise and set times mark crossings: for a satellite and a
Sun of bounded speed, if the first sample is not visible, in the sampling interval from the rise time
of every window on the satellite crosses the mask or the Sun the horizon, and so in that from its set
time on, unless it is the last sample. -/
theorem C119_crossings (s : Satellite) (g : Ground) (times : List ℚ) (sun : ℝ → Vec)
    (pitch : List ℚ) (threshold : ℝ) (lighting : Lighting) (ws : List VTW) (p : ℝ → Vec)
    (V d W e gap : ℝ) (hp : s.points = times.map fun t : ℚ => p t)
    (hpitch : pitch.length = times.length) (hinc : times.Pairwise (· < ·))
    (hgap : GapsAtMost times gap) (hsat : Track p g V d)
    (hsun : Track (fun t => gcrsToItrs1 t (sun t)) g W e)
    (first : ℚ) (hfirst : times.head? = some first)
    (hinv : ¬ InSight g p (fun t => gcrsToItrs1 t (sun t)) threshold lighting first)
    (h : generateVtws (sceneOf s g times sun pitch) threshold lighting = .ok ws)
    (w : VTW) (hw : w ∈ ws) :
    (∃ τ : ℝ, (w.rise : ℝ) ≤ τ ∧ τ ≤ w.rise + gap ∧
      Crossing g p (fun t => gcrsToItrs1 t (sun t)) threshold lighting τ) ∧
    (times.getLast? = some w.set ∨ ∃ τ : ℝ, (w.set : ℝ) ≤ τ ∧ τ ≤ w.set + gap ∧
      Crossing g p (fun t => gcrsToItrs1 t (sun t)) threshold lighting τ) := by
  have h0 := (ok_threshold _ _ _ _ h).1
  obtain ⟨-, -, hl⟩ := valid_of_ok _ _ _ _ h
  have hwf := sceneOf_wf' (g := g) (sun := sun) hp hpitch
  have hV := fun (k : ℕ) (t : ℚ) hk =>
    visible_track (g := g) (sun := sun) (pitch := pitch) hp h0 lighting k t hk
  obtain ⟨runs, -, r2, -, r4⟩ := runs_of_ok _ hwf threshold lighting ws h
  obtain ⟨⟨a, b⟩, hpm, w1, w2, -, -⟩ := forall₂_mem_right r4 hw
  simp only at w1 w2
  obtain ⟨m1, m2, m3, m4, m5⟩ := (r2 a b).1 hpm
  change times[_]? = _ at w1
  change times[_]? = _ at w2
  change b < times.length at m2
  change b + 1 = times.length ∨ _ at m5
  have ha : a ≠ 0 := by
    rintro rfl
    have hf : times[0]? = some first := by rw [← List.head?_eq_getElem?]; exact hfirst
    exact hinv ((hV 0 first hf).1 (m3 0 le_rfl m1))
  rw [if_neg ha] at w1
  obtain ⟨x, hx⟩ : ∃ x, times[a]? = some x := ⟨_, List.getElem?_eq_getElem (by omega)⟩
  have hrx : (w.rise : ℝ) < x := by exact_mod_cast sample_lt _ hinc _ _ _ _ w1 hx (by omega)
  have hg1 := hgap (a - 1) _ _ w1 (by rw [Nat.sub_add_cancel (by omega)]; exact hx)
  constructor
  · obtain ⟨τ, t1, t2, t3⟩ := crossing_of (q := fun t => gcrsToItrs1 t (sun t))
      (threshold := threshold) (lighting := lighting) hsat hsun hl hrx.le
      (Or.inr ⟨fun hc => m4.resolve_left ha ((hV _ _ w1).2 hc), (hV a x hx).1 (m3 a le_rfl m1)⟩)
    exact ⟨τ, t1, by linarith, t3⟩
  · by_cases hb : b + 1 = times.length
    · left
      rw [List.getLast?_eq_getElem?, show times.length - 1 = b by omega]
      exact w2
    · right
      obtain ⟨z, hz⟩ : ∃ z, times[b + 1]? = some z := ⟨_, List.getElem?_eq_getElem (by omega)⟩
      have hyz : (w.set : ℝ) < z := by exact_mod_cast sample_lt _ hinc _ _ _ _ w2 hz (by omega)
      have hg2 := hgap b _ _ w2 hz
      obtain ⟨τ, t1, t2, t3⟩ := crossing_of (q := fun t => gcrsToItrs1 t (sun t))
        (threshold := threshold) (lighting := lighting) hsat hsun hl hyz.le
        (Or.inl ⟨(hV b _ w2).1 (m3 b m1 le_rfl), fun hc => m5.resolve_left hb ((hV _ _ hz).2 hc)⟩)
      exact ⟨τ, t1, by linarith, t3⟩

/-! ### concrete data -/

/-- A path that passes over the station at latitude and longitude 0, turns, and passes again. -/
noncomputable def twice (t : ℝ) : Vec := ![2 * axisA, axisA * ((|t - 10| - 5) / 2), 0]

/-- 21 samples, one a day. -/
def days21 : List ℚ := (List.range 21).map fun k : ℕ => (k : ℚ)

theorem twice_from (t : ℝ) :
    twice t - origin.itrs = ![axisA, axisA * ((|t - 10| - 5) / 2), 0] := by
  rw [origin_itrs]
  ext i
  fin_cases i <;> simp [twice]
  ring

theorem twice_norm (t : ℝ) : vnorm (twice t - origin.itrs) =
    axisA * Real.sqrt (1 + ((|t - 10| - 5) / 2) ^ 2) := by
  have hA := axisA_pos
  rw [twice_from, vnorm, show axisA * Real.sqrt (1 + ((|t - 10| - 5) / 2) ^ 2) =
    Real.sqrt (axisA ^ 2 * (1 + ((|t - 10| - 5) / 2) ^ 2)) by
    rw [Real.sqrt_mul (by positivity), Real.sqrt_sq hA.le]]
  congr 1
  simp [dotProduct, Fin.sum_univ_three]
  ring

theorem twice_track : Track twice origin axisA axisA where
  pos := axisA_pos
  speed a b := by
    have hA := axisA_pos
    have e : vnorm (twice a - twice b) = axisA * (|(|a - 10| - |b - 10|)| / 2) := by
      rw [vnorm, ← Real.sqrt_sq (by positivity : 0 ≤ axisA * (|(|a - 10| - |b - 10|)| / 2))]
      congr 1
      rw [mul_pow, div_pow, sq_abs]
      simp only [twice, dotProduct, Fin.sum_univ_three, Pi.sub_apply, Matrix.cons_val_zero,
        Matrix.cons_val_one, Matrix.cons_val_two, Matrix.head_cons, Matrix.tail_cons]
      ring
    have h := abs_abs_sub_abs_le_abs_sub (a - 10) (b - 10)
    rw [sub_sub_sub_cancel_right] at h
    rw [e]
    have := abs_nonneg (|a - 10| - |b - 10|)
    nlinarith
  range a := by
    have hA := axisA_pos
    rw [twice_norm]
    have : 1 ≤ Real.sqrt (1 + ((|a - 10| - 5) / 2) ^ 2) := Real.one_le_sqrt.2 (by
      linarith [sq_nonneg ((|a - 10| - 5) / 2)])
    nlinarith

theorem twice_sight (t : ℝ) : zenithAngle origin (twice t) < rad (90 - 45) ↔
    (3 < t ∧ t < 7) ∨ (13 < t ∧ t < 17) := by
  have hA := axisA_pos
  have hpi := Real.pi_pos
  have hn := twice_norm t
  set y := (|t - 10| - 5) / 2 with hy
  have hz : zenithAngle origin (twice t) = Real.arccos (1 / Real.sqrt (1 + y ^ 2)) := by
    have hr : 0 < Real.sqrt (1 + y ^ 2) := by positivity
    have ho : vnorm origin.itrs = axisA := by
      rw [origin_itrs, vnorm, show ![axisA, 0, 0] ⬝ᵥ ![axisA, 0, 0] = axisA ^ 2 by
        simp [dotProduct, Fin.sum_univ_three]
        ring]
      exact Real.sqrt_sq hA.le
    rw [zenithAngle, InnerProductGeometry.angle, inner_toE, norm_toE, norm_toE, hn, twice_from, ho,
      origin_itrs]
    congr 1
    simp only [dotProduct, Fin.sum_univ_three, Matrix.cons_val_zero, Matrix.cons_val_one,
      Matrix.cons_val_two, Matrix.head_cons, Matrix.tail_cons]
    field_simp
    ring
  have h1 : zenithAngle origin (twice t) < rad (90 - 45) ↔ y ^ 2 < 1 := by
    rw [hz, show rad (90 - 45) = Real.arccos (1 / Real.sqrt 2) by
      rw [← Real.arccos_cos (x := rad (90 - 45)) (by unfold rad; positivity)
        (by unfold rad; linarith)]
      congr 1
      rw [show rad (90 - 45) = Real.pi / 4 by unfold rad; ring, Real.cos_pi_div_four]
      rw [eq_div_iff (by positivity), div_mul_eq_mul_div, Real.mul_self_sqrt (by norm_num)]
      norm_num]
    have hs : ∀ z : ℝ, 1 ≤ z → 1 / Real.sqrt z ∈ Set.Icc (-1 : ℝ) 1 := by
      intro z hz
      have : 1 ≤ Real.sqrt z := Real.one_le_sqrt.2 hz
      exact ⟨(by norm_num : (-1 : ℝ) ≤ 0).trans (by positivity), by
        rw [div_le_one (by linarith)]; exact this⟩
    rw [Real.strictAntiOn_arccos.lt_iff_gt (hs _ (by nlinarith [sq_nonneg y])) (hs 2 (by norm_num)),
      one_div_lt_one_div (by positivity) (by positivity),
      Real.sqrt_lt_sqrt_iff (by positivity)]
    constructor <;> intro h <;> linarith
  rw [h1, sq_lt_one_iff_abs_lt_one, abs_lt, hy]
  rcases le_total t 10 with h | h
  · rw [abs_of_nonpos (by linarith)]
    constructor
    · rintro ⟨a, b⟩
      exact Or.inl ⟨by linarith, by linarith⟩
    · rintro (⟨a, b⟩ | ⟨a, b⟩)
      · constructor <;> linarith
      · linarith
  · rw [abs_of_nonneg (by linarith)]
    constructor
    · rintro ⟨a, b⟩
      exact Or.inr ⟨by linarith, by linarith⟩
    · rintro (⟨a, b⟩ | ⟨a, b⟩)
      · linarith
      · constructor <;> linarith

theorem twice_passes (q : ℝ → Vec) :
    Passes (InSight origin twice q 45 .anytime) (0 : ℚ) (20 : ℚ) 1 [(3, 7), (13, 17)] where
  holds τ _ _ := by
    simp only [InSight, SunWithin, and_true, List.mem_cons, List.not_mem_nil, or_false,
      exists_eq_or_imp, exists_eq_left]
    exact twice_sight τ
  inside := by
    simp only [List.mem_cons, List.not_mem_nil, or_false, forall_eq_or_imp, forall_eq]
    norm_num
  long := by
    simp only [List.mem_cons, List.not_mem_nil, or_false, forall_eq_or_imp, forall_eq]
    norm_num
  apart := by
    simp only [List.pairwise_cons, List.mem_cons, List.not_mem_nil, or_false, forall_eq,
      IsEmpty.forall_iff, implies_true, List.Pairwise.nil, and_true]
    norm_num

theorem days21_gaps : GapsAtMost days21 1 := by
  intro k a b ha hb
  simp only [days21, List.getElem?_map, Option.map_eq_some_iff] at ha hb
  obtain ⟨i, hi, rfl⟩ := ha
  obtain ⟨j, hj, rfl⟩ := hb
  obtain ⟨-, rfl⟩ := List.getElem?_eq_some_iff.1 hi
  obtain ⟨-, rfl⟩ := List.getElem?_eq_some_iff.1 hj
  simp only [List.getElem_range]
  push_cast
  linarith

/-- Non-vacuity for C119: two passes of four days, one sample a day; two windows, and a crossing
after the rise time of the first. -/
example (v : Cartesian) : ∃ (s : Satellite) (sun : ℝ → Vec) (v w : VTW),
    generateVtws (sceneOf s origin days21 sun (days21.map fun _ => 0)) 45 .anytime = .ok [v, w] ∧
      Reports 1 (3, 7) v ∧ Reports 1 (13, 17) w ∧
      ∃ τ : ℝ, (v.rise : ℝ) ≤ τ ∧ τ ≤ v.rise + 1 ∧ zenithAngle origin (twice τ) = rad (90 - 45) := by
  refine ⟨⟨⟨1, days21.map fun t : ℚ => ((t : ℝ), twice t)⟩, some v⟩,
    fun t => itrsToGcrs1 t (twice t), ?_⟩
  have hinc : days21.Pairwise (· < ·) := by decide +kernel
  have hp : (⟨⟨1, days21.map fun t : ℚ => ((t : ℝ), twice t)⟩, some v⟩ : Satellite).points =
      days21.map fun t : ℚ => twice t := by simp [Satellite.points]
  obtain ⟨ws, hok, hws⟩ := C119_windows_are_passes
    ⟨⟨1, days21.map fun t : ℚ => ((t : ℝ), twice t)⟩, some v⟩ origin days21
    (fun t => itrsToGcrs1 t (twice t)) (days21.map fun _ => 0) 45 .anytime twice 1 hp rfl
    (by rw [List.length_map]) hinc days21_gaps (by norm_num) (by norm_num) (by norm_num) (by simp)
    0 20 (by decide +kernel) (by decide +kernel) [(3, 7), (13, 17)] (by simp) (twice_passes _)
  rcases hws with _ | ⟨h1, _ | ⟨h2, _ | _⟩⟩
  rename_i v' w'
  refine ⟨v', w', hok, h1, h2, ?_⟩
  have hsun : Track (fun t => gcrsToItrs1 t (itrsToGcrs1 t (twice t))) origin axisA axisA := by
    have : (fun t => gcrsToItrs1 t (itrsToGcrs1 t (twice t))) = twice :=
      funext fun t => itrs_gcrs1 _ _
    rw [this]
    exact twice_track
  obtain ⟨τ, t1, t2, t3⟩ := (C119_crossings
    ⟨⟨1, days21.map fun t : ℚ => ((t : ℝ), twice t)⟩, some v⟩ origin days21
    (fun t => itrsToGcrs1 t (twice t)) (days21.map fun _ => 0) 45 .anytime _ twice axisA axisA axisA
    axisA 1 hp (by rw [List.length_map]) hinc days21_gaps twice_track hsun 0 (by decide +kernel)
    (fun hc => by
      have := (twice_sight ((0 : ℚ) : ℝ)).1 hc.1
      push_cast at this
      rcases this with h | h <;> linarith) hok v' (by simp)).1
  exact ⟨τ, t1, t2, t3.resolve_right fun hc => hc.1 rfl⟩

end Celest.Windows
