/-
C138: look angles that are not numbers.
-/
import Verif.Schedule.Missing
import Verif.Schedule.PropsQuality

namespace Celest.Schedule

/-! ### Specification -/

/-- The pitch lies strictly on the same side of the requested angle at both samples. -/
def SameSide (desired x y : ℚ) : Prop :=
  (x < desired ∧ y < desired) ∨ (desired < x ∧ desired < y)

/-! ### Proofs -/

theorem productPositive_iff (desired : ℚ) (x y : Option ℚ) :
    productPositive (x.map (· - desired)) (y.map (· - desired)) = true ↔
      ∃ a b, x = some a ∧ y = some b ∧ SameSide desired a b := by
  cases x with
  | none => simp [productPositive]
  | some a =>
    cases y with
    | none => simp [productPositive]
    | some b =>
      simp only [Option.map_some, productPositive, decide_eq_true_eq, Option.some.injEq,
        exists_and_left, exists_eq_left', SameSide, mul_pos_iff, sub_pos, sub_neg]
      tauto

theorem bisectNan_numbers (f : ℕ → ℚ) : ∀ (fuel l r : ℕ) (x : ℚ) (g : ℕ → Option ℚ),
    (∀ k, k < r → g k = some (f k)) → bisectNan g fuel l r (some x) = bisect f fuel l r x := by
  intro fuel
  induction fuel with
  | zero => intros; rfl
  | succ fuel ih =>
    intro l r x g hg
    unfold bisectNan bisect
    by_cases h : 1 < r - l
    · have hm : (l + r) / 2 < r := by omega
      simp only [if_pos h, hg _ hm, productPositive, decide_eq_true_eq]
      split
      · exact ih _ _ _ _ hg
      · exact ih _ _ _ _ fun k hk => hg k (by omega)
    · simp only [if_neg h]

/-- A search from a sample without a value stays there. -/
theorem bisectNan_unknown (f : ℕ → Option ℚ) : ∀ (fuel l r : ℕ), bisectNan f fuel l r none = l := by
  intro fuel
  induction fuel with
  | zero => intros; rfl
  | succ fuel ih =>
    intro l r
    unfold bisectNan
    split
    · simp only [productPositive, Bool.false_eq_true, if_false]
      exact ih _ _
    · rfl

theorem bisectNan_bracket (f : ℕ → Option ℚ) : ∀ (fuel l r : ℕ), r - l ≤ fuel → l < r →
    productPositive (f l) (f r) = false →
    l ≤ bisectNan f fuel l r (f l) ∧ bisectNan f fuel l r (f l) < r ∧
      productPositive (f (bisectNan f fuel l r (f l))) (f (bisectNan f fuel l r (f l) + 1)) = false ∧
      (l < bisectNan f fuel l r (f l) →
        ∃ a b, f l = some a ∧ f (bisectNan f fuel l r (f l)) = some b ∧ 0 < a * b) := by
  intro fuel
  induction fuel with
  | zero => intro l r h1 h2; omega
  | succ fuel ih =>
    intro l r h1 h2 h3
    unfold bisectNan
    by_cases h : 1 < r - l
    · simp only [if_pos h]
      obtain ⟨m, hm⟩ : ∃ m, m = (l + r) / 2 := ⟨_, rfl⟩
      rw [← hm]
      by_cases hp : productPositive (f l) (f m) = true
      · simp only [if_pos hp]
        have hm3 : productPositive (f m) (f r) = false := by
          by_contra hc
          rw [Bool.not_eq_false] at hc
          cases hl : f l with
          | none => simp [hl, productPositive] at hp
          | some a =>
            cases hmv : f m with
            | none => simp [hl, hmv, productPositive] at hp
            | some b =>
              cases hr : f r with
              | none => simp [hmv, hr, productPositive] at hc
              | some c =>
                simp only [hl, hmv, hr, productPositive, decide_eq_true_eq,
                  decide_eq_false_iff_not] at hp hc h3
                apply h3
                have : 0 < (a * b) * (b * c) := mul_pos hp hc
                have hb : b ≠ 0 := by
                  rintro rfl
                  simp at hp
                have hb2 : 0 < b ^ 2 := by positivity
                have e : (a * b) * (b * c) = b ^ 2 * (a * c) := by ring
                rw [e] at this
                exact pos_of_mul_pos_right this hb2.le
        obtain ⟨i1, i2, i3, i4⟩ := ih m r (by omega) (by omega) hm3
        refine ⟨by omega, i2, i3, fun _ => ?_⟩
        cases hl : f l with
        | none => simp [hl, productPositive] at hp
        | some a =>
          cases hmv : f m with
          | none => simp [hl, hmv, productPositive] at hp
          | some b =>
            simp only [hl, hmv, productPositive, decide_eq_true_eq] at hp
            rw [hmv] at i1 i4
            rcases i1.eq_or_lt with e | lt
            · exact ⟨a, b, rfl, by rw [← e, hmv], hp⟩
            · obtain ⟨b', c, hb', hc, hbc⟩ := i4 lt
              simp only [Option.some.injEq] at hb'
              subst hb'
              refine ⟨a, c, rfl, hc, ?_⟩
              have : 0 < (a * b) * (b * c) := mul_pos hp hbc
              have hb : b ≠ 0 := by
                rintro rfl
                simp at hp
              have hb2 : 0 < b ^ 2 := by positivity
              have e : (a * b) * (b * c) = b ^ 2 * (a * c) := by ring
              rw [e] at this
              exact pos_of_mul_pos_right this hb2.le
      · simp only [if_neg hp]
        rw [Bool.not_eq_true] at hp
        obtain ⟨i1, i2, i3, i4⟩ := ih l m (by omega) (by omega) hp
        exact ⟨i1, by omega, i3, i4⟩
    · simp only [if_neg h]
      have e : r = l + 1 := by omega
      refine ⟨le_rfl, h2, ?_, fun hl => absurd hl (lt_irrefl _)⟩
      rw [← e]
      exact h3

theorem bisectNan_last (f : ℕ → Option ℚ) (r0 : ℕ) : ∀ (fuel l : ℕ), r0 - l ≤ fuel → l < r0 →
    (∀ k, l < k → k < r0 → ∀ j, l ≤ j → j < r0 → productPositive (f j) (f k) = true) →
    bisectNan f fuel l r0 (f l) = r0 - 1 := by
  intro fuel
  induction fuel with
  | zero => intro l h1 h2; omega
  | succ fuel ih =>
    intro l h1 h2 h3
    unfold bisectNan
    by_cases h : 1 < r0 - l
    · simp only [if_pos h]
      rw [if_pos (h3 _ (by omega) (by omega) l le_rfl h2)]
      exact ih _ (by omega) (by omega) fun k hk hk' j hj hj' => h3 k (by omega) hk' j (by omega) hj'
    · simp only [if_neg h]
      omega

/-- **C138.** When every pitch is a number, the search and the window test are those of the model
without NaN. -/
theorem C138_without_gaps_partial (h : Handler) (r : Request) (v : VTW) :
    tryVtwNan h r v (v.attPitch.map some) = tryVtw h r v := by
  have key : ∀ a, lookAngleTimeNan (v.attPitch.map some) a v.attTime v.rise v.set =
      lookAngleTime v.attPitch a v.attTime v.rise v.set := by
    intro a
    unfold lookAngleTimeNan lookAngleTime
    cases v.attTime.idxOf? v.rise with
    | none => rfl
    | some l =>
      cases v.attTime.idxOf? v.set with
      | none => rfl
      | some q =>
        simp only [List.getElem?_map]
        cases hl : v.attPitch[l]? with
        | none => simp
        | some x =>
          cases hq : v.attPitch[q]? with
          | none => simp
          | some y =>
            simp only [Option.map_some, productPositive, decide_eq_true_eq]
            have hlen : q < v.attPitch.length := (List.getElem?_eq_some_iff.1 hq).1
            have hg : ∀ k, k < q → ((v.attPitch.map some).getD k none).map (· - a) =
                some (v.attPitch.getD k 0 - a) := by
              intro k hk
              have hk' : k < v.attPitch.length := by omega
              simp [List.getD_eq_getElem?_getD, List.getElem?_map,
                List.getElem?_eq_getElem hk']
            rw [bisectNan_numbers (fun k => v.attPitch.getD k 0 - a) _ _ _ _ _ hg]
            rfl
  have key2 : proposedStartNan r v (v.attPitch.map some) = proposedStart r v := by
    unfold proposedStartNan proposedStart
    cases r.lookAngle with
    | none => rfl
    | some la =>
      cases la with
      | raw x => rfl
      | quantity a => exact key a
  unfold tryVtwNan tryVtw
  rw [key2]
  rfl

/-- **C138.** If the pitch is unknown at the rise time, a request with a look angle is never placed
in the window, however the pitch behaves inside it: the search answers with the rise time itself,
and an observation may not start there. -/
theorem C138_lost_after_gap (h : Handler) (r : Request) (v : VTW) (pitch : List (Option ℚ))
    (desired : ℚ) (hla : r.lookAngle = some (.quantity desired)) (i j : ℕ)
    (hi : v.attTime.idxOf? v.rise = some i) (hj : v.attTime.idxOf? v.set = some j)
    (hlen : j < pitch.length) (hgap : pitch[i]? = some none) :
    lookAngleTimeNan pitch desired v.attTime v.rise v.set = .ok (some v.rise) ∧
      tryVtwNan h r v pitch = .ok none := by
  have e : lookAngleTimeNan pitch desired v.attTime v.rise v.set = .ok (some v.rise) := by
    unfold lookAngleTimeNan
    rw [hi, hj]
    simp only [hgap, List.getElem?_eq_getElem hlen, Option.map_none, bisectNan_unknown]
    obtain ⟨hi1, hi2, -⟩ := List.idxOf?_eq_some_iff.1 hi
    rw [List.getElem?_eq_getElem hi1]
    simp only [productPositive, Bool.false_eq_true, if_false]
    simpa using hi2
  refine ⟨e, ?_⟩
  unfold tryVtwNan proposedStartNan
  rw [hla]
  simp only [e, isWithinBounds, lt_irrefl, decide_false, Bool.false_and, Bool.not_false, if_true]

/-- **C138 (partial).** Whatever gaps the pitches have, an observation with a look angle starts at
a sample of the series after the rise time and before the set time where the pitch is a number and
on the same side of the requested angle as at the rise; at the next sample the pitch is on the other
side, or at the angle, or unknown.  Missing: that the angle is passed when the next pitch is
unknown, which is false (`C138_angle_not_reached`). -/
theorem C138_placed_partial (h : Handler) (r : Request) (v : VTW) (pitch : List (Option ℚ))
    (desired : ℚ) (hla : r.lookAngle = some (.quantity desired)) (i j : ℕ) (hij : i < j)
    (hi : v.attTime.idxOf? v.rise = some i) (hj : v.attTime.idxOf? v.set = some j)
    (hlen : j < pitch.length) (start : ℚ) (hs : tryVtwNan h r v pitch = .ok (some start)) :
    ∃ k x0 x y, i < k ∧ k < j ∧ v.attTime[k]? = some start ∧ pitch[i]? = some (some x0) ∧
      pitch[k]? = some (some x) ∧ pitch[k + 1]? = some y ∧ SameSide desired x0 x ∧
      ∀ z, y = some z → ¬ SameSide desired x z := by
  have hps : lookAngleTimeNan pitch desired v.attTime v.rise v.set = .ok (some start) ∧
      isWithinBounds start (durationInDays r.duration) v = true := by
    unfold tryVtwNan proposedStartNan at hs
    rw [hla] at hs
    simp only at hs
    cases hL : lookAngleTimeNan pitch desired v.attTime v.rise v.set with
    | error e => simp [hL] at hs
    | ok res =>
      cases res with
      | none => simp [hL] at hs
      | some t =>
        rw [hL] at hs
        simp only at hs
        by_cases hb : isWithinBounds t (durationInDays r.duration) v = true
        · have : t = start := by
            simp only [hb, Bool.not_true, Bool.false_eq_true, if_false] at hs
            split at hs
            · simp at hs
            · split at hs
              · simp at hs
              · split at hs
                · simp at hs
                · split at hs <;> simp_all
          rw [← this]
          exact ⟨rfl, hb⟩
        · simp [hb] at hs
  obtain ⟨hL, hb⟩ := hps
  have hrs : v.rise < start := by
    simp only [isWithinBounds, Bool.and_eq_true, decide_eq_true_eq] at hb
    exact hb.1
  have hi' : i < pitch.length := by omega
  unfold lookAngleTimeNan at hL
  rw [hi, hj] at hL
  simp only [List.getElem?_eq_getElem hi', List.getElem?_eq_getElem hlen] at hL
  obtain ⟨f, hf⟩ : ∃ f : ℕ → Option ℚ, f = fun k => (pitch.getD k none).map (· - desired) :=
    ⟨_, rfl⟩
  have hfk : ∀ k (hk : k < pitch.length), f k = (pitch[k]).map (· - desired) := by
    intro k hk
    rw [hf]
    simp [List.getD_eq_getElem?_getD, List.getElem?_eq_getElem hk]
  rw [← hf, ← hfk i hi', ← hfk j hlen] at hL
  by_cases hp : productPositive (f i) (f j) = true
  · simp [hp] at hL
  · rw [Bool.not_eq_true] at hp
    simp only [hp, Bool.false_eq_true, if_false] at hL
    obtain ⟨b1, b2, b3, b4⟩ := bisectNan_bracket f (j - i) i j le_rfl hij hp
    obtain ⟨k, hk⟩ : ∃ k, k = bisectNan f (j - i) i j (f i) := ⟨_, rfl⟩
    rw [← hk] at b1 b2 b3 b4 hL
    have hkt : v.attTime[k]? = some start := by
      cases hkj : v.attTime[k]? with
      | none => simp [hkj] at hL
      | some t => simpa [hkj] using hL
    have hik : i < k := by
      rcases b1.eq_or_lt with e | lt
      · exfalso
        obtain ⟨hi1, hi2, -⟩ := List.idxOf?_eq_some_iff.1 hi
        rw [← e, List.getElem?_eq_getElem hi1] at hkt
        rw [hi2] at hkt
        simp only [Option.some.injEq] at hkt
        exact absurd hkt hrs.ne
      · exact lt
    have hk1 : k < pitch.length := by omega
    have hk2 : k + 1 < pitch.length := by omega
    obtain ⟨a, b, ha, hbb, hab⟩ := b4 hik
    rw [hfk i hi'] at ha
    rw [hfk k hk1] at hbb
    obtain ⟨x0, hx0, -⟩ := Option.map_eq_some_iff.1 ha
    obtain ⟨x, hx, -⟩ := Option.map_eq_some_iff.1 hbb
    refine ⟨k, x0, x, pitch[k + 1], hik, b2, hkt, ?_, ?_, List.getElem?_eq_getElem hk2, ?_, ?_⟩
    · rw [List.getElem?_eq_getElem hi', hx0]
    · rw [List.getElem?_eq_getElem hk1, hx]
    · have : productPositive ((some x0).map (· - desired)) ((some x).map (· - desired)) = true := by
        rw [← hx0, ← hx, ha, hbb]
        simpa [productPositive] using hab
      obtain ⟨a', b', ha', hb', hs'⟩ := (productPositive_iff _ _ _).1 this
      simp only [Option.some.injEq] at ha' hb'
      rw [ha', hb']
      exact hs'
    · intro z hz hsame
      have : productPositive (f k) (f (k + 1)) = true := by
        rw [hfk k hk1, hfk (k + 1) hk2]
        exact (productPositive_iff _ _ _).2 ⟨x, z, hx, hz, hsame⟩
      rw [this] at b3
      exact absurd b3 (by decide)

/-- **C138 (refutation).** If the pitch is unknown at the set time and stays strictly on one side of
the requested angle from the rise to the sample before, so that the angle is never reached, the
search still answers: with the last sample before the set time. -/
theorem C138_angle_not_reached (pitch : List (Option ℚ)) (julian : List ℚ) (desired : ℚ)
    (start stop : ℚ) (i j : ℕ) (hij : i < j)
    (hi : julian.idxOf? start = some i) (hj : julian.idxOf? stop = some j)
    (hgap : pitch[j]? = some none) (x0 : ℚ) (hx0 : pitch[i]? = some (some x0))
    (hside : ∀ k, i ≤ k → k < j → ∃ x, pitch[k]? = some (some x) ∧ SameSide desired x0 x) :
    ∃ t, julian[j - 1]? = some t ∧ lookAngleTimeNan pitch desired julian start stop = .ok (some t) := by
  have hjlen : j < julian.length := (List.idxOf?_eq_some_iff.1 hj).1
  refine ⟨julian[j - 1], List.getElem?_eq_getElem _, ?_⟩
  unfold lookAngleTimeNan
  rw [hi, hj]
  simp only [hgap, hx0]
  obtain ⟨f, hf⟩ : ∃ f : ℕ → Option ℚ, f = fun k => (pitch.getD k none).map (· - desired) :=
    ⟨_, rfl⟩
  have hfi : f i = (some x0).map (· - desired) := by
    rw [hf]
    simp [List.getD_eq_getElem?_getD, hx0]
  rw [← hf, ← hfi, bisectNan_last f j (j - i) i le_rfl hij]
  · rw [List.getElem?_eq_getElem (show j - 1 < julian.length by omega)]
    simp [hfi, productPositive]
  · intro k hk hk' m hm hm'
    obtain ⟨x, hx, hxs⟩ := hside k hk.le hk'
    obtain ⟨y, hy, hys⟩ := hside m hm hm'
    have ek : f k = (some x).map (· - desired) := by
      rw [hf]; simp [List.getD_eq_getElem?_getD, hx]
    have em : f m = (some y).map (· - desired) := by
      rw [hf]; simp [List.getD_eq_getElem?_getD, hy]
    rw [ek, em]
    refine (productPositive_iff _ _ _).2 ⟨y, x, rfl, rfl, ?_⟩
    rcases hxs with ⟨h1, h2⟩ | ⟨h1, h2⟩ <;> rcases hys with ⟨h3, h4⟩ | ⟨h3, h4⟩
    · exact Or.inl ⟨h4, h2⟩
    · exact absurd h1 (lt_asymm h3)
    · exact absurd h1 (lt_asymm h3)
    · exact Or.inr ⟨h4, h2⟩

/-- Concrete cases: a pitch passing 35 between the third and fourth sample; the same with a gap at
the rise time; and a pitch that never reaches 60 with a gap at the set time. -/
example : lookAngleTimeNan [some 10, some 20, some 30, some 40, some 50] 35 [0, 1, 2, 3, 4] 0 4 =
      .ok (some 2) ∧
    lookAngleTimeNan [none, some 20, some 30, some 40, some 50] 35 [0, 1, 2, 3, 4] 0 4 =
      .ok (some 0) ∧
    lookAngleTimeNan [some 10, some 20, some 30, some 40, none] 60 [0, 1, 2, 3, 4] 0 4 =
      .ok (some 3) := by decide +kernel

/-- A request for a look angle of 35 degrees is placed at the sample before the angle is passed,
not placed if the pitch at the rise time is unknown, and a request for 60 degrees is placed if the
pitch at the set time is unknown. -/
example :
    let r : ℚ → Request := fun a =>
      ⟨false, none, none, none, 0, 100, 864, 1, 1, some (.quantity a), []⟩
    let v : VTW := ⟨0, 4, [0, 1, 2, 3, 4], []⟩
    tryVtwNan ⟨[r 35], 0⟩ (r 35) v [some 10, some 20, some 30, some 40, some 50] = .ok (some 2) ∧
    tryVtwNan ⟨[r 35], 0⟩ (r 35) v [none, some 20, some 30, some 40, some 50] = .ok none ∧
    tryVtwNan ⟨[r 60], 0⟩ (r 60) v [some 10, some 20, some 30, some 40, none] = .ok (some 3) := by
  decide +kernel

end Celest.Schedule
