/-
Properties of the generic search (celest/schedule/alns.py): C13 – C17.
-/
import Verif.Schedule.LemmasAlns

namespace Celest.Alns

variable {S : Type}

/-- A small concrete search problem used for the non-vacuity examples: states are
integers, the cost of `n` is `-n`, destroying subtracts 1, repairing adds 2 and the
search is complete at 10. -/
def toy : Problem ℤ :=
  { cost := fun n => -n
    complete := fun n => n = 10
    destroy := [fun n _ _ => .ok (n - 1)]
    repair := [fun n _ => .ok (n + 2)] }

/-- Parameters for the examples; `exp` is a stand-in with `exp 0 = 1`. -/
def toyParams : Params := ⟨1/2, 1/2, 1, 1, fun x => if x < 0 then 0 else 1, -1⟩

/-- A draw for the examples. -/
def toyDraw : Draw := ⟨1/3, 1/3, 1/2, fun _ => 0⟩

/-- **C13.** For every problem, parameters and random draws: the solution returned by
`solve` costs no more than the initial solution, no more than any candidate
generated during the search, and is the initial solution or one of the
candidates. -/
theorem C13_result_is_best {A : Problem S} {P : Params} {initial s : S} {draws : List Draw}
    {history : List (Pass S)} (h : solveTrace A P initial draws = .ok (s, history)) :
    A.cost s ≤ A.cost initial ∧ (∀ p ∈ history, A.cost s ≤ A.cost p.candidate) ∧
      (s = initial ∨ ∃ p ∈ history, s = p.candidate) := by
  unfold solveTrace at h
  split at h
  · simp only [Except.ok.injEq, Prod.mk.injEq] at h
    obtain ⟨rfl, rfl⟩ := h
    exact ⟨le_rfl, by simp, Or.inl rfl⟩
  · exact loop_best draws (initState A P initial) s history h

/-- **C13.** The same for `solve` itself. -/
theorem C13_never_worse_than_start {A : Problem S} {P : Params} {initial s : S}
    {draws : List Draw} (h : solve A P initial draws = .ok s) : A.cost s ≤ A.cost initial := by
  obtain ⟨tr, htr⟩ := solve_trace h
  exact (C13_result_is_best htr).1

example : solve toy toyParams 3 [toyDraw, toyDraw] = .ok 5 ∧ toy.cost 5 < toy.cost 3 := by
  constructor
  · decide +kernel
  · norm_num [toy]

/-- **C14.** `solve` makes at most `max_iter` passes; if it makes fewer, the returned
solution is complete; no earlier best solution was complete; with `max_iter = 0` it
returns the initial solution. -/
theorem C14_stops_exactly_when_complete {A : Problem S} {P : Params} {initial s : S}
    {draws : List Draw} {history : List (Pass S)}
    (h : solveTrace A P initial draws = .ok (s, history)) :
    history.length ≤ draws.length ∧
      (history.length < draws.length → A.complete s = true) ∧
      (history ≠ [] → A.complete initial = false) ∧
      (∀ p ∈ history.dropLast, A.complete p.next.best = false) := by
  unfold solveTrace at h
  split at h
  · rename_i hc
    simp only [Except.ok.injEq, Prod.mk.injEq] at h
    obtain ⟨rfl, rfl⟩ := h
    simp [hc]
  · rename_i hc
    have hc' : A.complete initial = false := by simpa using hc
    obtain ⟨h1, h2, h3, -⟩ := loop_stops draws (initState A P initial) s history h hc'
    exact ⟨h1, h2, fun _ => hc', h3⟩

/-- **C14.** With zero iterations, or a complete initial solution, `solve` returns the
initial solution. -/
theorem C14_trivial_searches (A : Problem S) (P : Params) (initial : S) (draws : List Draw)
    (h : draws = [] ∨ A.complete initial = true) : solve A P initial draws = .ok initial := by
  unfold solve solveTrace
  rcases h with rfl | h
  · cases A.complete initial <;> rfl
  · rw [h]; rfl

example : ∃ history, solveTrace toy toyParams 9 [toyDraw, toyDraw, toyDraw] = .ok (10, history) ∧
    history.length = 1 := by
  refine ⟨[⟨10, true, 3, ⟨10, 10, 9 / 40, [3 / 4], [3 / 4]⟩⟩], ?_, rfl⟩
  decide +kernel

/-- **C15.** Whatever happened before, with significance parameter `l ∈ [0, 1)` all
operator weights stay in `(0, 1]` through every pass of the search. -/
theorem C15_weights_stay_positive {A : Problem S} {P : Params} (hl0 : 0 ≤ P.l) (hl1 : P.l < 1)
    {initial s : S} {draws : List Draw} {history : List (Pass S)}
    (h : solveTrace A P initial draws = .ok (s, history)) :
    ∀ p ∈ history, (∀ w ∈ p.next.destroyWeights, 0 < w ∧ w ≤ 1) ∧
      (∀ w ∈ p.next.repairWeights, 0 < w ∧ w ≤ 1) := by
  have key : ∀ (ds : List Draw) (st : State S) (s : S) (tr : List (Pass S)),
      GoodWeights st.destroyWeights → GoodWeights st.repairWeights → loop A P ds st = .ok (s, tr) →
      ∀ p ∈ tr, GoodWeights p.next.destroyWeights ∧ GoodWeights p.next.repairWeights := by
    intro ds
    induction ds with
    | nil =>
      intro st s tr _ _ hl
      simp only [loop, Except.ok.injEq, Prod.mk.injEq] at hl
      obtain ⟨rfl, rfl⟩ := hl
      simp
    | cons d ds ih =>
      intro st s tr h1 h2 hl
      obtain ⟨ps, hps, hcase⟩ := loop_cons hl
      obtain ⟨i, j, f, g, destroyed, F⟩ := pass_facts hps
      obtain ⟨b0, b3⟩ := score_bounds hps
      have g1 : GoodWeights ps.next.destroyWeights := by
        rw [F.hwd]; exact goodWeights_update hl0 hl1 b0 b3 i h1
      have g2 : GoodWeights ps.next.repairWeights := by
        rw [F.hwr]; exact goodWeights_update hl0 hl1 b0 b3 j h2
      rcases hcase with ⟨-, rfl, rfl⟩ | ⟨-, tr', hl', rfl⟩
      · simpa using ⟨g1, g2⟩
      · intro p hp
        rcases List.mem_cons.1 hp with rfl | hp
        · exact ⟨g1, g2⟩
        · exact ih ps.next s tr' g1 g2 hl' p hp
  unfold solveTrace at h
  split at h
  · simp only [Except.ok.injEq, Prod.mk.injEq] at h
    obtain ⟨rfl, rfl⟩ := h
    simp
  · exact key draws _ s history (goodWeights_replicate _) (goodWeights_replicate _) h

/-- **C15.** For any non-empty list of positive weights the selection probabilities
exist, are positive, sum to one, are proportional to the weights, and
`random.choices` returns a valid operator index for every draw. -/
theorem C15_probabilities_are_a_distribution (w : List ℚ) (hne : w ≠ []) (hw : ∀ x ∈ w, 0 < x)
    (u : ℚ) :
    ∃ p, getProbabilities w = .ok p ∧ p.length = w.length ∧ (∀ x ∈ p, 0 < x) ∧ p.sum = 1 ∧
      p.map (· * w.sum) = w ∧ ∃ i, getIndex w u = .ok i ∧ i < w.length := by
  have hsum : 0 < w.sum := List.sum_pos w hw hne
  have hp : getProbabilities w = .ok (w.map fun x => x / w.sum) := by
    unfold getProbabilities
    rw [if_neg]
    rintro ⟨-, h⟩
    exact hsum.ne' h
  have hone : (w.map fun x => x / w.sum).sum = 1 := by
    rw [sum_map_div]; exact div_self hsum.ne'
  refine ⟨_, hp, by simp, ?_, hone, ?_, ?_⟩
  · intro x hx
    obtain ⟨y, hy, rfl⟩ := List.mem_map.1 hx
    exact div_pos (hw y hy) hsum
  · rw [List.map_map]
    conv_rhs => rw [← List.map_id w]
    apply List.map_congr_left
    intro x _
    simp only [Function.comp, id]
    field_simp
  · refine ⟨choose (u * (w.map fun x => x / w.sum).sum) (w.map fun x => x / w.sum) 0, ?_, ?_⟩
    · unfold getIndex
      rw [hp]
      unfold randomChoice
      simp only
      rw [if_neg (by simpa using hne), if_neg (by rw [hone]; norm_num)]
    · have := choose_lt (x := u * (w.map fun x => x / w.sum).sum) (w.map fun x => x / w.sum) 0
        (by simpa using hne)
      simpa using this

/-- The problem in which every candidate is worse than the initial solution. -/
def rejector : Problem Bool :=
  { cost := fun b => if b then -1 else -(1 / 2)
    complete := fun _ => false
    destroy := [fun _ _ _ => .ok false]
    repair := [fun s _ => .ok s] }

/-- **C15** fails at the documented end point `l = 1`: one rejected pass makes the
only operator's weight zero and the next selection divides by zero.  Stated for
every `exp` whose acceptance probability for that loss is below one half and every
negative `log 0.5`. -/
theorem C15_fails_at_one (exp : ℚ → ℚ) (logHalf : ℚ) (hlog : logHalf < 0)
    (hexp : exp (1000 * logHalf) < 1 / 2) :
    solve rejector ⟨1, 1, 1, 1, exp, logHalf⟩ true
      [⟨0, 0, 1 / 2, fun _ => 0⟩, ⟨0, 0, 1 / 2, fun _ => 0⟩] = .error .zeroDivisionError := by
  have hne := hlog.ne
  have e : 100 * (-(1 / 2) - (-1 : ℚ)) / (1 / 20 * -1 / logHalf * -1) = 1000 * logHalf := by
    field_simp
    ring
  have hT : 1 / 20 * -1 / logHalf * (-1 : ℚ) ≠ 0 := by
    field_simp
    exact div_ne_zero one_ne_zero (by simpa using hne)
  have hacc : accept exp (rejector.cost false) (rejector.cost true)
      (1 / 20 * rejector.cost true / logHalf) (1 / 2) = .ok false := by
    have c1 : rejector.cost false = -(1 / 2) := rfl
    have c2 : rejector.cost true = -1 := rfl
    rw [c1, c2]
    unfold accept
    rw [if_neg (by norm_num), if_neg hT]
    simp only [e]
    rw [if_pos hexp]
  have hidx : getIndex [1] 0 = .ok 0 := by decide +kernel
  have hidx0 : getIndex [0] 0 = .error .zeroDivisionError := by decide +kernel
  have hlt : ¬ rejector.cost false < rejector.cost true := by norm_num [rejector]
  have hp : pass rejector ⟨1, 1, 1, 1, exp, logHalf⟩
      (initState rejector ⟨1, 1, 1, 1, exp, logHalf⟩ true) ⟨0, 0, 1 / 2, fun _ => 0⟩ =
      .ok ⟨false, false, 0, ⟨true, true, 1 * (1 / 20 * rejector.cost true / logHalf), [0], [0]⟩⟩ := by
    have hw : updateWeights [1] 1 0 0 = [0] := by decide +kernel
    have w1 : (List.replicate rejector.destroy.length 1 : List ℚ) = [1] := rfl
    have w2 : (List.replicate rejector.repair.length 1 : List ℚ) = [1] := rfl
    have d1 : rejector.destroy[0]? = some (fun _ _ _ => .ok false) := rfl
    have d2 : rejector.repair[0]? = some (fun s _ => .ok s) := rfl
    simp only [pass, initState, w1, w2, hidx, bind, Except.bind, pure, Except.pure, d1, d2, hacc,
      hlt, decide_false, Bool.false_eq_true, if_false, rejectScore, hw]
  unfold solve solveTrace
  rw [if_neg (by simp [rejector])]
  unfold loop
  rw [hp]
  simp only
  rw [if_neg (by simp [rejector])]
  unfold loop pass
  simp only [hidx0, bind, Except.bind, Except.map]

/-! ### acceptance -/

/-- **C16.** A strictly better candidate is accepted whatever the temperature, the
draw and `exp`. -/
theorem C16_better_always_accepted_partial (exp : ℚ → ℚ) (tc cc T u : ℚ) (h : tc < cc) :
    accept exp tc cc T u = .ok true := by
  unfold accept; rw [if_pos h]

/-- **C16.** With the sign the scheduler produces (negative current cost, positive
temperature) and any strictly increasing `exp` with `exp 0 = 1` and positive values:
the test never fails; an equally good candidate is always accepted (draws are below
1); a worse one is accepted exactly when the draw does not exceed a probability that
lies strictly between 0 and 1. -/
theorem C16_accept_rule_partial (exp : ℚ → ℚ) (hmono : StrictMono exp) (h0 : exp 0 = 1)
    (hpos : ∀ x, 0 < exp x) (tc cc T u : ℚ) (hcc : cc < 0) (hT : 0 < T) (hu : u < 1) :
    ∃ b, accept exp tc cc T u = .ok b ∧
      (tc ≤ cc → b = true) ∧
      (cc < tc → ∃ p, 0 < p ∧ p < 1 ∧ p = exp (100 * (tc - cc) / (T * cc)) ∧
        (b = true ↔ u ≤ p)) := by
  have hTc : T * cc < 0 := mul_neg_of_pos_of_neg hT hcc
  unfold accept
  rcases lt_trichotomy tc cc with h | h | h
  · rw [if_pos h]
    exact ⟨true, rfl, fun _ => rfl, fun h' => absurd h (not_lt.2 h'.le)⟩
  · subst h
    rw [if_neg (lt_irrefl _), if_neg hTc.ne]
    refine ⟨_, rfl, fun _ => ?_, fun h' => absurd h' (lt_irrefl _)⟩
    simp only [sub_self, mul_zero, zero_div, h0]
    rw [if_neg (by linarith)]
  · rw [if_neg (not_lt.2 h.le), if_neg hTc.ne]
    refine ⟨_, rfl, fun h' => absurd h' (not_le.2 h), fun _ => ?_⟩
    have harg : 100 * (tc - cc) / (T * cc) < 0 :=
      div_neg_of_pos_of_neg (by linarith) hTc
    refine ⟨_, hpos _, by rw [← h0]; exact hmono harg, rfl, ?_⟩
    by_cases hb : u > exp (100 * (tc - cc) / (T * cc))
    · rw [if_pos hb]; simpa using hb
    · rw [if_neg hb]; simpa using hb

/-- **C16.** The larger the loss, the smaller the chance: a draw that accepts a
candidate also accepts every candidate that is no worse. -/
theorem C16_monotone_partial (exp : ℚ → ℚ) (hmono : Monotone exp) (tc₁ tc₂ cc T u : ℚ) (hcc : cc < 0)
    (hT : 0 < T) (h12 : tc₁ ≤ tc₂) (h : accept exp tc₂ cc T u = .ok true) :
    accept exp tc₁ cc T u = .ok true := by
  have hTc : T * cc < 0 := mul_neg_of_pos_of_neg hT hcc
  unfold accept at h ⊢
  by_cases h1 : tc₁ < cc
  · rw [if_pos h1]
  · have h2 : ¬ tc₂ < cc := by linarith
    rw [if_neg h2, if_neg hTc.ne] at h
    rw [if_neg h1, if_neg hTc.ne]
    simp only [Except.ok.injEq] at h ⊢
    have harg : 100 * (tc₂ - cc) / (T * cc) ≤ 100 * (tc₁ - cc) / (T * cc) :=
      div_le_div_of_nonpos_of_le hTc.le (by linarith)
    have := hmono harg
    by_cases hb : u > exp (100 * (tc₂ - cc) / (T * cc))
    · rw [if_pos hb] at h; cases h
    · rw [if_neg (by linarith)]

/-- **C16** fails in general: the test divides by zero exactly when the candidate is
not better and the current cost (or the temperature) is zero. -/
theorem C16_fails_iff (exp : ℚ → ℚ) (tc cc T u : ℚ) :
    (∃ e, accept exp tc cc T u = .error e) ↔ cc ≤ tc ∧ (T = 0 ∨ cc = 0) := by
  unfold accept
  constructor
  · rintro ⟨e, h⟩
    split at h
    · cases h
    · rename_i h1
      split at h
      · rename_i h2
        exact ⟨not_lt.1 h1, mul_eq_zero.1 h2⟩
      · cases h
  · rintro ⟨h1, h2⟩
    rw [if_neg (not_lt.2 h1), if_pos (mul_eq_zero.2 h2)]
    exact ⟨_, rfl⟩

/-- **C16.** The temperature the search uses is positive at every pass whenever the
initial cost is negative and the annealing coefficient positive. -/
theorem C16_temperature_positive_partial {A : Problem S} {P : Params} (hp : 0 < P.p) (hlog : P.logHalf < 0)
    {initial s : S} (hcost : A.cost initial < 0) {draws : List Draw} {history : List (Pass S)}
    (h : solveTrace A P initial draws = .ok (s, history)) :
    0 < (initState A P initial).temperature ∧ ∀ p ∈ history, 0 < p.next.temperature := by
  have h0 : 0 < (initState A P initial).temperature := by
    simp only [initState]
    exact div_pos_of_neg_of_neg (by linarith) hlog
  refine ⟨h0, ?_⟩
  have key : ∀ (ds : List Draw) (st : State S) (s : S) (tr : List (Pass S)),
      0 < st.temperature → loop A P ds st = .ok (s, tr) → ∀ p ∈ tr, 0 < p.next.temperature := by
    intro ds
    induction ds with
    | nil =>
      intro st s tr _ hl
      simp only [loop, Except.ok.injEq, Prod.mk.injEq] at hl
      obtain ⟨rfl, rfl⟩ := hl
      simp
    | cons d ds ih =>
      intro st s tr ht hl
      obtain ⟨ps, hps, hcase⟩ := loop_cons hl
      obtain ⟨i, j, f, g, destroyed, F⟩ := pass_facts hps
      have hn : 0 < ps.next.temperature := by rw [F.htemp]; exact mul_pos hp ht
      rcases hcase with ⟨-, rfl, rfl⟩ | ⟨-, tr', hl', rfl⟩
      · simpa using hn
      · intro p hp
        rcases List.mem_cons.1 hp with rfl | hp
        · exact hn
        · exact ih ps.next s tr' hn hl' p hp
  unfold solveTrace at h
  split at h
  · simp only [Except.ok.injEq, Prod.mk.injEq] at h
    obtain ⟨rfl, rfl⟩ := h
    simp
  · exact key draws _ s history h0 h

/-! ### scores -/

/-- **C17 (partial).** Exact scores: 3 when the candidate beats the best solution,
else 1 when it is accepted, else 0.  Missing: the documented score 2 for a candidate
that improves on the current solution. -/
theorem C17_scores_partial {A : Problem S} {P : Params} {st : State S} {d : Draw} {ps : Pass S}
    (h : pass A P st d = .ok ps) :
    (A.cost ps.candidate < A.cost st.best → ps.score = bestScore) ∧
      (¬ A.cost ps.candidate < A.cost st.best → ps.accepted = true → ps.score = acceptScore) ∧
      (¬ A.cost ps.candidate < A.cost st.best → ps.accepted = false → ps.score = rejectScore) := by
  obtain ⟨i, j, f, g, destroyed, F⟩ := pass_facts h
  refine ⟨fun hb => ?_, fun hb ha => ?_, fun hb ha => ?_⟩
  · rw [F.hscore, if_pos hb]
  · rw [F.hscore, if_neg hb, ha]; rfl
  · rw [F.hscore, if_neg hb, ha]; rfl

/-- **C17** is false: in no state, for no draw, does a pass earn the score for
improving on the current solution. -/
theorem C17_better_score_never_awarded {A : Problem S} {P : Params} {st : State S} {d : Draw}
    {ps : Pass S} (h : pass A P st d = .ok ps) : ps.score ≠ betterScore := by
  obtain ⟨i, j, f, g, destroyed, F⟩ := pass_facts h
  rw [F.hscore]
  unfold bestScore acceptScore rejectScore betterScore
  split_ifs <;> norm_num

/-- Non-vacuity for C17: a pass whose candidate improves on the current solution but
not on the best one exists, and it is scored 1, not 2. -/
example : ∃ ps, pass toy toyParams ⟨3, 8, 1, [1], [1]⟩ toyDraw = .ok ps ∧
    toy.cost ps.candidate < toy.cost 3 ∧ ps.accepted = true ∧ ps.score = acceptScore := by
  refine ⟨⟨4, true, 1, ⟨4, 8, 1 / 2, [7 / 12], [7 / 12]⟩⟩, by decide +kernel, ?_, rfl, rfl⟩
  norm_num [toy]

/-- Non-vacuity for C15/C16: the toy search runs with `l = 1/2`. -/
example : ∃ s h, solveTrace toy toyParams 3 [toyDraw, toyDraw] = .ok (s, h) ∧ h.length = 2 := by
  refine ⟨5, [⟨4, true, 3, ⟨4, 4, 3 / 40, [3 / 4], [3 / 4]⟩⟩,
    ⟨5, true, 3, ⟨5, 5, 3 / 80, [5 / 8], [5 / 8]⟩⟩], by decide +kernel, rfl⟩

/-- Non-vacuity for C16: costs and temperatures of the required signs. -/
example : ∃ tc cc T u : ℚ, cc < 0 ∧ 0 < T ∧ u < 1 ∧ cc < tc :=
  ⟨-3, -5, 1 / 2, 1 / 3, by norm_num⟩

end Celest.Alns
