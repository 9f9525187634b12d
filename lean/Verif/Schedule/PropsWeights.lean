/-
Further properties of the generic search (celest/schedule/alns.py): selection,
credit assignment and cooling (C15, C16, C17).
-/
import Verif.Schedule.PropsSearch

namespace Celest.Alns

variable {S : Type}

theorem choose_spec (x : ℚ) : ∀ (w : List ℚ) (acc : ℚ), w ≠ [] → acc ≤ x → x < acc + w.sum →
    acc + (w.take (choose x w acc)).sum ≤ x ∧ x < acc + (w.take (choose x w acc + 1)).sum
  | [], _, h, _, _ => absurd rfl h
  | [a], acc, _, h1, h2 => by simpa [choose] using And.intro h1 (by simpa using h2 : x < acc + a)
  | a :: b :: w, acc, _, h1, h2 => by
    unfold choose
    split
    · rename_i h
      simpa using ⟨h1, h⟩
    · rename_i h
      have := choose_spec x (b :: w) (acc + a) (by simp) (not_lt.1 h)
        (by rw [List.sum_cons] at h2; linarith)
      rw [List.take_succ_cons, List.take_succ_cons, List.sum_cons, List.sum_cons]
      constructor <;> linarith [this.1, this.2]

theorem sum_map_mul_const (c : ℚ) : ∀ l : List ℚ, (l.map (· * c)).sum = l.sum * c
  | [] => by simp
  | a :: l => by
    rw [List.map_cons, List.sum_cons, List.sum_cons, sum_map_mul_const c l]; ring

theorem take_sum_mono {w : List ℚ} (hw : ∀ x ∈ w, 0 < x) {i j : ℕ} (h : i ≤ j) :
    (w.take i).sum ≤ (w.take j).sum := by
  obtain ⟨k, rfl⟩ := Nat.exists_eq_add_of_le h
  rw [List.take_add, List.sum_append]
  have : 0 ≤ ((w.drop i).take k).sum := List.sum_nonneg fun x hx =>
    (hw x (List.mem_of_mem_drop (List.mem_of_mem_take hx))).le
  linarith

/-- **C15.** Selection is proportional to weight: with positive weights and a draw `u` uniform
on `[0, 1)`, operator `i` is selected exactly when `u` times the total weight falls in the
half-open interval between the sum of the weights before `i` and that sum plus the weight of
`i`; so the share of draws selecting `i` is its share of the total weight. -/
theorem C15_selected_iff (w : List ℚ) (hne : w ≠ []) (hw : ∀ x ∈ w, 0 < x) (u : ℚ) (hu0 : 0 ≤ u)
    (hu1 : u < 1) (i : ℕ) :
    getIndex w u = .ok i ↔
      (w.take i).sum ≤ u * w.sum ∧ u * w.sum < (w.take (i + 1)).sum := by
  have hsum : 0 < w.sum := List.sum_pos w hw hne
  obtain ⟨p, hp, hlen, -, hone, hprop, j, hj, -⟩ := C15_probabilities_are_a_distribution w hne hw u
  have hpne : p ≠ [] := by rintro rfl; simp at hone
  have hjc : j = choose u p 0 := by
    unfold getIndex at hj
    rw [hp] at hj
    unfold randomChoice at hj
    simp only at hj
    rw [if_neg hpne, if_neg (by rw [hone]; norm_num), hone, mul_one] at hj
    simpa using hj.symm
  have hsp := choose_spec u p 0 hpne hu0 (by rw [hone]; linarith)
  rw [← hjc] at hsp
  have htake : ∀ k, (w.take k).sum = (p.take k).sum * w.sum := by
    intro k
    conv_lhs => rw [← hprop]
    rw [← List.map_take, sum_map_mul_const]
  have hsp' : (w.take j).sum ≤ u * w.sum ∧ u * w.sum < (w.take (j + 1)).sum := by
    rw [htake, htake]
    exact ⟨mul_le_mul_of_nonneg_right (by linarith [hsp.1]) hsum.le,
      mul_lt_mul_of_pos_right (by linarith [hsp.2]) hsum⟩
  rw [hj]
  simp only [Except.ok.injEq]
  constructor
  · rintro rfl; exact hsp'
  · rintro ⟨h1, h2⟩
    rcases lt_trichotomy j i with h | h | h
    · have := take_sum_mono hw (show j + 1 ≤ i by omega)
      linarith [hsp'.2]
    · exact h
    · have := take_sum_mono hw (show i + 1 ≤ j by omega)
      linarith [hsp'.1]

/-- Non-vacuity for `C15_selected_iff`: weights 1, 1/2 and a draw of 3/4 select the second. -/
example : getIndex [1, 1 / 2] (3 / 4) = .ok 1 ∧ getIndex [1, 1 / 2] (1 / 2) = .ok 0 := by
  decide +kernel

theorem updateWeights_get (w : List ℚ) (l score : ℚ) (i k : ℕ) :
    (updateWeights w l score i)[k]? =
      if k = i then w[k]?.map fun x => (1 - l) * x + l * (score / 6) else w[k]? := by
  unfold updateWeights
  have e : (sumScore : ℚ) = 6 := by
    norm_num [sumScore, bestScore, betterScore, acceptScore, rejectScore]
  rw [List.getElem?_modify, e]
  by_cases h : i = k
  · subst h; simp [mul_div_assoc]
  · rw [if_neg (Ne.symm h)]; simp [h]

/-- **C17.** Credit goes to the operators that were used and to no others.  Every pass applies
one removal operator `i` and one insertion operator `j`, each drawn with the current weights, to
the current solution; afterwards the weight of `i` and of `j` is the average, with weight `l` on
the new score over the sum of all scores (6), of its old value and the score, every other weight is unchanged, and
the next current solution is the candidate if it was accepted and the old one if not. -/
theorem C17_credit_partial {A : Problem S} {P : Params} {st : State S} {d : Draw} {ps : Pass S}
    (h : pass A P st d = .ok ps) :
    ∃ (i j : ℕ) (remove : S → ℤ → (ℕ → ℕ) → Py S) (insert : S → ℤ → Py S) (removed : S),
      getIndex st.destroyWeights d.destroyDraw = .ok i ∧
      getIndex st.repairWeights d.repairDraw = .ok j ∧
      A.destroy[i]? = some remove ∧ A.repair[j]? = some insert ∧
      remove st.current P.toRemove d.picks = .ok removed ∧
      insert removed P.toAdd = .ok ps.candidate ∧
      accept P.exp (A.cost ps.candidate) (A.cost st.current) st.temperature d.acceptDraw =
        .ok ps.accepted ∧
      ps.next.current = (if ps.accepted then ps.candidate else st.current) ∧
      (∀ k, ps.next.destroyWeights[k]? =
        if k = i then st.destroyWeights[k]?.map fun x => (1 - P.l) * x + P.l * (ps.score / 6)
        else st.destroyWeights[k]?) ∧
      (∀ k, ps.next.repairWeights[k]? =
        if k = j then st.repairWeights[k]?.map fun x => (1 - P.l) * x + P.l * (ps.score / 6)
        else st.repairWeights[k]?) := by
  obtain ⟨i, j, f, g, destroyed, F⟩ := pass_facts h
  refine ⟨i, j, f, g, destroyed, F.hi, F.hj, F.hf, F.hg, F.hd, F.hr, F.ha, F.hcur, fun k => ?_,
    fun k => ?_⟩
  · rw [F.hwd, updateWeights_get]
  · rw [F.hwr, updateWeights_get]

/-- Non-vacuity for C17: a pass of the toy search. -/
example : ∃ ps, pass toy toyParams ⟨3, 3, 1, [1], [1]⟩ toyDraw = .ok ps ∧ ps.score = 3 :=
  ⟨⟨4, true, 3, ⟨4, 4, 1 / 2, [3 / 4], [3 / 4]⟩⟩, by decide +kernel, rfl⟩

theorem loop_temperature {A : Problem S} {P : Params} : ∀ (ds : List Draw) (st : State S) (s : S)
    (tr : List (Pass S)), loop A P ds st = .ok (s, tr) → ∀ (k : ℕ) (p : Pass S), tr[k]? = some p →
    p.next.temperature = P.p ^ (k + 1) * st.temperature := by
  intro ds
  induction ds with
  | nil =>
    intro st s tr hl
    simp only [loop, Except.ok.injEq, Prod.mk.injEq] at hl
    obtain ⟨rfl, rfl⟩ := hl
    simp
  | cons d ds ih =>
    intro st s tr hl k p hk
    obtain ⟨ps, hps, hcase⟩ := loop_cons hl
    obtain ⟨i, j, f, g, destroyed, F⟩ := pass_facts hps
    cases k with
    | zero =>
      have : p = ps := by
        rcases hcase with ⟨-, -, rfl⟩ | ⟨-, tr', -, rfl⟩ <;> simpa using hk.symm
      rw [this, F.htemp]; ring
    | succ k =>
      rcases hcase with ⟨-, -, rfl⟩ | ⟨-, tr', hl', rfl⟩
      · simp at hk
      · rw [ih ps.next s tr' hl' k p (by simpa using hk), F.htemp]; ring

/-- **C16.** Cooling: the search starts at the temperature `0.05 · cost(initial) / ln 0.5` and
each pass multiplies it by the annealing coefficient, so that after `k` passes it is
`p ^ k` times the starting temperature. -/
theorem C16_cooling_partial {A : Problem S} {P : Params} {initial s : S} {draws : List Draw}
    {history : List (Pass S)} (h : solveTrace A P initial draws = .ok (s, history)) (k : ℕ)
    (p : Pass S) (hk : history[k]? = some p) :
    p.next.temperature = P.p ^ (k + 1) * ((5 / 100) * A.cost initial / P.logHalf) := by
  unfold solveTrace at h
  split at h
  · simp only [Except.ok.injEq, Prod.mk.injEq] at h
    obtain ⟨rfl, rfl⟩ := h
    simp at hk
  · rw [loop_temperature draws _ s history h k p hk]
    simp only [initState]
    norm_num

/-- Non-vacuity for `C16_cooling_partial`. -/
example : ∃ s p q, solveTrace toy toyParams 3 [toyDraw, toyDraw] = .ok (s, [p, q]) ∧
    q.next.temperature = 3 / 80 := by
  refine ⟨5, ⟨4, true, 3, ⟨4, 4, 3 / 40, [3 / 4], [3 / 4]⟩⟩,
    ⟨5, true, 3, ⟨5, 5, 3 / 80, [5 / 8], [5 / 8]⟩⟩, by decide +kernel, rfl⟩

/-- **C17.** The search makes the passes in sequence: the first from the initial solution with
all weights one, each later one from the state the previous pass left. -/
theorem C17_sequence_partial {A : Problem S} {P : Params} {initial s : S} {draws : List Draw}
    {history : List (Pass S)} (h : solveTrace A P initial draws = .ok (s, history)) (k : ℕ)
    (p : Pass S) (hk : history[k]? = some p) :
    ∃ d, draws[k]? = some d ∧
      ∃ before, pass A P before d = .ok p ∧
        (k = 0 → before = ⟨initial, initial, (5 / 100) * A.cost initial / P.logHalf,
          List.replicate A.destroy.length 1, List.replicate A.repair.length 1⟩) ∧
        (∀ k', k = k' + 1 → ∃ q, history[k']? = some q ∧ before = q.next) := by
  have key : ∀ (ds : List Draw) (st : State S) (s : S) (tr : List (Pass S)) (k : ℕ) (p : Pass S),
      loop A P ds st = .ok (s, tr) → tr[k]? = some p →
      ∃ d, ds[k]? = some d ∧ ∃ before, pass A P before d = .ok p ∧ (k = 0 → before = st) ∧
        (∀ k', k = k' + 1 → ∃ q, tr[k']? = some q ∧ before = q.next) := by
    intro ds
    induction ds with
    | nil =>
      intro st s tr k p hl
      simp only [loop, Except.ok.injEq, Prod.mk.injEq] at hl
      obtain ⟨rfl, rfl⟩ := hl
      simp
    | cons d ds ih =>
      intro st s tr k p hl hk
      obtain ⟨ps, hps, hcase⟩ := loop_cons hl
      cases k with
      | zero =>
        have : p = ps := by
          rcases hcase with ⟨-, -, rfl⟩ | ⟨-, tr', -, rfl⟩ <;> simpa using hk.symm
        subst this
        exact ⟨d, rfl, st, hps, fun _ => rfl, by intro k' h; omega⟩
      | succ k =>
        rcases hcase with ⟨-, -, rfl⟩ | ⟨-, tr', hl', rfl⟩
        · simp at hk
        · obtain ⟨d', hd', before, hb, h0, hS⟩ := ih ps.next s tr' k p hl' (by simpa using hk)
          refine ⟨d', by simpa using hd', before, hb, by intro h; omega, ?_⟩
          intro k' hk'
          obtain rfl : k = k' := by omega
          cases k with
          | zero => exact ⟨ps, rfl, h0 rfl⟩
          | succ m =>
            obtain ⟨q, hq, e⟩ := hS m rfl
            exact ⟨q, by simpa using hq, e⟩
  unfold solveTrace at h
  split at h
  · simp only [Except.ok.injEq, Prod.mk.injEq] at h
    obtain ⟨rfl, rfl⟩ := h
    simp at hk
  · obtain ⟨d, hd, before, hb, h0, hS⟩ := key draws _ s history k p h hk
    refine ⟨d, hd, before, hb, ?_, hS⟩
    intro hk0
    rw [h0 hk0]
    simp only [initState]
    norm_num

end Celest.Alns
