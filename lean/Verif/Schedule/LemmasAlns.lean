/-
Helper lemmas on the generic search.
-/
import Verif.Schedule.Alns
import Mathlib.Tactic.Linarith
import Mathlib.Tactic.Ring
import Mathlib.Tactic.FieldSimp
import Mathlib.Tactic.NormNum
import Mathlib.Tactic.Positivity
import Mathlib.Algebra.Order.BigOperators.Group.List

namespace Celest.Alns

variable {S : Type}

/-- Everything a successful pass did. -/
structure PassFacts (A : Problem S) (P : Params) (st : State S) (d : Draw) (ps : Pass S)
    (i j : ℕ) (f : S → ℤ → (ℕ → ℕ) → Py S) (g : S → ℤ → Py S) (destroyed : S) : Prop where
  hi : getIndex st.destroyWeights d.destroyDraw = .ok i
  hj : getIndex st.repairWeights d.repairDraw = .ok j
  hf : A.destroy[i]? = some f
  hg : A.repair[j]? = some g
  hd : f st.current P.toRemove d.picks = .ok destroyed
  hr : g destroyed P.toAdd = .ok ps.candidate
  ha : accept P.exp (A.cost ps.candidate) (A.cost st.current) st.temperature d.acceptDraw =
    .ok ps.accepted
  hcur : ps.next.current = if ps.accepted then ps.candidate else st.current
  hbest : ps.next.best = if A.cost ps.candidate < A.cost st.best then ps.candidate else st.best
  hscore : ps.score = if A.cost ps.candidate < A.cost st.best then bestScore
    else if ps.accepted then acceptScore else rejectScore
  htemp : ps.next.temperature = P.p * st.temperature
  hwd : ps.next.destroyWeights = updateWeights st.destroyWeights P.l ps.score i
  hwr : ps.next.repairWeights = updateWeights st.repairWeights P.l ps.score j

theorem pass_facts {A : Problem S} {P : Params} {st : State S} {d : Draw} {ps : Pass S}
    (h : pass A P st d = .ok ps) :
    ∃ i j f g destroyed, PassFacts A P st d ps i j f g destroyed := by
  unfold pass at h
  cases hi : getIndex st.destroyWeights d.destroyDraw with
  | error e => rw [hi] at h; simp [bind, Except.bind] at h
  | ok i =>
    cases hj : getIndex st.repairWeights d.repairDraw with
    | error e => rw [hi, hj] at h; simp [bind, Except.bind] at h
    | ok j =>
      rw [hi, hj] at h
      cases hf : A.destroy[i]? with
      | none => simp [bind, Except.bind, hf] at h
      | some f =>
        cases hg : A.repair[j]? with
        | none => simp [bind, Except.bind, hf, hg] at h
        | some g =>
          cases hd : f st.current P.toRemove d.picks with
          | error e => simp [bind, Except.bind, hf, hg, hd] at h
          | ok destroyed =>
            cases hr : g destroyed P.toAdd with
            | error e => simp [bind, Except.bind, hf, hg, hd, hr] at h
            | ok temporary =>
              cases ha : accept P.exp (A.cost temporary) (A.cost st.current) st.temperature
                  d.acceptDraw with
              | error e => simp [bind, Except.bind, hf, hg, hd, hr, ha] at h
              | ok accepted =>
                simp only [bind, Except.bind, hf, hg, hd, hr, ha, pure, Except.pure,
                  Except.ok.injEq, decide_eq_true_eq] at h
                subst h
                refine ⟨i, j, f, g, destroyed, ⟨hi, hj, hf, hg, hd, hr, ha, rfl, ?_, ?_, rfl, rfl, rfl⟩⟩
                · rfl
                · simp only
                  cases accepted <;> simp

theorem loop_cons {A : Problem S} {P : Params} {d : Draw} {ds : List Draw} {st : State S} {s : S}
    {tr : List (Pass S)} (h : loop A P (d :: ds) st = .ok (s, tr)) :
    ∃ ps, pass A P st d = .ok ps ∧
      ((A.complete ps.next.best = true ∧ s = ps.next.best ∧ tr = [ps]) ∨
       (A.complete ps.next.best = false ∧ ∃ tr', loop A P ds ps.next = .ok (s, tr') ∧
         tr = ps :: tr')) := by
  unfold loop at h
  split at h
  · cases h
  · rename_i ps hps
    refine ⟨ps, hps, ?_⟩
    split at h
    · rename_i hc
      simp only [Except.ok.injEq, Prod.mk.injEq] at h
      exact Or.inl ⟨hc, h.1.symm, h.2.symm⟩
    · rename_i hc
      split at h
      · cases h
      · rename_i s' tr' hl
        simp only [Except.ok.injEq, Prod.mk.injEq] at h
        obtain ⟨rfl, rfl⟩ := h
        exact Or.inr ⟨by simpa using hc, tr', hl, rfl⟩

/-- An invariant of solutions preserved by every operator holds of the result. -/
theorem solveTrace_invariant {A : Problem S} {P : Params} {Inv : S → Prop}
    (hdes : ∀ f ∈ A.destroy, ∀ s s' picks, Inv s → f s P.toRemove picks = .ok s' → Inv s')
    (hrep : ∀ g ∈ A.repair, ∀ s s', Inv s → g s P.toAdd = .ok s' → Inv s')
    {initial s : S} {draws : List Draw} {tr : List (Pass S)} (h0 : Inv initial)
    (h : solveTrace A P initial draws = .ok (s, tr)) :
    Inv s ∧ ∀ p ∈ tr, Inv p.candidate := by
  have key : ∀ (ds : List Draw) (st : State S) (s : S) (tr : List (Pass S)), Inv st.current →
      Inv st.best → loop A P ds st = .ok (s, tr) → Inv s ∧ ∀ p ∈ tr, Inv p.candidate := by
    intro ds
    induction ds with
    | nil =>
      intro st s tr _ hb hl
      simp only [loop, Except.ok.injEq, Prod.mk.injEq] at hl
      obtain ⟨rfl, rfl⟩ := hl
      exact ⟨hb, by simp⟩
    | cons d ds ih =>
      intro st s tr hc hb hl
      obtain ⟨ps, hps, hcase⟩ := loop_cons hl
      obtain ⟨i, j, f, g, destroyed, F⟩ := pass_facts hps
      have hcand : Inv ps.candidate :=
        hrep g (List.mem_of_getElem? F.hg) _ _
          (hdes f (List.mem_of_getElem? F.hf) _ _ _ hc F.hd) F.hr
      have hcur : Inv ps.next.current := by rw [F.hcur]; split_ifs <;> assumption
      have hbest : Inv ps.next.best := by rw [F.hbest]; split_ifs <;> assumption
      rcases hcase with ⟨-, rfl, rfl⟩ | ⟨-, tr', hl', rfl⟩
      · exact ⟨hbest, by simpa using hcand⟩
      · obtain ⟨h1, h2⟩ := ih ps.next s tr' hcur hbest hl'
        exact ⟨h1, fun p hp => by
          rcases List.mem_cons.1 hp with rfl | hp
          · exact hcand
          · exact h2 p hp⟩
  unfold solveTrace at h
  split at h
  · simp only [Except.ok.injEq, Prod.mk.injEq] at h
    obtain ⟨rfl, rfl⟩ := h
    exact ⟨h0, by simp⟩
  · exact key draws _ s tr h0 h0 h

theorem solve_trace {A : Problem S} {P : Params} {initial s : S} {draws : List Draw}
    (h : solve A P initial draws = .ok s) : ∃ tr, solveTrace A P initial draws = .ok (s, tr) := by
  unfold solve at h
  cases hs : solveTrace A P initial draws with
  | error e => rw [hs] at h; simp [Except.map] at h
  | ok p =>
    rw [hs] at h
    simp only [Except.map, Except.ok.injEq] at h
    exact ⟨p.2, by rw [← h]⟩

theorem loop_best {A : Problem S} {P : Params} : ∀ (ds : List Draw) (st : State S) (s : S)
    (tr : List (Pass S)), loop A P ds st = .ok (s, tr) →
    A.cost s ≤ A.cost st.best ∧ (∀ p ∈ tr, A.cost s ≤ A.cost p.candidate) ∧
      (s = st.best ∨ ∃ p ∈ tr, s = p.candidate) := by
  intro ds
  induction ds with
  | nil =>
    intro st s tr hl
    simp only [loop, Except.ok.injEq, Prod.mk.injEq] at hl
    obtain ⟨rfl, rfl⟩ := hl
    exact ⟨le_rfl, by simp, Or.inl rfl⟩
  | cons d ds ih =>
    intro st s tr hl
    obtain ⟨ps, hps, hcase⟩ := loop_cons hl
    obtain ⟨i, j, f, g, destroyed, F⟩ := pass_facts hps
    have h1 : A.cost ps.next.best ≤ A.cost st.best := by
      rw [F.hbest]; split_ifs with h
      · exact h.le
      · exact le_rfl
    have h2 : A.cost ps.next.best ≤ A.cost ps.candidate := by
      rw [F.hbest]; split_ifs with h
      · exact le_rfl
      · exact not_lt.1 h
    have h3 : ps.next.best = st.best ∨ ps.next.best = ps.candidate := by
      rw [F.hbest]; split_ifs
      · exact Or.inr rfl
      · exact Or.inl rfl
    rcases hcase with ⟨-, rfl, rfl⟩ | ⟨-, tr', hl', rfl⟩
    · refine ⟨h1, by simpa using h2, ?_⟩
      rcases h3 with h3 | h3
      · exact Or.inl h3
      · exact Or.inr ⟨ps, by simp, h3⟩
    · obtain ⟨k1, k2, k3⟩ := ih ps.next s tr' hl'
      refine ⟨k1.trans h1, fun p hp => ?_, ?_⟩
      · rcases List.mem_cons.1 hp with rfl | hp
        · exact k1.trans h2
        · exact k2 p hp
      · rcases k3 with k3 | ⟨p, hp, k3⟩
        · rcases h3 with h3 | h3
          · exact Or.inl (k3.trans h3)
          · exact Or.inr ⟨ps, by simp, k3.trans h3⟩
        · exact Or.inr ⟨p, List.mem_cons_of_mem _ hp, k3⟩

theorem loop_stops {A : Problem S} {P : Params} : ∀ (ds : List Draw) (st : State S) (s : S)
    (tr : List (Pass S)), loop A P ds st = .ok (s, tr) → A.complete st.best = false →
    tr.length ≤ ds.length ∧ (tr.length < ds.length → A.complete s = true) ∧
      (∀ p ∈ tr.dropLast, A.complete p.next.best = false) ∧
      s = (tr.getLast?.map fun p => p.next.best).getD st.best := by
  intro ds
  induction ds with
  | nil =>
    intro st s tr hl _
    simp only [loop, Except.ok.injEq, Prod.mk.injEq] at hl
    obtain ⟨rfl, rfl⟩ := hl
    simp
  | cons d ds ih =>
    intro st s tr hl _
    obtain ⟨ps, hps, hcase⟩ := loop_cons hl
    rcases hcase with ⟨hc, rfl, rfl⟩ | ⟨hc, tr', hl', rfl⟩
    · simp [hc]
    · obtain ⟨k1, k2, k3, k4⟩ := ih ps.next s tr' hl' hc
      refine ⟨by simpa using k1, fun hlt => k2 (by simpa using hlt), ?_, ?_⟩
      · cases tr' with
        | nil => simp
        | cons q qs =>
          intro p hp
          rw [List.dropLast_cons_of_ne_nil (by simp)] at hp
          rcases List.mem_cons.1 hp with rfl | hp
          · exact hc
          · exact k3 p hp
      · rw [k4]
        cases tr' with
        | nil => rfl
        | cons q qs =>
          rw [List.getLast?_cons_cons]
          cases hq : (q :: qs).getLast? with
          | none => simp at hq
          | some z => rfl

/-! ### weights -/

theorem score_bounds {A : Problem S} {P : Params} {st : State S} {d : Draw} {ps : Pass S}
    (h : pass A P st d = .ok ps) : 0 ≤ ps.score ∧ ps.score ≤ 3 := by
  obtain ⟨i, j, f, g, destroyed, F⟩ := pass_facts h
  rw [F.hscore]
  unfold bestScore acceptScore rejectScore
  split_ifs <;> norm_num

/-- All weights lie in `(0, 1]`. -/
def GoodWeights (w : List ℚ) : Prop := ∀ x ∈ w, 0 < x ∧ x ≤ 1

theorem goodWeights_replicate (n : ℕ) : GoodWeights (List.replicate n 1) := by
  intro x hx
  rw [List.eq_of_mem_replicate hx]
  norm_num

theorem mem_modify {α : Type*} {f : α → α} : ∀ {l : List α} {i : ℕ} {x : α}, x ∈ l.modify i f →
    x ∈ l ∨ ∃ y ∈ l, x = f y := by
  intro l
  induction l with
  | nil => intro i x hx; cases i <;> simp at hx
  | cons a l ih =>
    intro i x hx
    cases i with
    | zero =>
      simp only [List.modify_zero_cons, List.mem_cons] at hx
      rcases hx with rfl | hx
      · exact Or.inr ⟨a, by simp, rfl⟩
      · exact Or.inl (by simp [hx])
    | succ i =>
      simp only [List.modify_succ_cons, List.mem_cons] at hx
      rcases hx with rfl | hx
      · exact Or.inl (by simp)
      · rcases ih hx with h | ⟨y, hy, h⟩
        · exact Or.inl (by simp [h])
        · exact Or.inr ⟨y, by simp [hy], h⟩

theorem goodWeights_update {w : List ℚ} {l score : ℚ} (hl0 : 0 ≤ l) (hl1 : l < 1) (h0 : 0 ≤ score)
    (h3 : score ≤ 3) (i : ℕ) (hw : GoodWeights w) : GoodWeights (updateWeights w l score i) := by
  intro x hx
  rcases mem_modify hx with h | ⟨y, hy, rfl⟩
  · exact hw x h
  · obtain ⟨hy0, hy1⟩ := hw y hy
    have hs : sumScore = 6 := by norm_num [sumScore, bestScore, betterScore, acceptScore, rejectScore]
    rw [hs]
    constructor
    · have : 0 < (1 - l) * y := mul_pos (by linarith) hy0
      have : 0 ≤ l * score / 6 := by positivity
      linarith
    · have h1 : (1 - l) * y ≤ (1 - l) * 1 := mul_le_mul_of_nonneg_left hy1 (by linarith)
      have h2 : l * score ≤ l * 3 := mul_le_mul_of_nonneg_left h3 hl0
      linarith

theorem sum_pos_of_good {w : List ℚ} (hw : GoodWeights w) (hne : w ≠ []) : 0 < w.sum :=
  List.sum_pos w (fun x hx => (hw x hx).1) hne

theorem sum_map_div (w : List ℚ) (c : ℚ) : (w.map fun x => x / c).sum = w.sum / c := by
  induction w with
  | nil => simp
  | cons a w ih => simp only [List.map_cons, List.sum_cons, ih]; ring

theorem choose_lt {x : ℚ} : ∀ (w : List ℚ) (acc : ℚ), w ≠ [] → choose x w acc < w.length := by
  intro w
  induction w with
  | nil => intro _ h; exact absurd rfl h
  | cons a w ih =>
    intro acc _
    cases w with
    | nil => simp [choose]
    | cons b w =>
      unfold choose
      split_ifs
      · simp
      · have := ih (acc + a) (by simp)
        simpa using this

end Celest.Alns
