/-
C143 for `Scheduler.generate`: many iterations and an annealing coefficient of at most one half.
-/
import Verif.Schedule.PropsAlnsRounded
import Verif.Schedule.PropsRounded

namespace Celest

/-- Whole numbers are doubles. -/
theorem gradual_nat {E k : ℕ} (h : k < 2 ^ 53) : gradualRound E k = k := by
  rcases Nat.eq_zero_or_pos k with rfl | hk
  · simpa using gradual_zero (E := E)
  have hlog : Int.log 2 |(k : ℚ)| ≤ 52 := by
    rw [abs_of_nonneg (by positivity), Int.log_natCast]
    have : Nat.log 2 k < 53 := Nat.log_lt_of_lt_pow hk.ne' h
    omega
  unfold gradualRound
  obtain ⟨e, he⟩ : ∃ e, e = max (Int.log 2 |(k : ℚ)| - 52) (-E) := ⟨_, rfl⟩
  rw [← he]
  obtain ⟨j, hj⟩ : ∃ j : ℕ, e = -j := ⟨(-e).toNat, by omega⟩
  have h2 : (2 : ℚ) ^ e ≠ 0 := by positivity
  have hq : (k : ℚ) / 2 ^ e = ((k * 2 ^ j : ℕ) : ℤ) := by
    rw [hj, zpow_neg, zpow_natCast, div_inv_eq_mul]
    push_cast
    ring
  rw [hq, nearestEven_int, ← hq, div_mul_cancel₀ _ h2]

namespace Schedule.Rounded

open Schedule

variable {fl : ℚ → ℚ}

/-- `n` requests, with whole priorities of at most 10. -/
def Graded (n : ℕ) (l : List ℚ) : Prop := l.length = n ∧ ∀ x ∈ l, ∃ k : ℕ, k ≤ 10 ∧ x = k

/-- The priorities of the requests. -/
def priorities (h : Handler) : List ℚ := h.requests.map (·.priority)

theorem Graded.perm {n : ℕ} {l l' : List ℚ} (h : Graded n l) (hp : l'.Perm l) : Graded n l' :=
  ⟨hp.length_eq.trans h.1, fun x hx => h.2 x (hp.subset hx)⟩

theorem priorities_perm {h h' : Handler} (hp : h'.requests.Perm h.requests) :
    (priorities h').Perm (priorities h) := hp.map _

theorem priorities_sameRow {h h' : Handler} (hf : List.Forall₂ SameRow h.requests h'.requests) :
    priorities h' = priorities h := by
  refine Forall₂.map_eq (fun {a b} h => ?_) hf
  rw [h.2]

theorem priorities_loose {h h' : Handler} (hf : List.Forall₂ Loose h.requests h'.requests) :
    priorities h' = priorities h := by
  refine Forall₂.map_eq (fun {a b} h => ?_) hf
  rcases h with rfl | rfl <;> rfl

theorem priorities_schedule {h : Handler} (i idx : ℕ) (s d : ℚ) :
    priorities (h.schedule i idx s d) = priorities h := by
  unfold priorities Handler.schedule
  apply List.ext_getElem?
  intro j
  simp only [List.getElem?_map, List.getElem?_modify]
  cases h.requests[j]? with
  | none => rfl
  | some r => by_cases hj : i = j <;> simp [hj]

theorem priorities_insertLoop : ∀ (is : List ℕ) (h : Handler) (n : ℤ),
    priorities (insertLoop fl is h n).1 = priorities h := by
  intro is
  induction is with
  | nil => intro h n; rfl
  | cons i is ih =>
    intro h n
    unfold insertLoop
    split
    · rfl
    · split
      · rfl
      · split
        · exact ih h n
        · split
          · rfl
          · exact ih h n
          · rw [ih, priorities_schedule]

theorem priorities_removal {f : Handler → ℤ → (ℕ → ℕ) → Py Handler}
    (hf : f ∈ removalFunctions fl) {h h' : Handler} {n : ℤ} {picks : ℕ → ℕ}
    (e : f h n picks = .ok h') : (priorities h').Perm (priorities h) := by
  simp only [removalFunctions, List.mem_cons, List.not_mem_nil, or_false] at hf
  rcases hf with rfl | rfl | rfl | rfl
  · rw [priorities_loose (randomRemoval_loose e)]
  · rw [priorities_loose (removeFirstN_loose e)]
    exact priorities_perm (perm_sortPriority h)
  · rw [priorities_loose (removeFirstN_loose e)]
    exact priorities_perm (perm_sortDecOpp h)
  · unfold conflictRemoval at e
    split at e
    · cases e
    · rename_i h₁ hs
      rw [priorities_loose (removeFirstN_loose e)]
      exact priorities_perm (perm_sortConflict hs)

theorem priorities_insertion {g : Handler → ℤ → Py Handler} (hg : g ∈ insertionFunctions fl)
    {h h' : Handler} {n : ℤ} (e : g h n = .ok h') : (priorities h').Perm (priorities h) := by
  simp only [insertionFunctions, List.mem_cons, List.not_mem_nil, or_false] at hg
  rcases hg with rfl | rfl | rfl
  · rw [← (settle_ok e).1]
    unfold insertFirstN
    rw [priorities_insertLoop]
    exact priorities_perm (perm_sortPriority h)
  · rw [← (settle_ok e).1]
    unfold insertFirstN
    rw [priorities_insertLoop]
    exact priorities_perm (perm_sortIncOpp h)
  · unfold minimumConflictInsertion at e
    split at e
    · cases e
    · rename_i h₁ hs
      rw [← (settle_ok e).1]
      unfold insertFirstN
      rw [priorities_insertLoop, priorities_sameRow (sortVtwsLoop_sameRow hs)]

theorem priorities_initialize (h : Handler) :
    (priorities (initializeSolution fl h).1).Perm (priorities h) := by
  unfold initializeSolution insertFirstN
  rw [priorities_insertLoop, priorities_sameRow (riseSort_facts _)]
  exact priorities_perm (perm_sortPriority h)

theorem priorities_generate (h : Handler) (a : GenerateArgs) :
    (priorities (generate fl h a).2).Perm (priorities h) := by
  unfold generate
  split
  · exact List.Perm.refl _
  · have := priorities_initialize (fl := fl) h
    split
    · rename_i h' e heq; rw [heq] at this; exact this
    · rename_i h' heq; rw [heq] at this; exact this

theorem priorities_run_aux : ∀ (ops : List Op) (h : Handler),
    (priorities (ops.foldl (step fl) h)).Perm
      (priorities h ++ (submissions ops).map (·.priority))
  | [], h => by simp [submissions]
  | .add s :: ops, h => by
    refine (priorities_run_aux ops (addSubmission h s)).trans ?_
    have : priorities (addSubmission h s) = priorities h ++ [s.priority] := by
      simp [priorities, addSubmission, Handler.addRequest]
    rw [this]
    simp [submissions]
  | .generate a :: ops, h =>
    (priorities_run_aux ops (generate fl h a).2).trans
      ((priorities_generate h a).append (List.Perm.refl _))

theorem priorities_run (ops : List Op) :
    (priorities (run fl ops)).Perm ((submissions ops).map (·.priority)) := by
  simpa [run, priorities, Handler.empty] using priorities_run_aux (fl := fl) ops Handler.empty

/-- The cost of a schedule is minus a whole number. -/
theorem cost_whole {l : List Request} : ∀ {k : ℕ}, (∀ r ∈ l, ∃ k : ℕ, k ≤ 10 ∧ r.priority = k) →
    k + 10 * l.length < 2 ^ 53 → ∃ j, j ≤ k + 10 * l.length ∧
      l.foldl (fun c r => if r.isScheduled then doubleRound (c - r.priority) else c) (-(k : ℚ)) =
        -(j : ℚ) := by
  induction l with
  | nil => intro k _ _; exact ⟨k, by simp, rfl⟩
  | cons r l ih =>
    intro k hp hk
    have hl : ∀ r ∈ l, ∃ k : ℕ, k ≤ 10 ∧ r.priority = k := fun r hr => hp r (by simp [hr])
    rw [List.foldl_cons]
    simp only [List.length_cons] at hk ⊢
    by_cases hs : r.isScheduled = true
    · obtain ⟨p, hp10, hpr⟩ := hp r (by simp)
      rw [if_pos hs, hpr, show -(k : ℚ) - p = -((k + p : ℕ) : ℚ) by push_cast; ring, doubleRound,
        gradual_neg, gradual_nat (by omega)]
      obtain ⟨j, hj, e⟩ := ih (k := k + p) hl (by omega)
      exact ⟨j, by omega, e⟩
    · rw [if_neg hs]
      obtain ⟨j, hj, e⟩ := ih (k := k) hl (by omega)
      exact ⟨j, by omega, e⟩

theorem cost_graded {n : ℕ} (hn : 10 * n < 2 ^ 53) {h : Handler} (hg : Graded n (priorities h)) :
    ∃ j, j ≤ 10 * n ∧ cost doubleRound h = -(j : ℚ) := by
  have hlen : h.requests.length = n := by simpa [priorities] using hg.1
  have hp : ∀ r ∈ h.forLoop, ∃ k : ℕ, k ≤ 10 ∧ r.priority = k := by
    intro r hr
    rw [forLoop_eq] at hr
    exact hg.2 _ (List.mem_map_of_mem ((List.dropLast_sublist _).subset hr))
  have hle : h.forLoop.length ≤ n := by
    rw [forLoop_eq, ← hlen]
    exact (List.dropLast_sublist _).length_le
  obtain ⟨j, hj, e⟩ := cost_whole (k := 0) hp (by omega)
  refine ⟨j, by omega, ?_⟩
  simpa [cost] using e

/-- **C143** (false).  Of `n` requests with whole priorities of at most 10, after any history of
calls, `generate` with an annealing coefficient of at most one half and `1076 + 20 n` iterations or
more either raises or returns an observation of every request but one. -/
theorem C143_generate_raises_unless_complete (history : List Op) (a : GenerateArgs)
    (ws : List Observation)
    (hprio : ∀ s ∈ submissions history, ∃ k : ℕ, k ≤ 10 ∧ s.priority = k)
    (hn : 10 * (submissions history).length < 2 ^ 53) (ha0 : 0 ≤ a.annealing)
    (ha : a.annealing ≤ 1 / 2) (hlog : a.logHalf ≤ -1 / 2)
    (hd : 1076 + 20 * (submissions history).length ≤ a.draws.length)
    (h : (generate doubleRound (run doubleRound history) a).1 = .ok ws) :
    ws.length + 1 = (submissions history).length := by
  obtain ⟨n, hnd⟩ : ∃ n, n = (submissions history).length := ⟨_, rfl⟩
  rw [← hnd] at hn hd ⊢
  obtain ⟨h', best, hi, hs, ho⟩ := generate_ok h
  have hg0 : Graded n (priorities (run doubleRound history)) := by
    refine Graded.perm ⟨by simp [hnd], fun x hx => ?_⟩ (priorities_run history)
    obtain ⟨s, hsm, rfl⟩ := List.mem_map.1 hx
    exact hprio s hsm
  have hg1 : Graded n (priorities h') := by
    have := priorities_initialize (fl := doubleRound) (run doubleRound history)
    rw [hi] at this
    exact hg0.perm this
  have hkept : Alns.Rounded.Kept (problem doubleRound)
      (solveParams doubleRound a h'.requests.length) fun h => Graded n (priorities h) :=
    Alns.Rounded.kept_of (fun f hf s s' picks hs e => hs.perm (priorities_removal hf e))
      (fun g hg s s' hs e => hs.perm (priorities_insertion hg e))
  have hbest : Graded n (priorities best) := Alns.Rounded.solve_kept hkept hg1 hs
  obtain ⟨j, hj, hcost⟩ := cost_graded hn hg1
  have hcomplete : isComplete best = true := by
    have hlt : 10 * n < 2 ^ (10 * n) := Nat.lt_two_pow_self
    refine Alns.Rounded.C143_cold_search_raises hkept
      (C := (Finset.range (10 * n + 1)).image fun k : ℕ => -(k : ℚ))
      (fun s hs => ?_) ha0 ha hlog hg1 (m := 10 * n) ?_ ?_ ?_ hs
    · obtain ⟨k, hk, e⟩ := cost_graded hn hs
      exact Finset.mem_image.2 ⟨k, by simp; omega, e.symm⟩
    · show cost doubleRound h' ≤ 0
      rw [hcost]
      simp
    · show -(2 : ℚ) ^ (10 * n) ≤ cost doubleRound h'
      rw [hcost]
      have : (j : ℚ) ≤ 2 ^ (10 * n) := by exact_mod_cast hj.trans hlt.le
      linarith
    · have := Finset.card_image_le (s := Finset.range (10 * n + 1)) (f := fun k : ℕ => -(k : ℚ))
      rw [Finset.card_range] at this
      omega
  have hlen : best.requests.length = n := by simpa [priorities] using hbest.1
  unfold outputWindows at ho
  have he := (toObservations_facts ho).length_eq
  unfold isComplete at hcomplete
  rw [List.all_eq_true] at hcomplete
  rw [List.filter_eq_self.2 (fun r hr => hcomplete r hr), forLoop_eq, List.length_dropLast,
    hlen] at he
  have hpos : 0 < n := by
    by_contra h0
    have h0 : (run doubleRound history).requests.length = 0 := by
      have := hg0.1
      simp only [priorities, List.length_map] at this
      omega
    unfold generate at h
    rw [if_pos h0] at h
    cases h
  omega

/-- Arguments with 1,200 iterations and a coefficient of one half. -/
def coldArgs : GenerateArgs :=
  ⟨1 / 2, 1 / 2, fun _ => 0, -7 / 10, List.replicate 1200 ⟨0, 0, 0, id⟩⟩

/-- Four requests of which three are scheduled at once. -/
example : (∀ s ∈ submissions (fourPasses.map Op.add), ∃ k : ℕ, k ≤ 10 ∧ s.priority = k) ∧
    1076 + 20 * (submissions (fourPasses.map Op.add)).length ≤ coldArgs.draws.length ∧
    (generate doubleRound (run doubleRound (fourPasses.map Op.add)) coldArgs).1.map List.length =
      .ok 3 := by
  have hs : submissions (fourPasses.map Op.add) = fourPasses := by decide +kernel
  rw [hs]
  refine ⟨?_, by simp only [coldArgs, List.length_replicate]; decide, by decide +kernel⟩
  intro s hs
  simp only [fourPasses, List.mem_cons, List.not_mem_nil, or_false] at hs
  rcases hs with rfl | rfl | rfl | rfl
  exacts [⟨4, by norm_num, by norm_num⟩, ⟨8, by norm_num, by norm_num⟩,
    ⟨3, by norm_num, by norm_num⟩, ⟨7, by norm_num, by norm_num⟩]

end Schedule.Rounded

end Celest
