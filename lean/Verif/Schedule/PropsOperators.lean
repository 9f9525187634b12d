/-
Properties of the removal, insertion and sorting operators: C07 – C11.
-/
import Verif.Schedule.PropsSchedule

namespace Celest.Schedule

/-! ### C07 -/

/-- The removal operators that do not sort by conflict degree. -/
def simpleRemovals : List (Handler → ℤ → (ℕ → ℕ) → Py Handler) :=
  [randomRemoval, priorityRemoval, opportunityRemoval]

/-- **C07.** Random, priority and opportunity removal, from any consistent handler, for any
`k` and any draws: never raise, unschedule exactly `min k (number scheduled)` requests and
otherwise only reorder: every row is a row of the input, unchanged or with its assignment
erased. -/
theorem C07_removes_exactly_partial {f : Handler → ℤ → (ℕ → ℕ) → Py Handler} (hf : f ∈ simpleRemovals)
    (h : Handler) (hc : h.Consistent) (k : ℕ) (picks : ℕ → ℕ) :
    ∃ h', f h k picks = .ok h' ∧
      h'.scheduledCount + min k h.scheduledCount = h.scheduledCount ∧
      h'.numScheduled = h'.scheduledCount ∧
      ∃ l, l.Perm h.requests ∧ List.Forall₂ KeptOrCleared l h'.requests := by
  simp only [simpleRemovals, List.mem_cons, List.not_mem_nil, or_false] at hf
  rcases hf with rfl | rfl | rfl
  · obtain ⟨h', e, -, r⟩ := randomRemoval_facts hc k picks
    exact ⟨h', e, r.count, r.counter, r.rows⟩
  · obtain ⟨h', e, r⟩ := priorityRemoval_facts hc k picks
    exact ⟨h', e, r.count, r.counter, r.rows⟩
  · obtain ⟨h', e, r⟩ := opportunityRemoval_facts hc k picks
    exact ⟨h', e, r.count, r.counter, r.rows⟩

/-- **C07 (partial).** Conflict removal does the same whenever it returns.  Missing: it
usually raises, see `C07_conflict_removal_mixed_raises`. -/
theorem C07_conflict_removal_partial (h h' : Handler) (hc : h.Consistent) (k : ℕ)
    (picks : ℕ → ℕ) (e : conflictRemoval h k picks = .ok h') :
    h'.scheduledCount + min k h.scheduledCount = h.scheduledCount ∧
      h'.numScheduled = h'.scheduledCount ∧
      ∃ l, l.Perm h.requests ∧ List.Forall₂ KeptOrCleared l h'.requests := by
  have r := removal_removed (f := conflictRemoval) (by simp [removalFunctions]) hc e
  exact ⟨r.count, r.counter, r.rows⟩

/-- **C07 refuted** for conflict removal: it raises for *every* handler in which some but not
all requests are scheduled, whatever the number to remove. -/
theorem C07_conflict_removal_mixed_raises (h : Handler) (k : ℤ) (picks : ℕ → ℕ)
    (hs : ∃ r ∈ h.requests, r.isScheduled = true) (hu : ∃ r ∈ h.requests, r.isScheduled = false) :
    ∃ e, conflictRemoval h k picks = .error e := by
  unfold conflictRemoval
  cases hsort : h.sortByDecreasingConflictDegree with
  | error e => exact ⟨e, rfl⟩
  | ok h' =>
    exfalso
    unfold Handler.sortByDecreasingConflictDegree at hsort
    split at hsort
    · cases hsort
    · rename_i keys hm
      have hf := mapM_forall₂ hm
      have h1 : keys.any Option.isSome = true := by
        obtain ⟨r, hr, hs⟩ := hs
        obtain ⟨i, hi, rfl⟩ := List.getElem_of_mem hr
        have hi' : i < keys.length := by rw [← hf.length_eq]; exact hi
        have := List.Forall₂.get hf hi hi'
        simp only [List.get_eq_getElem] at this
        rw [List.any_eq_true]
        refine ⟨keys[i], List.getElem_mem hi', ?_⟩
        unfold Handler.conflictKey at this
        rw [if_pos hs] at this
        split at this
        · cases this
        · split at this
          · cases this
          · split at this
            · cases this
            · simp only [Except.ok.injEq] at this
              rw [← this]; rfl
      have h2 : keys.any Option.isNone = true := by
        obtain ⟨r, hr, hu⟩ := hu
        obtain ⟨i, hi, rfl⟩ := List.getElem_of_mem hr
        have hi' : i < keys.length := by rw [← hf.length_eq]; exact hi
        have := List.Forall₂.get hf hi hi'
        simp only [List.get_eq_getElem] at this
        rw [List.any_eq_true]
        refine ⟨keys[i], List.getElem_mem hi', ?_⟩
        unfold Handler.conflictKey at this
        rw [if_neg (by simp [hu])] at this
        simp only [Except.ok.injEq] at this
        rw [← this]; rfl
      rw [h1, h2] at hsort
      simp at hsort

/-- The handler after the initial schedule of `fourRequests`: a consistent mixture. -/
def mixed : Handler := (initializeSolution (submit fourRequests)).1

/-- Non-vacuity for C07: removing one of two scheduled requests, and a mixture. -/
example : mixed.scheduledCount = 2 ∧ (∃ r ∈ mixed.requests, r.isScheduled = false) ∧
    ((priorityRemoval mixed 1 fun _ => 0).map Handler.scheduledCount = .ok 1) ∧
    ((randomRemoval mixed 1 fun _ => 7).map Handler.scheduledCount = .ok 1) := by
  decide +kernel

/-- Consistency of the example handler. -/
theorem mixed_consistent : mixed.Consistent :=
  (initializeSolution_inv (inv_submit fourRequests)).1

theorem overlap_some {v w : VTW} (hv : v.rise < v.set) (hw : w.rise < w.set) :
    ∃ x, Handler.julianDayOverlap v w = some x := by
  unfold Handler.julianDayOverlap
  simp only
  split_ifs with h1 h2 h3 h4 h5
  all_goals try exact ⟨_, rfl⟩
  exfalso
  simp only [Bool.or_eq_true, decide_eq_true_eq, not_or, not_lt] at h1 h4 h5
  linarith

theorem sumOverlap_ok {v : VTW} (hv : v.rise < v.set) : ∀ (ws : List VTW) (acc : ℚ),
    (∀ w ∈ ws, w.rise < w.set) → ∃ x, Handler.sumOverlap v ws acc = .ok x
  | [], acc, _ => ⟨acc, rfl⟩
  | w :: ws, acc, h => by
    obtain ⟨x, hx⟩ := overlap_some hv (h w List.mem_cons_self)
    unfold Handler.sumOverlap
    rw [hx]
    exact sumOverlap_ok hv ws _ fun w hw => h w (List.mem_cons_of_mem _ hw)

theorem conflictDegree_ok {h : Handler} (hw : ∀ r ∈ h.requests, ∀ v ∈ r.vtws, v.rise < v.set)
    {r : Request} (hr : r ∈ h.requests) {v : VTW} (hv : v ∈ r.vtws) :
    ∃ x, h.conflictDegree v = .ok x := by
  have hvv := hw r hr v hv
  obtain ⟨x, hx⟩ := sumOverlap_ok hvv (h.overlappingVtws v) 0 (by
    intro w hwm
    simp only [Handler.overlappingVtws, List.mem_flatMap, List.mem_filter] at hwm
    obtain ⟨r', hr', hw', -⟩ := hwm
    exact hw r' hr' w hw')
  have hself : v ∈ h.overlappingVtws v := by
    simp only [Handler.overlappingVtws, List.mem_flatMap, List.mem_filter]
    refine ⟨r, hr, hv, ?_⟩
    simp [Handler.areOverlapping, hvv.le]
  unfold Handler.conflictDegree
  rw [hx]
  simp only
  rw [if_neg (by have := List.length_pos_of_mem hself; omega)]
  exact ⟨_, rfl⟩

theorem mapM_ok {α β : Type} {f : α → Py β} : ∀ {l : List α}, (∀ a ∈ l, ∃ b, f a = .ok b) →
    ∃ bs, l.mapM f = .ok bs := by
  intro l
  induction l with
  | nil => intro _; exact ⟨[], rfl⟩
  | cons a l ih =>
    intro h
    obtain ⟨b, hb⟩ := h a List.mem_cons_self
    obtain ⟨bs, hbs⟩ := ih fun a ha => h a (List.mem_cons_of_mem _ ha)
    refine ⟨b :: bs, ?_⟩
    rw [List.mapM_cons, hb, hbs]
    rfl

/-- **C07 (partial).** Conflict removal does return when all windows are proper intervals and
the requests are all scheduled or all unscheduled. -/
theorem C07_conflict_removal_uniform_partial (h : Handler) (hc : h.Consistent)
    (hw : ∀ r ∈ h.requests, ∀ v ∈ r.vtws, v.rise < v.set)
    (hu : (∀ r ∈ h.requests, r.isScheduled = true) ∨ ∀ r ∈ h.requests, r.isScheduled = false)
    (k : ℕ) (picks : ℕ → ℕ) : ∃ h', conflictRemoval h k picks = .ok h' := by
  have hk : ∀ r ∈ h.requests, ∃ b, h.conflictKey r = .ok b ∧ b.isSome = r.isScheduled := by
    intro r hr
    unfold Handler.conflictKey
    cases hs : r.isScheduled with
    | false => exact ⟨none, rfl, rfl⟩
    | true =>
      rcases hc.rows r hr with h1 | ⟨-, ⟨i, hi, hlt⟩, -⟩
      · rw [h1.1] at hs; cases hs
      · rw [hi]
        simp only [if_true, List.getElem?_eq_getElem hlt]
        obtain ⟨x, hx⟩ := conflictDegree_ok hw hr (List.getElem_mem hlt)
        rw [hx]
        exact ⟨_, rfl, rfl⟩
  obtain ⟨keys, hm⟩ := mapM_ok (f := h.conflictKey) (l := h.requests)
    fun r hr => (hk r hr).imp fun _ h => h.1
  have hmix : ¬ (keys.any Option.isSome && keys.any Option.isNone) = true := by
    intro hmix
    rw [Bool.and_eq_true, List.any_eq_true, List.any_eq_true] at hmix
    obtain ⟨⟨k1, hk1, e1⟩, k2, hk2, e2⟩ := hmix
    obtain ⟨r1, hr1, f1⟩ := Forall₂.mem_right (mapM_forall₂ hm) hk1
    obtain ⟨r2, hr2, f2⟩ := Forall₂.mem_right (mapM_forall₂ hm) hk2
    obtain ⟨b1, g1, s1⟩ := hk r1 hr1
    obtain ⟨b2, g2, s2⟩ := hk r2 hr2
    rw [f1] at g1; cases g1
    rw [f2] at g2; cases g2
    have e2' : k2.isSome = false := by cases k2 <;> simp_all
    rcases hu with hu | hu
    · rw [hu r2 hr2] at s2; rw [s2] at e2'; cases e2'
    · rw [hu r1 hr1] at s1; rw [s1] at e1; cases e1
  have hsort : ∃ h₁, h.sortByDecreasingConflictDegree = .ok h₁ := by
    unfold Handler.sortByDecreasingConflictDegree
    rw [hm]
    simp only
    rw [if_neg hmix]
    exact ⟨_, rfl⟩
  obtain ⟨h₁, hs⟩ := hsort
  obtain ⟨h', e, -⟩ := conflictRemoval_facts hc k picks hs
  exact ⟨h', e⟩

/-! ### C08 -/

theorem clearFirst_order : ∀ (l : List Request) (n i j : ℕ) (a b a' b' : Request),
    l[i]? = some a → (clearFirst n l)[i]? = some a' → a'.isScheduled = true →
    l[j]? = some b → b.isScheduled = true → (clearFirst n l)[j]? = some b' →
    b'.isScheduled = false → j < i := by
  intro l
  induction l with
  | nil => intro n i j a b a' b' h; simp at h
  | cons r l ih =>
    intro n i j a b a' b' h1 h2 h3 h4 h5 h6 h7
    cases n with
    | zero =>
      simp only [clearFirst] at h6
      rw [h4] at h6
      cases h6
      rw [h5] at h7; cases h7
    | succ n =>
      simp only [clearFirst] at h2 h6
      cases hs : r.isScheduled with
      | true =>
        rw [hs] at h2 h6
        simp only [if_true] at h2 h6
        cases i with
        | zero =>
          simp only [List.getElem?_cons_zero, Option.some.injEq] at h2
          rw [← h2] at h3
          cases h3
        | succ i =>
          cases j with
          | zero => omega
          | succ j =>
            simp only [List.getElem?_cons_succ] at h1 h2 h4 h6
            have := ih n i j a b a' b' h1 h2 h3 h4 h5 h6 h7
            omega
      | false =>
        rw [hs] at h2 h6
        simp only [Bool.false_eq_true, if_false] at h2 h6
        cases j with
        | zero =>
          simp only [List.getElem?_cons_zero, Option.some.injEq] at h4
          rw [← h4, hs] at h5; cases h5
        | succ j =>
          cases i with
          | zero =>
            simp only [List.getElem?_cons_zero, Option.some.injEq] at h2
            rw [← h2, hs] at h3; cases h3
          | succ i =>
            simp only [List.getElem?_cons_succ] at h1 h2 h4 h6
            have := ih (n + 1) i j a b a' b' h1 h2 h3 h4 h5 h6 h7
            omega

/-- The requests of `h'` are those of `h` in some order, unchanged or unscheduled, and nothing
that was unscheduled has a smaller key than something that stayed scheduled. -/
def RemovesLargest (key : Request → ℚ) (h h' : Handler) : Prop :=
  ∃ l, l.Perm h.requests ∧ List.Forall₂ KeptOrCleared l h'.requests ∧
    ∀ (i j : ℕ) (kept removed kept' removed' : Request), l[i]? = some kept → h'.requests[i]? = some kept' →
      kept'.isScheduled = true → l[j]? = some removed → removed.isScheduled = true →
      h'.requests[j]? = some removed' → removed'.isScheduled = false → key kept ≤ key removed

theorem removeFirstN_largest {key : Request → ℚ} {h₀ h : Handler} (hc : h.Consistent)
    (hp : h.requests.Perm h₀.requests) (hsort : h.requests.Pairwise fun a b => key b ≤ key a)
    (k : ℕ) : ∃ h', removeFirstN h k = .ok h' ∧ RemovesLargest key h₀ h' := by
  obtain ⟨h', e, hf, hr, heq⟩ := removeFirstN_facts hc k
  refine ⟨h', e, h.requests, hp, hf, ?_⟩
  intro i j a b a' b' h1 h2 h3 h4 h5 h6 h7
  by_cases hlt : k < h.scheduledCount
  · have := heq hlt
    rw [this] at h2 h6
    have hji := clearFirst_order _ _ _ _ _ _ _ _ h1 h2 h3 h4 h5 h6 h7
    obtain ⟨hi, rfl⟩ := List.getElem?_eq_some_iff.1 h1
    obtain ⟨hj, rfl⟩ := List.getElem?_eq_some_iff.1 h4
    exact List.pairwise_iff_getElem.1 hsort j i hj hi hji
  · have hc0 : h'.scheduledCount = 0 := by
      have := hr.count
      rw [min_eq_right (by omega)] at this
      omega
    rw [Handler.scheduledCount, List.countP_eq_zero] at hc0
    exact absurd h3 (hc0 a' (List.mem_of_getElem? h2))

theorem sorted_priority (h : Handler) :
    h.sortByDecreasingPriority.requests.Pairwise fun a b => b.priority ≤ a.priority := by
  have : IsTrans Request fun a b => b.priority ≤ a.priority := ⟨fun a b c h1 h2 => h2.trans h1⟩
  have : Std.Total fun a b : Request => b.priority ≤ a.priority := ⟨fun a b => le_total _ _⟩
  exact List.pairwise_insertionSort _ _

theorem sorted_decOpp (h : Handler) :
    h.sortByDecreasingOpportunity.requests.Pairwise fun a b => b.vtws.length ≤ a.vtws.length := by
  have : IsTrans Request fun a b => b.vtws.length ≤ a.vtws.length :=
    ⟨fun a b c h1 h2 => h2.trans h1⟩
  have : Std.Total fun a b : Request => b.vtws.length ≤ a.vtws.length := ⟨fun a b => le_total _ _⟩
  exact List.pairwise_insertionSort _ _

theorem sorted_incOpp (h : Handler) :
    h.sortByIncreasingOpportunity.requests.Pairwise fun a b => a.vtws.length ≤ b.vtws.length := by
  have : IsTrans Request fun a b => a.vtws.length ≤ b.vtws.length :=
    ⟨fun a b c h1 h2 => h1.trans h2⟩
  have : Std.Total fun a b : Request => a.vtws.length ≤ b.vtws.length := ⟨fun a b => le_total _ _⟩
  exact List.pairwise_insertionSort _ _

/-- **C08.** Priority removal unschedules requests of highest priority first. -/
theorem C08_priority_removal_order (h : Handler) (hc : h.Consistent) (k : ℕ) (picks : ℕ → ℕ) :
    ∃ h', priorityRemoval h k picks = .ok h' ∧ RemovesLargest Request.priority h h' :=
  removeFirstN_largest (hc.of_perm (perm_sortPriority h) rfl) (perm_sortPriority h)
    (sorted_priority h) k

/-- **C08.** Opportunity removal unschedules the requests with most visible windows first. -/
theorem C08_opportunity_removal_order (h : Handler) (hc : h.Consistent) (k : ℕ)
    (picks : ℕ → ℕ) :
    ∃ h', opportunityRemoval h k picks = .ok h' ∧
      RemovesLargest (fun r => (r.vtws.length : ℚ)) h h' :=
  removeFirstN_largest (hc.of_perm (perm_sortDecOpp h) rfl) (perm_sortDecOpp h)
    ((sorted_decOpp h).imp fun h => by exact_mod_cast h) k

/-- Non-vacuity for C08: of the scheduled requests of priority 8 and 4, priority removal of
one removes the 8; something is kept and something removed. -/
example : ((priorityRemoval mixed 1 fun _ => 0).map fun h =>
    h.requests.map fun r => (r.priority, r.isScheduled)) =
      .ok [(8, false), (7, false), (4, true), (3, false)] ∧
    mixed.requests.map (fun r => (r.priority, r.isScheduled)) =
      [(8, true), (7, false), (4, true), (3, false)] := by decide +kernel

/-! ### C09 -/

theorem SameRow.keptOrAssigned {a b c : Request} (h1 : SameRow a b) (h2 : KA b c) :
    KeptOrAssigned a c := by
  rcases h2.keptOrAssigned with h | ⟨hu, ha, hs⟩
  · exact Or.inl (h1.trans h)
  · refine Or.inr ⟨by rw [← h1.isScheduled]; exact hu, ha, ?_⟩
    refine SameRow.trans ?_ hs
    obtain ⟨p, e⟩ := h1
    refine ⟨p, ?_⟩
    rw [e]
    rfl

/-- **C09.** Every insertion operator that returns, from any consistent handler and for any
`k ≥ 0`: schedules at most `k` requests, unschedules none, and every row of the result is a
row of the input — untouched up to the order of its windows, or newly given a complete,
feasible assignment. -/
theorem C09_insertion_only_adds {g : Handler → ℤ → Py Handler} (hg : g ∈ insertionFunctions)
    (h h' : Handler) (hc : h.Consistent) (k : ℕ) (e : g h k = .ok h') :
    (∃ l, l.Perm h.requests ∧ List.Forall₂ KeptOrAssigned l h'.requests) ∧
      h.scheduledCount ≤ h'.scheduledCount ∧ h'.scheduledCount ≤ h.scheduledCount + k := by
  obtain ⟨h₁, hp, hn, hc1, hins⟩ := insertion_inserted hg hc e
  refine ⟨?_, ?_, ?_⟩
  · rcases hp with hp | hp
    · exact ⟨_, hp, hins.rows.imp fun _ _ h => h.keptOrAssigned⟩
    · exact ⟨_, List.Perm.refl _, Forall₂.compose (R := SameRow) (S := KA)
        (fun _ _ _ h1 h2 => h1.keptOrAssigned h2) hp hins.rows⟩
  · have h1 := hins.mono
    rw [hn, hc.counter, hins.consistent.counter] at h1
    exact_mod_cast h1
  · have h1 := hins.bound (by positivity)
    rw [hn, hc.counter, hins.consistent.counter] at h1
    exact_mod_cast h1

/-- Non-vacuity for C09: greedy insertion of at most two requests schedules two. -/
example : ((greedyInsertion (submit fourRequests) 2).map Handler.scheduledCount) = .ok 2 ∧
    ((minimumOpportunityInsertion (submit fourRequests) 1).map Handler.scheduledCount) = .ok 1 := by
  decide +kernel

end Celest.Schedule
