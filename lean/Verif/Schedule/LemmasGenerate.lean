/-
Helper lemmas: the scheduler as a whole.
-/
import Verif.Schedule.LemmasInsert
import Verif.Schedule.PropsSearch

namespace Celest.Schedule

/-! ### operators preserve consistency and the submitted requests -/

/-- The invariant carried through the search. -/
def Inv (subs : List Submission) (h : Handler) : Prop := h.Consistent ∧ h.Holds subs

theorem Inv.of_perm {subs : List Submission} {h h' : Handler} (hi : Inv subs h)
    (hp : h'.requests.Perm h.requests) (hn : h'.numScheduled = h.numScheduled) : Inv subs h' :=
  ⟨hi.1.of_perm hp hn, hi.2.of_perm hp⟩

theorem Inv.of_sameRow {subs : List Submission} {h h' : Handler} (hi : Inv subs h)
    (hf : List.Forall₂ SameRow h.requests h'.requests) (hn : h'.numScheduled = h.numScheduled) :
    Inv subs h' :=
  ⟨hi.1.of_sameRow hf hn, hi.2.of_map (Forall₂.map_eq (fun h => SameRow.fixed h) hf)⟩

theorem Inv.inserted {subs : List Submission} {h h' : Handler} {n : ℤ} (hi : Inv subs h)
    (hf : Inserted h h' n) : Inv subs h' :=
  ⟨hf.consistent, hi.2.of_map (KA.map_fixed hf.rows)⟩

theorem Inv.removed {subs : List Submission} {h h' : Handler} {n : ℕ} (hi : Inv subs h)
    (hf : Removed h h' n) : Inv subs h' :=
  ⟨hf.consistent hi.1, hf.holds hi.2⟩

theorem priorityRemoval_facts {h : Handler} (hc : h.Consistent) (n : ℕ) (picks : ℕ → ℕ) :
    ∃ h', priorityRemoval h n picks = .ok h' ∧ Removed h h' (min n h.scheduledCount) := by
  have hp := perm_sortPriority h
  have hc' : h.sortByDecreasingPriority.Consistent := hc.of_perm hp rfl
  have hcount : h.sortByDecreasingPriority.scheduledCount = h.scheduledCount := hp.countP_eq _
  obtain ⟨h', e, -, r, -⟩ := removeFirstN_facts hc' n
  rw [hcount] at r
  exact ⟨h', e, r.of_perm hp⟩

theorem opportunityRemoval_facts {h : Handler} (hc : h.Consistent) (n : ℕ) (picks : ℕ → ℕ) :
    ∃ h', opportunityRemoval h n picks = .ok h' ∧ Removed h h' (min n h.scheduledCount) := by
  have hp := perm_sortDecOpp h
  have hc' : h.sortByDecreasingOpportunity.Consistent := hc.of_perm hp rfl
  have hcount : h.sortByDecreasingOpportunity.scheduledCount = h.scheduledCount := hp.countP_eq _
  obtain ⟨h', e, -, r, -⟩ := removeFirstN_facts hc' n
  rw [hcount] at r
  exact ⟨h', e, r.of_perm hp⟩

theorem conflictRemoval_facts {h h₁ : Handler} (hc : h.Consistent) (n : ℕ) (picks : ℕ → ℕ)
    (hs : h.sortByDecreasingConflictDegree = .ok h₁) :
    ∃ h', conflictRemoval h n picks = .ok h' ∧ Removed h h' (min n h.scheduledCount) := by
  obtain ⟨hp, hn⟩ := perm_sortConflict hs
  have hc' : h₁.Consistent := hc.of_perm hp hn
  have hcount : h₁.scheduledCount = h.scheduledCount := hp.countP_eq _
  obtain ⟨h', e, -, r, -⟩ := removeFirstN_facts hc' n
  rw [hcount] at r
  refine ⟨h', ?_, r.of_perm hp⟩
  unfold conflictRemoval
  rw [hs]
  exact e

theorem removal_removed {f : Handler → ℤ → (ℕ → ℕ) → Py Handler} (hf : f ∈ removalFunctions)
    {h h' : Handler} (hc : h.Consistent) {n : ℕ} {picks : ℕ → ℕ} (e : f h n picks = .ok h') :
    Removed h h' (min n h.scheduledCount) := by
  simp only [removalFunctions, List.mem_cons, List.not_mem_nil, or_false] at hf
  rcases hf with rfl | rfl | rfl | rfl
  · obtain ⟨k, ek, -, r⟩ := randomRemoval_facts hc n picks
    rw [e] at ek; cases ek; exact r
  · obtain ⟨k, ek, r⟩ := priorityRemoval_facts hc n picks
    rw [e] at ek; cases ek; exact r
  · obtain ⟨k, ek, r⟩ := opportunityRemoval_facts hc n picks
    rw [e] at ek; cases ek; exact r
  · cases hs : h.sortByDecreasingConflictDegree with
    | error x => unfold conflictRemoval at e; rw [hs] at e; cases e
    | ok h₁ =>
      obtain ⟨k, ek, r⟩ := conflictRemoval_facts hc n picks hs
      rw [e] at ek; cases ek; exact r

/-- What an insertion operator does. -/
theorem insertion_inserted {g : Handler → ℤ → Py Handler} (hg : g ∈ insertionFunctions)
    {h h' : Handler} (hc : h.Consistent) {n : ℤ} (e : g h n = .ok h') :
    ∃ h₁, (h₁.requests.Perm h.requests ∨ List.Forall₂ SameRow h.requests h₁.requests) ∧
      h₁.numScheduled = h.numScheduled ∧ h₁.Consistent ∧ Inserted h₁ h' n := by
  simp only [insertionFunctions, List.mem_cons, List.not_mem_nil, or_false] at hg
  rcases hg with rfl | rfl | rfl
  · have hp := perm_sortPriority h
    have hc' : h.sortByDecreasingPriority.Consistent := hc.of_perm hp rfl
    obtain ⟨e1, -⟩ := settle_ok e
    exact ⟨_, Or.inl hp, rfl, hc', e1 ▸ insertFirstN_facts _ n hc'⟩
  · have hp := perm_sortIncOpp h
    have hc' : h.sortByIncreasingOpportunity.Consistent := hc.of_perm hp rfl
    obtain ⟨e1, -⟩ := settle_ok e
    exact ⟨_, Or.inl hp, rfl, hc', e1 ▸ insertFirstN_facts _ n hc'⟩
  · unfold minimumConflictInsertion at e
    split at e
    · cases e
    · rename_i h₁ hs
      obtain ⟨hf, hn⟩ := sortVtwsLoop_facts hs
      have hc' : h₁.Consistent := hc.of_sameRow hf hn
      obtain ⟨e1, -⟩ := settle_ok e
      exact ⟨_, Or.inr hf, hn, hc', e1 ▸ insertFirstN_facts _ n hc'⟩

theorem removal_inv {f : Handler → ℤ → (ℕ → ℕ) → Py Handler} (hf : f ∈ removalFunctions)
    {subs : List Submission} {h h' : Handler} (hi : Inv subs h) {n : ℕ} {picks : ℕ → ℕ}
    (e : f h n picks = .ok h') : Inv subs h' :=
  hi.removed (removal_removed hf hi.1 e)

theorem insertion_inv {g : Handler → ℤ → Py Handler} (hg : g ∈ insertionFunctions)
    {subs : List Submission} {h h' : Handler} (hi : Inv subs h) {n : ℤ}
    (e : g h n = .ok h') : Inv subs h' := by
  obtain ⟨h₁, hp, hn, -, hins⟩ := insertion_inserted hg hi.1 e
  rcases hp with hp | hp
  · exact (hi.of_perm hp hn).inserted hins
  · exact (hi.of_sameRow hp hn).inserted hins

theorem initializeSolution_inv {subs : List Submission} {h : Handler} (hi : Inv subs h) :
    Inv subs (initializeSolution h).1 := by
  unfold initializeSolution
  have h1 : Inv subs h.sortByDecreasingPriority := hi.of_perm (perm_sortPriority h) rfl
  have h2 : Inv subs h.sortByDecreasingPriority.sortVtwsByIncreasingRiseTime :=
    h1.of_sameRow (riseSort_facts _) rfl
  exact h2.inserted (insertFirstN_facts _ _ h2.1)

theorem solve_inv {subs : List Submission} {h best : Handler} (hi : Inv subs h) {a : GenerateArgs}
    {n : ℕ} (e : Alns.solve problem (solveParams a n) h a.draws = .ok best) : Inv subs best := by
  obtain ⟨tr, htr⟩ := Alns.solve_trace e
  refine (Alns.solveTrace_invariant (Inv := Inv subs) ?_ ?_ hi htr).1
  · intro f hf s s' picks hs he
    exact removal_inv hf hs he
  · intro g hg s s' hs he
    exact insertion_inv hg hs he

/-! ### histories -/

/-- The row `add_request` appends. -/
def Submission.row (s : Submission) : Request :=
  ⟨false, none, none, none, s.location, s.deadline, s.duration, s.priority, s.quality,
    s.lookAngle, s.vtws⟩

theorem inv_empty : Inv [] Handler.empty :=
  ⟨⟨by simp [Handler.empty], by simp [Handler.empty, Handler.scheduledCount]⟩,
    by simp [Handler.Holds, Handler.empty]⟩

theorem inv_add {subs : List Submission} {h : Handler} (hi : Inv subs h) (s : Submission) :
    Inv (subs ++ [s]) (addSubmission h s) := by
  have hreq : (addSubmission h s).requests = h.requests ++ [s.row] := rfl
  refine ⟨⟨fun r hr => ?_, ?_⟩, ?_⟩
  · rw [hreq, List.mem_append, List.mem_singleton] at hr
    rcases hr with hr | rfl
    · exact hi.1.rows r hr
    · exact Or.inl ⟨rfl, rfl, rfl, rfl⟩
  · rw [Handler.scheduledCount, hreq, List.countP_append]
    have := hi.1.counter
    simp only [addSubmission, Handler.addRequest, Handler.scheduledCount] at this ⊢
    rw [this]; simp [Submission.row]
  · unfold Handler.Holds
    rw [hreq, List.map_append, List.map_append]
    exact hi.2.append (List.Perm.refl _)

theorem inv_foldl_add : ∀ (subs subs₀ : List Submission) (h : Handler), Inv subs₀ h →
    Inv (subs₀ ++ subs) (subs.foldl addSubmission h) := by
  intro subs
  induction subs with
  | nil => intro subs₀ h hi; simpa using hi
  | cons s subs ih =>
    intro subs₀ h hi
    have := ih (subs₀ ++ [s]) (addSubmission h s) (inv_add hi s)
    simpa using this

theorem inv_submit (subs : List Submission) : Inv subs (submit subs) := by
  simpa [submit] using inv_foldl_add subs [] Handler.empty inv_empty

theorem submit_requests (subs : List Submission) :
    (submit subs).requests = subs.map Submission.row := by
  have : ∀ (subs : List Submission) (h : Handler),
      (subs.foldl addSubmission h).requests = h.requests ++ subs.map Submission.row := by
    intro subs
    induction subs with
    | nil => intro h; simp
    | cons s subs ih =>
      intro h
      rw [List.foldl_cons, ih]
      simp [addSubmission, Handler.addRequest, Submission.row]
  simpa [submit, Handler.empty] using this subs Handler.empty

theorem generate_snd_inv {subs : List Submission} {h : Handler} (hi : Inv subs h)
    (a : GenerateArgs) : Inv subs (generate h a).2 := by
  unfold generate
  split
  · exact hi
  · have := initializeSolution_inv hi
    split
    · rename_i h' e heq; rw [heq] at this; exact this
    · rename_i h' heq; rw [heq] at this; exact this

theorem inv_run_aux : ∀ (ops : List Op) (subs : List Submission) (h : Handler), Inv subs h →
    Inv (subs ++ submissions ops) (ops.foldl step h) := by
  intro ops
  induction ops with
  | nil => intro subs h hi; simpa [submissions] using hi
  | cons op ops ih =>
    intro subs h hi
    cases op with
    | add s =>
      have := ih (subs ++ [s]) (addSubmission h s) (inv_add hi s)
      simpa [submissions, step] using this
    | generate a =>
      exact ih subs _ (generate_snd_inv hi a)

theorem inv_run (ops : List Op) : Inv (submissions ops) (run ops) := by
  simpa [run] using inv_run_aux ops [] Handler.empty inv_empty

/-! ### output -/

/-- An output window is what the row was assigned. -/
def Emits (r : Request) (o : Observation) : Prop :=
  r.isScheduled = true ∧ r.start = some o.start ∧ r.schedDuration = some o.duration ∧
    o.location = r.location

theorem toObservations_facts : ∀ {l : List Request} {ws : List Observation},
    toObservations l = .ok ws →
    List.Forall₂ Emits (l.filter fun r => r.isScheduled) ws := by
  intro l
  induction l with
  | nil => intro ws h; simp only [toObservations, Except.ok.injEq] at h; subst h; exact .nil
  | cons r l ih =>
    intro ws h
    unfold toObservations at h
    split at h
    · cases h
    · rename_i o ho
      split at h
      · cases h
      · rename_i os hos
        simp only [Except.ok.injEq] at h
        subst h
        unfold toObservation at ho
        split at ho
        · rename_i hs
          split at ho
          · rename_i i s d e1 e2 e3
            split at ho
            · simp only [Except.ok.injEq] at ho
              subst ho
              rw [List.filter_cons_of_pos (by simpa using hs)]
              exact .cons ⟨hs, e2, e3, rfl⟩ (ih hos)
            · cases ho
          · cases ho
        · rename_i hs
          simp only [Except.ok.injEq] at ho
          subst ho
          rw [List.filter_cons_of_neg (by simpa using hs)]
          exact ih hos

theorem toObservations_ok : ∀ {l : List Request}, (∀ r ∈ l, r.Clear ∨ r.Assigned) →
    ∃ ws, toObservations l = .ok ws := by
  intro l
  induction l with
  | nil => intro _; exact ⟨[], rfl⟩
  | cons r l ih =>
    intro h
    obtain ⟨ws, hws⟩ := ih fun r hr => h r (List.mem_cons_of_mem _ hr)
    unfold toObservations
    rcases h r List.mem_cons_self with hr | hr
    · have : toObservation r = .ok none := by unfold toObservation; rw [hr.1]; rfl
      rw [this, hws]; exact ⟨_, rfl⟩
    · obtain ⟨h1, ⟨i, h2, hi⟩, h3, s, h4, -⟩ := hr
      have : toObservation r = .ok (some ⟨s, r.duration, r.location, []⟩) := by
        unfold toObservation
        rw [h1, h2, h3, h4]
        simp only [if_true, List.getElem?_eq_getElem hi]
      rw [this, hws]; exact ⟨_, rfl⟩

theorem generate_ok {h : Handler} {a : GenerateArgs} {ws : List Observation}
    (hg : (generate h a).1 = .ok ws) :
    ∃ h' best, initializeSolution h = (h', none) ∧
      Alns.solve problem (solveParams a h'.requests.length) h' a.draws = .ok best ∧
      outputWindows best = .ok ws := by
  unfold generate at hg
  split at hg
  · cases hg
  · split at hg
    · cases hg
    · rename_i h' heq
      simp only at hg
      split at hg
      · cases hg
      · rename_i best hb
        exact ⟨h', best, heq, hb, hg⟩

theorem sublist_filter_dropLast (l : List Request) :
    (l.dropLast.filter fun r => r.isScheduled).Sublist l :=
  List.filter_sublist.trans (List.dropLast_sublist l)

theorem holds_forall₂ {h : Handler} {subs : List Submission} (hh : h.Holds subs) :
    ∃ subs', subs'.Perm subs ∧ List.Forall₂ (fun r s => r.fixed = s.fixed) h.requests subs' := by
  have h1 : List.Forall₂ (fun f (s : Submission) => f = s.fixed) (subs.map Submission.fixed) subs := by
    rw [List.forall₂_map_left_iff, List.forall₂_same]; intro _ _; rfl
  obtain ⟨l, hl, hp⟩ := List.perm_comp_forall₂ hh h1
  refine ⟨l, hp, ?_⟩
  rwa [List.forall₂_map_left_iff] at hl

theorem Forall₂.comp {α β γ : Type*} {R : α → β → Prop} {S : α → γ → Prop} {T : β → γ → Prop}
    (hRT : ∀ a b c, R a b → S a c → T b c) : ∀ {l : List α} {l' : List β} {l'' : List γ},
    List.Forall₂ R l l' → List.Forall₂ S l l'' → List.Forall₂ T l' l''
  | _, _, _, .nil, .nil => .nil
  | _, _, _, .cons h t, .cons h' t' => .cons (hRT _ _ _ h h') (Forall₂.comp hRT t t')

theorem emits_serves {r : Request} {s : Submission} {o : Observation}
    (hr : r.Clear ∨ r.Assigned) (hf : r.fixed = s.fixed) (he : Emits r o) : Serves s o := by
  obtain ⟨h1, h2, h3, h4⟩ := he
  rcases hr with hr | hr
  · rw [hr.1] at h1; cases h1
  · obtain ⟨-, -, h5, s', h6, hfe⟩ := hr
    rw [h6, Option.some.injEq] at h2
    rw [h5, Option.some.injEq] at h3
    simp only [Request.fixed, Submission.fixed, Fixed.mk.injEq] at hf
    obtain ⟨f1, f2, f3, f4, f5, f6, f7⟩ := hf
    refine ⟨h4.trans f1, by rw [← h3, f3], ?_⟩
    rw [← h2, ← f2, ← f3, ← f5, ← f6]
    exact hfe.of_mem fun v hv => (Multiset.coe_eq_coe.1 f7).subset hv

theorem output_serves {best : Handler} {subs : List Submission} (hi : Inv subs best)
    {ws : List Observation} (ho : outputWindows best = .ok ws) :
    ∃ l, l.Subperm subs ∧ List.Forall₂ Serves l ws := by
  unfold outputWindows at ho
  rw [forLoop_eq] at ho
  have he := toObservations_facts ho
  obtain ⟨subs', hp, hf⟩ := holds_forall₂ hi.2
  obtain ⟨k, hk, hfk⟩ := Forall₂.sublist hf (sublist_filter_dropLast best.requests)
  refine ⟨k, (hk.subperm.trans hp.subperm), ?_⟩
  have hrows : ∀ r ∈ best.requests.dropLast.filter (fun r => r.isScheduled),
      r.Clear ∨ r.Assigned := fun r hr =>
    hi.1.rows r ((sublist_filter_dropLast best.requests).subset hr)
  have hfk' : List.Forall₂ (fun r s => (r.Clear ∨ r.Assigned) ∧ r.fixed = s.fixed)
      (best.requests.dropLast.filter fun r => r.isScheduled) k := by
    clear he hk
    generalize best.requests.dropLast.filter (fun r => r.isScheduled) = m at hfk hrows
    revert hrows
    induction hfk with
    | nil => intro _; exact .nil
    | cons h1 _ ih =>
      intro hrows
      exact .cons ⟨hrows _ List.mem_cons_self, h1⟩
        (ih fun r hr => hrows r (List.mem_cons_of_mem _ hr))
  exact Forall₂.comp (S := Emits) (T := Serves) (fun r s o h1 h2 => emits_serves h1.1 h1.2 h2) hfk' he

end Celest.Schedule
