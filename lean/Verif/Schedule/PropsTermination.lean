/-
When `Scheduler.generate` raises: C20.
-/
import Verif.Schedule.PropsSchedule

namespace Celest.Schedule

/-- A submission without look angle and with a non-negative duration. -/
def Submission.Plain (s : Submission) : Prop := s.lookAngle = none ∧ 0 ≤ s.duration

theorem Inv.plain {subs : List Submission} {h : Handler} (hi : Inv subs h)
    (hp : ∀ s ∈ subs, s.Plain) : ∀ r ∈ h.requests, r.lookAngle = none ∧ 0 ≤ r.duration := by
  intro r hr
  have : r.fixed ∈ subs.map Submission.fixed := hi.2.subset (List.mem_map_of_mem hr)
  obtain ⟨s, hs, e⟩ := List.mem_map.1 this
  have e1 : s.lookAngle = r.lookAngle := congrArg Fixed.lookAngle e
  have e2 : s.duration = r.duration := congrArg Fixed.duration e
  rw [← e1, ← e2]
  exact hp s hs

theorem tryVtw_noerr {h : Handler} (hc : h.Consistent) {r : Request} (hl : r.lookAngle = none)
    (hd : 0 ≤ r.duration) (v : VTW) : ∃ o, tryVtw h r v = .ok o := by
  unfold tryVtw proposedStart
  rw [hl]
  simp only
  split
  · exact ⟨_, rfl⟩
  · rename_i hb
    split
    · exact ⟨_, rfl⟩
    · have hd' : 0 ≤ durationInDays r.duration := by unfold durationInDays; positivity
      have hb' : v.rise < (v.rise + v.set + durationInDays r.duration) / 2 ∧
          (v.rise + v.set + durationInDays r.duration) / 2 + durationInDays r.duration < v.set := by
        simpa [isWithinBounds] using hb
      have hq : ∃ q, imageQuality v ((v.rise + v.set + durationInDays r.duration) / 2) = .ok q := by
        unfold imageQuality
        simp only
        rw [if_neg (by linarith [hb'.1, hb'.2])]
        exact ⟨_, rfl⟩
      obtain ⟨q, hq⟩ := hq
      rw [hq]
      simp only
      split
      · exact ⟨_, rfl⟩
      · obtain ⟨b, hb, -⟩ := anyConflict_ok (l := h.forLoop)
          (fun r hr => hc.rows r (by rw [forLoop_eq] at hr; exact List.mem_of_mem_dropLast hr))
          ((v.rise + v.set + durationInDays r.duration) / 2) (durationInDays r.duration)
        unfold doesConflictExist
        rw [hb]
        cases b <;> exact ⟨_, rfl⟩

theorem tryVtws_noerr {h : Handler} (hc : h.Consistent) {r : Request} (hl : r.lookAngle = none)
    (hd : 0 ≤ r.duration) : ∀ (vs : List VTW) (i : ℕ), ∃ o, tryVtws h r vs i = .ok o := by
  intro vs
  induction vs with
  | nil => intro i; exact ⟨_, rfl⟩
  | cons v vs ih =>
    intro i
    obtain ⟨o, ho⟩ := tryVtw_noerr hc hl hd v
    unfold tryVtws
    rw [ho]
    cases o with
    | none => exact ih _
    | some s => exact ⟨_, rfl⟩

theorem insertLoop_noerr {subs : List Submission} (hp : ∀ s ∈ subs, s.Plain) :
    ∀ (is : List ℕ) (h : Handler) (n : ℤ), Inv subs h → (∀ i ∈ is, i < h.requests.length) →
      (insertLoop is h n).2 = none := by
  intro is
  induction is with
  | nil => intros; rfl
  | cons i is ih =>
    intro h n hi hlt
    have hlt' : ∀ j ∈ is, j < h.requests.length := fun j hj => hlt j (List.mem_cons_of_mem _ hj)
    unfold insertLoop
    split
    · rfl
    · split
      · rename_i hnone
        rw [List.getElem?_eq_none_iff] at hnone
        exact absurd (hlt i List.mem_cons_self) (not_lt.2 hnone)
      · rename_i r hr
        split
        · exact ih h n hi hlt'
        · rename_i hs
          obtain ⟨hl, hd⟩ := hi.plain hp r (List.mem_of_getElem? hr)
          obtain ⟨o, ho⟩ := tryVtws_noerr hi.1 hl hd r.vtws 0
          rw [ho]
          cases o with
          | none => exact ih h n hi hlt'
          | some p =>
            obtain ⟨idx, s⟩ := p
            obtain ⟨hidx, hf, -⟩ := tryVtws_feasible ho
            obtain ⟨hc', hrows⟩ := hi.1.schedule hr (by simpa using hs) hidx hf
            exact ih _ _ ⟨hc', hi.2.of_map (KA.map_fixed hrows)⟩
              (fun j hj => by rw [← hrows.length_eq]; exact hlt' j hj)

theorem insertFirstN_noerr {subs : List Submission} (hp : ∀ s ∈ subs, s.Plain) {h : Handler}
    (hi : Inv subs h) (n : ℤ) : (insertFirstN h n).2 = none :=
  insertLoop_noerr hp _ h n hi fun i hi => by simpa using hi

theorem settle_noerr {p : Handler × Option PyErr} (h : p.2 = none) : ∃ h', settle p = .ok h' := by
  obtain ⟨a, b⟩ := p
  subst h
  exact ⟨a, rfl⟩

theorem initializeSolution_noerr {subs : List Submission} (hp : ∀ s ∈ subs, s.Plain) {h : Handler}
    (hi : Inv subs h) : (initializeSolution h).2 = none := by
  unfold initializeSolution
  have h1 : Inv subs h.sortByDecreasingPriority := hi.of_perm (perm_sortPriority h) rfl
  exact insertFirstN_noerr hp (h1.of_sameRow (riseSort_facts _) rfl) _

theorem outputWindows_noerr {subs : List Submission} {h : Handler} (hi : Inv subs h) :
    ∃ ws, outputWindows h = .ok ws := by
  unfold outputWindows
  refine toObservations_ok fun r hr => hi.1.rows r ?_
  rw [forLoop_eq] at hr
  exact List.mem_of_mem_dropLast hr

theorem run_length (history : List Op) :
    (run history).requests.length = (submissions history).length := by
  have := (inv_run history).2.length_eq
  simpa using this

/-! ### which exceptions are possible -/

/-- The two exceptions plain requests can cause. -/
def Benign (e : PyErr) : Prop := e = .typeError ∨ e = .zeroDivisionError

theorem sumOverlap_err {v : VTW} : ∀ {ws : List VTW} {acc : ℚ} {e : PyErr},
    Handler.sumOverlap v ws acc = .error e → Benign e
  | [], _, _, h => by cases h
  | w :: ws, acc, e, h => by
    unfold Handler.sumOverlap at h
    split at h
    · cases h; exact Or.inl rfl
    · exact sumOverlap_err h

theorem conflictDegree_err {h : Handler} {v : VTW} {e : PyErr}
    (he : h.conflictDegree v = .error e) : Benign e := by
  unfold Handler.conflictDegree at he
  split at he
  · rename_i e' hs; cases he; exact sumOverlap_err hs
  · split at he
    · cases he; exact Or.inr rfl
    · cases he

theorem conflictKey_err {h : Handler} (hc : h.Consistent) {r : Request} (hr : r ∈ h.requests)
    {e : PyErr} (he : h.conflictKey r = .error e) : Benign e := by
  unfold Handler.conflictKey at he
  split at he
  · rename_i hs
    rcases hc.rows r hr with h1 | ⟨-, ⟨i, hi, hlt⟩, -⟩
    · rw [h1.1] at hs; cases hs
    · rw [hi] at he
      simp only at he
      rw [List.getElem?_eq_getElem hlt] at he
      simp only at he
      split at he
      · rename_i e' hd; cases he; exact conflictDegree_err hd
      · cases he
  · cases he

theorem mapM_err {α β : Type} {f : α → Py β} {P : PyErr → Prop} : ∀ {l : List α} {e : PyErr},
    l.mapM f = .error e → (∀ a ∈ l, ∀ e, f a = .error e → P e) → P e := by
  intro l
  induction l with
  | nil => intro e h _; cases h
  | cons a l ih =>
    intro e h hf
    rw [List.mapM_cons] at h
    cases ha : f a with
    | error x =>
      rw [ha] at h
      simp only [bind, Except.bind, Except.error.injEq] at h
      subst h
      exact hf a List.mem_cons_self x ha
    | ok b =>
      rw [ha] at h
      cases hl : l.mapM f with
      | error x =>
        rw [hl] at h
        simp only [bind, Except.bind, Except.error.injEq] at h
        subst h
        exact ih hl fun a ha => hf a (List.mem_cons_of_mem _ ha)
      | ok bs => rw [hl] at h; simp [bind, Except.bind, pure, Except.pure] at h

theorem sortConflict_err {h : Handler} (hc : h.Consistent) {e : PyErr}
    (he : h.sortByDecreasingConflictDegree = .error e) : Benign e := by
  unfold Handler.sortByDecreasingConflictDegree at he
  split at he
  · rename_i e' hm
    cases he
    exact mapM_err hm fun r hr e he => conflictKey_err hc hr he
  · split at he
    · cases he; exact Or.inl rfl
    · cases he

theorem sortVtwsLoop_err : ∀ {is : List ℕ} {h : Handler} {e : PyErr},
    Handler.sortVtwsLoop is h = .error e → (∀ i ∈ is, i < h.requests.length) → Benign e := by
  intro is
  induction is with
  | nil => intro h e he; cases he
  | cons i is ih =>
    intro h e he hlt
    unfold Handler.sortVtwsLoop at he
    split at he
    · rename_i e' hs
      cases he
      unfold Handler.sortVtwsOf at hs
      split at hs
      · rename_i hnone
        rw [List.getElem?_eq_none_iff] at hnone
        exact absurd (hlt i List.mem_cons_self) (not_lt.2 hnone)
      · split at hs
        · rename_i e' hm
          cases hs
          exact mapM_err hm fun v _ e he => conflictDegree_err he
        · split at hs
          · cases hs
          · cases hs; exact Or.inl rfl
    · rename_i h' hs
      refine ih he fun j hj => ?_
      rw [← (sortVtwsOf_facts hs).1.length_eq]
      exact hlt j (List.mem_cons_of_mem _ hj)

theorem removal_err {f : Handler → ℤ → (ℕ → ℕ) → Py Handler} (hf : f ∈ removalFunctions)
    {h : Handler} (hc : h.Consistent) {n : ℕ} {picks : ℕ → ℕ} {e : PyErr}
    (he : f h n picks = .error e) : Benign e := by
  simp only [removalFunctions, List.mem_cons, List.not_mem_nil, or_false] at hf
  rcases hf with rfl | rfl | rfl | rfl
  · obtain ⟨k, ek, -⟩ := randomRemoval_facts hc n picks
    rw [he] at ek; cases ek
  · obtain ⟨k, ek, -⟩ := priorityRemoval_facts hc n picks
    rw [he] at ek; cases ek
  · obtain ⟨k, ek, -⟩ := opportunityRemoval_facts hc n picks
    rw [he] at ek; cases ek
  · cases hs : h.sortByDecreasingConflictDegree with
    | error x =>
      unfold conflictRemoval at he; rw [hs] at he
      simp only [Except.error.injEq] at he
      subst he
      exact sortConflict_err hc hs
    | ok h₁ =>
      obtain ⟨k, ek, -⟩ := conflictRemoval_facts hc n picks hs
      rw [he] at ek; cases ek

theorem insertion_err {g : Handler → ℤ → Py Handler} (hg : g ∈ insertionFunctions)
    {subs : List Submission} (hp : ∀ s ∈ subs, s.Plain) {h : Handler} (hi : Inv subs h) {n : ℤ}
    {e : PyErr} (he : g h n = .error e) : Benign e := by
  simp only [insertionFunctions, List.mem_cons, List.not_mem_nil, or_false] at hg
  rcases hg with rfl | rfl | rfl
  · obtain ⟨k, ek⟩ := settle_noerr
      (insertFirstN_noerr hp (hi.of_perm (perm_sortPriority h) rfl) n)
    rw [greedyInsertion, ek] at he; cases he
  · obtain ⟨k, ek⟩ := settle_noerr
      (insertFirstN_noerr hp (hi.of_perm (perm_sortIncOpp h) rfl) n)
    rw [minimumOpportunityInsertion, ek] at he; cases he
  · unfold minimumConflictInsertion at he
    split at he
    · rename_i e' hs
      cases he
      exact sortVtwsLoop_err hs fun i hi => by simpa using hi
    · rename_i h₁ hs
      obtain ⟨hf, hn⟩ := sortVtwsLoop_facts hs
      obtain ⟨k, ek⟩ := settle_noerr (insertFirstN_noerr hp (hi.of_sameRow hf hn) n)
      rw [ek] at he; cases he

theorem pass_err {subs : List Submission} (hp : ∀ s ∈ subs, s.Plain) {a : GenerateArgs} {n : ℕ}
    {st : Alns.State Handler} (hcur : Inv subs st.current)
    (hwd : Alns.GoodWeights st.destroyWeights) (hld : st.destroyWeights.length = 4)
    (hwr : Alns.GoodWeights st.repairWeights) (hlr : st.repairWeights.length = 3)
    {d : Alns.Draw} {e : PyErr} (he : Alns.pass problem (solveParams a n) st d = .error e) :
    Benign e := by
  have pos : ∀ {w : List ℚ}, Alns.GoodWeights w → ∀ x ∈ w, 0 < x := fun hw x hx => (hw x hx).1
  obtain ⟨-, -, -, -, -, -, i, hi, hil⟩ := Alns.C15_probabilities_are_a_distribution
    st.destroyWeights (by intro h; rw [h] at hld; cases hld) (pos hwd) d.destroyDraw
  obtain ⟨-, -, -, -, -, -, j, hj, hjl⟩ := Alns.C15_probabilities_are_a_distribution
    st.repairWeights (by intro h; rw [h] at hlr; cases hlr) (pos hwr) d.repairDraw
  have h1 : i < problem.destroy.length := by
    have : problem.destroy.length = 4 := rfl
    omega
  have h2 : j < problem.repair.length := by
    have : problem.repair.length = 3 := rfl
    omega
  have hf := List.getElem?_eq_getElem h1
  have hg := List.getElem?_eq_getElem h2
  have hfm : problem.destroy[i] ∈ removalFunctions := List.getElem_mem h1
  have hgm : problem.repair[j] ∈ insertionFunctions := List.getElem_mem h2
  generalize problem.destroy[i] = f at hf hfm
  generalize problem.repair[j] = g at hg hgm
  unfold Alns.pass at he
  simp only [hi, hj, bind, Except.bind, hf, hg] at he
  have toR : (solveParams a n).toRemove = ((n + 3) / 4 : ℕ) := rfl
  rw [toR] at he
  cases hd : f st.current ((n + 3) / 4 : ℕ) d.picks with
  | error x =>
    rw [hd] at he
    simp only [Except.error.injEq] at he
    subst he
    exact removal_err hfm hcur.1 hd
  | ok destroyed =>
    rw [hd] at he
    simp only at he
    cases hr : g destroyed (solveParams a n).toAdd with
    | error x =>
      rw [hr] at he
      simp only [Except.error.injEq] at he
      subst he
      exact insertion_err hgm hp (removal_inv hfm hcur hd) hr
    | ok temporary =>
      rw [hr] at he
      simp only at he
      split at he
      · rename_i e' ha
        cases he
        unfold Alns.accept at ha
        split at ha
        · cases ha
        · split at ha
          · cases ha; exact Or.inr rfl
          · cases ha
      · cases he

theorem loop_err {subs : List Submission} (hp : ∀ s ∈ subs, s.Plain) {a : GenerateArgs} {n : ℕ}
    (hl0 : 0 ≤ a.react) (hl1 : a.react < 1) :
    ∀ (ds : List Alns.Draw) (st : Alns.State Handler) (e : PyErr), Inv subs st.current →
      Alns.GoodWeights st.destroyWeights → st.destroyWeights.length = 4 →
      Alns.GoodWeights st.repairWeights → st.repairWeights.length = 3 →
      Alns.loop problem (solveParams a n) ds st = .error e → Benign e := by
  intro ds
  induction ds with
  | nil => intro st e _ _ _ _ _ h; cases h
  | cons d ds ih =>
    intro st e hcur h1 h2 h3 h4 h
    unfold Alns.loop at h
    split at h
    · rename_i e' hps
      cases h
      exact pass_err hp hcur h1 h2 h3 h4 hps
    · rename_i ps hps
      split at h
      · cases h
      · split at h
        · rename_i e' hl
          cases h
          obtain ⟨i, j, f, g, destroyed, F⟩ := Alns.pass_facts hps
          obtain ⟨b0, b3⟩ := Alns.score_bounds hps
          have hfm : f ∈ removalFunctions := List.mem_of_getElem? F.hf
          have hgm : g ∈ insertionFunctions := List.mem_of_getElem? F.hg
          have hd := F.hd
          have toR : (solveParams a n).toRemove = ((n + 3) / 4 : ℕ) := rfl
          rw [toR] at hd
          have hcand : Inv subs ps.candidate :=
            insertion_inv hgm (removal_inv hfm hcur hd) F.hr
          refine ih ps.next _ ?_ ?_ ?_ ?_ ?_ hl
          · rw [F.hcur]; split
            · exact hcand
            · exact hcur
          · rw [F.hwd]; exact Alns.goodWeights_update hl0 hl1 b0 b3 i h1
          · rw [F.hwd]; simpa [Alns.updateWeights] using h2
          · rw [F.hwr]; exact Alns.goodWeights_update hl0 hl1 b0 b3 j h3
          · rw [F.hwr]; simpa [Alns.updateWeights] using h4
        · cases h

/-- **C20 (partial).** For plain requests (no look angle, non-negative duration), after any
history with at least one request, and a significance parameter in `[0, 1)`: `generate`
returns a collection or raises one of just two exceptions, `TypeError` (a conflict-degree
sort) or `ZeroDivisionError` (acceptance test at cost zero).  Missing: these two do occur,
see the refutations below. -/
theorem C20_outcomes_partial (history : List Op) (hne : submissions history ≠ [])
    (hp : ∀ s ∈ submissions history, s.lookAngle = none ∧ 0 ≤ s.duration) (a : GenerateArgs)
    (hl0 : 0 ≤ a.react) (hl1 : a.react < 1) :
    (∃ ws, (generate (run history) a).1 = .ok ws) ∨
      (generate (run history) a).1 = .error .typeError ∨
      (generate (run history) a).1 = .error .zeroDivisionError := by
  have hi := inv_run history
  have h0 : (run history).requests.length ≠ 0 := by
    rw [run_length]; exact fun h => hne (List.length_eq_zero_iff.1 h)
  have hz := initializeSolution_noerr hp hi
  have hi' := initializeSolution_inv hi
  unfold generate
  rw [if_neg h0]
  generalize initializeSolution (run history) = p at hz hi'
  obtain ⟨h', o⟩ := p
  subst hz
  simp only at hi' ⊢
  cases hs : Alns.solve problem (solveParams a h'.requests.length) h' a.draws with
  | ok best =>
    left
    exact outputWindows_noerr (solve_inv hi' hs)
  | error e =>
    right
    have : Benign e := by
      unfold Alns.solve Alns.solveTrace at hs
      split at hs
      · cases hs
      · cases hl : Alns.loop problem (solveParams a h'.requests.length) a.draws
            (Alns.initState problem (solveParams a h'.requests.length) h') with
        | ok x => rw [hl] at hs; cases hs
        | error x =>
          rw [hl] at hs
          cases hs
          exact loop_err hp hl0 hl1 a.draws _ _ hi' (Alns.goodWeights_replicate _) rfl
            (Alns.goodWeights_replicate _) rfl hl
    rcases this with rfl | rfl
    · exact Or.inl rfl
    · exact Or.inr rfl

/-- **C20 (partial).** Without iterations `generate` always succeeds on plain requests. -/
theorem C20_zero_iterations_partial (history : List Op) (hne : submissions history ≠ [])
    (hp : ∀ s ∈ submissions history, s.lookAngle = none ∧ 0 ≤ s.duration) (a : GenerateArgs)
    (ha : a.draws = []) : ∃ ws, (generate (run history) a).1 = .ok ws := by
  have hi := inv_run history
  have h0 : (run history).requests.length ≠ 0 := by
    rw [run_length]; exact fun h => hne (List.length_eq_zero_iff.1 h)
  have hz := initializeSolution_noerr hp hi
  have hi' := initializeSolution_inv hi
  unfold generate
  rw [if_neg h0]
  generalize initializeSolution (run history) = p at hz hi'
  obtain ⟨h', o⟩ := p
  subst hz
  simp only at hi' ⊢
  rw [ha, Alns.C14_trivial_searches _ _ _ _ (Or.inl rfl)]
  exact outputWindows_noerr hi'

/-- **C20 (partial).** With no request at all `generate` raises its own documented
exception. -/
theorem C20_no_requests_partial (history : List Op) (hne : submissions history = []) (a : GenerateArgs) :
    (generate (run history) a).1 = .error .exception := by
  have h0 : (run history).requests.length = 0 := by rw [run_length, hne]; rfl
  unfold generate
  rw [if_pos h0]

/-- Non-vacuity for the partial theorems: `fourRequests` are plain. -/
example : ∀ s ∈ fourRequests, s.lookAngle = none ∧ 0 ≤ s.duration := by decide +kernel

/-- **C20 refuted, cause 1.** If at least two requests are made and none of them can be
served, `generate` with at least one iteration always raises, whatever the draws. -/
theorem C20_raises_when_nothing_schedulable (subs : List Submission) (h2 : 2 ≤ subs.length)
    (hinf : ∀ s ∈ subs, ∀ t, ¬ Feasible s.vtws s.lookAngle s.deadline s.duration s.quality t)
    (a : GenerateArgs) (hd : a.draws ≠ []) : ∃ e, (generate (submit subs) a).1 = .error e := by
  cases hg : (generate (submit subs) a).1 with
  | error e => exact ⟨e, rfl⟩
  | ok ws =>
    exfalso
    obtain ⟨h', best, hi, hs, -⟩ := generate_ok hg
    have hinv : Inv subs h' := by
      have := initializeSolution_inv (inv_submit subs)
      rw [hi] at this
      exact this
    have clear : ∀ {k : Handler}, Inv subs k → ∀ r ∈ k.requests, r.isScheduled = false := by
      intro k hk r hr
      rcases hk.1.rows r hr with h1 | ⟨-, -, -, t, -, ht⟩
      · exact h1.1
      · exfalso
        have : r.fixed ∈ subs.map Submission.fixed := hk.2.subset (List.mem_map_of_mem hr)
        obtain ⟨s, hs, e⟩ := List.mem_map.1 this
        have e1 : s.deadline = r.deadline := congrArg Fixed.deadline e
        have e2 : s.duration = r.duration := congrArg Fixed.duration e
        have e3 : s.quality = r.quality := congrArg Fixed.quality e
        have e4 : (s.vtws : Multiset VTW) = r.vtws := congrArg Fixed.windows e
        have e5 : s.lookAngle = r.lookAngle := congrArg Fixed.lookAngle e
        refine hinf s hs t ?_
        rw [e1, e2, e3, e5]
        exact ht.of_mem fun v hv => (Multiset.coe_eq_coe.1 e4).symm.subset hv
    have cost0 : ∀ {k : Handler}, Inv subs k → cost k = 0 := by
      intro k hk
      rw [cost, foldl_cost, forLoop_eq]
      have : k.requests.dropLast.filter (fun r => r.isScheduled) = [] := by
        rw [List.filter_eq_nil_iff]
        intro r hr
        rw [clear hk r (List.mem_of_mem_dropLast hr)]
        simp
      unfold scheduledPriority
      rw [this]
      simp
    have hlen : h'.requests.length = subs.length := by
      have := hinv.2.length_eq
      simpa using this
    have hnc : isComplete h' = false := by
      rw [isComplete, forLoop_eq]
      cases hr : h'.requests.dropLast with
      | nil =>
        have : h'.requests.dropLast.length = 0 := by rw [hr]; rfl
        rw [List.length_dropLast] at this
        omega
      | cons r rs =>
        have : r ∈ h'.requests := List.mem_of_mem_dropLast (by rw [hr]; exact List.mem_cons_self)
        rw [List.all_cons, clear hinv r this]
        rfl
    obtain ⟨tr, htr⟩ := Alns.solve_trace hs
    unfold Alns.solveTrace at htr
    rw [if_neg (by show ¬ isComplete h' = true; rw [hnc]; simp)] at htr
    cases hds : a.draws with
    | nil => exact hd hds
    | cons d ds =>
      rw [hds] at htr
      obtain ⟨ps, hps, -⟩ := Alns.loop_cons htr
      obtain ⟨i, j, f, g, destroyed, F⟩ := Alns.pass_facts hps
      have hdd := F.hd
      have toR : (solveParams a h'.requests.length).toRemove =
        ((h'.requests.length + 3) / 4 : ℕ) := rfl
      rw [toR] at hdd
      have hcand : Inv subs ps.candidate :=
        insertion_inv (List.mem_of_getElem? F.hg)
          (removal_inv (List.mem_of_getElem? F.hf) (show Inv subs h' from hinv) hdd) F.hr
      have ha := F.ha
      have c1 : problem.cost ps.candidate = 0 := cost0 hcand
      have c2 : problem.cost h' = 0 := cost0 hinv
      have c3 : (Alns.initState problem (solveParams a h'.requests.length) h').current = h' := rfl
      rw [c3, c1, c2] at ha
      unfold Alns.accept at ha
      simp at ha

/-- Non-vacuity: two requests whose deadline lies before their only window. -/
example : ∀ s ∈ [(⟨0, -1, 86400, 5, 1, none, [win 0 10]⟩ : Submission),
      ⟨1, -1, 86400, 5, 1, none, [win 0 10]⟩], ∀ t,
    ¬ Feasible s.vtws s.lookAngle s.deadline s.duration s.quality t := by
  intro s hs t
  simp only [List.mem_cons, List.not_mem_nil, or_false] at hs
  rcases hs with rfl | rfl
  all_goals
    rintro ⟨v, hv, h1, h2, h3, -⟩
    simp only [List.mem_cons, List.not_mem_nil, or_false] at hv
    subst hv
    simp only [win, days] at h1 h3
    linarith

/-- **C20 refuted, cause 2.** There are plain, feasible requests and a single draw (the one
that selects conflict removal) for which `generate` raises a `TypeError`, for every `exp` and
value of `log 0.5`. -/
theorem C20_conflict_removal_raises (exp : ℚ → ℚ) (logHalf : ℚ) :
    (generate (submit fourRequests) (args exp logHalf [⟨4 / 5, 0, 0, fun _ => 0⟩])).1 =
      .error .typeError := by
  kernel_decide

theorem insertLoop_raw : ∀ (is : List ℕ) (h : Handler) (n : ℤ) (j : ℕ) (r : Request) (x : ℚ),
    (is.length : ℤ) ≤ n → j ∈ is → h.requests[j]? = some r → r.isScheduled = false →
    r.lookAngle = some (.raw x) → r.vtws ≠ [] → ∃ e, (insertLoop is h n).2 = some e := by
  intro is
  induction is with
  | nil => intro h n j r x _ hj; cases hj
  | cons i is ih =>
    intro h n j r x hn hj hr hu hl hv
    rw [List.length_cons] at hn
    unfold insertLoop
    rw [if_neg (by push_cast at hn; omega)]
    by_cases hij : j = i
    · subst hij
      rw [hr]
      simp only
      rw [if_neg (by simp [hu])]
      cases hvs : r.vtws with
      | nil => exact absurd hvs hv
      | cons v vs =>
        simp only [tryVtws, tryVtw, proposedStart, hl]
        exact ⟨_, rfl⟩
    · have hj' : j ∈ is := by
        rcases List.mem_cons.1 hj with h | h
        · exact absurd h hij
        · exact h
      split
      · exact ⟨_, rfl⟩
      · split
        · exact ih h n j r x (by push_cast at hn; omega) hj' hr hu hl hv
        · split
          · exact ⟨_, rfl⟩
          · exact ih h n j r x (by push_cast at hn; omega) hj' hr hu hl hv
          · refine ih _ _ j r x (by push_cast at hn; omega) hj' ?_ hu hl hv
            simp only [Handler.schedule]
            rw [List.getElem?_modify_ne _ _ (Ne.symm hij)]
            exact hr

/-- **C20 refuted, cause 3.** If some request has a look angle given as a plain number — as
`add_request` documents it — and at least one visible window, `generate` always raises. -/
theorem C20_numeric_look_angle_raises (subs : List Submission) (s : Submission) (hs : s ∈ subs)
    (x : ℚ) (hl : s.lookAngle = some (.raw x)) (hv : s.vtws ≠ []) (a : GenerateArgs) :
    ∃ e, (generate (submit subs) a).1 = .error e := by
  have hlen : (submit subs).requests.length = subs.length := by rw [submit_requests]; simp
  have hpos : 0 < subs.length := List.length_pos_of_mem hs
  unfold generate
  rw [if_neg (by omega)]
  have key : ∃ e, (initializeSolution (submit subs)).2 = some e := by
    unfold initializeSolution insertFirstN
    have hmem : s.row ∈ (submit subs).sortByDecreasingPriority.requests := by
      refine (perm_sortPriority (submit subs)).symm.subset ?_
      rw [submit_requests]
      exact List.mem_map_of_mem hs
    have hmem' : { s.row with vtws := s.row.vtws.insertionSort fun a b => a.rise ≤ b.rise } ∈
        (submit subs).sortByDecreasingPriority.sortVtwsByIncreasingRiseTime.requests :=
      List.mem_map_of_mem (f := fun r : Request =>
        { r with vtws := r.vtws.insertionSort fun a b => a.rise ≤ b.rise }) hmem
    obtain ⟨j, hj, hjr⟩ := List.getElem_of_mem hmem'
    refine insertLoop_raw _ _ _ j _ x (by simp) (by simpa using hj)
      (by rw [List.getElem?_eq_getElem hj, hjr]) rfl hl ?_
    intro hnil
    have h0 := congrArg List.length hnil
    simp only [List.length_insertionSort, List.length_nil, List.length_eq_zero_iff] at h0
    exact hv h0
  obtain ⟨e, he⟩ := key
  generalize initializeSolution (submit subs) = p at he
  obtain ⟨h', o⟩ := p
  subst he
  exact ⟨e, rfl⟩

/-- Non-vacuity: with a look angle of 30 given as documented. -/
example : (generate (submit [⟨0, 100, 86400, 5, 1, some (.raw 30), [win 0 10]⟩])
    (args (fun _ => 0) (-1) [])).1 = .error .attributeError := by decide +kernel

end Celest.Schedule
