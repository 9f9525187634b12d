/-
General forms of three refutations and of one guarantee: C06, C15, C20.
-/
import Verif.Schedule.PropsTermination
import Verif.Schedule.PropsOperators
import Verif.Schedule.PropsWeights

namespace Celest.Schedule

/-- **C06 refuted**, in general: in every consistent handler whose last request is scheduled for a
positive time and does not overlap the other scheduled observations, a candidate identical to the
observation of that last request — which overlaps it as much as can be — is reported as free of
conflict. -/
theorem C06_last_request_never_seen (h : Handler) (hc : h.Consistent) (l : List Request)
    (r : Request) (hl : h.requests = l ++ [r]) (s d : ℚ) (hs : r.start = some s)
    (hd : r.schedDuration = some d) (hpos : 0 < d)
    (hothers : ∀ q ∈ l, q.isScheduled = true → 0 < q.duration ∧
      ∀ s' d', q.start = some s' → q.schedDuration = some d' →
        ¬ Overlap s (days d) s' (days d')) :
    Overlap s (days d) s (days d) ∧ doesConflictExist h s (days d) = .ok false := by
  have hd' : 0 < days d := by unfold days; linarith
  refine ⟨⟨by linarith, by linarith⟩, ?_⟩
  have hdrop : h.requests.dropLast = l := by rw [hl, List.dropLast_concat]
  have hrow : ∀ q ∈ l, q.Clear ∨ q.Assigned :=
    fun q hq => hc.rows q (by rw [hl]; exact List.mem_append_left _ hq)
  obtain ⟨b, hb, hiff⟩ := anyConflict_ok hrow s (days d)
  rw [doesConflictExist, forLoop_eq, hdrop, hb]
  cases b with
  | false => rfl
  | true =>
    exfalso
    obtain ⟨q, hq, hcw⟩ := hiff.1 rfl
    have hsch : q.isScheduled = true := by
      rcases hrow q hq with h1 | h1
      · exfalso
        unfold conflictsWith at hcw
        rw [h1.1] at hcw
        simp at hcw
      · exact h1.1
    obtain ⟨hqd, hno⟩ := hothers q hq hsch
    obtain ⟨-, s', d', h1, h2, hov⟩ := conflictsWith_true hcw hd' (fun sd hsd => by
      rcases hrow q hq with h1 | h1
      · rw [h1.2.2.2] at hsd; cases hsd
      · rw [h1.2.2.1] at hsd; cases hsd
        exact hqd)
    exact hno s' d' h1 h2 hov

/-- Non-vacuity for `C06_last_request_never_seen`: the last of two requests is scheduled for one
day from 5.5, the other is not scheduled. -/
example : Overlap (11 / 2) (days 86400) (11 / 2) (days 86400) ∧
    doesConflictExist lastScheduled (11 / 2) (days 86400) = .ok false :=
  C06_last_request_never_seen lastScheduled lastScheduled_consistent
    [⟨false, none, none, none, 0, 100, 86400, 1, 1, none, [win 0 10]⟩] _ rfl (11 / 2) 86400 rfl rfl
    (by norm_num) (by
      intro q hq hsch
      rw [List.mem_singleton.1 hq] at hsch
      cases hsch)

/-- **C20 refuted, cause 2**, in general: whenever the schedule the search starts from serves some
requests and leaves another, not stored last, unserved, every run whose first draw selects conflict
removal — a quarter of all draws — raises, whatever the other draws and settings. -/
theorem C20_conflict_removal_raises_generally (subs : List Submission) (first : Handler)
    (hi : initializeSolution (submit subs) = (first, none))
    (hs : ∃ r ∈ first.requests, r.isScheduled = true)
    (hu : ∃ r ∈ first.requests.dropLast, r.isScheduled = false)
    (a : GenerateArgs) (d : Alns.Draw) (ds : List Alns.Draw) (hd : a.draws = d :: ds)
    (h34 : 3 / 4 ≤ d.destroyDraw) (h1 : d.destroyDraw < 1) :
    ∃ e, (generate (submit subs) a).1 = .error e := by
  cases hg : (generate (submit subs) a).1 with
  | error e => exact ⟨e, rfl⟩
  | ok ws =>
    exfalso
    obtain ⟨h', best, hi', hsolve, -⟩ := generate_ok hg
    rw [hi] at hi'
    obtain rfl : first = h' := congrArg Prod.fst hi'
    obtain ⟨tr, htr⟩ := Alns.solve_trace hsolve
    unfold Alns.solveTrace at htr
    have hnc : isComplete first = false := by
      rw [isComplete, forLoop_eq, List.all_eq_false]
      obtain ⟨r, hr, hru⟩ := hu
      exact ⟨r, hr, by simp [hru]⟩
    rw [if_neg (by show ¬ isComplete first = true; rw [hnc]; simp), hd] at htr
    obtain ⟨ps, hps, -⟩ := Alns.loop_cons htr
    obtain ⟨i, j, f, g, destroyed, F⟩ := Alns.pass_facts hps
    have hw : (Alns.initState problem (solveParams a first.requests.length) first).destroyWeights =
        [1, 1, 1, 1] := rfl
    have h3 : Alns.getIndex [1, 1, 1, 1] d.destroyDraw = .ok 3 := by
      rw [Alns.C15_selected_iff _ (by simp) (by simp) _ (by linarith) h1]
      norm_num
      constructor <;> linarith
    have hidx := F.hi
    rw [hw, h3] at hidx
    obtain rfl : 3 = i := by simpa using hidx
    have hf : problem.destroy[3]? = some conflictRemoval := rfl
    have hff := F.hf
    rw [hf] at hff
    obtain rfl : conflictRemoval = f := by simpa using hff
    obtain ⟨r, hr, hru⟩ := hu
    obtain ⟨e, he⟩ := C07_conflict_removal_mixed_raises first
      (solveParams a first.requests.length).toRemove d.picks hs
      ⟨r, List.mem_of_mem_dropLast hr, hru⟩
    have hdd := F.hd
    have hcur : (Alns.initState problem (solveParams a first.requests.length) first).current =
      first := rfl
    rw [hcur, he] at hdd
    cases hdd

/-- Non-vacuity: the schedule the search starts from serves some of the four requests, and
leaves one that is not stored last. -/
example : ∃ first, initializeSolution (submit fourRequests) = (first, none) ∧
    (∃ r ∈ first.requests, r.isScheduled = true) ∧
    ∃ r ∈ first.requests.dropLast, r.isScheduled = false :=
  ⟨(initializeSolution (submit fourRequests)).1, by decide +kernel, by decide +kernel,
    by decide +kernel⟩

end Celest.Schedule

namespace Celest.Alns

variable {S : Type}

/-- The states a search can be in: the initial one, and the one after any successful pass from
such a state, whatever is drawn. -/
inductive Reached (A : Problem S) (P : Params) (initial : S) : State S → Prop
  | start : Reached A P initial (initState A P initial)
  | step {st : State S} {d : Draw} {ps : Pass S} : Reached A P initial st →
      pass A P st d = .ok ps → Reached A P initial ps.next

/-- **C15.** In every state a search can reach — also of runs that fail later — all weights lie in
`(0, 1]`, and the selection of both operators succeeds for every draw and gives an operator that
exists: with `l ∈ [0, 1)` and operators given, selection never fails. -/
theorem C15_selection_never_fails {A : Problem S} {P : Params} (hl0 : 0 ≤ P.l) (hl1 : P.l < 1)
    (hd : A.destroy ≠ []) (hr : A.repair ≠ []) {initial : S} {st : State S}
    (h : Reached A P initial st) (u : ℚ) :
    ((∀ w ∈ st.destroyWeights, 0 < w ∧ w ≤ 1) ∧ ∀ w ∈ st.repairWeights, 0 < w ∧ w ≤ 1) ∧
    (∃ i f, getIndex st.destroyWeights u = .ok i ∧ A.destroy[i]? = some f) ∧
    ∃ j g, getIndex st.repairWeights u = .ok j ∧ A.repair[j]? = some g := by
  have key : GoodWeights st.destroyWeights ∧ GoodWeights st.repairWeights ∧
      st.destroyWeights.length = A.destroy.length ∧ st.repairWeights.length = A.repair.length := by
    induction h with
    | start =>
      exact ⟨goodWeights_replicate _, goodWeights_replicate _, by simp [initState],
        by simp [initState]⟩
    | step _ hps ih =>
      obtain ⟨h1, h2, h3, h4⟩ := ih
      obtain ⟨i, j, f, g, destroyed, F⟩ := pass_facts hps
      obtain ⟨b0, b3⟩ := score_bounds hps
      rw [F.hwd, F.hwr]
      exact ⟨goodWeights_update hl0 hl1 b0 b3 i h1, goodWeights_update hl0 hl1 b0 b3 j h2,
        by simpa [updateWeights] using h3, by simpa [updateWeights] using h4⟩
  obtain ⟨h1, h2, h3, h4⟩ := key
  have pick : ∀ {α : Type} (ops : List α) (w : List ℚ), ops ≠ [] → GoodWeights w →
      w.length = ops.length → ∃ i f, getIndex w u = .ok i ∧ ops[i]? = some f := by
    intro α ops w hne hw hlen
    have hwne : w ≠ [] := by
      rintro rfl
      exact hne (List.length_eq_zero_iff.1 hlen.symm)
    obtain ⟨p, -, -, -, -, -, i, hi, hlt⟩ :=
      C15_probabilities_are_a_distribution w hwne (fun x hx => (hw x hx).1) u
    exact ⟨i, ops[i]'(by omega), hi, List.getElem?_eq_getElem _⟩
  exact ⟨⟨h1, h2⟩, pick _ _ hd h1 h3, pick _ _ hr h2 h4⟩

/-- Non-vacuity: the toy search reaches a state other than its first. -/
example : Reached toy toyParams 9 ⟨10, 10, 9 / 40, [3 / 4], [3 / 4]⟩ := by
  have h : pass toy toyParams (initState toy toyParams 9) toyDraw =
      .ok ⟨10, true, 3, ⟨10, 10, 9 / 40, [3 / 4], [3 / 4]⟩⟩ := by decide +kernel
  exact Reached.step Reached.start h

/-- **C15** fails at the documented end point `l = 1`, in general: every pass without success
(score zero) makes the weight of both operators it used zero. -/
theorem C15_zero_weight_at_one {A : Problem S} {P : Params} (hl : P.l = 1) {st : State S} {d : Draw}
    {ps : Pass S} (h : pass A P st d = .ok ps) (hs : ps.score = 0) :
    ∃ i j, getIndex st.destroyWeights d.destroyDraw = .ok i ∧
      getIndex st.repairWeights d.repairDraw = .ok j ∧
      (∀ w, ps.next.destroyWeights[i]? = some w → w = 0) ∧
      (∀ w, ps.next.repairWeights[j]? = some w → w = 0) := by
  obtain ⟨i, j, -, -, -, hi, hj, -, -, -, -, -, -, h1, h2⟩ := C17_credit_partial h
  refine ⟨i, j, hi, hj, fun w hw => ?_, fun w hw => ?_⟩
  · rw [h1, if_pos rfl, hl, hs] at hw
    obtain ⟨x, -, hx⟩ := Option.map_eq_some_iff.1 hw
    rw [← hx]; norm_num
  · rw [h2, if_pos rfl, hl, hs] at hw
    obtain ⟨x, -, hx⟩ := Option.map_eq_some_iff.1 hw
    rw [← hx]; norm_num

end Celest.Alns
