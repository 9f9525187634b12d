/-
Properties of the scheduler: C01 – C06, C12, C18 – C20.
-/
import Verif.Schedule.LemmasGenerate
import Verif.Tactic

namespace Celest.Schedule

/-! ### concrete data for the examples and refutations -/

/-- A window without attitude samples. -/
def win (a b : ℚ) : VTW := ⟨a, b, [], []⟩

/-- Four requests with durations of one or two days. -/
def fourRequests : List Submission :=
  [ ⟨0, 100, 86400, 4, 1, none, [win 1 11, win 9 17]⟩,
    ⟨1, 100, 86400, 8, 1, none, [win 2 12, win 9 13]⟩,
    ⟨2, 14, 172800, 3, 1, none, [win 5 11]⟩,
    ⟨3, 100, 172800, 7, 1, none, [win 0 10]⟩ ]

/-- Draws selecting (priority removal, minimum opportunity insertion) and then
(random removal, greedy insertion). -/
def twoDraws : List Alns.Draw :=
  [⟨3 / 10, 1 / 2, 0, fun _ => 0⟩, ⟨0, 0, 0, fun _ => 1⟩]

/-- Generation arguments with an arbitrary `exp` and `log 0.5`. -/
def args (exp : ℚ → ℚ) (logHalf : ℚ) (draws : List Alns.Draw) : GenerateArgs :=
  ⟨1 / 2, 0, exp, logHalf, draws⟩

/-! ### C01, C03 -/

/-- **C01 + C03.** After any history of `add_request` and `generate` calls, for any
arguments and any random draws: if `generate` returns, the returned windows can be
matched one-to-one with distinct submitted requests so that each window serves its
request — same location, exactly the requested duration, strictly inside one of its
visible windows, finished strictly before the deadline, with at least the requested
image quality and at the requested look angle. -/
theorem C01_every_window_serves_its_own_request (history : List Op) (a : GenerateArgs)
    (ws : List Observation) (h : (generate (run history) a).1 = .ok ws) :
    ∃ served, served.Subperm (submissions history) ∧ List.Forall₂ Serves served ws := by
  obtain ⟨h', best, hi, hs, ho⟩ := generate_ok h
  have h1 : Inv (submissions history) h' := by
    have := initializeSolution_inv (inv_run history)
    rw [hi] at this
    exact this
  exact output_serves (solve_inv h1 hs) ho

/-- **C01.** In particular every returned window serves some submitted request. -/
theorem C01_every_window_feasible (history : List Op) (a : GenerateArgs) (ws : List Observation)
    (h : (generate (run history) a).1 = .ok ws) :
    ∀ w ∈ ws, ∃ s ∈ submissions history, w.location = s.location ∧ w.duration = s.duration ∧
      ∃ v ∈ s.vtws, v.rise < w.start ∧ w.start + w.duration / 86400 < v.set ∧
        w.start + w.duration / 86400 < s.deadline ∧
        s.quality ≤ (grade v.rise v.set w.start : ℚ) ∧
        StartTime s.lookAngle s.duration v w.start := by
  obtain ⟨served, hsub, hf⟩ := C01_every_window_serves_its_own_request history a ws h
  intro w hw
  obtain ⟨s, hs, h1, h2, v, hv, h3, h4, h5, h6, h7⟩ := Forall₂.mem_right hf hw
  refine ⟨s, hsub.subset hs, h1, h2, v, hv, h3, ?_, ?_, h6, h7⟩
  · rw [h2]; exact h4
  · rw [h2]; exact h5

/-- **C03.** At most one window per submitted request. -/
theorem C03_at_most_one_window_per_request (history : List Op) (a : GenerateArgs)
    (ws : List Observation) (h : (generate (run history) a).1 = .ok ws) :
    ∀ loc, ws.countP (fun w => w.location = loc) ≤
      (submissions history).countP (fun s => s.location = loc) := by
  obtain ⟨served, hsub, hf⟩ := C01_every_window_serves_its_own_request history a ws h
  intro loc
  have : ws.countP (fun w => w.location = loc) = served.countP (fun s => s.location = loc) := by
    clear hsub h
    induction hf with
    | nil => rfl
    | cons h1 _ ih => simp only [List.countP_cons, ih, h1.1]
  rw [this]
  exact hsub.countP_le _

/-- **C03.** After any history the scheduler holds exactly the submitted requests,
with every submitted field unchanged (window lists up to order). -/
theorem C03_requests_preserved (history : List Op) : (run history).Holds (submissions history) :=
  (inv_run history).2

/-- **C03.** Every operator of the search keeps the submitted requests. -/
theorem C03_operators_preserve_requests (subs : List Submission) (h h' : Handler)
    (hc : h.Consistent) (hh : h.Holds subs) (n : ℕ) (picks : ℕ → ℕ)
    (he : (∃ f ∈ removalFunctions, f h n picks = .ok h') ∨
      (∃ g ∈ insertionFunctions, g h n = .ok h')) : h'.Holds subs := by
  rcases he with ⟨f, hf, e⟩ | ⟨g, hg, e⟩
  · exact (removal_inv hf ⟨hc, hh⟩ e).2
  · exact (insertion_inv hg ⟨hc, hh⟩ e).2

/-- **C04.** After any history the counter equals the number of scheduled requests and
every row is either completely empty or completely assigned. -/
theorem C04_counter_exact (history : List Op) :
    (run history).numScheduled =
        ((run history).requests.countP fun r => r.isScheduled : ℕ) ∧
      ∀ r ∈ (run history).requests, r.isScheduled = false →
        r.vtwIndex = none ∧ r.start = none ∧ r.schedDuration = none := by
  refine ⟨(inv_run history).1.counter, fun r hr hu => ?_⟩
  rcases (inv_run history).1.rows r hr with h | h
  · exact h.2
  · rw [h.1] at hu; cases hu

/-- **C04.** The same through every operator of the search, from any consistent
handler, and through `unschedule_all_requests`. -/
theorem C04_operators_keep_counter (h h' : Handler) (hc : h.Consistent) (n : ℕ) (picks : ℕ → ℕ)
    (he : (∃ f ∈ removalFunctions, f h n picks = .ok h') ∨
      (∃ g ∈ insertionFunctions, g h n = .ok h') ∨ h' = h.unscheduleAll) : h'.Consistent := by
  rcases he with ⟨f, hf, e⟩ | ⟨g, hg, e⟩ | rfl
  · exact (removal_removed hf hc e).consistent hc
  · obtain ⟨h₁, -, -, -, hins⟩ := insertion_inserted hg hc e
    exact hins.consistent
  · obtain ⟨hf, h0, h1⟩ := unscheduleAll_facts hc
    refine ⟨fun b hb => ?_, by rw [h0, h1]; rfl⟩
    obtain ⟨a, ha, hab⟩ := Forall₂.mem_right hf hb
    exact hab.row (hc.rows a ha)

/-- **C04** is not guaranteed by the raw methods: unscheduling a request that is not
scheduled makes the counter negative. -/
theorem C04_raw_unschedule_breaks_counter :
    ∃ h : Handler, h.Consistent ∧ (h.unschedule 0).numScheduled ≠
      ((h.unschedule 0).requests.countP fun r => r.isScheduled : ℕ) :=
  ⟨submit [⟨0, 10, 1, 1, 1, none, []⟩], (inv_submit _).1, by decide +kernel⟩

/-- Non-vacuity for C01, C03, C04: a concrete call returns two windows. -/
example : ∃ a ws, (generate (run (fourRequests.map Op.add)) a).1 = .ok ws ∧ ws.length = 2 :=
  ⟨args (fun _ => 0) (-1) [],
    [⟨15 / 2, 86400, 1, []⟩, ⟨13 / 2, 86400, 0, []⟩], by decide +kernel⟩

/-! ### C02, C12 -/

/-- **C12.** The greedy initial schedule built from any submissions contains no two
overlapping observations (even if building it stops with an exception). -/
theorem C12_initial_schedule_conflict_free (subs : List Submission) :
    (initializeSolution (submit subs)).1.requests.Pairwise fun r r' => ¬ RowsOverlap r r' := by
  have hi := inv_submit subs
  have h1 : Inv subs (submit subs).sortByDecreasingPriority :=
    hi.of_perm (perm_sortPriority _) rfl
  have h2 : Inv subs (submit subs).sortByDecreasingPriority.sortVtwsByIncreasingRiseTime :=
    h1.of_sameRow (riseSort_facts _) rfl
  have hun : ∀ r ∈ (submit subs).sortByDecreasingPriority.sortVtwsByIncreasingRiseTime.requests,
      r.isScheduled = false := by
    intro r hr
    obtain ⟨r1, hr1, hs⟩ := Forall₂.mem_right (riseSort_facts _) hr
    rw [hs.isScheduled]
    have := (perm_sortPriority (submit subs)).subset hr1
    rw [submit_requests] at this
    obtain ⟨s, -, rfl⟩ := List.mem_map.1 this
    rfl
  have := insertLoop_noOverlap
    (submit subs).sortByDecreasingPriority.sortVtwsByIncreasingRiseTime.requests.length 0
    (submit subs).sortByDecreasingPriority.sortVtwsByIncreasingRiseTime
    (submit subs).sortByDecreasingPriority.sortVtwsByIncreasingRiseTime.requests.length
    (by simp) h2.1
    (fun j r _ hj => hun r (List.mem_of_getElem? hj))
    (List.pairwise_of_forall_mem_list fun a ha b _ hov => by
      obtain ⟨_, _, _, _, h1, _⟩ := hov
      rw [hun a ha] at h1; cases h1)
  rw [← List.range_eq_range'] at this
  exact this

/-- **C12.** Every row of the initial schedule is unassigned or feasibly assigned. -/
theorem C12_initial_schedule_feasible (subs : List Submission) :
    ∀ r ∈ (initializeSolution (submit subs)).1.requests, r.Clear ∨ r.Assigned :=
  (initializeSolution_inv (inv_submit subs)).1.rows

/-- Non-vacuity for C12: the initial schedule of the four requests has two
observations. -/
example : (initializeSolution (submit fourRequests)).1.scheduledCount = 2 := by decide +kernel

/-- Two observations overlap in time. -/
def ObsOverlap (o o' : Observation) : Prop :=
  Overlap o.start (days o.duration) o'.start (days o'.duration)

/-- **C02 (partial).** With no search iterations, the windows returned by `generate`
for freshly submitted requests are pairwise disjoint.  Missing: any number of
iterations, for which the property is false (`C02_overlap_possible`). -/
theorem C02_no_overlap_partial (subs : List Submission) (a : GenerateArgs) (ha : a.draws = [])
    (ws : List Observation) (h : (generate (submit subs) a).1 = .ok ws) :
    ws.Pairwise fun o o' => ¬ ObsOverlap o o' := by
  obtain ⟨h', best, hi, hs, ho⟩ := generate_ok h
  have hbest : best = h' := by
    rw [ha, Alns.C14_trivial_searches _ _ _ _ (Or.inl rfl)] at hs
    cases hs; rfl
  subst hbest
  have hp := C12_initial_schedule_conflict_free subs
  rw [hi] at hp
  unfold outputWindows at ho
  rw [forLoop_eq] at ho
  have he := toObservations_facts ho
  have hp' := hp.sublist (sublist_filter_dropLast best.requests)
  clear hp hs
  generalize best.requests.dropLast.filter (fun r => r.isScheduled) = m at he hp'
  clear ho h
  induction he with
  | nil => exact List.Pairwise.nil
  | @cons r o l os h1 h2 ih =>
    rw [List.pairwise_cons] at hp' ⊢
    refine ⟨fun o' ho' hov => ?_, ih hp'.2⟩
    obtain ⟨r', hr', e'⟩ := Forall₂.mem_right h2 ho'
    exact hp'.1 r' hr' ⟨o.start, o.duration, o'.start, o'.duration, h1.1, e'.1, h1.2.1, h1.2.2.1,
      e'.2.1, e'.2.2.1, hov⟩

/-- **C02 refuted.** For every `exp` and every value of `log 0.5` there are four requests
and two iterations' worth of draws for which `generate` returns two observations that
overlap: the third one scheduled starts inside the second. -/
theorem C02_overlap_possible (exp : ℚ → ℚ) (logHalf : ℚ) :
    ∃ subs draws ws, (generate (submit subs) (args exp logHalf draws)).1 = .ok ws ∧
      ¬ ws.Pairwise fun o o' => ¬ ObsOverlap o o' := by
  refine ⟨fourRequests, twoDraws,
    [⟨23 / 2, 86400, 1, []⟩, ⟨6, 172800, 3, []⟩, ⟨13 / 2, 86400, 0, []⟩], ?_, ?_⟩
  · kernel_decide
  · intro h
    rw [List.pairwise_cons, List.pairwise_cons] at h
    refine h.2.1 _ (List.mem_singleton.2 rfl) ?_
    constructor <;> norm_num [days]

/-! ### C05, C06, C18 -/

/-- **C05 (partial).** A `for` loop over a handler visits all requests but the last, in
order, and each visit sequence is the same however often the loop is run.  Missing: the
last request. -/
theorem C05_visits_all_but_last_partial (h : Handler) :
    ∀ r l, h.requests = l ++ [r] → h.forLoop = l := by
  intro r l hl
  rw [forLoop_eq, hl, List.dropLast_concat]

/-- **C05 refuted.** The loop misses a request for every non-empty handler. -/
theorem C05_never_visits_all (h : Handler) (hne : h.requests ≠ []) :
    h.forLoop.length + 1 = h.requests.length := by
  rw [forLoop_eq, List.length_dropLast]
  have := List.length_pos_of_ne_nil hne
  omega

/-- The number of steps allowed to the iteration is immaterial. -/
theorem iterFrom_fuel (h : Handler) (fuel : ℕ) (hf : h.requests.length ≤ fuel) :
    h.iterFrom fuel 0 = h.forLoop := by
  rw [iterFrom_eq h fuel 0 (by omega), forLoop_eq]
  simp

example : (submit fourRequests).forLoop.map (·.location) = [0, 1, 2] := by decide +kernel

/-- **C06 (partial).** In every consistent handler, a candidate of positive duration is
reported to conflict exactly when it overlaps an observation scheduled by a request
*other than the last one* (scheduled durations positive).  Missing: the last request. -/
theorem C06_conflict_exact_partial (h : Handler) (hc : h.Consistent) (s d : ℚ) (hd : 0 < d)
    (hpos : ∀ r ∈ h.requests, 0 < r.duration) :
    ∃ b, doesConflictExist h s d = .ok b ∧
      (b = true ↔ ∃ r ∈ h.requests.dropLast, r.isScheduled = true ∧
        ∃ s' d', r.start = some s' ∧ r.schedDuration = some d' ∧ Overlap s d s' (days d')) := by
  have hrow : ∀ r ∈ h.requests.dropLast, r.Clear ∨ r.Assigned :=
    fun r hr => hc.rows r (List.mem_of_mem_dropLast hr)
  obtain ⟨b, hb, hiff⟩ := anyConflict_ok hrow s d
  refine ⟨b, by rw [doesConflictExist, forLoop_eq]; exact hb, hiff.trans ⟨?_, ?_⟩⟩
  · rintro ⟨r, hr, hcw⟩
    have := conflictsWith_true hcw hd (fun sd hsd => by
      rcases hrow r hr with h1 | h1
      · rw [h1.2.2.2] at hsd; cases hsd
      · rw [h1.2.2.1] at hsd; cases hsd
        exact hpos r (List.mem_of_mem_dropLast hr))
    exact ⟨r, hr, this.1, this.2⟩
  · rintro ⟨r, hr, hs, s', d', h1, h2, hov⟩
    obtain ⟨b', hb'⟩ := conflictsWith_ok (hrow r hr) s d
    cases b' with
    | true => exact ⟨r, hr, hb'⟩
    | false => exact absurd hov (conflictsWith_false hb' hs s' d' h1 h2)

/-- A handler with one scheduled observation, on the last of two requests. -/
def lastScheduled : Handler :=
  { requests := [⟨false, none, none, none, 0, 100, 86400, 1, 1, none, [win 0 10]⟩,
      ⟨true, some 0, some (11 / 2), some 86400, 1, 100, 86400, 5, 1, none, [win 0 10]⟩]
    numScheduled := 1 }

/-- The handler `lastScheduled` is consistent. -/
theorem lastScheduled_consistent : lastScheduled.Consistent := by
  refine ⟨fun r hr => ?_, by decide +kernel⟩
  simp only [lastScheduled, List.mem_cons, List.not_mem_nil, or_false] at hr
  rcases hr with rfl | rfl
  · left; exact ⟨rfl, rfl, rfl, rfl⟩
  · right
    refine ⟨rfl, ⟨0, rfl, by simp⟩, rfl, 11 / 2, rfl, win 0 10, by simp, ?_, ?_, ?_, ?_⟩
    · decide +kernel
    · decide +kernel
    · decide +kernel
    · decide +kernel

/-- **C06 refuted.** In a consistent handler a candidate identical to an observation that
is already scheduled is reported as free of conflict. -/
theorem C06_last_request_ignored :
    ∃ h : Handler, h.Consistent ∧ ∃ r ∈ h.requests, r.isScheduled = true ∧
      ∃ s d, r.start = some s ∧ r.schedDuration = some d ∧ 0 < d ∧
        doesConflictExist h s (days d) = .ok false :=
  ⟨lastScheduled, lastScheduled_consistent, _, List.mem_cons_of_mem _ (List.mem_singleton.2 rfl),
    rfl, 11 / 2, 86400, rfl, rfl, by norm_num, by decide +kernel⟩

/-- Non-vacuity for C06: a conflict that is detected. -/
example : doesConflictExist ⟨lastScheduled.requests.reverse, 1⟩ (11 / 2) 1 = .ok true := by decide +kernel

/-- The sum of the priorities of the scheduled requests. -/
def scheduledPriority (l : List Request) : ℚ :=
  ((l.filter fun r => r.isScheduled).map Request.priority).sum

theorem foldl_cost : ∀ (l : List Request) (c : ℚ),
    l.foldl (fun c r => if r.isScheduled then c - r.priority else c) c = c - scheduledPriority l
  | [], c => by simp [scheduledPriority]
  | r :: l, c => by
    rw [List.foldl_cons, foldl_cost l]
    unfold scheduledPriority
    by_cases hr : r.isScheduled
    · simp [hr]; ring
    · simp [hr]

/-- **C18 (partial).** The cost of a schedule is minus the sum of the priorities of its
scheduled requests, except that the last request is not counted; and a schedule counts as
complete exactly when all requests but the last are scheduled.  Missing: the last
request. -/
theorem C18_cost_and_completeness_partial (h : Handler) (l : List Request) (r : Request)
    (hl : h.requests = l ++ [r]) :
    cost h = -(scheduledPriority h.requests) + (if r.isScheduled then r.priority else 0) ∧
      (isComplete h = true ↔ ∀ q ∈ l, q.isScheduled = true) := by
  constructor
  · rw [cost, forLoop_eq, foldl_cost, hl, List.dropLast_concat]
    unfold scheduledPriority
    by_cases hr : r.isScheduled <;> simp [hr]
  · rw [isComplete, forLoop_eq, hl, List.dropLast_concat, List.all_eq_true]

/-- **C18 refuted.** For every schedule whose last request is scheduled with a non-zero
priority the cost is wrong, and if it is the only unscheduled request the schedule counts
as complete. -/
theorem C18_last_request_ignored (h : Handler) (l : List Request) (r : Request)
    (hl : h.requests = l ++ [r]) :
    (r.isScheduled = true → r.priority ≠ 0 → cost h ≠ -(scheduledPriority h.requests)) ∧
      (r.isScheduled = false → (∀ q ∈ l, q.isScheduled = true) →
        isComplete h = true ∧ ¬ ∀ q ∈ h.requests, q.isScheduled = true) := by
  obtain ⟨h1, h2⟩ := C18_cost_and_completeness_partial h l r hl
  refine ⟨fun hs hp he => ?_, fun hs hq => ⟨h2.2 hq, fun hall => ?_⟩⟩
  · rw [h1, if_pos hs] at he
    exact hp (by linarith)
  · have := hall r (by rw [hl]; simp)
    rw [hs] at this; cases this

/-- Non-vacuity for C18. -/
example : cost lastScheduled = 0 ∧ scheduledPriority lastScheduled.requests = 5 ∧
    cost ⟨lastScheduled.requests.reverse, 1⟩ = -5 ∧ isComplete lastScheduled = false ∧
    isComplete ⟨lastScheduled.requests.reverse, 1⟩ = true := by decide +kernel

/-! ### C19, C20 -/

/-- **C19 refuted.** With a single request, whatever it is and whatever the parameters,
`generate` never returns an observation. -/
theorem C19_lone_request_never_scheduled (history : List Op) (s : Submission)
    (hone : submissions history = [s]) (a : GenerateArgs) (ws : List Observation)
    (h : (generate (run history) a).1 = .ok ws) : ws = [] := by
  obtain ⟨h', best, hi, hs, ho⟩ := generate_ok h
  have h1 : Inv (submissions history) h' := by
    have := initializeSolution_inv (inv_run history)
    rw [hi] at this
    exact this
  have hlen := (solve_inv h1 hs).2.length_eq
  rw [hone] at hlen
  simp only [List.length_map, List.length_cons, List.length_nil] at hlen
  obtain ⟨r, hr⟩ := List.length_eq_one_iff.1 hlen
  rw [outputWindows, forLoop_eq, hr] at ho
  cases ho
  rfl

/-- A perfectly feasible request. -/
def easyRequest : Submission := ⟨0, 100, 86400, 5, 1, none, [win 0 10]⟩

/-- Non-vacuity for C19: the request of `easyRequest` can be served (at time 5.5), the
scheduler even schedules it internally, and yet returns nothing. -/
example : Feasible easyRequest.vtws easyRequest.lookAngle easyRequest.deadline
      easyRequest.duration easyRequest.quality (11 / 2) ∧
    (initializeSolution (submit [easyRequest])).1.scheduledCount = 1 ∧
    ∀ exp logHalf, (generate (submit [easyRequest]) (args exp logHalf [])).1 = .ok [] := by
  refine ⟨⟨win 0 10, by simp [easyRequest], ?_⟩, by decide +kernel, fun exp l => ?_⟩
  · decide +kernel
  · kernel_decide

/-- The start time the code proposes in a window when no look angle is requested fits the
window exactly when the window is at least *three* times as long as the observation. -/
theorem C19_default_start_fits_iff (r : Request) (v : VTW) (hl : r.lookAngle = none)
    (hd : 0 ≤ r.duration) :
    ∃ s, proposedStart r v = .ok (some s) ∧
      ((v.rise < s ∧ s + days r.duration < v.set) ↔ 3 * days r.duration < v.set - v.rise) := by
  refine ⟨(v.rise + v.set + durationInDays r.duration) / 2, by rw [proposedStart, hl], ?_⟩
  have : 0 ≤ days r.duration := by unfold days; positivity
  have e : durationInDays r.duration = days r.duration := rfl
  rw [e]
  constructor
  · rintro ⟨h1, h2⟩; linarith
  · intro h; constructor <;> linarith

end Celest.Schedule
