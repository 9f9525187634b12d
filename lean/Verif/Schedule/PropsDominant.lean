/- C19: what is true of a feasible request: with company it is served, if it matters enough. -/
import Verif.Schedule.PropsGreedy
import Verif.Schedule.PropsSchedule
import Verif.Schedule.PropsSearch

namespace Celest.Schedule

theorem scheduledPriority_le : ∀ (m : List Request), (∀ r ∈ m, 0 ≤ r.priority) →
    scheduledPriority m ≤ (m.map Request.priority).sum
  | [], _ => by simp [scheduledPriority]
  | r :: m, h => by
    have ih := scheduledPriority_le m fun x hx => h x (List.mem_cons_of_mem _ hx)
    have h0 := h r List.mem_cons_self
    unfold scheduledPriority at ih ⊢
    by_cases hr : r.isScheduled
    · simp [hr]; linarith
    · simp [hr]; linarith

theorem le_scheduledPriority : ∀ (m : List Request), (∀ r ∈ m, 0 ≤ r.priority) →
    ∀ q ∈ m, q.isScheduled = true → q.priority ≤ scheduledPriority m
  | [], _, q, hq, _ => by cases hq
  | r :: m, h, q, hq, hs => by
    have hm : ∀ x ∈ m, 0 ≤ x.priority := fun x hx => h x (List.mem_cons_of_mem _ hx)
    have hpos : 0 ≤ scheduledPriority m := by
      unfold scheduledPriority
      refine List.sum_nonneg fun x hx => ?_
      obtain ⟨y, hy, rfl⟩ := List.mem_map.1 hx
      exact hm y (List.mem_filter.1 hy).1
    have h0 := h r List.mem_cons_self
    have e : scheduledPriority (r :: m) =
        (if r.isScheduled then r.priority else 0) + scheduledPriority m := by
      unfold scheduledPriority
      by_cases hr : r.isScheduled <;> simp [hr]
    rw [e]
    rcases List.mem_cons.1 hq with rfl | hq
    · rw [if_pos hs]; linarith
    · have := le_scheduledPriority m hm q hq hs
      split <;> linarith

theorem cost_counts (h : Handler) : cost h = -scheduledPriority h.requests.dropLast := by
  rw [cost, forLoop_eq, foldl_cost]; ring

theorem KeptOrAssigned.fixed {r r' : Request} (h : KeptOrAssigned r r') : r'.fixed = r.fixed := by
  rcases h with h | ⟨-, -, h⟩
  · exact h.fixed
  · exact h.fixed

/-- The row of a submission among the rows of a handler that holds it. -/
theorem split_row {l : List Request} {s : Submission} {others : List Submission}
    (hp : (l.map Request.fixed).Perm ((s :: others).map Submission.fixed)) :
    ∃ b₁ q b₂, l = b₁ ++ q :: b₂ ∧ q.fixed = s.fixed ∧
      ((b₁ ++ b₂).map Request.fixed).Perm (others.map Submission.fixed) := by
  have hm : s.fixed ∈ l.map Request.fixed := hp.mem_iff.2 (by simp)
  obtain ⟨q, hq, he⟩ := List.mem_map.1 hm
  obtain ⟨b₁, b₂, rfl⟩ := List.append_of_mem hq
  refine ⟨b₁, q, b₂, rfl, he, ?_⟩
  have h1 : ((b₁ ++ q :: b₂).map Request.fixed).Perm (q.fixed :: (b₁ ++ b₂).map Request.fixed) :=
    (List.perm_middle (a := q) (l₁ := b₁) (l₂ := b₂)).map Request.fixed
  have h2 := h1.symm.trans hp
  rw [he, List.map_cons] at h2
  exact h2.cons_inv

theorem held_priorities {l : List Request} {others : List Submission}
    (hp : (l.map Request.fixed).Perm (others.map Submission.fixed)) :
    (l.map Request.priority).Perm (others.map Submission.priority) := by
  have := hp.map Fixed.priority
  simpa [List.map_map, Function.comp_def, Request.fixed, Submission.fixed] using this

theorem initial_by_priority {h h' : Handler} (hc : h.Consistent)
    (e : initializeSolution h = (h', none)) :
    h'.requests.Pairwise fun a b => b.priority ≤ a.priority := by
  have h1 := (C10_request_sorts_partial h).1.1
  have hc1 : h.sortByDecreasingPriority.Consistent := hc.of_perm (perm_sortPriority h) rfl
  have hf := riseSort_facts h.sortByDecreasingPriority
  have hc2 : h.sortByDecreasingPriority.sortVtwsByIncreasingRiseTime.Consistent :=
    hc1.of_sameRow hf rfl
  have e1 : h' = (insertFirstN h.sortByDecreasingPriority.sortVtwsByIncreasingRiseTime
      h.sortByDecreasingPriority.sortVtwsByIncreasingRiseTime.requests.length).1 := by
    have : (initializeSolution h).1 = h' := by rw [e]
    rw [← this]; rfl
  have h2 := KA.map_fixed (insertFirstN_facts
    h.sortByDecreasingPriority.sortVtwsByIncreasingRiseTime
    h.sortByDecreasingPriority.sortVtwsByIncreasingRiseTime.requests.length hc2).rows
  have h3 : h.sortByDecreasingPriority.sortVtwsByIncreasingRiseTime.requests.map Request.fixed =
      h.sortByDecreasingPriority.requests.map Request.fixed :=
    Forall₂.map_eq (fun h => SameRow.fixed h) hf
  rw [← e1, h3] at h2
  have h4 : h'.requests.map Request.priority =
      h.sortByDecreasingPriority.requests.map Request.priority := by
    have := congrArg (List.map Fixed.priority) h2
    simpa [List.map_map, Function.comp_def, Request.fixed] using this
  have h5 : (h.sortByDecreasingPriority.requests.map Request.priority).Pairwise
      fun a b => b ≤ a := List.pairwise_map.2 h1
  rw [← h4] at h5
  exact List.pairwise_map.1 h5

/-- In the initial schedule of fresh requests a feasible request whose priority is above all
others' is scheduled, and stored before another one. -/
theorem initial_serves {subs others : List Submission} {s : Submission}
    (hsubs : subs.Perm (s :: others)) (hne : others ≠ [])
    (hpos : ∀ x ∈ subs, 0 < x.duration) (hlt : ∀ x ∈ others, x.priority < s.priority)
    {t : ℚ} (hf : Feasible s.vtws s.lookAngle s.deadline s.duration s.quality t)
    {h' : Handler} (e : initializeSolution (submit subs) = (h', none)) :
    ∃ b₁ q b₂, h'.requests = b₁ ++ q :: b₂ ∧ b₂ ≠ [] ∧ q.isScheduled = true ∧
      q.fixed = s.fixed := by
  have hinv := inv_submit subs
  have hinv' : Inv subs h' := by
    have := initializeSolution_inv hinv
    rw [e] at this; exact this
  have hposr : ∀ r ∈ (submit subs).requests, 0 < r.duration := by
    rw [submit_requests]
    intro r hr
    obtain ⟨x, hx, rfl⟩ := List.mem_map.1 hr
    exact hpos x hx
  obtain ⟨b₁, q, b₂, hl, hq, hp⟩ := split_row (hinv'.2.trans (hsubs.map _))
  have hpr := held_priorities hp
  have hqp : q.priority = s.priority := congrArg Fixed.priority hq
  have hlow : ∀ x ∈ b₁ ++ b₂, x.priority < q.priority := by
    intro x hx
    have : x.priority ∈ others.map Submission.priority :=
      hpr.mem_iff.1 (List.mem_map_of_mem hx)
    obtain ⟨y, hy, h1⟩ := List.mem_map.1 this
    rw [hqp, ← h1]; exact hlt y hy
  refine ⟨b₁, q, b₂, hl, ?_, ?_, hq⟩
  · rintro rfl
    have hlen := hp.length_eq
    simp only [List.append_nil, List.length_map] at hlen
    have : b₁ ≠ [] := by
      rintro rfl
      exact hne (List.length_eq_zero_iff.1 hlen.symm)
    obtain ⟨x, hx⟩ := List.exists_mem_of_ne_nil _ this
    have hs := initial_by_priority hinv.1 e
    rw [hl, List.pairwise_append] at hs
    have h1 := hs.2.2 x hx q (by simp)
    have h2 := hlow x (by simpa using hx)
    linarith
  · by_contra hns
    have hns : q.isScheduled = false := by simpa using hns
    obtain ⟨v, hv, f1, f2, f3, f4, f5⟩ := hf
    have field : ∀ a : Request, a.fixed = s.fixed →
        v ∈ a.vtws ∧ StartsAt a v t ∧ FitsIn a v t := by
      intro a ha
      simp only [Request.fixed, Submission.fixed, Fixed.mk.injEq] at ha
      obtain ⟨-, a2, a3, -, a5, a6, a7⟩ := ha
      have hv' : v ∈ a.vtws := by
        have : v ∈ (a.vtws : Multiset VTW) := by rw [a7]; exact hv
        exact this
      refine ⟨hv', ?_, ?_⟩
      · unfold StartsAt; rw [a3, a6]; exact f5
      · unfold FitsIn; rw [a2, a3, a5]; exact ⟨f1, f2, f3, f4⟩
    obtain ⟨g1, g2, g3⟩ := field q hq
    have hqm : q ∈ h'.requests := by rw [hl]; simp
    obtain ⟨c, hc, hoc⟩ := C67_initial_schedule_maximal (submit subs) h' hinv.1 hposr e q hqm hns
      v g1 t g2 g3
    have hcl : c ∈ b₁ ++ b₂ := by
      rw [hl] at hc
      rcases List.mem_append.1 hc with h | h
      · exact List.mem_append_left _ h
      · rcases List.mem_cons.1 h with rfl | h
        · rw [hoc.1] at hns; cases hns
        · exact List.mem_append_right _ h
    obtain ⟨l, hlp, hka, hfirst⟩ :=
      C68_initial_schedule_serves_high_priority_first (submit subs) h' hinv.1 hposr e
    have hfresh : ∀ x ∈ l, x.isScheduled = false := by
      intro x hx
      have := hlp.mem_iff.1 hx
      rw [submit_requests] at this
      obtain ⟨y, -, rfl⟩ := List.mem_map.1 this
      rfl
    have hlen : l.length = h'.requests.length := hka.length_eq
    have hget : ∀ (k : ℕ) (x' : Request), h'.requests[k]? = some x' →
        ∃ x, l[k]? = some x ∧ x.fixed = x'.fixed := by
      intro k x' hk
      obtain ⟨hk', rfl⟩ := List.getElem?_eq_some_iff.1 hk
      have hkl : k < l.length := by omega
      refine ⟨l[k], List.getElem?_eq_getElem hkl, ?_⟩
      exact ((List.forall₂_iff_get.1 hka).2 k hkl hk').fixed.symm
    have hi : h'.requests[b₁.length]? = some q := by rw [hl]; simp
    obtain ⟨a, ha, haf⟩ := hget _ q hi
    obtain ⟨j, hj⟩ := List.mem_iff_getElem?.1 hc
    obtain ⟨b, hb, hbf⟩ := hget j c hj
    obtain ⟨k1, k2, k3⟩ := field a (haf.trans hq)
    have pa : a.priority = q.priority := congrArg Fixed.priority haf
    have pb : b.priority = c.priority := congrArg Fixed.priority hbf
    obtain ⟨k, d, d', hd, hd', hod, hor⟩ := hfirst b₁.length j a q b c ha hi hns hb
      (hfresh b (List.mem_of_getElem? hb)) hj hoc.1
      (by rw [pa, pb]; exact hlow c hcl) v k1 t k2 k3
    rcases hor with hor | hor
    · rw [hfresh d (List.mem_of_getElem? hd)] at hor; cases hor
    · obtain ⟨d2, hd2, hdf⟩ := hget k d' hd'
      rw [hd] at hd2
      cases hd2
      have pd : d.priority = d'.priority := congrArg Fixed.priority hdf
      have hdm : d' ∈ h'.requests := List.mem_of_getElem? hd'
      rw [hl] at hdm
      rcases List.mem_append.1 hdm with h | h
      · have := hlow d' (List.mem_append_left _ h); linarith
      · rcases List.mem_cons.1 h with rfl | h
        · rw [hod.1] at hns; cases hns
        · have := hlow d' (List.mem_append_right _ h); linarith

/-- **C19 (partial).** A feasible request is served if it is not alone and matters more than all
the others together: for freshly submitted requests of positive duration, if the priority of `s`
exceeds the sum of the priorities of the others, which are not negative, and there is at least one
other, then whatever `generate` returns, for any parameters, number of iterations and draws, serves
`s`.  Missing: a lone request, which is never served (`C19_lone_request_never_scheduled`). -/
theorem C19_dominant_request_served_partial (subs others : List Submission) (s : Submission)
    (hsubs : subs.Perm (s :: others)) (hne : others ≠ [])
    (hpos : ∀ x ∈ subs, 0 < x.duration) (hnn : ∀ x ∈ others, 0 ≤ x.priority)
    (hsum : (others.map Submission.priority).sum < s.priority) (t : ℚ)
    (hf : Feasible s.vtws s.lookAngle s.deadline s.duration s.quality t)
    (a : GenerateArgs) (ws : List Observation) (h : (generate (submit subs) a).1 = .ok ws) :
    ∃ o ∈ ws, Serves s o := by
  obtain ⟨h', best, hi, hs, ho⟩ := generate_ok h
  have hinv' : Inv subs h' := by
    have := initializeSolution_inv (inv_submit subs)
    rw [hi] at this; exact this
  have hlt : ∀ x ∈ others, x.priority < s.priority := by
    intro x hx
    refine lt_of_le_of_lt ?_ hsum
    refine List.single_le_sum (fun y hy => ?_) _ (List.mem_map_of_mem hx)
    obtain ⟨z, hz, rfl⟩ := List.mem_map.1 hy
    exact hnn z hz
  have hs0 : 0 ≤ s.priority := by
    have : 0 ≤ (others.map Submission.priority).sum := by
      refine List.sum_nonneg fun y hy => ?_
      obtain ⟨z, hz, rfl⟩ := List.mem_map.1 hy
      exact hnn z hz
    linarith
  have hnonneg : ∀ {g : Handler}, Inv subs g → ∀ r ∈ g.requests, 0 ≤ r.priority := by
    intro g hg r hr
    have h1 := held_priorities (hg.2.trans (hsubs.map _))
    have h2 : r.priority ∈ (s :: others).map Submission.priority :=
      h1.mem_iff.1 (List.mem_map_of_mem hr)
    obtain ⟨z, hz, h3⟩ := List.mem_map.1 h2
    rw [← h3]
    rcases List.mem_cons.1 hz with rfl | hz
    · exact hs0
    · exact hnn z hz
  -- the initial schedule is worth at least the request
  have hcost : cost h' ≤ -s.priority := by
    obtain ⟨b₁, q, b₂, hl, hb, hq, hqf⟩ := initial_serves hsubs hne hpos hlt hf hi
    have hm : q ∈ h'.requests.dropLast := by
      rw [hl, List.dropLast_append_of_ne_nil (by simp)]
      refine List.mem_append_right _ ?_
      rw [List.dropLast_cons_of_ne_nil hb]
      simp
    have := le_scheduledPriority h'.requests.dropLast
      (fun r hr => hnonneg hinv' r (List.mem_of_mem_dropLast hr)) q hm hq
    have hp : q.priority = s.priority := congrArg Fixed.priority hqf
    rw [cost_counts]; linarith
  have hbest : Inv subs best := solve_inv hinv' hs
  have hle : cost best ≤ cost h' := Alns.C13_never_worse_than_start hs
  obtain ⟨b₁, q, b₂, hl, hqf, hp⟩ := split_row (hbest.2.trans (hsubs.map _))
  have hsumb : ((b₁ ++ b₂).map Request.priority).sum < s.priority := by
    rw [(held_priorities hp).sum_eq]; exact hsum
  have hb0 : ∀ r ∈ b₁ ++ b₂, 0 ≤ r.priority := by
    intro r hr
    refine hnonneg hbest r ?_
    rw [hl]
    rcases List.mem_append.1 hr with h | h
    · exact List.mem_append_left _ h
    · exact List.mem_append_right _ (List.mem_cons_of_mem _ h)
  have hle2 : s.priority ≤ scheduledPriority best.requests.dropLast := by
    rw [cost_counts] at hle; linarith
  -- otherwise the cost would count only the others
  have hcount : q ∈ best.requests.dropLast ∧ q.isScheduled = true := by
    by_contra hno
    have hsp : scheduledPriority best.requests.dropLast ≤ scheduledPriority (b₁ ++ b₂) := by
      by_cases hb : b₂ = []
      · rw [hl, hb, List.dropLast_concat, List.append_nil]
      · have hd : best.requests.dropLast = b₁ ++ q :: b₂.dropLast := by
          rw [hl, List.dropLast_append_of_ne_nil (by simp), List.dropLast_cons_of_ne_nil hb]
        have hqs : q.isScheduled = false := by
          by_contra hq
          exact hno ⟨by rw [hd]; simp, by simpa using hq⟩
        have hsub : scheduledPriority b₂.dropLast ≤ scheduledPriority b₂ := by
          obtain ⟨z, hz⟩ : ∃ z, b₂ = b₂.dropLast ++ [z] :=
            ⟨b₂.getLast hb, (List.dropLast_append_getLast hb).symm⟩
          have hz0 : 0 ≤ z.priority := hb0 z (by rw [hz]; simp)
          rw [hz]
          simp only [List.dropLast_concat]
          unfold scheduledPriority
          by_cases hzs : z.isScheduled <;> simp [hzs, hz0]
        rw [hd]
        unfold scheduledPriority at hsub ⊢
        simp only [List.filter_append, List.map_append, List.sum_append,
          List.filter_cons_of_neg (p := fun r : Request => r.isScheduled) (a := q) (by simp [hqs])]
        linarith
    have := scheduledPriority_le (b₁ ++ b₂) hb0
    linarith
  -- and what is counted is returned
  unfold outputWindows at ho
  rw [forLoop_eq] at ho
  have he := toObservations_facts ho
  obtain ⟨o, hom, hoe⟩ := Forall₂.mem_right he.flip
    (List.mem_filter.2 ⟨hcount.1, by simpa using hcount.2⟩)
  refine ⟨o, hom, ?_⟩
  have hqm : q ∈ best.requests := List.mem_of_mem_dropLast hcount.1
  rcases hbest.1.rows q hqm with hc | hc
  · rw [hc.1] at hcount; cases hcount.2
  · obtain ⟨-, -, c3, t', c4, v, hv, c5⟩ := hc
    obtain ⟨-, o2, o3, o4⟩ := hoe
    simp only [Request.fixed, Submission.fixed, Fixed.mk.injEq] at hqf
    obtain ⟨a1, a2, a3, -, a5, a6, a7⟩ := hqf
    rw [c4] at o2; rw [c3] at o3
    cases o2
    have o3 : q.duration = o.duration := Option.some.inj o3
    have hv' : v ∈ s.vtws := by
      have : v ∈ (s.vtws : Multiset VTW) := by rw [← a7]; exact hv
      exact this
    refine ⟨by rw [o4, a1], o3.symm.trans a3, v, hv', ?_⟩
    rw [← a2, ← a3, ← a5, ← a6]
    exact c5

/-- Non-vacuity: the request that alone is never served is served beside a lesser one, and
`generate` does return. -/
example : Feasible easyRequest.vtws easyRequest.lookAngle easyRequest.deadline
      easyRequest.duration easyRequest.quality (11 / 2) ∧
    ∀ exp logHalf, (generate (submit [easyRequest, { easyRequest with location := 1, priority := 3 }])
      (args exp logHalf [])).1 = .ok [⟨11 / 2, 86400, 0, []⟩] := by
  refine ⟨⟨win 0 10, by simp [easyRequest], ?_⟩, fun exp l => ?_⟩
  · decide +kernel
  · kernel_decide

end Celest.Schedule
