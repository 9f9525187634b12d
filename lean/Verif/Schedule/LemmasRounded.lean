/-
Helper lemmas: the scheduler in floating-point arithmetic.
-/
import Verif.Schedule.Rounded
import Verif.Schedule.LemmasGenerate
import Verif.Schedule.LemmasAlnsRounded

namespace Celest.Schedule.Rounded

variable {fl : ℚ → ℚ} {ε T : ℚ}

/-! ### without rounding -/

section Exact

theorem durationInDays_id : durationInDays (fun x => x) = Schedule.durationInDays := by
  funext s; simp only [durationInDays, Schedule.durationInDays]; ring

theorem bisect_id (f : ℕ → ℚ) : ∀ (fuel l r : ℕ) (x : ℚ),
    bisect (fun x => x) f fuel l r x = Schedule.bisect f fuel l r x := by
  intro fuel
  induction fuel with
  | zero => intro l r x; rfl
  | succ fuel ih =>
    intro l r x
    unfold bisect Schedule.bisect
    simp only [ih]

theorem lookAngleTime_id : lookAngleTime (fun x => x) = Schedule.lookAngleTime := by
  funext la d j s t
  simp only [lookAngleTime, Schedule.lookAngleTime, bisect_id]; rfl

theorem proposedStart_id : proposedStart (fun x => x) = Schedule.proposedStart := by
  funext r v
  simp only [proposedStart, Schedule.proposedStart, lookAngleTime_id, durationInDays_id]; rfl

theorem imageQuality_id : imageQuality (fun x => x) = Schedule.imageQuality := rfl

theorem conflictsWith_id : conflictsWith (fun x => x) = Schedule.conflictsWith := by
  funext r s d
  simp only [conflictsWith, Schedule.conflictsWith, durationInDays_id]; rfl

theorem anyConflict_id (l : List Request) (s d : ℚ) :
    anyConflict (fun x => x) l s d = Schedule.anyConflict l s d := by
  induction l with
  | nil => rfl
  | cons r l ih => simp only [anyConflict, Schedule.anyConflict, conflictsWith_id, ih]; rfl

theorem tryVtw_id : tryVtw (fun x => x) = Schedule.tryVtw := by
  funext h r v
  simp only [tryVtw, Schedule.tryVtw, proposedStart_id, durationInDays_id, imageQuality_id,
    doesConflictExist, Schedule.doesConflictExist, anyConflict_id, isWithinBounds,
    Schedule.isWithinBounds, meetsDeadline, Schedule.meetsDeadline]; rfl

theorem tryVtws_id (h : Handler) (r : Request) : ∀ (vs : List VTW) (i : ℕ),
    tryVtws (fun x => x) h r vs i = Schedule.tryVtws h r vs i := by
  intro vs
  induction vs with
  | nil => intro i; rfl
  | cons v vs ih => intro i; simp only [tryVtws, Schedule.tryVtws, tryVtw_id, ih]; rfl

theorem insertLoop_id : ∀ (is : List ℕ) (h : Handler) (n : ℤ),
    insertLoop (fun x => x) is h n = Schedule.insertLoop is h n := by
  intro is
  induction is with
  | nil => intro h n; rfl
  | cons i is ih =>
    intro h n
    simp only [insertLoop, Schedule.insertLoop, tryVtws_id, ih]; rfl

theorem insertFirstN_id : insertFirstN (fun x => x) = Schedule.insertFirstN := by
  funext h n; exact insertLoop_id _ _ _

theorem sumOverlap_id (v : VTW) : ∀ (ws : List VTW) (a : ℚ),
    sumOverlap (fun x => x) v ws a = Handler.sumOverlap v ws a := by
  intro ws
  induction ws with
  | nil => intro a; rfl
  | cons w ws ih =>
    intro a
    unfold sumOverlap Handler.sumOverlap
    have : julianDayOverlap (fun x => x) v w = Handler.julianDayOverlap v w := rfl
    rw [this]
    cases Handler.julianDayOverlap v w with
    | none => rfl
    | some x => exact ih _

theorem conflictDegree_id : conflictDegree (fun x => x) = Handler.conflictDegree := by
  funext h v; simp only [conflictDegree, Handler.conflictDegree, sumOverlap_id]; rfl

theorem conflictKey_id : conflictKey (fun x => x) = Handler.conflictKey := by
  funext h v; simp only [conflictKey, Handler.conflictKey, conflictDegree_id]; rfl

theorem sortByDecreasingConflictDegree_id :
    sortByDecreasingConflictDegree (fun x => x) = Handler.sortByDecreasingConflictDegree := by
  funext h
  simp only [sortByDecreasingConflictDegree, Handler.sortByDecreasingConflictDegree, conflictKey_id]; rfl

theorem sortVtwsLoop_id : ∀ (is : List ℕ) (h : Handler),
    sortVtwsLoop (fun x => x) is h = Handler.sortVtwsLoop is h := by
  intro is
  induction is with
  | nil => intro h; rfl
  | cons i is ih =>
    intro h
    have : sortVtwsOf (fun x => x) h i = h.sortVtwsOf i := by
      simp only [sortVtwsOf, Handler.sortVtwsOf, conflictDegree_id]; rfl
    simp only [sortVtwsLoop, Handler.sortVtwsLoop, this, ih]; rfl

theorem problem_id : problem (fun x => x) = Schedule.problem := by
  have h1 : greedyInsertion (fun x => x) = Schedule.greedyInsertion := by
    funext h n; simp only [greedyInsertion, Schedule.greedyInsertion, insertFirstN_id]
  have h2 : minimumOpportunityInsertion (fun x => x) = Schedule.minimumOpportunityInsertion := by
    funext h n
    simp only [minimumOpportunityInsertion, Schedule.minimumOpportunityInsertion, insertFirstN_id]
  have h3 : minimumConflictInsertion (fun x => x) = Schedule.minimumConflictInsertion := by
    funext h n
    simp only [minimumConflictInsertion, Schedule.minimumConflictInsertion, insertFirstN_id,
      sortVtwsByIncreasingConflictDegree, Handler.sortVtwsByIncreasingConflictDegree,
      sortVtwsLoop_id]; rfl
  have h4 : conflictRemoval (fun x => x) = Schedule.conflictRemoval := by
    funext h n p
    simp only [conflictRemoval, Schedule.conflictRemoval, sortByDecreasingConflictDegree_id]; rfl
  have h5 : cost (fun x => x) = Schedule.cost := rfl
  simp only [problem, Schedule.problem, insertionFunctions, Schedule.insertionFunctions,
    removalFunctions, Schedule.removalFunctions, h1, h2, h3, h4, h5]

theorem generate_id : generate (fun x => x) = Schedule.generate := by
  funext h a
  have : initializeSolution (fun x => x) = Schedule.initializeSolution := by
    funext h; simp only [initializeSolution, Schedule.initializeSolution, insertFirstN_id]
  have hs : ∀ n h', Alns.Rounded.solve (fun x => x) Schedule.problem (solveParams (fun x => x) a n)
      h' a.draws = Alns.solve Schedule.problem (Schedule.solveParams a n) h' a.draws :=
    fun n h' => Alns.Rounded.solve_id _ (Schedule.solveParams a n) _ _
  simp only [generate, Schedule.generate, this, problem_id, hs]; rfl

theorem run_id : run (fun x => x) = Schedule.run := by
  have : step (fun x => x) = Schedule.step := by
    funext h o
    cases o with
    | add s => rfl
    | generate a => simp only [step, Schedule.step, generate_id]
  funext ops
  simp only [run, Schedule.run, this]

end Exact

/-! ### the look angle -/

/-- Rounding keeps signs. -/
theorem fl_pos_iff (hfl : Rounding fl ε) (x : ℚ) : 0 < fl x ↔ 0 < x := by
  have h1 := abs_le.1 (hfl.error x)
  have h2 := hfl.small
  have h3 := hfl.nonneg
  constructor
  · intro h
    by_contra hc
    have := hfl.mono (not_lt.1 hc)
    rw [hfl.zero] at this
    linarith
  · intro h
    rw [abs_of_pos h] at h1
    have := mul_le_mul_of_nonneg_right h2 h.le
    linarith [h1.1]

theorem fl_neg_iff (hfl : Rounding fl ε) (x : ℚ) : fl x < 0 ↔ x < 0 := by
  have h1 := abs_le.1 (hfl.error x)
  have h2 := hfl.small
  constructor
  · intro h
    by_contra hc
    have := hfl.mono (not_lt.1 hc)
    rw [hfl.zero] at this
    linarith
  · intro h
    rw [abs_of_neg h] at h1
    have := mul_le_mul_of_nonneg_right h2 (neg_nonneg.2 h.le)
    linarith [h1.2]

theorem sign_product (hfl : Rounding fl ε) (x y : ℚ) : 0 < fl (fl x * fl y) ↔ 0 < x * y := by
  rw [fl_pos_iff hfl, mul_pos_iff, mul_pos_iff, fl_pos_iff hfl, fl_pos_iff hfl, fl_neg_iff hfl,
    fl_neg_iff hfl]

theorem bisect_eq (hfl : Rounding fl ε) (f : ℕ → ℚ) : ∀ (fuel l r : ℕ) (x : ℚ),
    bisect fl (fun k => fl (f k)) fuel l r (fl x) = Schedule.bisect f fuel l r x := by
  intro fuel
  induction fuel with
  | zero => intro l r x; rfl
  | succ fuel ih =>
    intro l r x
    unfold bisect Schedule.bisect
    simp only [ih, sign_product hfl]

/-- The search for the look angle only looks at signs, which rounding keeps. -/
theorem lookAngleTime_eq (hfl : Rounding fl ε) : lookAngleTime fl = Schedule.lookAngleTime := by
  funext la d j s t
  simp only [lookAngleTime, Schedule.lookAngleTime, sign_product hfl,
    bisect_eq hfl fun k => la.getD k 0 - d]
  rfl

/-! ### rows -/

/-- The row's stored numbers are floats and its windows lie in `[0, T]`. -/
structure RowOk (fl : ℚ → ℚ) (T : ℚ) (r : Request) : Prop where
  duration : 0 ≤ r.duration
  deadline : IsFloat fl r.deadline
  windows : ∀ v ∈ r.vtws, 0 ≤ v.rise ∧ v.set ≤ T ∧ IsFloat fl v.set

/-- What the program's tests establish about a start time. -/
def Fits (fl : ℚ → ℚ) (r : Request) (s : ℚ) : Prop :=
  ∃ v ∈ r.vtws, v.rise < s ∧ s + durationInDays fl r.duration < v.set ∧
    s + durationInDays fl r.duration < r.deadline ∧
    (∃ q, imageQuality fl v s = .ok q ∧ r.quality ≤ (q : ℚ)) ∧ proposedStart fl r v = .ok (some s)

/-- A row carries a complete assignment that passed the tests. -/
def AssignedR (fl : ℚ → ℚ) (r : Request) : Prop :=
  r.isScheduled = true ∧ r.schedDuration = some r.duration ∧ ∃ s, r.start = some s ∧ Fits fl r s

/-- The invariant. -/
structure Good (fl : ℚ → ℚ) (T : ℚ) (subs : List Submission) (h : Handler) : Prop where
  rows : ∀ r ∈ h.requests, r.Clear ∨ AssignedR fl r
  ok : ∀ r ∈ h.requests, RowOk fl T r
  holds : h.Holds subs

theorem tryVtw_some (hfl : Rounding fl ε) {h : Handler} {r : Request} {v : VTW} {s : ℚ}
    (hv : IsFloat fl v.set) (hd : IsFloat fl r.deadline) (ht : tryVtw fl h r v = .ok (some s)) :
    v.rise < s ∧ s + durationInDays fl r.duration < v.set ∧
      s + durationInDays fl r.duration < r.deadline ∧
      (∃ q, imageQuality fl v s = .ok q ∧ r.quality ≤ (q : ℚ)) ∧
      proposedStart fl r v = .ok (some s) ∧
      doesConflictExist fl h s (durationInDays fl r.duration) = .ok false := by
  unfold tryVtw at ht
  split at ht
  · cases ht
  · cases ht
  · rename_i s' hs
    simp only at ht
    split at ht
    · cases ht
    · rename_i hb
      split at ht
      · cases ht
      · rename_i hdd
        split at ht
        · cases ht
        · rename_i q hq
          split at ht
          · cases ht
          · rename_i hqq
            split at ht
            · cases ht
            · cases ht
            · rename_i hconf
              simp only [Except.ok.injEq, Option.some.injEq] at ht
              subst ht
              simp only [isWithinBounds, Bool.not_eq_true, Bool.not_eq_false', Bool.and_eq_true,
                decide_eq_true_eq] at hb
              simp only [meetsDeadline, Bool.not_eq_true, Bool.not_eq_false',
                decide_eq_true_eq] at hdd
              simp only [Bool.not_eq_true, Bool.not_eq_false', decide_eq_true_eq] at hqq
              exact ⟨hb.1, hfl.lt_of_fl_lt hv hb.2, hfl.lt_of_fl_lt hd hdd, ⟨q, hq, hqq⟩, hs,
                hconf⟩

theorem tryVtws_some {h : Handler} {r : Request} : ∀ {vs : List VTW} {base idx : ℕ} {s : ℚ},
    tryVtws fl h r vs base = .ok (some (idx, s)) →
    ∃ v ∈ vs, tryVtw fl h r v = .ok (some s) := by
  intro vs
  induction vs with
  | nil => intro base idx s ht; simp [tryVtws] at ht
  | cons v vs ih =>
    intro base idx s ht
    unfold tryVtws at ht
    split at ht
    · cases ht
    · rename_i s' hs'
      simp only [Except.ok.injEq, Option.some.injEq, Prod.mk.injEq] at ht
      obtain ⟨rfl, rfl⟩ := ht
      exact ⟨v, List.mem_cons_self, hs'⟩
    · obtain ⟨w, hw, hh⟩ := ih ht
      exact ⟨w, List.mem_cons_of_mem _ hw, hh⟩

theorem tryVtws_fits (hfl : Rounding fl ε) {h : Handler} {r : Request} {idx : ℕ} {s : ℚ}
    (hr : RowOk fl T r) (ht : tryVtws fl h r r.vtws 0 = .ok (some (idx, s))) :
    Fits fl r s ∧ doesConflictExist fl h s (durationInDays fl r.duration) = .ok false := by
  obtain ⟨v, hv, hh⟩ := tryVtws_some ht
  obtain ⟨h1, h2, h3, h4, h0, h5⟩ := tryVtw_some hfl (hr.windows v hv).2.2 hr.deadline hh
  exact ⟨⟨v, hv, h1, h2, h3, h4, h0⟩, h5⟩

theorem RowOk.of_fixed {a b : Request} (h : RowOk fl T a) (hab : b.fixed = a.fixed) :
    RowOk fl T b := by
  simp only [Request.fixed, Fixed.mk.injEq] at hab
  obtain ⟨f1, f2, f3, f4, f5, f6, f7⟩ := hab
  refine ⟨f3 ▸ h.duration, f2 ▸ h.deadline, fun v hv => h.windows v ?_⟩
  exact (Multiset.coe_eq_coe.1 f7).subset hv

theorem Fits.of_fixed {a b : Request} {s : ℚ} (h : Fits fl a s) (hab : b.fixed = a.fixed) :
    Fits fl b s := by
  simp only [Request.fixed, Fixed.mk.injEq] at hab
  obtain ⟨f1, f2, f3, f4, f5, f6, f7⟩ := hab
  obtain ⟨v, hv, h⟩ := h
  refine ⟨v, (Multiset.coe_eq_coe.1 f7).symm.subset hv, ?_⟩
  have e : proposedStart fl b v = proposedStart fl a v := by simp only [proposedStart, f3, f6]
  rw [f2, f3, f5, e]; exact h

theorem AssignedR.sameRow {a b : Request} (h : AssignedR fl a) (hab : SameRow a b) :
    AssignedR fl b := by
  have hf := hab.fixed
  obtain ⟨h1, h2, s, h3, h4⟩ := h
  refine ⟨by rw [hab.2]; exact h1, ?_, s, by rw [hab.2]; exact h3, h4.of_fixed hf⟩
  rw [hab.2]; exact h2

/-! ### moves -/

/-- `b` is `a`, or `a` without its assignment. -/
def Loose (a b : Request) : Prop := b = a ∨ b = a.cleared

theorem Good.of_perm {subs : List Submission} {h h' : Handler} (hg : Good fl T subs h)
    (hp : h'.requests.Perm h.requests) : Good fl T subs h' :=
  ⟨fun r hr => hg.rows r (hp.subset hr), fun r hr => hg.ok r (hp.subset hr), hg.holds.of_perm hp⟩

theorem Good.of_sameRow {subs : List Submission} {h h' : Handler} (hg : Good fl T subs h)
    (hf : List.Forall₂ SameRow h.requests h'.requests) : Good fl T subs h' := by
  refine ⟨fun b hb => ?_, fun b hb => ?_,
    hg.holds.of_map (Forall₂.map_eq (fun h => SameRow.fixed h) hf)⟩
  · obtain ⟨a, ha, hab⟩ := Forall₂.mem_right hf hb
    rcases hg.rows a ha with h | h
    · refine Or.inl ?_
      obtain ⟨h1, h2, h3, h4⟩ := h
      rw [hab.2]
      exact ⟨h1, h2, h3, h4⟩
    · exact Or.inr (h.sameRow hab)
  · obtain ⟨a, ha, hab⟩ := Forall₂.mem_right hf hb
    exact (hg.ok a ha).of_fixed hab.fixed

theorem Good.of_loose {subs : List Submission} {h h' : Handler} (hg : Good fl T subs h)
    (hf : List.Forall₂ Loose h.requests h'.requests) : Good fl T subs h' := by
  refine ⟨fun b hb => ?_, fun b hb => ?_, hg.holds.of_map (Forall₂.map_eq (fun h => ?_) hf)⟩
  · obtain ⟨a, ha, hab⟩ := Forall₂.mem_right hf hb
    rcases hab with rfl | rfl
    · exact hg.rows _ ha
    · exact Or.inl (clear_cleared a)
  · obtain ⟨a, ha, hab⟩ := Forall₂.mem_right hf hb
    rcases hab with rfl | rfl
    · exact hg.ok _ ha
    · exact (hg.ok a ha).of_fixed rfl
  · rcases h with rfl | rfl <;> rfl

theorem Good.schedule {subs : List Submission} {h : Handler} (hg : Good fl T subs h) {i idx : ℕ}
    {r : Request} {s : ℚ} (hr : h.requests[i]? = some r) (hf : Fits fl r s) :
    Good fl T subs (h.schedule i idx s r.duration) := by
  obtain ⟨l₁, l₂, hl, -, hm⟩ := modify_split hr
  have hreq : (h.schedule i idx s r.duration).requests =
      l₁ ++ r.assignWith idx s r :: l₂ := hm (r.assignWith idx s)
  have hmem : ∀ b ∈ (h.schedule i idx s r.duration).requests,
      b ∈ h.requests ∨ b = r.assignWith idx s r := by
    intro b hb
    rw [hreq] at hb
    rw [hl]
    simp only [List.mem_append, List.mem_cons] at hb ⊢
    tauto
  have hrow : RowOk fl T r := hg.ok r (List.mem_of_getElem? hr)
  refine ⟨fun b hb => ?_, fun b hb => ?_, hg.holds.of_map ?_⟩
  · rcases hmem b hb with h | rfl
    · exact hg.rows b h
    · exact Or.inr ⟨rfl, rfl, s, rfl, hf.of_fixed rfl⟩
  · rcases hmem b hb with h | rfl
    · exact hg.ok b h
    · exact hrow.of_fixed rfl
  · rw [hreq, hl]; simp [Request.assignWith, Request.fixed]

theorem insertLoop_good (hfl : Rounding fl ε) {subs : List Submission} :
    ∀ (is : List ℕ) (h : Handler) (n : ℤ), Good fl T subs h →
      Good fl T subs (insertLoop fl is h n).1 := by
  intro is
  induction is with
  | nil => intro h n hg; exact hg
  | cons i is ih =>
    intro h n hg
    unfold insertLoop
    split
    · exact hg
    · split
      · exact hg
      · rename_i r hr
        split
        · exact ih h n hg
        · split
          · exact hg
          · exact ih h n hg
          · rename_i idx s ht
            exact ih _ _ (hg.schedule hr
              (tryVtws_fits hfl (hg.ok r (List.mem_of_getElem? hr)) ht).1)

theorem perm_sortConflict {h h' : Handler} (hs : sortByDecreasingConflictDegree fl h = .ok h') :
    h'.requests.Perm h.requests := by
  unfold sortByDecreasingConflictDegree at hs
  split at hs
  · cases hs
  · rename_i keys hk
    split at hs
    · cases hs
    · simp only [Except.ok.injEq] at hs
      subst hs
      simp only
      have hlen : keys.length = h.requests.length := mapM_length hk
      have hp : ((((keys.map fun k => k.getD 0).zip (List.range keys.length)).insertionSort
          Handler.keyLe).reverse.map Prod.snd).Perm (List.range keys.length) := by
        refine ((List.reverse_perm _).map _).trans (((List.perm_insertionSort _ _).map _).trans ?_)
        rw [List.map_snd_zip (by simp)]
      refine (hp.filterMap _).trans ?_
      rw [hlen, filterMap_getElem?_range]

theorem sortVtwsOf_sameRow {h h' : Handler} {i : ℕ} (hs : sortVtwsOf fl h i = .ok h') :
    List.Forall₂ SameRow h.requests h'.requests := by
  unfold sortVtwsOf at hs
  split at hs
  · cases hs
  · rename_i r hr
    split at hs
    · cases hs
    · rename_i keys hk
      split at hs
      · simp only [Except.ok.injEq] at hs
        subst hs
        refine Forall₂.modify SameRow.refl hr ⟨?_, rfl⟩
        simp only
        refine ((List.perm_insertionSort _ _).map _).trans ?_
        rw [List.map_snd_zip]
        rw [mapM_length hk]
      · cases hs

theorem sortVtwsLoop_sameRow : ∀ {is : List ℕ} {h h' : Handler},
    sortVtwsLoop fl is h = .ok h' → List.Forall₂ SameRow h.requests h'.requests := by
  intro is
  induction is with
  | nil =>
    intro h h' hs
    simp only [sortVtwsLoop, Except.ok.injEq] at hs
    subst hs
    exact forall₂_refl SameRow.refl _
  | cons i is ih =>
    intro h h' hs
    unfold sortVtwsLoop at hs
    split at hs
    · cases hs
    · rename_i h1 h1e
      exact Forall₂.trans' (R := SameRow) (fun _ _ _ => SameRow.trans) (sortVtwsOf_sameRow h1e)
        (ih hs)

/-! ### removals -/

theorem Loose.refl (a : Request) : Loose a a := Or.inl rfl

theorem Loose.trans {a b c : Request} (h1 : Loose a b) (h2 : Loose b c) : Loose a c := by
  rcases h1 with rfl | rfl
  · exact h2
  · rcases h2 with rfl | rfl <;> exact Or.inr rfl

theorem modify_loose : ∀ (l : List Request) (i : ℕ),
    List.Forall₂ Loose l (l.modify i Request.cleared) := by
  intro l i
  cases h : l[i]? with
  | none =>
    rw [List.modify_eq_self (List.getElem?_eq_none_iff.1 h)]
    exact forall₂_refl Loose.refl l
  | some r => exact Forall₂.modify Loose.refl h (Or.inr rfl)

theorem unschedule_loose (h : Handler) (i : ℕ) :
    List.Forall₂ Loose h.requests (h.unschedule i).requests := modify_loose h.requests i

theorem unscheduleAll_loose (h : Handler) :
    List.Forall₂ Loose h.requests h.unscheduleAll.requests := by
  rw [unscheduleAll_requests, List.forall₂_map_right_iff, List.forall₂_same]
  intro r _; exact Or.inr rfl

theorem removeLoop_loose : ∀ (fuel i : ℕ) (h h' : Handler) (n : ℤ),
    removeLoop fuel i h n = .ok h' → List.Forall₂ Loose h.requests h'.requests := by
  intro fuel
  induction fuel with
  | zero =>
    intro i h h' n e
    unfold removeLoop at e
    split at e
    · cases e
    · cases e; exact forall₂_refl Loose.refl _
  | succ fuel ih =>
    intro i h h' n e
    unfold removeLoop at e
    split at e
    · split at e
      · cases e
      · exact Forall₂.trans' (R := Loose) (fun _ _ _ => Loose.trans) (unschedule_loose h i)
          (ih _ _ _ _ e)
      · exact ih _ _ _ _ e
    · cases e; exact forall₂_refl Loose.refl _

theorem removeFirstN_loose {h h' : Handler} {n : ℤ} (e : removeFirstN h n = .ok h') :
    List.Forall₂ Loose h.requests h'.requests := by
  unfold removeFirstN at e
  split at e
  · cases e; exact unscheduleAll_loose h
  · exact removeLoop_loose _ _ _ _ _ e

theorem randomRemovalLoop_loose (picks : ℕ → ℕ) : ∀ (fuel : ℕ) (unchecked : List ℕ) (h h' : Handler)
    (n : ℤ), randomRemovalLoop picks fuel unchecked h n = .ok h' →
      List.Forall₂ Loose h.requests h'.requests := by
  intro fuel
  induction fuel with
  | zero =>
    intro u h h' n e
    unfold randomRemovalLoop at e
    split at e
    · cases e
    · cases e; exact forall₂_refl Loose.refl _
  | succ fuel ih =>
    intro u h h' n e
    unfold randomRemovalLoop at e
    split at e
    · split at e
      · cases e
      · split at e
        · cases e
        · exact Forall₂.trans' (R := Loose) (fun _ _ _ => Loose.trans) (unschedule_loose h _)
            (ih _ _ _ _ e)
        · exact ih _ _ _ _ e
    · cases e; exact forall₂_refl Loose.refl _

theorem randomRemoval_loose {h h' : Handler} {n : ℤ} {picks : ℕ → ℕ}
    (e : randomRemoval h n picks = .ok h') : List.Forall₂ Loose h.requests h'.requests := by
  unfold randomRemoval at e
  split at e
  · cases e; exact unscheduleAll_loose h
  · exact randomRemovalLoop_loose _ _ _ _ _ _ e

theorem removal_good {f : Handler → ℤ → (ℕ → ℕ) → Py Handler} (hf : f ∈ removalFunctions fl)
    {subs : List Submission} {h h' : Handler} (hg : Good fl T subs h) {n : ℤ} {picks : ℕ → ℕ}
    (e : f h n picks = .ok h') : Good fl T subs h' := by
  simp only [removalFunctions, List.mem_cons, List.not_mem_nil, or_false] at hf
  rcases hf with rfl | rfl | rfl | rfl
  · exact hg.of_loose (randomRemoval_loose e)
  · exact (hg.of_perm (perm_sortPriority h)).of_loose (removeFirstN_loose e)
  · exact (hg.of_perm (perm_sortDecOpp h)).of_loose (removeFirstN_loose e)
  · unfold conflictRemoval at e
    split at e
    · cases e
    · rename_i h₁ hs
      exact (hg.of_perm (perm_sortConflict hs)).of_loose (removeFirstN_loose e)

theorem insertion_good (hfl : Rounding fl ε) {g : Handler → ℤ → Py Handler}
    (hgm : g ∈ insertionFunctions fl) {subs : List Submission} {h h' : Handler}
    (hg : Good fl T subs h) {n : ℤ} (e : g h n = .ok h') : Good fl T subs h' := by
  simp only [insertionFunctions, List.mem_cons, List.not_mem_nil, or_false] at hgm
  rcases hgm with rfl | rfl | rfl
  · rw [← (settle_ok e).1]
    exact insertLoop_good hfl _ _ _ (hg.of_perm (perm_sortPriority h))
  · rw [← (settle_ok e).1]
    exact insertLoop_good hfl _ _ _ (hg.of_perm (perm_sortIncOpp h))
  · unfold minimumConflictInsertion at e
    split at e
    · cases e
    · rename_i h₁ hs
      rw [← (settle_ok e).1]
      exact insertLoop_good hfl _ _ _ (hg.of_sameRow (sortVtwsLoop_sameRow hs))

theorem initializeSolution_good (hfl : Rounding fl ε) {subs : List Submission} {h : Handler}
    (hg : Good fl T subs h) : Good fl T subs (initializeSolution fl h).1 :=
  insertLoop_good hfl _ _ _ ((hg.of_perm (perm_sortPriority h)).of_sameRow (riseSort_facts _))

theorem solve_good (hfl : Rounding fl ε) {subs : List Submission} {h best : Handler}
    (hg : Good fl T subs h) {a : GenerateArgs} {n : ℕ}
    (e : Alns.Rounded.solve fl (problem fl) (solveParams fl a n) h a.draws = .ok best) :
    Good fl T subs best := by
  refine Alns.Rounded.solve_kept (I := Good fl T subs) (Alns.Rounded.kept_of ?_ ?_) hg e
  · intro f hf s s' picks hs he
    exact removal_good hf hs he
  · intro g hgm s s' hs he
    exact insertion_good hfl hgm hs he

/-! ### histories -/

theorem good_empty : Good fl T [] Handler.empty :=
  ⟨by simp [Handler.empty], by simp [Handler.empty], by simp [Handler.Holds, Handler.empty]⟩

theorem good_add {subs : List Submission} {h : Handler} (hg : Good fl T subs h) (s : Submission)
    (hs : RowOk fl T s.row) : Good fl T (subs ++ [s]) (addSubmission h s) := by
  have hreq : (addSubmission h s).requests = h.requests ++ [s.row] := rfl
  refine ⟨fun r hr => ?_, fun r hr => ?_, ?_⟩
  · rw [hreq, List.mem_append, List.mem_singleton] at hr
    rcases hr with hr | rfl
    · exact hg.rows r hr
    · exact Or.inl ⟨rfl, rfl, rfl, rfl⟩
  · rw [hreq, List.mem_append, List.mem_singleton] at hr
    rcases hr with hr | rfl
    · exact hg.ok r hr
    · exact hs
  · unfold Handler.Holds
    rw [hreq, List.map_append, List.map_append]
    exact hg.holds.append (List.Perm.refl _)

theorem generate_snd_good (hfl : Rounding fl ε) {subs : List Submission} {h : Handler}
    (hg : Good fl T subs h) (a : GenerateArgs) : Good fl T subs (generate fl h a).2 := by
  unfold generate
  split
  · exact hg
  · have := initializeSolution_good hfl hg
    split
    · rename_i h' e heq; rw [heq] at this; exact this
    · rename_i h' heq; rw [heq] at this; exact this

theorem good_run_aux (hfl : Rounding fl ε) : ∀ (ops : List Op) (subs : List Submission)
    (h : Handler), (∀ s ∈ submissions ops, RowOk fl T s.row) → Good fl T subs h →
    Good fl T (subs ++ submissions ops) (ops.foldl (step fl) h) := by
  intro ops
  induction ops with
  | nil => intro subs h _ hg; simpa [submissions] using hg
  | cons op ops ih =>
    intro subs h hs hg
    cases op with
    | add s =>
      have := ih (subs ++ [s]) (addSubmission h s)
        (fun t ht => hs t (List.mem_cons_of_mem _ ht)) (good_add hg s (hs s List.mem_cons_self))
      simpa [submissions, step] using this
    | generate a => exact ih subs _ hs (generate_snd_good hfl hg a)

theorem good_run (hfl : Rounding fl ε) (ops : List Op)
    (hs : ∀ s ∈ submissions ops, RowOk fl T s.row) :
    Good fl T (submissions ops) (run fl ops) := by
  simpa [run] using good_run_aux hfl ops [] Handler.empty hs good_empty

theorem generate_ok {h : Handler} {a : GenerateArgs} {ws : List Observation}
    (hg : (generate fl h a).1 = .ok ws) :
    ∃ h' best, initializeSolution fl h = (h', none) ∧
      Alns.Rounded.solve fl (problem fl) (solveParams fl a h'.requests.length) h' a.draws =
        .ok best ∧
      outputWindows best = .ok ws := by
  unfold generate at hg
  split at hg
  · cases hg
  · split at hg
    · cases hg
    · rename_i h' heq
      simp only at hg
      split at hg
      · cases hg
      · rename_i best hb
        exact ⟨h', best, heq, hb, hg⟩

/-! ### arithmetic -/

theorem durationInDays_error (hfl : Rounding fl ε) (x : ℚ) :
    |durationInDays fl x - days x| ≤ 3 * ε * |days x| := by
  have hε := hfl.nonneg
  have hs := hfl.small
  unfold durationInDays days
  have h1 : |fl (1 / 86400) - 1 / 86400| ≤ ε * (1 / 86400) := by
    have := hfl.error (1 / 86400)
    rwa [abs_of_pos (by norm_num : (0 : ℚ) < 1 / 86400)] at this
  have h2 := hfl.error (x * fl (1 / 86400))
  have h3 : |fl (1 / 86400)| ≤ (1 + ε) * (1 / 86400) := by
    rw [abs_le] at h1 ⊢
    constructor <;> nlinarith [h1.1, h1.2]
  rw [abs_mul] at h2
  have h4 : |x / 86400| = |x| * (1 / 86400) := by rw [abs_div]; norm_num [div_eq_mul_inv]
  rw [h4]
  have hx := abs_nonneg x
  have h5 : |x * fl (1 / 86400) - x / 86400| ≤ |x| * (ε * (1 / 86400)) := by
    have : x * fl (1 / 86400) - x / 86400 = x * (fl (1 / 86400) - 1 / 86400) := by ring
    rw [this, abs_mul]
    exact mul_le_mul_of_nonneg_left h1 hx
  have h6 : ε * (|x| * |fl (1 / 86400)|) ≤ ε * (|x| * ((1 + ε) * (1 / 86400))) :=
    mul_le_mul_of_nonneg_left (mul_le_mul_of_nonneg_left h3 hx) hε
  have h7 := abs_sub_le (fl (x * fl (1 / 86400))) (x * fl (1 / 86400)) (x / 86400)
  have h8 : ε * (|x| * (ε * (1 / 86400))) ≤ 1 * (|x| * (ε * (1 / 86400))) :=
    mul_le_mul_of_nonneg_right (by linarith) (by positivity)
  nlinarith

theorem durationInDays_nonneg (hfl : Rounding fl ε) {x : ℚ} (hx : 0 ≤ x) :
    0 ≤ durationInDays fl x :=
  hfl.fl_nonneg (mul_nonneg hx (hfl.fl_nonneg (by norm_num)))

theorem good_submit {subs : List Submission} (hs : ∀ s ∈ subs, RowOk fl T s.row) :
    Good fl T subs (submit subs) := by
  have hreq := submit_requests subs
  refine ⟨fun r hr => ?_, fun r hr => ?_, (inv_submit subs).2⟩
  · rw [hreq] at hr
    obtain ⟨s, -, rfl⟩ := List.mem_map.1 hr
    exact Or.inl ⟨rfl, rfl, rfl, rfl⟩
  · rw [hreq] at hr
    obtain ⟨s, hm, rfl⟩ := List.mem_map.1 hr
    exact hs s hm

/-! ### the conflict test -/

theorem anyConflict_false {l : List Request} {s d : ℚ} (h : anyConflict fl l s d = .ok false) :
    ∀ r ∈ l, conflictsWith fl r s d = .ok false := by
  induction l with
  | nil => simp
  | cons r l ih =>
    unfold anyConflict at h
    split at h
    · cases h
    · cases h
    · rename_i hr
      intro r' hr'
      rcases List.mem_cons.1 hr' with rfl | hr'
      · exact hr
      · exact ih h r' hr'

theorem anyConflict_true {l : List Request} {s d : ℚ} (h : anyConflict fl l s d = .ok true) :
    ∃ r ∈ l, conflictsWith fl r s d = .ok true := by
  induction l with
  | nil => simp [anyConflict] at h
  | cons r l ih =>
    unfold anyConflict at h
    split at h
    · cases h
    · rename_i hr
      exact ⟨r, List.mem_cons_self, hr⟩
    · obtain ⟨r', hr', h'⟩ := ih h
      exact ⟨r', List.mem_cons_of_mem _ hr', h'⟩

end Celest.Schedule.Rounded
