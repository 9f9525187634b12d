/-
Properties of the sorting operations and of the overlap time: C10, C11.
-/
import Verif.Schedule.PropsOperators

namespace Celest.Schedule

/-! ### C10: sorts that cannot fail -/

/-- A list `l'` is `l` sorted stably so that `le` holds from left to right: it is sorted, a
permutation, and elements with equal key keep their relative order. -/
def StablySorted {α κ : Type} [DecidableEq κ] (key : α → κ) (le : κ → κ → Prop) (l l' : List α) :
    Prop :=
  l'.Pairwise (fun a b => le (key a) (key b)) ∧ l'.Perm l ∧
    ∀ k, l'.filter (fun a => key a = k) = l.filter fun a => key a = k

theorem stablySorted_insertionSort {α κ : Type} [DecidableEq κ] (key : α → κ)
    (le : κ → κ → Prop) [DecidableRel le] (htrans : ∀ a b c, le a b → le b c → le a c)
    (htotal : ∀ a b, le a b ∨ le b a) (l : List α) :
    StablySorted key le l (l.insertionSort fun a b => le (key a) (key b)) := by
  have : IsTrans α fun a b => le (key a) (key b) := ⟨fun a b c => htrans _ _ _⟩
  have : Std.Total fun a b : α => le (key a) (key b) := ⟨fun a b => htotal _ _⟩
  have hperm := List.perm_insertionSort (fun a b => le (key a) (key b)) l
  refine ⟨List.pairwise_insertionSort _ _, hperm, fun k => ?_⟩
  have hsub : (l.filter fun a => key a = k).Sublist
      (l.insertionSort fun a b => le (key a) (key b)) := by
    refine List.sublist_insertionSort ?_ List.filter_sublist
    refine List.pairwise_of_forall_mem_list fun a ha b hb => ?_
    have ha' : key a = k := by simpa using (List.mem_filter.1 ha).2
    have hb' : key b = k := by simpa using (List.mem_filter.1 hb).2
    rw [ha', hb']
    rcases htotal k k with h | h <;> exact h
  have hsub' := hsub.filter (fun a => decide (key a = k))
  rw [List.filter_filter] at hsub'
  simp only [Bool.and_self] at hsub'
  exact (hsub'.eq_of_length ((hperm.filter _).length_eq.symm)).symm

/-- **C10.** The three request sorts that cannot fail are stable sorts by their documented
keys, and do not touch the counter. -/
theorem C10_request_sorts_partial (h : Handler) :
    StablySorted Request.priority (fun a b => b ≤ a) h.requests
        h.sortByDecreasingPriority.requests ∧
      StablySorted (fun r : Request => r.vtws.length) (fun a b => b ≤ a) h.requests
        h.sortByDecreasingOpportunity.requests ∧
      StablySorted (fun r : Request => r.vtws.length) (fun a b => a ≤ b) h.requests
        h.sortByIncreasingOpportunity.requests ∧
      h.sortByDecreasingPriority.numScheduled = h.numScheduled ∧
      h.sortByDecreasingOpportunity.numScheduled = h.numScheduled ∧
      h.sortByIncreasingOpportunity.numScheduled = h.numScheduled :=
  ⟨stablySorted_insertionSort Request.priority (fun a b => b ≤ a) (fun _ _ _ h1 h2 => h2.trans h1)
      (fun a b => le_total b a) _,
    stablySorted_insertionSort (fun r : Request => r.vtws.length) (fun a b => b ≤ a)
      (fun _ _ _ h1 h2 => h2.trans h1) (fun a b => le_total b a) _,
    stablySorted_insertionSort (fun r : Request => r.vtws.length) (fun a b => a ≤ b)
      (fun _ _ _ h1 h2 => h1.trans h2) (fun a b => le_total a b) _, rfl, rfl, rfl⟩

/-- **C10.** Sorting windows by rise time sorts the windows of every request stably and
changes nothing else. -/
theorem C10_rise_sort_partial (h : Handler) :
    List.Forall₂ (fun r r' => SameRow r r' ∧ StablySorted VTW.rise (· ≤ ·) r.vtws r'.vtws)
      h.requests h.sortVtwsByIncreasingRiseTime.requests := by
  unfold Handler.sortVtwsByIncreasingRiseTime
  simp only
  rw [List.forall₂_map_right_iff]
  refine List.forall₂_same.2 fun r _ => ?_
  have := stablySorted_insertionSort VTW.rise (· ≤ ·) (fun _ _ _ h1 h2 => h1.trans h2)
    (fun a b => le_total a b) r.vtws
  exact ⟨⟨this.2.1, rfl⟩, this⟩

/-- Non-vacuity for C10. -/
example : (submit fourRequests).sortByDecreasingPriority.requests.map (·.priority) = [8, 7, 4, 3] ∧
    (submit fourRequests).sortByIncreasingOpportunity.requests.map (·.location) = [2, 3, 0, 1] := by
  decide +kernel

/-! ### C11: overlap time -/

/-- The length of the intersection of two windows. -/
def intersectionLength (v w : VTW) : ℚ := max 0 (min v.set w.set - max v.rise w.rise)

/-- **C11 (partial).** For proper windows the computed overlap equals the length of the
intersection exactly when the windows are disjoint, one lies strictly inside the other, or
the *first* argument starts and ends no later than the second (and they properly overlap).
Missing: all other pairs, for which the value is wrong. -/
theorem C11_overlap_exact_iff_partial (v w : VTW) (hv : v.rise < v.set) (hw : w.rise < w.set) :
    Handler.julianDayOverlap v w = some (intersectionLength v w) ↔
      v.set < w.rise ∨ w.set < v.rise ∨ (v.rise < w.rise ∧ w.set < v.set) ∨
        (w.rise < v.rise ∧ v.set < w.set) ∨
        (v.rise ≤ w.rise ∧ v.set ≤ w.set ∧ w.rise < v.set) := by
  unfold Handler.julianDayOverlap intersectionLength
  simp only [Bool.or_eq_true, Bool.and_eq_true, decide_eq_true_eq]
  split_ifs with h1 h2 h3 h4 h5
  · constructor
    · intro _; rcases h1 with h1 | h1
      · exact Or.inl h1
      · exact Or.inr (Or.inl h1)
    · intro _
      congr 1
      symm
      rw [max_eq_left]
      rcases h1 with h1 | h1
      · have := min_le_left v.set w.set
        have := le_max_right v.rise w.rise
        linarith
      · have := min_le_right v.set w.set
        have := le_max_left v.rise w.rise
        linarith
  · refine iff_of_true ?_ (Or.inr (Or.inr (Or.inl h2)))
    rw [min_eq_right h2.2.le, max_eq_right h2.1.le, max_eq_right (by linarith)]
  · refine iff_of_true ?_ (Or.inr (Or.inr (Or.inr (Or.inl h3))))
    rw [min_eq_left h3.2.le, max_eq_left h3.1.le, max_eq_right (by linarith)]
  · rw [not_or, not_lt, not_lt] at h1
    constructor
    · intro h
      simp only [Option.some.injEq] at h
      right; right; right; right
      refine ⟨?_, ?_, h4⟩
      · by_contra hlt
        rw [not_le] at hlt
        rw [max_eq_left hlt.le] at h
        rcases le_max_iff.1 h.le with hh | hh
        · linarith
        · have := min_le_left v.set w.set
          linarith
      · by_contra hlt
        rw [not_le] at hlt
        rw [min_eq_right hlt.le] at h
        rcases le_max_iff.1 h.le with hh | hh
        · linarith
        · have := le_max_right v.rise w.rise
          linarith
    · intro h
      have : v.rise ≤ w.rise ∧ v.set ≤ w.set := by
        rcases h with h | h | h | h | h
        · linarith [h1.1]
        · linarith [h1.2]
        · exact absurd h h2
        · exact absurd h h3
        · exact ⟨h.1, h.2.1⟩
      rw [min_eq_left this.2, max_eq_right this.1, max_eq_right (by linarith)]
  · rw [not_or, not_lt, not_lt] at h1
    constructor
    · intro h
      exfalso
      simp only [Option.some.injEq] at h
      rcases le_max_iff.1 h.le with hh | hh
      · linarith
      · have := min_le_left v.set w.set
        have := le_max_right v.rise w.rise
        linarith
    · intro h
      exfalso
      rcases h with h | h | h | h | h
      · linarith [h1.1]
      · linarith [h1.2]
      · exact h2 h
      · exact h3 h
      · exact h4 h.2.2
  · exfalso
    rw [not_or, not_lt, not_lt] at h1
    linarith

/-- **C11 refuted.** For every pair of windows that overlap partially, one of the two
argument orders gives a wrong value; in particular the overlap is not symmetric. -/
theorem C11_not_symmetric (v w : VTW) (h1 : v.rise < w.rise) (h2 : w.rise < v.set)
    (h3 : v.set < w.set) :
    Handler.julianDayOverlap v w = some (v.set - w.rise) ∧
      Handler.julianDayOverlap w v = some (w.set - v.rise) ∧ v.set - w.rise ≠ w.set - v.rise := by
  refine ⟨?_, ?_, by linarith [h1, h3] |> fun (h : v.set - w.rise < w.set - v.rise) => h.ne⟩
  · unfold Handler.julianDayOverlap
    simp only [Bool.or_eq_true, Bool.and_eq_true, decide_eq_true_eq]
    rw [if_neg (by rintro (h | h) <;> linarith), if_neg (by rintro ⟨h, h'⟩; linarith),
      if_neg (by rintro ⟨h, h'⟩; linarith), if_pos h2]
  · unfold Handler.julianDayOverlap
    simp only [Bool.or_eq_true, Bool.and_eq_true, decide_eq_true_eq]
    rw [if_neg (by rintro (h | h) <;> linarith), if_neg (by rintro ⟨h, h'⟩; linarith),
      if_neg (by rintro ⟨h, h'⟩; linarith), if_pos (by linarith)]

/-- **C11 refuted.** Two windows that only touch count as overlapping for their whole span. -/
theorem C11_touching_windows (v w : VTW) (hv : v.rise < v.set) (hw : w.rise < w.set)
    (ht : v.set = w.rise) :
    Handler.julianDayOverlap v w = some (w.set - v.rise) ∧ intersectionLength v w = 0 := by
  constructor
  · unfold Handler.julianDayOverlap
    simp only [Bool.or_eq_true, Bool.and_eq_true, decide_eq_true_eq]
    rw [if_neg (by rintro (h | h) <;> linarith), if_neg (by rintro ⟨h, h'⟩; linarith),
      if_neg (by rintro ⟨h, h'⟩; linarith), if_neg (by linarith), if_pos (by linarith)]
  · unfold intersectionLength
    rw [min_eq_left (by linarith), max_eq_right (a := v.rise) (by linarith), max_eq_left (by linarith)]

/-- Non-vacuity for C11. -/
example : Handler.julianDayOverlap (win 0 4) (win 3 9) = some 1 ∧
    Handler.julianDayOverlap (win 3 9) (win 0 4) = some 9 := by decide +kernel

/-! ### C10: sorts by conflict degree -/

/-- The overlaps of a window with a list of windows, if all are defined. -/
theorem sumOverlap_eq (v : VTW) : ∀ (ws : List VTW) (acc : ℚ),
    Handler.sumOverlap v ws acc =
      if ∀ w ∈ ws, (Handler.julianDayOverlap v w).isSome then
        .ok (acc + (ws.map fun w => (Handler.julianDayOverlap v w).getD 0).sum)
      else .error .typeError
  | [], acc => by simp [Handler.sumOverlap]
  | w :: ws, acc => by
    unfold Handler.sumOverlap
    cases hw : Handler.julianDayOverlap v w with
    | none => simp [hw]
    | some x =>
      simp only
      rw [sumOverlap_eq v ws]
      simp only [List.mem_cons, forall_eq_or_imp, hw, Option.isSome_some, true_and, List.map_cons,
        List.sum_cons, Option.getD_some]
      split_ifs <;> simp [add_assoc]

/-- All visible windows of all requests. -/
def Handler.windows (h : Handler) : List VTW := h.requests.flatMap Request.vtws

/-- The windows of the list that meet `v`, touching included. -/
def meeting (v : VTW) (ws : List VTW) : List VTW :=
  ws.filter fun w => w.rise ≤ v.set ∧ v.rise ≤ w.set

theorem overlappingVtws_eq (h : Handler) (v : VTW) :
    h.overlappingVtws v = meeting v h.windows := by
  unfold Handler.overlappingVtws Handler.windows meeting
  rw [List.filter_flatMap]
  congr 1
  funext r
  congr 1
  funext w
  rw [Bool.eq_iff_iff]
  simp [Handler.areOverlapping]

/-- **C11.** The conflict degree of a window is the mean, over the windows of all requests that
meet it (its own included), of their overlap times with it; it is defined exactly when
there is at least one such window and all those overlap times are. -/
theorem C11_conflict_degree_is_mean_partial (h : Handler) (v : VTW) (x : ℚ) :
    h.conflictDegree v = .ok x ↔
      meeting v h.windows ≠ [] ∧
      ∃ ys : List ℚ, List.Forall₂ (fun w y => Handler.julianDayOverlap v w = some y)
        (meeting v h.windows) ys ∧ x * (meeting v h.windows).length = ys.sum := by
  have hiff : ∀ ws : List VTW, (∀ w ∈ ws, (Handler.julianDayOverlap v w).isSome) ↔
      List.Forall₂ (fun w y => Handler.julianDayOverlap v w = some y) ws
        (ws.map fun w => (Handler.julianDayOverlap v w).getD 0) := by
    intro ws
    rw [List.forall₂_map_right_iff, List.forall₂_same]
    refine forall₂_congr fun w _ => ?_
    cases Handler.julianDayOverlap v w <;> simp
  have huniq : ∀ (ws : List VTW) (ys : List ℚ),
      List.Forall₂ (fun w y => Handler.julianDayOverlap v w = some y) ws ys →
      ys = ws.map fun w => (Handler.julianDayOverlap v w).getD 0 := by
    intro ws ys hf
    induction hf with
    | nil => rfl
    | cons h1 _ ih => rw [List.map_cons, h1, ih]; rfl
  unfold Handler.conflictDegree
  rw [overlappingVtws_eq, sumOverlap_eq]
  generalize meeting v h.windows = ws
  by_cases hs : ∀ w ∈ ws, (Handler.julianDayOverlap v w).isSome
  · rw [if_pos hs]
    simp only [zero_add]
    by_cases h0 : ws = []
    · subst h0; simp
    · have hl : ws.length ≠ 0 := by simpa using h0
      have hl' : (ws.length : ℚ) ≠ 0 := by exact_mod_cast hl
      rw [if_neg hl]
      simp only [Except.ok.injEq]
      constructor
      · rintro rfl
        exact ⟨h0, _, (hiff ws).1 hs, by field_simp⟩
      · rintro ⟨-, ys, hf, he⟩
        rw [← huniq ws ys hf, ← he]; field_simp
  · rw [if_neg hs]
    constructor
    · intro h; cases h
    · rintro ⟨-, ys, hf, -⟩
      exact absurd ((hiff ws).2 (huniq ws ys hf ▸ hf)) hs

theorem conflictDegree_congr {h h' : Handler} {v : VTW}
    (hp : (h'.overlappingVtws v).Perm (h.overlappingVtws v)) :
    h'.conflictDegree v = h.conflictDegree v := by
  unfold Handler.conflictDegree
  have e : Handler.sumOverlap v (h'.overlappingVtws v) 0 =
      Handler.sumOverlap v (h.overlappingVtws v) 0 := by
    rw [sumOverlap_eq, sumOverlap_eq]
    have h1 : (∀ w ∈ h'.overlappingVtws v, (Handler.julianDayOverlap v w).isSome) ↔
        ∀ w ∈ h.overlappingVtws v, (Handler.julianDayOverlap v w).isSome := by
      constructor
      · intro H w hw; exact H w (hp.symm.subset hw)
      · intro H w hw; exact H w (hp.subset hw)
    have h2 := (hp.map fun w => (Handler.julianDayOverlap v w).getD 0).sum_eq
    simp only [h1, h2]
  rw [e, hp.length_eq]

theorem overlapping_sameRow {h h' : Handler} (hf : List.Forall₂ SameRow h.requests h'.requests)
    (v : VTW) : (h'.overlappingVtws v).Perm (h.overlappingVtws v) := by
  unfold Handler.overlappingVtws
  generalize h.requests = l at hf
  generalize h'.requests = l' at hf
  induction hf with
  | nil => exact List.Perm.refl _
  | cons h1 _ ih =>
    rw [List.flatMap_cons, List.flatMap_cons]
    exact (h1.1.filter _).append ih

/-- Windows in strictly increasing order of conflict degree. -/
def IncreasingDegree (h : Handler) (vs : List VTW) : Prop :=
  vs.Pairwise fun v w => ∃ x y, h.conflictDegree v = .ok x ∧ h.conflictDegree w = .ok y ∧ x < y

theorem pairwise_zip_sort {α : Type} {f : α → Py ℚ} {l : List α} {keys : List ℚ}
    (hf : List.Forall₂ (fun a k => f a = .ok k) l keys) (hnd : keys.Nodup) :
    (((keys.zip l).insertionSort fun a b => a.1 ≤ b.1).map Prod.snd).Pairwise
      fun v w => ∃ x y, f v = .ok x ∧ f w = .ok y ∧ x < y := by
  have : IsTrans (ℚ × α) fun a b => a.1 ≤ b.1 := ⟨fun a b c h1 h2 => h1.trans h2⟩
  have : Std.Total fun a b : ℚ × α => a.1 ≤ b.1 := ⟨fun a b => le_total _ _⟩
  have hs := List.pairwise_insertionSort (fun a b : ℚ × α => a.1 ≤ b.1) (keys.zip l)
  have hp := List.perm_insertionSort (fun a b : ℚ × α => a.1 ≤ b.1) (keys.zip l)
  have hmem : ∀ p ∈ (keys.zip l).insertionSort (fun a b => a.1 ≤ b.1), f p.2 = .ok p.1 := by
    intro p hpm
    have hz := hp.subset hpm
    clear hpm hs hp hnd
    induction hf with
    | nil => simp at hz
    | cons h1 _ ih =>
      rw [List.zip_cons_cons, List.mem_cons] at hz
      rcases hz with rfl | hz
      · exact h1
      · exact ih hz
  have hnd' : (((keys.zip l).insertionSort fun a b => a.1 ≤ b.1).map Prod.fst).Nodup := by
    refine ((hp.map Prod.fst).nodup_iff).2 ?_
    rw [List.map_fst_zip (by rw [hf.length_eq])]
    exact hnd
  generalize (keys.zip l).insertionSort (fun a b => a.1 ≤ b.1) = z at hs hmem hnd'
  rw [List.pairwise_map]
  rw [List.Nodup, List.pairwise_map] at hnd'
  refine (hs.and hnd').imp_of_mem ?_
  intro a b ha hb hab
  exact ⟨a.1, b.1, hmem a ha, hmem b hb, lt_of_le_of_ne hab.1 hab.2⟩

theorem sortVtwsOf_sorted {h h' : Handler} {i : ℕ} (hs : h.sortVtwsOf i = .ok h') :
    (∃ r, h'.requests[i]? = some r ∧ IncreasingDegree h r.vtws) ∧
      ∀ j, j ≠ i → h'.requests[j]? = h.requests[j]? := by
  unfold Handler.sortVtwsOf at hs
  split at hs
  · cases hs
  · rename_i r hr
    split at hs
    · cases hs
    · rename_i keys hm
      split at hs
      · rename_i hnd
        simp only [Except.ok.injEq] at hs
        subst hs
        refine ⟨?_, fun j hj => ?_⟩
        · simp only [List.getElem?_modify, if_true, hr]
          exact ⟨_, rfl, pairwise_zip_sort (mapM_forall₂ hm) hnd⟩
        · exact List.getElem?_modify_ne _ _ (Ne.symm hj)
      · cases hs

theorem IncreasingDegree.congr {h h' : Handler} (hf : List.Forall₂ SameRow h.requests h'.requests)
    {vs : List VTW} (hv : IncreasingDegree h' vs) : IncreasingDegree h vs := by
  refine hv.imp ?_
  rintro v w ⟨x, y, h1, h2, h3⟩
  rw [conflictDegree_congr (overlapping_sameRow hf v)] at h1
  rw [conflictDegree_congr (overlapping_sameRow hf w)] at h2
  exact ⟨x, y, h1, h2, h3⟩

theorem sortVtwsLoop_sorted : ∀ (is : List ℕ) (h h' : Handler), is.Nodup →
    Handler.sortVtwsLoop is h = .ok h' →
    (∀ i ∈ is, ∀ r, h'.requests[i]? = some r → IncreasingDegree h r.vtws) ∧
      ∀ j, j ∉ is → h'.requests[j]? = h.requests[j]? := by
  intro is
  induction is with
  | nil =>
    intro h h' _ e
    simp only [Handler.sortVtwsLoop, Except.ok.injEq] at e
    subst e
    exact ⟨by simp, fun _ _ => rfl⟩
  | cons i is ih =>
    intro h h' hnd e
    rw [List.nodup_cons] at hnd
    unfold Handler.sortVtwsLoop at e
    split at e
    · cases e
    · rename_i h₁ hs
      obtain ⟨⟨r, hr, hinc⟩, hother⟩ := sortVtwsOf_sorted hs
      obtain ⟨hsorted, hsame⟩ := ih h₁ h' hnd.2 e
      have hf := (sortVtwsOf_facts hs).1
      refine ⟨fun k hk r' hr' => ?_, fun j hj => ?_⟩
      · rcases List.mem_cons.1 hk with rfl | hk
        · rw [hsame k hnd.1, hr] at hr'
          cases hr'
          exact hinc
        · exact (hsorted k hk r' hr').congr hf
      · rw [List.mem_cons, not_or] at hj
        rw [hsame j hj.2, hother j hj.1]

/-- **C10 (partial).** When sorting windows by conflict degree returns, every request's
windows are a permutation of the old ones in strictly increasing order of conflict degree and
nothing else has changed.  Missing: it raises whenever two windows of one request have the
same degree (`C10_window_tie_raises`). -/
theorem C10_window_conflict_sort_partial (h h' : Handler)
    (e : h.sortVtwsByIncreasingConflictDegree = .ok h') :
    List.Forall₂ SameRow h.requests h'.requests ∧ h'.numScheduled = h.numScheduled ∧
      ∀ r ∈ h'.requests, IncreasingDegree h r.vtws := by
  obtain ⟨h1, h2⟩ := sortVtwsLoop_facts e
  refine ⟨h1, h2, fun r hr => ?_⟩
  obtain ⟨i, hi, rfl⟩ := List.getElem_of_mem hr
  refine (sortVtwsLoop_sorted _ _ _ List.nodup_range e).1 i ?_ _ (List.getElem?_eq_getElem hi)
  rw [List.mem_range, h1.length_eq]
  exact hi

/-- **C10 refuted.** Sorting windows by conflict degree raises for every handler in which some
request has two windows (at different positions) with equal conflict degree. -/
theorem C10_window_tie_raises (h : Handler) (r : Request) (hr : r ∈ h.requests) (i j : ℕ)
    (hij : i < j) (v w : VTW) (hv : r.vtws[i]? = some v) (hw : r.vtws[j]? = some w)
    (heq : h.conflictDegree v = h.conflictDegree w) :
    ∃ e, h.sortVtwsByIncreasingConflictDegree = .error e := by
  cases hs : h.sortVtwsByIncreasingConflictDegree with
  | error e => exact ⟨e, rfl⟩
  | ok h' =>
    exfalso
    obtain ⟨h1, -, h3⟩ := C10_window_conflict_sort_partial h h' hs
    obtain ⟨k, hk, rfl⟩ := List.getElem_of_mem hr
    have hk' : k < h'.requests.length := by rw [← h1.length_eq]; exact hk
    have hsr := List.Forall₂.get h1 hk hk'
    simp only [List.get_eq_getElem] at hsr
    have hinc := h3 _ (List.getElem_mem hk')
    have hperm := hsr.1
    have hnd : (h'.requests[k].vtws.map h.conflictDegree).Nodup := by
      rw [List.Nodup, List.pairwise_map]
      refine hinc.imp ?_
      rintro a b ⟨x, y, ha, hb, hxy⟩ hab
      rw [ha, hb] at hab
      simp only [Except.ok.injEq] at hab
      exact hxy.ne hab
    have hnd' := ((hperm.map h.conflictDegree).nodup_iff).1 hnd
    obtain ⟨hi, rfl⟩ := List.getElem?_eq_some_iff.1 hv
    obtain ⟨hj, rfl⟩ := List.getElem?_eq_some_iff.1 hw
    rw [List.Nodup, List.pairwise_map] at hnd'
    exact List.pairwise_iff_getElem.1 hnd' i j hi hj hij heq

/-- Non-vacuity: two far-apart windows of equal length tie. -/
example : (submit [⟨0, 100, 86400, 5, 1, none, [win 0 10, win 20 30]⟩]
    ).sortVtwsByIncreasingConflictDegree = .error .typeError := by decide +kernel

/-- Non-vacuity: a sort that succeeds and reorders. -/
example : ((submit [⟨0, 100, 86400, 5, 1, none, [win 0 10, win 20 23]⟩]
    ).sortVtwsByIncreasingConflictDegree.map fun h => h.requests.map (·.vtws)) =
      .ok [[win 20 23, win 0 10]] := by decide +kernel

theorem keyLe_trans : ∀ a b c : ℚ × ℕ, Handler.keyLe a b → Handler.keyLe b c →
    Handler.keyLe a c := by
  rintro a b c (h1 | ⟨h1, h1'⟩) (h2 | ⟨h2, h2'⟩)
  · exact Or.inl (h1.trans h2)
  · exact Or.inl (h2 ▸ h1)
  · exact Or.inl (h1 ▸ h2)
  · exact Or.inr ⟨h1.trans h2, h1'.trans h2'⟩

theorem keyLe_total : ∀ a b : ℚ × ℕ, Handler.keyLe a b ∨ Handler.keyLe b a := by
  intro a b
  rcases lt_trichotomy a.1 b.1 with h | h | h
  · exact Or.inl (Or.inl h)
  · rcases le_total a.2 b.2 with h' | h'
    · exact Or.inl (Or.inr ⟨h, h'⟩)
    · exact Or.inr (Or.inr ⟨h.symm, h'⟩)
  · exact Or.inr (Or.inl h)

/-- The key `sort_by_decreasing_conflict_degree` gives a request: the conflict degree of its
assigned window, or 0 if it is not scheduled. -/
def HasKey (h : Handler) (r : Request) (x : ℚ) : Prop :=
  (r.isScheduled = false ∧ x = 0) ∨
    r.isScheduled = true ∧ ∃ i v, r.vtwIndex = some i ∧ r.vtws[i]? = some v ∧
      h.conflictDegree v = .ok x

theorem conflictKey_hasKey {h : Handler} {r : Request} {k : Option ℚ}
    (e : h.conflictKey r = .ok k) : HasKey h r (k.getD 0) := by
  unfold Handler.conflictKey at e
  split at e
  · rename_i hs
    split at e
    · cases e
    · rename_i i hi
      split at e
      · cases e
      · rename_i v hv
        split at e
        · cases e
        · rename_i x hx
          simp only [Except.ok.injEq] at e
          subst e
          exact Or.inr ⟨hs, i, v, hi, hv, hx⟩
  · rename_i hs
    simp only [Except.ok.injEq] at e
    subst e
    exact Or.inl ⟨by simpa using hs, rfl⟩

/-- **C10 (partial).** When sorting by conflict degree returns, the requests are a permutation
in decreasing order of the key.  Missing: it raises on every mixture of scheduled and
unscheduled requests (`C07_conflict_removal_mixed_raises`), and it is not stable
(`C10_conflict_sort_not_stable`). -/
theorem C10_conflict_sort_partial (h h' : Handler)
    (e : h.sortByDecreasingConflictDegree = .ok h') :
    h'.requests.Perm h.requests ∧ h'.numScheduled = h.numScheduled ∧
      h'.requests.Pairwise fun r r' => ∃ x y, HasKey h r x ∧ HasKey h r' y ∧ y ≤ x := by
  obtain ⟨h1, h2⟩ := perm_sortConflict e
  refine ⟨h1, h2, ?_⟩
  unfold Handler.sortByDecreasingConflictDegree at e
  split at e
  · cases e
  · rename_i keys hm
    split at e
    · cases e
    · simp only [Except.ok.injEq] at e
      subst e
      simp only
      have hf := mapM_forall₂ hm
      have : IsTrans (ℚ × ℕ) Handler.keyLe := ⟨keyLe_trans⟩
      have : Std.Total Handler.keyLe := ⟨keyLe_total⟩
      have hs := List.pairwise_insertionSort Handler.keyLe
        ((keys.map fun k => k.getD 0).zip (List.range keys.length))
      have hp := List.perm_insertionSort Handler.keyLe
        ((keys.map fun k => k.getD 0).zip (List.range keys.length))
      have hmem : ∀ p ∈ ((keys.map fun k => k.getD 0).zip (List.range keys.length)).insertionSort
          Handler.keyLe, ∀ r, h.requests[p.2]? = some r → HasKey h r p.1 := by
        intro p hpm r hr
        have hz := hp.subset hpm
        obtain ⟨n, hn, hpn⟩ := List.getElem_of_mem hz
        rw [List.getElem_zip] at hpn
        subst hpn
        simp only [List.getElem_map, List.getElem_range] at hr ⊢
        have hn' : n < keys.length := by simpa using hn
        obtain ⟨hnr, rfl⟩ := List.getElem?_eq_some_iff.1 hr
        have := List.Forall₂.get hf hnr hn'
        simp only [List.get_eq_getElem] at this
        exact conflictKey_hasKey this
      generalize ((keys.map fun k => k.getD 0).zip (List.range keys.length)).insertionSort
          Handler.keyLe = z at hs hmem
      rw [List.pairwise_filterMap, List.pairwise_map, List.pairwise_reverse]
      refine hs.imp_of_mem ?_
      intro a b ha hb hab r hr r' hr'
      refine ⟨b.1, a.1, hmem b hb r hr, hmem a ha r' hr', ?_⟩
      rcases hab with h | h
      · exact h.le
      · exact h.1.le

/-- **C10 refuted.** Sorting by conflict degree is not stable: with nothing scheduled, all keys
are equal and yet the order is reversed. -/
theorem C10_conflict_sort_not_stable :
    ((submit fourRequests).sortByDecreasingConflictDegree.map fun h =>
      h.requests.map (·.location)) = .ok [3, 2, 1, 0] := by decide +kernel

end Celest.Schedule
