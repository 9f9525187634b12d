/-
Helper lemmas: sorts, removal operators, insertion operators.
-/
import Verif.Schedule.LemmasRows

namespace Celest.Schedule

/-! ### sorts are permutations -/

theorem perm_sortPriority (h : Handler) : h.sortByDecreasingPriority.requests.Perm h.requests :=
  List.perm_insertionSort _ _

theorem perm_sortDecOpp (h : Handler) : h.sortByDecreasingOpportunity.requests.Perm h.requests :=
  List.perm_insertionSort _ _

theorem perm_sortIncOpp (h : Handler) : h.sortByIncreasingOpportunity.requests.Perm h.requests :=
  List.perm_insertionSort _ _

theorem mapM_length {α β : Type} {f : α → Py β} : ∀ {l : List α} {l' : List β},
    l.mapM f = .ok l' → l'.length = l.length := by
  intro l
  induction l with
  | nil => intro l' h; simp [pure, Except.pure] at h; subst h; rfl
  | cons a l ih =>
    intro l' h
    rw [List.mapM_cons] at h
    cases hfa : f a with
    | error e => rw [hfa] at h; simp [bind, Except.bind] at h
    | ok b =>
      rw [hfa] at h
      cases hl : l.mapM f with
      | error e => rw [hl] at h; simp [bind, Except.bind] at h
      | ok bs =>
        rw [hl] at h
        simp [bind, Except.bind, pure, Except.pure] at h
        subst h
        simp [ih hl]

theorem mapM_forall₂ {α β : Type} {f : α → Py β} : ∀ {l : List α} {l' : List β},
    l.mapM f = .ok l' → List.Forall₂ (fun a b => f a = .ok b) l l' := by
  intro l
  induction l with
  | nil => intro l' h; simp [pure, Except.pure] at h; subst h; exact .nil
  | cons a l ih =>
    intro l' h
    rw [List.mapM_cons] at h
    cases hfa : f a with
    | error e => rw [hfa] at h; simp [bind, Except.bind] at h
    | ok b =>
      rw [hfa] at h
      cases hl : l.mapM f with
      | error e => rw [hl] at h; simp [bind, Except.bind] at h
      | ok bs =>
        rw [hl] at h
        simp [bind, Except.bind, pure, Except.pure] at h
        subst h
        exact .cons hfa (ih hl)

theorem filterMap_getElem?_range_aux {α : Type*} (l : List α) : ∀ n, n ≤ l.length →
    (List.range n).filterMap (fun i => l[i]?) = l.take n := by
  intro n
  induction n with
  | zero => intro _; rfl
  | succ n ih =>
    intro hn
    rw [List.range_succ, List.filterMap_append, ih (by omega),
      List.take_succ_eq_append_getElem (by omega)]
    simp [List.getElem?_eq_getElem (show n < l.length by omega)]

theorem filterMap_getElem?_range {α : Type*} (l : List α) :
    (List.range l.length).filterMap (fun i => l[i]?) = l := by
  rw [filterMap_getElem?_range_aux l _ le_rfl, List.take_length]

theorem map_snd_zip_range {α : Type*} (l : List α) :
    (l.zip (List.range l.length)).map Prod.snd = List.range l.length :=
  List.map_snd_zip (by simp)

theorem perm_sortConflict {h h' : Handler} (hs : h.sortByDecreasingConflictDegree = .ok h') :
    h'.requests.Perm h.requests ∧ h'.numScheduled = h.numScheduled := by
  unfold Handler.sortByDecreasingConflictDegree at hs
  split at hs
  · cases hs
  · rename_i keys hk
    split at hs
    · cases hs
    · simp only [Except.ok.injEq] at hs
      subst hs
      refine ⟨?_, rfl⟩
      simp only
      have hlen : keys.length = h.requests.length := mapM_length hk
      have hp : ((((keys.map fun k => k.getD 0).zip (List.range keys.length)).insertionSort
          Handler.keyLe).reverse.map Prod.snd).Perm (List.range keys.length) := by
        refine ((List.reverse_perm _).map _).trans (((List.perm_insertionSort _ _).map _).trans ?_)
        rw [List.map_snd_zip (by simp)]
      refine (hp.filterMap _).trans ?_
      rw [hlen, filterMap_getElem?_range]

theorem sortVtwsOf_facts {h h' : Handler} {i : ℕ} (hs : h.sortVtwsOf i = .ok h') :
    List.Forall₂ SameRow h.requests h'.requests ∧ h'.numScheduled = h.numScheduled := by
  unfold Handler.sortVtwsOf at hs
  split at hs
  · cases hs
  · rename_i r hr
    split at hs
    · cases hs
    · rename_i keys hk
      split at hs
      · simp only [Except.ok.injEq] at hs
        subst hs
        refine ⟨?_, rfl⟩
        refine Forall₂.modify SameRow.refl hr ⟨?_, rfl⟩
        simp only
        refine ((List.perm_insertionSort _ _).map _).trans ?_
        rw [List.map_snd_zip]
        rw [mapM_length hk]
      · cases hs

theorem sortVtwsLoop_facts : ∀ {is : List ℕ} {h h' : Handler},
    Handler.sortVtwsLoop is h = .ok h' →
    List.Forall₂ SameRow h.requests h'.requests ∧ h'.numScheduled = h.numScheduled := by
  intro is
  induction is with
  | nil =>
    intro h h' hs
    simp only [Handler.sortVtwsLoop, Except.ok.injEq] at hs
    subst hs
    exact ⟨forall₂_refl SameRow.refl _, rfl⟩
  | cons i is ih =>
    intro h h' hs
    unfold Handler.sortVtwsLoop at hs
    split at hs
    · cases hs
    · rename_i h1 h1e
      obtain ⟨f1, n1⟩ := sortVtwsOf_facts h1e
      obtain ⟨f2, n2⟩ := ih hs
      exact ⟨Forall₂.trans' (R := SameRow) (fun _ _ _ => SameRow.trans) f1 f2, n2.trans n1⟩

theorem sameRow_count {l l' : List Request} (h : List.Forall₂ SameRow l l') :
    l'.countP (fun r => r.isScheduled) = l.countP (fun r => r.isScheduled) := by
  induction h with
  | nil => rfl
  | cons h1 _ ih => simp only [List.countP_cons, ih, h1.isScheduled]

theorem Handler.Consistent.of_sameRow {h h' : Handler} (hc : h.Consistent)
    (hf : List.Forall₂ SameRow h.requests h'.requests) (hn : h'.numScheduled = h.numScheduled) :
    h'.Consistent := by
  refine ⟨fun b hb => ?_, ?_⟩
  · obtain ⟨a, ha, hab⟩ := Forall₂.mem_right hf hb
    exact hab.row (hc.rows a ha)
  · rw [hn, hc.counter, Handler.scheduledCount, Handler.scheduledCount, sameRow_count hf]

theorem riseSort_facts (h : Handler) :
    List.Forall₂ SameRow h.requests h.sortVtwsByIncreasingRiseTime.requests := by
  unfold Handler.sortVtwsByIncreasingRiseTime
  simp only
  rw [List.forall₂_map_right_iff, List.forall₂_same]
  intro r _
  exact ⟨List.perm_insertionSort _ _, rfl⟩

/-! ### removing the first scheduled rows -/

/-- Clear the first `n` scheduled rows. -/
def clearFirst : ℕ → List Request → List Request
  | 0, l => l
  | _ + 1, [] => []
  | n + 1, r :: rs =>
    if r.isScheduled then r.cleared :: clearFirst n rs else r :: clearFirst (n + 1) rs

theorem clearFirst_forall₂ : ∀ (l : List Request) (n : ℕ),
    List.Forall₂ KeptOrCleared l (clearFirst n l) := by
  intro l
  induction l with
  | nil => intro n; cases n <;> exact .nil
  | cons r l ih =>
    intro n
    cases n with
    | zero => exact forall₂_refl KeptOrCleared.refl _
    | succ n =>
      unfold clearFirst
      split
      · rename_i hr
        exact .cons (Or.inr ⟨hr, rfl⟩) (ih n)
      · exact .cons (Or.inl rfl) (ih (n + 1))

theorem clearFirst_count : ∀ (l : List Request) (n : ℕ),
    n ≤ l.countP (fun r => r.isScheduled) →
    (clearFirst n l).countP (fun r => r.isScheduled) + n = l.countP (fun r => r.isScheduled) := by
  intro l
  induction l with
  | nil => intro n hn; cases n <;> simp_all [clearFirst]
  | cons r l ih =>
    intro n hn
    cases n with
    | zero => rfl
    | succ n =>
      unfold clearFirst
      split
      · rename_i hr
        simp only [List.countP_cons, hr, if_true, cleared_isScheduled] at hn ⊢
        have := ih n (by omega)
        simp; omega
      · rename_i hr
        simp only [List.countP_cons, hr] at hn ⊢
        have := ih (n + 1) (by simpa using hn)
        simpa using this

theorem removeLoop_eq : ∀ (fuel : ℕ) (pre post : List Request) (h : Handler) (n : ℕ),
    h.requests = pre ++ post → post.length < fuel → n ≤ post.countP (fun r => r.isScheduled) →
    removeLoop fuel pre.length h n =
      .ok ⟨pre ++ clearFirst n post, h.numScheduled - n⟩ := by
  intro fuel
  induction fuel with
  | zero => intro pre post h n _ hl; omega
  | succ fuel ih =>
    intro pre post h n hreq hl hn
    unfold removeLoop
    cases n with
    | zero =>
      simp only [Nat.cast_zero, lt_irrefl, if_false, clearFirst, sub_zero]
      rw [← hreq]
    | succ n =>
      cases post with
      | nil => simp at hn
      | cons r post =>
        have hget : h.requests[pre.length]? = some r := by
          rw [hreq, List.getElem?_append_right le_rfl]; simp
        have hpos : (0 : ℤ) < ((n + 1 : ℕ) : ℤ) := by positivity
        simp only [hpos, if_true, Handler.isRequestScheduled, hget]
        cases hs : r.isScheduled with
        | true =>
          simp only
          have hreq' : (h.unschedule pre.length).requests = (pre ++ [r.cleared]) ++ post := by
            obtain ⟨l₁, l₂, hl', hlen, hm⟩ := modify_split hget
            simp only [Handler.unschedule, hm]
            rw [hreq] at hl'
            obtain ⟨e1, e2⟩ := List.append_inj hl' hlen.symm
            cases e2
            rw [← e1]; simp [Request.cleared]
          have := ih (pre ++ [r.cleared]) post (h.unschedule pre.length) n hreq'
            (by simp at hl; omega) (by simp [hs] at hn; omega)
          rw [List.length_append, List.length_singleton] at this
          have e : ((n + 1 : ℕ) : ℤ) - 1 = (n : ℤ) := by push_cast; ring
          rw [e, this, clearFirst, hs]
          simp only [if_true, Handler.unschedule, List.append_assoc, List.singleton_append]
          congr 2
          push_cast; ring
        | false =>
          simp only
          have := ih (pre ++ [r]) post h (n + 1) (by rw [hreq]; simp) (by simp at hl; omega)
            (by simpa [hs] using hn)
          rw [List.length_append, List.length_singleton] at this
          rw [this, clearFirst, hs]
          simp

/-- What a removal operator does, apart from the choice of rows. -/
structure Removed (h h' : Handler) (n : ℕ) : Prop where
  rows : ∃ l, l.Perm h.requests ∧ List.Forall₂ KeptOrCleared l h'.requests
  count : h'.scheduledCount + n = h.scheduledCount
  counter : h'.numScheduled = h'.scheduledCount

theorem removeFirstN_facts {h : Handler} (hc : h.Consistent) (n : ℕ) :
    ∃ h', removeFirstN h n = .ok h' ∧ List.Forall₂ KeptOrCleared h.requests h'.requests ∧
      Removed h h' (min n h.scheduledCount) ∧
      (n < h.scheduledCount → h'.requests = clearFirst n h.requests) := by
  unfold removeFirstN
  rw [hc.counter]
  by_cases hle : (h.scheduledCount : ℤ) ≤ n
  · rw [if_pos hle]
    obtain ⟨f, c0, n0⟩ := unscheduleAll_facts hc
    have hle' : h.scheduledCount ≤ n := by exact_mod_cast hle
    refine ⟨_, rfl, f, ⟨⟨_, List.Perm.refl _, f⟩, ?_, ?_⟩, fun hlt => absurd hlt (by omega)⟩
    · rw [c0, min_eq_right hle']; omega
    · rw [n0, c0]; rfl
  · rw [if_neg hle]
    have hlt : n < h.scheduledCount := by omega
    have := removeLoop_eq (h.requests.length + 1) [] h.requests h n rfl (by omega)
      (le_of_lt hlt)
    simp only [List.length_nil, List.nil_append] at this
    refine ⟨_, this, clearFirst_forall₂ _ _, ⟨⟨_, List.Perm.refl _, clearFirst_forall₂ _ _⟩, ?_, ?_⟩,
      fun _ => rfl⟩
    · rw [min_eq_left (le_of_lt hlt)]
      exact clearFirst_count _ _ (le_of_lt hlt)
    · have := clearFirst_count h.requests n (le_of_lt hlt)
      simp only [hc.counter, Handler.scheduledCount] at *
      omega

theorem Removed.of_perm {h₀ h h' : Handler} {n : ℕ} (hp : h.requests.Perm h₀.requests)
    (hr : Removed h h' n) : Removed h₀ h' n := by
  obtain ⟨l, hl, hf⟩ := hr.rows
  refine ⟨⟨l, hl.trans hp, hf⟩, ?_, hr.counter⟩
  rw [hr.count, Handler.scheduledCount, Handler.scheduledCount, hp.countP_eq]

theorem Removed.consistent {h h' : Handler} {n : ℕ} (hc : h.Consistent) (hr : Removed h h' n) :
    h'.Consistent := by
  obtain ⟨l, hl, hf⟩ := hr.rows
  refine ⟨fun b hb => ?_, hr.counter⟩
  obtain ⟨a, ha, hab⟩ := Forall₂.mem_right hf hb
  exact hab.row (hc.rows a (hl.subset ha))

theorem Removed.holds {h h' : Handler} {n : ℕ} {subs : List Submission} (hh : h.Holds subs)
    (hr : Removed h h' n) : h'.Holds subs := by
  obtain ⟨l, hl, hf⟩ := hr.rows
  unfold Handler.Holds
  rw [Forall₂.map_eq (fun h => KeptOrCleared.fixed h) hf]
  exact (hl.map _).trans hh

/-! ### random removal -/

/-- Whether row `i` exists and is scheduled. -/
def schedAt (l : List Request) (i : ℕ) : Bool := (l[i]?).any fun r => r.isScheduled

theorem countP_range_schedAt (l : List Request) : ∀ m, m ≤ l.length →
    (List.range m).countP (schedAt l) = (l.take m).countP (fun r => r.isScheduled) := by
  intro m
  induction m with
  | zero => intro _; rfl
  | succ m ih =>
    intro hm
    rw [List.range_succ, List.countP_append, ih (by omega),
      List.take_succ_eq_append_getElem (by omega), List.countP_append]
    congr 1
    simp [schedAt, List.getElem?_eq_getElem (show m < l.length by omega), List.countP_cons]

theorem schedAt_unschedule_ne (h : Handler) {i j : ℕ} (hij : j ≠ i) :
    schedAt (h.unschedule i).requests j = schedAt h.requests j := by
  simp only [schedAt, Handler.unschedule, List.getElem?_modify]
  simp [Ne.symm hij]

theorem randomRemovalLoop_facts (picks : ℕ → ℕ) : ∀ (fuel : ℕ) (unchecked : List ℕ) (h : Handler)
    (n : ℕ), unchecked.length = fuel → unchecked.Nodup →
    (∀ i ∈ unchecked, i < h.requests.length) →
    n ≤ unchecked.countP (schedAt h.requests) →
    ∃ h', randomRemovalLoop picks fuel unchecked h n = .ok h' ∧
      List.Forall₂ KeptOrCleared h.requests h'.requests ∧
      h'.scheduledCount + n = h.scheduledCount ∧ h'.numScheduled = h.numScheduled - n := by
  intro fuel
  induction fuel with
  | zero =>
    intro unchecked h n hl _ _ hn
    rw [List.length_eq_zero_iff] at hl
    subst hl
    have : n = 0 := by simpa using hn
    subst this
    exact ⟨h, by simp [randomRemovalLoop], forall₂_refl KeptOrCleared.refl _, by simp, by simp⟩
  | succ fuel ih =>
    intro unchecked h n hl hnd hlt hn
    unfold randomRemovalLoop
    cases n with
    | zero =>
      exact ⟨h, by simp, forall₂_refl KeptOrCleared.refl _, by simp, by simp⟩
    | succ n =>
      have hpos : (0 : ℤ) < ((n + 1 : ℕ) : ℤ) := by positivity
      simp only [hpos, if_true]
      have hpl : picks fuel % unchecked.length < unchecked.length := Nat.mod_lt _ (by omega)
      rw [List.getElem?_eq_getElem hpl]
      simp only
      generalize hidef : unchecked[picks fuel % unchecked.length] = i
      have himem : i ∈ unchecked := hidef ▸ List.getElem_mem hpl
      have hilt := hlt i himem
      have hget : h.requests[i]? = some h.requests[i] := List.getElem?_eq_getElem hilt
      have hcount : (unchecked.erase i).countP (schedAt h.requests) +
          (if schedAt h.requests i then 1 else 0) = unchecked.countP (schedAt h.requests) := by
        have := (List.perm_cons_erase himem).countP_eq (schedAt h.requests)
        rw [this, List.countP_cons]
      have hlen : (unchecked.erase i).length = fuel := by
        rw [List.length_erase_of_mem himem]; omega
      have hnd' : (unchecked.erase i).Nodup := hnd.erase i
      have hnot : i ∉ unchecked.erase i := by
        rw [hnd.mem_erase_iff]; simp
      simp only [Handler.isRequestScheduled, hget]
      cases hs : h.requests[i].isScheduled with
      | true =>
        simp only
        have hsa : schedAt h.requests i = true := by simp [schedAt, hget, hs]
        rw [hsa] at hcount
        simp only [if_true] at hcount
        obtain ⟨hf, hc⟩ := unschedule_facts hget hs
        have hcu : (unchecked.erase i).countP (schedAt (h.unschedule i).requests) =
            (unchecked.erase i).countP (schedAt h.requests) := by
          apply List.countP_congr
          intro j hj
          rw [schedAt_unschedule_ne h (i := i) (j := j)]
          rintro rfl
          exact hnot hj
        obtain ⟨h', e, f', c', n'⟩ := ih (unchecked.erase i) (h.unschedule i) n hlen hnd'
          (by
            intro j hj
            have := hlt j (List.mem_of_mem_erase hj)
            simpa [Handler.unschedule] using this)
          (by rw [hcu]; omega)
        have e1 : ((n + 1 : ℕ) : ℤ) - 1 = (n : ℤ) := by push_cast; ring
        rw [e1]
        refine ⟨h', e, Forall₂.trans' (R := KeptOrCleared) (fun _ _ _ => KeptOrCleared.trans) hf f', by omega, ?_⟩
        rw [n']
        simp only [Handler.unschedule]
        push_cast; ring
      | false =>
        simp only
        have hsa : schedAt h.requests i = false := by simp [schedAt, hget, hs]
        rw [hsa] at hcount
        obtain ⟨h', e, f', c', n'⟩ := ih (unchecked.erase i) h (n + 1) hlen hnd'
          (fun j hj => hlt j (List.mem_of_mem_erase hj)) (by simp at hcount; omega)
        exact ⟨h', e, f', c', n'⟩

theorem randomRemoval_facts {h : Handler} (hc : h.Consistent) (n : ℕ) (picks : ℕ → ℕ) :
    ∃ h', randomRemoval h n picks = .ok h' ∧ List.Forall₂ KeptOrCleared h.requests h'.requests ∧
      Removed h h' (min n h.scheduledCount) := by
  unfold randomRemoval
  rw [hc.counter]
  by_cases hle : (h.scheduledCount : ℤ) ≤ n
  · rw [if_pos hle]
    obtain ⟨f, c0, n0⟩ := unscheduleAll_facts hc
    have hle' : h.scheduledCount ≤ n := by exact_mod_cast hle
    refine ⟨_, rfl, f, ⟨⟨_, List.Perm.refl _, f⟩, ?_, ?_⟩⟩
    · rw [c0, min_eq_right hle']; omega
    · rw [n0, c0]; rfl
  · rw [if_neg hle]
    have hlt : n < h.scheduledCount := by omega
    have hcnt : n ≤ (List.range (h.requests.length - 1)).countP (schedAt h.requests) := by
      rw [countP_range_schedAt _ _ (by omega)]
      have hsplit : h.scheduledCount = (h.requests.take (h.requests.length - 1)).countP
          (fun r => r.isScheduled) + (h.requests.drop (h.requests.length - 1)).countP
          (fun r => r.isScheduled) := by
        rw [← List.countP_append, List.take_append_drop]; rfl
      have : (h.requests.drop (h.requests.length - 1)).countP (fun r => r.isScheduled) ≤ 1 := by
        refine List.countP_le_length.trans ?_
        rw [List.length_drop]; omega
      omega
    obtain ⟨h', e, f, c, n'⟩ := randomRemovalLoop_facts picks _ (List.range (h.requests.length - 1))
      h n rfl List.nodup_range (fun i hi => by rw [List.mem_range] at hi; omega) hcnt
    refine ⟨h', e, f, ⟨⟨_, List.Perm.refl _, f⟩, ?_, ?_⟩⟩
    · rw [min_eq_left (le_of_lt hlt)]; exact c
    · rw [n', hc.counter]; omega

end Celest.Schedule
