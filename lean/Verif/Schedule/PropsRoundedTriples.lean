/-
C101: how bad overlaps can get in floating-point arithmetic, for any number of search iterations.
-/
import Verif.Schedule.PropsRoundedOverlap
import Verif.Schedule.PropsTriples

namespace Celest.Schedule.Rounded

variable {fl : ℚ → ℚ} {ε T : ℚ}

theorem overlapBy_symm (δ : ℚ) (a b : Request) : RowsOverlapBy δ a b → RowsOverlapBy δ b a :=
  RowsOverlapBy.symm

theorem insertLoop_atMostTwo (hfl : Rounding fl ε) {subs : List Submission} :
    ∀ (is : List ℕ) (h : Handler) (n : ℤ), Good fl T subs h →
      AtMostTwo (RowsOverlapBy (5 * ε * T)) h.requests →
      AtMostTwo (RowsOverlapBy (5 * ε * T)) (insertLoop fl is h n).1.requests
  | [], _, _, _, hp => hp
  | i :: is, h, n, hg, hp => by
    unfold insertLoop
    split
    · exact hp
    · split
      · exact hp
      · rename_i r hr
        split
        · exact insertLoop_atMostTwo hfl is h n hg hp
        · split
          · exact hp
          · exact insertLoop_atMostTwo hfl is h n hg hp
          · rename_i idx s ht
            have hrow := hg.ok r (List.mem_of_getElem? hr)
            obtain ⟨hf, hconf⟩ := tryVtws_fits hfl hrow ht
            obtain ⟨v, hv, hv1, hv2, -⟩ := id hf
            obtain ⟨v0, vT, -⟩ := hrow.windows v hv
            refine insertLoop_atMostTwo hfl is _ _ (hg.schedule (idx := idx) hr hf) ?_
            obtain ⟨l₁, l₂, hl, -, hm⟩ := modify_split hr
            have hreq : (h.schedule i idx s r.duration).requests =
                l₁ ++ r.assignWith idx s r :: l₂ := hm (r.assignWith idx s)
            rw [hreq]
            have hfree := anyConflict_false hconf
            rw [forLoop_eq] at hfree
            have hmem : ∀ a ∈ (l₁ ++ r :: l₂).dropLast, a ∈ h.requests := fun a ha =>
              hl ▸ (List.dropLast_sublist _).subset ha
            rw [hl] at hp hfree
            refine hp.replace (overlapBy_symm _) ?_
            rintro a ha ⟨s2, d2, s1, d1, h2, h1, h5, h6, h3, h4, h7⟩
            simp only [Request.assignWith, Option.some.injEq] at h5 h6
            subst h5 h6
            have hrowa := hg.ok a (hmem a ha)
            rcases hg.rows a (hmem a ha) with hcl | ⟨-, e2, ss', e1, w, hw, w1, w2, -⟩
            · rw [hcl.1] at h1; cases h1
            · rw [e1, Option.some.injEq] at h3
              rw [e2, Option.some.injEq] at h4
              subst h3 h4
              obtain ⟨w0, wT, -⟩ := hrowa.windows w hw
              have := conflictsWith_false hfl (T := T) (by linarith) hrow.duration
                (by linarith) (by linarith) hrowa.duration (by linarith) h1 e1 e2
                (hfree a ha)
              linarith

theorem insertion_atMostTwo (hfl : Rounding fl ε) {g : Handler → ℤ → Py Handler}
    (hgm : g ∈ insertionFunctions fl) {subs : List Submission} {h h' : Handler}
    (hg : Good fl T subs h) {n : ℤ} (hd : AtMostTwo (RowsOverlapBy (5 * ε * T)) h.requests)
    (e : g h n = .ok h') : AtMostTwo (RowsOverlapBy (5 * ε * T)) h'.requests := by
  simp only [insertionFunctions, List.mem_cons, List.not_mem_nil, or_false] at hgm
  rcases hgm with rfl | rfl | rfl
  · rw [← (settle_ok e).1]
    exact insertLoop_atMostTwo hfl _ _ _ (hg.of_perm (perm_sortPriority h))
      (hd.perm (overlapBy_symm _) (perm_sortPriority h).symm)
  · rw [← (settle_ok e).1]
    exact insertLoop_atMostTwo hfl _ _ _ (hg.of_perm (perm_sortIncOpp h))
      (hd.perm (overlapBy_symm _) (perm_sortIncOpp h).symm)
  · unfold minimumConflictInsertion at e
    split at e
    · cases e
    · rename_i h₁ hs
      rw [← (settle_ok e).1]
      have hsame := sortVtwsLoop_sameRow hs
      exact insertLoop_atMostTwo hfl _ _ _ (hg.of_sameRow hsame)
        (AtMostTwo.forall₂ (ov := RowsOverlapBy (5 * ε * T)) (fun _ _ _ _ => overlap_sameRow)
          hsame hd)

theorem removal_atMostTwo {f : Handler → ℤ → (ℕ → ℕ) → Py Handler} (hf : f ∈ removalFunctions fl)
    {δ : ℚ} {h h' : Handler} (hd : AtMostTwo (RowsOverlapBy δ) h.requests) {n : ℤ} {picks : ℕ → ℕ}
    (e : f h n picks = .ok h') : AtMostTwo (RowsOverlapBy δ) h'.requests := by
  have loose : ∀ {h₁ : Handler}, h₁.requests.Perm h.requests →
      List.Forall₂ Loose h₁.requests h'.requests → AtMostTwo (RowsOverlapBy δ) h'.requests :=
    fun hp hl => AtMostTwo.forall₂ (ov := RowsOverlapBy δ) (fun _ _ _ _ => overlap_loose) hl
      (hd.perm (overlapBy_symm _) hp.symm)
  simp only [removalFunctions, List.mem_cons, List.not_mem_nil, or_false] at hf
  rcases hf with rfl | rfl | rfl | rfl
  · exact loose (List.Perm.refl _) (randomRemoval_loose e)
  · exact loose (perm_sortPriority h) (removeFirstN_loose e)
  · exact loose (perm_sortDecOpp h) (removeFirstN_loose e)
  · unfold conflictRemoval at e
    split at e
    · cases e
    · rename_i h₁ hs
      exact loose (perm_sortConflict hs) (removeFirstN_loose e)

theorem initializeSolution_atMostTwo (hfl : Rounding fl ε) {subs : List Submission} {h : Handler}
    (hg : Good fl T subs h) (hd : AtMostTwo (RowsOverlapBy (5 * ε * T)) h.requests) :
    AtMostTwo (RowsOverlapBy (5 * ε * T)) (initializeSolution fl h).1.requests :=
  insertLoop_atMostTwo hfl _ _ _ ((hg.of_perm (perm_sortPriority h)).of_sameRow (riseSort_facts _))
    (AtMostTwo.forall₂ (ov := RowsOverlapBy (5 * ε * T)) (fun _ _ _ _ => overlap_sameRow)
      (riseSort_facts _) (hd.perm (overlapBy_symm _) (perm_sortPriority h).symm))

theorem addSubmission_atMostTwo {δ : ℚ} {h : Handler} (hd : AtMostTwo (RowsOverlapBy δ) h.requests)
    (s : Submission) : AtMostTwo (RowsOverlapBy δ) (addSubmission h s).requests := by
  have hreq : (addSubmission h s).requests = h.requests ++ [s.row] := rfl
  rw [hreq]
  refine AtMostTwo.perm (overlapBy_symm _) (l := s.row :: h.requests) ?_
    (List.perm_append_singleton _ _).symm
  unfold AtMostTwo at hd ⊢
  rw [List.triplewise_cons]
  refine ⟨List.pairwise_of_forall fun b c ht => ?_, hd⟩
  obtain ⟨_, _, _, _, h1, _⟩ := ht.1
  cases h1

theorem run_atMostTwo_aux (hfl : Rounding fl ε) : ∀ (ops : List Op) (subs : List Submission)
    (h : Handler), (∀ s ∈ submissions ops, RowOk fl T s.row) → Good fl T subs h →
    AtMostTwo (RowsOverlapBy (5 * ε * T)) h.requests →
    AtMostTwo (RowsOverlapBy (5 * ε * T)) (ops.foldl (step fl) h).requests
  | [], _, _, _, _, hd => hd
  | .add s :: ops, subs, h, hs, hg, hd =>
    run_atMostTwo_aux hfl ops (subs ++ [s]) _ (fun t ht => hs t (List.mem_cons_of_mem _ ht))
      (good_add hg s (hs s List.mem_cons_self)) (addSubmission_atMostTwo hd s)
  | .generate a :: ops, subs, h, hs, hg, hd => by
    refine run_atMostTwo_aux hfl ops subs _ hs (generate_snd_good hfl hg a) ?_
    show AtMostTwo _ (generate fl h a).2.requests
    unfold generate
    split
    · exact hd
    · have := initializeSolution_atMostTwo hfl hg hd
      split
      · rename_i h' e heq; rw [heq] at this; exact this
      · rename_i h' heq; rw [heq] at this; exact this

/-- The observations that are under way at an instant and will be for more than `δ` days. -/
def underWayFor (δ : ℚ) (ws : List Observation) (t : ℚ) : List Observation :=
  ws.filter fun o => o.start ≤ t ∧ t + δ < o.start + days o.duration

/-- **C101 (partial).** In any arithmetic of relative accuracy `ε`, after any history of calls, for
any number of iterations, any parameters and any draws: at no instant are more than two of the
observations returned by `generate` under way and more than `5 ε T` days from their end.
Missing: not more than one, which is false even without rounding (`C02_overlap_possible`). -/
theorem C101_at_most_two_partial (hfl : Rounding fl ε) (history : List Op)
    (hsub : ∀ s ∈ submissions history, Submittable fl T s) (a : GenerateArgs)
    (ws : List Observation) (h : (generate fl (run fl history) a).1 = .ok ws) (t : ℚ) :
    (underWayFor (5 * ε * T) ws t).length ≤ 2 := by
  obtain ⟨h', best, hi, hs, ho⟩ := generate_ok h
  have hg0 := good_run hfl history fun s hs => (hsub s hs).row
  have h0 : AtMostTwo (RowsOverlapBy (5 * ε * T)) (run fl history).requests :=
    run_atMostTwo_aux hfl history [] Handler.empty (fun s hs => (hsub s hs).row) good_empty
      (by simp [AtMostTwo, Handler.empty])
  have h1 := initializeSolution_atMostTwo hfl hg0 h0
  have hg1 := initializeSolution_good hfl hg0
  rw [hi] at h1 hg1
  have hb : AtMostTwo (RowsOverlapBy (5 * ε * T)) best.requests := by
    refine (Alns.Rounded.solve_kept
      (I := fun s => Good fl T (submissions history) s ∧
        AtMostTwo (RowsOverlapBy (5 * ε * T)) s.requests)
      (Alns.Rounded.kept_of ?_ ?_) ⟨hg1, h1⟩ hs).2
    · intro f hf s s' picks hs he
      exact ⟨removal_good hf hs.1 he, removal_atMostTwo hf hs.2 he⟩
    · intro g hg s s' hs he
      exact ⟨insertion_good hfl hg hs.1 he, insertion_atMostTwo hfl hg hs.1 hs.2 he⟩
  unfold outputWindows at ho
  have he := toObservations_facts ho
  rw [forLoop_eq] at he
  have hm := hb.sublist (sublist_filter_dropLast best.requests)
  generalize best.requests.dropLast.filter (fun r => r.isScheduled) = m at he hm
  by_contra hlt
  rw [not_le] at hlt
  obtain ⟨o₁, o₂, o₃, l, hl⟩ : ∃ o₁ o₂ o₃ l, underWayFor (5 * ε * T) ws t = o₁ :: o₂ :: o₃ :: l := by
    generalize underWayFor (5 * ε * T) ws t = u at hlt
    match u, hlt with
    | [], hlt => simp at hlt
    | [_], hlt => simp at hlt
    | [_, _], hlt => simp at hlt
    | o₁ :: o₂ :: o₃ :: l, _ => exact ⟨o₁, o₂, o₃, l, rfl⟩
  have hin : ∀ o ∈ underWayFor (5 * ε * T) ws t,
      o.start ≤ t ∧ t + 5 * ε * T < o.start + days o.duration := by
    intro o ho
    simpa using (List.mem_filter.1 ho).2
  have hsub : [o₁, o₂, o₃].Sublist ws := by
    refine List.Sublist.trans ?_ (List.filter_sublist (l := ws)
      (p := fun o => decide (o.start ≤ t ∧ t + 5 * ε * T < o.start + days o.duration)))
    change [o₁, o₂, o₃].Sublist (underWayFor (5 * ε * T) ws t)
    rw [hl]
    simp
  obtain ⟨l', hl', hsm⟩ := forall₂_sublist he hsub
  obtain ⟨r₁, l₁, e₁, hl₁, rfl⟩ := List.forall₂_cons_right_iff.1 hl'
  obtain ⟨r₂, l₂, e₂, hl₂, rfl⟩ := List.forall₂_cons_right_iff.1 hl₁
  obtain ⟨r₃, l₃, e₃, hl₃, rfl⟩ := List.forall₂_cons_right_iff.1 hl₂
  obtain rfl := List.forall₂_nil_right_iff.1 hl₃
  have t1 := hin o₁ (by rw [hl]; simp)
  have t2 := hin o₂ (by rw [hl]; simp)
  have t3 := hin o₃ (by rw [hl]; simp)
  have hov : ∀ {r r' : Request} {o o' : Observation}, Emits r o → Emits r' o' →
      (o.start ≤ t ∧ t + 5 * ε * T < o.start + days o.duration) →
      (o'.start ≤ t ∧ t + 5 * ε * T < o'.start + days o'.duration) →
      RowsOverlapBy (5 * ε * T) r r' := by
    intro r r' o o' e e' ht ht'
    refine ⟨o.start, o.duration, o'.start, o'.duration, e.1, e'.1, e.2.1, e.2.2.1, e'.2.1,
      e'.2.2.1, ?_⟩
    have hmin := lt_min ht.2 ht'.2
    have hmax := max_le ht.1 ht'.1
    unfold overlapLength
    linarith
  exact List.triplewise_triple.1 (hm.sublist hsm)
    ⟨hov e₁ e₂ t1 t2, hov e₂ e₃ t2 t3, hov e₁ e₃ t1 t3⟩

/-- **C101 (partial).** The same in Python's arithmetic, with Julian dates up to 3000000 (the year
3501): at no instant do more than two observations have over 150 microseconds to go. -/
theorem C101_at_most_two_python_floats_partial (history : List Op)
    (hsub : ∀ s ∈ submissions history, Submittable (binaryRound 53) 3000000 s) (a : GenerateArgs)
    (ws : List Observation)
    (h : (generate (binaryRound 53) (run (binaryRound 53) history) a).1 = .ok ws) (t : ℚ) :
    (underWayFor (150 / 10 ^ 6 / 86400) ws t).length ≤ 2 := by
  refine le_trans (List.Sublist.length_le ?_)
    (C101_at_most_two_partial rounding_binary64 history hsub a ws h t)
  unfold underWayFor
  refine List.monotone_filter_right ws fun o ho => ?_
  simp only [decide_eq_true_eq] at ho ⊢
  exact ⟨ho.1, lt_of_le_of_lt (by norm_num) ho.2⟩

/-- Non-vacuity for C101, and two is the right number: in Python's arithmetic two iterations on these
requests return observations two of which are under way at the instant 7, for long. -/
example : (∀ s ∈ submissions (fourRequests.map Op.add), Submittable (binaryRound 53) 3000000 s) ∧
    ∃ ws, (generate (binaryRound 53) (run (binaryRound 53) (fourRequests.map Op.add))
      (args (fun _ => 0) (-1) twoDraws)).1 = .ok ws ∧
    (underWayFor (150 / 10 ^ 6 / 86400) ws 7).length = 2 := by
  refine ⟨?_, [⟨23 / 2, 86400, 1, []⟩, ⟨6, 172800, 3, []⟩, ⟨13 / 2, 86400, 0, []⟩],
    by kernel_decide, by decide +kernel⟩
  have hs : submissions (fourRequests.map Op.add) = fourRequests := by decide +kernel
  rw [hs]
  intro s hs
  simp only [fourRequests, List.mem_cons, List.not_mem_nil, or_false] at hs
  rcases hs with rfl | rfl | rfl | rfl <;> refine ⟨by norm_num, by decide +kernel, ?_⟩ <;>
    (intro v hv
     simp only [List.mem_cons, List.not_mem_nil, or_false] at hv
     rcases hv with rfl | rfl <;>
       exact ⟨by norm_num [win], by norm_num [win], by decide +kernel⟩)

end Celest.Schedule.Rounded
