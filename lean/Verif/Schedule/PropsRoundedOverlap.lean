/-
C101: overlaps in floating-point arithmetic after insertion operators and short searches.
-/
import Verif.Schedule.PropsRounded
import Verif.Schedule.PropsOverlap

namespace Celest.Schedule.Rounded

variable {fl : ℚ → ℚ} {ε T : ℚ}

/-- No two of the rows overlap for more than `δ` days. -/
def NearlyDisjoint (δ : ℚ) (l : List Request) : Prop := l.Pairwise fun a b => ¬ RowsOverlapBy δ a b

theorem RowsOverlapBy.symm {δ : ℚ} {a b : Request} (h : RowsOverlapBy δ a b) :
    RowsOverlapBy δ b a := by
  obtain ⟨s, d, s', d', h1, h2, h3, h4, h5, h6, h7⟩ := h
  exact ⟨s', d', s, d, h2, h1, h5, h6, h3, h4, by rwa [overlapLength_comm]⟩

theorem NearlyDisjoint.perm {δ : ℚ} {l l' : List Request} (h : NearlyDisjoint δ l)
    (hp : l'.Perm l) : NearlyDisjoint δ l' :=
  (List.Perm.pairwise_iff (fun h' hov => h' (RowsOverlapBy.symm hov)) hp).2 h

theorem NearlyDisjoint.forall₂ {δ : ℚ} {R : Request → Request → Prop}
    (hR : ∀ a b a' b', R a a' → R b b' → RowsOverlapBy δ a' b' → RowsOverlapBy δ a b)
    {l l' : List Request} (hf : List.Forall₂ R l l') (h : NearlyDisjoint δ l) :
    NearlyDisjoint δ l' := by
  induction hf with
  | nil => exact List.Pairwise.nil
  | cons hab _ ih =>
    rename_i t
    unfold NearlyDisjoint at h ⊢
    rw [List.pairwise_cons] at h ⊢
    refine ⟨fun b' hb' hov => ?_, ih h.2⟩
    obtain ⟨b, hb, e⟩ := Forall₂.mem_right t hb'
    exact h.1 b hb (hR _ _ _ _ hab e hov)

theorem overlap_loose {δ : ℚ} {a b a' b' : Request} (ha : Loose a a') (hb : Loose b b')
    (h : RowsOverlapBy δ a' b') : RowsOverlapBy δ a b := by
  rcases ha with rfl | rfl
  · rcases hb with rfl | rfl
    · exact h
    · obtain ⟨_, _, _, _, _, h2, _⟩ := h
      cases h2
  · obtain ⟨_, _, _, _, h1, _⟩ := h
    cases h1

theorem overlap_sameRow {δ : ℚ} {a b a' b' : Request} (ha : SameRow a a') (hb : SameRow b b')
    (h : RowsOverlapBy δ a' b') : RowsOverlapBy δ a b := by
  obtain ⟨-, ha⟩ := ha
  obtain ⟨-, hb⟩ := hb
  rw [ha, hb] at h
  exact h

theorem insertLoop_nearly_dropLast (hfl : Rounding fl ε) {subs : List Submission} :
    ∀ (is : List ℕ) (h : Handler) (n : ℤ), Good fl T subs h →
      NearlyDisjoint (5 * ε * T) h.requests.dropLast →
      NearlyDisjoint (5 * ε * T) (insertLoop fl is h n).1.requests.dropLast
  | [], _, _, _, hp => hp
  | i :: is, h, n, hg, hp => by
    unfold insertLoop
    split
    · exact hp
    · split
      · exact hp
      · rename_i r hr
        split
        · exact insertLoop_nearly_dropLast hfl is h n hg hp
        · split
          · exact hp
          · exact insertLoop_nearly_dropLast hfl is h n hg hp
          · rename_i idx s ht
            have hrow := hg.ok r (List.mem_of_getElem? hr)
            obtain ⟨hf, hconf⟩ := tryVtws_fits hfl hrow ht
            obtain ⟨v, hv, hv1, hv2, -⟩ := id hf
            obtain ⟨v0, vT, -⟩ := hrow.windows v hv
            refine insertLoop_nearly_dropLast hfl is _ _ (hg.schedule (idx := idx) hr hf) ?_
            have hreq : (h.schedule i idx s r.duration).requests.dropLast =
                h.requests.dropLast.modify i (r.assignWith idx s) := dropLast_modify _ _ _
            rw [hreq]
            have hfree := anyConflict_false hconf
            rw [forLoop_eq] at hfree
            by_cases hi : ∃ r', h.requests.dropLast[i]? = some r'
            · obtain ⟨r', hr'⟩ := hi
              obtain ⟨l₁, l₂, hl, -, hm⟩ := modify_split hr'
              rw [hm]
              have hmem : ∀ a ∈ l₁ ++ r' :: l₂, a ∈ h.requests := fun a ha =>
                (List.dropLast_sublist _).subset (hl ▸ ha)
              rw [hl] at hp hfree
              have key : ∀ a ∈ l₁ ++ r' :: l₂,
                  ¬ RowsOverlapBy (5 * ε * T) a (r.assignWith idx s r') := by
                rintro a ha ⟨s1, d1, s2, d2, h1, h2, h3, h4, h5, h6, h7⟩
                simp only [Request.assignWith, Option.some.injEq] at h5 h6
                subst h5 h6
                have hrowa := hg.ok a (hmem a ha)
                rcases hg.rows a (hmem a ha) with hcl | ⟨-, e2, ss', e1, w, hw, w1, w2, -⟩
                · rw [hcl.1] at h1; cases h1
                · rw [e1, Option.some.injEq] at h3
                  rw [e2, Option.some.injEq] at h4
                  subst h3 h4
                  obtain ⟨w0, wT, -⟩ := hrowa.windows w hw
                  have := conflictsWith_false hfl (T := T) (by linarith) hrow.duration
                    (by linarith) (by linarith) hrowa.duration (by linarith) h1 e1 e2
                    (hfree a ha)
                  rw [overlapLength_comm] at this
                  linarith
              unfold NearlyDisjoint at hp ⊢
              rw [List.pairwise_append, List.pairwise_cons] at hp ⊢
              obtain ⟨p1, ⟨p2, p3⟩, p4⟩ := hp
              refine ⟨p1, ⟨fun b hb hov => key b (by simp [hb]) hov.symm, p3⟩, ?_⟩
              intro a ha b hb
              rcases List.mem_cons.1 hb with rfl | hb
              · exact key a (by simp [ha])
              · exact p4 a ha b (List.mem_cons_of_mem _ hb)
            · rw [List.modify_eq_self]
              · exact hp
              · by_contra hlt
                exact hi ⟨_, List.getElem?_eq_getElem (not_le.1 hlt)⟩

theorem insertion_nearly (hfl : Rounding fl ε) {g : Handler → ℤ → Py Handler}
    (hgm : g ∈ insertionFunctions fl) {subs : List Submission} {h h' : Handler}
    (hg : Good fl T subs h) {n : ℤ} (hd : NearlyDisjoint (5 * ε * T) h.requests)
    (e : g h n = .ok h') : NearlyDisjoint (5 * ε * T) h'.requests.dropLast := by
  simp only [insertionFunctions, List.mem_cons, List.not_mem_nil, or_false] at hgm
  rcases hgm with rfl | rfl | rfl
  · rw [← (settle_ok e).1]
    exact insertLoop_nearly_dropLast hfl _ _ _ (hg.of_perm (perm_sortPriority h))
      ((hd.perm (perm_sortPriority h)).sublist (List.dropLast_sublist _))
  · rw [← (settle_ok e).1]
    exact insertLoop_nearly_dropLast hfl _ _ _ (hg.of_perm (perm_sortIncOpp h))
      ((hd.perm (perm_sortIncOpp h)).sublist (List.dropLast_sublist _))
  · unfold minimumConflictInsertion at e
    split at e
    · cases e
    · rename_i h₁ hs
      rw [← (settle_ok e).1]
      have hsame := sortVtwsLoop_sameRow hs
      exact insertLoop_nearly_dropLast hfl _ _ _ (hg.of_sameRow hsame)
        ((NearlyDisjoint.forall₂ (fun _ _ _ _ => overlap_sameRow) hsame hd).sublist
          (List.dropLast_sublist _))

theorem removal_nearly {f : Handler → ℤ → (ℕ → ℕ) → Py Handler} (hf : f ∈ removalFunctions fl)
    {δ : ℚ} {h h' : Handler} (hd : NearlyDisjoint δ h.requests) {n : ℤ} {picks : ℕ → ℕ}
    (e : f h n picks = .ok h') : NearlyDisjoint δ h'.requests := by
  have loose : ∀ {h₁ : Handler}, NearlyDisjoint δ h₁.requests →
      List.Forall₂ Loose h₁.requests h'.requests → NearlyDisjoint δ h'.requests :=
    fun hd₁ hl => NearlyDisjoint.forall₂ (fun _ _ _ _ => overlap_loose) hl hd₁
  simp only [removalFunctions, List.mem_cons, List.not_mem_nil, or_false] at hf
  rcases hf with rfl | rfl | rfl | rfl
  · exact loose hd (randomRemoval_loose e)
  · exact loose (hd.perm (perm_sortPriority h)) (removeFirstN_loose e)
  · exact loose (hd.perm (perm_sortDecOpp h)) (removeFirstN_loose e)
  · unfold conflictRemoval at e
    split at e
    · cases e
    · rename_i h₁ hs
      exact loose (hd.perm (perm_sortConflict hs)) (removeFirstN_loose e)

/-- The observations returned for a schedule whose rows, but perhaps the last, hardly overlap. -/
theorem output_nearly {δ : ℚ} {best : Handler} {ws : List Observation}
    (hp : NearlyDisjoint δ best.requests.dropLast) (ho : outputWindows best = .ok ws) :
    ws.Pairwise fun o o' =>
      overlapLength o.start (days o.duration) o'.start (days o'.duration) ≤ δ := by
  unfold outputWindows at ho
  rw [forLoop_eq] at ho
  have he := toObservations_facts ho
  have hp' := List.Pairwise.sublist (List.filter_sublist (p := fun r => r.isScheduled)) hp
  generalize best.requests.dropLast.filter (fun r => r.isScheduled) = m at he hp'
  clear ho hp
  induction he with
  | nil => exact List.Pairwise.nil
  | @cons r o l os h1 h2 ih =>
    rw [List.pairwise_cons] at hp' ⊢
    refine ⟨fun o' ho' => ?_, ih hp'.2⟩
    obtain ⟨r', hr', e'⟩ := Forall₂.mem_right h2 ho'
    by_contra hov
    exact hp'.1 r' hr' ⟨o.start, o.duration, o'.start, o'.duration, h1.1, e'.1, h1.2.1, h1.2.2.1,
      e'.2.1, e'.2.2.1, not_le.1 hov⟩

/-- **C101 (partial).** With at most one search iteration no two windows that `generate` returns
for freshly submitted requests overlap for more than `5 ε T` days, for all parameters and draws.
Missing: two iterations and more, for which overlaps of any length occur even without rounding
(`C02_overlap_possible`). -/
theorem C101_one_iteration_partial (hfl : Rounding fl ε) (subs : List Submission)
    (hsub : ∀ s ∈ subs, Submittable fl T s) (a : GenerateArgs) (ha : a.draws.length ≤ 1)
    (ws : List Observation) (h : (generate fl (submit subs) a).1 = .ok ws) :
    ws.Pairwise fun o o' =>
      overlapLength o.start (days o.duration) o'.start (days o'.duration) ≤ 5 * ε * T := by
  obtain ⟨h', best, hi, hs, ho⟩ := generate_ok h
  have hp := C101_initial_schedule_nearly_conflict_free_partial hfl subs hsub
  have hg := initializeSolution_good hfl (good_submit (fl := fl) (T := T)
    fun s hs => (hsub s hs).row)
  rw [hi] at hp hg
  refine output_nearly ?_ ho
  rcases Alns.Rounded.solve_short ha hs with rfl | ⟨remove, hr, insert, hin, picks, removed, e1, e2⟩
  · exact List.Pairwise.sublist (List.dropLast_sublist _) hp
  · exact insertion_nearly hfl hin (removal_good hr hg e1) (removal_nearly hr hp e1) e2

/-- **C101 (partial).** The same in Python's arithmetic, with Julian dates up to 3000000 (the year
3501): two observations overlap for at most 150 microseconds. -/
theorem C101_one_iteration_python_floats_partial (subs : List Submission)
    (hsub : ∀ s ∈ subs, Submittable (binaryRound 53) 3000000 s) (a : GenerateArgs)
    (ha : a.draws.length ≤ 1) (ws : List Observation)
    (h : (generate (binaryRound 53) (submit subs) a).1 = .ok ws) :
    ws.Pairwise fun o o' =>
      overlapLength o.start (days o.duration) o'.start (days o'.duration) ≤
        150 / 10 ^ 6 / 86400 :=
  (C101_one_iteration_partial rounding_binary64 subs hsub a ha ws h).imp fun h =>
    h.trans (by norm_num)

/-- Non-vacuity for C101: one iteration on these requests returns three observations. -/
example : (∀ s ∈ fourPasses, Submittable (binaryRound 53) 3000000 s) ∧
    (generate (binaryRound 53) (submit fourPasses)
      (args (fun _ => 0) (-1) (twoDraws.take 1))).1.map List.length = .ok 3 := by
  refine ⟨fourPasses_submittable, ?_⟩
  decide +kernel

end Celest.Schedule.Rounded
