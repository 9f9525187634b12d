/-
Properties C80 and C81: calling `generate` more than once.
-/
import Verif.Schedule.PropsGreedy

namespace Celest.Schedule

/-! ### C80 -/

/-- Scheduled rows of `g` are found unchanged, at the same place, in `h`. -/
def Keeps (g h : Handler) : Prop :=
  h.requests.length = g.requests.length ∧
    ∀ (k : ℕ) (b : Request), g.requests[k]? = some b → b.isScheduled = true →
      h.requests[k]? = some b

theorem keeps_of_rows {g h : Handler} (hr : List.Forall₂ KA g.requests h.requests) : Keeps g h := by
  refine ⟨hr.length_eq.symm, fun k b hb hs => ?_⟩
  obtain ⟨c, hc, hka⟩ := forall₂_getElem? hr hb
  rw [hka.eq_of_scheduled hs] at hc
  exact hc

theorem conflict_scheduled {r : Request} {s d : ℚ} (h : conflictsWith r s d = .ok true) :
    r.isScheduled = true := by
  unfold conflictsWith at h
  by_contra hc
  simp [hc] at h

theorem conflict_kept {g h : Handler} (hg : g.Consistent) (hh : h.Consistent) (hk : Keeps g h)
    {s d : ℚ} (hconf : doesConflictExist g s d = .ok true) : doesConflictExist h s d = .ok true := by
  have hsub : ∀ (x : Handler), x.Consistent → ∀ r ∈ x.forLoop, r.Clear ∨ r.Assigned := by
    intro x hx r hr
    rw [forLoop_eq] at hr
    exact hx.rows r (List.mem_of_mem_dropLast hr)
  unfold doesConflictExist at hconf ⊢
  obtain ⟨b, hb, hiff⟩ := anyConflict_ok (hsub g hg) s d
  obtain ⟨b', hb', hiff'⟩ := anyConflict_ok (hsub h hh) s d
  rw [hb] at hconf
  simp only [Except.ok.injEq] at hconf
  obtain ⟨r, hr, hc⟩ := hiff.1 hconf
  rw [hb']
  congr 1
  refine hiff'.2 ⟨r, ?_, hc⟩
  rw [forLoop_eq] at hr ⊢
  obtain ⟨k, hk1⟩ := List.getElem?_of_mem hr
  have hlt := (List.getElem?_eq_some_iff.1 hk1).1
  rw [List.length_dropLast] at hlt
  rw [List.getElem?_dropLast, if_pos hlt] at hk1
  have := hk.2 k r hk1 (conflict_scheduled hc)
  refine List.mem_of_getElem? (i := k) ?_
  rw [List.getElem?_dropLast, if_pos (by rw [hk.1]; exact hlt)]
  exact this

theorem tryVtw_kept {g h : Handler} (hg : g.Consistent) (hh : h.Consistent) (hk : Keeps g h)
    {r : Request} {v : VTW} (ht : tryVtw g r v = .ok none) : tryVtw h r v = .ok none := by
  unfold tryVtw at ht ⊢
  cases hp : proposedStart r v with
  | error e => rw [hp] at ht; cases ht
  | ok o =>
    cases o with
    | none => rfl
    | some s =>
      rw [hp] at ht
      simp only at ht ⊢
      split_ifs at ht ⊢
      · rfl
      · rfl
      · cases hq : imageQuality v s with
        | error e => rw [hq] at ht; cases ht
        | ok q =>
          rw [hq] at ht
          simp only at ht ⊢
          split_ifs at ht ⊢
          · rfl
          · cases hd : doesConflictExist g s (durationInDays r.duration) with
            | error e => rw [hd] at ht; cases ht
            | ok b =>
              cases b with
              | false => rw [hd] at ht; cases ht
              | true => rw [conflict_kept hg hh hk hd]

theorem tryVtws_kept {g h : Handler} (hg : g.Consistent) (hh : h.Consistent) (hk : Keeps g h)
    {r : Request} : ∀ {vs : List VTW} {base : ℕ}, tryVtws g r vs base = .ok none →
      tryVtws h r vs base = .ok none := by
  intro vs
  induction vs with
  | nil => intro _ _; rfl
  | cons v vs ih =>
    intro base ht
    unfold tryVtws at ht ⊢
    split at ht
    · cases ht
    · cases ht
    · rename_i hv
      rw [tryVtw_kept hg hh hk hv]
      exact ih ht

theorem insertLoop_untouched : ∀ (is : List ℕ) (h : Handler) (n : ℤ) (k : ℕ), k ∉ is →
    (insertLoop is h n).1.requests[k]? = h.requests[k]? := by
  intro is
  induction is with
  | nil => intro h n k _; rfl
  | cons i is ih =>
    intro h n k hk
    rw [List.mem_cons, not_or] at hk
    unfold insertLoop
    split
    · rfl
    · split
      · rfl
      · split
        · exact ih h n k hk.2
        · split
          · rfl
          · exact ih h n k hk.2
          · rw [ih _ _ k hk.2, schedule_get_ne h hk.1]

/-- Inserting again inserts nothing and ends in the same way. -/
theorem insertLoop_again : ∀ (is : List ℕ) (h : Handler) (n m : ℤ), h.Consistent → is.Nodup →
    (is.length : ℤ) ≤ n → m ≠ 0 →
    insertLoop is (insertLoop is h n).1 m = insertLoop is h n := by
  intro is
  induction is with
  | nil => intro h n m _ _ _ _; rfl
  | cons i is ih =>
    intro h n m hc hnd hn hm
    rw [List.nodup_cons] at hnd
    have hn0 : n ≠ 0 := by
      rintro rfl
      simp only [List.length_cons] at hn
      omega
    have hlen : (is.length : ℤ) ≤ n - 1 := by
      simp only [List.length_cons] at hn
      push_cast at hn
      omega
    cases hr : h.requests[i]? with
    | none =>
      have e : insertLoop (i :: is) h n = (h, some .indexError) := by
        unfold insertLoop; rw [if_neg hn0, hr]
      rw [e]
      unfold insertLoop; rw [if_neg hm, hr]
    | some r =>
      by_cases hs : r.isScheduled = true
      · have e : ∀ x n', n' ≠ 0 → x.requests[i]? = some r →
            insertLoop (i :: is) x n' = insertLoop is x n' := by
          intro x n' h1 h2
          rw [insertLoop, if_neg h1, h2]
          simp only
          rw [if_pos hs]
        rw [e h n hn0 hr, e _ m hm (by rw [insertLoop_untouched _ _ _ _ hnd.1, hr])]
        exact ih h n m hc hnd.2 (by omega) hm
      · have hs' : r.isScheduled = false := by simpa using hs
        cases ht : tryVtws h r r.vtws 0 with
        | error er =>
          have e : ∀ n', n' ≠ 0 → insertLoop (i :: is) h n' = (h, some er) := by
            intro n' h1
            rw [insertLoop, if_neg h1, hr]
            simp only
            rw [if_neg hs, ht]
          rw [e n hn0, e m hm]
        | ok o =>
          cases o with
          | none =>
            have e : ∀ x n', n' ≠ 0 → x.requests[i]? = some r → tryVtws x r r.vtws 0 = .ok none →
                insertLoop (i :: is) x n' = insertLoop is x n' := by
              intro x n' h1 h2 h3
              rw [insertLoop, if_neg h1, h2]
              simp only
              rw [if_neg hs, h3]
            have hf := insertLoop_facts is h n hc
            rw [e h n hn0 hr ht, e _ m hm (by rw [insertLoop_untouched _ _ _ _ hnd.1, hr])
              (tryVtws_kept hc hf.consistent (keeps_of_rows hf.rows) ht)]
            exact ih h n m hc hnd.2 (by omega) hm
          | some p =>
            obtain ⟨idx, s⟩ := p
            have e : insertLoop (i :: is) h n =
                insertLoop is (h.schedule i idx s r.duration) (n - 1) := by
              rw [insertLoop, if_neg hn0, hr]
              simp only
              rw [if_neg hs, ht]
            obtain ⟨hidx, hf, -⟩ := tryVtws_feasible ht
            obtain ⟨hc1, -⟩ := hc.schedule hr hs' hidx hf
            have hget : (h.schedule i idx s r.duration).requests[i]? =
                some (r.assignWith idx s r) := by
              simp [Handler.schedule, hr, Request.assignWith]
            rw [e]
            have e2 : insertLoop (i :: is)
                (insertLoop is (h.schedule i idx s r.duration) (n - 1)).1 m =
                insertLoop is (insertLoop is (h.schedule i idx s r.duration) (n - 1)).1 m := by
              rw [insertLoop, if_neg hm, insertLoop_untouched _ _ _ _ hnd.1, hget]
              simp only
              rw [if_pos (show (r.assignWith idx s r).isScheduled = true from rfl)]
            rw [e2]
            exact ih _ (n - 1) m hc1 hnd.2 hlen hm

theorem sortPriority_id {h : Handler}
    (hs : h.requests.Pairwise fun a b => b.priority ≤ a.priority) :
    h.sortByDecreasingPriority = h := by
  unfold Handler.sortByDecreasingPriority
  rw [hs.insertionSort_eq]

theorem riseSort_id {h : Handler}
    (hs : ∀ r ∈ h.requests, r.vtws.Pairwise fun a b => a.rise ≤ b.rise) :
    h.sortVtwsByIncreasingRiseTime = h := by
  unfold Handler.sortVtwsByIncreasingRiseTime
  have : (h.requests.map fun r : Request =>
      { r with vtws := r.vtws.insertionSort fun a b => a.rise ≤ b.rise }) = h.requests := by
    conv_rhs => rw [← List.map_id h.requests]
    refine List.map_congr_left fun r hr => ?_
    rw [(hs r hr).insertionSort_eq]
    rfl
  rw [this]

theorem KA.priority {a b : Request} (h : KA a b) : b.priority = a.priority :=
  congrArg Fixed.priority h.fixed

theorem KA.vtws {a b : Request} (h : KA a b) : b.vtws = a.vtws := by
  rcases h with rfl | ⟨-, -, he⟩
  · rfl
  · exact (congrArg Request.vtws he :)

theorem pairwise_forall₂ {α β : Type*} {R : α → β → Prop} {S : α → α → Prop} {T : β → β → Prop}
    (hST : ∀ a a' b b', R a b → R a' b' → S a a' → T b b') {l : List α} {l' : List β}
    (h : List.Forall₂ R l l') (hs : l.Pairwise S) : l'.Pairwise T := by
  induction h with
  | nil => exact List.Pairwise.nil
  | @cons a b l l' h1 h2 ih =>
    rw [List.pairwise_cons] at hs ⊢
    refine ⟨fun b' hb' => ?_, ih hs.2⟩
    obtain ⟨a', ha', hab⟩ := Forall₂.mem_right h2 hb'
    exact hST _ _ _ _ h1 hab (hs.1 a' ha')

/-- The order the initial schedule leaves the requests and their windows in. -/
theorem initial_sorted {h : Handler} (hc : h.Consistent) :
    (initializeSolution h).1.Consistent ∧
    ((initializeSolution h).1.requests.Pairwise fun a b => b.priority ≤ a.priority) ∧
    (∀ r ∈ (initializeSolution h).1.requests, r.vtws.Pairwise fun a b => a.rise ≤ b.rise) ∧
    (initializeSolution h).1.requests.length = h.requests.length := by
  unfold initializeSolution
  simp only
  have hc1 : h.sortByDecreasingPriority.Consistent := hc.of_perm (perm_sortPriority h) rfl
  have hsame := riseSort_facts h.sortByDecreasingPriority
  have hc2 := hc1.of_sameRow hsame rfl
  have hf := insertFirstN_facts h.sortByDecreasingPriority.sortVtwsByIncreasingRiseTime
    h.sortByDecreasingPriority.sortVtwsByIncreasingRiseTime.requests.length hc2
  refine ⟨hf.consistent, ?_, ?_, ?_⟩
  · have h1 : h.sortByDecreasingPriority.sortVtwsByIncreasingRiseTime.requests.Pairwise
        fun a b => b.priority ≤ a.priority :=
      pairwise_forall₂ (fun a a' b b' h1 h2 h3 => by rw [h1.priority, h2.priority]; exact h3)
        hsame (sorted_priority h)
    exact pairwise_forall₂ (fun a a' b b' h1 h2 h3 => by rw [h1.priority, h2.priority]; exact h3)
      hf.rows h1
  · intro r hr
    obtain ⟨a, ha, hab⟩ := Forall₂.mem_right hf.rows hr
    rw [hab.vtws]
    unfold Handler.sortVtwsByIncreasingRiseTime at ha
    simp only [List.mem_map] at ha
    obtain ⟨a', -, rfl⟩ := ha
    have : IsTrans VTW fun a b => a.rise ≤ b.rise := ⟨fun a b c h1 h2 => h1.trans h2⟩
    have : Std.Total fun a b : VTW => a.rise ≤ b.rise := ⟨fun a b => le_total _ _⟩
    exact List.pairwise_insertionSort _ _
  · rw [← hf.rows.length_eq, ← hsame.length_eq]
    exact (perm_sortPriority h).length_eq

/-- Computing the initial schedule again changes nothing, also after a failure. -/
theorem initializeSolution_again {h : Handler} (hc : h.Consistent) :
    initializeSolution (initializeSolution h).1 = initializeSolution h := by
  obtain ⟨hc', hs1, hs2, hlen⟩ := initial_sorted hc
  generalize hg : (initializeSolution h).1 = g at hc' hs1 hs2 hlen
  have e : initializeSolution g = insertFirstN g g.requests.length := by
    unfold initializeSolution
    simp only
    rw [sortPriority_id hs1, riseSort_id hs2]
  rw [e]
  subst hg
  unfold initializeSolution at hlen ⊢
  simp only at hlen ⊢
  have hc1 : h.sortByDecreasingPriority.Consistent := hc.of_perm (perm_sortPriority h) rfl
  have hsame := riseSort_facts h.sortByDecreasingPriority
  have hc2 := hc1.of_sameRow hsame rfl
  generalize h.sortByDecreasingPriority.sortVtwsByIncreasingRiseTime = x at hc2
  unfold insertFirstN
  have hl : (insertLoop (List.range x.requests.length) x x.requests.length).1.requests.length =
      x.requests.length := (insertLoop_facts _ x _ hc2).rows.length_eq.symm
  rw [hl]
  by_cases h0 : x.requests.length = 0
  · rw [h0]; rfl
  · exact insertLoop_again _ x _ _ hc2 (List.nodup_range) (by simp) (by exact_mod_cast h0)

/-- **C80.** Generating a schedule again without new requests is unaffected by the first
generation: whatever the arguments and random outcomes of the first call, and whether it
returned or raised, the second call returns or raises exactly what it would have without it, and
leaves the scheduler in the same state. -/
theorem C80_second_generation_unaffected (history : List Op) (a a' : GenerateArgs) :
    generate (run (history ++ [.generate a])) a' = generate (run history) a' := by
  have e : run (history ++ [.generate a]) = (generate (run history) a).2 := by
    simp [run, List.foldl_append, step]
  rw [e]
  obtain ⟨hc, -⟩ := inv_run history
  generalize run history = h at hc
  have hlen := (initial_sorted hc).2.2.2
  have hagain := initializeSolution_again hc
  by_cases h0 : h.requests.length = 0
  · simp [generate, h0]
  · have e2 : (generate h a).2 = (initializeSolution h).1 := by
      unfold generate
      rw [if_neg h0]
      split <;> rename_i heq <;> rw [heq]
    rw [e2]
    unfold generate
    rw [hagain, hlen, if_neg h0, if_neg h0]

/-- Any number of generations in a row. -/
theorem C80_generations_unaffected (history : List Op) (as : List GenerateArgs)
    (a' : GenerateArgs) :
    generate (run (history ++ as.map Op.generate)) a' = generate (run history) a' := by
  induction as generalizing history with
  | nil => simp
  | cons a as ih =>
    have := ih (history ++ [.generate a])
    rw [List.append_assoc] at this
    simp only [List.cons_append, List.nil_append] at this
    rw [List.map_cons, this]
    exact C80_second_generation_unaffected history a a'

/-- Non-vacuity for C80: a first generation that searches, and returns other windows than the
second one, which makes no iteration. -/
example :
    (generate (run (fourRequests.map Op.add)) (args (fun _ => 0) (-1) twoDraws)).1 ≠
      (generate (run (fourRequests.map Op.add)) (args (fun _ => 0) (-1) [])).1 ∧
    (generate (run (fourRequests.map Op.add)) (args (fun _ => 0) (-1) twoDraws)).1.toBool = true ∧
    (generate (run (fourRequests.map Op.add)) (args (fun _ => 0) (-1) [])).1.toBool = true := by
  decide +kernel

/-! ### C81 -/

theorem initial_rows {h : Handler} (hc : h.Consistent) :
    List.Forall₂ KeptOrAssigned h.sortByDecreasingPriority.requests
      (initializeSolution h).1.requests := by
  unfold initializeSolution
  simp only
  have hc1 : h.sortByDecreasingPriority.Consistent := hc.of_perm (perm_sortPriority h) rfl
  have hsame := riseSort_facts h.sortByDecreasingPriority
  have hf := insertFirstN_facts h.sortByDecreasingPriority.sortVtwsByIncreasingRiseTime
    h.sortByDecreasingPriority.sortVtwsByIncreasingRiseTime.requests.length
    (hc1.of_sameRow hsame rfl)
  exact Forall₂.compose (R := SameRow) (S := KA) (fun _ _ _ h1 h2 => h1.keptOrAssigned h2)
    hsame hf.rows

theorem KeptOrAssigned.observation {r r' : Request} (h : KeptOrAssigned r r') {o : Observation}
    (ho : toObservation r = .ok (some o)) : toObservation r' = .ok (some o) := by
  unfold toObservation at ho
  split at ho
  · rename_i hs
    rcases h with ⟨hp, he⟩ | ⟨hu, -⟩
    · rw [he]
      unfold toObservation
      simp only [hs, if_true]
      split at ho
      · rename_i i s d h1 h2 h3
        have hl := hp.length_eq
        split at ho
        · rename_i v hv
          have hi := (List.getElem?_eq_some_iff.1 hv).1
          rw [List.getElem?_eq_getElem (by omega)]
          exact ho
        · cases ho
      · cases ho
    · rw [hs] at hu; cases hu
  · cases ho

theorem toObservations_sublist : ∀ {l l' : List Request} {ws ws' : List Observation},
    (∃ k, k.Sublist l' ∧ List.Forall₂ KeptOrAssigned l k) → toObservations l = .ok ws →
    toObservations l' = .ok ws' → ws.Sublist ws' := by
  intro l l'
  induction l' generalizing l with
  | nil =>
    rintro ws ws' ⟨k, hk, hf⟩ h h'
    rw [List.sublist_nil] at hk
    subst hk
    cases hf
    simp only [toObservations, Except.ok.injEq] at h h'
    subst h; subst h'
    exact List.Sublist.refl _
  | cons x l' ih =>
    rintro ws ws' ⟨k, hk, hf⟩ h h'
    unfold toObservations at h'
    cases hx : toObservation x with
    | error e => rw [hx] at h'; cases h'
    | ok o =>
      rw [hx] at h'
      simp only at h'
      cases hr : toObservations l' with
      | error e => rw [hr] at h'; cases h'
      | ok os =>
        rw [hr] at h'
        simp only [Except.ok.injEq] at h'
        subst h'
        cases hk with
        | cons _ hk =>
          exact (ih ⟨k, hk, hf⟩ h hr).trans (List.sublist_append_right _ _)
        | cons_cons _ hk =>
          cases hf with
          | @cons r _ l _ h1 h2 =>
            unfold toObservations at h
            cases hy : toObservation r with
            | error e => rw [hy] at h; cases h
            | ok p =>
              rw [hy] at h
              simp only at h
              cases hz : toObservations l with
              | error e => rw [hz] at h; cases h
              | ok ps =>
                rw [hz] at h
                simp only [Except.ok.injEq] at h
                subst h
                have := ih ⟨_, hk, h2⟩ hz hr
                cases p with
                | none => exact this.trans (List.sublist_append_right _ _)
                | some q =>
                  rw [h1.observation hy] at hx
                  simp only [Except.ok.injEq] at hx
                  subst hx
                  exact List.Sublist.append (List.Sublist.refl _) this

/-- A generation without iterations returns the initial schedule. -/
theorem generate_without_search {h : Handler} {a : GenerateArgs} (ha : a.draws = [])
    {ws : List Observation} (hg : (generate h a).1 = .ok ws) :
    (generate h a).2 = (initializeSolution h).1 ∧
      toObservations (initializeSolution h).1.requests.dropLast = .ok ws := by
  unfold generate at hg ⊢
  split at hg
  · cases hg
  · rename_i h0
    rw [if_neg h0]
    split at hg
    · cases hg
    · rename_i h' heq
      rw [heq]
      refine ⟨rfl, ?_⟩
      simp only at hg
      have hsolve : Alns.solve problem (solveParams a h'.requests.length) h' a.draws = .ok h' := by
        unfold Alns.solve Alns.solveTrace
        rw [ha]
        split <;> rfl
      rw [hsolve] at hg
      simp only at hg
      unfold outputWindows at hg
      rw [forLoop_eq] at hg
      exact hg

theorem run_adds (history : List Op) (subs : List Submission) :
    (run (history ++ subs.map Op.add)).requests =
      (run history).requests ++ subs.map Submission.row := by
  induction subs generalizing history with
  | nil => simp
  | cons s subs ih =>
    have h1 := ih (history ++ [.add s])
    rw [List.append_assoc] at h1
    simp only [List.cons_append, List.nil_append] at h1
    rw [List.map_cons, h1]
    have h2 : (run (history ++ [.add s])).requests = (run history).requests ++ [s.row] := by
      simp [run, List.foldl_append, step, addSubmission, Handler.addRequest, Submission.row]
    rw [h2]
    simp

theorem forall₂_dropLast {α β : Type*} {R : α → β → Prop} {l : List α} {l' : List β}
    (h : List.Forall₂ R l l') : List.Forall₂ R l.dropLast l'.dropLast := by
  rw [List.dropLast_eq_take, List.dropLast_eq_take, h.length_eq]
  exact List.forall₂_take _ h

theorem sublist_dropLast {α : Type*} {l l' : List α} (h : l.Sublist l') :
    l.dropLast.Sublist l'.dropLast := by
  induction h with
  | slnil => exact List.Sublist.refl _
  | @cons l l' a h ih =>
    cases l' with
    | nil => rw [List.sublist_nil] at h; subst h; exact List.Sublist.refl _
    | cons b l' => rw [List.dropLast_cons_cons]; exact ih.cons a
  | @cons_cons l l' a h ih =>
    cases l with
    | nil => simp
    | cons c l =>
      cases l' with
      | nil => cases h
      | cons b l' => rw [List.dropLast_cons_cons, List.dropLast_cons_cons]; exact ih.cons_cons a

/-- **C81 (partial).** If neither call makes search iterations, submitting further requests and
generating again keeps every observation planned by the first call, at the same time and in the
same order.  Missing: calls that search, where the claim is false (`C81_search_cancels`,
`C81_improvement_forgotten`). -/
theorem C81_planned_observations_kept_partial (history : List Op) (subs : List Submission)
    (a a' : GenerateArgs) (ha : a.draws = []) (ha' : a'.draws = []) (ws ws' : List Observation)
    (h : (generate (run history) a).1 = .ok ws)
    (h' : (generate (run (history ++ [.generate a] ++ subs.map Op.add)) a').1 = .ok ws') :
    ws.Sublist ws' := by
  obtain ⟨hc, -⟩ := inv_run history
  obtain ⟨hc', -⟩ := inv_run (history ++ [.generate a] ++ subs.map Op.add)
  obtain ⟨e1, e2⟩ := generate_without_search ha h
  obtain ⟨-, e3⟩ := generate_without_search ha' h'
  have hreq := run_adds (history ++ [.generate a]) subs
  have er : run (history ++ [.generate a]) = (generate (run history) a).2 := by
    simp [run, List.foldl_append, step]
  rw [er, e1] at hreq
  generalize run (history ++ [.generate a] ++ subs.map Op.add) = g at hc' e3 hreq
  have hsorted := (initial_sorted hc).2.1
  have hsub : (initializeSolution (run history)).1.requests.Sublist
      g.sortByDecreasingPriority.requests := by
    have : IsTrans Request fun a b => b.priority ≤ a.priority := ⟨fun a b c h1 h2 => h2.trans h1⟩
    have : Std.Total fun a b : Request => b.priority ≤ a.priority := ⟨fun a b => le_total _ _⟩
    unfold Handler.sortByDecreasingPriority
    refine List.sublist_insertionSort hsorted ?_
    rw [hreq]
    exact List.sublist_append_left _ _
  obtain ⟨k, hk, hf⟩ := Forall₂.sublist (initial_rows hc') hsub
  refine toObservations_sublist ⟨k.dropLast, sublist_dropLast hk, ?_⟩ e2 e3
  exact forall₂_dropLast hf

/-- Two requests, then two more that exclude the first one. -/
def firstTwo : List Submission :=
  [⟨0, 100, 86400, 5, 1, none, [win 0 10, win 1 11]⟩, ⟨1, 100, 86400, 1, 1, none, [win 50 60]⟩]

@[inherit_doc firstTwo]
def nextTwo : List Submission :=
  [⟨2, 100, 86400, 4, 1, none, [win 0 9]⟩, ⟨3, 100, 86400, 4, 1, none, [win 1 10]⟩]

/-- Arguments of a generation with one iteration: random removal of the first request, minimum
opportunity insertion. -/
def oneIteration : GenerateArgs := args (fun _ => 0) (-1) [⟨0, 1 / 2, 0, fun _ => 0⟩]

/-- **C81 (failure).** A search can cancel an observation planned before. -/
theorem C81_search_cancels :
    ∃ (subs subs' : List Submission) (a a' : GenerateArgs) (ws ws' : List Observation)
      (o : Observation),
      (generate (run (subs.map Op.add)) a).1 = .ok ws ∧
      (generate (run (subs.map Op.add ++ [.generate a] ++ subs'.map Op.add)) a').1 = .ok ws' ∧
      o ∈ ws ∧ ∀ o' ∈ ws', o'.location ≠ o.location :=
  ⟨firstTwo, nextTwo, args (fun _ => 0) (-1) [], oneIteration, [⟨11 / 2, 86400, 0, []⟩],
    [⟨5, 86400, 2, []⟩, ⟨6, 86400, 3, []⟩, ⟨111 / 2, 86400, 1, []⟩], ⟨11 / 2, 86400, 0, []⟩,
    by decide +kernel⟩

/-- **C81 (failure).** What a search gained is forgotten: after any generation, a generation
without iterations plans again exactly the initial schedule. -/
theorem C81_improvement_forgotten (history : List Op) (a a' : GenerateArgs) (ha' : a'.draws = [])
    (ws : List Observation)
    (h : (generate (run (history ++ [.generate a])) a').1 = .ok ws) :
    toObservations (initializeSolution (run history)).1.requests.dropLast = .ok ws := by
  rw [C80_second_generation_unaffected] at h
  exact (generate_without_search ha' h).2

/-- Non-vacuity for C81: what is forgotten is a plan of three observations against one, and
without search the first observation is kept. -/
example :
    (generate (run ((firstTwo ++ nextTwo).map Op.add)) oneIteration).1.toOption.map List.length =
      some 3 ∧
    (generate (run ((firstTwo ++ nextTwo).map Op.add ++ [.generate oneIteration]))
      (args (fun _ => 0) (-1) [])).1 = .ok [⟨11 / 2, 86400, 0, []⟩] ∧
    (generate (run (firstTwo.map Op.add)) (args (fun _ => 0) (-1) [])).1 =
      .ok [⟨11 / 2, 86400, 0, []⟩] := by
  decide +kernel

end Celest.Schedule
