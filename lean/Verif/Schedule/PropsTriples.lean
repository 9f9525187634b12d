/-
C02: how bad overlaps can get, for any number of search iterations.
-/
import Mathlib.Data.List.Triplewise
import Verif.Schedule.PropsOverlap

namespace Celest.Schedule

/-- No three of the rows overlap each other, in the sense of `ov`. -/
def AtMostTwo (ov : Request → Request → Prop) (l : List Request) : Prop :=
  l.Triplewise fun a b c => ¬ (ov a b ∧ ov b c ∧ ov a c)

variable {ov : Request → Request → Prop}

theorem AtMostTwo.perm (hsymm : ∀ a b, ov a b → ov b a) {l l' : List Request}
    (h : AtMostTwo ov l) (hp : l.Perm l') : AtMostTwo ov l' := by
  induction hp with
  | nil => exact h
  | cons x hp ih =>
    unfold AtMostTwo at h ih ⊢
    rw [List.triplewise_cons] at h ⊢
    exact ⟨(hp.pairwise_iff fun {a b} h' ht => h' ⟨ht.2.2, hsymm _ _ ht.2.1, ht.1⟩).1 h.1, ih h.2⟩
  | swap x y l =>
    unfold AtMostTwo at h ⊢
    simp only [List.triplewise_cons, List.pairwise_cons] at h ⊢
    exact ⟨⟨fun a ha ht => h.1.1 a ha ⟨hsymm _ _ ht.1, ht.2.2, ht.2.1⟩, h.2.1⟩, h.1.2, h.2.2⟩
  | trans _ _ ih1 ih2 => exact ih2 (ih1 h)

/-- Rows that overlap only if the original rows do. -/
theorem AtMostTwo.forall₂ {R : Request → Request → Prop}
    (hR : ∀ a b a' b', R a a' → R b b' → ov a' b' → ov a b)
    {l l' : List Request} (hf : List.Forall₂ R l l') (h : AtMostTwo ov l) : AtMostTwo ov l' := by
  induction hf with
  | nil => exact .nil
  | @cons a a' m m' hab t ih =>
    unfold AtMostTwo at h ih ⊢
    rw [List.triplewise_cons] at h ⊢
    refine ⟨?_, ih h.2⟩
    have h1 := h.1
    clear h ih
    induction t with
    | nil => exact .nil
    | @cons b b' m m' hb t ih =>
      rw [List.pairwise_cons] at h1 ⊢
      refine ⟨fun c' hc' ht => ?_, ih h1.2⟩
      obtain ⟨c, hc, e⟩ := Forall₂.mem_right t hc'
      exact h1.1 c hc ⟨hR _ _ _ _ hab hb ht.1, hR _ _ _ _ hb e ht.2.1, hR _ _ _ _ hab e ht.2.2⟩

theorem AtMostTwo.sublist {l l' : List Request} (h : AtMostTwo ov l) (hs : l'.Sublist l) :
    AtMostTwo ov l' := by
  induction hs with
  | slnil => exact h
  | cons a _ ih =>
    unfold AtMostTwo at h
    rw [List.triplewise_cons] at h
    exact ih h.2
  | cons_cons a hs ih =>
    unfold AtMostTwo at h ih ⊢
    rw [List.triplewise_cons] at h ⊢
    exact ⟨h.1.sublist hs, ih h.2⟩

theorem pairwise_of_dropLast {P : Request → Prop} : ∀ (m : List Request),
    (∀ b ∈ m.dropLast, P b) → m.Pairwise fun b _ => P b
  | [], _ => .nil
  | [_], _ => List.pairwise_singleton _ _
  | b :: c :: m, h => by
    rw [List.pairwise_cons]
    refine ⟨fun _ _ => h b (by simp), pairwise_of_dropLast (c :: m) fun x hx => h x ?_⟩
    rw [List.dropLast_cons₂]
    exact List.mem_cons_of_mem _ hx

/-- Replacing a row by one that overlaps no row but perhaps the last creates no triple. -/
theorem AtMostTwo.replace {l₁ l₂ : List Request} {r x : Request}
    (hsymm : ∀ a b, ov a b → ov b a) (h : AtMostTwo ov (l₁ ++ r :: l₂))
    (hx : ∀ b ∈ (l₁ ++ r :: l₂).dropLast, ¬ ov x b) : AtMostTwo ov (l₁ ++ x :: l₂) := by
  have h1 : AtMostTwo ov (r :: (l₁ ++ l₂)) := h.perm hsymm List.perm_middle
  refine AtMostTwo.perm hsymm ?_ (List.perm_middle (a := x) (l₁ := l₁) (l₂ := l₂)).symm
  unfold AtMostTwo at h1 ⊢
  rw [List.triplewise_cons] at h1 ⊢
  refine ⟨?_, h1.2⟩
  refine List.Pairwise.imp (fun {b c} hb ht => hb ht.1)
    (pairwise_of_dropLast (P := fun b => ¬ ov x b) (l₁ ++ l₂) ?_)
  intro b hb
  apply hx
  rw [List.dropLast_append_cons]
  cases l₂ with
  | nil =>
    rw [List.append_nil] at hb
    exact List.mem_append_left _ ((List.dropLast_sublist _).subset hb)
  | cons y l₂ =>
    rw [List.dropLast_append_cons] at hb
    rw [List.dropLast_cons₂]
    rcases List.mem_append.1 hb with hb | hb
    · exact List.mem_append_left _ hb
    · exact List.mem_append_right _ (List.mem_cons_of_mem _ hb)

theorem insertLoop_atMostTwo : ∀ (is : List ℕ) (h : Handler) (n : ℤ),
    AtMostTwo RowsOverlap h.requests → AtMostTwo RowsOverlap (insertLoop is h n).1.requests
  | [], _, _, hp => hp
  | i :: is, h, n, hp => by
    unfold insertLoop
    split
    · exact hp
    · split
      · exact hp
      · rename_i r hr
        split
        · exact insertLoop_atMostTwo is h n hp
        · split
          · exact hp
          · exact insertLoop_atMostTwo is h n hp
          · rename_i idx s ht
            obtain ⟨-, -, hconf⟩ := tryVtws_feasible ht
            refine insertLoop_atMostTwo is _ _ ?_
            obtain ⟨l₁, l₂, hl, -, hm⟩ := modify_split hr
            have hreq : (h.schedule i idx s r.duration).requests =
                l₁ ++ r.assignWith idx s r :: l₂ := hm (r.assignWith idx s)
            rw [hreq]
            have hfree := anyConflict_false hconf
            rw [forLoop_eq] at hfree
            rw [hl] at hp hfree
            refine hp.replace (fun _ _ => RowsOverlap.symm) ?_
            rintro a ha ⟨s2, d2, s1, d1, h2, h1, h5, h6, h3, h4, h7⟩
            simp only [Request.assignWith, Option.some.injEq] at h5 h6
            subst h5 h6
            exact conflictsWith_false (hfree a ha) h1 s1 d1 h3 h4 h7

theorem insertion_atMostTwo {g : Handler → ℤ → Py Handler} (hg : g ∈ insertionFunctions)
    {h h' : Handler} {k : ℤ} (hd : AtMostTwo RowsOverlap h.requests) (e : g h k = .ok h') :
    AtMostTwo RowsOverlap h'.requests := by
  have settled : ∀ h₁ : Handler, AtMostTwo RowsOverlap h₁.requests →
      settle (insertFirstN h₁ k) = .ok h' → AtMostTwo RowsOverlap h'.requests := by
    intro h₁ hd₁ e₁
    have := insertLoop_atMostTwo (List.range h₁.requests.length) h₁ k hd₁
    unfold insertFirstN at e₁
    revert this e₁
    cases insertLoop (List.range h₁.requests.length) h₁ k with
    | mk h₂ r =>
      intro e₁ this
      cases r with
      | none => cases e₁; exact this
      | some x => cases e₁
  simp only [insertionFunctions, List.mem_cons, List.not_mem_nil, or_false] at hg
  rcases hg with rfl | rfl | rfl
  · exact settled _ (hd.perm (fun _ _ => RowsOverlap.symm) (perm_sortPriority h).symm) e
  · exact settled _ (hd.perm (fun _ _ => RowsOverlap.symm) (perm_sortIncOpp h).symm) e
  · unfold minimumConflictInsertion at e
    split at e
    · cases e
    · rename_i h₁ hs
      exact settled h₁ (AtMostTwo.forall₂ (ov := RowsOverlap) (fun _ _ _ _ => overlap_same)
        (C10_window_conflict_sort_partial h h₁ hs).1 hd) e

theorem removal_atMostTwo {f : Handler → ℤ → (ℕ → ℕ) → Py Handler} (hf : f ∈ removalFunctions)
    {h h' : Handler} (hc : h.Consistent) {k : ℕ} {picks : ℕ → ℕ}
    (hd : AtMostTwo RowsOverlap h.requests) (e : f h k picks = .ok h') : AtMostTwo RowsOverlap h'.requests := by
  obtain ⟨l, hp, hk⟩ := (removal_removed hf hc e).rows
  exact AtMostTwo.forall₂ (ov := RowsOverlap) (fun _ _ _ _ => overlap_kept) hk
    (hd.perm (fun _ _ => RowsOverlap.symm) hp.symm)

theorem initializeSolution_atMostTwo {h : Handler} (hd : AtMostTwo RowsOverlap h.requests) :
    AtMostTwo RowsOverlap (initializeSolution h).1.requests := by
  unfold initializeSolution insertFirstN
  refine insertLoop_atMostTwo _ _ _ ?_
  exact AtMostTwo.forall₂ (ov := RowsOverlap) (fun _ _ _ _ => overlap_same) (riseSort_facts _)
    (hd.perm (fun _ _ => RowsOverlap.symm) (perm_sortPriority h).symm)

theorem addSubmission_atMostTwo {h : Handler} (hd : AtMostTwo RowsOverlap h.requests)
    (s : Submission) : AtMostTwo RowsOverlap (addSubmission h s).requests := by
  have hreq : (addSubmission h s).requests = h.requests ++ [s.row] := rfl
  rw [hreq]
  refine AtMostTwo.perm (fun _ _ => RowsOverlap.symm) (l := s.row :: h.requests) ?_
    (List.perm_append_singleton _ _).symm
  unfold AtMostTwo at hd ⊢
  rw [List.triplewise_cons]
  refine ⟨List.pairwise_of_forall fun b c ht => ?_, hd⟩
  obtain ⟨_, _, _, _, h1, _⟩ := ht.1
  cases h1

theorem run_atMostTwo_aux : ∀ (ops : List Op) (h : Handler), AtMostTwo RowsOverlap h.requests →
    AtMostTwo RowsOverlap (ops.foldl step h).requests
  | [], _, hd => hd
  | .add s :: ops, h, hd => run_atMostTwo_aux ops _ (addSubmission_atMostTwo hd s)
  | .generate a :: ops, h, hd => by
    refine run_atMostTwo_aux ops _ ?_
    show AtMostTwo RowsOverlap (generate h a).2.requests
    unfold generate
    split
    · exact hd
    · have := initializeSolution_atMostTwo hd
      split
      · rename_i h' e heq; rw [heq] at this; exact this
      · rename_i h' heq; rw [heq] at this; exact this

/-- Below a sublist of the right-hand side lies a sublist of the left-hand side. -/
theorem forall₂_sublist {α β : Type} {R : α → β → Prop} {l : List α} {m k : List β}
    (h : List.Forall₂ R l m) (hk : k.Sublist m) : ∃ l', List.Forall₂ R l' k ∧ l'.Sublist l := by
  induction hk generalizing l with
  | slnil => exact ⟨[], .nil, by simp⟩
  | cons a _ ih =>
    cases h with
    | cons _ h =>
      obtain ⟨l', h1, h2⟩ := ih h
      exact ⟨l', h1, h2.cons _⟩
  | cons_cons a _ ih =>
    cases h with
    | cons e h =>
      obtain ⟨l', h1, h2⟩ := ih h
      exact ⟨_, .cons e h1, h2.cons_cons _⟩

/-- The observations under way at an instant. -/
def underWay (ws : List Observation) (t : ℚ) : List Observation :=
  ws.filter fun o => o.start ≤ t ∧ t < o.start + days o.duration

/-- **C02 (partial).** After any history of calls, for any number of iterations, any parameters and
any draws: at no instant are more than two of the observations returned by `generate` under way.
Missing: not more than one, which is false (`C02_overlap_possible`). -/
theorem C02_at_most_two_partial (history : List Op) (a : GenerateArgs) (ws : List Observation)
    (h : (generate (run history) a).1 = .ok ws) (t : ℚ) : (underWay ws t).length ≤ 2 := by
  obtain ⟨h', best, hi, hs, ho⟩ := generate_ok h
  have h0 : AtMostTwo RowsOverlap (run history).requests :=
    run_atMostTwo_aux history Handler.empty (by simp [AtMostTwo, Handler.empty])
  have h1 := initializeSolution_atMostTwo h0
  have hinv := initializeSolution_inv (inv_run history)
  rw [hi] at h1 hinv
  obtain ⟨tr, htr⟩ := Alns.solve_trace hs
  have hb : AtMostTwo RowsOverlap best.requests := by
    refine (Alns.solveTrace_invariant
      (Inv := fun s => Inv (submissions history) s ∧ AtMostTwo RowsOverlap s.requests) ?_ ?_
      ⟨hinv, h1⟩ htr).1.2
    · intro f hf s s' picks hs he
      exact ⟨removal_inv hf hs.1 he, removal_atMostTwo hf hs.1.1 hs.2 he⟩
    · intro g hg s s' hs he
      exact ⟨insertion_inv hg hs.1 he, insertion_atMostTwo hg hs.2 he⟩
  have he := toObservations_facts ho
  rw [forLoop_eq] at he
  have hm := hb.sublist (sublist_filter_dropLast best.requests)
  generalize best.requests.dropLast.filter (fun r => r.isScheduled) = m at he hm
  by_contra hlt
  rw [not_le] at hlt
  obtain ⟨o₁, o₂, o₃, l, hl⟩ : ∃ o₁ o₂ o₃ l, underWay ws t = o₁ :: o₂ :: o₃ :: l := by
    generalize underWay ws t = u at hlt
    match u, hlt with
    | [], hlt => simp at hlt
    | [_], hlt => simp at hlt
    | [_, _], hlt => simp at hlt
    | o₁ :: o₂ :: o₃ :: l, _ => exact ⟨o₁, o₂, o₃, l, rfl⟩
  have hin : ∀ o ∈ underWay ws t, o.start ≤ t ∧ t < o.start + days o.duration := by
    intro o ho
    simpa using (List.mem_filter.1 ho).2
  have hsub : [o₁, o₂, o₃].Sublist ws := by
    refine List.Sublist.trans ?_ (List.filter_sublist (l := ws)
      (p := fun o => decide (o.start ≤ t ∧ t < o.start + days o.duration)))
    change [o₁, o₂, o₃].Sublist (underWay ws t)
    rw [hl]
    simp
  obtain ⟨l', hl', hsm⟩ := forall₂_sublist he hsub
  obtain ⟨r₁, l₁, e₁, hl₁, rfl⟩ := List.forall₂_cons_right_iff.1 hl'
  obtain ⟨r₂, l₂, e₂, hl₂, rfl⟩ := List.forall₂_cons_right_iff.1 hl₁
  obtain ⟨r₃, l₃, e₃, hl₃, rfl⟩ := List.forall₂_cons_right_iff.1 hl₂
  obtain rfl := List.forall₂_nil_right_iff.1 hl₃
  have t1 := hin o₁ (by rw [hl]; simp)
  have t2 := hin o₂ (by rw [hl]; simp)
  have t3 := hin o₃ (by rw [hl]; simp)
  have hov : ∀ {r r' : Request} {o o' : Observation}, Emits r o → Emits r' o' →
      (o.start ≤ t ∧ t < o.start + days o.duration) →
      (o'.start ≤ t ∧ t < o'.start + days o'.duration) → RowsOverlap r r' := by
    intro r r' o o' e e' ht ht'
    exact ⟨o.start, o.duration, o'.start, o'.duration, e.1, e'.1, e.2.1, e.2.2.1, e'.2.1, e'.2.2.1,
      lt_of_le_of_lt ht.1 ht'.2, lt_of_le_of_lt ht'.1 ht.2⟩
  exact List.triplewise_triple.1 (hm.sublist hsm)
    ⟨hov e₁ e₂ t1 t2, hov e₂ e₃ t2 t3, hov e₁ e₃ t1 t3⟩

/-- Non-vacuity for C02, and two is the right number: after two iterations on the four requests two
observations are under way at the instant 7. -/
example : ∃ ws, (generate (submit fourRequests) (args (fun _ => 0) (-1) twoDraws)).1 = .ok ws ∧
    (underWay ws 7).length = 2 :=
  ⟨[⟨23 / 2, 86400, 1, []⟩, ⟨6, 172800, 3, []⟩, ⟨13 / 2, 86400, 0, []⟩], by kernel_decide,
    by decide +kernel⟩

end Celest.Schedule
