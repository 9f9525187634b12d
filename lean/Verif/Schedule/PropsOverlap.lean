/-
C02: overlaps between observations after insertion operators and short searches.
-/
import Verif.Schedule.PropsOperators
import Verif.Schedule.PropsSorts
import Verif.Schedule.PropsWeights

namespace Celest.Schedule

/-- No two of the rows overlap. -/
def Disjoint (l : List Request) : Prop := l.Pairwise fun a b => ¬ RowsOverlap a b

theorem Disjoint.perm {l l' : List Request} (h : Disjoint l) (hp : l'.Perm l) : Disjoint l' :=
  (List.Perm.pairwise_iff (fun h' hov => h' (RowsOverlap.symm hov)) hp).2 h

/-- Rows that overlap only if the original rows do. -/
theorem Disjoint.forall₂ {R : Request → Request → Prop}
    (hR : ∀ a b a' b', R a a' → R b b' → RowsOverlap a' b' → RowsOverlap a b)
    {l l' : List Request} (hf : List.Forall₂ R l l') (h : Disjoint l) : Disjoint l' := by
  induction hf with
  | nil => exact List.Pairwise.nil
  | cons hab _ ih =>
    rename_i t
    unfold Disjoint at h ⊢
    rw [List.pairwise_cons] at h ⊢
    refine ⟨fun b' hb' hov => ?_, ih h.2⟩
    obtain ⟨b, hb, e⟩ := Forall₂.mem_right t hb'
    exact h.1 b hb (hR _ _ _ _ hab e hov)

theorem overlap_kept {a b a' b' : Request} (ha : KeptOrCleared a a') (hb : KeptOrCleared b b')
    (h : RowsOverlap a' b') : RowsOverlap a b := by
  rcases ha with rfl | ⟨-, rfl⟩
  · rcases hb with rfl | ⟨-, rfl⟩
    · exact h
    · obtain ⟨_, _, _, _, _, h2, _⟩ := h
      cases h2
  · obtain ⟨_, _, _, _, h1, _⟩ := h
    cases h1

theorem overlap_same {a b a' b' : Request} (ha : SameRow a a') (hb : SameRow b b')
    (h : RowsOverlap a' b') : RowsOverlap a b := by
  obtain ⟨-, ha⟩ := ha
  obtain ⟨-, hb⟩ := hb
  rw [ha, hb] at h
  exact h

/-- Changing one row of a list and dropping the last row commute. -/
theorem dropLast_modify (l : List Request) (i : ℕ) (f : Request → Request) :
    (l.modify i f).dropLast = l.dropLast.modify i f := by
  apply List.ext_getElem?
  intro k
  simp only [List.getElem?_dropLast, List.getElem?_modify, List.length_modify]
  split <;> simp_all

theorem insertLoop_dropLast : ∀ (is : List ℕ) (h : Handler) (n : ℤ),
    Disjoint h.requests.dropLast → Disjoint (insertLoop is h n).1.requests.dropLast
  | [], _, _, hp => hp
  | i :: is, h, n, hp => by
    unfold insertLoop
    split
    · exact hp
    · split
      · exact hp
      · rename_i r hr
        split
        · exact insertLoop_dropLast is h n hp
        · split
          · exact hp
          · exact insertLoop_dropLast is h n hp
          · rename_i idx s ht
            obtain ⟨-, -, hconf⟩ := tryVtws_feasible ht
            refine insertLoop_dropLast is _ _ ?_
            have hreq : (h.schedule i idx s r.duration).requests.dropLast =
                h.requests.dropLast.modify i (r.assignWith idx s) := dropLast_modify _ _ _
            rw [hreq]
            have hfree := anyConflict_false hconf
            rw [forLoop_eq] at hfree
            by_cases hi : ∃ r', h.requests.dropLast[i]? = some r'
            · obtain ⟨r', hr'⟩ := hi
              obtain ⟨l₁, l₂, hl, -, hm⟩ := modify_split hr'
              rw [hm]
              rw [hl] at hp hfree
              have key : ∀ a ∈ l₁ ++ r' :: l₂, ¬ RowsOverlap a (r.assignWith idx s r') := by
                rintro a ha ⟨s1, d1, s2, d2, h1, h2, h3, h4, h5, h6, h7⟩
                simp only [Request.assignWith, Option.some.injEq] at h5 h6
                subst h5 h6
                exact conflictsWith_false (hfree a ha) h1 s1 d1 h3 h4 h7.symm
              unfold Disjoint at hp ⊢
              rw [List.pairwise_append, List.pairwise_cons] at hp ⊢
              obtain ⟨p1, ⟨p2, p3⟩, p4⟩ := hp
              refine ⟨p1, ⟨fun b hb hov => key b (by simp [hb]) hov.symm, p3⟩, ?_⟩
              intro a ha b hb
              rcases List.mem_cons.1 hb with rfl | hb
              · exact key a (by simp [ha])
              · exact p4 a ha b (List.mem_cons_of_mem _ hb)
            · rw [List.modify_eq_self]
              · exact hp
              · by_contra hlt
                exact hi ⟨_, List.getElem?_eq_getElem (not_le.1 hlt)⟩

/-- **C02 (partial).** An insertion operator applied to a schedule without overlaps can make only
the request in the last row overlap others. -/
theorem C02_insertion_partial {g : Handler → ℤ → Py Handler} (hg : g ∈ insertionFunctions)
    (h h' : Handler) (k : ℤ) (hd : Disjoint h.requests) (e : g h k = .ok h') :
    Disjoint h'.requests.dropLast := by
  have settled : ∀ h₁ : Handler, Disjoint h₁.requests → settle (insertFirstN h₁ k) = .ok h' →
      Disjoint h'.requests.dropLast := by
    intro h₁ hd₁ e₁
    have := insertLoop_dropLast (List.range h₁.requests.length) h₁ k
      (hd₁.sublist (List.dropLast_sublist _))
    unfold insertFirstN at e₁
    revert this e₁
    cases insertLoop (List.range h₁.requests.length) h₁ k with
    | mk h₂ r =>
      intro e₁ this
      cases r with
      | none => cases e₁; exact this
      | some x => cases e₁
  simp only [insertionFunctions, List.mem_cons, List.not_mem_nil, or_false] at hg
  rcases hg with rfl | rfl | rfl
  · exact settled _ (hd.perm (perm_sortPriority h)) e
  · exact settled _ (hd.perm (perm_sortIncOpp h)) e
  · unfold minimumConflictInsertion at e
    split at e
    · cases e
    · rename_i h₁ hs
      exact settled h₁ (Disjoint.forall₂ (fun _ _ _ _ => overlap_same)
        (C10_window_conflict_sort_partial h h₁ hs).1 hd) e

/-- **C02 (partial).** Removal operators never make observations overlap. -/
theorem C02_removal_partial {f : Handler → ℤ → (ℕ → ℕ) → Py Handler} (hf : f ∈ removalFunctions)
    (h h' : Handler) (hc : h.Consistent) (k : ℕ) (picks : ℕ → ℕ) (hd : Disjoint h.requests)
    (e : f h k picks = .ok h') : Disjoint h'.requests := by
  obtain ⟨l, hp, hk⟩ := (removal_removed hf hc e).rows
  exact Disjoint.forall₂ (fun _ _ _ _ => overlap_kept) hk (hd.perm hp)

/-- The observations returned for a schedule whose rows, but perhaps the last, do not overlap. -/
theorem output_disjoint {best : Handler} {ws : List Observation}
    (hp : Disjoint best.requests.dropLast) (ho : outputWindows best = .ok ws) :
    ws.Pairwise fun o o' => ¬ ObsOverlap o o' := by
  unfold outputWindows at ho
  rw [forLoop_eq] at ho
  have he := toObservations_facts ho
  have hp' := List.Pairwise.sublist (List.filter_sublist (p := fun r => r.isScheduled)) hp
  generalize best.requests.dropLast.filter (fun r => r.isScheduled) = m at he hp'
  clear ho hp
  induction he with
  | nil => exact List.Pairwise.nil
  | @cons r o l os h1 h2 ih =>
    rw [List.pairwise_cons] at hp' ⊢
    refine ⟨fun o' ho' hov => ?_, ih hp'.2⟩
    obtain ⟨r', hr', e'⟩ := Forall₂.mem_right h2 ho'
    exact hp'.1 r' hr' ⟨o.start, o.duration, o'.start, o'.duration, h1.1, e'.1, h1.2.1, h1.2.2.1,
      e'.2.1, e'.2.2.1, hov⟩

/-- **C02 (partial).** With at most one search iteration the windows returned by `generate` for
freshly submitted requests are pairwise disjoint, for all parameters and draws.  Missing: two
iterations and more, for which the property is false (`C02_overlap_possible` has two). -/
theorem C02_one_iteration_partial (subs : List Submission) (a : GenerateArgs)
    (ha : a.draws.length ≤ 1) (ws : List Observation)
    (h : (generate (submit subs) a).1 = .ok ws) : ws.Pairwise fun o o' => ¬ ObsOverlap o o' := by
  obtain ⟨h', best, hi, hs, ho⟩ := generate_ok h
  have hp := C12_initial_schedule_conflict_free subs
  have hc := (initializeSolution_inv (inv_submit subs)).1
  rw [hi] at hp hc
  refine output_disjoint ?_ ho
  obtain ⟨history, ht⟩ : ∃ history, Alns.solveTrace problem (solveParams a h'.requests.length) h'
      a.draws = .ok (best, history) := by
    unfold Alns.solve at hs
    cases hx : Alns.solveTrace problem (solveParams a h'.requests.length) h' a.draws with
    | error x => rw [hx] at hs; cases hs
    | ok x =>
      rw [hx] at hs
      cases hs
      exact ⟨x.2, rfl⟩
  rcases (Alns.C13_result_is_best ht).2.2 with rfl | ⟨p, hpm, rfl⟩
  · exact List.Pairwise.sublist (List.dropLast_sublist _) hp
  · have hlen := (Alns.C14_stops_exactly_when_complete ht).1
    obtain ⟨k, hk⟩ := List.getElem?_of_mem hpm
    have hk0 : k = 0 := by
      have := (List.getElem?_eq_some_iff.1 hk).1
      omega
    subst hk0
    obtain ⟨d, -, before, hpass, hb, -⟩ := Alns.C17_sequence_partial ht 0 p hk
    rw [hb rfl] at hpass
    obtain ⟨i, j, remove, insert, removed, -, -, hr, hin, e1, e2, -⟩ := Alns.C17_credit_partial hpass
    have hd := C02_removal_partial (List.mem_of_getElem? hr) h' removed hc _ _ hp e1
    exact C02_insertion_partial (List.mem_of_getElem? hin) removed _ _ hd e2

/-- Non-vacuity for C02: one iteration on the four requests returns two observations. -/
example : (generate (submit fourRequests) (args (fun _ => 0) (-1) (twoDraws.take 1))).1 =
    .ok [⟨6, 172800, 3, []⟩, ⟨23 / 2, 86400, 1, []⟩] := by kernel_decide

end Celest.Schedule
