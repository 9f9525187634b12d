/-
How the insertion operators choose: C65 (recorded window index), C67 (exhaustiveness) and
C68 (order of service); and what random removal can choose: C66.
-/
import Verif.Schedule.PropsSorts

namespace Celest.Schedule

/-! ### one window, one request -/

theorem tryVtws_none {h : Handler} {r : Request} : ∀ {vs : List VTW} {base : ℕ},
    tryVtws h r vs base = .ok none → ∀ v ∈ vs, tryVtw h r v = .ok none := by
  intro vs
  induction vs with
  | nil => intro _ _ v hv; cases hv
  | cons w vs ih =>
    intro base ht v hv
    unfold tryVtws at ht
    split at ht
    · cases ht
    · cases ht
    · rename_i hw
      rcases List.mem_cons.1 hv with rfl | hv
      · exact hw
      · exact ih ht v hv

theorem tryVtw_none {h : Handler} {r : Request} {v : VTW} {s : ℚ} (ht : tryVtw h r v = .ok none)
    (hs : StartsAt r v s) (hf : FitsIn r v s) :
    doesConflictExist h s (days r.duration) = .ok true := by
  have hp := proposedStart_iff.2 hs
  obtain ⟨f1, f2, f3, f4⟩ := hf
  unfold tryVtw at ht
  rw [hp] at ht
  have hd : durationInDays r.duration = days r.duration := rfl
  simp only [hd] at ht
  rw [if_neg (by simp [isWithinBounds, f1, f2]), if_neg (by simp [meetsDeadline, f3])] at ht
  cases hq : imageQuality v s with
  | error e => rw [hq] at ht; cases ht
  | ok q =>
    rw [hq] at ht
    simp only at ht
    rw [if_neg (by rw [(imageQuality_ok hq).1]; simpa using f4)] at ht
    cases hc : doesConflictExist h s (days r.duration) with
    | error e => rw [hc] at ht; cases ht
    | ok b =>
      rw [hc] at ht
      cases b with
      | true => rfl
      | false => cases ht

theorem conflict_occupied {h : Handler} (hc : h.Consistent)
    (hpos : ∀ r ∈ h.requests, 0 < r.duration) {s d : ℚ} (hd : 0 < d)
    (hconf : doesConflictExist h s d = .ok true) : ∃ b ∈ h.requests, Occupies b s d := by
  have hsub : ∀ r ∈ h.forLoop, r ∈ h.requests := by
    intro r hr
    rw [forLoop_eq] at hr
    exact List.mem_of_mem_dropLast hr
  obtain ⟨b, hb, hiff⟩ := anyConflict_ok (l := h.forLoop) (fun r hr => hc.rows r (hsub r hr)) s d
  unfold doesConflictExist at hconf
  rw [hconf] at hb
  cases hb
  obtain ⟨r, hr, hcr⟩ := hiff.1 rfl
  refine ⟨r, hsub r hr, ?_⟩
  obtain ⟨hs, ss, sd, h1, h2, h3⟩ := conflictsWith_true hcr hd (by
    intro sd hsd
    rcases hc.rows r (hsub r hr) with h1 | h1
    · rw [h1.2.2.2] at hsd; cases hsd
    · rw [h1.2.2.1] at hsd; cases hsd; exact hpos r (hsub r hr))
  exact ⟨hs, ss, sd, h1, h2, h3⟩

/-! ### the insertion loop -/

theorem KA.eq_of_scheduled {a b : Request} (h : KA a b) (ha : a.isScheduled = true) : b = a := by
  rcases h with h | ⟨hu, -⟩
  · exact h
  · rw [ha] at hu; cases hu

theorem KA.eq_of_unscheduled {a b : Request} (h : KA a b) (hb : b.isScheduled = false) : b = a := by
  rcases h with h | ⟨-, ha, -⟩
  · exact h
  · rw [ha.1] at hb; cases hb

theorem forall₂_getElem? {α β : Type*} {R : α → β → Prop} {l : List α} {l' : List β}
    (h : List.Forall₂ R l l') {i : ℕ} {a : α} (ha : l[i]? = some a) :
    ∃ b, l'[i]? = some b ∧ R a b := by
  induction h generalizing i with
  | nil => simp at ha
  | cons h1 _ ih =>
    cases i with
    | zero => simp only [List.getElem?_cons_zero, Option.some.injEq] at ha; subst ha; exact ⟨_, rfl, h1⟩
    | succ i => simpa using ih (by simpa using ha)

theorem forall₂_getElem?_right {α β : Type*} {R : α → β → Prop} {l : List α} {l' : List β}
    (h : List.Forall₂ R l l') {i : ℕ} {b : β} (hb : l'[i]? = some b) :
    ∃ a, l[i]? = some a ∧ R a b := by
  induction h generalizing i with
  | nil => simp at hb
  | cons h1 _ ih =>
    cases i with
    | zero => simp only [List.getElem?_cons_zero, Option.some.injEq] at hb; subst hb; exact ⟨_, rfl, h1⟩
    | succ i => simpa using ih (by simpa using hb)

theorem schedule_get_ne (h : Handler) {i k idx : ℕ} {s d : ℚ} (hk : k ≠ i) :
    (h.schedule i idx s d).requests[k]? = h.requests[k]? := by
  simp only [Handler.schedule]
  exact List.getElem?_modify_ne _ _ (Ne.symm hk)

/-- Why a visited row stayed unscheduled: when it was visited, no window was acceptable. -/
theorem insertLoop_visited : ∀ (m i : ℕ) (h : Handler) (n : ℤ) (h' : Handler),
    i + m = h.requests.length → h.Consistent →
    insertLoop (List.range' i m) h n = (h', none) →
    ∀ (j : ℕ) (r r' : Request), i ≤ j → h.requests[j]? = some r → h'.requests[j]? = some r' →
    r'.isScheduled = false →
    (h'.numScheduled < h.numScheduled + n ∨
      ∃ k a b, j < k ∧ h.requests[k]? = some a ∧ a.isScheduled = false ∧
        h'.requests[k]? = some b ∧ b.isScheduled = true) →
    ∃ hj : Handler, hj.Consistent ∧ List.Forall₂ KA h.requests hj.requests ∧
      tryVtws hj r r.vtws 0 = .ok none ∧
      ∀ k b, hj.requests[k]? = some b → b.isScheduled = true →
        h'.requests[k]? = some b ∧ (h.requests[k]? = some b ∨ k < j) := by
  intro m
  induction m with
  | zero =>
    intro i h n h' hlen _ _ j r r' hij hr
    have := (List.getElem?_eq_some_iff.1 hr).1
    omega
  | succ m ih =>
    intro i h n h' hlen hc e j r r' hij hr hr' hu hwhy
    have hfacts := insertLoop_facts (List.range' i (m + 1)) h n hc
    rw [e] at hfacts
    rw [List.range'_succ] at e
    unfold insertLoop at e
    split at e
    · rename_i hn
      simp only [Prod.mk.injEq, and_true] at e
      subst e
      exfalso
      rcases hwhy with hlt | ⟨k, a, b, -, h1, h2, h3, h4⟩
      · omega
      · rw [h1] at h3; cases h3; rw [h2] at h4; cases h4
    · split at e
      · simp at e
      · rename_i ri hri
        have hstep : i ≠ j → ∀ (hs : insertLoop (List.range' (i + 1) m) h n = (h', none)),
            ∃ hj : Handler, hj.Consistent ∧ List.Forall₂ KA h.requests hj.requests ∧
              tryVtws hj r r.vtws 0 = .ok none ∧
              ∀ k b, hj.requests[k]? = some b → b.isScheduled = true →
                h'.requests[k]? = some b ∧ (h.requests[k]? = some b ∨ k < j) :=
          fun hne hs => ih (i + 1) h n h' (by omega) hc hs j r r' (by omega) hr hr' hu hwhy
        split at e
        · rename_i hsi
          refine hstep ?_ e
          rintro rfl
          rw [hri] at hr; cases hr
          obtain ⟨b, hb, hka⟩ := forall₂_getElem? hfacts.rows hri
          rw [hr'] at hb; cases hb
          rw [hka.eq_of_scheduled hsi, hsi] at hu; cases hu
        · rename_i hsi
          split at e
          · simp at e
          · rename_i htn
            by_cases hji : i = j
            · subst hji
              rw [hri] at hr; cases hr
              refine ⟨h, hc, forall₂_refl KA.refl _, htn, fun k b hb hbs => ?_⟩
              obtain ⟨b', hb', hka⟩ := forall₂_getElem? hfacts.rows hb
              rw [hka.eq_of_scheduled hbs] at hb'
              exact ⟨hb', Or.inl hb⟩
            · exact hstep hji e
          · rename_i idx s ht
            obtain ⟨hidx, hf, -⟩ := tryVtws_feasible ht
            obtain ⟨hc1, hrows1⟩ := hc.schedule hri (by simpa using hsi) hidx hf
            have hji : j ≠ i := by
              rintro rfl
              rw [hri] at hr; cases hr
              have h2 := insertLoop_facts (List.range' (j + 1) m) _ (n - 1) hc1
              rw [e] at h2
              have hget : (h.schedule j idx s r.duration).requests[j]? =
                  some (r.assignWith idx s r) := by
                simp [Handler.schedule, hri, Request.assignWith]
              obtain ⟨b, hb, hka⟩ := forall₂_getElem? h2.rows hget
              rw [hr'] at hb; cases hb
              rw [hka.eq_of_scheduled rfl] at hu
              cases hu
            obtain ⟨hj, c1, f1, c2, c3⟩ := ih (i + 1) _ (n - 1) h'
              (by simp [Handler.schedule]; omega) hc1 e j r r' (by omega)
              (by rw [schedule_get_ne h hji]; exact hr) hr' hu (by
                rcases hwhy with hlt | ⟨k, a, b, hk, h1, h2, h3, h4⟩
                · left
                  have : (h.schedule i idx s ri.duration).numScheduled = h.numScheduled + 1 := rfl
                  rw [this]; omega
                · exact Or.inr ⟨k, a, b, hk, by rw [schedule_get_ne h (by omega)]; exact h1, h2, h3, h4⟩)
            refine ⟨hj, c1, Forall₂.trans' (R := KA) (fun _ _ _ => KA.trans) hrows1 f1, c2,
              fun k b hb hbs => ?_⟩
            obtain ⟨d1, d2⟩ := c3 k b hb hbs
            refine ⟨d1, ?_⟩
            rcases d2 with d2 | d2
            · by_cases hk : k = i
              · right; omega
              · left; rwa [schedule_get_ne h hk] at d2
            · exact Or.inr d2

theorem SameRow.duration {a b : Request} (h : SameRow a b) : b.duration = a.duration := by
  rw [h.2]

theorem SameRow.priority {a b : Request} (h : SameRow a b) : b.priority = a.priority := by
  rw [h.2]

theorem KA.duration {a b : Request} (h : KA a b) : b.duration = a.duration :=
  congrArg Fixed.duration h.fixed

/-- The general statement behind C67 and C68. -/
theorem insertFirstN_blocked {h h' : Handler} {n : ℤ} (hc : h.Consistent)
    (hpos : ∀ r ∈ h.requests, 0 < r.duration) (e : insertFirstN h n = (h', none))
    {j : ℕ} {r r' : Request} (hr : h.requests[j]? = some r) (hr' : h'.requests[j]? = some r')
    (hu : r'.isScheduled = false)
    (hwhy : h'.numScheduled < h.numScheduled + n ∨
      ∃ k a b, j < k ∧ h.requests[k]? = some a ∧ a.isScheduled = false ∧
        h'.requests[k]? = some b ∧ b.isScheduled = true)
    {v : VTW} (hv : v ∈ r.vtws) {s : ℚ} (hs : StartsAt r v s) (hf : FitsIn r v s) :
    ∃ (k : ℕ) (c c' : Request), h.requests[k]? = some c ∧ h'.requests[k]? = some c' ∧
      Occupies c' s (days r.duration) ∧ (c.isScheduled = true ∨ k < j) := by
  unfold insertFirstN at e
  rw [List.range_eq_range'] at e
  obtain ⟨hj, c1, f1, c2, c3⟩ := insertLoop_visited _ 0 h n h' (by simp) hc e j r r' (by omega) hr
    hr' hu hwhy
  have hconf := tryVtw_none (tryVtws_none c2 v hv) hs hf
  have hrd : 0 < days r.duration :=
    div_pos (hpos r (List.mem_of_getElem? hr)) (by norm_num)
  obtain ⟨b, hb, hocc⟩ := conflict_occupied c1 (by
    intro x hx
    obtain ⟨a, ha, hab⟩ := Forall₂.mem_right f1 hx
    rw [hab.duration]; exact hpos a ha) hrd hconf
  obtain ⟨k, hk⟩ := List.getElem?_of_mem hb
  obtain ⟨d1, d2⟩ := c3 k b hk hocc.1
  obtain ⟨a, ha, hab⟩ := forall₂_getElem?_right f1 hk
  refine ⟨k, a, b, ha, d1, hocc, ?_⟩
  rcases d2 with d2 | d2
  · rw [d2] at ha; cases ha; exact Or.inl hocc.1
  · exact Or.inr d2

/-! ### C67 -/

theorem insertFirstN_exhaustive {h h' : Handler} {n : ℤ} (hc : h.Consistent)
    (hpos : ∀ r ∈ h.requests, 0 < r.duration) (e : insertFirstN h n = (h', none))
    (hlt : h'.numScheduled < h.numScheduled + n) :
    ∀ r ∈ h'.requests, r.isScheduled = false → ∀ v ∈ r.vtws, ∀ s, StartsAt r v s → FitsIn r v s →
      ∃ c ∈ h'.requests, Occupies c s (days r.duration) := by
  intro r' hr' hu v hv s hs hf
  have hfacts := insertFirstN_facts h n hc
  rw [e] at hfacts
  obtain ⟨j, hj⟩ := List.getElem?_of_mem hr'
  obtain ⟨r, hr, hka⟩ := forall₂_getElem?_right hfacts.rows hj
  have hrr := hka.eq_of_unscheduled hu
  subst hrr
  obtain ⟨k, c, c', -, h2, h3, -⟩ := insertFirstN_blocked hc hpos e hr hj hu (Or.inl hlt) hv hs hf
  exact ⟨c', List.mem_of_getElem? h2, h3⟩

/-- **C67.** Insertion is exhaustive.  If an insertion operator, asked for `k` insertions into a
consistent handler with positive durations, returns having made fewer than `k`, then nothing
more could be inserted: wherever an unscheduled request could start — in any of its windows,
before its deadline, with its grade — a scheduled observation is in the way. -/
theorem C67_insertion_exhaustive {g : Handler → ℤ → Py Handler} (hg : g ∈ insertionFunctions)
    (h h' : Handler) (hc : h.Consistent) (hpos : ∀ r ∈ h.requests, 0 < r.duration) (k : ℕ)
    (e : g h k = .ok h') (hfew : h'.scheduledCount < h.scheduledCount + k) :
    ∀ r ∈ h'.requests, r.isScheduled = false → ∀ v ∈ r.vtws, ∀ s, StartsAt r v s → FitsIn r v s →
      ∃ c ∈ h'.requests, Occupies c s (days r.duration) := by
  have key : ∀ h₁ : Handler, h₁.Consistent → (∀ r ∈ h₁.requests, 0 < r.duration) →
      h₁.numScheduled = h.numScheduled → settle (insertFirstN h₁ k) = .ok h' →
      ∀ r ∈ h'.requests, r.isScheduled = false → ∀ v ∈ r.vtws, ∀ s, StartsAt r v s →
        FitsIn r v s → ∃ c ∈ h'.requests, Occupies c s (days r.duration) := by
    intro h₁ hc₁ hp₁ hn e
    obtain ⟨e1, e2⟩ := settle_ok e
    have hee : insertFirstN h₁ k = (h', none) := Prod.ext e1 e2
    refine insertFirstN_exhaustive hc₁ hp₁ hee ?_
    have hfacts := insertFirstN_facts h₁ k hc₁
    rw [hee] at hfacts
    rw [hfacts.consistent.counter, hn, hc.counter]
    exact_mod_cast hfew
  simp only [insertionFunctions, List.mem_cons, List.not_mem_nil, or_false] at hg
  rcases hg with rfl | rfl | rfl
  · exact key _ (hc.of_perm (perm_sortPriority h) rfl)
      (fun r hr => hpos r ((perm_sortPriority h).subset hr)) rfl e
  · exact key _ (hc.of_perm (perm_sortIncOpp h) rfl)
      (fun r hr => hpos r ((perm_sortIncOpp h).subset hr)) rfl e
  · unfold minimumConflictInsertion at e
    split at e
    · cases e
    · rename_i h₁ hs
      obtain ⟨f1, n1⟩ := sortVtwsLoop_facts hs
      refine key h₁ (hc.of_sameRow f1 n1) ?_ n1 e
      intro r hr
      obtain ⟨a, ha, hab⟩ := Forall₂.mem_right f1 hr
      rw [hab.duration]
      exact hpos a ha

/-- **C67.** The initial schedule is maximal: when `initialize_solution` returns, no unscheduled
request can be added to it without displacing an observation. -/
theorem C67_initial_schedule_maximal (h h' : Handler) (hc : h.Consistent)
    (hpos : ∀ r ∈ h.requests, 0 < r.duration) (e : initializeSolution h = (h', none)) :
    ∀ r ∈ h'.requests, r.isScheduled = false → ∀ v ∈ r.vtws, ∀ s, StartsAt r v s → FitsIn r v s →
      ∃ c ∈ h'.requests, Occupies c s (days r.duration) := by
  unfold initializeSolution at e
  simp only at e
  have hc1 : h.sortByDecreasingPriority.Consistent := hc.of_perm (perm_sortPriority h) rfl
  have hc2 := hc1.of_sameRow (riseSort_facts h.sortByDecreasingPriority) rfl
  have hp2 : ∀ r ∈ h.sortByDecreasingPriority.sortVtwsByIncreasingRiseTime.requests,
      0 < r.duration := by
    intro r hr
    obtain ⟨a, ha, hab⟩ := Forall₂.mem_right (riseSort_facts h.sortByDecreasingPriority) hr
    rw [hab.duration]
    exact hpos a ((perm_sortPriority h).subset ha)
  generalize h.sortByDecreasingPriority.sortVtwsByIncreasingRiseTime = h₁ at *
  intro r hr hu
  have hfacts := insertFirstN_facts h₁ h₁.requests.length hc2
  rw [e] at hfacts
  refine insertFirstN_exhaustive hc2 hp2 e ?_ r hr hu
  have hlen : h'.requests.length = h₁.requests.length := hfacts.rows.length_eq.symm
  have hlt : h'.scheduledCount < h'.requests.length := by
    unfold Handler.scheduledCount
    refine lt_of_le_of_ne List.countP_le_length fun heq => ?_
    have := List.countP_eq_length.1 heq r hr
    rw [hu] at this; cases this
  rw [hfacts.consistent.counter, hc2.counter]
  push_cast
  omega

/-! ### C68 -/

theorem insertFirstN_servesFirst {key : Request → ℚ} {h₀ h h' : Handler} {n : ℤ} (hc : h.Consistent)
    (hpos : ∀ r ∈ h.requests, 0 < r.duration) {l : List Request} (hl : l.Perm h₀.requests)
    (hsame : List.Forall₂ SameRow l h.requests)
    (hkey : ∀ a b, SameRow a b → key b = key a)
    (hsort : h.requests.Pairwise fun a b => key b ≤ key a)
    (e : insertFirstN h n = (h', none)) : ServesLargestFirst key h₀ h' := by
  have hfacts := insertFirstN_facts h n hc
  rw [e] at hfacts
  refine ⟨l, hl, Forall₂.compose (R := SameRow) (S := KA)
        (fun _ _ _ h1 h2 => h1.keptOrAssigned h2) hsame hfacts.rows, ?_⟩
  intro i j a a' b b' ha ha' hua hb hub hb' hsb hlt v hv s hs hf
  obtain ⟨a₁, ha₁, sa⟩ := forall₂_getElem? hsame ha
  obtain ⟨b₁, hb₁, sb⟩ := forall₂_getElem? hsame hb
  have hij : i < j := by
    by_contra hji
    have hk : key a₁ ≤ key b₁ := by
      rcases Nat.lt_or_ge j i with h1 | h1
      · obtain ⟨hj', rfl⟩ := List.getElem?_eq_some_iff.1 hb₁
        obtain ⟨hi', rfl⟩ := List.getElem?_eq_some_iff.1 ha₁
        exact List.pairwise_iff_getElem.1 hsort j i hj' hi' h1
      · obtain rfl : i = j := by omega
        rw [ha₁] at hb₁; cases hb₁; exact le_rfl
    rw [hkey a a₁ sa, hkey b b₁ sb] at hk
    linarith
  have hs₁ : StartsAt a₁ v s := by
    obtain ⟨-, he⟩ := sa
    rw [he]; exact hs
  have hf₁ : FitsIn a₁ v s := by
    obtain ⟨-, he⟩ := sa
    rw [he]; exact hf
  obtain ⟨k, c₁, c', h1, h2, h3, h4⟩ := insertFirstN_blocked hc hpos e ha₁ ha' hua
    (Or.inr ⟨j, b₁, b', hij, hb₁, by rw [sb.isScheduled]; exact hub, hb', hsb⟩)
    (sa.1.symm.subset hv) hs₁ hf₁
  obtain ⟨c, hcl, sc⟩ := forall₂_getElem?_right hsame h1
  refine ⟨k, c, c', hcl, h2, ?_, ?_⟩
  · rw [sa.duration] at h3; exact h3
  · rcases h4 with h4 | h4
    · left; rw [← sc.isScheduled]; exact h4
    · right
      rw [← hkey a a₁ sa, ← hkey c c₁ sc]
      obtain ⟨hk', rfl⟩ := List.getElem?_eq_some_iff.1 h1
      obtain ⟨hi', rfl⟩ := List.getElem?_eq_some_iff.1 ha₁
      exact List.pairwise_iff_getElem.1 hsort k i hk' hi' h4

/-- **C68.** Greedy insertion serves requests of higher priority first. -/
theorem C68_greedy_serves_high_priority_first (h h' : Handler) (hc : h.Consistent)
    (hpos : ∀ r ∈ h.requests, 0 < r.duration) (n : ℤ) (e : greedyInsertion h n = .ok h') :
    ServesLargestFirst Request.priority h h' := by
  obtain ⟨e1, e2⟩ := settle_ok e
  exact insertFirstN_servesFirst (hc.of_perm (perm_sortPriority h) rfl)
    (fun r hr => hpos r ((perm_sortPriority h).subset hr)) (perm_sortPriority h)
    (forall₂_refl SameRow.refl _) (fun a b s => s.priority)
    (sorted_priority h) (Prod.ext e1 e2)

/-- **C68.** Minimum opportunity insertion serves requests with fewer visible windows first. -/
theorem C68_minimum_opportunity_first (h h' : Handler) (hc : h.Consistent)
    (hpos : ∀ r ∈ h.requests, 0 < r.duration) (n : ℤ)
    (e : minimumOpportunityInsertion h n = .ok h') :
    ServesLargestFirst (fun r => -(r.vtws.length : ℚ)) h h' := by
  obtain ⟨e1, e2⟩ := settle_ok e
  refine insertFirstN_servesFirst (hc.of_perm (perm_sortIncOpp h) rfl)
    (fun r hr => hpos r ((perm_sortIncOpp h).subset hr)) (perm_sortIncOpp h)
    (forall₂_refl SameRow.refl _) (fun a b s => ?_)
    ((sorted_incOpp h).imp fun h => ?_) (Prod.ext e1 e2)
  · rw [s.1.length_eq]
  · simp only [neg_le_neg_iff]
    exact_mod_cast h

/-- **C68.** The initial schedule serves requests of higher priority first. -/
theorem C68_initial_schedule_serves_high_priority_first (h h' : Handler) (hc : h.Consistent)
    (hpos : ∀ r ∈ h.requests, 0 < r.duration) (e : initializeSolution h = (h', none)) :
    ServesLargestFirst Request.priority h h' := by
  unfold initializeSolution at e
  simp only at e
  have hc1 : h.sortByDecreasingPriority.Consistent := hc.of_perm (perm_sortPriority h) rfl
  have hsame := riseSort_facts h.sortByDecreasingPriority
  refine insertFirstN_servesFirst (hc1.of_sameRow hsame rfl) ?_ (perm_sortPriority h) hsame
    (fun a b s => s.priority) ?_ e
  · intro r hr
    obtain ⟨a, ha, hab⟩ := Forall₂.mem_right hsame hr
    rw [hab.duration]
    exact hpos a ((perm_sortPriority h).subset ha)
  · unfold Handler.sortVtwsByIncreasingRiseTime
    simp only
    rw [List.pairwise_map]
    exact sorted_priority h

/-- Non-vacuity for C67 and C68: the initial schedule of `fourRequests` schedules the requests of
priority 8 and 4, and passes over those of priority 7 and 3, the first of which could have
started on day 6. -/
example : (initializeSolution (submit fourRequests)).2 = none ∧
    (∀ r ∈ (submit fourRequests).requests, 0 < r.duration) ∧
    mixed.requests.map (fun r => (r.priority, r.isScheduled)) =
      [(8, true), (7, false), (4, true), (3, false)] ∧
    ∃ r ∈ mixed.requests, r.priority = 7 ∧ r.isScheduled = false ∧ win 0 10 ∈ r.vtws ∧
      r.lookAngle = none ∧ (0 : ℚ) < 6 ∧ 6 + r.duration / 86400 < 10 ∧
      (r.quality : ℚ) ≤ grade 0 10 6 := by
  decide +kernel

/-! ### C65 -/

/-- A row is unchanged, or was unscheduled and now has an assignment whose window index is
right. -/
def KI (a b : Request) : Prop :=
  b = a ∨ a.isScheduled = false ∧ b.isScheduled = true ∧ IndexSound b ∧ b.vtws = a.vtws

theorem KI.refl (a : Request) : KI a a := Or.inl rfl

theorem KI.trans {a b c : Request} (h1 : KI a b) (h2 : KI b c) : KI a c := by
  rcases h1 with rfl | ⟨ha, hb, hi, hw⟩
  · exact h2
  · rcases h2 with rfl | ⟨hb', -⟩
    · exact Or.inr ⟨ha, hb, hi, hw⟩
    · rw [hb] at hb'; cases hb'

theorem insertLoop_index : ∀ (is : List ℕ) (h : Handler) (n : ℤ),
    List.Forall₂ KI h.requests (insertLoop is h n).1.requests := by
  intro is
  induction is with
  | nil => intro h n; exact forall₂_refl KI.refl _
  | cons i is ih =>
    intro h n
    have hid : List.Forall₂ KI h.requests h.requests := forall₂_refl KI.refl _
    unfold insertLoop
    split
    · exact hid
    · split
      · exact hid
      · rename_i r hr
        split
        · exact ih h n
        · rename_i hs
          split
          · exact hid
          · exact ih h n
          · rename_i idx s ht
            refine Forall₂.trans' (R := KI) (fun _ _ _ => KI.trans) ?_ (ih _ _)
            obtain ⟨k, hk, v, hv, hh⟩ := tryVtws_some ht
            obtain ⟨h0, h1, h2, h3, h4, -⟩ := tryVtw_some hh
            refine Forall₂.modify KI.refl hr (Or.inr ⟨by simpa using hs, rfl, ?_, rfl⟩)
            exact ⟨idx, v, s, rfl, by rw [hk]; simpa using hv, rfl, proposedStart_iff.1 h0,
              h1, h2, h3, h4⟩

/-- **C65 (partial).** Whenever an insertion operator schedules a request, the window index it
records names the window of that request in which the observation lies.  Missing: the index is
not maintained afterwards (`C65_index_goes_stale`). -/
theorem C65_insertion_records_window_partial {g : Handler → ℤ → Py Handler}
    (hg : g ∈ insertionFunctions) (h h' : Handler) (n : ℤ) (e : g h n = .ok h') :
    ∃ l, (l.Perm h.requests ∨ List.Forall₂ SameRow h.requests l) ∧
      List.Forall₂ (fun r r' => r.isScheduled = false → r'.isScheduled = true → IndexSound r')
        l h'.requests := by
  have key : ∀ h₁ : Handler, settle (insertFirstN h₁ n) = .ok h' →
      List.Forall₂ (fun r r' => r.isScheduled = false → r'.isScheduled = true → IndexSound r')
        h₁.requests h'.requests := by
    intro h₁ e
    obtain ⟨e1, -⟩ := settle_ok e
    rw [← e1]
    refine (insertLoop_index _ h₁ n).imp ?_
    rintro a b (rfl | ⟨-, -, hi, -⟩) h1 h2
    · rw [h1] at h2; cases h2
    · exact hi
  simp only [insertionFunctions, List.mem_cons, List.not_mem_nil, or_false] at hg
  rcases hg with rfl | rfl | rfl
  · exact ⟨_, Or.inl (perm_sortPriority h), key _ e⟩
  · exact ⟨_, Or.inl (perm_sortIncOpp h), key _ e⟩
  · unfold minimumConflictInsertion at e
    split at e
    · cases e
    · rename_i h₁ hs
      exact ⟨_, Or.inr (sortVtwsLoop_facts hs).1, key _ e⟩

/-- The invariant of the scheduler's own handler. -/
def RowIndexed (r : Request) : Prop :=
  r.isScheduled = true → IndexSound r ∧ r.vtws.Pairwise fun a b => a.rise ≤ b.rise

theorem initializeSolution_indexed {h : Handler} (hi : ∀ r ∈ h.requests, RowIndexed r) :
    ∀ r ∈ (initializeSolution h).1.requests, RowIndexed r := by
  unfold initializeSolution
  simp only
  have hsorted : ∀ r ∈ h.sortByDecreasingPriority.sortVtwsByIncreasingRiseTime.requests,
      (r.isScheduled = true → IndexSound r) ∧ r.vtws.Pairwise fun a b => a.rise ≤ b.rise := by
    intro r hr
    unfold Handler.sortVtwsByIncreasingRiseTime at hr
    simp only [List.mem_map] at hr
    obtain ⟨a, ha, rfl⟩ := hr
    have ha' := hi a ((perm_sortPriority h).subset ha)
    have : IsTrans VTW fun a b => a.rise ≤ b.rise := ⟨fun a b c h1 h2 => h1.trans h2⟩
    have : Std.Total fun a b : VTW => a.rise ≤ b.rise := ⟨fun a b => le_total _ _⟩
    refine ⟨fun hs => ?_, List.pairwise_insertionSort _ _⟩
    obtain ⟨h1, h2⟩ := ha' hs
    have e : a.vtws.insertionSort (fun a b => a.rise ≤ b.rise) = a.vtws :=
      h2.insertionSort_eq
    obtain ⟨i, v, s, k1, k2, k3, k4, k5⟩ := h1
    exact ⟨i, v, s, k1, by simp only [e]; exact k2, k3, k4, k5⟩
  generalize h.sortByDecreasingPriority.sortVtwsByIncreasingRiseTime = h₁ at hsorted
  intro r hr hs
  have hf := insertLoop_index (List.range h₁.requests.length) h₁ h₁.requests.length
  obtain ⟨a, ha, hab⟩ := Forall₂.mem_right hf hr
  obtain ⟨s1, s2⟩ := hsorted a ha
  rcases hab with rfl | ⟨-, -, hi, hw⟩
  · exact ⟨s1 hs, s2⟩
  · exact ⟨hi, by rw [hw]; exact s2⟩

/-- **C65 (partial).** After any history of `add_request` and `generate` calls, every scheduled
request in the scheduler's own list has a window index naming the window its observation
lies in. -/
theorem C65_scheduler_index_right_partial (history : List Op) :
    ∀ r ∈ (run history).requests, r.isScheduled = true → IndexSound r := by
  have key : ∀ (ops : List Op) (h : Handler), (∀ r ∈ h.requests, RowIndexed r) →
      ∀ r ∈ (ops.foldl step h).requests, RowIndexed r := by
    intro ops
    induction ops with
    | nil => intro h hi; exact hi
    | cons op ops ih =>
      intro h hi
      refine ih _ ?_
      cases op with
      | add s =>
        intro r hr
        simp only [step, addSubmission, Handler.addRequest, List.mem_append, List.mem_singleton] at hr
        rcases hr with hr | rfl
        · exact hi r hr
        · intro hs; cases hs
      | generate a =>
        have hini := initializeSolution_indexed hi
        simp only [step, generate]
        split
        · exact hi
        · split <;> rename_i heq <;> rw [heq] at hini <;> exact hini
  intro r hr hs
  exact (key history Handler.empty (by simp [Handler.empty]) r hr hs).1

/-- **C65 refuted.** Minimum conflict insertion reorders windows without adjusting the recorded
index: for every handler it accepts, each request scheduled in its least conflicting window is
afterwards recorded with the index of a different window, unless that window was already the
first. -/
theorem C65_index_goes_stale (h h' : Handler) (n : ℤ) (e : minimumConflictInsertion h n = .ok h')
    (j i : ℕ) (r : Request) (v : VTW) (x : ℚ) (hr : h.requests[j]? = some r)
    (hs : r.isScheduled = true) (hi : r.vtwIndex = some i) (_hv : r.vtws[i]? = some v) (h0 : i ≠ 0)
    (hx : h.conflictDegree v = .ok x)
    (hmin : ∀ w ∈ r.vtws, ∀ y, h.conflictDegree w = .ok y → x ≤ y) :
    ∃ r', h'.requests[j]? = some r' ∧ r'.isScheduled = true ∧ r'.start = r.start ∧
      r'.vtwIndex = some i ∧ r'.vtws[i]? ≠ some v := by
  unfold minimumConflictInsertion at e
  split at e
  · cases e
  · rename_i h₁ hsort
    obtain ⟨f1, -, f3⟩ := C10_window_conflict_sort_partial h h₁ hsort
    obtain ⟨e1, -⟩ := settle_ok e
    have hki := insertLoop_index (List.range h₁.requests.length) h₁ n
    change List.Forall₂ KI h₁.requests (insertFirstN h₁ n).1.requests at hki
    rw [e1] at hki
    obtain ⟨r₁, hr₁, hsame⟩ := forall₂_getElem? f1 hr
    obtain ⟨r', hr', hk⟩ := forall₂_getElem? hki hr₁
    have hs₁ : r₁.isScheduled = true := by rw [hsame.isScheduled]; exact hs
    have : r' = r₁ := by
      rcases hk with hk | ⟨hk, -⟩
      · exact hk
      · rw [hs₁] at hk; cases hk
    subst this
    have hinc := f3 r' (List.mem_of_getElem? hr₁)
    obtain ⟨hperm, heq⟩ := hsame
    refine ⟨r', hr', hs₁, by rw [heq], by rw [heq]; exact hi, fun hbad => ?_⟩
    obtain ⟨hlt, hget⟩ := List.getElem?_eq_some_iff.1 hbad
    have h0lt : 0 < r'.vtws.length := by omega
    obtain ⟨a, b, ha, hb, hab⟩ := List.pairwise_iff_getElem.1 hinc 0 i h0lt hlt (by omega)
    rw [hget, hx] at hb
    cases hb
    have := hmin _ (hperm.subset (List.getElem_mem h0lt)) a ha
    linarith

/-- A request scheduled in the second of its two windows, the first being too short; the second
conflicts less. -/
def secondWindow : List Submission :=
  [ ⟨0, 100, 86400, 4, 1, none, [win 1 4, win 40 44]⟩,
    ⟨1, 100, 86400, 3, 1, none, [win (87 / 2) 50]⟩,
    ⟨2, 100, 86400, 2, 1, none, [win 60 70]⟩ ]

/-- Non-vacuity for C65: the first request is scheduled on day 42.5 in its second window; after
minimum conflict insertion index 1 names the window of days 1 to 4. -/
example : ((initializeSolution (submit secondWindow)).1.requests.map fun r =>
      (r.vtwIndex, r.start, r.vtws.map VTW.rise)) =
      [(some 1, some (85 / 2), [1, 40]), (some 0, some (189 / 4), [87 / 2]),
        (some 0, some (131 / 2), [60])] ∧
    ((minimumConflictInsertion (initializeSolution (submit secondWindow)).1 3).map fun h =>
      h.requests.map fun r => (r.vtwIndex, r.start, r.vtws.map VTW.rise)) =
      .ok [(some 1, some (85 / 2), [40, 1]), (some 0, some (189 / 4), [87 / 2]),
        (some 0, some (131 / 2), [60])] := by
  decide +kernel

/-! ### C66 -/

theorem randomRemovalLoop_untouched (picks : ℕ → ℕ) : ∀ (fuel : ℕ) (unchecked : List ℕ)
    (h h' : Handler) (n : ℤ) (j : ℕ), j ∉ unchecked →
    randomRemovalLoop picks fuel unchecked h n = .ok h' → h'.requests[j]? = h.requests[j]? := by
  intro fuel
  induction fuel with
  | zero =>
    intro unchecked h h' n j _ e
    unfold randomRemovalLoop at e
    split at e
    · cases e
    · cases e; rfl
  | succ fuel ih =>
    intro unchecked h h' n j hj e
    unfold randomRemovalLoop at e
    split at e
    · split at e
      · cases e
      · rename_i i hi
        have hji : j ≠ i := fun h => hj (h ▸ List.mem_of_getElem? hi)
        have hj' : j ∉ unchecked.erase i := fun h => hj (List.mem_of_mem_erase h)
        split at e
        · cases e
        · rw [ih _ _ _ _ _ hj' e]
          simp only [Handler.unschedule]
          exact List.getElem?_modify_ne _ _ (Ne.symm hji)
        · exact ih _ _ _ _ _ hj' e
    · cases e; rfl

/-- **C66 refuted.** Unless it removes everything, random removal never touches the request that
is last in the list, whatever the random draws. -/
theorem C66_last_never_removed (h h' : Handler) (hc : h.Consistent) (k : ℕ) (picks : ℕ → ℕ)
    (hk : k < h.scheduledCount) (e : randomRemoval h k picks = .ok h') :
    h'.requests.getLast? = h.requests.getLast? := by
  unfold randomRemoval at e
  rw [if_neg (by rw [hc.counter]; exact_mod_cast not_le.2 hk)] at e
  have hlen : h'.requests.length = h.requests.length := by
    obtain ⟨h'', e', f, -⟩ := randomRemoval_facts hc k picks
    unfold randomRemoval at e'
    rw [if_neg (by rw [hc.counter]; exact_mod_cast not_le.2 hk)] at e'
    rw [e] at e'
    cases e'
    exact f.length_eq.symm
  have := randomRemovalLoop_untouched picks _ _ h h' k (h.requests.length - 1) (by simp) e
  rw [List.getLast?_eq_getElem?, List.getLast?_eq_getElem?, hlen]
  exact this

/-- **C66 (partial).** Every other scheduled request can be removed: for each there are random
draws with which random removal of `k ≥ 1` requests unschedules it. -/
theorem C66_others_can_be_removed_partial (h : Handler) (hc : h.Consistent) (k : ℕ) (hk1 : 1 ≤ k)
    (j : ℕ) (r : Request) (hr : h.requests[j]? = some r) (hs : r.isScheduled = true)
    (hlast : j + 1 < h.requests.length) :
    ∃ picks h' r', randomRemoval h k picks = .ok h' ∧ h'.requests[j]? = some r' ∧
      r'.isScheduled = false := by
  obtain ⟨h', e, f, hrem⟩ := randomRemoval_facts hc k fun _ => j
  refine ⟨fun _ => j, h', ?_⟩
  obtain ⟨r', hr', hrr⟩ := forall₂_getElem? f hr
  refine ⟨r', e, hr', ?_⟩
  unfold randomRemoval at e
  split at e
  · simp only [Except.ok.injEq] at e
    subst e
    rw [unscheduleAll_requests, List.getElem?_map, hr] at hr'
    simp only [Option.map_some, Option.some.injEq] at hr'
    rw [← hr']; rfl
  · simp only [List.length_range] at e
    obtain ⟨m, hm⟩ : ∃ m, h.requests.length - 1 = m + 1 := ⟨h.requests.length - 2, by omega⟩
    rw [hm] at e
    unfold randomRemovalLoop at e
    rw [if_pos (by exact_mod_cast hk1)] at e
    have hjm : j % (List.range (m + 1)).length = j := by
      rw [List.length_range]; exact Nat.mod_eq_of_lt (by omega)
    rw [hjm, List.getElem?_range (by omega)] at e
    simp only [Handler.isRequestScheduled, hr, hs] at e
    have hnot : j ∉ (List.range (m + 1)).erase j := by
      rw [List.nodup_range.mem_erase_iff]; simp
    have := randomRemovalLoop_untouched _ _ _ _ _ _ _ hnot e
    rw [hr'] at this
    simp only [Handler.unschedule, List.getElem?_modify, hr, if_true, Option.map_eq_map,
      Option.map_some, Option.some.injEq] at this
    rw [this]

/-- Non-vacuity for C66: three scheduled requests, of which one is to be removed. -/
example : (initializeSolution (submit secondWindow)).1.scheduledCount = 3 ∧
    ((randomRemoval (initializeSolution (submit secondWindow)).1 1 fun _ => 1).map fun h =>
      h.requests.map (·.isScheduled)) = .ok [true, false, true] := by
  decide +kernel

end Celest.Schedule
