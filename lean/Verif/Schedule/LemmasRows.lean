/-
Helper lemmas: how the handler's primitive operations act on rows.
-/
import Verif.Schedule.Lemmas
import Mathlib.Data.List.Perm.Basic
import Mathlib.Data.List.Forall2

namespace Celest.Schedule

/-! ### rows -/

@[simp] theorem fixed_cleared (r : Request) : r.cleared.fixed = r.fixed := rfl

@[simp] theorem cleared_isScheduled (r : Request) : r.cleared.isScheduled = false := rfl

theorem clear_cleared (r : Request) : r.cleared.Clear := ⟨rfl, rfl, rfl, rfl⟩

theorem Request.Clear.cleared_eq {r : Request} (h : r.Clear) : r.cleared = r := by
  obtain ⟨h1, h2, h3, h4⟩ := h
  cases r; simp_all [Request.cleared]

theorem Request.Clear.not_sched {r : Request} (h : r.Clear) : r.isScheduled = false := h.1

theorem KeptOrCleared.refl (r : Request) : KeptOrCleared r r := Or.inl rfl

theorem KeptOrCleared.trans {a b c : Request} (h1 : KeptOrCleared a b) (h2 : KeptOrCleared b c) :
    KeptOrCleared a c := by
  rcases h1 with rfl | ⟨ha, rfl⟩
  · exact h2
  · rcases h2 with rfl | ⟨hb, _⟩
    · exact Or.inr ⟨ha, rfl⟩
    · simp at hb

theorem KeptOrCleared.fixed {a b : Request} (h : KeptOrCleared a b) : b.fixed = a.fixed := by
  rcases h with rfl | ⟨_, rfl⟩ <;> rfl

theorem KeptOrCleared.row {a b : Request} (h : KeptOrCleared a b) (ha : a.Clear ∨ a.Assigned) :
    b.Clear ∨ b.Assigned := by
  rcases h with rfl | ⟨_, rfl⟩
  · exact ha
  · exact Or.inl (clear_cleared a)

/-- The relation of an insertion that keeps the window order. -/
def KA (a b : Request) : Prop :=
  b = a ∨ a.isScheduled = false ∧ b.Assigned ∧ b.cleared = a.cleared

theorem KA.refl (a : Request) : KA a a := Or.inl rfl

theorem KA.trans {a b c : Request} (h1 : KA a b) (h2 : KA b c) : KA a c := by
  rcases h1 with rfl | ⟨ha, hb, he⟩
  · exact h2
  · rcases h2 with rfl | ⟨hb', _, _⟩
    · exact Or.inr ⟨ha, hb, he⟩
    · rw [hb.1] at hb'; cases hb'

theorem KA.fixed {a b : Request} (h : KA a b) : b.fixed = a.fixed := by
  rcases h with rfl | ⟨_, _, he⟩
  · rfl
  · rw [← fixed_cleared b, he, fixed_cleared]

theorem KA.row {a b : Request} (h : KA a b) (ha : a.Clear ∨ a.Assigned) :
    b.Clear ∨ b.Assigned := by
  rcases h with rfl | ⟨_, hb, _⟩
  · exact ha
  · exact Or.inr hb

theorem SameRow.refl (a : Request) : SameRow a a := ⟨List.Perm.refl _, rfl⟩

theorem KA.keptOrAssigned {a b : Request} (h : KA a b) : KeptOrAssigned a b := by
  rcases h with rfl | ⟨ha, hb, he⟩
  · exact Or.inl (SameRow.refl _)
  · refine Or.inr ⟨ha, hb, ?_⟩
    rw [he]; exact SameRow.refl _

theorem Feasible.of_mem {w w' : List VTW} (hw : ∀ v ∈ w, v ∈ w') {la : Option LookAngle}
    {dl d q s : ℚ} (h : Feasible w la dl d q s) : Feasible w' la dl d q s := by
  obtain ⟨v, hv, hh⟩ := h
  exact ⟨v, hw v hv, hh⟩

theorem SameRow.fixed {a b : Request} (h : SameRow a b) : b.fixed = a.fixed := by
  obtain ⟨hp, he⟩ := h
  rw [he]
  simp only [Request.fixed]
  congr 1
  exact Multiset.coe_eq_coe.2 hp

theorem SameRow.row {a b : Request} (h : SameRow a b) (ha : a.Clear ∨ a.Assigned) :
    b.Clear ∨ b.Assigned := by
  obtain ⟨hp, he⟩ := h
  rw [he]
  rcases ha with ⟨h1, h2, h3, h4⟩ | ⟨h1, ⟨i, h2, hi⟩, h3, s, h4, hf⟩
  · exact Or.inl ⟨h1, h2, h3, h4⟩
  · refine Or.inr ⟨h1, ⟨i, h2, ?_⟩, h3, s, h4, ?_⟩
    · simpa [hp.length_eq] using hi
    · exact hf.of_mem fun v hv => hp.symm.subset hv

theorem SameRow.isScheduled {a b : Request} (h : SameRow a b) : b.isScheduled = a.isScheduled := by
  rw [h.2]

theorem SameRow.trans {a b c : Request} (h : SameRow a b) (h' : SameRow b c) : SameRow a c := by
  obtain ⟨p1, e1⟩ := h
  obtain ⟨p2, e2⟩ := h'
  refine ⟨p2.trans p1, ?_⟩
  rw [e2, e1]

/-! ### Forall₂ -/

theorem Forall₂.trans' {α : Type*} {R : α → α → Prop} (hR : ∀ a b c, R a b → R b c → R a c) :
    ∀ {l₁ l₂ l₃ : List α}, List.Forall₂ R l₁ l₂ → List.Forall₂ R l₂ l₃ → List.Forall₂ R l₁ l₃
  | _, _, _, .nil, .nil => .nil
  | _, _, _, .cons h t, .cons h' t' => .cons (hR _ _ _ h h') (Forall₂.trans' hR t t')

theorem Forall₂.compose {α β γ : Type*} {R : α → β → Prop} {S : β → γ → Prop} {T : α → γ → Prop}
    (hT : ∀ a b c, R a b → S b c → T a c) : ∀ {l₁ : List α} {l₂ : List β} {l₃ : List γ},
    List.Forall₂ R l₁ l₂ → List.Forall₂ S l₂ l₃ → List.Forall₂ T l₁ l₃
  | _, _, _, .nil, .nil => .nil
  | _, _, _, .cons h t, .cons h' t' => .cons (hT _ _ _ h h') (Forall₂.compose hT t t')

theorem Forall₂.mem_right {α β : Type*} {R : α → β → Prop} {l : List α} {l' : List β}
    (h : List.Forall₂ R l l') {b : β} (hb : b ∈ l') : ∃ a ∈ l, R a b := by
  induction h with
  | nil => cases hb
  | cons h1 _ ih =>
    rcases List.mem_cons.1 hb with rfl | hb
    · exact ⟨_, List.mem_cons_self, h1⟩
    · obtain ⟨a, ha, hr⟩ := ih hb
      exact ⟨a, List.mem_cons_of_mem _ ha, hr⟩

theorem Forall₂.map_eq {α β γ : Type*} {R : α → β → Prop} {f : α → γ} {g : β → γ}
    (hR : ∀ {a b}, R a b → g b = f a) {l : List α} {l' : List β} (h : List.Forall₂ R l l') :
    l'.map g = l.map f := by
  induction h with
  | nil => rfl
  | cons h1 _ ih => simp [hR h1, ih]

theorem Forall₂.sublist {α β : Type*} {R : α → β → Prop} {l : List α} {l' : List β}
    (h : List.Forall₂ R l l') {k : List α} (hk : k.Sublist l) :
    ∃ k', k'.Sublist l' ∧ List.Forall₂ R k k' := by
  induction h generalizing k with
  | nil => cases hk; exact ⟨[], List.Sublist.refl _, .nil⟩
  | @cons a b l l' h1 _ ih =>
    cases hk with
    | cons _ hk =>
      obtain ⟨k', hk', hf⟩ := ih hk
      exact ⟨k', hk'.cons _, hf⟩
    | cons_cons _ hk =>
      obtain ⟨k', hk', hf⟩ := ih hk
      exact ⟨b :: k', hk'.cons_cons _, .cons h1 hf⟩

theorem Forall₂.modify {α : Type*} {R : α → α → Prop} (hR : ∀ a, R a a) {l : List α} {i : ℕ}
    {r : α} {f : α → α} (h : l[i]? = some r) (hf : R r (f r)) : List.Forall₂ R l (l.modify i f) := by
  obtain ⟨l₁, l₂, hl, -, hm⟩ := modify_split h
  rw [hm, hl]
  exact List.rel_append (forall₂_refl hR l₁) (.cons hf (forall₂_refl hR l₂))

/-! ### consistency -/

theorem Handler.Consistent.of_perm {h h' : Handler} (hc : h.Consistent)
    (hp : h'.requests.Perm h.requests) (hn : h'.numScheduled = h.numScheduled) :
    h'.Consistent := by
  refine ⟨fun r hr => hc.rows r (hp.subset hr), ?_⟩
  rw [hn, hc.counter, Handler.scheduledCount, Handler.scheduledCount, hp.countP_eq]

theorem Handler.Holds.of_perm {h h' : Handler} {subs : List Submission} (hc : h.Holds subs)
    (hp : h'.requests.Perm h.requests) : h'.Holds subs :=
  (hp.map _).trans hc

theorem Handler.Holds.of_map {h h' : Handler} {subs : List Submission} (hc : h.Holds subs)
    (he : h'.requests.map Request.fixed = h.requests.map Request.fixed) : h'.Holds subs := by
  unfold Handler.Holds; rw [he]; exact hc

theorem countP_modify {l : List Request} {i : ℕ} {r : Request} {f : Request → Request}
    (h : l[i]? = some r) :
    (l.modify i f).countP (fun r => r.isScheduled) + (if r.isScheduled then 1 else 0) =
      l.countP (fun r => r.isScheduled) + (if (f r).isScheduled then 1 else 0) := by
  obtain ⟨l₁, l₂, hl, -, hm⟩ := modify_split h
  rw [hm, hl]
  simp only [List.countP_append, List.countP_cons]
  omega

/-- The update `schedule_request` makes on a row. -/
def Request.assignWith (r₀ : Request) (idx : ℕ) (s : ℚ) (r : Request) : Request :=
  { r with isScheduled := true, vtwIndex := some idx, start := some s
           schedDuration := some r₀.duration }

theorem Handler.Consistent.schedule {h : Handler} (hc : h.Consistent) {i idx : ℕ} {r : Request}
    {s : ℚ} (hr : h.requests[i]? = some r) (hu : r.isScheduled = false) (hidx : idx < r.vtws.length)
    (hf : Feasible r.vtws r.lookAngle r.deadline r.duration r.quality s) :
    (h.schedule i idx s r.duration).Consistent ∧
      List.Forall₂ KA h.requests (h.schedule i idx s r.duration).requests := by
  have hfor : List.Forall₂ KA h.requests (h.schedule i idx s r.duration).requests := by
    refine Forall₂.modify KA.refl hr (Or.inr ⟨hu, ?_, ?_⟩)
    · exact ⟨rfl, ⟨idx, rfl, hidx⟩, rfl, s, rfl, hf⟩
    · rfl
  refine ⟨⟨fun b hb => ?_, ?_⟩, hfor⟩
  · obtain ⟨a, ha, hab⟩ := Forall₂.mem_right hfor hb
    exact hab.row (hc.rows a ha)
  · have hk := hc.counter
    have := countP_modify (f := r.assignWith idx s) hr
    have e : (h.schedule i idx s r.duration).requests = h.requests.modify i (r.assignWith idx s) := rfl
    rw [Handler.scheduledCount, e]
    simp only [Handler.schedule, Handler.scheduledCount, Request.assignWith, hu] at *
    simp at this
    omega

theorem unschedule_facts {h : Handler} {i : ℕ} {r : Request}
    (hr : h.requests[i]? = some r) (hu : r.isScheduled = true) :
    List.Forall₂ KeptOrCleared h.requests (h.unschedule i).requests ∧
      (h.unschedule i).scheduledCount + 1 = h.scheduledCount := by
  refine ⟨Forall₂.modify KeptOrCleared.refl hr (Or.inr ⟨hu, rfl⟩), ?_⟩
  have := countP_modify (f := Request.cleared) hr
  have e : (h.unschedule i).requests = h.requests.modify i Request.cleared := rfl
  rw [Handler.scheduledCount, e]
  simp only [Handler.scheduledCount, hu, cleared_isScheduled] at *
  simpa using this

theorem foldl_unschedule (h : Handler) : ∀ n, n ≤ h.requests.length →
    ((List.range n).foldl Handler.unschedule h).requests =
      (h.requests.take n).map Request.cleared ++ h.requests.drop n := by
  intro n
  induction n with
  | zero => simp
  | succ n ih =>
    intro hn
    rw [List.range_succ, List.foldl_append, List.foldl_cons, List.foldl_nil]
    have hi := ih (by omega)
    simp only [Handler.unschedule] at hi ⊢
    rw [hi]
    have hget : h.requests.drop n = h.requests[n] :: h.requests.drop (n + 1) :=
      List.drop_eq_getElem_cons (by omega)
    have hlen : ((h.requests.take n).map Request.cleared).length = n := by simp; omega
    have : ((h.requests.take n).map Request.cleared ++ h.requests.drop n)[n]? =
        some h.requests[n] := by
      rw [List.getElem?_append_right (by omega), hlen, Nat.sub_self, hget]; rfl
    obtain ⟨l₁, l₂, hl, hll, hm⟩ := modify_split this
    rw [hm]
    rw [hget] at hl
    obtain ⟨e1, e2⟩ := List.append_inj hl (by rw [hlen, hll])
    cases e2
    rw [← e1, List.take_succ_eq_append_getElem (by omega), List.map_append]
    simp [Request.cleared]

theorem unscheduleAll_requests (h : Handler) :
    h.unscheduleAll.requests = h.requests.map Request.cleared := by
  unfold Handler.unscheduleAll
  simp only
  rw [foldl_unschedule h _ le_rfl]
  simp

theorem unscheduleAll_facts {h : Handler} (hc : h.Consistent) :
    List.Forall₂ KeptOrCleared h.requests h.unscheduleAll.requests ∧
      h.unscheduleAll.scheduledCount = 0 ∧ h.unscheduleAll.numScheduled = 0 := by
  refine ⟨?_, ?_, rfl⟩
  · rw [unscheduleAll_requests, List.forall₂_map_right_iff, List.forall₂_same]
    intro r hr
    rcases hc.rows r hr with h1 | h1
    · exact Or.inl h1.cleared_eq
    · exact Or.inr ⟨h1.1, rfl⟩
  · rw [Handler.scheduledCount, unscheduleAll_requests, List.countP_eq_zero]
    intro r hr
    obtain ⟨r', -, rfl⟩ := List.mem_map.1 hr
    simp

end Celest.Schedule
