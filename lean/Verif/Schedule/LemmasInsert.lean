/-
Helper lemmas: insertion operators and conflict detection.
-/
import Verif.Schedule.LemmasOps

namespace Celest.Schedule

theorem imageQuality_ok {v : VTW} {s : ℚ} {q : ℤ} (h : imageQuality v s = .ok q) :
    q = grade v.rise v.set s ∧ v.rise ≠ v.set := by
  unfold imageQuality at h
  simp only at h
  split at h
  · cases h
  · rename_i hne
    simp only [Except.ok.injEq] at h
    have e : (v.rise + v.set) / 2 - v.rise = (v.set - v.rise) / 2 := by ring
    refine ⟨?_, fun he => hne (by rw [e, he]; ring)⟩
    rw [← h, grade, e, mul_div_assoc]

theorem tryVtw_some {h : Handler} {r : Request} {v : VTW} {s : ℚ}
    (ht : tryVtw h r v = .ok (some s)) :
    proposedStart r v = .ok (some s) ∧ v.rise < s ∧ s + days r.duration < v.set ∧
      s + days r.duration < r.deadline ∧ r.quality ≤ (grade v.rise v.set s : ℚ) ∧
      doesConflictExist h s (days r.duration) = .ok false := by
  unfold tryVtw at ht
  split at ht
  · cases ht
  · cases ht
  · rename_i s' hs
    simp only at ht
    split at ht
    · cases ht
    · rename_i hb
      split at ht
      · cases ht
      · rename_i hd
        split at ht
        · cases ht
        · rename_i q hq
          split at ht
          · cases ht
          · rename_i hqq
            split at ht
            · cases ht
            · cases ht
            · rename_i hconf
              simp only [Except.ok.injEq, Option.some.injEq] at ht
              subst ht
              simp only [isWithinBounds, Bool.not_eq_true, Bool.not_eq_false', Bool.and_eq_true,
                decide_eq_true_eq] at hb
              simp only [meetsDeadline, Bool.not_eq_true, Bool.not_eq_false', decide_eq_true_eq] at hd
              simp only [Bool.not_eq_true, Bool.not_eq_false', decide_eq_true_eq] at hqq
              rw [(imageQuality_ok hq).1] at hqq
              exact ⟨hs, hb.1, hb.2, hd, hqq, hconf⟩

theorem tryVtws_some {h : Handler} {r : Request} : ∀ {vs : List VTW} {base idx : ℕ} {s : ℚ},
    tryVtws h r vs base = .ok (some (idx, s)) →
    ∃ k, idx = base + k ∧ ∃ v, vs[k]? = some v ∧ tryVtw h r v = .ok (some s) := by
  intro vs
  induction vs with
  | nil => intro base idx s ht; simp [tryVtws] at ht
  | cons v vs ih =>
    intro base idx s ht
    unfold tryVtws at ht
    split at ht
    · cases ht
    · rename_i s' hs'
      simp only [Except.ok.injEq, Option.some.injEq, Prod.mk.injEq] at ht
      obtain ⟨rfl, rfl⟩ := ht
      exact ⟨0, rfl, v, rfl, hs'⟩
    · obtain ⟨k, hk, w, hw, hh⟩ := ih ht
      exact ⟨k + 1, by omega, w, by simpa using hw, hh⟩

theorem proposedStart_iff {r : Request} {v : VTW} {s : ℚ} :
    proposedStart r v = .ok (some s) ↔ StartsAt r v s := by
  unfold proposedStart StartsAt StartTime
  cases r.lookAngle with
  | none =>
    simp only [Except.ok.injEq, Option.some.injEq]
    exact ⟨fun h => h.symm, fun h => h.symm⟩
  | some a => cases a <;> simp

theorem tryVtws_feasible {h : Handler} {r : Request} {idx : ℕ} {s : ℚ}
    (ht : tryVtws h r r.vtws 0 = .ok (some (idx, s))) :
    idx < r.vtws.length ∧ Feasible r.vtws r.lookAngle r.deadline r.duration r.quality s ∧
      doesConflictExist h s (days r.duration) = .ok false := by
  obtain ⟨k, hk, v, hv, hh⟩ := tryVtws_some ht
  obtain ⟨h0, h1, h2, h3, h4, h5⟩ := tryVtw_some hh
  obtain ⟨hlt, hget⟩ := List.getElem?_eq_some_iff.1 hv
  exact ⟨by omega, ⟨v, List.mem_of_getElem? hv, h1, h2, h3, h4, proposedStart_iff.1 h0⟩, h5⟩

/-- What an insertion pass establishes. -/
structure Inserted (h h' : Handler) (n : ℤ) : Prop where
  rows : List.Forall₂ KA h.requests h'.requests
  consistent : h'.Consistent
  mono : h.numScheduled ≤ h'.numScheduled
  bound : 0 ≤ n → h'.numScheduled ≤ h.numScheduled + n

theorem insertLoop_facts : ∀ (is : List ℕ) (h : Handler) (n : ℤ), h.Consistent →
    Inserted h (insertLoop is h n).1 n := by
  intro is
  induction is with
  | nil =>
    intro h n hc
    exact ⟨forall₂_refl KA.refl _, hc, le_rfl, fun hn => by simp [insertLoop]; omega⟩
  | cons i is ih =>
    intro h n hc
    have hid : Inserted h h n :=
      ⟨forall₂_refl KA.refl _, hc, le_rfl, fun hn => by omega⟩
    unfold insertLoop
    split
    · exact hid
    · rename_i hn0
      split
      · exact hid
      · rename_i r hr
        split
        · exact ih h n hc
        · rename_i hs
          split
          · exact hid
          · exact ih h n hc
          · rename_i idx s ht
            obtain ⟨hidx, hf, -⟩ := tryVtws_feasible ht
            obtain ⟨hc', hrows⟩ := hc.schedule hr (by simpa using hs) hidx hf
            obtain ⟨r2, c2, m2, b2⟩ := ih (h.schedule i idx s r.duration) (n - 1) hc'
            refine ⟨Forall₂.trans' (R := KA) (fun _ _ _ => KA.trans) hrows r2, c2, ?_, ?_⟩
            · have e : (h.schedule i idx s r.duration).numScheduled = h.numScheduled + 1 := rfl
              rw [e] at m2; omega
            · intro hn
              have := b2 (by omega)
              have e : (h.schedule i idx s r.duration).numScheduled = h.numScheduled + 1 := rfl
              rw [e] at this; omega

theorem KA.map_fixed {l l' : List Request} (h : List.Forall₂ KA l l') :
    l'.map Request.fixed = l.map Request.fixed :=
  Forall₂.map_eq (fun h => KA.fixed h) h

theorem insertFirstN_facts (h : Handler) (n : ℤ) (hc : h.Consistent) :
    Inserted h (insertFirstN h n).1 n := insertLoop_facts _ h n hc

theorem settle_ok {p : Handler × Option PyErr} {h' : Handler} (h : settle p = .ok h') :
    p.1 = h' ∧ p.2 = none := by
  obtain ⟨a, b⟩ := p
  cases b with
  | none => simp only [settle, Except.ok.injEq] at h; exact ⟨h, rfl⟩
  | some e => simp [settle] at h

/-! ### conflict detection -/

theorem conflictsWith_false {r : Request} {s d : ℚ} (h : conflictsWith r s d = .ok false) :
    r.isScheduled = true → ∀ ss sd, r.start = some ss → r.schedDuration = some sd →
      ¬ Overlap s d ss (days sd) := by
  intro hs ss sd h1 h2 ⟨o1, o2⟩
  unfold conflictsWith at h
  rw [hs, h1, h2] at h
  simp only [if_true] at h
  have hd : durationInDays sd = days sd := rfl
  rw [hd] at h
  split at h
  · cases h
  · rename_i c1
    split at h
    · cases h
    · rename_i c2
      split at h
      · cases h
      · rename_i c3
        simp only [Bool.and_eq_true, decide_eq_true_eq, not_and, not_lt, not_le] at c1 c2 c3
        rcases le_or_gt s ss with h3 | h3
        · exact absurd (c1 h3) (by linarith)
        · have := c2 o1
          have := c3 h3.le
          linarith

theorem conflictsWith_true {r : Request} {s d : ℚ} (h : conflictsWith r s d = .ok true)
    (hd : 0 < d) (hsd : ∀ sd, r.schedDuration = some sd → 0 < sd) :
    r.isScheduled = true ∧ ∃ ss sd, r.start = some ss ∧ r.schedDuration = some sd ∧
      Overlap s d ss (days sd) := by
  unfold conflictsWith at h
  split at h
  · rename_i hs
    refine ⟨hs, ?_⟩
    split at h
    · rename_i ss sd h1 h2
      refine ⟨ss, sd, h1, h2, ?_⟩
      have hdd : durationInDays sd = days sd := rfl
      have hpos : 0 < days sd := div_pos (hsd sd h2) (by norm_num)
      simp only at h
      rw [hdd] at h
      split at h
      · rename_i c
        simp only [Bool.and_eq_true, decide_eq_true_eq] at c
        exact ⟨by linarith, c.2⟩
      · split at h
        · rename_i c
          simp only [Bool.and_eq_true, decide_eq_true_eq] at c
          exact ⟨c.1, by linarith⟩
        · split at h
          · rename_i c
            simp only [Bool.and_eq_true, decide_eq_true_eq] at c
            exact ⟨by linarith, by linarith⟩
          · cases h
    · cases h
  · cases h

theorem conflictsWith_ok {r : Request} (hr : r.Clear ∨ r.Assigned) (s d : ℚ) :
    ∃ b, conflictsWith r s d = .ok b := by
  unfold conflictsWith
  rcases hr with h | h
  · rw [h.1]; exact ⟨false, rfl⟩
  · obtain ⟨h1, -, h3, ss, h4, -⟩ := h
    rw [h1, h3, h4]
    simp only [if_true]
    split_ifs <;> exact ⟨_, rfl⟩

theorem anyConflict_ok {l : List Request} (hl : ∀ r ∈ l, r.Clear ∨ r.Assigned) (s d : ℚ) :
    ∃ b, anyConflict l s d = .ok b ∧ (b = true ↔ ∃ r ∈ l, conflictsWith r s d = .ok true) := by
  induction l with
  | nil => exact ⟨false, rfl, by simp⟩
  | cons r l ih =>
    obtain ⟨b, hb⟩ := conflictsWith_ok (hl r List.mem_cons_self) s d
    obtain ⟨b', hb', hiff⟩ := ih fun r hr => hl r (List.mem_cons_of_mem _ hr)
    unfold anyConflict
    rw [hb]
    cases b with
    | true => exact ⟨true, rfl, by simp [hb]⟩
    | false =>
      refine ⟨b', hb', ?_⟩
      rw [hiff]
      simp [hb]

theorem anyConflict_false {l : List Request} {s d : ℚ} (h : anyConflict l s d = .ok false) :
    ∀ r ∈ l, conflictsWith r s d = .ok false := by
  induction l with
  | nil => simp
  | cons r l ih =>
    unfold anyConflict at h
    split at h
    · cases h
    · cases h
    · rename_i hr
      intro r' hr'
      rcases List.mem_cons.1 hr' with rfl | hr'
      · exact hr
      · exact ih h r' hr'

theorem Overlap.symm {s₁ d₁ s₂ d₂ : ℚ} (h : Overlap s₁ d₁ s₂ d₂) : Overlap s₂ d₂ s₁ d₁ :=
  ⟨h.2, h.1⟩

theorem RowsOverlap.symm {a b : Request} (h : RowsOverlap a b) : RowsOverlap b a := by
  obtain ⟨s, d, s', d', h1, h2, h3, h4, h5, h6, h7⟩ := h
  exact ⟨s', d', s, d, h2, h1, h5, h6, h3, h4, h7.symm⟩

theorem insertLoop_noOverlap : ∀ (m i : ℕ) (h : Handler) (n : ℤ), i + m = h.requests.length →
    h.Consistent →
    (∀ j r, i ≤ j → h.requests[j]? = some r → r.isScheduled = false) →
    h.requests.Pairwise (fun a b => ¬ RowsOverlap a b) →
    (insertLoop (List.range' i m) h n).1.requests.Pairwise (fun a b => ¬ RowsOverlap a b) := by
  intro m
  induction m with
  | zero => intro i h n _ _ _ hp; exact hp
  | succ m ih =>
    intro i h n hlen hc hun hp
    rw [List.range'_succ]
    unfold insertLoop
    split
    · exact hp
    · split
      · exact hp
      · rename_i r hr
        have hun' : ∀ j r, i + 1 ≤ j → h.requests[j]? = some r → r.isScheduled = false :=
          fun j r hj => hun j r (by omega)
        have hrs : r.isScheduled = false := hun i r le_rfl hr
        rw [hrs]
        simp only [Bool.false_eq_true, if_false]
        split
        · exact hp
        · exact ih (i + 1) h n (by omega) hc hun' hp
        · rename_i idx s ht
          obtain ⟨hidx, hf, hconf⟩ := tryVtws_feasible ht
          obtain ⟨hc', -⟩ := hc.schedule hr hrs hidx hf
          obtain ⟨l₁, l₂, hl, hll, hm⟩ := modify_split hr
          have hreq : (h.schedule i idx s r.duration).requests =
              l₁ ++ r.assignWith idx s r :: l₂ := hm (r.assignWith idx s)
          refine ih (i + 1) _ _ ?_ hc' ?_ ?_
          · rw [hreq]; rw [hl] at hlen; simp at hlen ⊢; omega
          · intro j r' hj hr'
            refine hun' j r' hj ?_
            rw [← hr', hreq, hl, List.getElem?_append_right (by omega),
              List.getElem?_append_right (by omega)]
            have : j - l₁.length = (j - l₁.length - 1) + 1 := by omega
            rw [this]; rfl
          · rw [hreq]
            rw [hl] at hp
            have hl1 : ∀ a ∈ l₁, ¬ RowsOverlap a (r.assignWith idx s r) := by
              intro a ha hov
              have hmem : a ∈ h.forLoop := by
                rw [forLoop_eq, hl, List.dropLast_append_cons]
                exact List.mem_append_left _ ha
              have := anyConflict_false hconf a hmem
              obtain ⟨s1, d1, s2, d2, h1, h2, h3, h4, h5, h6, h7⟩ := hov
              simp only [Request.assignWith, Option.some.injEq] at h5 h6
              subst h5 h6
              exact conflictsWith_false this h1 s1 d1 h3 h4 h7.symm
            have hl2 : ∀ b ∈ l₂, ¬ RowsOverlap (r.assignWith idx s r) b := by
              intro b hb hov
              obtain ⟨k, hk⟩ := List.getElem?_of_mem hb
              have : b.isScheduled = false := by
                refine hun (i + 1 + k) b (by omega) ?_
                rw [hl, List.getElem?_append_right (by omega)]
                have : i + 1 + k - l₁.length = k + 1 := by omega
                rw [this]; simpa using hk
              obtain ⟨_, _, _, _, _, h2, _⟩ := hov
              rw [this] at h2; cases h2
            rw [List.pairwise_append, List.pairwise_cons] at hp ⊢
            obtain ⟨p1, ⟨p2, p3⟩, p4⟩ := hp
            refine ⟨p1, ⟨hl2, p3⟩, ?_⟩
            intro a ha b hb
            rcases List.mem_cons.1 hb with rfl | hb
            · exact hl1 a ha
            · exact p4 a ha b (List.mem_cons_of_mem _ hb)

end Celest.Schedule
