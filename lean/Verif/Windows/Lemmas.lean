/-
Lemmas on index lists: splitting an ascending list at its gaps yields its maximal runs.
-/
import Verif.Windows.Spec
import Mathlib.Data.List.Pairwise

namespace Celest.Windows

open Celest.Schedule (VTW)

variable {K : Type} [LinearOrder K] [Zero K] [OfNat K 90]

/-- The list `a, a+1, ..., b`. -/
def block (p : ℕ × ℕ) : List ℕ := List.range' p.1 (p.2 + 1 - p.1)

theorem splitAt_shift (a : ℕ) (w : List ℕ) : ∀ (ps : List ℕ) (s : ℕ),
    splitAt (a :: w) (s + 1) (ps.map (· + 1)) = splitAt w s ps := by
  intro ps
  induction ps with
  | nil => intro s; simp [splitAt]
  | cons p ps ih => intro s; simp [splitAt, ih]

theorem splitAt_ne_nil (w : List ℕ) (s : ℕ) (ps : List ℕ) : splitAt w s ps ≠ [] := by
  cases ps <;> simp [splitAt]

theorem splitAt_cons (a : ℕ) (w : List ℕ) (ps : List ℕ) :
    splitAt (a :: w) 0 (ps.map (· + 1)) =
      (a :: (splitAt w 0 ps).head (splitAt_ne_nil _ _ _)) :: (splitAt w 0 ps).tail := by
  cases ps with
  | nil => simp [splitAt]
  | cons p ps => simp [splitAt, splitAt_shift]

theorem diff_length : ∀ w : List ℕ, (diff w).length = w.length - 1
  | [] => rfl
  | [_] => rfl
  | a :: b :: l => by simp [diff, diff_length (b :: l)]

theorem gaps_cons (x : ℤ) (d : List ℤ) :
    ((List.range (x :: d).length).filter fun i => (x :: d)[i]? ≠ some 1) =
      (if x = 1 then [] else [0]) ++
        ((List.range d.length).filter fun i => d[i]? ≠ some 1).map (· + 1) := by
  rw [List.length_cons, List.range_succ_eq_map, List.filter_cons, List.filter_map]
  by_cases h : x = 1
  · simp [h, Function.comp_def]
  · simp [h, Function.comp_def]

theorem splitPoints_cons (a b : ℕ) (l : List ℕ) :
    splitPoints (a :: b :: l) =
      (if b = a + 1 then [] else [1]) ++ (splitPoints (b :: l)).map (· + 1) := by
  have hd : diff (a :: b :: l) = ((b : ℤ) - a) :: diff (b :: l) := rfl
  unfold splitPoints
  rw [hd, gaps_cons]
  have : ((b : ℤ) - a = 1) ↔ b = a + 1 := by omega
  by_cases h : b = a + 1
  · simp [h]
  · simp [h, this]

theorem split_cons (a b : ℕ) (l : List ℕ) :
    split (a :: b :: l) (splitPoints (a :: b :: l)) =
      let r := split (b :: l) (splitPoints (b :: l))
      if b = a + 1 then (a :: r.head (splitAt_ne_nil _ _ _)) :: r.tail else [a] :: r := by
  rw [splitPoints_cons]
  unfold split
  by_cases h : b = a + 1
  · simp only [h, if_true, List.nil_append]
    rw [splitAt_cons]
  · simp only [h, if_false, List.cons_append, List.nil_append, splitAt]
    have := splitAt_shift a (b :: l) (splitPoints (b :: l)) 0
    rw [show (0 + 1 : ℕ) = 1 from rfl] at this
    rw [this]
    simp

/-- An ascending nonempty list is cut into blocks separated by gaps that cover it exactly. -/
theorem split_blocks : ∀ (w : List ℕ), w ≠ [] → w.Pairwise (· < ·) →
    ∃ runs : List (ℕ × ℕ), split w (splitPoints w) = runs.map block ∧
      (∀ p ∈ runs, p.1 ≤ p.2) ∧ runs.Pairwise (fun p q => p.2 + 1 < q.1) ∧
      (∀ k, k ∈ w ↔ ∃ p ∈ runs, p.1 ≤ k ∧ k ≤ p.2) ∧ (runs.head?.map Prod.fst = w.head?)
  | [], h, _ => absurd rfl h
  | [a], _, _ => by
    refine ⟨[(a, a)], ?_, by simp, by simp, ?_, by simp⟩
    · simp [splitPoints, diff, split, splitAt, block]
    · intro k
      simp only [List.mem_cons, List.not_mem_nil, or_false, exists_eq_left]
      omega
  | a :: b :: l, _, hs => by
    rw [List.pairwise_cons] at hs
    obtain ⟨runs, h1, h2, h3, h4, h5⟩ := split_blocks (b :: l) (by simp) hs.2
    have hab : a < b := hs.1 b (by simp)
    rw [split_cons]
    match runs, h1, h2, h3, h4, h5 with
    | [], _, _, _, _, h5 => simp at h5
    | (s, e) :: t, h1, h2, h3, h4, h5 =>
      simp only [List.head?_cons, Option.map_some, Option.some.injEq] at h5
      subst h5
      have hse : s ≤ e := h2 (s, e) (by simp)
      rw [List.pairwise_cons] at h3
      simp only [h1]
      split
      · rename_i hb
        refine ⟨(a, e) :: t, ?_, ?_, ?_, ?_, by simp⟩
        · simp only [List.map_cons, List.head_cons, List.tail_cons, List.cons.injEq, and_true]
          unfold block
          simp only
          have : e + 1 - a = (e + 1 - s) + 1 := by omega
          rw [this, List.range'_succ, hb]
        · intro p hp
          rcases List.mem_cons.1 hp with rfl | hp
          · simp only; omega
          · exact h2 p (by simp [hp])
        · rw [List.pairwise_cons]
          exact ⟨fun q hq => h3.1 q hq, h3.2⟩
        · intro k
          rw [List.mem_cons, h4 k]
          simp only [List.mem_cons, exists_eq_or_imp]
          constructor
          · rintro (rfl | ⟨h, h'⟩ | h)
            · left; omega
            · left; omega
            · right; exact h
          · rintro (⟨h, h'⟩ | h)
            · by_cases hk : k = a
              · left; exact hk
              · right; left; omega
            · right; right; exact h
      · rename_i hb
        refine ⟨(a, a) :: (s, e) :: t, ?_, ?_, ?_, ?_, by simp⟩
        · simp [block]
        · intro p hp
          rcases List.mem_cons.1 hp with rfl | hp
          · simp
          · exact h2 p hp
        · rw [List.pairwise_cons]
          refine ⟨?_, List.pairwise_cons.2 h3⟩
          intro q hq
          rcases List.mem_cons.1 hq with rfl | hq
          · simp only; omega
          · have := h3.1 q hq
            simp only at this ⊢
            omega
        · intro k
          rw [List.mem_cons, h4 k]
          simp only [List.mem_cons, exists_eq_or_imp]
          constructor
          · rintro (rfl | h)
            · left; omega
            · right; exact h
          · rintro (h | h)
            · left; omega
            · right; exact h

/-- Separated blocks that cover `P` exactly are its maximal runs. -/
theorem maximalRun_iff (P : ℕ → Prop) (n : ℕ) (hPn : ∀ k, P k → k < n) (runs : List (ℕ × ℕ))
    (h2 : ∀ p ∈ runs, p.1 ≤ p.2) (h3 : runs.Pairwise (fun p q => p.2 + 1 < q.1))
    (h4 : ∀ k, P k ↔ ∃ p ∈ runs, p.1 ≤ k ∧ k ≤ p.2) (a b : ℕ) :
    (a, b) ∈ runs ↔ MaximalRun P n a b := by
  have hsep : ∀ p ∈ runs, ∀ q ∈ runs, p ≠ q → p.2 + 1 < q.1 ∨ q.2 + 1 < p.1 := by
    have hsym : runs.Pairwise (fun p q => p.2 + 1 < q.1 ∨ q.2 + 1 < p.1) :=
      h3.imp fun h => Or.inl h
    have : Std.Symm (fun p q : ℕ × ℕ => p.2 + 1 < q.1 ∨ q.2 + 1 < p.1) := ⟨fun _ _ h => h.symm⟩
    intro p hp q hq hpq
    exact hsym.forall hp hq hpq
  constructor
  · intro h
    have hab : a ≤ b := h2 _ h
    have hP : ∀ k, a ≤ k → k ≤ b → P k := fun k h1 h5 => (h4 k).2 ⟨_, h, h1, h5⟩
    refine ⟨hab, hPn b (hP b hab le_rfl), hP, ?_, ?_⟩
    · by_cases ha : a = 0
      · exact Or.inl ha
      · right
        intro hp
        obtain ⟨q, hq, h6, h7⟩ := (h4 _).1 hp
        by_cases hqe : q = (a, b)
        · subst hqe; simp only at h6; omega
        · have h8 := hsep q hq _ h hqe
          have := h2 q hq
          simp only at h8
          omega
    · right
      intro hp
      obtain ⟨q, hq, h6, h7⟩ := (h4 _).1 hp
      by_cases hqe : q = (a, b)
      · subst hqe; simp only at h7; omega
      · have h8 := hsep q hq _ h hqe
        have := h2 q hq
        simp only at h8
        omega
  · rintro ⟨hab, hbn, hP, hl, hr⟩
    obtain ⟨q, hq, h6, h7⟩ := (h4 a).1 (hP a le_rfl hab)
    obtain ⟨q1, q2⟩ := q
    simp only at h6 h7
    have hqa : q1 = a := by
      by_contra hne
      rcases hl with hl | hl
      · omega
      · exact hl ((h4 _).2 ⟨_, hq, by simp only; omega, by simp only; omega⟩)
    subst hqa
    have hqb : q2 = b := by
      rcases lt_trichotomy q2 b with hlt | heq | hgt
      · exfalso
        obtain ⟨r, hr', h8, h9⟩ := (h4 (q2 + 1)).1 (hP _ (by omega) (by omega))
        by_cases hqe : r = (q1, q2)
        · subst hqe; simp only at h9; omega
        · have h10 := hsep r hr' _ hq hqe
          have := h2 r hr'
          simp only at h10
          omega
      · exact heq
      · exfalso
        have hp : P (b + 1) := (h4 _).2 ⟨_, hq, by simp only; omega, by simp only; omega⟩
        rcases hr with hr | hr
        · have := hPn _ hp; omega
        · exact hr hp
    subst hqb
    exact hq

theorem mem_whereIndices {α : Type} (p : α → Bool) (l : List α) (k : ℕ) :
    k ∈ whereIndices p l ↔ ∃ x, l[k]? = some x ∧ p x = true := by
  unfold whereIndices
  rw [List.mem_filter, List.mem_range]
  constructor
  · rintro ⟨h, h'⟩
    rw [List.getElem?_eq_getElem h] at h' ⊢
    exact ⟨_, rfl, by simpa using h'⟩
  · rintro ⟨x, h, h'⟩
    rw [h]
    exact ⟨(List.getElem?_eq_some_iff.1 h).1, by simpa using h'⟩

theorem pairwise_whereIndices {α : Type} (p : α → Bool) (l : List α) :
    (whereIndices p l).Pairwise (· < ·) :=
  List.Pairwise.filter _ List.pairwise_lt_range

/-- The indices `generate_vtws` splits: ascending, and exactly the visible samples. -/
theorem indices_spec (sc : Scene K) (wf : sc.WellFormed) (threshold : K) (lighting : Lighting)
    (hl : lighting ≠ .invalid) :
    ∃ li, lightingIndices sc lighting = .ok li ∧
      (intersect1d (whereIndices (fun e => e.any (threshold < ·)) sc.elevation) li).Pairwise (· < ·) ∧
      ∀ k, k ∈ intersect1d (whereIndices (fun e => e.any (threshold < ·)) sc.elevation) li ↔
        Visible sc threshold lighting k := by
  have key : ∀ li, (∀ k, (∃ e, sc.elevation[k]? = some (some e) ∧ threshold < e) →
      (k ∈ li ↔ Lit sc lighting k)) →
      (intersect1d (whereIndices (fun e => e.any (threshold < ·)) sc.elevation) li).Pairwise (· < ·) ∧
      ∀ k, k ∈ intersect1d (whereIndices (fun e => e.any (threshold < ·)) sc.elevation) li ↔
        Visible sc threshold lighting k := by
    intro li h
    refine ⟨List.Pairwise.filter _ (pairwise_whereIndices _ _), ?_⟩
    intro k
    unfold intersect1d Visible
    have hw : k ∈ whereIndices (fun e => e.any (threshold < ·)) sc.elevation ↔
        ∃ e, sc.elevation[k]? = some (some e) ∧ threshold < e := by
      rw [mem_whereIndices]
      constructor
      · rintro ⟨x, hx, hp⟩
        cases x with
        | none => simp at hp
        | some e => exact ⟨e, hx, by simpa using hp⟩
      · rintro ⟨e, hx, he⟩
        exact ⟨some e, hx, by simpa using he⟩
    rw [List.mem_filter, hw]
    simp only [decide_eq_true_eq]
    constructor
    · rintro ⟨h1, h2⟩; exact ⟨h1, (h k h1).1 h2⟩
    · rintro ⟨h1, h2⟩; exact ⟨h1, (h k h1).2 h2⟩
  cases lighting with
  | invalid => exact absurd rfl hl
  | night =>
    refine ⟨_, rfl, key _ ?_⟩
    intro k _
    rw [mem_whereIndices]
    constructor
    · rintro ⟨x, hx, hp⟩
      cases x with
      | none => simp at hp
      | some e => exact ⟨e, hx, by simpa using hp⟩
    · rintro ⟨e, hx, he⟩
      exact ⟨some e, hx, by simpa using he⟩
  | day =>
    refine ⟨_, rfl, key _ ?_⟩
    intro k _
    rw [mem_whereIndices]
    constructor
    · rintro ⟨x, hx, hp⟩
      cases x with
      | none => simp at hp
      | some e => exact ⟨e, hx, by simpa using hp⟩
    · rintro ⟨e, hx, he⟩
      exact ⟨some e, hx, by simpa using he⟩
  | anytime =>
    refine ⟨_, rfl, key _ ?_⟩
    rintro k ⟨e, he, -⟩
    have := (List.getElem?_eq_some_iff.1 he).1
    simp only [Lit, List.mem_range, iff_true]
    rw [← wf.1]; exact this

theorem pyGet_nat {α : Type} (l : List α) (k : ℕ) (h : k < l.length) :
    pyGet l (k : ℤ) = .ok l[k] := by
  unfold pyGet
  have h1 : ¬ ((k : ℤ) < 0) := by omega
  simp [h1, h]

theorem pyGet_last {α : Type} (l : List α) (h : 0 < l.length) :
    pyGet l (-1) = .ok l[l.length - 1] := by
  unfold pyGet
  have h2 : ¬ ((-1 : ℤ) + l.length < 0) := by omega
  have h3 : ((-1 : ℤ) + l.length).toNat = l.length - 1 := by omega
  simp [h2, h3, h]

/-- Sample index the rise time of a run starting at `a` is read from: the one before, and for
a run starting at the first sample the last one (a negative index wraps). -/
theorem toWindow_block (sc : Scene K) (p : ℕ × ℕ) (h : p.1 ≤ p.2) (hn : p.2 < sc.julian.length) :
    ∃ w, toWindow sc (block p) = .ok w ∧
      sc.julian[if p.1 = 0 then sc.julian.length - 1 else p.1 - 1]? = some w.rise ∧
      sc.julian[p.2]? = some w.set ∧ w.attTime = sc.julian ∧ w.attPitch = sc.pitch := by
  have hlen : (block p).length = p.2 + 1 - p.1 := by simp [block]
  have hf : pyGet (block p) 0 = .ok p.1 := by
    have := pyGet_nat (block p) 0 (by omega)
    rw [Nat.cast_zero] at this
    rw [this]
    simp [block]
  have hl : pyGet (block p) (-1) = .ok p.2 := by
    rw [pyGet_last _ (by omega)]
    simp only [block, List.getElem_range', List.length_range']
    congr 1
    omega
  have hr : ∃ r, pyGet sc.julian ((p.1 : ℤ) - 1) = .ok r ∧
      sc.julian[if p.1 = 0 then sc.julian.length - 1 else p.1 - 1]? = some r := by
    by_cases h0 : p.1 = 0
    · rw [h0]
      refine ⟨_, by simpa using pyGet_last sc.julian (by omega), ?_⟩
      simp only [if_true]
      exact List.getElem?_eq_getElem _
    · have : ((p.1 : ℤ) - 1) = ((p.1 - 1 : ℕ) : ℤ) := by omega
      rw [this, if_neg h0]
      exact ⟨_, pyGet_nat _ _ (by omega), List.getElem?_eq_getElem _⟩
  obtain ⟨r, hr1, hr2⟩ := hr
  refine ⟨⟨r, sc.julian[p.2], sc.julian, sc.pitch⟩, ?_, hr2, List.getElem?_eq_getElem _, rfl, rfl⟩
  unfold toWindow
  rw [hf]
  simp only [bind, Except.bind, pure, Except.pure]
  rw [hr1, hl]
  simp only
  rw [pyGet_nat _ _ hn]

theorem mapM_toWindow (sc : Scene K) (runs : List (ℕ × ℕ)) (h : ∀ p ∈ runs, p.1 ≤ p.2)
    (hn : ∀ p ∈ runs, p.2 < sc.julian.length) :
    ∃ ws, (runs.map block).mapM (toWindow sc) = .ok ws ∧ List.Forall₂ (fun p w =>
      sc.julian[if p.1 = 0 then sc.julian.length - 1 else p.1 - 1]? = some w.rise ∧
      sc.julian[p.2]? = some w.set ∧ w.attTime = sc.julian ∧ w.attPitch = sc.pitch) runs ws := by
  induction runs with
  | nil => exact ⟨[], rfl, .nil⟩
  | cons p runs ih =>
    obtain ⟨ws, h1, h2⟩ := ih (fun q hq => h q (by simp [hq])) (fun q hq => hn q (by simp [hq]))
    obtain ⟨w, hw1, hw2⟩ := toWindow_block sc p (h p (by simp)) (hn p (by simp))
    refine ⟨w :: ws, ?_, .cons hw2 h2⟩
    rw [List.map_cons, List.mapM_cons, hw1, h1]
    rfl

end Celest.Windows
