/-
Lemmas on the table writer: when it succeeds and what it writes.
-/
import Verif.Text.Lemmas

namespace Celest.Text

theorem cells_length (c : Data) : c.cells.length = c.rows := by
  cases c <;> simp [Data.cells, Data.rows]

/-- Entry `j` of a column. -/
def cellAt (c : Column) (j : ℕ) : Cell := c.data.cells.getD j (.obj [])

theorem pyMaxNat_ok (l : List ℕ) : (∃ w, pyMaxNat l = .ok w) ↔ l ≠ [] := by
  cases l <;> simp [pyMaxNat]

theorem npMax_ok (l : List ℚ) : (∃ w, npMax l = .ok w) ↔ l ≠ [] := by
  cases l <;> simp [npMax]

/-- When the width of a column can be computed. -/
theorem maxValueWidth_ok (d : ℕ) (strOf : ℚ → Str) (c : Column) :
    (∃ w, maxValueWidth d strOf c = .ok w) ↔
      0 < c.data.rows ∧ ∀ xs, c.data = .objs xs → c.unit = none := by
  obtain ⟨label, unit, data⟩ := c
  have hmap : ∀ {α β : Type} (f : α → β) (x : Py α), (∃ w, x.map f = .ok w) ↔ ∃ w, x = .ok w := by
    intro α β f x
    cases x <;> simp [Except.map]
  cases unit with
  | none =>
    cases data with
    | floats xs => simp [maxValueWidth, pyMaxNat_ok, Data.rows, List.length_pos_iff]
    | ints xs => simp [maxValueWidth, pyMaxNat_ok, Data.rows, List.length_pos_iff]
    | objs xs => simp [maxValueWidth, pyMaxNat_ok, Data.rows, List.length_pos_iff]
  | some u =>
    cases data with
    | floats xs => simp [maxValueWidth, hmap, npMax_ok, Data.rows, List.length_pos_iff]
    | ints xs => simp [maxValueWidth, hmap, npMax_ok, Data.rows, List.length_pos_iff]
    | objs xs =>
      simp only [maxValueWidth, Data.rows]
      constructor
      · rintro ⟨w, h⟩
        split at h <;> cases h
      · rintro ⟨-, h⟩
        exact absurd (h xs rfl) (by simp)

theorem concatenate_ok (n : ℕ) (f : ℕ → List Cell) (c : Column) (h : c.data.rows = n) :
    concatenate ((List.range n).map f) c.data.cells =
      .ok ((List.range n).map fun j => f j ++ [cellAt c j]) := by
  unfold concatenate
  rw [if_pos (by rw [cells_length, h]; simp)]
  congr 1
  apply List.ext_getElem
  · simp [cells_length, h]
  · intro i h1 h2
    have hi : i < c.data.cells.length := by simp at h1; exact h1.2
    simp [cellAt, List.getD_eq_getElem?_getD, List.getElem?_eq_getElem hi]

theorem first_column (n : ℕ) (c : Column) (h : c.data.rows = n) :
    (c.data.cells.map fun x => [x]) = (List.range n).map fun j => [cellAt c j] := by
  apply List.ext_getElem
  · simp [cells_length, h]
  · intro i h1 h2
    have hi : i < c.data.cells.length := by simpa using h1
    simp [cellAt, List.getD_eq_getElem?_getD, List.getElem?_eq_getElem hi]

/-- The label line from column `i` on. -/
def endings (total : ℕ) : ℕ → List Str → Str
  | _, [] => []
  | i, s :: ss => s ++ (if i < total - 1 then ['\t'] else ['\n']) ++ endings total (i + 1) ss

theorem endings_eq (total : ℕ) : ∀ (l : List Str) (i : ℕ), l ≠ [] → i + l.length = total →
    endings total i l = List.intercalate ['\t'] l ++ ['\n'] := by
  intro l
  induction l with
  | nil => intro i h; exact absurd rfl h
  | cons s l ih =>
    intro i _ h
    rw [List.length_cons] at h
    unfold endings
    cases l with
    | nil =>
      rw [if_neg (by simp at h; omega)]
      simp [endings]
    | cons s' l =>
      rw [ih (i + 1) (by simp) (by omega), if_pos (by simp at h; omega),
        List.intercalate_cons_cons]
      simp

theorem columnLabel_eq (c : Column) : columnLabel c = c.heading := by
  unfold columnLabel Column.heading
  cases c.unit <;> simp

/-- The width of a column. -/
def width (d : ℕ) (strOf : ℚ → Str) (c : Column) : ℕ :=
  match maxValueWidth d strOf c with
  | .ok vw => max vw c.heading.length
  | .error _ => 0

/-- The column loop on columns that can all be written. -/
theorem columnLoop_ok (d : ℕ) (strOf : ℚ → Str) (total n : ℕ) : ∀ (cs : List Column) (i : ℕ)
    (a : Acc) (f : ℕ → List Cell), a.raw = some ((List.range n).map f) →
    (∀ c ∈ cs, ∃ w, maxValueWidth d strOf c = .ok w) → (∀ c ∈ cs, c.data.rows = n) →
    columnLoop d strOf total i cs a = .ok
      ⟨a.labels ++ endings total i (cs.map fun c => ljust (width d strOf c) c.heading),
        a.underline ++ endings total i (cs.map fun c => List.replicate (width d strOf c) '-'),
        a.widths ++ cs.map (width d strOf),
        some ((List.range n).map fun j => f j ++ cs.map fun c => cellAt c j)⟩ := by
  intro cs
  induction cs with
  | nil =>
    intro i a f ha _ _
    obtain ⟨l, u, w, r⟩ := a
    simp only at ha
    subst ha
    simp [columnLoop, endings]
  | cons c cs ih =>
    intro i a f ha hw hr
    obtain ⟨w, hw1⟩ := hw c (by simp)
    unfold columnLoop columnInformation
    rw [hw1]
    simp only [ha]
    rw [concatenate_ok n f c (hr c (by simp))]
    simp only
    rw [ih (i + 1) _ _ rfl (fun c hc => hw c (by simp [hc])) (fun c hc => hr c (by simp [hc]))]
    have hwd : width d strOf c = max w c.heading.length := by
      unfold width; rw [hw1]
    simp [endings, hwd, columnLabel_eq]

/-- The column loop succeeds only on columns that can all be written. -/
theorem columnLoop_inv (d : ℕ) (strOf : ℚ → Str) (total : ℕ) : ∀ (cs : List Column) (i : ℕ)
    (a a' : Acc) (r : List (List Cell)), a.raw = some r →
    columnLoop d strOf total i cs a = .ok a' →
    ∀ c ∈ cs, (∃ w, maxValueWidth d strOf c = .ok w) ∧ c.data.rows = r.length := by
  intro cs
  induction cs with
  | nil => intro i a a' r _ _ c hc; simp at hc
  | cons c cs ih =>
    intro i a a' r ha h
    unfold columnLoop columnInformation at h
    cases hw : maxValueWidth d strOf c with
    | error e => rw [hw] at h; cases h
    | ok w =>
      rw [hw] at h
      simp only [ha] at h
      by_cases hl : r.length = c.data.cells.length
      · unfold concatenate at h
        rw [if_pos hl] at h
        simp only at h
        intro c' hc'
        rcases List.mem_cons.1 hc' with rfl | hc'
        · exact ⟨⟨w, hw⟩, by rw [hl, cells_length]⟩
        · have := ih _ _ _ _ rfl h c' hc'
          refine ⟨this.1, ?_⟩
          rw [this.2]
          simp [hl]
      · unfold concatenate at h
        rw [if_neg hl] at h
        cases h

theorem allInts_eq (cols : List Column) : allInts cols = decide (IntegerTable cols) := by
  rw [Bool.eq_iff_iff, decide_eq_true_iff]
  unfold allInts IntegerTable
  rw [List.all_eq_true]
  refine forall₂_congr fun c _ => ?_
  cases c.data <;> simp

/-- A savable table is written as its lines; nothing is written of any other. -/
theorem writeData_spec (d : ℕ) (strOf : ℚ → Str) (cols : List Column) :
    (Savable cols → ∃ n, 0 < n ∧ (∀ c ∈ cols, c.data.rows = n) ∧
      writeData d strOf cols = (List.intercalate ['\n']
        (tableLines d cols (cols.map (width d strOf)) n), none)) ∧
    (¬ Savable cols → ∃ e, writeData d strOf cols = ([], some e)) := by
  constructor
  · rintro ⟨hne, ⟨n, hn, hrows⟩, hobj⟩
    refine ⟨n, hn, hrows, ?_⟩
    have hw : ∀ c ∈ cols, ∃ w, maxValueWidth d strOf c = .ok w := by
      intro c hc
      rw [maxValueWidth_ok]
      exact ⟨by rw [hrows c hc]; exact hn, fun xs hxs => hobj c hc xs hxs⟩
    cases cols with
    | nil => exact absurd rfl hne
    | cons c cs =>
      unfold writeData
      have hloop : columnLoop d strOf (c :: cs).length 0 (c :: cs) ⟨[], [], [], none⟩ = .ok
          ⟨endings (c :: cs).length 0
              ((c :: cs).map fun c => ljust (width d strOf c) c.heading),
            endings (c :: cs).length 0
              ((c :: cs).map fun c => List.replicate (width d strOf c) '-'),
            (c :: cs).map (width d strOf),
            some ((List.range n).map fun j => (c :: cs).map fun c => cellAt c j)⟩ := by
        obtain ⟨w, hw1⟩ := hw c (by simp)
        have hwd : width d strOf c = max w c.heading.length := by
          unfold width; rw [hw1]
        conv_lhs => unfold columnLoop columnInformation
        rw [hw1]
        simp only
        rw [columnLoop_ok d strOf _ n cs _ _ (fun j => [cellAt c j])
          (by simp only; rw [first_column n c (hrows c (by simp))])
          (fun c hc => hw c (by simp [hc])) (fun c hc => hrows c (by simp [hc]))]
        simp [endings, hwd, columnLabel_eq]
      rw [hloop]
      simp only
      rw [endings_eq _ _ _ (by simp) (by simp), endings_eq _ _ _ (by simp) (by simp)]
      simp only [write, Out.andThen]
      congr 1
      unfold columnData
      rw [joinFrom_zero _ _ _ (by simp)]
      unfold tableLines
      rw [intercalate_append _ _ _ (by simp) (by simp; omega)]
      rw [List.intercalate_cons_cons, List.intercalate_singleton]
      have hz1 : List.zipWith ljust ((c :: cs).map (width d strOf)) ((c :: cs).map Column.heading) =
          (c :: cs).map fun c => ljust (width d strOf c) c.heading := by
        generalize c :: cs = l
        induction l with
        | nil => rfl
        | cons a l ih => simp [ih]
      rw [hz1]
      have hrowseq : (List.map (fun row => joinFrom ['\t'] row.length 0
            (List.zipWith (fun x w => ljust w (entryText d (allInts (c :: cs)) x)) row
              ((c :: cs).map (width d strOf))))
            ((List.range n).map fun j => (c :: cs).map fun c => cellAt c j)) =
          (List.range n).map fun i => List.intercalate ['\t']
            (List.zipWith (fun w (x : Column) =>
                ljust w (x.data.text d (decide (IntegerTable (c :: cs))) i))
              ((c :: cs).map (width d strOf)) (c :: cs)) := by
        rw [List.map_map, allInts_eq]
        apply List.map_congr_left
        intro i hi
        have hi' : i < n := List.mem_range.1 hi
        simp only [Function.comp]
        rw [joinFrom_zero _ _ _ (by simp)]
        congr 1
        have hcell : ∀ x ∈ c :: cs, ∀ b, entryText d b (cellAt x i) = x.data.text d b i := by
          intro x hx b
          have hr := hrows x hx
          obtain ⟨lb, un, dt⟩ := x
          unfold cellAt
          simp only at hr ⊢
          cases dt with
          | floats xs =>
            have hi2 : i < xs.length := by simp only [Data.rows] at hr; omega
            simp [Data.cells, Data.text, entryText, List.getD_eq_getElem?_getD, hi2]
          | ints xs =>
            have hi2 : i < xs.length := by simp only [Data.rows] at hr; omega
            simp [Data.cells, Data.text, entryText, List.getD_eq_getElem?_getD, hi2]
          | objs xs =>
            have hi2 : i < xs.length := by simp only [Data.rows] at hr; omega
            simp [Data.cells, Data.text, entryText, List.getD_eq_getElem?_getD, hi2]
        generalize decide (IntegerTable (c :: cs)) = b
        generalize c :: cs = l at hcell ⊢
        induction l with
        | nil => rfl
        | cons a l ih =>
          simp only [List.map_cons, List.zipWith_cons_cons]
          rw [hcell a (by simp), ih (fun x hx => hcell x (by simp [hx]))]
      rw [hrowseq, List.map_map (f := width d strOf)]
      simp only [List.append_assoc, Function.comp_def]
  · intro h
    unfold writeData
    cases cols with
    | nil => exact ⟨.unboundLocalError, rfl⟩
    | cons c cs =>
      cases hl : columnLoop d strOf (c :: cs).length 0 (c :: cs) ⟨[], [], [], none⟩ with
      | error e => exact ⟨e, rfl⟩
      | ok a =>
        exfalso
        apply h
        unfold columnLoop columnInformation at hl
        cases hw : maxValueWidth d strOf c with
        | error e => rw [hw] at hl; cases hl
        | ok w =>
          rw [hw] at hl
          simp only at hl
          have hinv := columnLoop_inv d strOf _ cs _ _ _ _ rfl hl
          have hc := (maxValueWidth_ok d strOf c).1 ⟨w, hw⟩
          refine ⟨by simp, ⟨c.data.rows, hc.1, ?_⟩, ?_⟩
          · intro x hx
            rcases List.mem_cons.1 hx with rfl | hx
            · rfl
            · rw [(hinv x hx).2]; simp [cells_length]
          · intro x hx
            rcases List.mem_cons.1 hx with rfl | hx
            · exact hc.2
            · exact ((maxValueWidth_ok d strOf x).1 (hinv x hx).1).2

end Celest.Text
