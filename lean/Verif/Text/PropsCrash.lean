/-
C122: interrupted saves.
-/
import Verif.Text.Crash
import Verif.Text.Props

namespace Celest.Text

/-! ### The calls write the text -/

/-- The text written by a sequence of calls. -/
def Calls.out (c : Calls) : Out := (c.1.flatten, c.2)

theorem Calls.out_andThen (a b : Calls) : (a.andThen b).out = a.out.andThen b.out := by
  obtain ⟨l, e⟩ := a
  cases e <;> simp [Calls.andThen, Calls.out, Out.andThen]

theorem out_call (s : Str) : (call s).out = write s := by simp [call, Calls.out, write]

theorem out_noCall : noCall.out = write [] := by simp [noCall, Calls.out, write]

theorem pieces_flatten (sep : Str) (total i : ℕ) (l : List Str) :
    (pieces sep total i l).flatten = joinFrom sep total i l := by
  induction l generalizing i with
  | nil => rfl
  | cons s l ih => simp [pieces, joinFrom, ih]

theorem dataCalls_out (d : ℕ) (strOf : ℚ → Str) (data : List Column) :
    (dataCalls d strOf data).out = writeData d strOf data := by
  unfold dataCalls writeData
  cases columnLoop d strOf data.length 0 data ⟨[], [], [], none⟩ with
  | error e => rfl
  | ok a =>
    obtain ⟨l, un, w, raw⟩ := a
    cases raw with
    | none =>
      simp only [Calls.out_andThen, out_call]
      rfl
    | some raw =>
      simp only [Calls.out_andThen, out_call]
      congr 1
      simp [Calls.out, pieces_flatten, write, columnData]

theorem layerCalls_out (strOf : ℚ → Str) (l : Layer) :
    (layerCalls strOf l).out = writeLayer strOf l := by
  obtain ⟨a, b, c, d⟩ := l
  unfold layerCalls writeLayer
  cases a <;> cases b <;> cases c <;>
    simp [Calls.out_andThen, out_call, out_noCall, dataCalls_out] <;>
    simp [Calls.out, pieces_flatten, write, parametersText]

theorem layersCalls_out (strOf : ℚ → Str) (total i : ℕ) (ls : List Layer) :
    (layersCalls strOf total i ls).out = writeLayers strOf total i ls := by
  induction ls generalizing i with
  | nil => exact out_noCall
  | cons l ls ih =>
    simp only [layersCalls, writeLayers, Calls.out_andThen, layerCalls_out, ih]
    split <;> simp [out_call, out_noCall]

theorem calls_out (strOf : ℚ → Str) (w : Writer) : (w.calls strOf).out = w.output strOf := by
  unfold Writer.calls Writer.output
  cases w.header with
  | none => simp [Calls.out_andThen, out_noCall, layersCalls_out]
  | some h =>
    simp only [Calls.out_andThen, out_call, layersCalls_out]
    split <;> simp [out_call, out_noCall]

/-! ### The states of a save -/

theorem Files.set_set (fs : Files) (name a b : Str) : (fs.set name a).set name b = fs.set name b := by
  funext n
  by_cases h : n = name <;> simp [Files.set, h]

theorem Files.set_self (fs : Files) (name t : Str) (h : fs name = some t) : fs.set name t = fs := by
  funext n
  by_cases hn : n = name
  · rw [hn, h]
    simp [Files.set]
  · simp [Files.set, hn]

theorem Files.set_at (fs : Files) (name t : Str) : fs.set name t name = some t := by
  simp [Files.set]

/-- Where a save can be: not begun, in the middle, or finished. -/
inductive Stage (strOf : ℚ → Str) (w : Writer) (fs : Files) : Saving → Prop
  | before : Stage strOf w fs ⟨w.program strOf, fs, []⟩
  | during (done rest : List Str) (t b : Str) : (w.calls strOf).1 = done ++ rest →
      t ++ b = done.flatten →
      Stage strOf w fs ⟨rest.map .write ++ [.closeFile], fs.set w.fileName t, b⟩
  | after : Stage strOf w fs ⟨[], fs.set w.fileName (w.calls strOf).1.flatten, []⟩

theorem Stage.step {strOf : ℚ → Str} {w : Writer} {fs : Files} {s s' : Saving}
    (h : Stage strOf w fs s) (hs : Saving.Step w.fileName s s') : Stage strOf w fs s' := by
  cases h with
  | before =>
    unfold Writer.program at hs
    generalize hb : ([] : Str) = e at hs
    cases hs with
    | openFile r => exact .during [] _ [] [] rfl rfl
    | flush r fs t b c hf =>
      obtain ⟨rfl, rfl⟩ := List.append_eq_nil_iff.1 hb.symm
      rw [List.append_nil, Files.set_self _ _ _ hf]
      exact .before
  | during done rest t b hd ht =>
    cases rest with
    | nil =>
      simp only [List.map_nil, List.nil_append] at hs
      rw [List.append_nil] at hd
      cases hs with
      | flush r _ t' b c hf =>
        rw [Files.set_at, Option.some.injEq] at hf
        subst hf
        rw [Files.set_set]
        exact .during done [] _ _ (by simp [hd]) (by simp [← ht])
      | closeFile r _ t' _ hf =>
        rw [Files.set_at, Option.some.injEq] at hf
        subst hf
        rw [Files.set_set, ht, ← hd]
        exact .after
    | cons x rest =>
      simp only [List.map_cons, List.cons_append] at hs
      cases hs with
      | write =>
        refine .during (done ++ [x]) rest t _ (by simp [hd]) ?_
        rw [← List.append_assoc, ht]
        simp
      | flush r _ t' b c hf =>
        rw [Files.set_at, Option.some.injEq] at hf
        subst hf
        rw [Files.set_set]
        exact .during done (x :: rest) _ _ hd (by simp [← ht])
  | after =>
    generalize hb : ([] : Str) = e at hs
    cases hs with
    | flush r _ t b c hf =>
      obtain ⟨rfl, rfl⟩ := List.append_eq_nil_iff.1 hb.symm
      rw [List.append_nil, Files.set_self _ _ _ hf]
      exact .after

theorem Writer.Reaches.stage {strOf : ℚ → Str} {w : Writer} {fs : Files} {s : Saving}
    (h : w.Reaches strOf fs s) : Stage strOf w fs s := by
  unfold Writer.Reaches at h
  induction h with
  | refl => exact .before
  | tail _ hs ih => exact ih.step hs

theorem calls_flatten (strOf : ℚ → Str) (w : Writer) :
    (w.calls strOf).1.flatten = (w.output strOf).1 := by
  rw [← calls_out]
  rfl

/-- The open file after all calls, with everything still in the buffer. -/
theorem reaches_unflushed (strOf : ℚ → Str) (w : Writer) (fs : Files) :
    w.Reaches strOf fs ⟨[.closeFile], fs.set w.fileName [], (w.output strOf).1⟩ := by
  have key : ∀ (l : List Str) (fs : Files) (b : Str),
      Relation.ReflTransGen (Saving.Step w.fileName) ⟨l.map .write ++ [.closeFile], fs, b⟩
        ⟨[.closeFile], fs, b ++ l.flatten⟩ := by
    intro l
    induction l with
    | nil =>
      intro fs b
      simpa using Relation.ReflTransGen.refl
    | cons x l ih =>
      intro fs b
      refine Relation.ReflTransGen.head (.write x _ fs b) ?_
      simpa using ih fs (b ++ x)
  rw [← calls_flatten]
  exact Relation.ReflTransGen.head (.openFile _ fs []) (by simpa using key _ _ [])

/-! ### C122 -/

/-- **C122.** A save that is not interrupted can always be completed, and leaves what the atomic
`save` leaves, whenever and in whatever portions its buffer is moved to the disk. -/
theorem C122_completed_partial (strOf : ℚ → Str) (w : Writer) (fs fs' : Files) :
    w.Completed strOf fs fs' ↔ fs' = (w.save strOf fs).1 := by
  have e : (w.save strOf fs).1 = fs.set w.fileName (w.output strOf).1 := rfl
  rw [e]
  constructor
  · rintro ⟨s, hs, ht, rfl⟩
    cases hs.stage with
    | before => simp [Writer.program] at ht
    | during => simp at ht
    | after => rw [calls_flatten]
  · rintro rfl
    refine ⟨_, (reaches_unflushed strOf w fs).tail (.closeFile [] _ _ _ (Files.set_at _ _ _)), rfl,
      ?_⟩
    rw [Files.set_set]
    rfl

/-- **C122 (partial).** Exactly what an interrupted save can leave: all files as they were, or all
other files as they were and in the file saved some initial part of the new text, possibly none of
it and possibly all.  Missing is that this part is all of it. -/
theorem C122_interrupted_partial (strOf : ℚ → Str) (w : Writer) (fs fs' : Files) :
    w.Interrupted strOf fs fs' ↔
      fs' = fs ∨ ((∀ n, n ≠ w.fileName → fs' n = fs n) ∧
        ∃ t, t <+: (w.output strOf).1 ∧ fs' w.fileName = some t) := by
  constructor
  · rintro ⟨s, hs, rfl⟩
    cases hs.stage with
    | before => exact .inl rfl
    | during done rest t b hd ht =>
      refine .inr ⟨fun n hn => by simp [Files.set, hn], t, ?_, Files.set_at _ _ _⟩
      rw [← calls_flatten, hd, List.flatten_append, ← ht, List.append_assoc]
      exact List.prefix_append _ _
    | after =>
      refine .inr ⟨fun n hn => by simp [Files.set, hn], _, ?_, Files.set_at _ _ _⟩
      rw [calls_flatten]
  · rintro (rfl | ⟨ho, t, ⟨c, hc⟩, ht⟩)
    · exact ⟨_, .refl, rfl⟩
    · have h := reaches_unflushed strOf w fs
      rw [← hc] at h
      refine ⟨_, h.tail (.flush _ _ _ t c (Files.set_at _ _ _)), ?_⟩
      rw [Files.set_set]
      funext n
      by_cases hn : n = w.fileName
      · rw [hn, ht]
        simp [Files.set]
      · rw [ho n hn]
        simp [Files.set, hn]

/-- **C122 (failure).** Every save that has something to write can lose the old file without
writing anything of the new one, whatever both contain. -/
theorem C122_both_lost (strOf : ℚ → Str) (w : Writer) (fs : Files)
    (h : (w.output strOf).1 ≠ []) :
    ∃ fs', w.Interrupted strOf fs fs' ∧ fs' w.fileName = some [] ∧
      fs' w.fileName ≠ (w.save strOf fs).1 w.fileName := by
  refine ⟨fs.set w.fileName [], (C122_interrupted_partial _ _ _ _).2
    (.inr ⟨fun n hn => by simp [Files.set, hn], [], List.nil_prefix, Files.set_at _ _ _⟩),
    Files.set_at _ _ _, ?_⟩
  rw [Files.set_at]
  simpa [Writer.save] using h.symm

/-- **C122.** Saving again repairs everything: after any number of interrupted saves of any writers
to the same file, a completed save leaves the same files as if there had been none. -/
theorem C122_save_again_partial (strOf : ℚ → Str) (w : Writer) (fs fs₁ fs₂ : Files)
    (h : Relation.ReflTransGen
      (fun a b => ∃ v : Writer, v.fileName = w.fileName ∧ v.Interrupted strOf a b) fs fs₁)
    (hc : w.Completed strOf fs₁ fs₂) : fs₂ = (w.save strOf fs).1 := by
  rw [C122_completed_partial] at hc
  have ho : ∀ n, n ≠ w.fileName → fs₁ n = fs n := by
    clear hc
    induction h with
    | refl => exact fun _ _ => rfl
    | tail _ hs ih =>
      obtain ⟨v, hv, hi⟩ := hs
      intro n hn
      rcases (C122_interrupted_partial _ _ _ _).1 hi with rfl | ⟨h, -⟩
      · exact ih n hn
      · rw [h n (by rw [hv]; exact hn)]
        exact ih n hn
  rw [hc]
  funext n
  by_cases hn : n = w.fileName
  · simp [Writer.save, hn]
  · simp [Writer.save, hn, ho n hn]

/-- The first `k` entries of a column. -/
def Column.firstRows (k : ℕ) (c : Column) : Column :=
  { c with data := match c.data with
    | .floats xs => .floats (xs.take k)
    | .ints xs => .ints (xs.take k)
    | .objs xs => .objs (xs.take k) }

theorem firstRows_text (d : ℕ) (b : Bool) (k i : ℕ) (hi : i < k) (c : Column) :
    (c.firstRows k).data.text d b i = c.data.text d b i := by
  have h : ∀ {α : Type} (xs : List α) (x : α), (xs.take k).getD i x = xs.getD i x := by
    intro α xs x
    simp [List.getD, List.getElem?_take, hi]
  obtain ⟨l, u, data⟩ := c
  cases data <;> simp only [Column.firstRows, Data.text, h]

theorem intercalate_prefix (sep : Str) {l m : List Str} (h : l <+: m) :
    List.intercalate sep l <+: List.intercalate sep m := by
  obtain ⟨r, rfl⟩ := h
  induction l with
  | nil => simp
  | cons x l ih =>
    cases l with
    | nil =>
      cases r with
      | nil => simp
      | cons y r =>
        simp only [List.cons_append, List.nil_append, List.intercalate_cons_cons,
          List.intercalate_singleton, List.append_assoc]
        exact List.prefix_append _ _
    | cons y l =>
      simp only [List.cons_append, List.intercalate_cons_cons, List.append_assoc]
      exact (List.prefix_append_right_inj _).2 ((List.prefix_append_right_inj _).2 ih)

theorem firstRows_lines (d : ℕ) (cols : List Column) (widths : List ℕ) (k n : ℕ) (hk : k ≤ n) :
    tableLines d (cols.map (Column.firstRows k)) widths k <+: tableLines d cols widths n := by
  have hint : IntegerTable (cols.map (Column.firstRows k)) ↔ IntegerTable cols := by
    unfold IntegerTable
    simp only [List.forall_mem_map]
    refine forall₂_congr fun c _ => ?_
    obtain ⟨l, u, data⟩ := c
    cases data <;> simp [Column.firstRows]
  have hhead : (cols.map (Column.firstRows k)).map Column.heading = cols.map Column.heading := by
    simp [Column.heading, Column.firstRows, Function.comp_def]
  unfold tableLines
  rw [hhead, decide_eq_decide.2 hint]
  refine (List.prefix_append_right_inj _).2 ?_
  have : (List.range k).map (fun i => List.intercalate ['\t']
      (List.zipWith (fun w (c : Column) => ljust w (c.data.text d (decide (IntegerTable cols)) i))
        widths (cols.map (Column.firstRows k)))) =
      ((List.range n).map fun i => List.intercalate ['\t']
      (List.zipWith (fun w (c : Column) => ljust w (c.data.text d (decide (IntegerTable cols)) i))
        widths cols)).take k := by
    rw [← List.map_take, List.take_range, Nat.min_eq_left hk]
    refine List.map_congr_left fun i hi => ?_
    rw [List.zipWith_map_right]
    simp only [firstRows_text _ _ _ _ (List.mem_range.1 hi)]
  rw [this]
  exact List.take_prefix _ _

/-- **C122 (failure).** An interrupted save cannot always be recognised: whatever table is saved and
whatever number of its rows is given, a save interrupted when the buffer up to there has reached the
disk leaves a file that is a complete table of those rows. -/
theorem C122_truncated_table (strOf : ℚ → Str) (name header : Str) (cols : List Column)
    (fs : Files) (hs : Savable cols) (k : ℕ) (hk : ∀ c ∈ cols, k ≤ c.data.rows) :
    ∃ fs' t, ((Writer.new name (some header)).addLayer ⟨none, none, some cols, 15⟩).Interrupted
        strOf fs fs' ∧
      fs' (processFileName name) =
        some (header ++ ['\n'] ++ List.replicate header.length '=' ++ ['\n', '\n'] ++ t) ∧
      IsTable 15 (cols.map (Column.firstRows k)) k t := by
  set w := (Writer.new name (some header)).addLayer ⟨none, none, some cols, 15⟩ with hw
  have hname : w.fileName = processFileName name := rfl
  obtain ⟨ts, hts, hout⟩ := (output_spec strOf w).1 (by
    intro l hl c hc
    simp only [hw, Writer.addLayer, Writer.new, List.nil_append, List.mem_singleton] at hl
    subst hl
    simp only [Option.some.injEq] at hc
    exact hc ▸ hs)
  simp only [hw, Writer.addLayer, Writer.new, List.nil_append] at hts
  obtain ⟨t, ts', ⟨table, hd, ht⟩, hnil, rfl⟩ := List.forall₂_cons_left_iff.1 hts
  rw [List.forall₂_nil_left_iff] at hnil
  subst hnil
  cases table with
  | none => exact hd.elim
  | some tt =>
    obtain ⟨n, hn, widths, hlen, hrows, rfl⟩ := hd
    simp only [Option.toList_none, Option.map_none, List.nil_append, Option.toList_some,
      List.intercalate_singleton] at ht
    subst ht
    have hkn : k ≤ n := by
      obtain ⟨c, hc⟩ := List.exists_mem_of_ne_nil _ hs.1
      exact hrows c hc ▸ hk c hc
    have ho : (w.output strOf).1 = titleText header ++ ['\n', '\n'] ++
        List.intercalate ['\n'] (tableLines 15 cols widths n) := by
      rw [hout]
      simp [hw, Writer.addLayer, Writer.new, List.intercalate_cons_cons, blank]
    have hp : titleText header ++ ['\n', '\n'] ++ List.intercalate ['\n']
        (tableLines 15 (cols.map (Column.firstRows k)) widths k) <+: (w.output strOf).1 := by
      rw [ho]
      exact (List.prefix_append_right_inj _).2
        (intercalate_prefix _ (firstRows_lines 15 cols widths k n hkn))
    refine ⟨fs.set w.fileName _, _, (C122_interrupted_partial _ _ _ _).2
      (.inr ⟨fun n hn => by simp [Files.set, hn], _, hp, Files.set_at _ _ _⟩), ?_,
      widths, by simpa using hlen, ?_, rfl⟩
    · rw [← hname, Files.set_at]
      rfl
    · intro c hc
      obtain ⟨c, hc', rfl⟩ := List.mem_map.1 hc
      have := hk c hc'
      obtain ⟨l, u, data⟩ := c
      cases data <;> simpa [Column.firstRows, Data.rows] using this

/-- The hypotheses are met: a table of three rows can be left as a complete table of two. -/
example : ∃ (fs' : Files) (t : Str),
    ((Writer.new "orbit".toList (some "Data".toList)).addLayer
      ⟨none, none, some [⟨"X".toList, some "km".toList, .floats [1, 2, 3]⟩], 15⟩).Interrupted
        (fun _ => []) (fun _ => none) fs' ∧
    fs' "orbit.txt".toList = some ("Data\n====\n\n".toList ++ t) ∧
    IsTable 15 [⟨"X".toList, some "km".toList, .floats [1, 2]⟩] 2 t := by
  refine C122_truncated_table _ _ _ _ _ ⟨by simp, ⟨3, by norm_num, by simp [Data.rows]⟩, by simp⟩ 2
    (by simp [Data.rows])

end Celest.Text
