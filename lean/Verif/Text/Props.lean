/-
Properties C59-C62.
-/
import Verif.Text.LemmasTable
import Verif.Schedule.Scheduler

namespace Celest.Text

/-! ### Layers and files -/

/-- A layer that can be written. -/
def Layer.Savable (l : Layer) : Prop := ∀ cols, l.data = some cols → Text.Savable cols

theorem andThen_none (s : Str) (b : Out) : Out.andThen (s, none) b = (s ++ b.1, b.2) := rfl

theorem writeLayer_spec (strOf : ℚ → Str) (l : Layer) :
    (l.Savable → ∃ t, IsLayer l t ∧ writeLayer strOf l = (t, none)) ∧
    (¬ l.Savable → ∃ t e, writeLayer strOf l = (t, some e)) := by
  obtain ⟨sub, par, data, d⟩ := l
  have hpar : ∀ ps, parametersText ps =
      List.intercalate ['\n'] (ps.map fun p => p.1 ++ ": ".toList ++ p.2) := by
    intro ps
    unfold parametersText
    rw [joinFrom_zero _ _ _ (by simp)]
  constructor
  · intro h
    cases data with
    | none =>
      refine ⟨_, ⟨none, trivial, rfl⟩, ?_⟩
      cases sub <;> cases par <;>
        simp [writeLayer, write, Out.andThen, hpar, List.intercalate_cons_cons, blank]
    | some cols =>
      obtain ⟨n, hn, hr, hw⟩ := (writeData_spec d strOf cols).1 (h cols rfl)
      refine ⟨_, ⟨some (List.intercalate ['\n']
        (tableLines d cols (cols.map (width d strOf)) n)),
        ⟨n, hn, cols.map (width d strOf), by simp, hr, rfl⟩, rfl⟩, ?_⟩
      · cases sub <;> cases par <;>
          simp [writeLayer, write, Out.andThen, hpar, hw, List.intercalate_cons_cons, blank]
  · intro h
    unfold Layer.Savable at h
    cases data with
    | none => exact absurd (by simp) h
    | some cols =>
      have hs : ¬ Text.Savable cols := by
        intro hs; apply h; intro c hc; cases hc; exact hs
      obtain ⟨e, he⟩ := (writeData_spec d strOf cols).2 hs
      cases sub <;> cases par <;>
        simp [writeLayer, write, Out.andThen, he]

theorem writeLayers_spec (strOf : ℚ → Str) (total : ℕ) : ∀ (ls : List Layer) (i : ℕ),
    i + ls.length = total →
    ((∀ l ∈ ls, l.Savable) → ∃ ts, List.Forall₂ IsLayer ls ts ∧
      writeLayers strOf total i ls = (List.intercalate blank ts, none)) ∧
    ((¬ ∀ l ∈ ls, l.Savable) → ∃ t e, writeLayers strOf total i ls = (t, some e)) := by
  intro ls
  induction ls with
  | nil =>
    intro i _
    exact ⟨fun _ => ⟨[], .nil, rfl⟩, fun h => absurd (by simp) h⟩
  | cons l ls ih =>
    intro i hi
    rw [List.length_cons] at hi
    obtain ⟨ih1, ih2⟩ := ih (i + 1) (by omega)
    obtain ⟨h1, h2⟩ := writeLayer_spec strOf l
    constructor
    · intro h
      obtain ⟨t, ht, hw⟩ := h1 (h l (by simp))
      obtain ⟨ts, hts, hws⟩ := ih1 (fun l hl => h l (by simp [hl]))
      refine ⟨t :: ts, .cons ht hts, ?_⟩
      unfold writeLayers
      rw [hw, hws]
      simp only [write, andThen_none]
      cases hts with
      | nil =>
        rw [if_neg (by simp at hi; omega)]
        simp
      | cons _ _ =>
        rw [if_pos (by simp at hi; omega), List.intercalate_cons_cons]
    · intro h
      unfold writeLayers
      by_cases hl : l.Savable
      · obtain ⟨t, ht, hw⟩ := h1 hl
        obtain ⟨t', e, hws⟩ := ih2 (fun hc => h (by
          intro x hx
          rcases List.mem_cons.1 hx with rfl | hx
          · exact hl
          · exact hc x hx))
        rw [hw, hws]
        exact ⟨_, e, rfl⟩
      · obtain ⟨t, e, hw⟩ := h2 hl
        rw [hw]
        exact ⟨t, e, rfl⟩

/-- The title block of a file. -/
def titleText (h : Str) : Str := h ++ ['\n'] ++ List.replicate h.length '='

theorem output_spec (strOf : ℚ → Str) (w : Writer) :
    ((∀ l ∈ w.layers, l.Savable) → ∃ ts, List.Forall₂ IsLayer w.layers ts ∧
      w.output strOf =
        (List.intercalate blank ((w.header.map titleText).toList ++ ts), none)) ∧
    ((¬ ∀ l ∈ w.layers, l.Savable) → ∃ t e, w.output strOf = (t, some e)) := by
  obtain ⟨name, header, layers⟩ := w
  obtain ⟨h1, h2⟩ := writeLayers_spec strOf layers.length layers 0 (by omega)
  constructor
  · intro h
    obtain ⟨ts, hts, hw⟩ := h1 h
    refine ⟨ts, hts, ?_⟩
    unfold Writer.output
    simp only
    rw [hw]
    cases header with
    | none => simp [write, Out.andThen]
    | some hd =>
      simp only [write, andThen_none]
      cases hts with
      | nil => simp [titleText]
      | cons _ _ => simp [titleText, List.intercalate_cons_cons]
  · intro h
    obtain ⟨t, e, hw⟩ := h2 h
    unfold Writer.output
    simp only
    rw [hw]
    cases header <;> exact ⟨_, e, rfl⟩

/-- **C59 (when it succeeds).** Saving succeeds exactly if every table has a column, all its
columns have the same nonzero number of rows, and no quantity holds objects. -/
theorem C59_save_succeeds_iff (strOf : ℚ → Str) (w : Writer) (fs : Files) :
    (w.save strOf fs).2 = none ↔ ∀ l ∈ w.layers, ∀ cols, l.data = some cols → Savable cols := by
  obtain ⟨h1, h2⟩ := output_spec strOf w
  unfold Writer.save
  by_cases h : ∀ l ∈ w.layers, l.Savable
  · obtain ⟨ts, -, hw⟩ := h1 h
    rw [hw]
    exact iff_of_true rfl h
  · obtain ⟨t, e, hw⟩ := h2 h
    rw [hw]
    exact iff_of_false (by simp) h

/-- The writer after adding layers one after the other. -/
theorem addLayers (ls : List Layer) (w : Writer) :
    ls.foldl Writer.addLayer w = { w with layers := w.layers ++ ls } := by
  induction ls generalizing w with
  | nil => simp
  | cons l ls ih => rw [List.foldl_cons, ih]; simp [Writer.addLayer]

/-- **C59.** After a successful save of a writer to which any layers were added, the named file
holds the title underlined, then every layer in the order they were added, all separated by blank
lines; each layer shows its subheading, its parameters one per line, and its table: labels with
units, underlines, then one line per data row in order with the entries of that row in column order
(`IsLayer`, `IsTable`). -/
theorem C59_saved_text (strOf : ℚ → Str) (name : Str) (header : Option Str) (ls : List Layer)
    (fs : Files) (w : Writer) (hw : w = ls.foldl Writer.addLayer (Writer.new name header))
    (h : (w.save strOf fs).2 = none) :
    ∃ ts, List.Forall₂ IsLayer ls ts ∧
      (w.save strOf fs).1 (processFileName name) = some (List.intercalate ['\n', '\n']
        ((header.map fun t => t ++ ['\n'] ++ List.replicate t.length '=').toList ++ ts)) := by
  have hs := (C59_save_succeeds_iff strOf w fs).1 h
  obtain ⟨ts, hts, hout⟩ := (output_spec strOf w).1 hs
  rw [addLayers] at hw
  subst hw
  refine ⟨ts, by simpa [Writer.new] using hts, ?_⟩
  unfold Writer.save
  simp only [Writer.new, if_true]
  simp only [Writer.new] at hout
  rw [hout]
  rfl

/-- The cell in line `i` and column `j` of a table. -/
def cell (t : Str) (i j : ℕ) : Option Str :=
  ((t.splitOn '\n')[i]?).bind fun l => (l.splitOn '\t')[j]?

theorem text_no_sep (d : ℕ) (b : Bool) (c : Column) (i : ℕ)
    (hclean : ∀ xs, c.data = .objs xs → ∀ s ∈ xs, ∀ ch ∈ s, ch ≠ '\t' ∧ ch ≠ '\n') :
    ∀ ch ∈ c.data.text d b i, ch ≠ '\t' ∧ ch ≠ '\n' := by
  intro ch hch
  obtain ⟨lb, un, dt⟩ := c
  cases dt with
  | floats xs => exact (fmtFixed_no_space _ _ ch hch).2
  | ints xs =>
    simp only [Data.text] at hch
    split at hch
    · exact (intStr_no_space _ ch hch).2
    · exact (fmtFixed_no_space _ _ ch hch).2
  | objs xs =>
    simp only [Data.text, List.getD_eq_getElem?_getD] at hch
    cases hx : xs[i]? with
    | none => rw [hx] at hch; simp at hch
    | some s =>
      rw [hx] at hch
      exact hclean xs rfl s (List.mem_of_getElem? hx) ch hch

/-- The cells of the lines of a table. -/
def tableCells (d : ℕ) (cols : List Column) (widths : List ℕ) (n : ℕ) : List (List Str) :=
  [List.zipWith ljust widths (cols.map Column.heading), widths.map fun w => List.replicate w '-'] ++
  (List.range n).map fun i =>
    List.zipWith (fun w (c : Column) =>
      ljust w (c.data.text d (decide (IntegerTable cols)) i)) widths cols

theorem tableLines_eq (d : ℕ) (cols : List Column) (widths : List ℕ) (n : ℕ) :
    tableLines d cols widths n = (tableCells d cols widths n).map (List.intercalate ['\t']) := by
  simp [tableLines, tableCells, Function.comp_def]

theorem mem_zipWith {α β γ : Type} (f : α → β → γ) : ∀ (l : List α) (m : List β) (x : γ),
    x ∈ List.zipWith f l m → ∃ a ∈ l, ∃ b ∈ m, x = f a b := by
  intro l
  induction l with
  | nil => intro m x h; simp at h
  | cons a l ih =>
    intro m x h
    cases m with
    | nil => simp at h
    | cons b m =>
      simp only [List.zipWith_cons_cons, List.mem_cons] at h
      rcases h with h | h
      · exact ⟨a, by simp, b, by simp, h⟩
      · obtain ⟨a', ha, b', hb, hx⟩ := ih m x h
        exact ⟨a', by simp [ha], b', by simp [hb], hx⟩

theorem tableCells_clean (d : ℕ) (cols : List Column) (widths : List ℕ) (n : ℕ)
    (hclean : Clean cols) :
    ∀ line ∈ tableCells d cols widths n, ∀ s ∈ line, ∀ ch ∈ s, ch ≠ '\t' ∧ ch ≠ '\n' := by
  intro line hl s hs ch hch
  unfold tableCells at hl
  simp only [List.cons_append, List.nil_append, List.mem_cons, List.mem_map] at hl
  have sp : (' ' : Char) ≠ '\t' ∧ (' ' : Char) ≠ '\n' := by decide
  have da : ('-' : Char) ≠ '\t' ∧ ('-' : Char) ≠ '\n' := by decide
  rcases hl with rfl | rfl | ⟨i, -, rfl⟩
  · obtain ⟨w, -, lb, hlb, rfl⟩ := mem_zipWith _ _ _ _ hs
    obtain ⟨c, hc, rfl⟩ := List.mem_map.1 hlb
    rcases mem_ljust hch with h | h
    · exact (hclean c hc).1 ch h
    · subst h; exact sp
  · obtain ⟨w, -, rfl⟩ := List.mem_map.1 hs
    rw [(List.mem_replicate.1 hch).2]; exact da
  · obtain ⟨w, -, c, hc, rfl⟩ := mem_zipWith _ _ _ _ hs
    rcases mem_ljust hch with h | h
    · exact text_no_sep d _ c i (hclean c hc).2 ch h
    · subst h; exact sp

theorem mem_intercalate_tab {l : List Str} {ch : Char} (h : ch ∈ List.intercalate ['\t'] l) :
    ch = '\t' ∨ ∃ s ∈ l, ch ∈ s := by
  induction l with
  | nil => simp at h
  | cons a l ih =>
    cases l with
    | nil =>
      rw [List.intercalate_singleton] at h
      exact Or.inr ⟨a, by simp, h⟩
    | cons b l =>
      rw [List.intercalate_cons_cons] at h
      simp only [List.mem_append, List.mem_singleton] at h
      rcases h with (h | h) | h
      · exact Or.inr ⟨a, by simp, h⟩
      · exact Or.inl h
      · rcases ih h with h | ⟨s, hs, h⟩
        · exact Or.inl h
        · exact Or.inr ⟨s, by simp [hs], h⟩

theorem splitOn_table (d : ℕ) (cols : List Column) (widths : List ℕ) (n : ℕ)
    (hclean : Clean cols) :
    (List.intercalate ['\n'] (tableLines d cols widths n)).splitOn '\n' =
      tableLines d cols widths n := by
  apply List.splitOn_intercalate
  · intro l hl hn
    rw [tableLines_eq] at hl
    obtain ⟨cells, hc, rfl⟩ := List.mem_map.1 hl
    rcases mem_intercalate_tab hn with h | ⟨s, hs, h⟩
    · exact absurd h (by decide)
    · exact (tableCells_clean d cols widths n hclean cells hc s hs _ h).2 rfl
  · simp [tableLines]

theorem splitOn_line (d : ℕ) (cols : List Column) (widths : List ℕ) (n : ℕ)
    (hclean : Clean cols) (hne : cols ≠ []) (hlen : widths.length = cols.length)
    (cells : List Str) (hc : cells ∈ tableCells d cols widths n) :
    (List.intercalate ['\t'] cells).splitOn '\t' = cells := by
  apply List.splitOn_intercalate
  · intro s hs ht
    exact (tableCells_clean d cols widths n hclean cells hc s hs _ ht).1 rfl
  · have hw : 0 < widths.length := by rw [hlen]; exact List.length_pos_iff.2 hne
    have hl : cells.length = widths.length := by
      unfold tableCells at hc
      simp only [List.cons_append, List.nil_append, List.mem_cons, List.mem_map] at hc
      rcases hc with rfl | rfl | ⟨i, -, rfl⟩ <;> simp [hlen]
    intro h0
    rw [h0] at hl
    simp at hl
    omega

theorem decimalVal_intStr (z : ℤ) : decimalVal (intStr z) = z := by
  have h0 : ∀ n : ℕ, unsignedVal (natStr n) = n := by
    intro n
    have := unsignedVal_text 0 n
    simpa [unsignedText] using this
  unfold intStr
  split
  · rename_i h
    simp only [decimalVal, h0]
    have : ((z.natAbs : ℤ) : ℚ) = ((-z : ℤ) : ℚ) := by
      rw [Int.ofNat_natAbs_of_nonpos h.le]
    push_cast at this
    rw [Nat.cast_natAbs]
    have h2 : (((|z| : ℤ)) : ℚ) = -z := by rw [abs_of_neg h]; push_cast; ring
    rw [h2]; ring
  · rename_i h
    have : decimalVal (natStr z.natAbs) = unsignedVal (natStr z.natAbs) := by
      cases hs : natStr z.natAbs with
      | nil => rfl
      | cons c t =>
        have hd := natStr_digits z.natAbs c (by rw [hs]; simp)
        unfold decimalVal
        split
        · rename_i heq; cases heq; exact absurd rfl (isDigit_ne _ hd).2.1
        · rfl
    rw [this, h0, Nat.cast_natAbs, abs_of_nonneg (not_lt.1 h)]

theorem last_ne_space {s : Str} (h : ∀ c ∈ s, c ≠ ' ' ∧ c ≠ '\t' ∧ c ≠ '\n') :
    ∀ c ∈ s.getLast?, c ≠ ' ' := by
  intro c hc
  exact (h c (List.mem_of_mem_getLast? hc)).1

/-- **C59 (round trip).** From the text of a table whose labels and objects contain no tab or
line break, a reader who splits lines and tabs recovers everything: there are two heading lines
and one line per row; the cell of column `j` is the heading in line 0, and in the line of row `i`
denotes the number stored there up to half a unit of the last printed place (or is the text of the
object stored there), followed by spaces. -/
theorem C59_table_reads_back (d : ℕ) (cols : List Column) (n : ℕ) (t : Str)
    (ht : IsTable d cols n t) (hne : cols ≠ []) (hclean : Clean cols) :
    (t.splitOn '\n').length = n + 2 ∧
    ∀ j c, cols[j]? = some c →
      (∃ s, cell t 0 j = some s ∧ Padded c.heading s) ∧
      ∀ i, i < n → ∃ s, cell t (i + 2) j = some s ∧
        (∀ xs x, c.data = .floats xs → xs[i]? = some x →
          |decimalVal (rstrip s) - x| ≤ 1 / 2 / 10 ^ d) ∧
        (∀ (xs : List ℤ) (x : ℤ), c.data = .ints xs → xs[i]? = some x →
          |decimalVal (rstrip s) - x| ≤ 1 / 2 / 10 ^ d) ∧
        (∀ xs x, c.data = .objs xs → xs[i]? = some x → Padded x s) := by
  obtain ⟨widths, hlen, hrows, rfl⟩ := ht
  have hcell : ∀ i cells, (tableCells d cols widths n)[i]? = some cells → ∀ j,
      cell (List.intercalate ['\n'] (tableLines d cols widths n)) i j = cells[j]? := by
    intro i cells hi j
    unfold cell
    rw [splitOn_table d cols widths n hclean, tableLines_eq, List.getElem?_map, hi]
    simp only [Option.map_some, Option.bind_some]
    rw [splitOn_line d cols widths n hclean hne hlen cells (List.mem_of_getElem? hi)]
  refine ⟨?_, ?_⟩
  · rw [splitOn_table d cols widths n hclean]
    simp [tableLines]
  · intro j c hj
    have hj' : j < cols.length := (List.getElem?_eq_some_iff.1 hj).1
    have hwj : widths[j]? = some widths[j] := List.getElem?_eq_getElem (by omega)
    refine ⟨?_, ?_⟩
    · refine ⟨ljust widths[j] c.heading, ?_, ⟨_, rfl⟩⟩
      rw [hcell 0 _ rfl j, List.getElem?_zipWith, hwj, List.getElem?_map, hj]
      rfl
    · intro i hi
      refine ⟨ljust widths[j] (c.data.text d (decide (IntegerTable cols)) i), ?_, ?_, ?_, ?_⟩
      · rw [hcell (i + 2) (List.zipWith (fun w (c : Column) =>
          ljust w (c.data.text d (decide (IntegerTable cols)) i)) widths cols) (by
            simp [tableCells, hi]) j, List.getElem?_zipWith, hwj, hj]
      · intro xs x hc hx
        rw [hc]
        simp only [Data.text, List.getD_eq_getElem?_getD, hx, Option.getD_some]
        rw [rstrip_ljust _ _ (last_ne_space (fmtFixed_no_space d x))]
        exact decimalVal_fmtFixed d x
      · intro xs x hc hx
        rw [hc]
        simp only [Data.text, List.getD_eq_getElem?_getD, hx, Option.getD_some]
        split
        · rw [rstrip_ljust _ _ (last_ne_space (intStr_no_space x)), decimalVal_intStr]
          simp
          positivity
        · rw [rstrip_ljust _ _ (last_ne_space (fmtFixed_no_space d x))]
          exact decimalVal_fmtFixed d x
      · intro xs x hc hx
        rw [hc]
        simp only [Data.text, List.getD_eq_getElem?_getD, hx, Option.getD_some]
        exact ⟨_, rfl⟩

theorem fmtFixed_isFixed (d : ℕ) (x : ℚ) : IsFixed d (fmtFixed d x) := by
  rw [fmtFixed_eq]
  unfold unsignedText
  set k := roundHalfEven (|x| * 10 ^ d)
  by_cases hd : d = 0
  · refine ⟨if x < 0 then ['-'] else [], natStr (k / 10 ^ d), [], ?_, natStr_ne_nil _,
      natStr_digits _, hd.symm, by simp, ?_⟩
    · split <;> simp
    · simp [hd]
  · refine ⟨if x < 0 then ['-'] else [], natStr (k / 10 ^ d), zfill d (natStr (k % 10 ^ d)), ?_,
      natStr_ne_nil _, natStr_digits _, ?_, ?_, ?_⟩
    · split <;> simp
    · exact zfill_length d _ (by omega) (Nat.mod_lt _ (by positivity))
    · intro c hc
      unfold zfill at hc
      rcases List.mem_append.1 hc with h | h
      · rw [List.eq_of_mem_replicate h]; rfl
      · exact natStr_digits _ c h
    · simp [hd]

theorem cell_row (d : ℕ) (cols : List Column) (n : ℕ) (t : Str) (ht : IsTable d cols n t)
    (hne : cols ≠ []) (hclean : Clean cols) (i j : ℕ) (c : Column) (hj : cols[j]? = some c)
    (hi : i < n) :
    ∃ w, cell t (i + 2) j = some (ljust w (c.data.text d (decide (IntegerTable cols)) i)) := by
  obtain ⟨widths, hlen, -, rfl⟩ := ht
  have hj' : j < cols.length := (List.getElem?_eq_some_iff.1 hj).1
  have hwj : widths[j]? = some widths[j] := List.getElem?_eq_getElem (by omega)
  have hi' : (tableCells d cols widths n)[i + 2]? = some (List.zipWith (fun w (c : Column) =>
      ljust w (c.data.text d (decide (IntegerTable cols)) i)) widths cols) := by
    simp [tableCells, hi]
  refine ⟨widths[j], ?_⟩
  unfold cell
  rw [splitOn_table d cols widths n hclean, tableLines_eq, List.getElem?_map, hi']
  simp only [Option.map_some, Option.bind_some]
  rw [splitOn_line d cols widths n hclean hne hlen _ (List.mem_of_getElem? hi'),
    List.getElem?_zipWith, hwj, hj]

/-- **C59 (number format).** In the text of a table every float shows exactly the requested number
of decimals; integers do too, unless all columns hold integers: then they are written exactly,
without a decimal point. -/
theorem C59_number_format (d : ℕ) (cols : List Column) (n : ℕ) (t : Str) (ht : IsTable d cols n t)
    (hne : cols ≠ []) (hclean : Clean cols) (i j : ℕ) (c : Column) (hj : cols[j]? = some c)
    (hi : i < n) :
    ∃ s, cell t (i + 2) j = some s ∧
      (∀ xs, c.data = .floats xs → IsFixed d (rstrip s)) ∧
      ((∃ c' ∈ cols, ∀ xs, c'.data ≠ .ints xs) → ∀ xs, c.data = .ints xs → IsFixed d (rstrip s)) ∧
      ((∀ c' ∈ cols, ∃ xs, c'.data = .ints xs) → '.' ∉ s ∧
        ∀ (xs : List ℤ) (x : ℤ), c.data = .ints xs → xs[i]? = some x →
          decimalVal (rstrip s) = x) := by
  obtain ⟨w, hw⟩ := cell_row d cols n t ht hne hclean i j c hj hi
  refine ⟨_, hw, ?_, ?_, ?_⟩
  · intro xs hc
    rw [hc]
    simp only [Data.text]
    rw [rstrip_ljust _ _ (last_ne_space (fmtFixed_no_space d _))]
    exact fmtFixed_isFixed d _
  · rintro ⟨c', hc', hn⟩ xs hc
    have hb : ¬ IntegerTable cols := fun h => by
      obtain ⟨ys, hy⟩ := h c' hc'
      exact hn ys hy
    rw [hc, decide_eq_false hb]
    simp only [Data.text, Bool.false_eq_true, if_false]
    rw [rstrip_ljust _ _ (last_ne_space (fmtFixed_no_space d _))]
    exact fmtFixed_isFixed d _
  · intro hint
    obtain ⟨xs, hc⟩ := hint c (List.mem_of_getElem? hj)
    have hb : IntegerTable cols := hint
    rw [hc, decide_eq_true hb]
    simp only [Data.text, if_true]
    constructor
    · intro hdot
      unfold ljust at hdot
      rcases List.mem_append.1 hdot with h | h
      · unfold intStr at h
        split at h
        · rcases List.mem_cons.1 h with h | h
          · exact absurd h (by decide)
          · exact absurd (natStr_digits _ _ h) (by decide)
        · exact absurd (natStr_digits _ _ h) (by decide)
      · exact absurd (List.eq_of_mem_replicate h) (by decide)
    · intro ys x hy hx
      cases hy
      rw [rstrip_ljust _ _ (last_ne_space (intStr_no_space _)), decimalVal_intStr,
        List.getD_eq_getElem?_getD, hx, Option.getD_some]

/-- A table of two integer columns, and one with a float column. -/
example :
    let ints : List Column := [⟨"N".toList, none, .ints [3, -12]⟩, ⟨"M".toList, none, .ints [0, 7]⟩]
    let mixed : List Column := [⟨"N".toList, none, .ints [3]⟩, ⟨"X".toList, none, .floats [1 / 2]⟩]
    writeData 1 (fun _ => []) ints = ("N  \tM\n---\t-\n3  \t0\n-12\t7".toList, none) ∧
    writeData 1 (fun _ => []) mixed = ("N\tX\n-\t-\n3.0\t0.5".toList, none) := by
  decide +kernel

/-- Columns for the examples. -/
def demoCols : List Column :=
  [⟨"X".toList, some "km".toList, .floats [1 / 2, -3]⟩, ⟨"Place".toList, none,
    .objs ["A".toList, "BC".toList]⟩]

/-- Non-vacuity for C59. -/
example : Savable demoCols ∧ Clean demoCols ∧ writeData 2 (fun _ => []) demoCols =
    ("X (km)\tPlace\n------\t-----\n0.50  \tA    \n-3.00 \tBC   ".toList, none) := by
  refine ⟨⟨by simp [demoCols], ⟨2, by norm_num, by decide⟩, ?_⟩, ?_, by decide +kernel⟩
  · intro c hc xs hxs
    simp only [demoCols, List.mem_cons, List.not_mem_nil, or_false] at hc
    rcases hc with rfl | rfl
    · cases hxs
    · rfl
  · intro c hc
    simp only [demoCols, List.mem_cons, List.not_mem_nil, or_false] at hc
    rcases hc with rfl | rfl
    · exact ⟨by decide +kernel, by intro xs h; cases h⟩
    · refine ⟨by decide +kernel, ?_⟩
      intro xs h
      cases h
      decide +kernel

/-! ### C60 -/

theorem cells_lengths (d : ℕ) (strOf : ℚ → Str) (cols : List Column) (hs : Savable cols)
    (n : ℕ) : (tableCells d cols (cols.map (width d strOf)) n).map (fun l => l.map List.length) =
      [cols.map (width d strOf), cols.map (width d strOf)] ++ (List.range n).map fun i =>
        cols.map fun c => max (width d strOf c) (c.data.text d (decide (IntegerTable cols)) i).length := by
  have hlab : ∀ c ∈ cols, c.heading.length ≤ width d strOf c := by
    intro c hc
    obtain ⟨-, ⟨n, hn, hr⟩, ho⟩ := hs
    obtain ⟨w, hw⟩ := (maxValueWidth_ok d strOf c).2
      ⟨by rw [hr c hc]; exact hn, fun xs hxs => ho c hc xs hxs⟩
    unfold width
    rw [hw]
    exact le_max_right _ _
  have hz : ∀ (l : List Column) (f : Column → Str),
      (List.zipWith (fun w c => ljust w (f c)) (l.map (width d strOf)) l).map List.length =
        l.map fun c => max (width d strOf c) (f c).length := by
    intro l f
    induction l with
    | nil => rfl
    | cons a l ih => simp [ih, ljust_length]
  have hz2 : List.zipWith ljust (cols.map (width d strOf)) (cols.map Column.heading) =
      List.zipWith (fun w c => ljust w c.heading) (cols.map (width d strOf)) cols := by
    generalize cols.map (width d strOf) = ws
    clear hlab hs
    induction cols generalizing ws with
    | nil => simp
    | cons a l ih => cases ws <;> simp [ih]
  unfold tableCells
  simp only [List.cons_append, List.nil_append, List.map_cons, List.map_map, Function.comp_def]
  rw [hz2, hz]
  congr 1
  · apply List.map_congr_left
    intro c hc
    exact max_eq_left (hlab c hc)
  · congr 1
    · simp
    · apply List.map_congr_left
      intro i _
      exact hz _ _

/-- **C60 (exact condition).** The rows of a saved table are aligned exactly if in every column
but the last no entry is longer than the width the writer computed for the column. -/
theorem C60_aligned_iff (d : ℕ) (strOf : ℚ → Str) (cols : List Column) (hs : Savable cols)
    (hclean : Clean cols) :
    Aligned (writeData d strOf cols).1 ↔ ∀ c ∈ cols.dropLast, ∀ i < c.data.rows,
      (c.data.text d (decide (IntegerTable cols)) i).length ≤ width d strOf c := by
  obtain ⟨n, hn, hrows, hw⟩ := (writeData_spec d strOf cols).1 hs
  rw [hw]
  unfold Aligned
  simp only
  rw [splitOn_table d cols _ n hclean, tableLines_eq]
  have hlines : ∀ cells ∈ tableCells d cols (cols.map (width d strOf)) n,
      ((List.intercalate ['\t'] cells).splitOn '\t').map List.length = cells.map List.length := by
    intro cells hc
    rw [splitOn_line d cols _ n hclean hs.1 (by simp) cells hc]
  have hlen := cells_lengths d strOf cols hs n
  generalize tableCells d cols (cols.map (width d strOf)) n = T at hlines hlen
  have hmem : ∀ L : List ℕ, (∃ cells ∈ T, cells.map List.length = L) ↔
      L = cols.map (width d strOf) ∨ ∃ i < n, L = cols.map fun c =>
        max (width d strOf c) (c.data.text d (decide (IntegerTable cols)) i).length := by
    intro L
    have : (∃ cells ∈ T, cells.map List.length = L) ↔
        L ∈ T.map (fun l => l.map List.length) := by
      rw [List.mem_map]
    rw [this, hlen]
    simp only [List.cons_append, List.nil_append, List.mem_cons, List.mem_map, List.mem_range]
    constructor
    · rintro (h | h | ⟨i, hi, h⟩)
      · exact Or.inl h
      · exact Or.inl h
      · exact Or.inr ⟨i, hi, h.symm⟩
    · rintro (h | ⟨i, hi, h⟩)
      · exact Or.inl h
      · exact Or.inr (Or.inr ⟨i, hi, h.symm⟩)
  constructor
  · intro h c hc i hi
    have hcm : c ∈ cols := List.dropLast_subset _ hc
    rw [hrows c hcm] at hi
    obtain ⟨c1, h1, e1⟩ := (hmem _).2 (Or.inl rfl)
    obtain ⟨c2, h2, e2⟩ := (hmem _).2 (Or.inr ⟨i, hi, rfl⟩)
    have := h _ (List.mem_map_of_mem h1) _ (List.mem_map_of_mem h2)
    rw [hlines c1 h1, hlines c2 h2, e1, e2] at this
    rw [← List.map_dropLast, ← List.map_dropLast] at this
    have he := List.map_inj_left.1 this c hc
    have := le_max_right (width d strOf c) (c.data.text d (decide (IntegerTable cols)) i).length
    omega
  · intro h l hl l' hl'
    have key : ∀ l ∈ T.map (List.intercalate ['\t']),
        ((l.splitOn '\t').map List.length).dropLast = (cols.dropLast).map (width d strOf) := by
      intro l hl
      obtain ⟨cells, hc, rfl⟩ := List.mem_map.1 hl
      rw [hlines cells hc]
      rcases (hmem _).1 ⟨cells, hc, rfl⟩ with he | ⟨i, hi, he⟩
      · rw [he, List.map_dropLast]
      · rw [he, ← List.map_dropLast]
        apply List.map_congr_left
        intro c hcm
        exact max_eq_left (h c hcm i (by rw [hrows c (List.dropLast_subset _ hcm)]; exact hi))
    rw [key l hl, key l' hl']

theorem le_foldl_max {α : Type} [LinearOrder α] (l : List α) (a : α) :
    a ≤ l.foldl max a ∧ ∀ x ∈ l, x ≤ l.foldl max a := by
  induction l generalizing a with
  | nil => simp
  | cons b l ih =>
    obtain ⟨h1, h2⟩ := ih (max a b)
    refine ⟨(le_max_left a b).trans h1, ?_⟩
    intro x hx
    rcases List.mem_cons.1 hx with rfl | hx
    · exact (le_max_right a x).trans h1
    · exact h2 x hx

theorem npMax_ge (xs : List ℚ) (m : ℚ) (h : npMax xs = .ok m) :
    m ∈ xs ∧ ∀ x ∈ xs, x ≤ m := by
  cases xs with
  | nil => cases h
  | cons a l =>
    cases h
    refine ⟨?_, ?_⟩
    · have : ∀ (l : List ℚ) (a : ℚ), l.foldl max a ∈ a :: l := by
        intro l
        induction l with
        | nil => intro a; simp
        | cons b l ih =>
          intro a
          rcases List.mem_cons.1 (ih (max a b)) with h | h
          · simp only [List.foldl_cons]
            rw [h]
            rcases max_choice a b with h | h <;> rw [h] <;> simp
          · simp only [List.foldl_cons]
            simp [h]
      exact this l a
    · intro x hx
      rcases List.mem_cons.1 hx with rfl | hx
      · exact (le_foldl_max l x).1
      · exact (le_foldl_max l a).2 x hx

theorem pyMaxNat_ge (xs : List ℕ) (m : ℕ) (h : pyMaxNat xs = .ok m) : ∀ x ∈ xs, x ≤ m := by
  cases xs with
  | nil => cases h
  | cons a l =>
    cases h
    intro x hx
    rcases List.mem_cons.1 hx with rfl | hx
    · exact (le_foldl_max l x).1
    · exact (le_foldl_max l a).2 x hx

/-- **C60 (partial).** A table whose columns are quantities with nonnegative numbers, or plain
arrays of objects, is aligned.  Missing: negative numbers and plain numeric arrays, where the
claim is false (`C60_negative_misaligned`). -/
theorem C60_nonnegative_aligned_partial (d : ℕ) (strOf : ℚ → Str) (cols : List Column)
    (hs : Savable cols) (hclean : Clean cols)
    (h : ∀ c ∈ cols, (∃ u xs, c.unit = some u ∧ c.data = .floats xs ∧ ∀ x ∈ xs, 0 ≤ x) ∨
      ∃ xs, c.unit = none ∧ c.data = .objs xs) :
    Aligned (writeData d strOf cols).1 := by
  rw [C60_aligned_iff d strOf cols hs hclean]
  intro c hc i hi
  have hcm : c ∈ cols := List.dropLast_subset _ hc
  obtain ⟨-, ⟨n, hn, hr⟩, ho⟩ := hs
  obtain ⟨w, hw⟩ := (maxValueWidth_ok d strOf c).2
    ⟨by rw [hr c hcm]; exact hn, fun xs hxs => ho c hcm xs hxs⟩
  have hle : w ≤ width d strOf c := by
    unfold width; rw [hw]; exact le_max_left _ _
  refine le_trans ?_ hle
  rcases h c hcm with ⟨u, xs, hu, hd, hx⟩ | ⟨xs, hu, hd⟩
  · rw [hd] at hi ⊢
    unfold maxValueWidth at hw
    rw [hu, hd] at hw
    simp only at hw
    cases hm : npMax xs with
    | error e => rw [hm] at hw; cases hw
    | ok m =>
      rw [hm] at hw
      cases hw
      obtain ⟨-, hge⟩ := npMax_ge xs m hm
      have hi' : i < xs.length := hi
      simp only [Data.text, List.getD_eq_getElem?_getD, List.getElem?_eq_getElem hi',
        Option.getD_some]
      exact fmtFixed_length_mono d (hx _ (List.getElem_mem _)) (hge _ (List.getElem_mem _))
  · rw [hd] at hi ⊢
    unfold maxValueWidth at hw
    rw [hu, hd] at hw
    simp only at hw
    have hi' : i < xs.length := hi
    simp only [Data.text, List.getD_eq_getElem?_getD, List.getElem?_eq_getElem hi',
      Option.getD_some]
    exact pyMaxNat_ge _ _ hw _ (List.mem_map_of_mem (List.getElem_mem _))

/-- **C60 (failure).** Whenever a quantity column that is not the last one holds a negative
number at least as large in magnitude as its greatest entry `m ≥ 0`, and the column label is no
longer than `m` printed, the rows are not aligned. -/
theorem C60_negative_misaligned (d : ℕ) (strOf : ℚ → Str) (cols : List Column) (hs : Savable cols)
    (hclean : Clean cols) (c : Column) (hc : c ∈ cols.dropLast) (u : Str) (xs : List ℚ)
    (hu : c.unit = some u) (hd : c.data = .floats xs) (m x : ℚ) (hm : m ∈ xs)
    (hmax : ∀ y ∈ xs, y ≤ m) (h0 : 0 ≤ m) (hx : x ∈ xs) (hneg : x < 0) (hbig : m ≤ -x)
    (hlabel : c.heading.length ≤ (fmtFixed d m).length) :
    ¬ Aligned (writeData d strOf cols).1 := by
  rw [C60_aligned_iff d strOf cols hs hclean]
  intro h
  obtain ⟨i, hi, hxi⟩ := List.getElem_of_mem hx
  have hlen := h c hc i (by rw [hd]; exact hi)
  have hmm : npMax xs = .ok m := by
    cases hnm : npMax xs with
    | error e =>
      have := (npMax_ok xs).2 (List.ne_nil_of_mem hm)
      rw [hnm] at this
      obtain ⟨w, hw⟩ := this
      cases hw
    | ok m' =>
      obtain ⟨h1, h2⟩ := npMax_ge xs m' hnm
      have : m' = m := le_antisymm (hmax m' h1) (h2 m hm)
      rw [this]
  have hw : width d strOf c = (fmtFixed d m).length := by
    unfold width maxValueWidth
    rw [hu, hd]
    simp only [hmm, Except.map]
    exact max_eq_left hlabel
  rw [hw, hd] at hlen
  simp only [Data.text, List.getD_eq_getElem?_getD, List.getElem?_eq_getElem hi,
    Option.getD_some, hxi] at hlen
  have h1 := fmtFixed_neg_length d (x := -x) (by linarith)
  rw [neg_neg] at h1
  have h2 := fmtFixed_length_mono d h0 hbig
  omega

/-- The failing case of C60 occurs: an orbit coordinate that changes sign. -/
example : ¬ Aligned (writeData 15 (fun _ => [])
    [⟨"X".toList, some "km".toList, .floats [7000, -7000]⟩,
     ⟨"Y".toList, some "km".toList, .floats [1, 2]⟩]).1 := by
  refine C60_negative_misaligned 15 _ _ ⟨by simp, ⟨2, by norm_num, by decide⟩, ?_⟩ ?_
    ⟨"X".toList, some "km".toList, .floats [7000, -7000]⟩ (by decide) "km".toList _ rfl rfl 7000
    (-7000) (by simp) ?_ (by norm_num) (by simp) (by norm_num) (by norm_num) (by decide +kernel)
  · intro c hc xs hxs
    simp only [List.mem_cons, List.not_mem_nil, or_false] at hc
    rcases hc with rfl | rfl <;> cases hxs
  · intro c hc
    simp only [List.mem_cons, List.not_mem_nil, or_false] at hc
    rcases hc with rfl | rfl
    · exact ⟨by decide +kernel, by intro xs h; cases h⟩
    · exact ⟨by decide +kernel, by intro xs h; cases h⟩
  · intro y hy
    simp only [List.mem_cons, List.not_mem_nil, or_false] at hy
    rcases hy with rfl | rfl <;> norm_num

/-! ### C61 -/

/-- **C61 (failure).** What `save` leaves in the file never depends on what was there before:
the old content is lost even when `save` raises. -/
theorem C61_old_content_lost (strOf : ℚ → Str) (w : Writer) :
    ∃ t, ∀ fs : Files, (w.save strOf fs).1 w.fileName = some t :=
  ⟨(w.output strOf).1, fun fs => by simp [Writer.save]⟩

/-- **C61 (failure, tables).** Saving a table that cannot be written (no columns, no rows,
columns of different lengths, a quantity of objects) raises, and the file then holds just the
title, whatever it held before. -/
theorem C61_failed_table_save (strOf : ℚ → Str) (name header : Str) (cols : List Column)
    (fs : Files) (h : ¬ Savable cols) :
    (∃ e, (saveTable strOf name header cols fs).2 = some e) ∧
    (saveTable strOf name header cols fs).1 (processFileName name) =
      some (header ++ ['\n'] ++ List.replicate header.length '=' ++ ['\n', '\n']) := by
  obtain ⟨e, he⟩ := (writeData_spec 15 strOf cols).2 h
  have hout : ((Writer.new name (some header)).addLayer ⟨none, none, some cols, 15⟩).output strOf =
      (header ++ ['\n'] ++ List.replicate header.length '=' ++ ['\n', '\n'], some e) := by
    simp [Writer.output, Writer.addLayer, Writer.new, writeLayers, writeLayer, write, Out.andThen,
      he, blank]
  unfold saveTable Writer.save
  simp only [hout]
  exact ⟨⟨e, rfl⟩, by simp [Writer.addLayer, Writer.new]⟩

/-- **C61 (partial).** A save, failed or not, changes no other file; and saving a window
collection that is empty, or one with an observation without attitude samples, raises before
any file is touched.  Missing: failures after the file was opened, where the claim is false. -/
theorem C61_other_files_untouched_partial (strOf : ℚ → Str) (w : Writer) (fs : Files) :
    (∀ n, n ≠ w.fileName → (w.save strOf fs).1 n = fs n) ∧
    (∀ name, saveVisible strOf name [] fs = (fs, some .exception)) ∧
    (∀ name, saveObservations strOf name [] fs = (fs, some .exception)) ∧
    (∀ name (ws : List ObsRow), (∃ o ∈ ws, o.attitude = []) →
      saveObservations strOf name ws fs = (fs, some .indexError)) := by
  refine ⟨?_, ?_, ?_, ?_⟩
  · intro n hn; simp [Writer.save, hn]
  · intro name; simp [saveVisible]
  · intro name; simp [saveObservations]
  · intro name ws h
    have hne : ws ≠ [] := by
      rintro rfl; obtain ⟨o, ho, -⟩ := h; simp at ho
    have hm : ∀ ws : List ObsRow, (∃ o ∈ ws, o.attitude = []) →
        ws.mapM firstAttitude = .error .indexError := by
      intro ws
      induction ws with
      | nil => rintro ⟨o, ho, -⟩; simp at ho
      | cons o ws ih =>
        rintro ⟨o', ho', ha⟩
        rw [List.mapM_cons]
        cases hat : o.attitude with
        | nil => simp [firstAttitude, hat, bind, Except.bind]
        | cons a as =>
          rcases List.mem_cons.1 ho' with rfl | ho'
          · rw [hat] at ha; cases ha
          · rw [ih ⟨o', ho', ha⟩]
            simp [firstAttitude, hat, bind, Except.bind]
    unfold saveObservations
    rw [if_neg hne, hm ws h]

/-- Non-vacuity for C61: re-saving an emptied table destroys the file. -/
example : ¬ Savable [⟨"X".toList, some "km".toList, .floats []⟩] ∧
    (saveTable (fun _ => []) "a".toList "T".toList
      [⟨"X".toList, some "km".toList, .floats []⟩]
      (fun _ => some "precious".toList)).1 "a.txt".toList = some "T\n=\n\n".toList := by
  refine ⟨?_, by decide +kernel⟩
  rintro ⟨-, ⟨n, hn, h⟩, -⟩
  have := h _ (List.mem_singleton.2 rfl)
  simp only [Data.rows, List.length_nil] at this
  omega

/-! ### C62 -/

/-- **C62.** Whatever name is given, the file written has a name ending in `.txt`, which is the
given name if that ends in `.txt` and the given name followed by `.txt` otherwise; the result is
not extended again; and giving a name with or without the extension names the same file. -/
theorem C62_file_names (name : Str) :
    ".txt".toList <:+ processFileName name ∧
    (".txt".toList <:+ name → processFileName name = name) ∧
    (¬ ".txt".toList <:+ name → processFileName name = name ++ ".txt".toList) ∧
    processFileName (processFileName name) = processFileName name ∧
    (¬ ".txt".toList <:+ name → processFileName (name ++ ".txt".toList) = processFileName name) ∧
    ∀ (header : Option Str) (strOf : ℚ → Str) (fs : Files) (n : Str),
      ((Writer.new name header).save strOf fs).1 n ≠ fs n → ".txt".toList <:+ n := by
  have hs : ∀ s : Str, ".txt".toList.isSuffixOf s = true ↔ ".txt".toList <:+ s :=
    fun s => List.isSuffixOf_iff_suffix
  have h1 : ∀ s, ".txt".toList <:+ s → processFileName s = s := by
    intro s h; unfold processFileName; rw [if_pos ((hs s).2 h)]
  have h2 : ∀ s, ¬ ".txt".toList <:+ s → processFileName s = s ++ ".txt".toList := by
    intro s h; unfold processFileName; rw [if_neg (fun hc => h ((hs s).1 hc))]
  have h3 : ".txt".toList <:+ processFileName name := by
    by_cases h : ".txt".toList <:+ name
    · rw [h1 name h]; exact h
    · rw [h2 name h]; exact List.suffix_append _ _
  refine ⟨h3, h1 name, h2 name, h1 _ h3, ?_, ?_⟩
  · intro h
    rw [h1 _ (List.suffix_append _ _), h2 name h]
  · intro header strOf fs n hn
    by_cases hc : n = processFileName name
    · rw [hc]; exact h3
    · exact absurd (by simp [Writer.save, Writer.new, hc]) hn

/-- Non-vacuity for C62. -/
example : processFileName "orbit".toList = "orbit.txt".toList ∧
    processFileName "orbit.txt".toList = "orbit.txt".toList ∧
    processFileName ".tx".toList = ".tx.txt".toList := by decide +kernel

end Celest.Text
