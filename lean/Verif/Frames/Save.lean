/-
C92-C94: saving position objects to text files, turning them into arrays, and the representation of
ground locations.
-/
import Verif.Frames.Containers
import Verif.Text.Props
import Verif.Units.PropsUser

namespace Celest.Frames

open Celest.Text Celest.Units

/-! ### Model -/

/-- The frames with three lengths as coordinates. -/
inductive CartFrame
  | gcrs
  | itrs
  | lvlh
deriving DecidableEq

/-- A position object as `save_text_file` sees it: arrays of numbers, their units and, for frames
with an origin on the ground, `str(location)`. -/
inductive Stored
  | cartesian (frame : CartFrame) (unit : NamedUnit) (time x y z : List ℚ)
  | wgs84 (angular length : NamedUnit) (time lat lon height : List ℚ)
  | azel (unit : NamedUnit) (location : Str) (time azimuth elevation : List ℚ)
  | attitude (unit : NamedUnit) (location : Str) (time roll pitch yaw : List ℚ)

/-- A one-dimensional array. -/
def shape1 (l : List ℚ) : Shape := ⟨[l.length]⟩

/-- The checks of the constructors (gcrs.py 71, itrs.py 71, lvlh.py 93, wgs84.py 88-89,
attitude.py 87, azel.py 92). -/
def Stored.construct : Stored → Py Unit
  | .cartesian _ _ t x y z => position3dInit (shape1 x) (shape1 y) (shape1 z) (shape1 t)
  | .wgs84 _ _ t x y z => position3dInit (shape1 x) (shape1 y) (shape1 z) (shape1 t)
  | .azel _ _ t x y => position2dInit (shape1 x) (shape1 y) (shape1 t)
  | .attitude _ _ t x y z => position3dInit (shape1 x) (shape1 y) (shape1 z) (shape1 t)

/-- A column of a saved object; `str(unit)` of a named unit is its name (core.py 174-175). -/
def column (label : String) (unit : NamedUnit) (xs : List ℚ) : Column :=
  ⟨label.toList, some unit.name, .floats xs⟩

/-- The file title (gcrs.py 94, itrs.py 94, lvlh.py 116, wgs84.py 112, azel.py 117,
attitude.py 116). -/
def Stored.header : Stored → Str
  | .cartesian .gcrs .. => "GCRS Coordinate Data".toList
  | .cartesian .itrs .. => "ITRS Coordinate Data".toList
  | .cartesian .lvlh .. => "Satellite LVLH Coordinate Data".toList
  | .wgs84 .. => "WGS84 Coordinate Data".toList
  | .azel .. => "Azimuth-Elevation Coordinate Data".toList
  | .attitude .. => "Attitude Coordinate Data".toList

/-- The parameters (azel.py 118-120, attitude.py 117-119). -/
def Stored.parameters : Stored → Option (List (Str × Str))
  | .azel _ loc .. => some [("Location".toList, loc)]
  | .attitude _ loc .. => some [("Location".toList, loc)]
  | _ => none

/-- The table (gcrs.py 95-100, itrs.py 95-100, lvlh.py 117-122, wgs84.py 113-118, azel.py 121-125,
attitude.py 120-125). -/
def Stored.columns : Stored → List Column
  | .cartesian _ u t x y z => [column "Time" jd2000 t, column "X" u x, column "Y" u y, column "Z" u z]
  | .wgs84 a l t x y z =>
    [column "Time" jd2000 t, column "Latitude" a x, column "Longitude" a y, column "Height" l z]
  | .azel u _ t x y => [column "Time" jd2000 t, column "Azimuth" u x, column "Elevation" u y]
  | .attitude u _ t x y z =>
    [column "Time" jd2000 t, column "Roll" u x, column "Pitch" u y, column "Yaw" u z]

/-- `save_text_file` (gcrs.py 85-103, itrs.py 85-103, lvlh.py 107-125, wgs84.py 103-121,
azel.py 108-128, attitude.py 107-128). -/
def Stored.save (strOf : ℚ → Str) (name : Str) (p : Stored) (fs : Files) :
    Files × Option PyErr :=
  ((Writer.new name (some p.header)).addLayer ⟨none, p.parameters, some p.columns, 15⟩).save
    strOf fs

/-! ### C92: saved positions read back -/

/-- The cell in row `i` and column `j` of table `t` reads as `x`, to the 15 decimals printed. -/
def Reads (t : Str) (i j : ℕ) (x : ℚ) : Prop :=
  ∃ s, cell t (i + 2) j = some s ∧ |decimalVal (rstrip s) - x| ≤ 1 / 2 / 10 ^ 15

/-- Column `j` of table `t` is headed `label (unit)` and shows `xs`, one entry per row; there are two
lines above the rows and no further rows. -/
def ShowsColumn (t : Str) (j : ℕ) (label unit : Str) (xs : List ℚ) : Prop :=
  (t.splitOn '\n').length = xs.length + 2 ∧
  (∃ s, cell t 0 j = some s ∧ Padded (label ++ " (".toList ++ unit ++ ")".toList) s) ∧
  ∀ i x, xs[i]? = some x → Reads t i j x

/-- A title with its underline. -/
def title (s : String) : Str := s.toList ++ ['\n'] ++ List.replicate s.toList.length '='

/-- A unit name without tab or line break. -/
def PlainName (u : NamedUnit) : Prop := ∀ c ∈ u.name, c ≠ '\t' ∧ c ≠ '\n'

instance (u : NamedUnit) : Decidable (PlainName u) :=
  inferInstanceAs (Decidable (∀ c ∈ u.name, c ≠ '\t' ∧ c ≠ '\n'))

theorem jd2000_name : jd2000.name = "jd2000".toList := by decide +kernel

/-- What saving any object writes. -/
theorem save_text (strOf : ℚ → Str) (name : Str) (p : Stored) (fs : Files)
    (hs : Savable p.columns) :
    (p.save strOf name fs).2 = none ∧ ∃ n t, IsTable 15 p.columns n t ∧
      (p.save strOf name fs).1 (processFileName name) = some (List.intercalate ['\n', '\n']
        ([p.header ++ ['\n'] ++ List.replicate p.header.length '='] ++
          (p.parameters.map fun ps => List.intercalate ['\n']
            (ps.map fun q => q.1 ++ ": ".toList ++ q.2)).toList ++ [t])) := by
  have h0 : (p.save strOf name fs).2 = none := by
    unfold Stored.save
    rw [C59_save_succeeds_iff]
    intro l hl cols hc
    simp only [Writer.addLayer, Writer.new, List.nil_append, List.mem_singleton] at hl
    subst hl
    cases hc
    exact hs
  refine ⟨h0, ?_⟩
  obtain ⟨ts, hts, hf⟩ := C59_saved_text strOf name (some p.header)
    [⟨none, p.parameters, some p.columns, 15⟩] fs _ rfl h0
  cases hts with
  | cons hl hnil =>
    cases hnil
    obtain ⟨table, hd, rfl⟩ := hl
    cases table with
    | none => exact hd.elim
    | some t =>
      obtain ⟨n, -, ht⟩ := hd
      refine ⟨n, t, ht, ?_⟩
      change (p.save strOf name fs).1 (processFileName name) = _ at hf
      rw [hf]
      cases p.parameters <;> simp [List.intercalate_cons_cons]

/-- Reading one column of any table back. -/
theorem shows_quantity (cols : List Column) (n : ℕ) (t : Str) (ht : IsTable 15 cols n t)
    (hclean : Clean cols) (j : ℕ) (label unit : Str) (xs : List ℚ)
    (hj : cols[j]? = some ⟨label, some unit, .floats xs⟩) : ShowsColumn t j label unit xs := by
  have hne : cols ≠ [] := by
    intro h; rw [h] at hj; simp at hj
  have hlen : xs.length = n := by
    obtain ⟨-, -, hr, -⟩ := ht
    exact hr _ (List.mem_of_getElem? hj)
  obtain ⟨hrows, hcols⟩ := C59_table_reads_back 15 cols n t ht hne hclean
  obtain ⟨⟨s, hs, hp⟩, hrow⟩ := hcols j _ hj
  refine ⟨by rw [hrows, hlen], ⟨s, hs, by simpa [Column.heading] using hp⟩, ?_⟩
  intro i x hx
  have hi : i < n := by
    rw [← hlen]; exact (List.getElem?_eq_some_iff.1 hx).1
  obtain ⟨s, hs, hf, -⟩ := hrow i hi
  exact ⟨s, hs, hf xs x rfl hx⟩

/-- Reading one column back. -/
theorem shows_column (p : Stored) (n : ℕ) (t : Str) (ht : IsTable 15 p.columns n t)
    (hclean : Clean p.columns) (j : ℕ) (label : String) (u : NamedUnit) (xs : List ℚ)
    (hj : p.columns[j]? = some (column label u xs)) :
    ShowsColumn t j label.toList u.name xs :=
  shows_quantity p.columns n t ht hclean j _ _ xs hj

theorem clean_column (label : String) (u : NamedUnit) (xs : List ℚ) (hu : PlainName u)
    (hl : ∀ c ∈ label.toList, c ≠ '\t' ∧ c ≠ '\n') :
    (∀ ch ∈ (column label u xs).heading, ch ≠ '\t' ∧ ch ≠ '\n') ∧
    ∀ ys, (column label u xs).data = .objs ys → ∀ s ∈ ys, ∀ ch ∈ s, ch ≠ '\t' ∧ ch ≠ '\n' := by
  refine ⟨?_, by intro ys h; cases h⟩
  intro ch hch
  have hch' : ch ∈ label.toList ∨ ch ∈ " (".toList ∨ ch ∈ u.name ∨ ch ∈ ")".toList := by
    simpa [Column.heading, column, or_assoc] using hch
  have h1 : ∀ c ∈ " (".toList, c ≠ '\t' ∧ c ≠ '\n' := by decide
  have h2 : ∀ c ∈ ")".toList, c ≠ '\t' ∧ c ≠ '\n' := by decide
  rcases hch' with h | h | h | h
  · exact hl ch h
  · exact h1 ch h
  · exact hu ch h
  · exact h2 ch h

theorem savable_columns (p : Stored) :
    Savable p.columns ↔ ∃ n, 0 < n ∧ ∀ c ∈ p.columns, c.data.rows = n := by
  constructor
  · exact fun h => h.2.1
  · intro h
    refine ⟨?_, h, ?_⟩
    · cases p <;> simp [Stored.columns]
    · intro c hc xs hx
      cases p <;>
        (simp only [Stored.columns, List.mem_cons, List.not_mem_nil, or_false] at hc
         rcases hc with rfl | rfl | rfl | rfl <;> cases hx)

theorem two_parts (h t : Str) :
    List.intercalate ['\n', '\n'] ([h] ++ [] ++ [t]) = h ++ "\n\n".toList ++ t := by
  simp [List.intercalate_cons_cons]

theorem three_parts (h loc t : Str) :
    List.intercalate ['\n', '\n'] ([h] ++ [List.intercalate ['\n']
      ([("Location".toList, loc)].map fun q => q.1 ++ ": ".toList ++ q.2)] ++ [t]) =
      h ++ "\n\nLocation: ".toList ++ loc ++ "\n\n".toList ++ t := by
  simp [List.intercalate_cons_cons]

/-- **C92 (partial).** Saving Cartesian positions with at least one sample succeeds; the file shows
the title of the frame and a table from which every time and coordinate reads back, in order and
under its label and unit.  Missing: objects with no sample or with arrays of different lengths, see
`C92_mismatched_lengths_lost`. -/
theorem C92_cartesian_reads_back_partial (strOf : ℚ → Str) (name : Str) (fs : Files)
    (frame : CartFrame) (u : NamedUnit) (hu : PlainName u) (t x y z : List ℚ) (n : ℕ) (hn : 0 < n)
    (ht : t.length = n) (hx : x.length = n) (hy : y.length = n) (hz : z.length = n) :
    ((Stored.cartesian frame u t x y z).save strOf name fs).2 = none ∧ ∃ table,
      ((Stored.cartesian frame u t x y z).save strOf name fs).1 (processFileName name) =
        some (title (match frame with
          | .gcrs => "GCRS Coordinate Data"
          | .itrs => "ITRS Coordinate Data"
          | .lvlh => "Satellite LVLH Coordinate Data") ++ "\n\n".toList ++ table) ∧
      ShowsColumn table 0 "Time".toList "jd2000".toList t ∧
      ShowsColumn table 1 "X".toList u.name x ∧
      ShowsColumn table 2 "Y".toList u.name y ∧
      ShowsColumn table 3 "Z".toList u.name z := by
  set p := Stored.cartesian frame u t x y z with hp
  have hs : Savable p.columns := (savable_columns p).2 ⟨n, hn, by
    simp [hp, Stored.columns, column, Data.rows, ht, hx, hy, hz]⟩
  have hclean : Clean p.columns := by
    intro c hc
    simp only [hp, Stored.columns, List.mem_cons, List.not_mem_nil, or_false] at hc
    rcases hc with rfl | rfl | rfl | rfl
    · exact clean_column _ _ _ (by decide +kernel) (by decide)
    · exact clean_column _ _ _ hu (by decide)
    · exact clean_column _ _ _ hu (by decide)
    · exact clean_column _ _ _ hu (by decide)
  obtain ⟨h0, m, table, htab, hfile⟩ := save_text strOf name p fs hs
  refine ⟨h0, table, ?_, ?_, ?_, ?_, ?_⟩
  · rw [hfile]
    cases frame <;> exact congrArg some (two_parts _ _)
  · have := shows_column p m table htab hclean 0 "Time" jd2000 t rfl
    rwa [jd2000_name] at this
  · exact shows_column p m table htab hclean 1 "X" u x rfl
  · exact shows_column p m table htab hclean 2 "Y" u y rfl
  · exact shows_column p m table htab hclean 3 "Z" u z rfl

/-- **C92 (partial).** The same for geographic positions. -/
theorem C92_wgs84_reads_back_partial (strOf : ℚ → Str) (name : Str) (fs : Files)
    (a l : NamedUnit) (ha : PlainName a) (hl : PlainName l) (t lat lon h : List ℚ) (n : ℕ)
    (hn : 0 < n) (ht : t.length = n) (hx : lat.length = n) (hy : lon.length = n)
    (hz : h.length = n) :
    ((Stored.wgs84 a l t lat lon h).save strOf name fs).2 = none ∧ ∃ table,
      ((Stored.wgs84 a l t lat lon h).save strOf name fs).1 (processFileName name) =
        some (title "WGS84 Coordinate Data" ++ "\n\n".toList ++ table) ∧
      ShowsColumn table 0 "Time".toList "jd2000".toList t ∧
      ShowsColumn table 1 "Latitude".toList a.name lat ∧
      ShowsColumn table 2 "Longitude".toList a.name lon ∧
      ShowsColumn table 3 "Height".toList l.name h := by
  set p := Stored.wgs84 a l t lat lon h with hp
  have hs : Savable p.columns := (savable_columns p).2 ⟨n, hn, by
    simp [hp, Stored.columns, column, Data.rows, ht, hx, hy, hz]⟩
  have hclean : Clean p.columns := by
    intro c hc
    simp only [hp, Stored.columns, List.mem_cons, List.not_mem_nil, or_false] at hc
    rcases hc with rfl | rfl | rfl | rfl
    · exact clean_column _ _ _ (by decide +kernel) (by decide)
    · exact clean_column _ _ _ ha (by decide)
    · exact clean_column _ _ _ ha (by decide)
    · exact clean_column _ _ _ hl (by decide)
  obtain ⟨h0, m, table, htab, hfile⟩ := save_text strOf name p fs hs
  refine ⟨h0, table, ?_, ?_, ?_, ?_, ?_⟩
  · rw [hfile]
    exact congrArg some (two_parts _ _)
  · have := shows_column p m table htab hclean 0 "Time" jd2000 t rfl
    rwa [jd2000_name] at this
  · exact shows_column p m table htab hclean 1 "Latitude" a lat rfl
  · exact shows_column p m table htab hclean 2 "Longitude" a lon rfl
  · exact shows_column p m table htab hclean 3 "Height" l h rfl

/-- **C92 (partial).** The same for horizontal coordinates, with the location above the table. -/
theorem C92_azel_reads_back_partial (strOf : ℚ → Str) (name : Str) (fs : Files)
    (u : NamedUnit) (hu : PlainName u) (loc : Str) (t az el : List ℚ) (n : ℕ)
    (hn : 0 < n) (ht : t.length = n) (hx : az.length = n) (hy : el.length = n) :
    ((Stored.azel u loc t az el).save strOf name fs).2 = none ∧ ∃ table,
      ((Stored.azel u loc t az el).save strOf name fs).1 (processFileName name) =
        some (title "Azimuth-Elevation Coordinate Data" ++ "\n\nLocation: ".toList ++ loc ++
          "\n\n".toList ++ table) ∧
      ShowsColumn table 0 "Time".toList "jd2000".toList t ∧
      ShowsColumn table 1 "Azimuth".toList u.name az ∧
      ShowsColumn table 2 "Elevation".toList u.name el := by
  set p := Stored.azel u loc t az el with hp
  have hs : Savable p.columns := (savable_columns p).2 ⟨n, hn, by
    simp [hp, Stored.columns, column, Data.rows, ht, hx, hy]⟩
  have hclean : Clean p.columns := by
    intro c hc
    simp only [hp, Stored.columns, List.mem_cons, List.not_mem_nil, or_false] at hc
    rcases hc with rfl | rfl | rfl
    · exact clean_column _ _ _ (by decide +kernel) (by decide)
    · exact clean_column _ _ _ hu (by decide)
    · exact clean_column _ _ _ hu (by decide)
  obtain ⟨h0, m, table, htab, hfile⟩ := save_text strOf name p fs hs
  refine ⟨h0, table, ?_, ?_, ?_, ?_⟩
  · rw [hfile]
    exact congrArg some (three_parts _ loc _)
  · have := shows_column p m table htab hclean 0 "Time" jd2000 t rfl
    rwa [jd2000_name] at this
  · exact shows_column p m table htab hclean 1 "Azimuth" u az rfl
  · exact shows_column p m table htab hclean 2 "Elevation" u el rfl

/-- **C92 (partial).** The same for attitudes. -/
theorem C92_attitude_reads_back_partial (strOf : ℚ → Str) (name : Str) (fs : Files)
    (u : NamedUnit) (hu : PlainName u) (loc : Str) (t roll pitch yaw : List ℚ) (n : ℕ)
    (hn : 0 < n) (ht : t.length = n) (hx : roll.length = n) (hy : pitch.length = n)
    (hz : yaw.length = n) :
    ((Stored.attitude u loc t roll pitch yaw).save strOf name fs).2 = none ∧ ∃ table,
      ((Stored.attitude u loc t roll pitch yaw).save strOf name fs).1 (processFileName name) =
        some (title "Attitude Coordinate Data" ++ "\n\nLocation: ".toList ++ loc ++
          "\n\n".toList ++ table) ∧
      ShowsColumn table 0 "Time".toList "jd2000".toList t ∧
      ShowsColumn table 1 "Roll".toList u.name roll ∧
      ShowsColumn table 2 "Pitch".toList u.name pitch ∧
      ShowsColumn table 3 "Yaw".toList u.name yaw := by
  set p := Stored.attitude u loc t roll pitch yaw with hp
  have hs : Savable p.columns := (savable_columns p).2 ⟨n, hn, by
    simp [hp, Stored.columns, column, Data.rows, ht, hx, hy, hz]⟩
  have hclean : Clean p.columns := by
    intro c hc
    simp only [hp, Stored.columns, List.mem_cons, List.not_mem_nil, or_false] at hc
    rcases hc with rfl | rfl | rfl | rfl
    · exact clean_column _ _ _ (by decide +kernel) (by decide)
    · exact clean_column _ _ _ hu (by decide)
    · exact clean_column _ _ _ hu (by decide)
    · exact clean_column _ _ _ hu (by decide)
  obtain ⟨h0, m, table, htab, hfile⟩ := save_text strOf name p fs hs
  refine ⟨h0, table, ?_, ?_, ?_, ?_, ?_⟩
  · rw [hfile]
    exact congrArg some (three_parts _ loc _)
  · have := shows_column p m table htab hclean 0 "Time" jd2000 t rfl
    rwa [jd2000_name] at this
  · exact shows_column p m table htab hclean 1 "Roll" u roll rfl
  · exact shows_column p m table htab hclean 2 "Pitch" u pitch rfl
  · exact shows_column p m table htab hclean 3 "Yaw" u yaw rfl

/-- Non-vacuity: every unit of the package has a plain name, and an orbit of two samples. -/
example : (∀ u ∈ registry, PlainName u) ∧
    ((Stored.cartesian .itrs km [2460000, 2460001] [7000, -1 / 4] [0, 1] [5, 6]).save
      (fun _ => []) "o".toList (fun _ => none)).2 = none := by decide +kernel

/-- The location line of a file and the blank line after it. -/
def locationLine : Stored → Str
  | .azel _ loc .. => "Location: ".toList ++ loc ++ ['\n', '\n']
  | .attitude _ loc .. => "Location: ".toList ++ loc ++ ['\n', '\n']
  | _ => []

/-- **C92 (failure).** An object the constructor accepts although its arrays differ in length, or
are empty, cannot be saved: `save_text_file` raises, and the file, whatever it held, is left with
the title (and location) alone. -/
theorem C92_mismatched_lengths_lost (strOf : ℚ → Str) (name : Str) (fs : Files) (p : Stored)
    (h : ¬ ∃ n, 0 < n ∧ ∀ c ∈ p.columns, c.data.rows = n) :
    (∃ e, (p.save strOf name fs).2 = some e) ∧
    (p.save strOf name fs).1 (processFileName name) =
      some (p.header ++ ['\n'] ++ List.replicate p.header.length '=' ++ ['\n', '\n'] ++
        locationLine p) := by
  rw [← savable_columns] at h
  obtain ⟨e, he⟩ := (writeData_spec 15 strOf p.columns).2 h
  have hpar : (p.parameters = none ∧ locationLine p = []) ∨
      ∃ loc, p.parameters = some [("Location".toList, loc)] ∧
        locationLine p = "Location: ".toList ++ loc ++ ['\n', '\n'] := by
    cases p
    · exact Or.inl ⟨rfl, rfl⟩
    · exact Or.inl ⟨rfl, rfl⟩
    · exact Or.inr ⟨_, rfl, rfl⟩
    · exact Or.inr ⟨_, rfl, rfl⟩
  have hout : ((Writer.new name (some p.header)).addLayer
      ⟨none, p.parameters, some p.columns, 15⟩).output strOf =
      (p.header ++ ['\n'] ++ List.replicate p.header.length '=' ++ ['\n', '\n'] ++
        locationLine p, some e) := by
    generalize p.header = hd
    rcases hpar with ⟨h1, h2⟩ | ⟨loc, h1, h2⟩ <;> rw [h1, h2] <;>
      simp [Writer.output, Writer.addLayer, Writer.new, writeLayers, writeLayer, write,
        Out.andThen, he, blank, parametersText, joinFrom]
  unfold Stored.save Writer.save
  simp only [hout]
  exact ⟨⟨e, rfl⟩, by simp [Writer.addLayer, Writer.new]⟩

/-- Such objects are accepted: the length check compares neighbours only and is passed as soon as
two of them agree; so is an object without samples. -/
example (frame : CartFrame) (u : NamedUnit) :
    (Stored.cartesian frame u [1, 2] [1, 2] [1] [1]).construct = .ok () ∧
    (¬ ∃ n, 0 < n ∧ ∀ c ∈ (Stored.cartesian frame u [1, 2] [1, 2] [1] [1]).columns,
      c.data.rows = n) ∧
    (Stored.cartesian frame u [] [] [] []).construct = .ok () := by
  refine ⟨by simp [Stored.construct, position3dInit, shape1, Shape.ndim, Shape.size], ?_,
    by simp [Stored.construct, position3dInit, shape1, Shape.ndim, Shape.size]⟩
  rintro ⟨n, -, h⟩
  have h1 := h (column "X" u [1, 2]) (by simp [Stored.columns])
  have h2 := h (column "Y" u [1]) (by simp [Stored.columns])
  simp [column, Data.rows] at h1 h2
  omega

/-! ### C93: arrays -/

/-- `to_numpy` (base_positions.py 43-60, 103-121): one row per sample, one column per coordinate.
Simplified: the coordinates have one length. -/
def toNumpy (fs : ℚ → Str) (coords : List (Arr × BUnit)) (u : BUnit) : Py (List (List ℚ)) :=
  (coords.mapM fun c => convertArr fs c.1 c.2 u).map fun as =>
    (List.range ((as.map fun a => a.data.length).headD 0)).map fun i =>
      as.map fun a => a.data.getD i 0

/-- Conversion of a float array between named units. -/
theorem convertArr_named (fs : ℚ → Str) (S : List NamedUnit) (hS : UnitSystem S) (a b : NamedUnit)
    (ha : a ∈ S) (hb : b ∈ S)
    (hd : dimensionDictionary.lookup a.name = dimensionDictionary.lookup b.name) (xs : List ℚ) :
    convertArr fs ⟨false, xs⟩ (.named a) (.named b) =
      .ok ⟨false, xs.map fun x => x * a.scale / b.scale⟩ := by
  obtain ⟨d, had, n, hn, hnd⟩ := hS.dims a ha
  obtain ⟨d', hbd, n', hn', hnd'⟩ := hS.dims b hb
  obtain rfl : d = d' := by
    rw [had, hbd] at hd; exact Option.some.inj hd
  have e1 : (BUnit.named a).dimension = .ok [d] := dimension_single a n d hn hnd
  have e2 : (BUnit.named b).dimension = .ok [d] := dimension_single b n' d hn' hnd'
  have hb0 := (hS.pos b hb).ne'
  by_cases hr : a.name = b.name
  · obtain rfl := hS.stems a ha b hb (by rw [hr])
    simp [convertArr, e1, hb0]
  · have r1 : (BUnit.named a).repr fs ≠ (BUnit.named b).repr fs := by
      rwa [Ne, repr_named_inj]
    simp [convertArr, e1, e2, r1, unitScale, hb0, mul_div_assoc]

/-- **C93 (partial).** `to_numpy` of coordinates that share a unit (all frames but WGS84) gives a row
per sample, in order, with the coordinates in order, converted.  Missing: WGS84, see
`C93_wgs84_never_converts`, and integer arrays, which are refused (C38). -/
theorem C93_to_numpy_partial (fs : ℚ → Str) (S : List NamedUnit) (hS : UnitSystem S)
    (a b : NamedUnit) (ha : a ∈ S) (hb : b ∈ S)
    (hd : dimensionDictionary.lookup a.name = dimensionDictionary.lookup b.name)
    (coords : List (List ℚ)) (hne : coords ≠ []) (n : ℕ) (hlen : ∀ c ∈ coords, c.length = n) :
    ∃ rows, toNumpy fs (coords.map fun c => (⟨false, c⟩, .named a)) (.named b) = .ok rows ∧
      rows.length = n ∧
      ∀ i : ℕ, i < n → ∃ row, rows[i]? = some row ∧ row.length = coords.length ∧
        ∀ (j : ℕ) (c : List ℚ), coords[j]? = some c →
          ∃ x, c[i]? = some x ∧ row[j]? = some (x * a.scale / b.scale) := by
  have key : (coords.map fun c => ((⟨false, c⟩, .named a) : Arr × BUnit)).mapM
      (fun c => convertArr fs c.1 c.2 (.named b)) =
      .ok (coords.map fun c => (⟨false, c.map fun x => x * a.scale / b.scale⟩ : Arr)) := by
    clear hne hlen
    induction coords with
    | nil => rfl
    | cons c cs ih =>
      rw [List.map_cons, List.mapM_cons, ih, convertArr_named fs S hS a b ha hb hd]
      rfl
  have hhead : ((coords.map fun c => (⟨false, c.map fun x => x * a.scale / b.scale⟩ : Arr)).map
      fun a => a.data.length).headD 0 = n := by
    cases coords with
    | nil => exact absurd rfl hne
    | cons c cs => simpa using hlen c (by simp)
  refine ⟨_, by rw [toNumpy, key]; rfl, ?_, ?_⟩
  · rw [List.length_map, List.length_range, hhead]
  · intro i hi
    simp only [hhead]
    refine ⟨_, by simp [hi]; rfl, by simp, ?_⟩
    intro j c hj
    have hic : i < c.length := by rw [hlen c (List.mem_of_getElem? hj)]; exact hi
    exact ⟨c[i], by simp, by simp [hj, hic]⟩

/-- Non-vacuity: two samples of an orbit from kilometres to metres. -/
example : toNumpy (fun _ => []) ([[1, 2], [3, 4], [5, 6]].map fun c => (⟨false, c⟩, .named km))
    (.named m) = .ok [[1000, 3000, 5000], [2000, 4000, 6000]] := by decide +kernel

/-- **C93 (failure).** `to_numpy` of geographic positions raises whatever unit is asked for, because
latitude and height have different dimensions: a `ValueError` for every unit that has a
dimension. -/
theorem C93_wgs84_never_converts (fs : ℚ → Str) (S : List NamedUnit) (hS : UnitSystem S)
    (a l : NamedUnit) (ha : a ∈ S) (hl : l ∈ S)
    (hd : dimensionDictionary.lookup a.name ≠ dimensionDictionary.lookup l.name)
    (lat lon h : List ℚ) (u : BUnit) :
    (∃ e, toNumpy fs [(⟨false, lat⟩, .named a), (⟨false, lon⟩, .named a), (⟨false, h⟩, .named l)] u =
      .error e) ∧
    ∀ d, u.dimension = .ok d →
      ∃ e ∈ [PyErr.valueError, PyErr.zeroDivisionError],
      toNumpy fs [(⟨false, lat⟩, .named a), (⟨false, lon⟩, .named a), (⟨false, h⟩, .named l)] u =
        .error e := by
  obtain ⟨d1, h1, n1, hn1, hd1⟩ := hS.dims a ha
  obtain ⟨d2, h2, n2, hn2, hd2⟩ := hS.dims l hl
  have hdd : d1 ≠ d2 := by
    rintro rfl; exact hd (by rw [h1, h2])
  have e1 : (BUnit.named a).dimension = .ok [d1] := dimension_single a n1 d1 hn1 hd1
  have e2 : (BUnit.named l).dimension = .ok [d2] := dimension_single l n2 d2 hn2 hd2
  have key : ∀ d, u.dimension = .ok d → ∃ e ∈ [PyErr.valueError, PyErr.zeroDivisionError],
      toNumpy fs [(⟨false, lat⟩, .named a), (⟨false, lon⟩, .named a), (⟨false, h⟩, .named l)] u =
        .error e := by
    intro d hu
    by_cases hd1' : [d1] = d
    · have hd2' : ([d2] : Str) ≠ d := by
        rw [← hd1']; simpa using hdd.symm
      have hlast : convertArr fs ⟨false, h⟩ (.named l) u = .error .valueError := by
        simp [convertArr, e2, hu, hd2']
      have hfirst : ∀ xs, (∃ r, convertArr fs ⟨false, xs⟩ (.named a) u = .ok r) ∨
          convertArr fs ⟨false, xs⟩ (.named a) u = .error .zeroDivisionError := by
        intro xs
        unfold convertArr
        rw [e1, hu]
        simp only [hd1', ne_eq, not_true, if_false]
        split_ifs <;> simp_all
      rcases hfirst lat with ⟨r1, hr1⟩ | hr1
      · rcases hfirst lon with ⟨r2, hr2⟩ | hr2
        · exact ⟨.valueError, by simp, by
            simp [toNumpy, hr1, hr2, hlast, bind, Except.bind, Except.map]⟩
        · exact ⟨.zeroDivisionError, by simp, by
            simp [toNumpy, hr1, hr2, bind, Except.bind, Except.map]⟩
      · exact ⟨.zeroDivisionError, by simp, by
          simp [toNumpy, hr1, bind, Except.bind, Except.map]⟩
    · exact ⟨.valueError, by simp, by
        simp [toNumpy, convertArr, e1, hu, hd1', bind, Except.bind, Except.map]⟩
  refine ⟨?_, key⟩
  cases hu : u.dimension with
  | error e => exact ⟨e, by simp [toNumpy, convertArr, e1, hu, bind, Except.bind, Except.map]⟩
  | ok d =>
    obtain ⟨e, -, he⟩ := key d hu
    exact ⟨e, he⟩

/-- Geographic positions in degrees and kilometres are such. -/
example : deg ∈ registry ∧ km ∈ registry ∧
    dimensionDictionary.lookup deg.name ≠ dimensionDictionary.lookup km.name := by decide +kernel

/-! ### C94: the representation of ground locations -/

/-- `GroundLocation.__repr__` (ground_location.py 89-96); `fs` is `str` on floats. -/
def groundRepr (fs : ℚ → Str) (lat lon height : ℚ) (angular length : NamedUnit) : Str :=
  "GroundLocation(".toList ++ List.intercalate [',', ' '] [fs lat, fs lon, fs height,
    (BUnit.named angular).repr fs, (BUnit.named length).repr fs] ++ ")".toList

theorem append_sep_inj {s s' t t' : Str} (c : Char) (hs : c ∉ s) (hs' : c ∉ s')
    (h : s ++ c :: t = s' ++ c :: t') : s = s' ∧ t = t' := by
  induction s generalizing s' with
  | nil =>
    cases s' with
    | nil => simpa using h
    | cons b s' =>
      simp only [List.nil_append, List.cons_append, List.cons.injEq] at h
      exact absurd (by simp [h.1]) hs'
  | cons a s ih =>
    cases s' with
    | nil =>
      simp only [List.nil_append, List.cons_append, List.cons.injEq] at h
      exact absurd (by simp [h.1]) hs
    | cons b s' =>
      simp only [List.cons_append, List.cons.injEq] at h
      obtain ⟨h1, h2⟩ := ih (fun hc => hs (List.mem_cons_of_mem _ hc))
        (fun hc => hs' (List.mem_cons_of_mem _ hc)) h.2
      exact ⟨by rw [h.1, h1], h2⟩

/-- **C94.** The representation of a ground location determines it: two locations with equal
representations have the same latitude, longitude, height and units.  `str` on floats is assumed to
be injective and free of commas, as Python's shortest representation is. -/
theorem C94_ground_repr_injective (fs : ℚ → Str) (hinj : ∀ x y, fs x = fs y → x = y)
    (hcomma : ∀ x, ',' ∉ fs x) (S : List NamedUnit) (hS : UnitSystem S)
    (hnames : ∀ u ∈ S, ',' ∉ u.name)
    (lat lon h lat' lon' h' : ℚ) (a l a' l' : NamedUnit)
    (ha : a ∈ S) (hl : l ∈ S) (ha' : a' ∈ S) (hl' : l' ∈ S)
    (heq : groundRepr fs lat lon h a l = groundRepr fs lat' lon' h' a' l') :
    lat = lat' ∧ lon = lon' ∧ h = h' ∧ a = a' ∧ l = l' := by
  have hrepr : ∀ u ∈ S, ',' ∉ (BUnit.named u).repr fs := by
    intro u hu hc
    have : ',' ∈ "Unit(\"".toList ∨ ',' ∈ u.name ∨ ',' ∈ "\")".toList := by
      rw [show (BUnit.named u).repr fs = "Unit(\"".toList ++ u.name ++ "\")".toList from rfl,
        List.mem_append, List.mem_append, or_assoc] at hc
      exact hc
    rcases this with h | h | h
    · revert h; decide
    · exact hnames u hu h
    · revert h; decide
  unfold groundRepr at heq
  rw [List.append_left_inj, List.append_right_inj] at heq
  simp only [List.intercalate_cons_cons, List.intercalate_singleton, List.append_assoc,
    List.cons_append, List.nil_append] at heq
  obtain ⟨e1, heq⟩ := append_sep_inj ',' (hcomma _) (hcomma _) heq
  obtain ⟨e2, heq⟩ := append_sep_inj ',' (hcomma _) (hcomma _) (List.cons.inj heq).2
  obtain ⟨e3, heq⟩ := append_sep_inj ',' (hcomma _) (hcomma _) (List.cons.inj heq).2
  obtain ⟨e4, heq⟩ := append_sep_inj ',' (hrepr a ha) (hrepr a' ha') (List.cons.inj heq).2
  have e5 := (List.cons.inj heq).2
  rw [repr_named_inj] at e4 e5
  exact ⟨hinj _ _ e1, hinj _ _ e2, hinj _ _ e3, hS.stems a ha a' ha' (by rw [e4]),
    hS.stems l hl l' hl' (by rw [e5])⟩

/-- Non-vacuity: names of the package's units have no comma, and a representation. -/
example : (∀ u ∈ registry, ',' ∉ u.name) ∧
    groundRepr (fmtFixed 1) 45 (-75) (1 / 2) deg km =
      "GroundLocation(45.0, -75.0, 0.5, Unit(\"deg\"), Unit(\"km\"))".toList := by
  decide +kernel

end Celest.Frames
