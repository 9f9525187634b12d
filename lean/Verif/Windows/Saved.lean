/-
C69, C95, C96: text files of window collections and satellites read back.
-/
import Verif.Frames.Save
import Verif.Frames.PropsSatellite
import Verif.Schedule.PropsSave
import Verif.Windows.Props

namespace Celest.Windows

open Celest.Text Celest.Frames
open Celest.Schedule (VTW Observation obsRow Op GenerateArgs)

/-! ### Model -/

/-- `WindowCollection.save_text_file` (window_handling.py 202-261): the first window decides which
columns are collected; a window without the attributes read would be an `AttributeError` (it never
occurs, C26). -/
def Collection.save (strOf : ℚ → Str) (nameOf : ℕ → Str)
    (series : Observation → ℕ → ℚ × ℚ × ℚ) (name : Str) (c : Collection) (fs : Files) :
    Files × Option PyErr :=
  match c.data with
  | [] => (fs, some .exception)
  | .visible _ :: _ =>
    match c.data.mapM fun w => match w with | .visible v => some v | _ => none with
    | none => (fs, some .attributeError)
    | some vs => saveVisible strOf name vs fs
  | _ :: _ =>
    match c.data.mapM fun w => match w with | .observation o => some o | _ => none with
    | none => (fs, some .attributeError)
    | some os => saveObservations strOf name (os.map (obsRow nameOf series)) fs

/-- `Satellite.save_text_file` (satellite.py 255-285).  `float` is the number stored for a real
value; `pu` and `vu` are `str` of the units of position and velocity. -/
noncomputable def saveSatellite (strOf : ℚ → Str) (float : ℝ → ℚ) (pu vu name : Str)
    (s : Satellite) (fs : Files) : Files × Option PyErr :=
  match s.saveTable with
  | .error e => (fs, some e)
  | .ok cols => saveTable strOf name "Satellite Position and Velocity".toList
      (List.zipWith (fun c unit => ⟨c.name.toList, some unit, .floats (c.values.map float)⟩) cols
        ["jd2000".toList, pu, pu, pu, vu, vu, vu, pu, pu, pu, vu, vu, vu]) fs

/-! ### Reading back -/

/-- Column `j` of table `t` is headed `label` and shows the texts `xs`, one per row. -/
def ShowsText (t : Str) (j : ℕ) (label : Str) (xs : List Str) : Prop :=
  (t.splitOn '\n').length = xs.length + 2 ∧
  (∃ s, cell t 0 j = some s ∧ Padded label s) ∧
  ∀ i x, xs[i]? = some x → ∃ s, cell t (i + 2) j = some s ∧ Padded x s

/-- What saving one table writes. -/
theorem table_saved (strOf : ℚ → Str) (name header : Str) (cols : List Column) (fs : Files)
    (hs : Savable cols) :
    (saveTable strOf name header cols fs).2 = none ∧ ∃ n t, IsTable 15 cols n t ∧
      (saveTable strOf name header cols fs).1 (processFileName name) =
        some (header ++ ['\n'] ++ List.replicate header.length '=' ++ "\n\n".toList ++ t) := by
  have h0 : (saveTable strOf name header cols fs).2 = none := by
    unfold saveTable
    rw [C59_save_succeeds_iff]
    intro l hl cols hc
    simp only [Writer.addLayer, Writer.new, List.nil_append, List.mem_singleton] at hl
    subst hl
    cases hc
    exact hs
  refine ⟨h0, ?_⟩
  obtain ⟨ts, hts, hf⟩ := C59_saved_text strOf name (some header)
    [⟨none, none, some cols, 15⟩] fs _ rfl h0
  cases hts with
  | cons hl hnil =>
    cases hnil
    obtain ⟨table, hd, rfl⟩ := hl
    cases table with
    | none => exact hd.elim
    | some t =>
      obtain ⟨n, -, ht⟩ := hd
      refine ⟨n, t, ht, ?_⟩
      change (saveTable strOf name header cols fs).1 (processFileName name) = _ at hf
      rw [hf]
      simp [List.intercalate_cons_cons]

theorem shows_text (cols : List Column) (n : ℕ) (t : Str) (ht : IsTable 15 cols n t)
    (hclean : Clean cols) (j : ℕ) (label : Str) (xs : List Str)
    (hj : cols[j]? = some ⟨label, none, .objs xs⟩) : ShowsText t j label xs := by
  have hne : cols ≠ [] := by
    intro h; rw [h] at hj; simp at hj
  have hlen : xs.length = n := by
    obtain ⟨-, -, hr, -⟩ := ht
    exact hr _ (List.mem_of_getElem? hj)
  obtain ⟨hrows, hcols⟩ := C59_table_reads_back 15 cols n t ht hne hclean
  obtain ⟨⟨s, hs, hp⟩, hrow⟩ := hcols j _ hj
  refine ⟨by rw [hrows, hlen], ⟨s, hs, by simpa [Column.heading] using hp⟩, ?_⟩
  intro i x hx
  have hi : i < n := by
    rw [← hlen]; exact (List.getElem?_eq_some_iff.1 hx).1
  obtain ⟨s, hs, -, -, hf⟩ := hrow i hi
  exact ⟨s, hs, hf xs x rfl hx⟩

/-- A text without tab or line break. -/
def Plain (s : Str) : Prop := ∀ c ∈ s, c ≠ '\t' ∧ c ≠ '\n'

instance (s : Str) : Decidable (Plain s) :=
  inferInstanceAs (Decidable (∀ c ∈ s, c ≠ '\t' ∧ c ≠ '\n'))

theorem clean_quantity (label unit : Str) (xs : List ℚ) (hl : Plain label) (hu : Plain unit) :
    (∀ ch ∈ (⟨label, some unit, .floats xs⟩ : Column).heading, ch ≠ '\t' ∧ ch ≠ '\n') ∧
    ∀ ys, (⟨label, some unit, .floats xs⟩ : Column).data = .objs ys →
      ∀ s ∈ ys, ∀ ch ∈ s, ch ≠ '\t' ∧ ch ≠ '\n' := by
  refine ⟨?_, by intro ys h; cases h⟩
  intro ch hch
  have hch' : ch ∈ label ∨ ch ∈ " (".toList ∨ ch ∈ unit ∨ ch ∈ ")".toList := by
    simpa [Column.heading, or_assoc] using hch
  have h1 : ∀ c ∈ " (".toList, c ≠ '\t' ∧ c ≠ '\n' := by decide
  have h2 : ∀ c ∈ ")".toList, c ≠ '\t' ∧ c ≠ '\n' := by decide
  rcases hch' with h | h | h | h
  · exact hl ch h
  · exact h1 ch h
  · exact hu ch h
  · exact h2 ch h

theorem clean_objects (label : Str) (xs : List Str) (hl : Plain label) (hx : ∀ x ∈ xs, Plain x) :
    (∀ ch ∈ (⟨label, none, .objs xs⟩ : Column).heading, ch ≠ '\t' ∧ ch ≠ '\n') ∧
    ∀ ys, (⟨label, none, .objs xs⟩ : Column).data = .objs ys →
      ∀ s ∈ ys, ∀ ch ∈ s, ch ≠ '\t' ∧ ch ≠ '\n' := by
  refine ⟨?_, ?_⟩
  · intro ch hch
    exact hl ch (by simpa [Column.heading] using hch)
  · intro ys h
    cases h
    exact hx

/-! ### C95: visible time windows -/

theorem saveVisible_reads (strOf : ℚ → Str) (name : Str) (vs : List VTW) (hne : vs ≠ [])
    (fs : Files) :
    (saveVisible strOf name vs fs).2 = none ∧ ∃ table,
      (saveVisible strOf name vs fs).1 (processFileName name) =
        some (title "VisibleTimeWindow Data" ++ "\n\n".toList ++ table) ∧
      ShowsColumn table 0 "Rise Time".toList "jd2000".toList (vs.map (·.rise)) ∧
      ShowsColumn table 1 "Set Time".toList "jd2000".toList (vs.map (·.set)) := by
  set cols : List Column :=
    [⟨"Rise Time".toList, some "jd2000".toList, .floats (vs.map (·.rise))⟩,
     ⟨"Set Time".toList, some "jd2000".toList, .floats (vs.map (·.set))⟩] with hcols
  have he : saveVisible strOf name vs fs =
      saveTable strOf name "VisibleTimeWindow Data".toList cols fs := by
    unfold saveVisible
    rw [if_neg hne]
  have hs : Savable cols := by
    refine ⟨by simp [hcols], ⟨vs.length, List.length_pos_of_ne_nil hne, ?_⟩, ?_⟩
    · simp [hcols, Data.rows]
    · intro c hc xs hx
      simp only [hcols, List.mem_cons, List.not_mem_nil, or_false] at hc
      rcases hc with rfl | rfl <;> cases hx
  have hclean : Clean cols := by
    intro c hc
    simp only [hcols, List.mem_cons, List.not_mem_nil, or_false] at hc
    rcases hc with rfl | rfl
    · exact clean_quantity _ _ _ (by decide) (by decide)
    · exact clean_quantity _ _ _ (by decide) (by decide)
  obtain ⟨h0, n, table, ht, hfile⟩ := table_saved strOf name "VisibleTimeWindow Data".toList cols
    fs hs
  rw [he]
  exact ⟨h0, table, hfile, shows_quantity cols n table ht hclean 0 _ _ _ rfl,
    shows_quantity cols n table ht hclean 1 _ _ _ rfl⟩

theorem mapM_visible (vs : List VTW) :
    (vs.map Window.visible).mapM (fun w => match w with | .visible v => some v | _ => none) =
      some vs := by
  induction vs with
  | nil => rfl
  | cons v vs ih =>
    rw [List.map_cons, List.mapM_cons, ih]
    rfl

/-- The arguments of the `add_window` calls of a history, in order. -/
def additions : List Use → List Window
  | [] => []
  | .add w :: us => w :: additions us
  | _ :: us => additions us

theorem next_data (c : Collection) : c.next.2.data = c.data := by
  unfold Collection.next; split <;> rfl

theorem forLoop_data (body : ℕ → Collection → Collection × Bool)
    (hb : ∀ k c, (body k c).1.data = c.data) (fuel k : ℕ) (c : Collection) :
    (c.forLoop body fuel k).2.1.data = c.data := by
  induction fuel generalizing k c with
  | zero => rfl
  | succ fuel ih =>
    unfold Collection.forLoop
    have hn := next_data c
    rcases hc : c.next with ⟨o, c'⟩
    rw [hc] at hn
    cases o with
    | none => exact hn
    | some w =>
      have hbk := hb k c'
      rcases hbc : body k c' with ⟨c'', b⟩
      rw [hbc] at hbk
      cases b with
      | true => simp only [hbc]; rw [hbk, hn]
      | false => simp only [hbc]; rw [ih, hbk, hn]

theorem use_data (c : Collection) (u : Use) :
    (c.use u).data = match u with | .add w => (c.add w).1.data | _ => c.data := by
  cases u with
  | add w => rfl
  | loop => exact forLoop_data _ (fun _ _ => rfl) _ _ _
  | loopBreak n => exact forLoop_data _ (fun _ _ => rfl) _ _ _

theorem add_data_congr (c c' : Collection) (w : Window) (h : c.data = c'.data) :
    (c.add w).1.data = (c'.add w).1.data := by
  unfold Collection.add
  rw [h]
  split
  · exact h
  · split
    · rfl
    · split
      · rfl
      · exact h

/-- Loops do not change what a collection holds: only the additions matter. -/
theorem run_data (us : List Use) : (Collection.run us).data = (addAll (additions us)).data := by
  have key : ∀ (us : List Use) (c c' : Collection), c.data = c'.data →
      (us.foldl Collection.use c).data =
        ((additions us).foldl (fun c w => (c.add w).1) c').data := by
    intro us
    induction us with
    | nil => intro c c' h; exact h
    | cons u us ih =>
      intro c c' h
      cases u with
      | add w =>
        exact ih _ _ (by rw [use_data]; exact add_data_congr c c' w h)
      | loop => exact ih _ _ (by rw [use_data]; exact h)
      | loopBreak n => exact ih _ _ (by rw [use_data]; exact h)
  exact key us _ _ rfl

/-- **C95.** For every history of a collection (additions, some refused, loops, loops left early):
if the first window added was a visible time window, saving succeeds and the file shows the rise and
set time of every visible time window added, in the order of addition, and nothing else. -/
theorem C95_visible_windows_read_back (strOf : ℚ → Str) (nameOf : ℕ → Str)
    (series : Observation → ℕ → ℚ × ℚ × ℚ) (name : Str) (fs : Files) (history : List Use)
    (vs : List VTW) (hne : vs ≠ []) (hc : expectedContents (additions history) = vs.map .visible) :
    ((Collection.run history).save strOf nameOf series name fs).2 = none ∧ ∃ table,
      ((Collection.run history).save strOf nameOf series name fs).1 (processFileName name) =
        some (title "VisibleTimeWindow Data" ++ "\n\n".toList ++ table) ∧
      ShowsColumn table 0 "Rise Time".toList "jd2000".toList (vs.map (·.rise)) ∧
      ShowsColumn table 1 "Set Time".toList "jd2000".toList (vs.map (·.set)) := by
  have hd : (Collection.run history).data = vs.map .visible := by
    rw [run_data, (C26_collection_homogeneous _ (.other 0)).1, hc]
  have he : (Collection.run history).save strOf nameOf series name fs =
      saveVisible strOf name vs fs := by
    unfold Collection.save
    cases vs with
    | nil => exact absurd rfl hne
    | cons v vs =>
      rw [hd, mapM_visible]
      rfl
  rw [he]
  exact saveVisible_reads strOf name vs hne fs

/-- Non-vacuity: two windows, an argument of another class refused in between, and a loop left
early. -/
example : expectedContents (additions [.add (demoW 0), .add demoO, .add (.other 3), .loopBreak 1,
    .add (demoW 1)]) = [(⟨0, 1, [], []⟩ : VTW), ⟨1, 2, [], []⟩].map .visible := by decide +kernel

/-- **C95 (passes of a satellite).** The collection `generate_vtws` returns is saved with one row per
pass, in the order of the passes. -/
theorem C95_generated_windows_read_back {K : Type} [LinearOrder K] [Zero K] [OfNat K 90]
    (strOf : ℚ → Str) (nameOf : ℕ → Str)
    (series : Observation → ℕ → ℚ × ℚ × ℚ) (name : Str) (fs : Files) (sc : Scene K)
    (wf : sc.WellFormed) (threshold : K)
    (lighting : Lighting) (vs : List VTW) (h : generateVtws sc threshold lighting = .ok vs) :
    ((addAll (vs.map .visible)).save strOf nameOf series name fs).2 = none ∧ ∃ table,
      ((addAll (vs.map .visible)).save strOf nameOf series name fs).1 (processFileName name) =
        some (title "VisibleTimeWindow Data" ++ "\n\n".toList ++ table) ∧
      ShowsColumn table 0 "Rise Time".toList "jd2000".toList (vs.map (·.rise)) ∧
      ShowsColumn table 1 "Set Time".toList "jd2000".toList (vs.map (·.set)) := by
  have hne : vs ≠ [] := by
    rintro rfl; exact C25_never_returns_empty sc wf threshold lighting h
  have hadd : additions ((vs.map Window.visible).map Use.add) = vs.map .visible := by
    generalize vs.map Window.visible = ws
    induction ws with
    | nil => rfl
    | cons w ws ih => simp [additions, ih]
  have hrun : Collection.run ((vs.map Window.visible).map Use.add) =
      addAll (vs.map .visible) := by
    unfold Collection.run addAll
    rw [List.foldl_map]
    rfl
  rw [← hrun]
  apply C95_visible_windows_read_back strOf nameOf series name fs _ vs hne
  rw [hadd]
  cases vs with
  | nil => exact absurd rfl hne
  | cons v vs => simp [expectedContents, Window.isWindow, Window.kind, Function.comp_def]

/-- Non-vacuity: the demonstration scene has passes. -/
example : ∃ vs, generateVtws demo 10 .anytime = .ok vs ∧ vs ≠ [] ∧ demo.WellFormed := by
  refine ⟨_, rfl, by decide +kernel, ?_⟩
  simp [Scene.WellFormed, demo, sceneQ]

/-! ### C69: observation windows -/

theorem mapM_observation (os : List Observation) :
    (os.map Window.observation).mapM
      (fun w => match w with | .observation o => some o | _ => none) = some os := by
  induction os with
  | nil => rfl
  | cons v vs ih =>
    rw [List.map_cons, List.mapM_cons, ih]
    rfl

/-- The rows of windows that carry an attitude. -/
theorem firstAttitudes (rows : List ObsRow) (h : ∀ w ∈ rows, w.attitude ≠ []) :
    rows.mapM firstAttitude = .ok (rows.map fun w => w.attitude.headD (0, 0, 0)) := by
  induction rows with
  | nil => rfl
  | cons w ws ih =>
    rw [List.mapM_cons, ih fun w hw => h w (List.mem_cons_of_mem _ hw)]
    obtain ⟨s, d, l, at'⟩ := w
    cases at' with
    | nil => exact absurd rfl (h _ (List.mem_cons_self ..))
    | cons x xs => rfl

/-- **C69 (partial).** A collection of observation windows each of which carries an attitude sample is
saved, after any history: the file shows start time, duration, location and the first attitude of
every window, in the order of addition, and nothing else.  `nameOf` is the text of a location.
Missing: the windows `generate` returns carry no attitude. -/
theorem C69_windows_with_attitude_read_back_partial (strOf : ℚ → Str) (nameOf : ℕ → Str)
    (series : Observation → ℕ → ℚ × ℚ × ℚ) (name : Str) (fs : Files) (history : List Use)
    (os : List Observation) (hne : os ≠ [])
    (hc : expectedContents (additions history) = os.map .observation)
    (first : Observation → ℕ) (hatt : ∀ o ∈ os, o.attitudeSamples.head? = some (first o))
    (hname : ∀ o ∈ os, Plain (nameOf o.location)) :
    ((Collection.run history).save strOf nameOf series name fs).2 = none ∧ ∃ table,
      ((Collection.run history).save strOf nameOf series name fs).1 (processFileName name) =
        some (title "ObservationWindow Data" ++ "\n\n".toList ++ table) ∧
      ShowsColumn table 0 "Start Time".toList "jd2000".toList (os.map (·.start)) ∧
      ShowsColumn table 1 "Duration".toList "s".toList (os.map (·.duration)) ∧
      ShowsText table 2 "Location".toList (os.map fun o => nameOf o.location) ∧
      ShowsColumn table 3 "Roll".toList "deg".toList (os.map fun o => (series o (first o)).1) ∧
      ShowsColumn table 4 "Pitch".toList "deg".toList (os.map fun o => (series o (first o)).2.1) ∧
      ShowsColumn table 5 "Yaw".toList "deg".toList (os.map fun o => (series o (first o)).2.2) := by
  have hd : (Collection.run history).data = os.map .observation := by
    rw [run_data, (C26_collection_homogeneous _ (.other 0)).1, hc]
  set cols : List Column :=
    [⟨"Start Time".toList, some "jd2000".toList, .floats (os.map (·.start))⟩,
     ⟨"Duration".toList, some "s".toList, .floats (os.map (·.duration))⟩,
     ⟨"Location".toList, none, .objs (os.map fun o => nameOf o.location)⟩,
     ⟨"Roll".toList, some "deg".toList, .floats (os.map fun o => (series o (first o)).1)⟩,
     ⟨"Pitch".toList, some "deg".toList, .floats (os.map fun o => (series o (first o)).2.1)⟩,
     ⟨"Yaw".toList, some "deg".toList, .floats (os.map fun o => (series o (first o)).2.2)⟩]
    with hcols
  have he : (Collection.run history).save strOf nameOf series name fs =
      saveTable strOf name "ObservationWindow Data".toList cols fs := by
    have h1 : (Collection.run history).save strOf nameOf series name fs =
        saveObservations strOf name (os.map (obsRow nameOf series)) fs := by
      unfold Collection.save
      cases os with
      | nil => exact absurd rfl hne
      | cons v vs =>
        rw [hd, mapM_observation]
        rfl
    have hhead : ∀ o ∈ os, (o.attitudeSamples.map (series o)).headD (0, 0, 0) =
        series o (first o) := by
      intro o ho
      have := hatt o ho
      cases hs : o.attitudeSamples with
      | nil => rw [hs] at this; simp at this
      | cons a l => rw [hs] at this; simp at this; simp [this]
    have h2 : (os.map (obsRow nameOf series)).mapM firstAttitude =
        .ok (os.map fun o => series o (first o)) := by
      rw [firstAttitudes]
      · rw [List.map_map]
        congr 1
        apply List.map_congr_left
        intro o ho
        exact hhead o ho
      · intro w hw
        obtain ⟨o, ho, rfl⟩ := List.mem_map.1 hw
        have := hatt o ho
        intro hnil
        simp only [obsRow, List.map_eq_nil_iff] at hnil
        rw [hnil] at this
        simp at this
    rw [h1]
    unfold saveObservations
    rw [if_neg (by simpa using hne), h2]
    simp only [List.map_map]
    rfl
  have hs : Savable cols := by
    refine ⟨by simp [hcols], ⟨os.length, List.length_pos_of_ne_nil hne, ?_⟩, ?_⟩
    · simp [hcols, Data.rows]
    · intro c hc xs hx
      simp only [hcols, List.mem_cons, List.not_mem_nil, or_false] at hc
      rcases hc with rfl | rfl | rfl | rfl | rfl | rfl <;> first | rfl | cases hx
  have hclean : Clean cols := by
    intro c hc
    simp only [hcols, List.mem_cons, List.not_mem_nil, or_false] at hc
    rcases hc with rfl | rfl | rfl | rfl | rfl | rfl
    · exact clean_quantity _ _ _ (by decide) (by decide)
    · exact clean_quantity _ _ _ (by decide) (by decide)
    · refine clean_objects _ _ (by decide) ?_
      intro x hx
      obtain ⟨o, ho, rfl⟩ := List.mem_map.1 hx
      exact hname o ho
    · exact clean_quantity _ _ _ (by decide) (by decide)
    · exact clean_quantity _ _ _ (by decide) (by decide)
    · exact clean_quantity _ _ _ (by decide) (by decide)
  obtain ⟨h0, n, table, ht, hfile⟩ := table_saved strOf name "ObservationWindow Data".toList cols
    fs hs
  rw [he]
  exact ⟨h0, table, hfile, shows_quantity cols n table ht hclean 0 _ _ _ rfl,
    shows_quantity cols n table ht hclean 1 _ _ _ rfl, shows_text cols n table ht hclean 2 _ _ rfl,
    shows_quantity cols n table ht hclean 3 _ _ _ rfl,
    shows_quantity cols n table ht hclean 4 _ _ _ rfl,
    shows_quantity cols n table ht hclean 5 _ _ _ rfl⟩

/-- Two windows with an attitude, after a refused addition. -/
example : expectedContents (additions [.add (.observation ⟨8000, 30, 1, [4]⟩), .add (demoW 0),
      .add (.observation ⟨8001, 20, 2, [7]⟩)]) =
      [(⟨8000, 30, 1, [4]⟩ : Observation), ⟨8001, 20, 2, [7]⟩].map .observation ∧
    (∀ o ∈ [(⟨8000, 30, 1, [4]⟩ : Observation), ⟨8001, 20, 2, [7]⟩],
      o.attitudeSamples.head? = some (if o.location = 1 then 4 else 7)) := by decide +kernel

/-! ### C96: satellites -/

/-- **C96.** Saving a satellite with velocities, sampled at least once, succeeds, and the file shows
time, position and velocity in the Earth-fixed and in the inertial frame, each component in its own
column under its own label and unit, one row per sample in order.  `float` is the number stored for
a real value. -/
theorem C96_satellite_reads_back_partial (strOf : ℚ → Str) (float : ℝ → ℚ) (pu vu name : Str)
    (hpu : Plain pu) (hvu : Plain vu) (fs : Files) (s : Satellite) (w : Cartesian)
    (hw : s.velocity = some w) (hne : s.position.samples ≠ [])
    (hlen : s.position.samples.length = w.samples.length) :
    (saveSatellite strOf float pu vu name s fs).2 = none ∧ ∃ table,
      (saveSatellite strOf float pu vu name s fs).1 (processFileName name) =
        some (title "Satellite Position and Velocity" ++ "\n\n".toList ++ table) ∧
      ShowsColumn table 0 "Time".toList "jd2000".toList
        (s.position.samples.map fun x => float x.1) ∧
      (∀ k : Fin 3, ShowsColumn table (1 + k) (["Itrs X", "Itrs Y", "Itrs Z"].get k).toList pu
        (s.position.samples.map fun x => float (x.2 k))) ∧
      (∀ k : Fin 3, ShowsColumn table (4 + k) (["Itrs VX", "Itrs VY", "Itrs VZ"].get k).toList vu
        (w.samples.map fun x => float (x.2 k))) ∧
      (∀ k : Fin 3, ShowsColumn table (7 + k) (["Gcrs X", "Gcrs Y", "Gcrs Z"].get k).toList pu
        (s.position.samples.map fun x => float (itrsToGcrs1 x.1 x.2 k))) ∧
      (∀ k : Fin 3, ShowsColumn table (10 + k) (["Gcrs VX", "Gcrs VY", "Gcrs VZ"].get k).toList vu
        (w.samples.map fun x => float (itrsToGcrs1 x.1 x.2 k))) := by
  set cols : List Column := List.zipWith
    (fun c unit => ⟨c.name.toList, some unit, .floats (c.values.map float)⟩)
    (⟨"Time", s.position.samples.map (·.1)⟩ :: components "Itrs " s.position ++
      components "Itrs V" w ++ components "Gcrs " (itrsToGcrs s.position) ++
      components "Gcrs V" (itrsToGcrs w))
    ["jd2000".toList, pu, pu, pu, vu, vu, vu, pu, pu, pu, vu, vu, vu] with hcols
  have he : saveSatellite strOf float pu vu name s fs =
      saveTable strOf name "Satellite Position and Velocity".toList cols fs := by
    unfold saveSatellite Satellite.saveTable
    rw [hw]
  have hexp : cols = 
    [⟨"Time".toList, some "jd2000".toList, .floats (s.position.samples.map fun x => float x.1)⟩,
     ⟨"Itrs X".toList, some pu, .floats (s.position.samples.map fun x => float (x.2 0))⟩,
     ⟨"Itrs Y".toList, some pu, .floats (s.position.samples.map fun x => float (x.2 1))⟩,
     ⟨"Itrs Z".toList, some pu, .floats (s.position.samples.map fun x => float (x.2 2))⟩,
     ⟨"Itrs VX".toList, some vu, .floats (w.samples.map fun x => float (x.2 0))⟩,
     ⟨"Itrs VY".toList, some vu, .floats (w.samples.map fun x => float (x.2 1))⟩,
     ⟨"Itrs VZ".toList, some vu, .floats (w.samples.map fun x => float (x.2 2))⟩,
     ⟨"Gcrs X".toList, some pu,
      .floats (s.position.samples.map fun x => float (itrsToGcrs1 x.1 x.2 0))⟩,
     ⟨"Gcrs Y".toList, some pu,
      .floats (s.position.samples.map fun x => float (itrsToGcrs1 x.1 x.2 1))⟩,
     ⟨"Gcrs Z".toList, some pu,
      .floats (s.position.samples.map fun x => float (itrsToGcrs1 x.1 x.2 2))⟩,
     ⟨"Gcrs VX".toList, some vu, .floats (w.samples.map fun x => float (itrsToGcrs1 x.1 x.2 0))⟩,
     ⟨"Gcrs VY".toList, some vu, .floats (w.samples.map fun x => float (itrsToGcrs1 x.1 x.2 1))⟩,
     ⟨"Gcrs VZ".toList, some vu, .floats (w.samples.map fun x => float (itrsToGcrs1 x.1 x.2 2))⟩] := by
    rw [hcols]
    simp only [components, itrsToGcrs, List.map_map, Function.comp_def, List.cons_append,
      List.nil_append, List.zipWith_cons_cons, List.zipWith_nil_left]
    rfl
  have hs : Savable cols := by
    rw [hexp]
    refine ⟨by simp, ⟨s.position.samples.length, List.length_pos_of_ne_nil hne, ?_⟩, ?_⟩
    · simp [Data.rows, hlen]
    · intro c hc xs hx
      simp only [List.mem_cons, List.not_mem_nil, or_false] at hc
      rcases hc with rfl | rfl | rfl | rfl | rfl | rfl | rfl | rfl | rfl | rfl | rfl | rfl | rfl <;>
        cases hx
  have hclean : Clean cols := by
    rw [hexp]
    intro c hc
    simp only [List.mem_cons, List.not_mem_nil, or_false] at hc
    rcases hc with rfl | rfl | rfl | rfl | rfl | rfl | rfl | rfl | rfl | rfl | rfl | rfl | rfl <;>
      first
      | exact clean_quantity _ _ _ (by decide) (by decide)
      | exact clean_quantity _ _ _ (by decide) hpu
      | exact clean_quantity _ _ _ (by decide) hvu
  obtain ⟨h0, n, table, ht, hfile⟩ := table_saved strOf name
    "Satellite Position and Velocity".toList cols fs hs
  rw [he]
  have show' := shows_quantity cols n table ht hclean
  clear_value cols
  subst hexp
  refine ⟨h0, table, hfile, show' 0 _ _ _ rfl, ?_, ?_, ?_, ?_⟩ <;> intro k <;> fin_cases k
  · exact show' 1 _ _ _ rfl
  · exact show' 2 _ _ _ rfl
  · exact show' 3 _ _ _ rfl
  · exact show' 4 _ _ _ rfl
  · exact show' 5 _ _ _ rfl
  · exact show' 6 _ _ _ rfl
  · exact show' 7 _ _ _ rfl
  · exact show' 8 _ _ _ rfl
  · exact show' 9 _ _ _ rfl
  · exact show' 10 _ _ _ rfl
  · exact show' 11 _ _ _ rfl
  · exact show' 12 _ _ _ rfl

/-- **C96 (inertial input).** If the satellite was given in the inertial frame, the inertial columns
show exactly the numbers given. -/
theorem C96_inertial_input_partial (strOf : ℚ → Str) (float : ℝ → ℚ) (pu vu name : Str)
    (hpu : Plain pu) (hvu : Plain vu) (fs : Files) (s : Satellite) (p v : Cartesian)
    (hs : Satellite.make (.gcrs p) (some (.gcrs v)) = .ok s) (hne : p.samples ≠ [])
    (hlen : p.samples.length = v.samples.length) :
    (saveSatellite strOf float pu vu name s fs).2 = none ∧ ∃ table,
      (saveSatellite strOf float pu vu name s fs).1 (processFileName name) =
        some (title "Satellite Position and Velocity" ++ "\n\n".toList ++ table) ∧
      ShowsColumn table 0 "Time".toList "jd2000".toList (p.samples.map fun x => float x.1) ∧
      (∀ k : Fin 3, ShowsColumn table (7 + k) (["Gcrs X", "Gcrs Y", "Gcrs Z"].get k).toList pu
        (p.samples.map fun x => float (x.2 k))) ∧
      (∀ k : Fin 3, ShowsColumn table (10 + k) (["Gcrs VX", "Gcrs VY", "Gcrs VZ"].get k).toList vu
        (v.samples.map fun x => float (x.2 k))) := by
  obtain rfl : (⟨gcrsToItrs p, some (gcrsToItrs v)⟩ : Satellite) = s := by
    simpa [Satellite.make, toItrs] using hs
  obtain ⟨h0, table, hfile, ht, -, -, hg, hv⟩ := C96_satellite_reads_back_partial strOf float pu vu
    name hpu hvu fs ⟨gcrsToItrs p, some (gcrsToItrs v)⟩ (gcrsToItrs v) rfl
    (by simpa [gcrsToItrs] using hne) (by simpa [gcrsToItrs] using hlen)
  refine ⟨h0, table, hfile, ?_, ?_, ?_⟩
  · simpa [gcrsToItrs, Function.comp_def] using ht
  · intro k
    simpa [gcrsToItrs, Function.comp_def, gcrs_itrs1] using hg k
  · intro k
    simpa [gcrsToItrs, Function.comp_def, gcrs_itrs1] using hv k

/-- **C96 (failure).** A satellite whose position and velocity have different numbers of samples is
accepted, but saving it raises and leaves the file, whatever it held, with the title alone. -/
theorem C96_unequal_samples_lost (strOf : ℚ → Str) (float : ℝ → ℚ) (pu vu name : Str)
    (fs : Files) (p v : Cartesian) (hlen : p.samples.length ≠ v.samples.length) :
    ∃ s, Satellite.make (.itrs p) (some (.itrs v)) = .ok s ∧
      (∃ e, (saveSatellite strOf float pu vu name s fs).2 = some e) ∧
      (saveSatellite strOf float pu vu name s fs).1 (processFileName name) =
        some (title "Satellite Position and Velocity" ++ "\n\n".toList) := by
  refine ⟨_, rfl, ?_⟩
  apply C61_failed_table_save
  rintro ⟨-, ⟨n, -, h⟩, -⟩
  have h1 := h ⟨"Itrs X".toList, some pu, .floats ((p.samples.map fun x => x.2 0).map float)⟩
    (List.mem_of_getElem? (i := 1) rfl)
  have h2 := h ⟨"Itrs VX".toList, some vu, .floats ((v.samples.map fun x => x.2 0).map float)⟩
    (List.mem_of_getElem? (i := 4) rfl)
  simp only [Data.rows, List.length_map] at h1 h2
  exact hlen (h1.trans h2.symm)

/-- Positions at two instants with one velocity are accepted. -/
example : twoSamples.samples.length ≠ (⟨1, [(2451545, ![0, 7, 0])]⟩ : Cartesian).samples.length := by
  simp [twoSamples]

/-- Such satellites exist: two samples of each, in kilometres and metres per second. -/
example : Plain "km".toList ∧ Plain "m / s".toList ∧ twoSamples.samples ≠ [] ∧
    twoSamples.samples.length =
      (⟨1, [(2451545, ![0, 7, 0]), (2451545.5, ![-7, 0, 0])]⟩ : Cartesian).samples.length :=
  ⟨by decide, by decide, by simp [twoSamples], rfl⟩

end Celest.Windows
