/-
Position and time objects and the arrays they hold: theorems C104 and C105.

`Session.run` runs a program that uses the library: it makes arrays, assigns to their elements,
makes `Time`, position and `Satellite` objects, converts them and takes the arrays out of them
(`Verif/Frames/Memory.lean`).  `positionNow i` and `datesNow i` are what its objects show now.
-/
import Verif.Frames.LemmasMemory
import Verif.Frames.PropsContainers

namespace Celest.Frames

/-! ### Specification -/

/-- A step is an assignment to an element of array `h` of the program. -/
def AssignsTo (h : ℕ) (st : Step) : Prop := ∃ k x, st = .assign h k x

/-- A step takes the array of the times or of a component out of position `j`. -/
def TakesArrayOf (j : ℕ) (st : Step) : Prop := st = .timeData j ∨ ∃ c, st = .component j c

/-! ### Programs -/

/-- Everything a program has exists, and the length kept by a `Time` object is right. -/
def Session.Sound (s : Session) : Prop :=
  (∀ a ∈ s.held, a < s.memory.length) ∧
  (∀ t ∈ s.times, t.julian < s.memory.length ∧ t.length = (content s.memory t.julian).length) ∧
  (∀ o ∈ s.positions, ∀ a ∈ o.arrays, a < s.memory.length)

theorem convertM_cases (o : Object) (frame : FrameName) (location : Option Ground) (m : Memory) :
    m <+: (convertM o frame location m).2 ∧
    ∀ o', (convertM o frame location m).1 = .object o' →
      o' = o ∨ New m (convertM o frame location m).2 o' := by
  by_cases h : o.frame = frame
  · unfold convertM
    by_cases hc : o.frame ≠ .itrs ∧ o.frame ≠ .gcrs ∧ o.frame ≠ .wgs84
    · rw [if_pos hc]
      exact ⟨List.prefix_refl m, fun o' e => by simp at e⟩
    · rw [if_neg hc, if_pos h]
      exact ⟨List.prefix_refl m, fun o' e => .inl (by simpa using e.symm)⟩
  · have := convertM_fresh location m h
    exact ⟨this.1, fun o' e => .inr (this.2 o' e)⟩

theorem satellitePosition_cases (o : Object) (m : Memory) :
    m <+: (satellitePosition o m).2 ∧
    ∀ o', (satellitePosition o m).1 = .object o' →
      o' = o ∨ New m (satellitePosition o m).2 o' := by
  unfold satellitePosition
  split
  · exact ⟨List.prefix_refl m, fun o' e => .inl (by simpa using e.symm)⟩
  · have := gcrsToItrsM_fresh o m
    exact ⟨this.1, fun o' e => .inr (this.2 o' e)⟩
  · exact ⟨List.prefix_refl m, fun o' e => by simp at e⟩

theorem mapM_mem {l : List ℕ} {f : ℕ → Option ℕ} {r : List ℕ} (h : l.mapM f = some r) :
    ∀ a ∈ r, ∃ i ∈ l, f i = some a := by
  induction l generalizing r with
  | nil =>
    simp at h
    subst h
    simp
  | cons i l ih =>
    simp only [List.mapM_cons, Option.bind_eq_bind, Option.bind_eq_some_iff, Option.pure_def,
      Option.some.injEq] at h
    obtain ⟨a, ha, r', hr', rfl⟩ := h
    intro b hb
    rcases List.mem_cons.mp hb with rfl | hb
    · exact ⟨i, by simp, ha⟩
    · obtain ⟨i', hi', e⟩ := ih hr' b hb
      exact ⟨i', by simp [hi'], e⟩

/-- What a step does to a program: arrays are added or written to, arrays held and objects are
added. -/
structure Goes (s s' : Session) : Prop where
  size : s.memory.length ≤ s'.memory.length
  lengths : ∀ a < s.memory.length, (content s'.memory a).length = (content s.memory a).length
  held : s.held <+: s'.held
  times : s.times <+: s'.times
  positions : s.positions <+: s'.positions

theorem Goes.refl (s : Session) : Goes s s :=
  ⟨le_rfl, fun _ _ => rfl, List.prefix_refl _, List.prefix_refl _, List.prefix_refl _⟩

theorem Goes.trans {s s' s'' : Session} (h : Goes s s') (h' : Goes s' s'') : Goes s s'' :=
  ⟨h.size.trans h'.size,
    fun a ha => (h'.lengths a (ha.trans_le h.size)).trans (h.lengths a ha),
    h.held.trans h'.held, h.times.trans h'.times, h.positions.trans h'.positions⟩

/-- One way a step can go: nothing already there is written to. -/
structure Adds (s s' : Session) : Prop where
  memory : s.memory <+: s'.memory
  held : s.held <+: s'.held
  times : s.times <+: s'.times
  positions : s.positions <+: s'.positions

theorem Adds.refl (s : Session) : Adds s s :=
  ⟨List.prefix_refl _, List.prefix_refl _, List.prefix_refl _, List.prefix_refl _⟩

theorem Adds.goes {s s' : Session} (h : Adds s s') : Goes s s' :=
  ⟨h.memory.length_le, fun a ha => by rw [content_prefix h.memory ha], h.held, h.times,
    h.positions⟩

theorem obtain_adds {s : Session} {r : Result × Memory} (h : s.memory <+: r.2) :
    Adds s (s.obtain r) := by
  unfold Session.obtain
  split <;> exact ⟨h, List.prefix_refl _, List.prefix_refl _, by simp⟩

theorem timeInit_prefix {input : TimeInput} {offset : ℝ} {m : Memory} :
    m <+: (timeInit input offset m).2 := by
  cases input <;> simp [timeInit, alloc]

theorem obtainTime_adds {s : Session} {r : Py TimeObject × Memory} (h : s.memory <+: r.2) :
    Adds s (s.obtainTime r) := by
  unfold Session.obtainTime
  split
  · exact ⟨h, List.prefix_refl _, by simp, List.prefix_refl _⟩
  · exact Adds.refl s

/-- Steps other than assignments write to nothing. -/
theorem step_adds (s : Session) {st : Step} (h : ∀ p k x, st ≠ .assign p k x) :
    Adds s (s.step st) := by
  cases st with
  | array xs => exact ⟨by simp [Session.step, alloc], by simp [Session.step], List.prefix_refl _,
      List.prefix_refl _⟩
  | assign p k x => exact absurd rfl (h p k x)
  | timeOf x offset =>
    simp only [Session.step]
    exact obtainTime_adds timeInit_prefix
  | time h offset =>
    simp only [Session.step]
    split
    · exact obtainTime_adds timeInit_prefix
    · exact Adds.refl s
  | julian i =>
    simp only [Session.step]
    split
    · exact ⟨List.prefix_refl _, by simp, List.prefix_refl _, List.prefix_refl _⟩
    · exact Adds.refl s
  | position f u u2 l t cs =>
    simp only [Session.step]
    split
    · split
      · exact ⟨List.prefix_refl _, List.prefix_refl _, List.prefix_refl _, by simp⟩
      · exact Adds.refl s
    · exact Adds.refl s
  | timeData i =>
    simp only [Session.step]
    split
    · exact ⟨List.prefix_refl _, by simp, List.prefix_refl _, List.prefix_refl _⟩
    · exact Adds.refl s
  | component i c =>
    simp only [Session.step]
    split
    · split
      · exact ⟨List.prefix_refl _, by simp, List.prefix_refl _, List.prefix_refl _⟩
      · exact Adds.refl s
    · exact Adds.refl s
  | convert i f l =>
    simp only [Session.step]
    split
    · exact obtain_adds (convertM_cases _ _ _ _).1
    · exact Adds.refl s
  | satellite i =>
    simp only [Session.step]
    split
    · exact obtain_adds (satellitePosition_cases _ _).1
    · exact Adds.refl s

theorem assign_goes (s : Session) (p k : ℕ) (x : ℝ) :
    Goes s { s with memory := assign s.memory p k x } := by
  refine ⟨(assign_length _ _ _ _).ge, fun a ha => ?_, List.prefix_refl _, List.prefix_refl _,
    List.prefix_refl _⟩
  by_cases h : a = p
  · subst h
    simp [content_assign_self ha]
  · rw [content_assign_ne _ _ _ h]

theorem step_goes (s : Session) (st : Step) : Goes s (s.step st) := by
  by_cases h : ∃ p k x, st = .assign p k x
  · obtain ⟨p, k, x, rfl⟩ := h
    simp only [Session.step]
    split
    · exact assign_goes s _ _ _
    · exact Goes.refl s
  · exact (step_adds s fun p k x e => h ⟨p, k, x, e⟩).goes

theorem run_goes (s : Session) (steps : List Step) : Goes s (s.run steps) := by
  induction steps generalizing s with
  | nil => exact Goes.refl s
  | cons st steps ih => exact (step_goes s st).trans (ih (s.step st))

theorem run_append (s : Session) (l l' : List Step) : s.run (l ++ l') = (s.run l).run l' := by
  simp [Session.run]

/-- The parts of a program that a step adds. -/
theorem sound_of_goes {s s' : Session} (hs : s.Sound) (h : Goes s s')
    (hh : ∀ a ∈ s'.held, a ∈ s.held ∨ a < s'.memory.length)
    (ht : ∀ t ∈ s'.times, t ∈ s.times ∨
      (t.julian < s'.memory.length ∧ t.length = (content s'.memory t.julian).length))
    (hp : ∀ o ∈ s'.positions, o ∈ s.positions ∨ ∀ a ∈ o.arrays, a < s'.memory.length) :
    s'.Sound := by
  refine ⟨fun a ha => ?_, fun t ht' => ?_, fun o ho a ha => ?_⟩
  · exact (hh a ha).elim (fun h' => (hs.1 a h').trans_le h.size) id
  · rcases ht t ht' with h' | h'
    · obtain ⟨h1, h2⟩ := hs.2.1 t h'
      exact ⟨h1.trans_le h.size, h2.trans (h.lengths _ h1).symm⟩
    · exact h'
  · exact (hp o ho).elim (fun h' => (hs.2.2 o h' a ha).trans_le h.size) fun h' => h' a ha

theorem obtain_sound {s : Session} (hs : s.Sound) {o : Object} (ho : o ∈ s.positions)
    {r : Result × Memory} (hp : s.memory <+: r.2)
    (h : ∀ o', r.1 = .object o' → o' = o ∨ New s.memory r.2 o') : (s.obtain r).Sound := by
  refine sound_of_goes hs (obtain_adds hp).goes ?_ ?_ ?_
  · intro a ha
    left
    unfold Session.obtain at ha
    split at ha <;> exact ha
  · intro t ht
    left
    unfold Session.obtain at ht
    split at ht <;> exact ht
  · intro o' ho'
    have hm : (s.obtain r).memory = r.2 := by
      unfold Session.obtain
      split <;> rfl
    rw [hm]
    unfold Session.obtain at ho'
    split at ho'
    · rename_i o'' e
      rcases List.mem_append.mp ho' with h' | h'
      · exact .inl h'
      · rw [List.mem_singleton] at h'
        subst h'
        rcases h o' e with rfl | h''
        · exact .inl ho
        · exact .inr fun a ha => (h'' a ha).2
    · exact .inl ho'

theorem timeInit_ok {input : TimeInput} {offset : ℝ} {m : Memory} {t : TimeObject}
    (h : (timeInit input offset m).1 = .ok t) :
    t.julian = m.length ∧ t.julian < (timeInit input offset m).2.length ∧
      t.length = (content (timeInit input offset m).2 t.julian).length := by
  cases input with
  | number x =>
    simp [timeInit, alloc] at h
    subst h
    simp [timeInit, alloc, content_new]
  | array p =>
    simp [timeInit, alloc] at h
    subst h
    simp [timeInit, alloc, content_new]
  | deeper => simp [timeInit] at h

theorem obtainTime_sound {s : Session} (hs : s.Sound) (input : TimeInput) (offset : ℝ) :
    (s.obtainTime (timeInit input offset s.memory)).Sound := by
  refine sound_of_goes hs (obtainTime_adds timeInit_prefix).goes ?_ ?_ ?_
  · intro a ha
    left
    unfold Session.obtainTime at ha
    split at ha <;> exact ha
  · intro t ht
    unfold Session.obtainTime at ht ⊢
    split at ht
    · rename_i t' e
      simp only
      rcases List.mem_append.mp ht with h' | h'
      · exact .inl h'
      · rw [List.mem_singleton] at h'
        subst h'
        exact .inr (timeInit_ok e).2
    · exact .inl ht
  · intro o ho
    left
    unfold Session.obtainTime at ho
    split at ho <;> exact ho

theorem step_sound {s : Session} (hs : s.Sound) (st : Step) : (s.step st).Sound := by
  have hg := step_goes s st
  cases st with
  | array xs =>
    refine sound_of_goes hs hg ?_ (fun t ht => .inl ht) fun o ho => .inl ho
    intro a ha
    simp only [Session.step, alloc, List.mem_append] at ha ⊢
    refine ha.imp_right fun h => ?_
    simp at h ⊢
    omega
  | assign p k x =>
    refine sound_of_goes hs hg ?_ ?_ ?_ <;>
    · intro a ha
      left
      simp only [Session.step] at ha
      split at ha <;> exact ha
  | timeOf x offset => exact obtainTime_sound hs _ _
  | time h offset =>
    simp only [Session.step]
    split
    · exact obtainTime_sound hs _ _
    · exact hs
  | julian i =>
    simp only [Session.step] at hg ⊢
    split
    · rename_i t e
      refine ⟨fun a ha => ?_, hs.2⟩
      rcases List.mem_append.mp ha with h | h
      · exact hs.1 a h
      · rw [List.mem_singleton.mp h]
        exact (hs.2.1 t (List.mem_of_getElem? e)).1
    · exact hs
  | position f u u2 l t cs =>
    simp only [Session.step]
    split
    · rename_i time components e1 e2
      split
      · refine ⟨hs.1, hs.2.1, fun o ho a ha => ?_⟩
        rcases List.mem_append.mp ho with h | h
        · exact hs.2.2 o h a ha
        · rw [List.mem_singleton] at h
          subst h
          rcases List.mem_cons.mp ha with rfl | h
          · exact hs.1 _ (List.mem_of_getElem? e1)
          · obtain ⟨i, -, hi⟩ := mapM_mem e2 a h
            exact hs.1 _ (List.mem_of_getElem? hi)
      · exact hs
    · exact hs
  | timeData i =>
    simp only [Session.step]
    split
    · rename_i o e
      refine ⟨fun a ha => ?_, hs.2⟩
      rcases List.mem_append.mp ha with h | h
      · exact hs.1 a h
      · rw [List.mem_singleton.mp h]
        exact hs.2.2 o (List.mem_of_getElem? e) _ (by simp [Object.arrays])
    · exact hs
  | component i c =>
    simp only [Session.step]
    split
    · rename_i o e
      split
      · rename_i p e'
        refine ⟨fun a ha => ?_, hs.2⟩
        rcases List.mem_append.mp ha with h | h
        · exact hs.1 a h
        · rw [List.mem_singleton.mp h]
          exact hs.2.2 o (List.mem_of_getElem? e) _
            (by simp [Object.arrays, List.mem_of_getElem? e'])
      · exact hs
    · exact hs
  | convert i f l =>
    simp only [Session.step]
    split
    · rename_i o e
      exact obtain_sound hs (List.mem_of_getElem? e) (convertM_cases _ _ _ _).1
        (convertM_cases _ _ _ _).2
    · exact hs
  | satellite i =>
    simp only [Session.step]
    split
    · rename_i o e
      exact obtain_sound hs (List.mem_of_getElem? e) (satellitePosition_cases _ _).1
        (satellitePosition_cases _ _).2
    · exact hs

theorem start_sound : Session.start.Sound := by
  simp [Session.Sound, Session.start]

theorem run_sound {s : Session} (hs : s.Sound) (steps : List Step) : (s.run steps).Sound := by
  induction steps generalizing s with
  | nil => exact hs
  | cons st steps ih => exact ih (step_sound hs st)

theorem getElem?_prefix {α : Type} {l l' : List α} (h : l <+: l') {i : ℕ} (hi : i < l.length) :
    l'[i]? = l[i]? := by
  obtain ⟨r, rfl⟩ := h
  exact List.getElem?_append_left hi

/-- An array changes only if a step assigns to it. -/
theorem content_run {s : Session} {a : ℕ} (ha : a < s.memory.length) (steps : List Step)
    (h : ∀ st ∈ steps, ∀ p, AssignsTo p st → ∃ q, s.held[p]? = some q ∧ q ≠ a) :
    content (s.run steps).memory a = content s.memory a := by
  induction steps generalizing s with
  | nil => rfl
  | cons st steps ih =>
    have hg := step_goes s st
    have := ih (s := s.step st) (ha.trans_le hg.size) ?_
    · refine this.trans ?_
      by_cases he : ∃ p k x, st = .assign p k x
      · obtain ⟨p, k, x, rfl⟩ := he
        obtain ⟨q, hq, hne⟩ := h _ (by simp) p ⟨k, x, rfl⟩
        simp only [Session.step, hq]
        exact content_assign_ne _ _ _ hne.symm
      · exact content_prefix (step_adds s fun p k x e => he ⟨p, k, x, e⟩).memory ha
    · intro st' hst' p hp
      obtain ⟨q, hq, hne⟩ := h st' (by simp [hst']) p hp
      refine ⟨q, ?_, hne⟩
      have hlt : p < s.held.length := (List.getElem?_eq_some_iff.mp hq).1
      rw [getElem?_prefix hg.held hlt, hq]

theorem positionNow_congr {s s' : Session} (hg : Goes s s') {i : ℕ}
    (hi : i < s.positions.length)
    (h : ∀ o, s.positions[i]? = some o → ∀ a ∈ o.arrays,
      content s'.memory a = content s.memory a) : s'.positionNow i = s.positionNow i := by
  unfold Session.positionNow
  rw [getElem?_prefix hg.positions hi, List.getElem?_eq_getElem hi]
  exact value_congr (h _ (List.getElem?_eq_getElem hi))

theorem datesNow_congr {s s' : Session} (hg : Goes s s') {i : ℕ} (hi : i < s.times.length)
    (h : ∀ t, s.times[i]? = some t → content s'.memory t.julian = content s.memory t.julian) :
    s'.datesNow i = s.datesNow i := by
  unfold Session.datesNow
  rw [getElem?_prefix hg.times hi, List.getElem?_eq_getElem hi]
  simp only [Option.map_some, TimeObject.dates]
  rw [h _ (List.getElem?_eq_getElem hi)]

theorem arrayNow_congr {s s' : Session} (hg : Goes s s') {h : ℕ} (hh : h < s.held.length)
    (hc : ∀ a, s.held[h]? = some a → content s'.memory a = content s.memory a) :
    s'.arrayNow h = s.arrayNow h := by
  unfold Session.arrayNow
  rw [getElem?_prefix hg.held hh, List.getElem?_eq_getElem hh]
  simp only [Option.map_some]
  rw [hc _ (List.getElem?_eq_getElem hh)]

theorem times_of_value {o : Object} {m : Memory} {p : Position} (h : o.value m = some p) :
    content m o.time = p.times.map some := by
  unfold Object.value at h
  split at h <;> simp only [Option.map_eq_some_iff, reduceCtorEq] at h
  case h_5 =>
    obtain ⟨s, hs, rfl⟩ := h
    rw [(rowsGeo_some hs).1]
    simp [Position.times]
  case h_6 =>
    obtain ⟨s, hs, rfl⟩ := h
    rw [(rowsAzEl_some hs).1]
    simp [Position.times]
  all_goals
    obtain ⟨s, hs, rfl⟩ := h
    rw [(rows3_some hs).1]
    simp [Position.times]

/-- Assigning another number to an element of the time array of an object changes what it shows. -/
theorem value_assign_time {o : Object} {m : Memory} {p : Position} (h : o.value m = some p)
    (ho : o.time < m.length) {k : ℕ} {t x : ℝ} (hk : p.times[k]? = some t) (hx : x ≠ t) :
    o.value (assign m o.time k x) ≠ some p := by
  intro h'
  have e := value_injective h h' o.time (by simp [Object.arrays])
  rw [content_assign_self ho, times_of_value h] at e
  have hk' : (p.times.map some)[k]? = some (some t) := by simp [hk]
  have hlt : k < (p.times.map some).length := (List.getElem?_eq_some_iff.mp hk').1
  rw [e] at hk'
  simp only [List.length_map] at hlt
  rw [List.getElem?_set_self (by simpa using hlt)] at hk'
  simp only [Option.some.injEq] at hk'
  exact hx hk'

/-! ### C104 -/

/-- **C104**: what a conversion returns is what the conversion of the values returns (see C56 and
others for these), in every state a program can reach. -/
theorem C104_values_partial (before : List Step) (i : ℕ) (p : Position)
    (h : (Session.start.run before).positionNow i = some p) :
    let s := Session.start.run before
    (∀ frame location, match convert p frame location with
      | .returned q =>
        (s.step (.convert i frame location)).positions.length = s.positions.length + 1 ∧
        (s.step (.convert i frame location)).positionNow s.positions.length = some q
      | _ => (s.step (.convert i frame location)).positions = s.positions) ∧
    (∀ c, p = .gcrs c →
      (s.step (.satellite i)).positionNow s.positions.length = some (.itrs (gcrsToItrs c))) ∧
    (∀ c, p = .itrs c → (s.step (.satellite i)).positionNow s.positions.length = some p) := by
  intro s
  obtain ⟨o, ho, hv⟩ := Option.bind_eq_some_iff.mp h
  refine ⟨fun frame location => ?_, ?_, ?_⟩
  · have hsh := convertM_shows hv frame location
    simp only [Session.step, s, ho]
    cases hc : convert p frame location with
    | returned q =>
      rw [hc] at hsh
      obtain ⟨o', e, hv'⟩ := hsh
      simp only [Session.obtain, e, Session.positionNow]
      simp [hv']
    | notImplemented =>
      rw [hc] at hsh
      simp only [Session.obtain, show (convertM o frame location _).1 = _ from hsh]
    | raised e =>
      rw [hc] at hsh
      simp only [Session.obtain, show (convertM o frame location _).1 = _ from hsh]
    | diverges =>
      rw [hc] at hsh
      simp only [Session.obtain, show (convertM o frame location _).1 = _ from hsh]
  · rintro c rfl
    obtain ⟨o', e, hv'⟩ := gcrsToItrsM_shows hv
    have hf := value_frame hv
    simp only [Session.step, s, ho, satellitePosition, ← hf, Position.frame, Session.obtain, e,
      Session.positionNow]
    simp [hv']
  · rintro c rfl
    have hf := value_frame hv
    simp only [Session.step, s, ho, satellitePosition, ← hf, Position.frame, Session.obtain,
      Session.positionNow]
    simp [hv]

/-- **C104**: no operation of the library changes an object a program already has.  After any
history, whatever steps follow, as long as none of them is an assignment to an element of an array,
all positions, times and arrays show what they showed. -/
theorem C104_operations_change_nothing_partial (before after : List Step)
    (h : ∀ st ∈ after, ∀ p, ¬ AssignsTo p st) :
    let s := Session.start.run before
    (∀ i < s.positions.length, (s.run after).positionNow i = s.positionNow i) ∧
    (∀ i < s.times.length, (s.run after).datesNow i = s.datesNow i) ∧
    (∀ h < s.held.length, (s.run after).arrayNow h = s.arrayNow h) := by
  intro s
  have hs : s.Sound := run_sound start_sound before
  have hc : ∀ a < s.memory.length, content (s.run after).memory a = content s.memory a :=
    fun a ha => content_run ha after fun st hst p hp => absurd hp (h st hst p)
  exact ⟨fun i hi => positionNow_congr (run_goes s after) hi fun o ho a ha =>
      hc a (hs.2.2 o (List.mem_of_getElem? ho) a ha),
    fun i hi => datesNow_congr (run_goes s after) hi fun t ht =>
      hc _ (hs.2.1 t (List.mem_of_getElem? ht)).1,
    fun h hh => arrayNow_congr (run_goes s after) hh fun a ha =>
      hc a (hs.1 a (List.mem_of_getElem? ha))⟩

/-- **C104** (partial): what is true.  After any history convert a position to another frame, or
make a satellite of a GCRS position.  The object obtained, if one is, is apart from everything the
program had before.

* Whatever follows, as long as it assigns only to arrays the program had hold of before, the object
  shows the same.
* Take any arrays out of the object.  Whatever follows, as long as it assigns only to these, all
  the objects and arrays the program had before show the same.

What is missing: conversions to the frame the position has, satellites made of ITRS positions, and
objects made from arrays (`C104_same_frame_shares`, `C104_constructor_shares`). -/
theorem C104_converted_is_apart_partial (before : List Step) (i : ℕ) (p : Position) (st : Step)
    (h : (Session.start.run before).positionNow i = some p)
    (hst : (∃ frame location, st = .convert i frame location ∧ p.frame ≠ frame) ∨
      (st = .satellite i ∧ p.frame = .gcrs)) :
    let s := Session.start.run before
    let s' := s.step st
    let j := s.positions.length
    s'.positionNow j ≠ none →
    (∀ after, (∀ st ∈ after, ∀ n, AssignsTo n st → n < s.held.length) →
      (s'.run after).positionNow j = s'.positionNow j) ∧
    (∀ takes after, (∀ st ∈ takes, TakesArrayOf j st) →
      (∀ st ∈ after, ∀ n, AssignsTo n st →
        s.held.length ≤ n ∧ n < (s'.run takes).held.length) →
      (∀ i < j, ((s'.run takes).run after).positionNow i = s.positionNow i) ∧
      (∀ i < s.times.length, ((s'.run takes).run after).datesNow i = s.datesNow i) ∧
      (∀ h < s.held.length, ((s'.run takes).run after).arrayNow h = s.arrayNow h)) := by
  intro s s' j hj
  have hs : s.Sound := run_sound start_sound before
  obtain ⟨o, ho, hv⟩ := Option.bind_eq_some_iff.mp h
  have hf := value_frame hv
  -- the new object
  have key : ∃ r : Result × Memory, s' = s.obtain r ∧ Fresh s.memory r := by
    rcases hst with ⟨frame, location, rfl, hne⟩ | ⟨rfl, he⟩
    · refine ⟨convertM o frame location s.memory, ?_, convertM_fresh _ _ (hf ▸ hne)⟩
      simp only [s', s, Session.step, ho]
    · refine ⟨gcrsToItrsM o s.memory, ?_, gcrsToItrsM_fresh _ _⟩
      simp only [s', s, Session.step, ho, satellitePosition, ← hf, he]
  obtain ⟨r, hr, hfresh⟩ := key
  have hnew : ∃ o', s'.positions = s.positions ++ [o'] ∧ New s.memory s'.memory o' ∧
      s'.held = s.held := by
    rw [hr] at hj ⊢
    unfold Session.obtain at hj ⊢
    split
    · rename_i o' e
      exact ⟨o', rfl, hfresh.2 o' e, rfl⟩
    · rename_i hno
      exfalso
      apply hj
      split <;> simp_all [Session.positionNow, j]
  obtain ⟨o', hpos, hn, hheld⟩ := hnew
  have hs' : s'.Sound := step_sound hs st
  have hjo : s'.positions[j]? = some o' := by simp [hpos, j]
  have hjl : j < s'.positions.length := by simp [hpos, j]
  have hadd : Adds s s' := by
    rw [hr]
    exact obtain_adds hfresh.1
  constructor
  · intro after ha
    refine positionNow_congr (run_goes _ _) hjl fun o'' ho'' a haa => ?_
    rw [hjo, Option.some.injEq] at ho''
    subst ho''
    refine content_run (hn a haa).2 after fun st' hst' n hn' => ?_
    have hlt := ha st' hst' n hn'
    refine ⟨s.held[n], by rw [hheld]; exact List.getElem?_eq_getElem hlt, ?_⟩
    have := hs.1 _ (List.getElem_mem hlt)
    have := (hn a haa).1
    omega
  · intro takes after htakes hafter
    -- the arrays taken are new
    have htk : ∀ (takes : List Step) (u : Session), (∀ st ∈ takes, TakesArrayOf j st) →
        u.positions = s'.positions → u.memory = s'.memory → s.held <+: u.held →
        (∀ n q, s.held.length ≤ n → u.held[n]? = some q → s.memory.length ≤ q) →
        (u.run takes).positions = s'.positions ∧ (u.run takes).memory = s'.memory ∧
        s.held <+: (u.run takes).held ∧
        ∀ n q, s.held.length ≤ n → (u.run takes).held[n]? = some q → s.memory.length ≤ q := by
      intro takes
      induction takes with
      | nil => exact fun u _ h1 h2 h3 h4 => ⟨h1, h2, h3, h4⟩
      | cons st takes ih =>
        intro u ht h1 h2 h3 h4
        have step : ∀ b, b ∈ o'.arrays → ∀ n q, s.held.length ≤ n →
            (u.held ++ [b])[n]? = some q → s.memory.length ≤ q := by
          intro b hb n q hn' hq
          rcases lt_or_ge n u.held.length with hlt | hge
          · rw [List.getElem?_append_left hlt] at hq
            exact h4 n q hn' hq
          · rw [List.getElem?_append_right hge] at hq
            obtain ⟨_, hq⟩ := List.getElem?_eq_some_iff.mp hq
            simp only [List.getElem_singleton] at hq
            rw [← hq]
            exact (hn b hb).1
        have hstep : u.step st = u ∨
            ∃ b ∈ o'.arrays, u.step st = { u with held := u.held ++ [b] } := by
          rcases ht st (by simp) with rfl | ⟨c, rfl⟩
          · right
            exact ⟨o'.time, by simp [Object.arrays], by simp only [Session.step, h1, hjo]⟩
          · simp only [Session.step, h1, hjo]
            split
            · rename_i b e
              exact .inr ⟨b, by simp [Object.arrays, List.mem_of_getElem? e], rfl⟩
            · exact .inl rfl
        have ht' : ∀ st' ∈ takes, TakesArrayOf j st' := fun st' h => ht st' (by simp [h])
        rcases hstep with e | ⟨b, hb, e⟩
        · simp only [Session.run, List.foldl_cons, e]
          exact ih u ht' h1 h2 h3 h4
        · simp only [Session.run, List.foldl_cons, e]
          exact ih _ ht' h1 h2 (h3.trans (List.prefix_append _ _)) (step b hb)
    obtain ⟨-, h2, h3, h4⟩ := htk takes s' htakes rfl rfl hadd.held (by
      intro n q hn' hq
      rw [hheld] at hq
      exact absurd (List.getElem?_eq_some_iff.mp hq).1 (by omega))
    have hc : ∀ a < s.memory.length,
        content ((s'.run takes).run after).memory a = content s.memory a := by
      intro a ha
      have hsz : a < (s'.run takes).memory.length := by
        rw [h2]
        exact ha.trans_le hadd.memory.length_le
      refine (content_run hsz after fun st' hst' n hn' => ?_).trans ?_
      · obtain ⟨hge, hlt⟩ := hafter st' hst' n hn'
        refine ⟨(s'.run takes).held[n], List.getElem?_eq_getElem hlt, ?_⟩
        have := h4 n _ hge (List.getElem?_eq_getElem hlt)
        omega
      · rw [h2]
        exact content_prefix hadd.memory ha
    have hgo : Goes s ((s'.run takes).run after) :=
      (hadd.goes.trans (run_goes _ _)).trans (run_goes _ _)
    exact ⟨fun i hi => positionNow_congr hgo hi fun o ho a ha =>
        hc a (hs.2.2 o (List.mem_of_getElem? ho) a ha),
      fun i hi => datesNow_congr hgo hi fun t ht =>
        hc _ (hs.2.1 t (List.mem_of_getElem? ht)).1,
      fun h hh => arrayNow_congr hgo hh fun a ha => hc a (hs.1 a (List.mem_of_getElem? ha))⟩

/-- **C104**, what is false: converted to the frame it has, a position is not copied, and neither is
an ITRS position a satellite is made of.  Whatever the history and the position, assigning any other
number to any of the dates of the object obtained changes the original. -/
theorem C104_same_frame_shares (before : List Step) (i : ℕ) (p : Position) (st : Step)
    (h : (Session.start.run before).positionNow i = some p)
    (hst : (∃ location, st = .convert i p.frame location ∧
        (p.frame = .gcrs ∨ p.frame = .itrs ∨ p.frame = .wgs84)) ∨
      (st = .satellite i ∧ p.frame = .itrs))
    (k : ℕ) (t x : ℝ) (hk : p.times[k]? = some t) (hx : x ≠ t) :
    let s := Session.start.run before
    (s.run [st]).positionNow s.positions.length = some p ∧
    (s.run [st, .timeData s.positions.length, .assign s.held.length k x]).positionNow i ≠
      some p := by
  intro s
  have hs : s.Sound := run_sound start_sound before
  obtain ⟨o, ho, hv⟩ := Option.bind_eq_some_iff.mp h
  have hf := value_frame hv
  have e1 : s.step st = { s with positions := s.positions ++ [o] } := by
    rcases hst with ⟨location, rfl, hc⟩ | ⟨rfl, he⟩
    · have : convertM o p.frame location s.memory = (.object o, s.memory) := by
        unfold convertM
        rw [if_neg (by rw [← hf]; tauto), if_pos hf.symm]
      simp only [Session.step, s, ho]
      rw [this]
      rfl
    · simp only [Session.step, s, ho, satellitePosition, ← hf, he]
      rfl
  constructor
  · simp only [Session.run, List.foldl_cons, List.foldl_nil, e1]
    simpa [Session.positionNow] using hv
  · have hlt : i < s.positions.length := (List.getElem?_eq_some_iff.mp ho).1
    have hb : o.time < s.memory.length :=
      hs.2.2 o (List.mem_of_getElem? ho) _ (by simp [Object.arrays])
    have e2 : (s.run [st, .timeData s.positions.length, .assign s.held.length k x]).positionNow i =
        o.value (assign s.memory o.time k x) := by
      simp only [Session.run, List.foldl_cons, List.foldl_nil, e1]
      simp [Session.step, Session.positionNow, List.getElem?_append_left hlt, s, ho]
    rw [e2]
    exact value_assign_time hv hb hk hx

/-- **C104**, what is false: a position object keeps the arrays it is made from.  Whatever the
history, assigning any other number to an element of the array given for the times changes the
object. -/
theorem C104_constructor_shares (before : List Step) (frame : FrameName) (unit unit2 : ℝ)
    (location : Option Ground) (time : ℕ) (components : List ℕ) (p : Position) :
    let s := Session.start.run before
    let s' := s.step (.position frame unit unit2 location time components)
    s'.positionNow s.positions.length = some p →
    ∀ k t x, p.times[k]? = some t → x ≠ t →
      (s'.step (.assign time k x)).positionNow s.positions.length ≠ some p := by
  intro s s' h k t x hk hx
  have hs' : s'.Sound := step_sound (run_sound start_sound before) _
  obtain ⟨o, ho, hv⟩ := Option.bind_eq_some_iff.mp h
  have hnot : s' ≠ s := by
    intro e
    rw [e] at ho
    simp at ho
  have key : s.held[time]? = some o.time ∧ s'.held = s.held := by
    simp only [s', Session.step] at ho hnot ⊢
    split at ho
    · rename_i t' cs' e1 e2
      split at ho
      · rename_i hc
        simp only [List.getElem?_append_right le_rfl, Nat.sub_self, List.getElem?_cons_zero,
          Option.some.injEq] at ho
        subst ho
        simp [e1, e2, hc]
      · simp at ho
    · simp at ho
  have hb : o.time < s'.memory.length :=
    hs'.2.2 o (List.mem_of_getElem? ho) _ (by simp [Object.arrays])
  have e : (s'.step (.assign time k x)).positionNow s.positions.length =
      o.value (assign s'.memory o.time k x) := by
    simp [Session.step, key.2, key.1, Session.positionNow, ho]
  rw [e]
  exact value_assign_time hv hb hk hx

/-- A program with a GCRS position of two samples made from arrays 0 to 3. -/
def demo : List Step :=
  [.array [some 2459000, some 2459001], .array [some 7000, some 6900], .array [some 0, some 100],
    .array [some 0, some 200], .position .gcrs 1 1 none 0 [1, 2, 3]]

theorem demo_position : (Session.start.run demo).positionNow 0 =
    some (.gcrs ⟨1, [(2459000, ![7000, 0, 0]), (2459001, ![6900, 100, 200])]⟩) := by
  have h : constructorAccepts [[some 2459000, some 2459001], [some 7000, some 6900],
      [some 0, some 100], [some 0, some 200]] 0 [1, 2, 3] := by
    simp [constructorAccepts, position3dInit, content, Shape.ndim, Shape.size]
  simp [Session.run, demo, Session.start, Session.step, alloc, List.range', h, Session.positionNow,
    Object.value, content, rows3]

-- `C104_converted_is_apart_partial` applies to a conversion of it to ITRS, which gives a position.
example : (∃ frame location, Step.convert 0 .itrs none = .convert 0 frame location ∧
      (Position.gcrs ⟨1, [(2459000, ![7000, 0, 0]), (2459001, ![6900, 100, 200])]⟩).frame ≠ frame) ∧
    ((Session.start.run demo).step (.convert 0 .itrs none)).positionNow
      (Session.start.run demo).positions.length ≠ none := by
  refine ⟨⟨.itrs, none, rfl, by simp [Position.frame]⟩, ?_⟩
  have := ((C104_values_partial demo 0 _ demo_position).1 .itrs none)
  simp only [convert, coordinateInit, Position.frame, convertTo, convertFromGcrs, reduceCtorEq,
    or_true, true_or, or_false, if_true, if_false] at this
  rw [this.2]
  simp

-- `C104_same_frame_shares` and `C104_constructor_shares` apply to it with another first date.
example : (Position.gcrs ⟨1, [(2459000, ![7000, 0, 0]), (2459001, ![6900, 100, 200])]⟩).times[0]? =
    some 2459000 ∧ (0 : ℝ) ≠ 2459000 := by
  simp [Position.times]

/-! ### C105 -/

/-- The array of `Time` object `i` is known to nothing else. -/
def Private (s : Session) (i a : ℕ) : Prop :=
  (∃ t, s.times[i]? = some t ∧ t.julian = a) ∧ a ∉ s.held ∧
  (∀ o ∈ s.positions, a ∉ o.arrays) ∧
  ∀ (i' : ℕ) (t : TimeObject), i' ≠ i → s.times[i']? = some t → t.julian ≠ a

theorem obtain_private {s : Session} {i a : ℕ} (h : Private s i a) (ha : a < s.memory.length)
    {o : Object} (ho : o ∈ s.positions) {r : Result × Memory}
    (hr : ∀ o', r.1 = .object o' → o' = o ∨ New s.memory r.2 o') : Private (s.obtain r) i a := by
  obtain ⟨h1, h2, h3, h4⟩ := h
  unfold Session.obtain
  split
  · rename_i o' e
    refine ⟨h1, h2, fun o'' ho'' => ?_, h4⟩
    rcases List.mem_append.mp ho'' with h' | h'
    · exact h3 o'' h'
    · rw [List.mem_singleton] at h'
      subst h'
      rcases hr o'' e with rfl | hn
      · exact h3 _ ho
      · intro hm
        exact absurd (hn a hm).1 (by omega)
  · exact ⟨h1, h2, h3, h4⟩

theorem obtainTime_private {s : Session} {i a : ℕ} (h : Private s i a) (ha : a < s.memory.length)
    (input : TimeInput) (offset : ℝ) :
    Private (s.obtainTime (timeInit input offset s.memory)) i a := by
  obtain ⟨⟨t, ht, hta⟩, h2, h3, h4⟩ := h
  unfold Session.obtainTime
  split
  · rename_i t' e
    have hlt : i < s.times.length := (List.getElem?_eq_some_iff.mp ht).1
    refine ⟨⟨t, by rw [List.getElem?_append_left hlt, ht], hta⟩, h2, h3, ?_⟩
    intro i' t'' hi' ht''
    rcases lt_or_ge i' s.times.length with hlt' | hge
    · rw [List.getElem?_append_left hlt'] at ht''
      exact h4 i' t'' hi' ht''
    · rw [List.getElem?_append_right hge] at ht''
      obtain ⟨_, hq⟩ := List.getElem?_eq_some_iff.mp ht''
      simp only [List.getElem_singleton] at hq
      rw [← hq, (timeInit_ok e).1]
      omega
  · exact ⟨⟨t, ht, hta⟩, h2, h3, h4⟩

theorem held_private {s : Session} {i a b : ℕ} (h : Private s i a) (hb : b ≠ a) :
    Private { s with held := s.held ++ [b] } i a := by
  obtain ⟨h1, h2, h3, h4⟩ := h
  refine ⟨h1, ?_, h3, h4⟩
  simp only [List.mem_append, List.mem_singleton, not_or]
  exact ⟨h2, hb.symm⟩

theorem step_private {s : Session} (hs : s.Sound) {i a : ℕ} (h : Private s i a) {st : Step}
    (hst : st ≠ .julian i) : Private (s.step st) i a := by
  have ha : a < s.memory.length := by
    obtain ⟨⟨t, ht, rfl⟩, -⟩ := h
    exact (hs.2.1 t (List.mem_of_getElem? ht)).1
  cases st with
  | array xs =>
    have := held_private (b := s.memory.length) h (by omega)
    exact this
  | assign p k x =>
    simp only [Session.step]
    split <;> exact h
  | timeOf x offset => exact obtainTime_private h ha _ _
  | time p offset =>
    simp only [Session.step]
    split
    · exact obtainTime_private h ha _ _
    · exact h
  | julian i' =>
    simp only [Session.step]
    split
    · rename_i t e
      exact held_private h (h.2.2.2 i' t (fun e => hst (by rw [e])) e)
    · exact h
  | position f u u2 l t cs =>
    simp only [Session.step]
    split
    · rename_i time components e1 e2
      split
      · obtain ⟨h1, h2, h3, h4⟩ := h
        refine ⟨h1, h2, fun o ho => ?_, h4⟩
        rcases List.mem_append.mp ho with h' | h'
        · exact h3 o h'
        · rw [List.mem_singleton] at h'
          subst h'
          intro hm
          rcases List.mem_cons.mp hm with rfl | hm
          · exact h2 (List.mem_of_getElem? e1)
          · obtain ⟨n, -, hn⟩ := mapM_mem e2 a hm
            exact h2 (List.mem_of_getElem? hn)
      · exact h
    · exact h
  | timeData i' =>
    simp only [Session.step]
    split
    · rename_i o e
      refine held_private h fun e' => h.2.2.1 o (List.mem_of_getElem? e) ?_
      simp [Object.arrays, e']
    · exact h
  | component i' c =>
    simp only [Session.step]
    split
    · rename_i o e
      split
      · rename_i b e'
        refine held_private h fun e'' => h.2.2.1 o (List.mem_of_getElem? e) ?_
        rw [← e'']
        simp [Object.arrays, List.mem_of_getElem? e']
      · exact h
    · exact h
  | convert i' f l =>
    simp only [Session.step]
    split
    · rename_i o e
      exact obtain_private h ha (List.mem_of_getElem? e) (convertM_cases _ _ _ _).2
    · exact h
  | satellite i' =>
    simp only [Session.step]
    split
    · rename_i o e
      exact obtain_private h ha (List.mem_of_getElem? e) (satellitePosition_cases _ _).2
    · exact h

/-- A new `Time` object has an array to itself. -/
theorem obtainTime_makes {s : Session} (hs : s.Sound) {input : TimeInput} {offset : ℝ}
    {t : TimeObject} (h : (timeInit input offset s.memory).1 = .ok t) :
    Private (s.obtainTime (timeInit input offset s.memory)) s.times.length t.julian := by
  unfold Session.obtainTime
  rw [h]
  have e := (timeInit_ok h).1
  refine ⟨⟨t, by simp, rfl⟩, fun hm => ?_, fun o ho hm => ?_, fun i' t' hi' ht' => ?_⟩
  · have := hs.1 _ hm
    omega
  · have := hs.2.2 o ho _ hm
    omega
  · have hlt : i' < s.times.length := by
      have := (List.getElem?_eq_some_iff.mp ht').1
      simp only [List.length_append, List.length_cons, List.length_nil] at this
      omega
    rw [List.getElem?_append_left hlt] at ht'
    have := (hs.2.1 t' (List.mem_of_getElem? ht')).1
    omega

/-- Every `Time` object whose array was never asked for has it to itself. -/
theorem run_private {s : Session} (hs : s.Sound) {i : ℕ} (steps : List Step)
    (h : ∀ st ∈ steps, st ≠ .julian i)
    (hp : i < s.times.length → ∃ a, Private s i a)
    (hi : i < (s.run steps).times.length) : ∃ a, Private (s.run steps) i a := by
  induction steps generalizing s with
  | nil => exact hp hi
  | cons st steps ih =>
    refine ih (step_sound hs st) (fun st' h' => h st' (by simp [h'])) ?_ hi
    intro hlt
    by_cases hold : i < s.times.length
    · obtain ⟨a, ha⟩ := hp hold
      exact ⟨a, step_private hs ha (h st (by simp))⟩
    -- the object is made by this step
    have made : ∀ input offset, s.step st = s.obtainTime (timeInit input offset s.memory) →
        ∃ a, Private (s.step st) i a := by
      intro input offset e
      cases ht : (timeInit input offset s.memory).1 with
      | error _ =>
        exfalso
        rw [e, Session.obtainTime, ht] at hlt
        exact hold hlt
      | ok t =>
        have hm := obtainTime_makes hs ht
        rw [← e] at hm
        have hl : i = s.times.length := by
          rw [e, Session.obtainTime, ht] at hlt
          simp only [List.length_append, List.length_cons, List.length_nil] at hlt
          omega
        exact ⟨t.julian, hl ▸ hm⟩
    have none : (s.step st).times = s.times → ∃ a, Private (s.step st) i a := fun e =>
      absurd (e ▸ hlt) hold
    cases st with
    | timeOf x offset => exact made (.number x) offset rfl
    | time p offset =>
      cases e : s.held[p]? with
      | some q =>
        refine made (.array q) offset ?_
        simp only [Session.step, e]
      | none =>
        refine none ?_
        simp only [Session.step, e]
    | array xs => exact none rfl
    | assign p k x =>
      refine none ?_
      simp only [Session.step]
      split <;> rfl
    | julian i' =>
      refine none ?_
      simp only [Session.step]
      split <;> rfl
    | position f u u2 l t cs =>
      refine none ?_
      simp only [Session.step]
      split
      · split <;> rfl
      · rfl
    | timeData i' =>
      refine none ?_
      simp only [Session.step]
      split <;> rfl
    | component i' c =>
      refine none ?_
      simp only [Session.step]
      split
      · split <;> rfl
      · rfl
    | convert i' f l =>
      refine none ?_
      simp only [Session.step]
      split
      · unfold Session.obtain
        split <;> rfl
      · rfl
    | satellite i' =>
      refine none ?_
      simp only [Session.step]
      split
      · unfold Session.obtain
        split <;> rfl
      · rfl

/-- **C105** (partial): what is true.  A `Time` object shows the same dates for ever, whatever the
program does, in particular to the array the object was made from, as long as the program does not
take the object's own array out of it with `time.julian.data` (`C105_julian_shares`). -/
theorem C105_dates_never_change_partial (before after : List Step) (i : ℕ)
    (hi : i < (Session.start.run before).times.length)
    (h : ∀ st ∈ before ++ after, st ≠ .julian i) :
    (Session.start.run (before ++ after)).datesNow i = (Session.start.run before).datesNow i := by
  rw [run_append]
  have hs := run_sound start_sound before
  obtain ⟨a, ha⟩ := run_private start_sound before (fun st hst => h st (by simp [hst]))
    (by simp [Session.start]) hi
  revert hs ha hi
  generalize Session.start.run before = s
  intro hi hs ha
  have h' : ∀ st ∈ after, st ≠ .julian i := fun st hst => h st (by simp [hst])
  clear h
  induction after generalizing s with
  | nil => rfl
  | cons st after ih =>
    refine (ih (s.step st) (hi.trans_le (step_goes s st).times.length_le) (step_sound hs st)
      (step_private hs ha (h' st (by simp))) fun st' hst' => h' st' (by simp [hst'])).trans ?_
    refine datesNow_congr (step_goes s st) hi fun t ht => ?_
    obtain ⟨⟨t', ht', hta⟩, hh, -⟩ := ha
    rw [ht', Option.some.injEq] at ht
    subst ht
    have hlt := (hs.2.1 t' (List.mem_of_getElem? ht')).1
    by_cases he : ∃ p k x, st = .assign p k x
    · obtain ⟨p, k, x, rfl⟩ := he
      simp only [Session.step]
      split
      · rename_i q hq
        refine content_assign_ne _ _ _ fun e => hh ?_
        rw [← hta, e]
        exact List.mem_of_getElem? hq
      · rfl
    · exact content_prefix (step_adds s fun p k x e => he ⟨p, k, x, e⟩).memory hlt

/-- **C105**, what is false: `time.julian.data` is the object's own array.  Whatever the history,
assigning any other number to any of its elements changes the dates of the object. -/
theorem C105_julian_shares (before : List Step) (i k : ℕ) (ds : List (Option ℝ)) (d : Option ℝ)
    (x : ℝ) (h : (Session.start.run before).datesNow i = some ds) (hk : ds[k]? = some d)
    (hx : some x ≠ d) :
    let s := Session.start.run before
    (s.run [.julian i, .assign s.held.length k x]).datesNow i = some (ds.set k (some x)) ∧
    ds.set k (some x) ≠ ds := by
  intro s
  have hs : s.Sound := run_sound start_sound before
  obtain ⟨t, ht, rfl⟩ := Option.map_eq_some_iff.mp h
  have hlt := (hs.2.1 t (List.mem_of_getElem? ht)).1
  constructor
  · have ht' : s.times[i]? = some t := ht
    have e : (s.run [.julian i, .assign s.held.length k x]).datesNow i =
        some (content (assign s.memory t.julian k x) t.julian) := by
      simp only [Session.run, List.foldl_cons, List.foldl_nil]
      simp [Session.step, ht', Session.datesNow, TimeObject.dates]
    rw [e, content_assign_self hlt]
    rfl
  · intro e
    rw [← e, List.getElem?_set_self (by simpa using (List.getElem?_eq_some_iff.mp hk).1)] at hk
    exact hx (Option.some.inj hk)

/-- **C105**: what `Time(julian, offset)` makes, in any state a program can reach: of an array, the
dates of the array plus the offset; of a number, one date; anything of more dimensions raises a
`ValueError`. -/
theorem C105_constructor_partial (before : List Step) (offset : ℝ) :
    let s := Session.start.run before
    (∀ h xs, s.arrayNow h = some xs →
      (s.step (.time h offset)).datesNow s.times.length =
        some (xs.map (Option.map (· + offset)))) ∧
    (∀ x, (s.step (.timeOf x offset)).datesNow s.times.length = some [some (x + offset)]) ∧
    (∀ m, timeInit .deeper offset m = (.error .valueError, m)) := by
  intro s
  refine ⟨fun h xs hx => ?_, fun x => ?_, fun m => rfl⟩
  · obtain ⟨p, hp, rfl⟩ := Option.map_eq_some_iff.mp hx
    simp only [Session.step, hp]
    simp [Session.obtainTime, timeInit, alloc, Session.datesNow, TimeObject.dates, content_new]
  · simp [Session.step, Session.obtainTime, timeInit, alloc, Session.datesNow, TimeObject.dates,
      content_new]

/-- **C105**: `len(time)` is the number of dates, always, and does not change, even if the dates
do. -/
theorem C105_length_partial (before after : List Step) (i : ℕ) (t : TimeObject)
    (h : (Session.start.run before).times[i]? = some t) :
    (Session.start.run (before ++ after)).times[i]? = some t ∧
    ∃ ds, (Session.start.run (before ++ after)).datesNow i = some ds ∧ t.len = ds.length := by
  have hi := (List.getElem?_eq_some_iff.mp h).1
  have ht : (Session.start.run (before ++ after)).times[i]? = some t := by
    rw [run_append, getElem?_prefix (run_goes _ _).times hi, h]
  refine ⟨ht, t.dates (Session.start.run (before ++ after)).memory, by simp only [Session.datesNow, ht, Option.map_some], ?_⟩
  exact ((run_sound start_sound (before ++ after)).2.1 t (List.mem_of_getElem? ht)).2

/-- A program with a `Time` object made from an array, which is then changed. -/
def demoTime : List Step := [.array [some 21545, some 21546], .time 0 2430000]

-- `C105_dates_never_change_partial` applies to it and an assignment to the array.
example : 0 < (Session.start.run demoTime).times.length ∧
    (∀ st ∈ demoTime ++ [.assign 0 1 0], st ≠ .julian 0) ∧
    (Session.start.run demoTime).datesNow 0 = some [some 2451545, some 2451546] ∧
    (Session.start.run (demoTime ++ [.assign 0 1 0])).arrayNow 0 = some [some 21545, some 0] := by
  refine ⟨?_, by simp [demoTime], ?_, ?_⟩
  · simp [Session.run, demoTime, Session.start, Session.step, alloc,
      Session.obtainTime, timeInit]
  · simp [Session.run, demoTime, Session.start, Session.step, alloc,
      Session.obtainTime, timeInit, Session.datesNow, TimeObject.dates, content]
    norm_num
  · simp [Session.run, demoTime, Session.start, Session.step, alloc,
      Session.obtainTime, timeInit, Session.arrayNow, assign, content]

end Celest.Frames
