/-
Lemmas about `Verif/Frames/Memory.lean`: what conversions allocate and leave alone.
-/
import Verif.Frames.Memory

namespace Celest.Frames

/-! ### Memory -/

theorem content_append {m : Memory} {a : ℕ} (h : a < m.length) (r : Memory) :
    content (m ++ r) a = content m a := by
  simp [content, List.getElem?_append_left h]

theorem content_new (m : Memory) (xs : List (Option ℝ)) (r : Memory) :
    content (m ++ xs :: r) m.length = xs := by
  simp [content]

theorem content_prefix {m m' : Memory} (h : m <+: m') {a : ℕ} (ha : a < m.length) :
    content m' a = content m a := by
  obtain ⟨r, rfl⟩ := h
  exact content_append ha r

theorem assign_length (m : Memory) (p k : ℕ) (x : ℝ) : (assign m p k x).length = m.length := by
  simp [assign]

theorem content_assign_ne (m : Memory) {p a : ℕ} (k : ℕ) (x : ℝ) (h : a ≠ p) :
    content (assign m p k x) a = content m a := by
  simp [content, assign, List.getElem?_set_ne (Ne.symm h)]

theorem content_assign_self {m : Memory} {p : ℕ} (h : p < m.length) (k : ℕ) (x : ℝ) :
    content (assign m p k x) p = (content m p).set k (some x) := by
  simp [content, assign, h]

theorem map_content_range' (m : Memory) (r r' : Memory) :
    (List.range' m.length r.length).map (content (m ++ r ++ r')) = r := by
  apply List.ext_getElem
  · simp
  · intro i h1 h2
    have h2' : i < r.length := h2
    simp only [List.getElem_map, List.getElem_range', content, one_mul, List.append_assoc]
    rw [List.getElem?_append_right (Nat.le_add_right _ _), Nat.add_sub_cancel_left,
      List.getElem?_append_left h2', List.getElem?_eq_getElem h2']
    rfl

/-! ### Rows and columns -/

theorem rows3_some {t x y z : List (Option ℝ)} {s : List (ℝ × Vec)}
    (h : rows3 t x y z = some s) :
    t = s.map (fun r => some r.1) ∧ x = s.map (fun r => some (r.2 0)) ∧
      y = s.map (fun r => some (r.2 1)) ∧ z = s.map (fun r => some (r.2 2)) := by
  induction t, x, y, z using rows3.induct generalizing s with
  | case1 =>
    simp only [rows3, Option.some.injEq] at h
    subst h
    simp
  | case2 t ts x xs y ys z zs ih =>
    simp only [rows3, Option.map_eq_some_iff] at h
    obtain ⟨s', hs', rfl⟩ := h
    obtain ⟨h1, h2, h3, h4⟩ := ih hs'
    simp [← h1, ← h2, ← h3, ← h4]
  | case3 => simp_all [rows3]

theorem rows3_columns3 (s : List (ℝ × Vec)) :
    rows3 (s.map fun r => some r.1) (s.map fun r => some (r.2 0)) (s.map fun r => some (r.2 1))
      (s.map fun r => some (r.2 2)) = some s := by
  induction s with
  | nil => rfl
  | cons r s ih =>
    simp only [List.map_cons, rows3, ih, Option.map_some, Option.some.injEq, List.cons.injEq,
      and_true]
    obtain ⟨t, v⟩ := r
    have : ![v 0, v 1, v 2] = v := by
      funext i
      fin_cases i <;> rfl
    simp [this]

theorem rowsGeo_some {t x y z : List (Option ℝ)} {s : List (ℝ × Option ℝ × ℝ × ℝ)}
    (h : rowsGeo t x y z = some s) :
    t = s.map (fun r => some r.1) ∧ x = s.map (fun r => r.2.1) ∧
      y = s.map (fun r => some r.2.2.1) ∧ z = s.map (fun r => some r.2.2.2) := by
  induction t, x, y, z using rowsGeo.induct generalizing s with
  | case1 =>
    simp only [rowsGeo, Option.some.injEq] at h
    subst h
    simp
  | case2 t ts x xs y ys z zs ih =>
    simp only [rowsGeo, Option.map_eq_some_iff] at h
    obtain ⟨s', hs', rfl⟩ := h
    obtain ⟨h1, h2, h3, h4⟩ := ih hs'
    simp [← h1, ← h2, ← h3, ← h4]
  | case3 => simp_all [rowsGeo]

theorem rowsGeo_columns (s : List (ℝ × Option ℝ × ℝ × ℝ)) :
    rowsGeo (s.map fun r => some r.1) (s.map fun r => r.2.1) (s.map fun r => some r.2.2.1)
      (s.map fun r => some r.2.2.2) = some s := by
  induction s with
  | nil => rfl
  | cons r s ih => simp [rowsGeo, ih]

theorem rowsAzEl_some {t x y : List (Option ℝ)} {s : List (ℝ × Option ℝ × Option ℝ)}
    (h : rowsAzEl t x y = some s) :
    t = s.map (fun r => some r.1) ∧ x = s.map (fun r => r.2.1) ∧ y = s.map (fun r => r.2.2) := by
  induction t, x, y using rowsAzEl.induct generalizing s with
  | case1 =>
    simp only [rowsAzEl, Option.some.injEq] at h
    subst h
    simp
  | case2 t ts x xs y ys ih =>
    simp only [rowsAzEl, Option.map_eq_some_iff] at h
    obtain ⟨s', hs', rfl⟩ := h
    obtain ⟨h1, h2, h3⟩ := ih hs'
    simp [← h1, ← h2, ← h3]
  | case3 => simp_all [rowsAzEl]

theorem rowsAzEl_columns (s : List (ℝ × Option ℝ × Option ℝ)) :
    rowsAzEl (s.map fun r => some r.1) (s.map fun r => r.2.1) (s.map fun r => r.2.2) = some s := by
  induction s with
  | nil => rfl
  | cons r s ih => simp [rowsAzEl, ih]

/-! ### Values of objects -/

theorem value_congr {o : Object} {m m' : Memory}
    (h : ∀ a ∈ o.arrays, content m a = content m' a) : o.value m = o.value m' := by
  have h1 : content m o.time = content m' o.time := h _ (by simp [Object.arrays])
  have h2 : o.components.map (content m) = o.components.map (content m') :=
    List.map_congr_left fun a ha => h a (by simp [Object.arrays, ha])
  unfold Object.value
  rw [h1, h2]

/-- The value determines the content of the arrays. -/
theorem value_injective {o : Object} {m m' : Memory} {p : Position} (h : o.value m = some p)
    (h' : o.value m' = some p) : ∀ a ∈ o.arrays, content m a = content m' a := by
  suffices content m o.time = content m' o.time ∧
      o.components.map (content m) = o.components.map (content m') by
    intro a ha
    rcases List.mem_cons.mp ha with rfl | ha
    · exact this.1
    · exact List.map_inj_left.mp this.2 a ha
  obtain ⟨f, u, u2, l, t, cs⟩ := o
  have length3 : ∀ {n : Memory} {x y z : List (Option ℝ)}, cs.map (content n) = [x, y, z] →
      ∃ a b c, cs = [a, b, c] := by
    intro n x y z e
    match cs, e with
    | [a, b, c], _ => exact ⟨a, b, c, rfl⟩
  have length2 : ∀ {n : Memory} {x y : List (Option ℝ)}, cs.map (content n) = [x, y] →
      ∃ a b, cs = [a, b] := by
    intro n x y e
    match cs, e with
    | [a, b], _ => exact ⟨a, b, rfl⟩
  unfold Object.value at h h'
  simp only at h h' ⊢
  cases f
  case azel =>
    cases l with
    | none => simp at h
    | some l =>
      by_cases hc : ∃ a b, cs = [a, b]
      · obtain ⟨a, b, rfl⟩ := hc
        simp only [List.map_cons, List.map_nil, Option.map_eq_some_iff] at h h' ⊢
        obtain ⟨s, hs, rfl⟩ := h
        obtain ⟨s', hs', e⟩ := h'
        cases e
        obtain ⟨h1, h2, h3⟩ := rowsAzEl_some hs
        obtain ⟨k1, k2, k3⟩ := rowsAzEl_some hs'
        rw [h1, h2, h3, k1, k2, k3]
        simp
      · exfalso
        revert h
        split <;> simp_all
  case wgs84 =>
    by_cases hc : ∃ a b c, cs = [a, b, c]
    · obtain ⟨a, b, c, rfl⟩ := hc
      simp only [List.map_cons, List.map_nil, Option.map_eq_some_iff] at h h' ⊢
      obtain ⟨s, hs, rfl⟩ := h
      obtain ⟨s', hs', e⟩ := h'
      cases e
      obtain ⟨h1, h2, h3, h4⟩ := rowsGeo_some hs
      obtain ⟨k1, k2, k3, k4⟩ := rowsGeo_some hs'
      rw [h1, h2, h3, h4, k1, k2, k3, k4]
      simp
    · exfalso
      revert h
      split <;> simp_all
  all_goals
    by_cases hc : ∃ a b c, cs = [a, b, c]
    · obtain ⟨a, b, c, rfl⟩ := hc
      simp only [List.map_cons, List.map_nil, Option.map_eq_some_iff] at h h' ⊢
      obtain ⟨s, hs, rfl⟩ := h
      obtain ⟨s', hs', e⟩ := h'
      cases e
      obtain ⟨h1, h2, h3, h4⟩ := rows3_some hs
      obtain ⟨k1, k2, k3, k4⟩ := rows3_some hs'
      rw [h1, h2, h3, h4, k1, k2, k3, k4]
      simp
    · exfalso
      revert h
      split <;> simp_all

theorem value_frame {o : Object} {m : Memory} {p : Position} (h : o.value m = some p) :
    p.frame = o.frame := by
  unfold Object.value at h
  split at h <;> simp_all [Option.map_eq_some_iff] <;>
    (obtain ⟨s, -, rfl⟩ := h; rfl)

/-! ### What conversions allocate -/

/-- The arrays of `o` are new: not among those of the memory `m`, but existing in `m'`. -/
def New (m m' : Memory) (o : Object) : Prop := ∀ a ∈ o.arrays, m.length ≤ a ∧ a < m'.length

theorem deepcopy_prefix (o : Object) (m : Memory) : m <+: (deepcopy o m).2 := by
  simp [deepcopy, alloc]

theorem deepcopy_new (o : Object) (m : Memory) : New m (deepcopy o m).2 (deepcopy o m).1 := by
  intro a ha
  simp only [deepcopy, alloc, Object.arrays, List.mem_cons, List.mem_range'] at ha ⊢
  simp only [List.length_append, List.length_map, List.length_cons, List.length_nil] at ha ⊢
  rcases ha with rfl | ⟨i, hi, rfl⟩
  · simp only [List.range', List.headD]
    omega
  · omega

theorem deepcopy_value (o : Object) (m : Memory) :
    (deepcopy o m).1.value (deepcopy o m).2 = o.value m := by
  have e1 : content (deepcopy o m).2 (deepcopy o m).1.time = content m o.time := by
    simp only [deepcopy, alloc, List.length_cons, List.length_nil, List.range',
      List.headD, List.append_assoc, List.cons_append, List.nil_append]
    exact content_new _ _ _
  have e2 : (deepcopy o m).1.components.map (content (deepcopy o m).2) =
      o.components.map (content m) := by
    have := map_content_range' (m ++ [content m o.time])
      (o.components.map (content (m))) []
    simpa [deepcopy, alloc] using this
  unfold Object.value
  rw [e1, e2]
  rfl

theorem withCoordinates_prefix (b : Object) (f : FrameName) (c : Cartesian) (m : Memory) :
    m <+: (withCoordinates b f c m).2 := by
  simp [withCoordinates, alloc]

theorem withCoordinates_content {b : Object} (f : FrameName) (c : Cartesian) {m : Memory}
    (hb : b.time < m.length) :
    content (withCoordinates b f c m).2 (withCoordinates b f c m).1.time = content m b.time ∧
    (withCoordinates b f c m).1.components.map (content (withCoordinates b f c m).2) =
      (columns3 c.samples).2 := by
  refine ⟨content_append hb _, ?_⟩
  have := map_content_range' m (columns3 c.samples).2 []
  simpa [withCoordinates, alloc] using this

theorem withCoordinates_components (b : Object) (f : FrameName) (c : Cartesian) (m : Memory) :
    ∀ a ∈ (withCoordinates b f c m).1.components,
      m.length ≤ a ∧ a < (withCoordinates b f c m).2.length := by
  intro a ha
  simp only [withCoordinates, alloc, List.mem_range', columns3, List.length_append,
    List.length_cons, List.length_nil] at ha ⊢
  obtain ⟨i, hi, rfl⟩ := ha
  omega

theorem newObject_prefix (f : FrameName) (u u2 : ℝ) (l : Option Ground)
    (cols : List (Option ℝ) × List (List (Option ℝ))) (m : Memory) :
    m <+: (newObject f u u2 l cols m).2 := by
  simp [newObject, alloc]

theorem newObject_new (f : FrameName) (u u2 : ℝ) (l : Option Ground)
    (cols : List (Option ℝ) × List (List (Option ℝ))) (m : Memory) :
    New m (newObject f u u2 l cols m).2 (newObject f u u2 l cols m).1 := by
  intro a ha
  simp only [newObject, alloc, Object.arrays, List.mem_cons, List.mem_range'] at ha ⊢
  simp only [List.length_append, List.length_cons, List.length_nil] at ha ⊢
  rcases ha with rfl | ⟨i, hi, rfl⟩
  · simp only [List.range', List.headD]
    omega
  · omega

theorem newObject_content (f : FrameName) (u u2 : ℝ) (l : Option Ground)
    (cols : List (Option ℝ) × List (List (Option ℝ))) (m : Memory) :
    content (newObject f u u2 l cols m).2 (newObject f u u2 l cols m).1.time = cols.1 ∧
    (newObject f u u2 l cols m).1.components.map (content (newObject f u u2 l cols m).2) =
      cols.2 := by
  constructor
  · simpa [newObject, alloc, List.range', List.headD] using content_new m cols.1 cols.2
  · simpa [newObject, alloc] using map_content_range' (m ++ [cols.1]) cols.2 []

theorem build_prefix (p : Position) (m : Memory) : m <+: (build p m).2 := by
  cases p <;> exact newObject_prefix _ _ _ _ _ _

theorem build_new (p : Position) (m : Memory) : New m (build p m).2 (build p m).1 := by
  cases p <;> exact newObject_new _ _ _ _ _ _

theorem build_value (p : Position) (m : Memory) : (build p m).1.value (build p m).2 = some p := by
  cases p <;> simp only [build] <;> unfold Object.value <;>
    rw [(newObject_content _ _ _ _ _ _).1, (newObject_content _ _ _ _ _ _).2] <;>
    simp [newObject, columns3, rows3_columns3, rowsGeo_columns, rowsAzEl_columns]

theorem withCoordinates_value {b : Object} (f : FrameName) {c : Cartesian} {m : Memory}
    (hb : b.time < m.length) (ht : content m b.time = c.samples.map fun r => some r.1) :
    (f = .itrs → (withCoordinates b f c m).1.value (withCoordinates b f c m).2 =
      some (.itrs c)) ∧
    (f = .gcrs → (withCoordinates b f c m).1.value (withCoordinates b f c m).2 =
      some (.gcrs c)) := by
  constructor <;> rintro rfl <;> unfold Object.value <;>
    rw [(withCoordinates_content _ c hb).1, (withCoordinates_content _ c hb).2, ht] <;>
    simp [withCoordinates, columns3, rows3_columns3]

/-- A result uses new arrays only. -/
def Fresh (m : Memory) (r : Result × Memory) : Prop :=
  m <+: r.2 ∧ ∀ o, r.1 = .object o → New m r.2 o

/-- The outcome of a conversion of values is what the conversion of objects shows. -/
def Shows (r : Result × Memory) : Outcome → Prop
  | .returned p => ∃ o, r.1 = .object o ∧ o.value r.2 = some p
  | .notImplemented => r.1 = .notImplemented
  | .raised e => r.1 = .raised e
  | .diverges => r.1 = .diverges

theorem New.mono {m m' m'' : Memory} {o : Object} (h : New m m' o) (hp : m' <+: m'') :
    New m m'' o := fun a ha => ⟨(h a ha).1, (h a ha).2.trans_le hp.length_le⟩

theorem New.weaken {m m' m'' : Memory} {o : Object} (h : New m' m'' o) (hp : m <+: m') :
    New m m'' o := fun a ha => ⟨hp.length_le.trans (h a ha).1, (h a ha).2⟩

theorem fresh_none {m : Memory} {r : Result} (h : ∀ o, r ≠ .object o) : Fresh m (r, m) :=
  ⟨List.prefix_refl m, fun o e => absurd e (h o)⟩

theorem deep_with_new (o : Object) (m : Memory) (f : FrameName) (c : Cartesian) :
    m <+: (withCoordinates (deepcopy o m).1 f c (deepcopy o m).2).2 ∧
    New m (withCoordinates (deepcopy o m).1 f c (deepcopy o m).2).2
      (withCoordinates (deepcopy o m).1 f c (deepcopy o m).2).1 := by
  have hp := deepcopy_prefix o m
  have hw := withCoordinates_prefix (deepcopy o m).1 f c (deepcopy o m).2
  refine ⟨hp.trans hw, ?_⟩
  intro a ha
  rcases List.mem_cons.mp ha with rfl | ha
  · have := deepcopy_new o m (deepcopy o m).1.time (by simp [Object.arrays])
    exact ⟨this.1, this.2.trans_le hw.length_le⟩
  · have := withCoordinates_components _ _ _ _ a ha
    exact ⟨hp.length_le.trans this.1, this.2⟩

theorem gcrsToItrsM_fresh (o : Object) (m : Memory) : Fresh m (gcrsToItrsM o m) := by
  unfold gcrsToItrsM
  simp only
  split
  · refine ⟨(deep_with_new o m .itrs _).1, ?_⟩
    rintro _ ⟨⟩
    exact (deep_with_new o m .itrs _).2
  · exact fresh_none (by simp)

theorem itrsToGcrsM_fresh (o : Object) (m : Memory) : Fresh m (itrsToGcrsM o m) := by
  unfold itrsToGcrsM
  simp only
  split
  · refine ⟨(deep_with_new o m .gcrs _).1, ?_⟩
    rintro _ ⟨⟩
    exact (deep_with_new o m .gcrs _).2
  · exact fresh_none (by simp)

theorem fresh_build (p : Position) (m : Memory) :
    Fresh m (.object (build p m).1, (build p m).2) := by
  refine ⟨build_prefix p m, ?_⟩
  rintro _ ⟨⟩
  exact build_new p m

theorem itrsToWgs84M_fresh (o : Object) (m : Memory) : Fresh m (itrsToWgs84M o m) := by
  unfold itrsToWgs84M
  split
  · split
    · exact fresh_build _ _
    all_goals exact fresh_none (by simp)
  · exact fresh_none (by simp)

theorem wgs84ToItrsM_fresh (o : Object) (m : Memory) : Fresh m (wgs84ToItrsM o m) := by
  unfold wgs84ToItrsM
  split
  · exact fresh_build _ _
  · exact fresh_none (by simp)

theorem itrsToAzelM_fresh (l : Ground) (o : Object) (m : Memory) :
    Fresh m (itrsToAzelM l o m) := by
  unfold itrsToAzelM
  split
  · exact fresh_build _ _
  · exact fresh_none (by simp)

theorem followedBy_fresh {m : Memory} {r : Result × Memory}
    {f : Object → Memory → Result × Memory} (h : Fresh m r)
    (hf : ∀ o, r.1 = .object o → Fresh m (f o r.2)) : Fresh m (followedBy r f) := by
  unfold followedBy
  split
  · rename_i o e
    exact hf o e
  · exact h

theorem Fresh.weaken {m m' : Memory} {r : Result × Memory} (h : Fresh m' r) (hp : m <+: m') :
    Fresh m r := ⟨hp.trans h.1, fun o e => (h.2 o e).weaken hp⟩

theorem fresh_object {m m' : Memory} {o : Object} (hp : m <+: m') (h : New m m' o) :
    Fresh m (.object o, m') := by
  refine ⟨hp, ?_⟩
  rintro _ ⟨⟩
  exact h

/-- A conversion to another frame gives an object with new arrays. -/
theorem convertM_fresh {o : Object} {frame : FrameName} (location : Option Ground) (m : Memory)
    (h : o.frame ≠ frame) : Fresh m (convertM o frame location m) := by
  unfold convertM
  by_cases hc : o.frame ≠ .itrs ∧ o.frame ≠ .gcrs ∧ o.frame ≠ .wgs84
  · rw [if_pos hc]
    exact fresh_none (by simp)
  rw [if_neg hc, if_neg h]
  have stop : ∀ {m' : Memory}, m <+: m' → ∀ r : Result, (∀ o, r ≠ .object o) → Fresh m (r, m') :=
    fun hp r hr => (fresh_none hr).weaken hp
  split
  · refine followedBy_fresh (gcrsToItrsM_fresh o m) fun o' e => ?_
    have hp := (gcrsToItrsM_fresh o m).1
    have hn := (gcrsToItrsM_fresh o m).2 o' e
    split
    · exact fresh_object hp hn
    · exact (itrsToWgs84M_fresh _ _).weaken hp
    · split
      · exact stop hp _ (by simp)
      · exact (itrsToAzelM_fresh _ _ _).weaken hp
    · exact stop hp _ (by simp)
  · unfold convertFromItrsM
    split
    · exact itrsToGcrsM_fresh o m
    · exact itrsToWgs84M_fresh o m
    · split
      · exact fresh_none (by simp)
      · exact itrsToAzelM_fresh _ o m
    · exact fresh_none (by simp)
  · refine followedBy_fresh (wgs84ToItrsM_fresh o m) fun o' e => ?_
    have hp := (wgs84ToItrsM_fresh o m).1
    have hn := (wgs84ToItrsM_fresh o m).2 o' e
    split
    · exact fresh_object hp hn
    · exact (itrsToGcrsM_fresh _ _).weaken hp
    · split
      · exact stop hp _ (by simp)
      · exact (itrsToAzelM_fresh _ _ _).weaken hp
    · exact stop hp _ (by simp)
  · exact fresh_none (by simp)

/-! ### What conversions show -/

theorem gcrsToItrsM_shows {o : Object} {m : Memory} {c : Cartesian}
    (h : o.value m = some (.gcrs c)) :
    Shows (gcrsToItrsM o m) (.returned (.itrs (gcrsToItrs c))) := by
  have hv := deepcopy_value o m
  unfold gcrsToItrsM
  simp only [hv, h]
  refine ⟨_, rfl, ?_⟩
  have hb := deepcopy_new o m (deepcopy o m).1.time (by simp [Object.arrays])
  refine (withCoordinates_value _ hb.2 ?_).1 rfl
  have hd := hv.trans h
  have hf : (deepcopy o m).1.frame = .gcrs := (value_frame hd).symm
  unfold Object.value at hd
  rw [hf] at hd
  split at hd <;> simp_all [Option.map_eq_some_iff]
  obtain ⟨s, hs, rfl⟩ := hd
  rw [(rows3_some hs).1]
  simp [gcrsToItrs]

theorem itrsToGcrsM_shows {o : Object} {m : Memory} {c : Cartesian}
    (h : o.value m = some (.itrs c)) :
    Shows (itrsToGcrsM o m) (.returned (.gcrs (itrsToGcrs c))) := by
  have hv := deepcopy_value o m
  unfold itrsToGcrsM
  simp only [hv, h]
  refine ⟨_, rfl, ?_⟩
  have hb := deepcopy_new o m (deepcopy o m).1.time (by simp [Object.arrays])
  refine (withCoordinates_value _ hb.2 ?_).2 rfl
  have hd := hv.trans h
  have hf : (deepcopy o m).1.frame = .itrs := (value_frame hd).symm
  unfold Object.value at hd
  rw [hf] at hd
  split at hd <;> simp_all [Option.map_eq_some_iff]
  obtain ⟨s, hs, rfl⟩ := hd
  rw [(rows3_some hs).1]
  simp [itrsToGcrs]

theorem shows_build (p : Position) (m : Memory) :
    Shows (.object (build p m).1, (build p m).2) (.returned p) := ⟨_, rfl, build_value p m⟩

theorem itrsToWgs84M_shows {o : Object} {m : Memory} {c : Cartesian}
    (h : o.value m = some (.itrs c)) : Shows (itrsToWgs84M o m) (itrsToWgs84 c) := by
  unfold itrsToWgs84M
  simp only [h]
  split <;> rename_i e
  · rw [e]
    exact shows_build _ _
  all_goals
    rw [e]
    rfl

theorem itrsToAzelM_shows {o : Object} {m : Memory} {c : Cartesian} (l : Ground)
    (h : o.value m = some (.itrs c)) : Shows (itrsToAzelM l o m) (.returned (itrsToAzel c l)) := by
  unfold itrsToAzelM
  simp only [h]
  exact shows_build _ _

theorem wgs84ToItrsM_shows {o : Object} {m : Memory} {w : Geographic}
    (h : o.value m = some (.wgs84 w)) :
    Shows (wgs84ToItrsM o m) (.returned (.itrs (wgs84ToItrs w))) := by
  unfold wgs84ToItrsM
  simp only [h]
  exact shows_build _ _

theorem followedBy_shows {r : Result × Memory} {p : Position}
    {f : Object → Memory → Result × Memory} {out : Outcome} (h : Shows r (.returned p))
    (hf : ∀ o, o.value r.2 = some p → Shows (f o r.2) out) : Shows (followedBy r f) out := by
  obtain ⟨o, e, hv⟩ := h
  unfold followedBy
  rw [e]
  exact hf o hv

theorem convertM_shows {o : Object} {m : Memory} {p : Position} (h : o.value m = some p)
    (frame : FrameName) (location : Option Ground) :
    Shows (convertM o frame location m) (convert p frame location) := by
  have hf := value_frame h
  unfold convertM convert coordinateInit
  by_cases hc : p.frame = .itrs ∨ p.frame = .gcrs ∨ p.frame = .wgs84
  swap
  · rw [if_neg hc, if_pos (by rw [← hf]; tauto)]
    rfl
  rw [if_pos hc, if_neg (by rw [← hf]; tauto)]
  simp only [convertTo]
  by_cases he : p.frame = frame
  · rw [if_pos he, if_pos (hf ▸ he)]
    exact ⟨o, rfl, h⟩
  rw [if_neg he, if_neg (hf ▸ he), ← hf]
  cases p with
  | gcrs c =>
    refine followedBy_shows (gcrsToItrsM_shows h) fun o' hv => ?_
    cases frame
    case itrs => exact ⟨o', rfl, hv⟩
    case wgs84 => exact itrsToWgs84M_shows hv
    case azel =>
      cases location
      · rfl
      · exact itrsToAzelM_shows _ hv
    all_goals rfl
  | itrs c =>
    cases frame
    case gcrs => exact itrsToGcrsM_shows h
    case wgs84 => exact itrsToWgs84M_shows h
    case azel =>
      cases location
      · rfl
      · exact itrsToAzelM_shows _ h
    all_goals rfl
  | wgs84 w =>
    refine followedBy_shows (wgs84ToItrsM_shows h) fun o' hv => ?_
    cases frame
    case itrs => exact ⟨o', rfl, hv⟩
    case gcrs => exact itrsToGcrsM_shows hv
    case azel =>
      cases location
      · rfl
      · exact itrsToAzelM_shows _ hv
    all_goals rfl
  | _ => simp [Position.frame] at hc

end Celest.Frames
