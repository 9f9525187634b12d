/-
C97, C98: what operations on quantities do to arrays in memory.
-/
import Verif.Units.Memory
import Verif.Tactic

namespace Celest.Units

open Celest.Text (Str fmtFixed)

/-! ### Specification -/

/-- What a user sees when they look at the data of a quantity. -/
inductive Value
  | number (x : ℚ)
  | array (xs : List ℚ)
deriving DecidableEq

/-- The data of a quantity as seen in the memory `m`. -/
def Ref.value (m : Memory) : Ref → Option Value
  | .number _ x => some (.number x)
  | .array p => m[p]?.map fun a => .array a.data

/-- Data and unit of quantity number `i` of a session. -/
def Session.value (s : Session) (i : ℕ) : Option (Value × BUnit) :=
  s.quantities[i]?.bind fun q => (q.data.value s.memory).map fun v => (v, q.unit)

/-- The step does not assign to an element of an array. -/
def Step.NoAssignment : Step → Prop
  | .assign _ _ _ => False
  | _ => True

/-- If the step assigns to an element of an array, then not of the one at `p`. -/
def Step.Spares (p : ℕ) : Step → Prop
  | .assign p' _ _ => p' ≠ p
  | _ => True

/-- If the step assigns to an element of an array, then of one with an address below `n`. -/
def Step.AssignsBelow (n : ℕ) : Step → Prop
  | .assign p _ _ => p < n
  | _ => True

/-! ### Computations only add arrays -/

/-- The computation leaves all arrays as they are, and may create some. -/
def Extends {α : Type} (r : Run α) : Prop := ∀ m, m <+: (r m).2

/-- The computation leaves all arrays as they are, and if it succeeds the data of its result are a
number or an array it created. -/
def Fresh {α : Type} (data : α → Ref) (r : Run α) : Prop :=
  ∀ m, m <+: (r m).2 ∧ ∀ a, (r m).1 = .ok a → ∀ p, data a = .array p →
    m.length ≤ p ∧ p < (r m).2.length

theorem Fresh.extends {α : Type} {data : α → Ref} {r : Run α} (h : Fresh data r) : Extends r :=
  fun m => (h m).1

theorem extends_pure {α : Type} (a : α) : Extends (pure a : Run α) := fun _ => List.prefix_rfl

theorem extends_raise {α : Type} (e : PyErr) : Extends (Run.raise e : Run α) :=
  fun _ => List.prefix_rfl

theorem extends_lift {α : Type} (p : Py α) : Extends (Run.lift p) := fun _ => List.prefix_rfl

theorem extends_read (p : ℕ) : Extends (readArray p) := by
  intro m
  unfold readArray
  split <;> exact List.prefix_rfl

theorem extends_new (a : Arr) : Extends (newArray a) := fun m => List.prefix_append m [a]

theorem extends_bind {α β : Type} {r : Run α} {f : α → Run β} (hr : Extends r)
    (hf : ∀ a, Extends (f a)) : Extends (r >>= f) := by
  intro m
  have h1 := hr m
  change m <+: (Run.andThen r f m).2
  unfold Run.andThen
  rcases h : r m with ⟨a | a, m'⟩
  · rw [h] at h1; exact h1
  · rw [h] at h1; exact h1.trans (hf a m')

theorem fresh_bind {α β : Type} {data : β → Ref} {r : Run α} {f : α → Run β} (hr : Extends r)
    (hf : ∀ a, Fresh data (f a)) : Fresh data (r >>= f) := by
  intro m
  have h1 := hr m
  change m <+: (Run.andThen r f m).2 ∧ ∀ a, (Run.andThen r f m).1 = .ok a → ∀ p, data a = .array p →
    m.length ≤ p ∧ p < (Run.andThen r f m).2.length
  unfold Run.andThen
  rcases h : r m with ⟨a | a, m'⟩
  · rw [h] at h1
    exact ⟨h1, fun a ha => by cases ha⟩
  · rw [h] at h1
    refine ⟨h1.trans (hf a m').1, fun b hb p hp => ?_⟩
    obtain ⟨h2, h3⟩ := (hf a m').2 b hb p hp
    exact ⟨h1.length_le.trans h2, h3⟩

theorem fresh_raise {α : Type} (data : α → Ref) (e : PyErr) : Fresh data (Run.raise e) :=
  fun _ => ⟨List.prefix_rfl, fun _ h => by cases h⟩

/-- Repackaging a fresh result. -/
theorem fresh_map {α β : Type} {data : α → Ref} {data' : β → Ref} {r : Run α} {f : α → β}
    (hr : Fresh data r) (hf : ∀ a, data' (f a) = data a) :
    Fresh data' (r >>= fun a => pure (f a)) := by
  intro m
  have h1 := hr m
  change m <+: (Run.andThen r (fun a => Run.done (f a)) m).2 ∧
    ∀ a, (Run.andThen r (fun a => Run.done (f a)) m).1 = .ok a → ∀ p, data' a = .array p →
    m.length ≤ p ∧ p < (Run.andThen r (fun a => Run.done (f a)) m).2.length
  unfold Run.andThen
  rcases h : r m with ⟨a | a, m'⟩
  · rw [h] at h1
    exact ⟨h1.1, fun a ha => by cases ha⟩
  · rw [h] at h1
    refine ⟨h1.1, fun b hb p hp => ?_⟩
    obtain rfl : f a = b := Except.ok.inj hb
    exact h1.2 a rfl p ((hf a).symm.trans hp)

theorem fresh_number (i : Bool) (x : ℚ) : Fresh id (pure (.number i x) : Run Ref) :=
  fun _ => ⟨List.prefix_rfl, fun a h p hp => by
    obtain rfl : Ref.number i x = a := Except.ok.inj h
    cases hp⟩

theorem fresh_new (a : Arr) : Fresh id (newArray a >>= fun p => pure (.array p)) := by
  intro m
  refine ⟨List.prefix_append m [a], fun b hb p hp => ?_⟩
  obtain rfl : Ref.array m.length = b := Except.ok.inj hb
  cases hp
  exact ⟨le_rfl, by show _ < (m ++ [a]).length; simp⟩

theorem fresh_copy (d : Ref) : Fresh id (copyData d) := by
  cases d with
  | number i x => exact fresh_number i x
  | array p => exact fresh_bind (extends_read p) fun a => fresh_new a

theorem fresh_binary (float : Bool) (scalar : ℚ → ℚ → Py ℚ) (f : ℚ → ℚ → ℚ) (d e : Ref) :
    Fresh id (binary float scalar f d e) := by
  cases d with
  | number i x =>
    cases e with
    | number j y => exact fresh_bind (extends_lift _) fun z => fresh_number _ _
    | array p => exact fresh_bind (extends_read p) fun a => fresh_new _
  | array p =>
    cases e with
    | number j y => exact fresh_bind (extends_read p) fun a => fresh_new _
    | array p' =>
      exact fresh_bind (extends_read p) fun a => fresh_bind (extends_read p') fun b =>
        fresh_bind (extends_lift _) fun zs => fresh_new _

/-- Copying and scaling the copy in place: the array that is written to is the new one. -/
theorem copy_scale (k : ℚ) (d : Ref) :
    Fresh id (copyData d >>= fun c => scaleData k c) := by
  cases d with
  | number i x =>
    exact fun m => ⟨List.prefix_rfl, fun a h p hp => by
      obtain rfl : Ref.number false (x * k) = a := Except.ok.inj h
      cases hp⟩
  | array p =>
    intro m
    change m <+: (Run.andThen (copyData (.array p)) (fun c => scaleData k c) m).2 ∧
      ∀ a, (Run.andThen (copyData (.array p)) (fun c => scaleData k c) m).1 = .ok a →
      ∀ q, a = .array q → m.length ≤ q ∧
        q < (Run.andThen (copyData (.array p)) (fun c => scaleData k c) m).2.length
    rcases hp : m[p]? with _ | a
    · have : Run.andThen (copyData (.array p)) (fun c => scaleData k c) m = (.error .exception, m) := by
        simp [Run.andThen, copyData, readArray, bind, hp]
      rw [this]
      exact ⟨List.prefix_rfl, fun _ h => by cases h⟩
    · have hc : copyData (.array p) m = (.ok (.array m.length), m ++ [a]) := by
        simp [Run.andThen, copyData, readArray, newArray, bind, pure, Run.done, hp]
      cases hi : a.ints with
      | true =>
        have : Run.andThen (copyData (.array p)) (fun c => scaleData k c) m =
            (.error .typeError, m ++ [a]) := by
          unfold Run.andThen
          rw [hc]
          simp [scaleData, readArray, bind, Run.andThen, hi, Run.raise]
        rw [this]
        exact ⟨List.prefix_append _ _, fun _ h => by cases h⟩
      | false =>
        have : Run.andThen (copyData (.array p)) (fun c => scaleData k c) m =
            (.ok (.array m.length), m ++ [⟨false, a.data.map (· * k)⟩]) := by
          unfold Run.andThen
          rw [hc]
          simp [scaleData, readArray, writeArray, bind, pure, Run.andThen, hi, Run.done]
        rw [this]
        refine ⟨List.prefix_append _ _, fun b h q hq => ?_⟩
        obtain rfl : Ref.array m.length = b := Except.ok.inj h
        cases hq
        simp

theorem bind_assoc_run {α β γ : Type} (r : Run α) (f : α → Run β) (g : β → Run γ) :
    (r >>= f) >>= g = r >>= fun a => f a >>= g := by
  funext m
  change Run.andThen (Run.andThen r f) g m = Run.andThen r (fun a => Run.andThen (f a) g) m
  unfold Run.andThen
  rcases r m with ⟨a | a, m'⟩ <;> rfl

theorem fresh_convertTo (fs : ℚ → Str) (ρ : ℕ → ℕ) (q : MQuantity) (v : BUnit) :
    Fresh MQuantity.data (q.convertTo fs ρ v) := by
  unfold MQuantity.convertTo
  refine fresh_bind (extends_lift _) fun d => fresh_bind (extends_lift _) fun d' => ?_
  split
  · exact fresh_raise _ _
  by_cases hr : q.unit.repr fs ≠ v.repr fs
  · by_cases h0 : unitScale v = 0
    · simp only [if_pos hr, if_pos h0]
      exact fresh_bind (fresh_copy _).extends fun _ => fresh_raise _ _
    · simp only [if_pos hr, if_neg h0]
      rw [← bind_assoc_run]
      exact fresh_map (copy_scale _ _) fun _ => rfl
  · simp only [if_neg hr]
    exact fresh_map (fresh_copy _) fun _ => rfl

theorem fresh_to (fs : ℚ → Str) (q : MQuantity) (v : BUnit) : Fresh id (q.to fs v) :=
  fresh_map (fresh_convertTo fs id q v) fun _ => rfl

theorem fresh_neg (q : MQuantity) : Fresh MQuantity.data q.neg := by
  refine fresh_map (data := id) ?_ fun _ => rfl
  cases q.data with
  | number i x => exact fresh_number _ _
  | array p => exact fresh_bind (extends_read p) fun a => fresh_new _

theorem fresh_binary_unit (float : Bool) (scalar : ℚ → ℚ → Py ℚ) (f : ℚ → ℚ → ℚ) (d e : Ref)
    (u : BUnit) :
    Fresh MQuantity.data (binary float scalar f d e >>= fun z => pure ⟨z, u⟩) :=
  fresh_map (fresh_binary float scalar f d e) fun _ => rfl

theorem fresh_add (fs : ℚ → Str) (q : MQuantity) (a : MArg) : Fresh MQuantity.data (q.add fs a) := by
  cases a with
  | number i x => exact fresh_binary_unit _ _ _ _ _ _
  | quantity r =>
    refine fresh_bind (extends_lift _) fun same => ?_
    cases same
    · exact fresh_raise _ _
    · exact fresh_bind (fresh_to fs r q.unit).extends fun y => fresh_binary_unit _ _ _ _ _ _
  | other => exact fresh_raise _ _

theorem extends_argNeg (a : MArg) : Extends a.neg := by
  cases a with
  | number i x => exact extends_pure _
  | quantity q => exact extends_bind (fresh_neg q).extends fun _ => extends_pure _
  | other => exact extends_raise _

theorem fresh_sub (fs : ℚ → Str) (q : MQuantity) (a : MArg) : Fresh MQuantity.data (q.sub fs a) :=
  fresh_bind (extends_argNeg a) fun a' => fresh_add fs q a'

theorem fresh_rsub (fs : ℚ → Str) (q : MQuantity) (a : MArg) : Fresh MQuantity.data (q.rsub fs a) :=
  fresh_bind (fresh_sub fs q a).extends fun r => fresh_neg r

theorem fresh_mul (fs : ℚ → Str) (q : MQuantity) (a : MArg) : Fresh MQuantity.data (q.mul fs a) := by
  cases a with
  | number i x => exact fresh_binary_unit _ _ _ _ _ _
  | quantity r =>
    refine fresh_bind (extends_lift _) fun same => ?_
    cases same
    · exact fresh_binary_unit _ _ _ _ _ _
    · exact fresh_bind (fresh_to fs r q.unit).extends fun y => fresh_binary_unit _ _ _ _ _ _
  | other => exact fresh_raise _ _

theorem fresh_div (fs : ℚ → Str) (quo : ℚ → ℚ → ℚ) (q : MQuantity) (a : MArg) :
    Fresh MQuantity.data (q.div fs quo a) := by
  cases a with
  | number i x => exact fresh_binary_unit _ _ _ _ _ _
  | quantity r =>
    refine fresh_bind (extends_lift _) fun same => ?_
    cases same
    · exact fresh_binary_unit _ _ _ _ _ _
    · exact fresh_bind (fresh_to fs r q.unit).extends fun y => fresh_binary_unit _ _ _ _ _ _
  | other => exact fresh_raise _ _

theorem fresh_rdiv (fs : ℚ → Str) (quo : ℚ → ℚ → ℚ) (q : MQuantity) (a : MArg) :
    Fresh MQuantity.data (q.rdiv fs quo a) := by
  cases a with
  | number i x => exact fresh_binary_unit _ _ _ _ _ _
  | quantity r =>
    refine fresh_bind (extends_lift _) fun same => ?_
    cases same
    · exact fresh_binary_unit _ _ _ _ _ _
    · exact fresh_bind (fresh_to fs r q.unit).extends fun y => fresh_binary_unit _ _ _ _ _ _
  | other => exact fresh_raise _ _

theorem extends_compare (fs : ℚ → Str) (test : ℚ → ℚ → Bool) (q r : MQuantity) :
    Extends (q.compare fs test r) := by
  refine extends_bind (extends_lift _) fun same => ?_
  cases same
  · exact extends_raise _
  · refine extends_bind (fresh_to fs r q.unit).extends fun y => ?_
    cases q.data with
    | number i x =>
      cases y with
      | number j y => exact extends_pure _
      | array p => exact extends_bind (extends_read p) fun _ => extends_pure _
    | array p =>
      cases y with
      | number j y => exact extends_bind (extends_read p) fun _ => extends_pure _
      | array p' =>
        refine extends_bind (extends_read p) fun a => extends_bind (extends_read p') fun b => ?_
        split
        · exact extends_pure _
        · split
          · exact extends_pure _
          · exact extends_pure _
          · exact extends_raise _

theorem fresh_operation (fs : ℚ → Str) (quo : ℚ → ℚ → ℚ) (qs : List MQuantity) (o : Operation)
    (r : Run MQuantity) (h : o.run fs quo qs = some r) : Fresh MQuantity.data r := by
  have second : ∀ (i : ℕ) (b : Second) (op : MQuantity → MArg → Run MQuantity),
      (∀ q a, Fresh MQuantity.data (op q a)) →
      (do return op (← qs[i]?) (← b.get qs) : Option (Run MQuantity)) = some r →
      Fresh MQuantity.data r := by
    intro i b op hop h
    rcases hq : qs[i]? with _ | q
    · simp [hq] at h
    · rcases hb : b.get qs with _ | a
      · simp [hq, hb] at h
      · simp only [hq, hb, Option.pure_def, Option.bind_eq_bind, Option.bind_some,
          Option.some.injEq] at h
        exact h ▸ hop q a
  cases o with
  | neg i =>
    rcases hq : qs[i]? with _ | q
    · simp [Operation.run, hq] at h
    · simp only [Operation.run, hq, Option.map_some, Option.some.injEq] at h
      exact h ▸ fresh_neg q
  | add i b => exact second i b _ (fresh_add fs) h
  | sub i b => exact second i b _ (fresh_sub fs) h
  | rsub i b => exact second i b _ (fresh_rsub fs) h
  | mul i b => exact second i b _ (fresh_mul fs) h
  | div i b => exact second i b _ (fresh_div fs quo) h
  | rdiv i b => exact second i b _ (fresh_rdiv fs quo) h
  | convert i v ρ =>
    rcases hq : qs[i]? with _ | q
    · simp [Operation.run, hq] at h
    · simp only [Operation.run, hq, Option.map_some, Option.some.injEq] at h
      exact h ▸ fresh_convertTo fs ρ q v

/-! ### Sessions -/

/-- All quantities refer to arrays that exist. -/
def Session.WellFormed (s : Session) : Prop :=
  ∀ q ∈ s.quantities, ∀ p, q.data = .array p → p < s.memory.length

/-- What one step does: quantities are kept, the number of arrays does not shrink, an array keeps
its contents unless the step assigns to it, and an added quantity is a constructed one or holds a
number or a new array. -/
theorem step_effect (fs : ℚ → Str) (quo : ℚ → ℚ → ℚ) (s : Session) (st : Step) :
    s.quantities <+: (s.step fs quo st).quantities ∧
    s.memory.length ≤ (s.step fs quo st).memory.length ∧
    (∀ p, p < s.memory.length → st.Spares p →
      (s.step fs quo st).memory[p]? = s.memory[p]?) ∧
    (s.WellFormed → (s.step fs quo st).WellFormed) := by
  have grow : ∀ (m : Memory) (p : ℕ), s.memory <+: m → p < s.memory.length →
      m[p]? = s.memory[p]? := by
    intro m p h hp
    obtain ⟨t, rfl⟩ := h
    rw [List.getElem?_append_left hp]
  cases st with
  | array a =>
    refine ⟨List.prefix_rfl, by simp [Session.step],
      fun p hp _ => grow _ p (List.prefix_append _ _) hp, fun hw q hq p hp => ?_⟩
    exact (hw q hq p hp).trans_le (by simp [Session.step])
  | construct d u =>
    cases d with
    | number i x =>
      refine ⟨List.prefix_append _ _, le_rfl, fun _ _ _ => by trivial, fun hw q hq p hp => ?_⟩
      rcases List.mem_append.1 hq with hq | hq
      · exact hw q hq p hp
      · rw [List.mem_singleton.1 hq] at hp; cases hp
    | array a =>
      by_cases ha : a < s.memory.length
      · simp only [Session.step, if_pos ha]
        refine ⟨List.prefix_append _ _, le_rfl, fun _ _ _ => by trivial, fun hw q hq p hp => ?_⟩
        rcases List.mem_append.1 hq with hq | hq
        · exact hw q hq p hp
        · rw [List.mem_singleton.1 hq] at hp; cases hp; exact ha
      · simp only [Session.step, if_neg ha]
        exact ⟨List.prefix_rfl, le_rfl, fun _ _ _ => by trivial, fun hw => hw⟩
  | operate o =>
    rcases ho : o.run fs quo s.quantities with _ | r
    · simp only [Session.step, ho]
      exact ⟨List.prefix_rfl, le_rfl, fun _ _ _ => by trivial, fun hw => hw⟩
    · obtain ⟨h1, h2⟩ := fresh_operation fs quo _ o r ho s.memory
      rcases hr : r s.memory with ⟨e | q, m⟩
      · simp only [Session.step, ho, hr]
        rw [hr] at h1
        exact ⟨List.prefix_rfl, h1.length_le, fun p hp _ => grow m p h1 hp,
          fun hw q hq p hp => (hw q hq p hp).trans_le h1.length_le⟩
      · simp only [Session.step, ho, hr]
        rw [hr] at h1 h2
        refine ⟨List.prefix_append _ _, h1.length_le, fun p hp _ => grow m p h1 hp,
          fun hw q' hq p hp => ?_⟩
        rcases List.mem_append.1 hq with hq | hq
        · exact (hw q' hq p hp).trans_le h1.length_le
        · rw [List.mem_singleton.1 hq] at hp
          exact (h2 q rfl p hp).2
  | compare test i j =>
    rcases hi : s.quantities[i]? with _ | q
    · simp only [Session.step, hi]
      exact ⟨List.prefix_rfl, le_rfl, fun _ _ _ => by trivial, fun hw => hw⟩
    · rcases hj : s.quantities[j]? with _ | r
      · simp only [Session.step, hi, hj]
        exact ⟨List.prefix_rfl, le_rfl, fun _ _ _ => by trivial, fun hw => hw⟩
      · simp only [Session.step, hi, hj]
        have h1 := extends_compare fs test q r s.memory
        exact ⟨List.prefix_rfl, h1.length_le, fun p hp _ => grow _ p h1 hp,
          fun hw q hq p hp => (hw q hq p hp).trans_le h1.length_le⟩
  | assign p k x =>
    rcases hp : s.memory[p]? with _ | a
    · simp only [Session.step, hp]
      exact ⟨List.prefix_rfl, le_rfl, fun _ _ _ => by trivial, fun hw => hw⟩
    · simp only [Session.step, hp]
      refine ⟨List.prefix_rfl, by simp, fun p' _ hs => ?_, fun hw q hq p hp => ?_⟩
      · exact List.getElem?_set_ne hs
      · simpa using hw q hq p hp

/-- Steps after a session. -/
def Session.steps (fs : ℚ → Str) (quo : ℚ → ℚ → ℚ) (s : Session) (more : List Step) : Session :=
  more.foldl (Session.step fs quo) s

theorem run_append (fs : ℚ → Str) (quo : ℚ → ℚ → ℚ) (steps more : List Step) :
    Session.run fs quo (steps ++ more) = (Session.run fs quo steps).steps fs quo more := by
  simp [Session.run, Session.steps, List.foldl_append]

theorem steps_wf (fs : ℚ → Str) (quo : ℚ → ℚ → ℚ) (more : List Step) (s : Session)
    (h : s.WellFormed) : (s.steps fs quo more).WellFormed := by
  induction more generalizing s with
  | nil => exact h
  | cons st more ih => exact ih _ ((step_effect fs quo s st).2.2.2 h)

theorem run_wf (fs : ℚ → Str) (quo : ℚ → ℚ → ℚ) (steps : List Step) :
    (Session.run fs quo steps).WellFormed :=
  steps_wf fs quo steps _ fun q hq => by cases hq

/-- A quantity keeps its value over any steps that do not assign to its own array. -/
theorem steps_value (fs : ℚ → Str) (quo : ℚ → ℚ → ℚ) (more : List Step) (s : Session)
    (h : s.WellFormed) (i : ℕ) (q : MQuantity) (hq : s.quantities[i]? = some q)
    (hs : ∀ p, q.data = .array p → ∀ st ∈ more, st.Spares p) :
    (s.steps fs quo more).value i = s.value i := by
  induction more generalizing s with
  | nil => rfl
  | cons st more ih =>
    obtain ⟨h1, h2, h3, h4⟩ := step_effect fs quo s st
    have hi : i < s.quantities.length := (List.getElem?_eq_some_iff.1 hq).1
    have hq' : (s.step fs quo st).quantities[i]? = some q := by
      obtain ⟨t, ht⟩ := h1
      rw [← ht, List.getElem?_append_left hi, hq]
    have := ih (s.step fs quo st) (h4 h) hq' fun p hp st' hst => hs p hp st' (List.mem_cons_of_mem _ hst)
    change ((s.step fs quo st).steps fs quo more).value i = _
    rw [this]
    simp only [Session.value, hq, hq', Option.bind_some]
    congr 1
    rcases hd : q.data with ⟨b, x⟩ | p
    · rfl
    · have hp : p < s.memory.length := h q (List.mem_of_getElem? hq) p hd
      simp only [Ref.value, h3 p hp (hs p hd st List.mem_cons_self)]

/-! ### C97 -/

/-- **C97.** For every program and every continuation of it in which no element of an array is
assigned to — any constructions, arithmetic, conversions and comparisons, including ones that raise
— every quantity keeps its value and unit. -/
theorem C97_operations_change_nothing (fs : ℚ → Str) (quo : ℚ → ℚ → ℚ) (steps more : List Step)
    (hm : ∀ st ∈ more, st.NoAssignment) (i : ℕ)
    (hi : i < (Session.run fs quo steps).quantities.length) :
    (Session.run fs quo (steps ++ more)).value i = (Session.run fs quo steps).value i ∧
    (Session.run fs quo steps).value i ≠ none := by
  rw [run_append]
  refine ⟨steps_value fs quo more _ (run_wf fs quo steps) i _ (List.getElem?_eq_getElem hi) ?_, ?_⟩
  · intro p _ st hst
    have := hm st hst
    cases st with
    | assign => exact this.elim
    | _ => trivial
  · simp only [Session.value, List.getElem?_eq_getElem hi, Option.bind_some]
    rcases hd : (Session.run fs quo steps).quantities[i].data with ⟨b, x⟩ | p
    · simp [Ref.value]
    · have hp := run_wf fs quo steps _ (List.getElem_mem hi) p hd
      simp [Ref.value, List.getElem?_eq_getElem hp]

/-- **C97 (results).** The result of an operation — also of a conversion to the unit the quantity
already has — shares no array with anything that existed before: whatever is assigned later to
arrays that existed before the operation, the result keeps its value. -/
theorem C97_results_are_independent (fs : ℚ → Str) (quo : ℚ → ℚ → ℚ) (steps more : List Step)
    (o : Operation)
    (hok : (Session.run fs quo (steps ++ [.operate o])).quantities.length =
      (Session.run fs quo steps).quantities.length + 1)
    (hm : ∀ st ∈ more, st.AssignsBelow (Session.run fs quo steps).memory.length) :
    (Session.run fs quo (steps ++ [.operate o] ++ more)).value
        (Session.run fs quo steps).quantities.length =
      (Session.run fs quo (steps ++ [.operate o])).value
        (Session.run fs quo steps).quantities.length := by
  rw [run_append fs quo (steps ++ [Step.operate o]) more]
  have hi : (Session.run fs quo steps).quantities.length <
      (Session.run fs quo (steps ++ [.operate o])).quantities.length := by omega
  refine steps_value fs quo more _ (run_wf _ _ _) _ _ (List.getElem?_eq_getElem hi) ?_
  intro p hp st hst
  have hge : (Session.run fs quo steps).memory.length ≤ p := by
    revert hp hi hok
    rw [run_append]
    generalize hs : Session.run fs quo steps = s
    change (s.step fs quo (.operate o)).quantities.length = _ → ∀ hi, (s.step fs quo
      (.operate o)).quantities[s.quantities.length].data = _ → _
    rcases ho : o.run fs quo s.quantities with _ | r
    · simp only [Session.step, ho]
      intro h; omega
    · obtain ⟨h1, h2⟩ := fresh_operation fs quo _ o r ho s.memory
      rcases hr : r s.memory with ⟨e | q, m⟩
      · simp only [Session.step, ho, hr]
        intro h; omega
      · simp only [Session.step, ho, hr]
        rw [hr] at h2
        intro _ hi hp
        rw [List.getElem_concat_length rfl] at hp
        exact (h2 q rfl p hp).1
  have := hm st hst
  cases st with
  | assign p' k x => exact ne_of_lt (lt_of_lt_of_le this hge)
  | _ => trivial

/-- A program with arrays: two quantities from arrays, their sum, a conversion to the unit a
quantity already has, a comparison, an operation that raises, and assignments. -/
def demoProgram : List Step :=
  [.array ⟨false, [1, 2]⟩, .array ⟨false, [500, 250]⟩, .construct (.array 0) (.named km),
    .construct (.array 1) (.named m), .operate (.add 0 (.quantity 1)),
    .operate (.convert 0 (.named km) id)]

example : ∀ st ∈ [Step.operate (.sub 0 (.quantity 1)), .operate (.add 0 .other),
    .compare (fun x y => decide (x < y)) 0 1], st.NoAssignment := by
  intro st h
  simp only [List.mem_cons, List.not_mem_nil, or_false] at h
  rcases h with rfl | rfl | rfl <;> trivial

example :
    (Session.run (fmtFixed 6) (· / ·) demoProgram).value 2 =
      some (.array [3/2, 9/4], .named km) ∧
    (Session.run (fmtFixed 6) (· / ·) demoProgram).value 3 = some (.array [1, 2], .named km) ∧
    (Session.run (fmtFixed 6) (· / ·) (demoProgram ++ [.assign 0 1 7])).value 0 =
      some (.array [1, 7], .named km) ∧
    (Session.run (fmtFixed 6) (· / ·) (demoProgram ++ [.assign 0 1 7])).value 3 =
      some (.array [1, 2], .named km) := by
  decide +kernel

/-! ### C98 -/

/-- **C98 fails.** The constructor keeps the array it is given: after any program, a quantity built
from any array changes as soon as an element of the array is assigned a different number. -/
theorem C98_constructor_shares_array (fs : ℚ → Str) (quo : ℚ → ℚ → ℚ) (steps : List Step)
    (xs : List ℚ) (u : BUnit) (k : ℕ) (hk : k < xs.length) (x : ℚ) (hx : x ≠ xs[k]) :
    let s := Session.run fs quo (steps ++ [.array ⟨false, xs⟩,
      .construct (.array (Session.run fs quo steps).memory.length) u])
    let n := (Session.run fs quo steps).quantities.length
    s.value n = some (.array xs, u) ∧
    (s.step fs quo (.assign (Session.run fs quo steps).memory.length k x)).value n =
      some (.array (xs.set k x), u) ∧ xs.set k x ≠ xs := by
  intro s n
  have hs : s = ⟨(Session.run fs quo steps).memory ++ [⟨false, xs⟩],
      (Session.run fs quo steps).quantities ++
        [⟨.array (Session.run fs quo steps).memory.length, u⟩]⟩ := by
    simp only [s, run_append, Session.steps, List.foldl_cons, List.foldl_nil, Session.step,
      List.length_append, List.length_cons, List.length_nil]
    rw [if_pos (by omega)]
  refine ⟨?_, ?_, ?_⟩
  · rw [hs]
    simp [Session.value, n, Ref.value]
  · rw [hs]
    simp [Session.value, n, Ref.value, Session.step]
  · intro h
    have : (xs.set k x)[k]? = xs[k]? := by rw [h]
    rw [List.getElem?_set_self hk, List.getElem?_eq_getElem hk] at this
    exact hx (Option.some.inj this)

/-- **C98 (partial).** Only assignments to its own array change a quantity: for every program and
every continuation that does not assign to the array a quantity holds, the quantity keeps its value
and unit.  A quantity holding a number never changes. -/
theorem C98_other_arrays_partial (fs : ℚ → Str) (quo : ℚ → ℚ → ℚ) (steps more : List Step) (i : ℕ)
    (q : MQuantity) (hq : (Session.run fs quo steps).quantities[i]? = some q)
    (hm : ∀ p, q.data = .array p → ∀ st ∈ more, st.Spares p) :
    (Session.run fs quo (steps ++ more)).value i = (Session.run fs quo steps).value i := by
  rw [run_append]
  exact steps_value fs quo more _ (run_wf fs quo steps) i q hq hm

/-- Assigning to the second array leaves the first quantity alone. -/
example : (Session.run (fmtFixed 6) (· / ·) demoProgram).quantities[0]? =
    some ⟨.array 0, .named km⟩ ∧ (Step.assign 1 0 9).Spares 0 :=
  ⟨by decide +kernel, Nat.one_ne_zero⟩

end Celest.Units
