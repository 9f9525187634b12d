/-
C99: arithmetic on quantities of arrays is element-wise arithmetic on quantities of numbers.
-/
import Verif.Units.PropsMemory
import Verif.Units.PropsQuantity

namespace Celest.Units

open Celest.Text (Str fmtFixed)

/-! ### Specification -/

/-- The computation treats the elements one by one: if it succeeds, its result is an array, with its
unit, of the results `each` of the operations on numbers; if it raises, every one of these raises
the same exception. -/
def Elements (r : Run MQuantity) (m : Memory) (each : List (Py Quantity)) : Prop :=
  match (r m).1 with
  | .ok q => ∃ zs, q.data.value (r m).2 = some (.array zs) ∧ each = zs.map fun z => .ok ⟨z, q.unit⟩
  | .error e => ∀ p ∈ each, p = .error e

/-- The data `d` supply the elements `xs`: an array of these elements, or a number or an array of
one element that is used for all of them. -/
def Supplies (m : Memory) (d : Ref) (xs : List ℚ) : Prop :=
  d.value m = some (.array xs) ∨
  ∃ x, xs = List.replicate xs.length x ∧
    (d.value m = some (.number x) ∨ d.value m = some (.array [x]))

/-- Two operands that supply as many elements, one of them an array of all of its elements. -/
def Operands (m : Memory) (d e : Ref) (xs ys : List ℚ) : Prop :=
  xs.length = ys.length ∧ Supplies m d xs ∧ Supplies m e ys ∧
    (d.value m = some (.array xs) ∨ e.value m = some (.array ys))

/-- The data are not an array of integers. -/
def NotIntArray (m : Memory) (d : Ref) : Prop :=
  ∀ p a, d = .array p → m[p]? = some a → a.ints = false

/-! ### Lemmas -/

theorem value_number {m : Memory} {d : Ref} {x : ℚ} (h : d.value m = some (.number x)) :
    ∃ i, d = .number i x := by
  cases d with
  | number i y => simp only [Ref.value, Option.some.injEq, Value.number.injEq] at h; exact ⟨i, by rw [h]⟩
  | array p =>
    simp only [Ref.value, Option.map_eq_some_iff] at h
    obtain ⟨a, -, h⟩ := h; cases h

theorem value_array {m : Memory} {d : Ref} {xs : List ℚ} (h : d.value m = some (.array xs)) :
    ∃ p i, d = .array p ∧ m[p]? = some ⟨i, xs⟩ := by
  cases d with
  | number i y => simp [Ref.value] at h
  | array p =>
    simp only [Ref.value, Option.map_eq_some_iff] at h
    obtain ⟨a, h1, h2⟩ := h
    obtain ⟨i, ys⟩ := a
    cases h2
    exact ⟨p, i, rfl, h1⟩

theorem value_grow {m t : Memory} {d : Ref} {v : Value} (h : d.value m = some v) :
    d.value (m ++ t) = some v := by
  cases d with
  | number i x => exact h
  | array p =>
    simp only [Ref.value, Option.map_eq_some_iff] at h ⊢
    obtain ⟨a, h1, h2⟩ := h
    refine ⟨a, ?_, h2⟩
    rw [List.getElem?_append_left (List.getElem?_eq_some_iff.1 h1).1, h1]

theorem supplies_grow {m : Memory} (t : Memory) {d : Ref} {xs : List ℚ} (h : Supplies m d xs) :
    Supplies (m ++ t) d xs := by
  rcases h with h | ⟨x, h1, h | h⟩
  · exact .inl (value_grow h)
  · exact .inr ⟨x, h1, .inl (value_grow h)⟩
  · exact .inr ⟨x, h1, .inr (value_grow h)⟩

theorem zipWith_replicate_left (f : ℚ → ℚ → ℚ) (x : ℚ) (ys : List ℚ) :
    List.zipWith f (List.replicate ys.length x) ys = ys.map (f x) := by
  induction ys with
  | nil => rfl
  | cons y ys ih => simp [List.replicate_succ, ih]

theorem zipWith_replicate_right (f : ℚ → ℚ → ℚ) (y : ℚ) (xs : List ℚ) :
    List.zipWith f xs (List.replicate xs.length y) = xs.map (f · y) := by
  induction xs with
  | nil => rfl
  | cons y ys ih => simp [List.replicate_succ, ih]

theorem broadcast_left (f : ℚ → ℚ → ℚ) (x : ℚ) (ys : List ℚ) :
    broadcast f [x] ys = .ok (ys.map (f x)) := by
  unfold broadcast
  split
  · rename_i h
    match ys, h with
    | [y], _ => rfl
  · rfl

theorem broadcast_right (f : ℚ → ℚ → ℚ) (y : ℚ) (xs : List ℚ) :
    broadcast f xs [y] = .ok (xs.map (f · y)) := by
  unfold broadcast
  split
  · rename_i h
    match xs, h with
    | [x], _ => rfl
  · rename_i h
    match xs, h with
    | [], _ => rfl
    | [x], h => exact absurd rfl h
    | x :: y :: t, _ => rfl

/-- A binary operation on operands of which at least one is an array. -/
theorem binary_elements (float : Bool) (sc : ℚ → ℚ → Py ℚ) (f : ℚ → ℚ → ℚ) (m : Memory) (d e : Ref)
    (xs ys : List ℚ) (h : Operands m d e xs ys) :
    ∃ i, binary float sc f d e m = (.ok (.array m.length), m ++ [⟨i, List.zipWith f xs ys⟩]) := by
  obtain ⟨hl, h1, h2, h3⟩ := h
  have right : ∀ (p : ℕ) (i : Bool), d = .array p → m[p]? = some ⟨i, xs⟩ →
      ∃ i, binary float sc f d e m = (.ok (.array m.length), m ++ [⟨i, List.zipWith f xs ys⟩]) := by
    rintro p i rfl hp
    rcases h2 with h | ⟨y, hy, h | h⟩
    · obtain ⟨p', j, rfl, hp'⟩ := value_array h
      refine ⟨i && j && !float, ?_⟩
      simp [binary, readArray, newArray, bind, pure, Run.andThen, Run.done, Run.lift, hp, hp',
        broadcast, hl]
    · obtain ⟨j, rfl⟩ := value_number h
      refine ⟨j && i && !float, ?_⟩
      rw [← hl] at hy
      rw [hy, zipWith_replicate_right]
      simp [binary, readArray, newArray, bind, pure, Run.andThen, Run.done, hp]
    · obtain ⟨p', j, rfl, hp'⟩ := value_array h
      refine ⟨i && j && !float, ?_⟩
      rw [← hl] at hy
      rw [hy, zipWith_replicate_right]
      simp [binary, readArray, newArray, bind, pure, Run.andThen, Run.done, Run.lift, hp, hp',
        broadcast_right]
  have left : ∀ (p : ℕ) (j : Bool), e = .array p → m[p]? = some ⟨j, ys⟩ →
      ∃ i, binary float sc f d e m = (.ok (.array m.length), m ++ [⟨i, List.zipWith f xs ys⟩]) := by
    rintro p j rfl hp
    rcases h1 with h | ⟨x, hx, h | h⟩
    · obtain ⟨p', i, rfl, hp'⟩ := value_array h
      exact right p' i rfl hp'
    · obtain ⟨i, rfl⟩ := value_number h
      refine ⟨i && j && !float, ?_⟩
      rw [hl] at hx
      rw [hx, zipWith_replicate_left]
      simp [binary, readArray, newArray, bind, pure, Run.andThen, Run.done, hp]
    · obtain ⟨p', i, rfl, hp'⟩ := value_array h
      refine ⟨i && j && !float, ?_⟩
      rw [hl] at hx
      rw [hx, zipWith_replicate_left]
      simp [binary, readArray, newArray, bind, pure, Run.andThen, Run.done, Run.lift, hp, hp',
        broadcast_left]
  rcases h3 with h | h
  · obtain ⟨p, i, hd, hp⟩ := value_array h
    exact right p i hd hp
  · obtain ⟨p, j, he, hp⟩ := value_array h
    exact left p j he hp

/-- Conversion multiplies by one number, or raises one exception, whatever the data. -/
theorem to_uniform (fs : ℚ → Str) (v u : BUnit) :
    (∃ k : ℚ → ℚ, (∀ y, (Quantity.mk y v).to fs u = .ok (k y)) ∧
      ∀ (m : Memory) (d : Ref), NotIntArray m d → ∀ ys, Supplies m d ys →
        ∃ d' t, (MQuantity.mk d v).to fs u m = (.ok d', m ++ t) ∧ Supplies (m ++ t) d' (ys.map k) ∧
          (d.value m = some (.array ys) → d'.value (m ++ t) = some (.array (ys.map k)))) ∨
    (∃ e, (∀ y, (Quantity.mk y v).to fs u = .error e) ∧
      ∀ (m : Memory) (d : Ref), NotIntArray m d → ∀ ys, Supplies m d ys →
        ((MQuantity.mk d v).to fs u m).1 = .error e) := by
  have hcopy : ∀ (m : Memory) (d : Ref) (ys : List ℚ), Supplies m d ys →
      (∃ i x, d = .number i x ∧ copyData d m = (.ok d, m)) ∨
      (∃ p a, d = .array p ∧ m[p]? = some a ∧
        copyData d m = (.ok (.array m.length), m ++ [a])) := by
    intro m d ys h
    cases d with
    | number i x => exact .inl ⟨i, x, rfl, rfl⟩
    | array p =>
      have : ∃ a, m[p]? = some a := by
        rcases h with h | ⟨x, -, h | h⟩
        · obtain ⟨p', i, hp, h⟩ := value_array h; cases hp; exact ⟨_, h⟩
        · obtain ⟨i, hp⟩ := value_number h; cases hp
        · obtain ⟨p', i, hp, h⟩ := value_array h; cases hp; exact ⟨_, h⟩
      obtain ⟨a, ha⟩ := this
      refine .inr ⟨p, a, rfl, ha, ?_⟩
      simp [copyData, readArray, newArray, bind, pure, Run.andThen, Run.done, ha]
  cases hv : v.dimension with
  | error e =>
    refine .inr ⟨e, fun y => ?_, fun m d _ ys _ => ?_⟩
    · simp [Quantity.to, Quantity.convertTo, hv, Except.map]
    · simp [MQuantity.to, MQuantity.convertTo, hv, bind, Run.andThen, Run.lift]
  | ok s =>
    cases hu : u.dimension with
    | error e =>
      refine .inr ⟨e, fun y => ?_, fun m d _ ys _ => ?_⟩
      · simp [Quantity.to, Quantity.convertTo, hv, hu, Except.map]
      · simp [MQuantity.to, MQuantity.convertTo, hv, hu, bind, Run.andThen, Run.lift]
    | ok s' =>
      by_cases hs : s = s'
      swap
      · refine .inr ⟨.valueError, fun y => ?_, fun m d _ ys _ => ?_⟩
        · simp [Quantity.to, Quantity.convertTo, hv, hu, hs, Except.map]
        · simp [MQuantity.to, MQuantity.convertTo, hv, hu, hs, bind, Run.andThen, Run.lift,
            Run.raise]
      subst hs
      by_cases hr : v.repr fs = u.repr fs
      · refine .inl ⟨id, fun y => ?_, fun m d _ ys hys => ?_⟩
        · simp [Quantity.to, Quantity.convertTo, hv, hu, hr, Except.map]
        · rcases hcopy m d ys hys with ⟨i, x, rfl, hc⟩ | ⟨p, a, rfl, ha, hc⟩
          · refine ⟨.number i x, [], ?_, by simpa using hys, by simp⟩
            simp [MQuantity.to, MQuantity.convertTo, hv, hu, hr, bind, pure, Run.andThen, Run.lift,
              Run.done, hc]
          · have hval : ∀ w, (Ref.array p).value m = some w →
                (Ref.array m.length).value (m ++ [a]) = some w := by
              intro w hw
              simpa [Ref.value, ha] using hw
            refine ⟨.array m.length, [a], ?_, ?_, ?_⟩
            · simp [MQuantity.to, MQuantity.convertTo, hv, hu, hr, bind, pure, Run.andThen,
                Run.lift, Run.done, hc]
            · rw [List.map_id]
              rcases hys with h | ⟨x, h1, h | h⟩
              · exact .inl (hval _ h)
              · exact .inr ⟨x, h1, .inl (hval _ h)⟩
              · exact .inr ⟨x, h1, .inr (hval _ h)⟩
            · intro h
              rw [List.map_id]; exact hval _ h
      · by_cases h0 : unitScale u = 0
        · refine .inr ⟨.zeroDivisionError, fun y => ?_, fun m d _ ys hys => ?_⟩
          · simp [Quantity.to, Quantity.convertTo, hv, hu, hr, h0, Except.map]
          · rcases hcopy m d ys hys with ⟨i, x, rfl, hc⟩ | ⟨p, a, rfl, ha, hc⟩ <;>
            simp [MQuantity.to, MQuantity.convertTo, hv, hu, hr, h0, bind, Run.andThen, Run.lift,
              Run.raise, hc]
        · refine .inl ⟨(· * (unitScale v / unitScale u)), fun y => ?_, fun m d hint ys hys => ?_⟩
          · simp [Quantity.to, Quantity.convertTo, hv, hu, hr, h0, Except.map]
          · rcases hcopy m d ys hys with ⟨i, x, rfl, hc⟩ | ⟨p, a, rfl, ha, hc⟩
            · refine ⟨.number false (x * (unitScale v / unitScale u)), [], ?_, ?_, ?_⟩
              · simp [MQuantity.to, MQuantity.convertTo, hv, hu, hr, h0, bind, pure, Run.andThen,
                  Run.lift, Run.done, hc, scaleData]
              · rcases hys with h | ⟨x', h1, h | h⟩
                · simp [Ref.value] at h
                · simp only [Ref.value, Option.some.injEq, Value.number.injEq] at h
                  subst h
                  refine .inr ⟨x * (unitScale v / unitScale u), ?_, .inl rfl⟩
                  rw [h1]; simp
                · simp [Ref.value] at h
              · intro h; simp [Ref.value] at h
            · have hi : a.ints = false := hint p a rfl ha
              refine ⟨.array m.length, [⟨false, a.data.map (· * (unitScale v / unitScale u))⟩],
                ?_, ?_, ?_⟩
              · simp [MQuantity.to, MQuantity.convertTo, hv, hu, hr, h0, bind, pure, Run.andThen,
                  Run.lift, Run.done, hc, scaleData, readArray, writeArray, hi]
              · rcases hys with h | ⟨x, h1, h | h⟩
                · refine .inl ?_
                  simp only [Ref.value, ha, Option.map_some, Option.some.injEq,
                    Value.array.injEq] at h
                  simp [Ref.value, h]
                · simp [Ref.value] at h
                · simp only [Ref.value, ha, Option.map_some, Option.some.injEq,
                    Value.array.injEq] at h
                  refine .inr ⟨x * (unitScale v / unitScale u), ?_, .inr ?_⟩
                  · rw [h1]; simp
                  · simp [Ref.value, h]
              · intro h
                simp only [Ref.value, ha, Option.map_some, Option.some.injEq,
                    Value.array.injEq] at h
                simp [Ref.value, h]

theorem elements_of {r : Run MQuantity} {m m' : Memory} {q : MQuantity} {each : List (Py Quantity)}
    (h : r m = (.ok q, m'))
    (hz : ∃ zs, q.data.value m' = some (.array zs) ∧ each = zs.map fun z => .ok ⟨z, q.unit⟩) :
    Elements r m each := by
  unfold Elements
  rw [h]
  exact hz

theorem elements_error {r : Run MQuantity} {m : Memory} {e : PyErr} {each : List (Py Quantity)}
    (h : (r m).1 = .error e) (hz : ∀ p ∈ each, p = .error e) : Elements r m each := by
  unfold Elements
  rw [h]
  exact hz

theorem mem_zipWith {f : ℚ → ℚ → Py Quantity} {xs ys : List ℚ} {p : Py Quantity}
    (h : p ∈ List.zipWith f xs ys) : ∃ x y, p = f x y := by
  obtain ⟨i, hi, rfl⟩ := List.getElem_of_mem h
  exact ⟨_, _, List.getElem_zipWith⟩

theorem zipWith_ok (f : ℚ → ℚ → ℚ) (g : ℚ → ℚ → Py Quantity) (w : BUnit) (xs ys : List ℚ)
    (h : ∀ (i : ℕ) x y, xs[i]? = some x → ys[i]? = some y → g x y = .ok ⟨f x y, w⟩) :
    List.zipWith g xs ys = (List.zipWith f xs ys).map fun z => .ok ⟨z, w⟩ := by
  induction xs generalizing ys with
  | nil => rfl
  | cons x xs ih =>
    cases ys with
    | nil => rfl
    | cons y ys =>
      simp only [List.zipWith_cons_cons, List.map_cons]
      rw [h 0 x y rfl rfl, ih ys fun i => h (i + 1)]

/-- An operation without conversion. -/
theorem plain_elements (float : Bool) (sc : ℚ → ℚ → Py ℚ) (f : ℚ → ℚ → ℚ) (m : Memory) (d e : Ref)
    (w : BUnit) (xs ys : List ℚ) (h : Operands m d e xs ys) (g : ℚ → ℚ → Py Quantity)
    (hg : ∀ (i : ℕ) x y, xs[i]? = some x → ys[i]? = some y → g x y = .ok ⟨f x y, w⟩) :
    Elements (binary float sc f d e >>= fun z => pure ⟨z, w⟩) m (List.zipWith g xs ys) := by
  obtain ⟨i, hb⟩ := binary_elements float sc f m d e xs ys h
  refine elements_of (m' := m ++ [⟨i, List.zipWith f xs ys⟩]) (q := ⟨.array m.length, w⟩) ?_
    ⟨_, by simp [Ref.value], zipWith_ok f g w xs ys hg⟩
  simp [bind, pure, Run.andThen, Run.done, hb]

/-- An operation after conversion of the second operand. -/
theorem converted_elements (fs : ℚ → Str) (float : Bool) (sc : ℚ → ℚ → Py ℚ) (f : ℚ → ℚ → ℚ)
    (m : Memory) (d e : Ref) (u v w : BUnit) (xs ys : List ℚ)
    (h : Operands m d e xs ys) (hint : NotIntArray m e) (g : ℚ → ℚ → Py Quantity)
    (hg : ∀ (i : ℕ) x y, xs[i]? = some x → ys[i]? = some y →
      ∀ z, (Quantity.mk y v).to fs u = .ok z → g x y = .ok ⟨f x z, w⟩)
    (hg' : ∀ x y err, (Quantity.mk y v).to fs u = .error err → g x y = .error err) :
    Elements ((MQuantity.mk e v).to fs u >>= fun y =>
      binary float sc f d y >>= fun z => pure ⟨z, w⟩) m (List.zipWith g xs ys) := by
  obtain ⟨hl, h1, h2, h3⟩ := h
  rcases to_uniform fs v u with ⟨k, hk, hto⟩ | ⟨err, herr, hto⟩
  · obtain ⟨e', t, he, hs, hfull⟩ := hto m e hint ys h2
    have hop : Operands (m ++ t) d e' xs (ys.map k) := by
      refine ⟨by simpa using hl, supplies_grow t h1, hs, ?_⟩
      rcases h3 with h | h
      · exact .inl (value_grow h)
      · exact .inr (hfull h)
    obtain ⟨i, hb⟩ := binary_elements float sc f (m ++ t) d e' xs (ys.map k) hop
    refine elements_of (m' := m ++ t ++ [⟨i, List.zipWith f xs (ys.map k)⟩])
      (q := ⟨.array (m ++ t).length, w⟩) ?_ ⟨List.zipWith f xs (ys.map k), ?_, ?_⟩
    · simp [bind, pure, Run.andThen, Run.done, he, hb]
    · simp only [Ref.value]; rw [List.getElem?_concat_length]; rfl
    · rw [List.zipWith_map_right]
      exact zipWith_ok (fun x y => f x (k y)) g w xs ys fun i x y hx hy => hg i x y hx hy _ (hk y)
  · refine elements_error (e := err) ?_ ?_
    · have := hto m e hint ys h2
      rcases hm : (MQuantity.mk e v).to fs u m with ⟨er | z, m'⟩
      · rw [hm] at this
        simp only [Except.error.injEq] at this
        simp [bind, Run.andThen, hm, this]
      · rw [hm] at this; cases this
    · intro p hp
      obtain ⟨x, y, rfl⟩ := mem_zipWith hp
      exact hg' x y err (herr y)

/-- The test of dimensions comes first. -/
theorem lift_bind {α β : Type} {p : Py α} {a : α} (h : p = .ok a) (f : α → Run β) :
    (Run.lift p >>= f) = f a := by
  subst h; rfl

theorem lift_error {α β : Type} {p : Py α} {e : PyErr} (h : p = .error e) (f : α → Run β)
    (m : Memory) : ((Run.lift p >>= f) m).1 = .error e := by
  subst h; rfl

/-- Either the test raises for the arrays and for all elements, or it has a result. -/
theorem elements_lift {α : Type} (p : Py α) (f : α → Run MQuantity) (m : Memory)
    (each : List (Py Quantity)) (herr : ∀ e, p = .error e → ∀ r ∈ each, r = .error e)
    (hok : ∀ a, p = .ok a → Elements (f a) m each) : Elements (Run.lift p >>= f) m each := by
  cases hp : p with
  | error e => exact elements_error (lift_error rfl f m) (herr e hp)
  | ok a => rw [lift_bind rfl]; exact hok a hp

/-! ### C99 -/

/-- **C99 (sum).** The sum of two quantities of which at least one holds an array is the array of
the sums of their elements. -/
theorem C99_sum_elementwise_partial (fs : ℚ → Str) (m : Memory) (d e : Ref) (u v : BUnit)
    (xs ys : List ℚ) (h : Operands m d e xs ys) (hint : NotIntArray m e) :
    Elements (MQuantity.add fs ⟨d, u⟩ (.quantity ⟨e, v⟩)) m
      (List.zipWith (fun x y => Quantity.add fs ⟨x, u⟩ (.quantity ⟨y, v⟩)) xs ys) := by
  refine elements_lift _ _ m _ ?_ ?_
  · intro er hs p hp
    obtain ⟨x, y, rfl⟩ := mem_zipWith hp
    simp [Quantity.add, show sameDimension u v = _ from hs]
  · intro same hs
    replace hs : sameDimension u v = .ok same := hs
    cases same with
    | false =>
      refine elements_error (e := .arithmeticError) rfl ?_
      intro p hp
      obtain ⟨x, y, rfl⟩ := mem_zipWith hp
      simp [Quantity.add, hs]
    | true =>
      exact converted_elements fs false _ (· + ·) m d e u v u xs ys h hint _
        (fun _ x y _ _ z hz => by simp [Quantity.add, hs, hz])
        (fun x y err he => by simp [Quantity.add, hs, he])

/-- **C99 (product).** -/
theorem C99_product_elementwise_partial (fs : ℚ → Str) (m : Memory) (d e : Ref) (u v : BUnit)
    (xs ys : List ℚ) (h : Operands m d e xs ys) (hint : NotIntArray m e) :
    Elements (MQuantity.mul fs ⟨d, u⟩ (.quantity ⟨e, v⟩)) m
      (List.zipWith (fun x y => Quantity.mul fs ⟨x, u⟩ (.quantity ⟨y, v⟩)) xs ys) := by
  refine elements_lift _ _ m _ ?_ ?_
  · intro er hs p hp
    obtain ⟨x, y, rfl⟩ := mem_zipWith hp
    simp [Quantity.mul, show sameDimension u v = _ from hs]
  · intro same hs
    replace hs : sameDimension u v = .ok same := hs
    cases same with
    | false =>
      exact plain_elements false _ (· * ·) m d e _ xs ys h _
        (fun _ x y _ _ => by simp [Quantity.mul, hs])
    | true =>
      exact converted_elements fs false _ (· * ·) m d e u v _ xs ys h hint _
        (fun _ x y _ _ z hz => by simp [Quantity.mul, hs, hz])
        (fun x y err he => by simp [Quantity.mul, hs, he])

/-- **C99 (quotient).**  `quo` is division where the divisor is not zero; where it is zero, arrays
give infinity or NaN, while numbers raise. -/
theorem C99_quotient_elementwise_partial (fs : ℚ → Str) (quo : ℚ → ℚ → ℚ)
    (hquo : ∀ x y, y ≠ 0 → quo x y = x / y) (m : Memory) (d e : Ref) (u v : BUnit)
    (xs ys : List ℚ) (h : Operands m d e xs ys) (hint : NotIntArray m e)
    (h0 : ∀ y ∈ ys, y ≠ 0) (hu : unitScale u ≠ 0) (hv : unitScale v ≠ 0) :
    Elements (MQuantity.div fs quo ⟨d, u⟩ (.quantity ⟨e, v⟩)) m
      (List.zipWith (fun x y => Quantity.div fs ⟨x, u⟩ (.quantity ⟨y, v⟩)) xs ys) := by
  refine elements_lift _ _ m _ ?_ ?_
  · intro er hs p hp
    obtain ⟨x, y, rfl⟩ := mem_zipWith hp
    simp [Quantity.div, show sameDimension u v = _ from hs]
  · intro same hs
    replace hs : sameDimension u v = .ok same := hs
    cases same with
    | false =>
      refine plain_elements true _ quo m d e _ xs ys h _ (fun i x y _ hy => ?_)
      have := h0 y (List.mem_of_getElem? hy)
      simp [Quantity.div, hs, pyDiv, this, hquo x y this, Except.map]
    | true =>
      refine converted_elements fs true _ quo m d e u v _ xs ys h hint _
        (fun i x y _ hy z hz => ?_) (fun x y err he => by simp [Quantity.div, hs, he])
      have hy0 := h0 y (List.mem_of_getElem? hy)
      have hz0 : z ≠ 0 := by
        simp only [Quantity.to, Quantity.convertTo] at hz
        obtain ⟨s, e1, e2⟩ := sameDimension_true hs
        rw [e1, e2] at hz
        simp only [ne_eq, not_true, if_false, hu, Except.map] at hz
        split at hz
        · cases hz
        · rename_i r hr
          split at hr
          · cases hr; cases hz; positivity
          · cases hr; cases hz; exact hy0
      simp [Quantity.div, hs, hz, pyDiv, hz0, hquo x z hz0, Except.map]

/-- The negated operand of a difference. -/
theorem neg_supplies (m : Memory) (e : Ref) (v : BUnit) (ys : List ℚ) (h : Supplies m e ys)
    (hint : NotIntArray m e) :
    ∃ e' t, MQuantity.neg ⟨e, v⟩ m = (.ok ⟨e', v⟩, m ++ t) ∧ Supplies (m ++ t) e' (ys.map (- ·)) ∧
      NotIntArray (m ++ t) e' ∧
      (e.value m = some (.array ys) → e'.value (m ++ t) = some (.array (ys.map (- ·)))) := by
  cases e with
  | number i x =>
    refine ⟨.number i (-x), [], by simp [MQuantity.neg, negData, bind, pure, Run.andThen, Run.done],
      ?_, (fun p a hp => by cases hp), fun h => by simp [Ref.value] at h⟩
    rcases h with h | ⟨x', h1, h | h⟩
    · simp [Ref.value] at h
    · simp only [Ref.value, Option.some.injEq, Value.number.injEq] at h
      subst h
      exact .inr ⟨-x, by rw [h1]; simp, .inl rfl⟩
    · simp [Ref.value] at h
  | array p =>
    have : ∃ a, m[p]? = some a := by
      rcases h with h | ⟨x, -, h | h⟩
      · obtain ⟨p', i, hp, h⟩ := value_array h; cases hp; exact ⟨_, h⟩
      · obtain ⟨i, hp⟩ := value_number h; cases hp
      · obtain ⟨p', i, hp, h⟩ := value_array h; cases hp; exact ⟨_, h⟩
    obtain ⟨a, ha⟩ := this
    refine ⟨.array m.length, [⟨a.ints, a.data.map (- ·)⟩], ?_, ?_, ?_, ?_⟩
    · simp [MQuantity.neg, negData, readArray, newArray, bind, pure, Run.andThen, Run.done, ha]
    · rcases h with h | ⟨x, h1, h | h⟩
      · simp only [Ref.value, ha, Option.map_some, Option.some.injEq, Value.array.injEq] at h
        exact .inl (by simp [Ref.value, h])
      · simp [Ref.value] at h
      · simp only [Ref.value, ha, Option.map_some, Option.some.injEq, Value.array.injEq] at h
        exact .inr ⟨-x, by rw [h1]; simp, .inr (by simp [Ref.value, h])⟩
    · intro p' a' hp ha'
      cases hp
      rw [List.getElem?_concat_length] at ha'
      obtain rfl := Option.some.inj ha'
      exact hint p a rfl ha
    · intro h
      simp only [Ref.value, ha, Option.map_some, Option.some.injEq, Value.array.injEq] at h
      simp [Ref.value, h]

/-- **C99 (difference).** -/
theorem C99_difference_elementwise_partial (fs : ℚ → Str) (m : Memory) (d e : Ref) (u v : BUnit)
    (xs ys : List ℚ) (h : Operands m d e xs ys) (hint : NotIntArray m e) :
    Elements (MQuantity.sub fs ⟨d, u⟩ (.quantity ⟨e, v⟩)) m
      (List.zipWith (fun x y => Quantity.sub fs ⟨x, u⟩ (.quantity ⟨y, v⟩)) xs ys) := by
  obtain ⟨hl, h1, h2, h3⟩ := h
  obtain ⟨e', t, he, hs, hint', hfull⟩ := neg_supplies m e v ys h2 hint
  have hop : Operands (m ++ t) d e' xs (ys.map (- ·)) := by
    refine ⟨by simpa using hl, supplies_grow t h1, hs, ?_⟩
    rcases h3 with h | h
    · exact .inl (value_grow h)
    · exact .inr (hfull h)
  have := C99_sum_elementwise_partial fs (m ++ t) d e' u v xs _ hop hint'
  rw [List.zipWith_map_right] at this
  have heq : MQuantity.sub fs ⟨d, u⟩ (.quantity ⟨e, v⟩) m =
      MQuantity.add fs ⟨d, u⟩ (.quantity ⟨e', v⟩) (m ++ t) := by
    simp [MQuantity.sub, MArg.neg, bind, pure, Run.andThen, Run.done, he]
  unfold Elements at this ⊢
  rw [heq]
  exact this

/-- **C99 (numbers).** Adding, multiplying and dividing an array by a number. -/
theorem C99_number_elementwise_partial (fs : ℚ → Str) (quo : ℚ → ℚ → ℚ)
    (hquo : ∀ x y, y ≠ 0 → quo x y = x / y) (m : Memory) (d : Ref) (u : BUnit) (xs : List ℚ)
    (hd : d.value m = some (.array xs)) (i : Bool) (y : ℚ) :
    Elements (MQuantity.add fs ⟨d, u⟩ (.number i y)) m
      (xs.map fun x => Quantity.add fs ⟨x, u⟩ (.number y)) ∧
    Elements (MQuantity.sub fs ⟨d, u⟩ (.number i y)) m
      (xs.map fun x => Quantity.sub fs ⟨x, u⟩ (.number y)) ∧
    Elements (MQuantity.mul fs ⟨d, u⟩ (.number i y)) m
      (xs.map fun x => Quantity.mul fs ⟨x, u⟩ (.number y)) ∧
    (y ≠ 0 → Elements (MQuantity.div fs quo ⟨d, u⟩ (.number i y)) m
      (xs.map fun x => Quantity.div fs ⟨x, u⟩ (.number y))) ∧
    ((∀ x ∈ xs, x ≠ 0) → Elements (MQuantity.rdiv fs quo ⟨d, u⟩ (.number i y)) m
      (xs.map fun x => Quantity.rdivNumber ⟨x, u⟩ y)) := by
  have hmap : ∀ (g : ℚ → Py Quantity) (y : ℚ),
      List.zipWith (fun x _ => g x) xs (List.replicate xs.length y) = xs.map g := by
    intro g y
    clear hd
    induction xs with
    | nil => rfl
    | cons x xs ih => simp [List.replicate_succ, ih]
  have hmap' : ∀ (g : ℚ → Py Quantity) (y : ℚ),
      List.zipWith (fun _ x => g x) (List.replicate xs.length y) xs = xs.map g := by
    intro g y
    clear hd hmap
    induction xs with
    | nil => rfl
    | cons x xs ih => simp [List.replicate_succ, ih]
  have hops : ∀ y, Operands m d (.number i y) xs (List.replicate xs.length y) := fun y =>
    ⟨by simp, .inl hd, .inr ⟨y, by simp, .inl rfl⟩, .inl hd⟩
  have hops' : ∀ y, Operands m (.number i y) d (List.replicate xs.length y) xs := fun y =>
    ⟨by simp, .inr ⟨y, by simp, .inl rfl⟩, .inl hd, .inr hd⟩
  have hmem : ∀ {y z : ℚ} {n j : ℕ}, (List.replicate n y)[j]? = some z → z = y := by
    intro y z n j hz
    exact List.eq_of_mem_replicate (List.mem_of_getElem? hz)
  refine ⟨?_, ?_, ?_, fun hy => ?_, fun hx => ?_⟩
  · rw [← hmap _ y]
    exact plain_elements false _ (· + ·) m d _ u xs _ (hops y) _
      fun j x z _ hz => by rw [hmem hz]; rfl
  · rw [← hmap _ (-y)]
    exact plain_elements false _ (· + ·) m d (.number i (-y)) u xs _ (hops (-y)) _
      fun j x z _ hz => by rw [hmem hz]; rfl
  · rw [← hmap _ y]
    exact plain_elements false _ (· * ·) m d _ u xs _ (hops y) _
      fun j x z _ hz => by rw [hmem hz]; rfl
  · rw [← hmap _ y]
    exact plain_elements true _ quo m d _ u xs _ (hops y) _
      fun j x z _ hz => by rw [hmem hz]; simp [Quantity.div, pyDiv, hy, hquo x y hy, Except.map]
  · rw [← hmap' _ y]
    refine plain_elements true _ quo m _ d _ _ xs (hops' y) _ fun j z x hz hx' => ?_
    have := hx x (List.mem_of_getElem? hx')
    rw [hmem hz]; simp [Quantity.rdivNumber, pyDiv, this, hquo y x this, Except.map]

/-- **C99 (negation and conversion).** -/
theorem C99_unary_elementwise_partial (fs : ℚ → Str) (m : Memory) (d : Ref) (u v : BUnit)
    (xs : List ℚ) (hd : d.value m = some (.array xs)) :
    Elements (MQuantity.neg ⟨d, u⟩) m (xs.map fun x => .ok (Quantity.neg ⟨x, u⟩)) ∧
    (NotIntArray m d → ∃ r m', (MQuantity.mk d u).to fs v m = (r, m') ∧
      match r with
      | .ok d' => ∃ zs, d'.value m' = some (.array zs) ∧
          xs.map (fun x => (Quantity.mk x u).to fs v) = zs.map .ok
      | .error e => ∀ x ∈ xs, (Quantity.mk x u).to fs v = .error e) := by
  constructor
  · obtain ⟨p, i, rfl, hp⟩ := value_array hd
    refine elements_of (m' := m ++ [⟨i, xs.map (- ·)⟩]) (q := ⟨.array m.length, u⟩) ?_
      ⟨xs.map (- ·), by simp [Ref.value], by simp [Quantity.neg, Function.comp_def]⟩
    simp [MQuantity.neg, negData, readArray, newArray, bind, pure, Run.andThen, Run.done, hp]
  · intro hint
    rcases to_uniform fs u v with ⟨k, hk, hto⟩ | ⟨e, he, hto⟩
    · obtain ⟨d', t, h1, -, h3⟩ := hto m d hint xs (.inl hd)
      exact ⟨_, _, h1, xs.map k, h3 hd, by simp [hk, Function.comp_def]⟩
    · have := hto m d hint xs (.inl hd)
      rcases hm : (MQuantity.mk d u).to fs v m with ⟨r, m'⟩
      rw [hm] at this
      obtain rfl : r = .error e := this
      exact ⟨_, _, rfl, fun x _ => he x⟩

/-- **C99 (lengths).** Arrays of different lengths, neither of them one, cannot be added, whatever
their elements, when their units can be converted. -/
theorem C99_lengths_must_match {S : List NamedUnit} (hS : UnitSystem S) (fs : ℚ → Str) (m : Memory)
    (p p' : ℕ) (u v : BUnit) (hu : Built S u)
    (i : Bool) (xs ys : List ℚ) (hp : m[p]? = some ⟨i, xs⟩) (hp' : m[p']? = some ⟨false, ys⟩)
    (hl : xs.length ≠ ys.length) (hx : xs.length ≠ 1) (hy : ys.length ≠ 1)
    (hsd : sameDimension u v = .ok true) :
    (MQuantity.add fs ⟨.array p, u⟩ (.quantity ⟨.array p', v⟩) m).1 = .error .valueError := by
  have hne := (unitScale_pos hS (built_good hu)).ne'
  rcases to_uniform fs v u with ⟨k, hk, hto⟩ | ⟨e, he, -⟩
  · obtain ⟨d', t, h1, -, h3⟩ := hto m (.array p') (fun q a hq ha => by
      cases hq; rw [hp'] at ha; cases ha; rfl) ys (.inl (by simp [Ref.value, hp']))
    obtain ⟨p2, j, rfl, h4⟩ := value_array (h3 (by simp [Ref.value, hp']))
    have hpt : (m ++ t)[p]? = some ⟨i, xs⟩ := by
      rw [List.getElem?_append_left (List.getElem?_eq_some_iff.1 hp).1, hp]
    have hb : broadcast (· + ·) xs (ys.map k) = .error .valueError := by
      unfold broadcast
      rw [if_neg (by simpa using hl)]
      match xs, hx, ys, hy with
      | [], _, [], _ => rfl
      | [], _, y :: y' :: ys, _ => rfl
      | x :: x' :: xs, _, [], _ => rfl
      | x :: x' :: xs, _, y :: y' :: ys, _ => rfl
    simp [MQuantity.add, hsd, bind, Run.andThen, Run.lift, h1, addData, binary, readArray, hpt,
      h4, hb]
  · exfalso
    obtain ⟨s, e1, e2⟩ := sameDimension_true hsd
    have := he 0
    simp only [Quantity.to, Quantity.convertTo, e1, e2, ne_eq, not_true, if_false, hne] at this
    split at this <;> cases this

/-- **C99 (integers).** An array of integers cannot be added to a quantity in a unit written
differently. -/
theorem C99_integer_arrays {S : List NamedUnit} (hS : UnitSystem S) (fs : ℚ → Str) (m : Memory)
    (d : Ref) (p : ℕ) (u v : BUnit) (hu : Built S u) (ys : List ℚ) (hp : m[p]? = some ⟨true, ys⟩)
    (hsd : sameDimension u v = .ok true) (hr : v.repr fs ≠ u.repr fs) :
    (MQuantity.add fs ⟨d, u⟩ (.quantity ⟨.array p, v⟩) m).1 = .error .typeError := by
  have hne := (unitScale_pos hS (built_good hu)).ne'
  obtain ⟨s, e1, e2⟩ := sameDimension_true hsd
  simp [MQuantity.add, hsd, bind, pure, Run.andThen, Run.lift, MQuantity.to, MQuantity.convertTo, e1,
    e2, hr, hne, copyData, readArray, newArray, Run.done, hp, scaleData, Run.raise]

/-- **C99 (comparisons with "or").** `<=`, `>=` and `!=` between float arrays of equal length other
than one raise `ValueError`, while `==`, `<` and `>` compare element by element. -/
theorem C99_order_of_arrays {S : List NamedUnit} (hS : UnitSystem S) (fs : ℚ → Str)
    (test : ℚ → ℚ → Bool) (m : Memory) (p p' : ℕ)
    (u v : BUnit) (hu : Built S u) (i : Bool) (xs ys : List ℚ) (hp : m[p]? = some ⟨i, xs⟩)
    (hp' : m[p']? = some ⟨false, ys⟩) (hl : xs.length = ys.length) (hx : xs.length ≠ 1)
    (hsd : sameDimension u v = .ok true) :
    (MQuantity.orEqual fs test ⟨.array p, u⟩ ⟨.array p', v⟩ m).1 = .error .valueError ∧
    (MQuantity.notEqual fs ⟨.array p, u⟩ ⟨.array p', v⟩ m).1 = .error .valueError ∧
    ∃ bs, (MQuantity.compare fs test ⟨.array p, u⟩ ⟨.array p', v⟩ m).1 = .ok bs ∧
      List.zipWith (fun x y => Quantity.compare fs test ⟨x, u⟩ (.quantity ⟨y, v⟩)) xs ys =
        bs.map fun b => .ok (.bool b) := by
  have hne := (unitScale_pos hS (built_good hu)).ne'
  rcases to_uniform fs v u with ⟨k, hk, hto⟩ | ⟨e, he, -⟩
  · obtain ⟨d', t, h1, -, h3⟩ := hto m (.array p') (fun q a hq ha => by
      cases hq; rw [hp'] at ha; cases ha; rfl) ys (.inl (by simp [Ref.value, hp']))
    obtain ⟨p2, j, rfl, h4⟩ := value_array (h3 (by simp [Ref.value, hp']))
    have hpt : (m ++ t)[p]? = some ⟨i, xs⟩ := by
      rw [List.getElem?_append_left (List.getElem?_eq_some_iff.1 hp).1, hp]
    have hc : ∀ test : ℚ → ℚ → Bool, MQuantity.compare fs test ⟨.array p, u⟩ ⟨.array p', v⟩ m =
        (.ok (List.zipWith test xs (ys.map k)), m ++ t) := by
      intro test
      simp [MQuantity.compare, hsd, bind, pure, Run.andThen, Run.lift, h1, compareData, readArray,
        hpt, h4, hl, Run.done]
    have htr : ∀ test : ℚ → ℚ → Bool, truth (List.zipWith test xs (ys.map k)) =
        Run.raise .valueError := by
      intro test
      have hlen : (List.zipWith test xs (ys.map k)).length ≠ 1 := by simpa [← hl] using hx
      match List.zipWith test xs (ys.map k), hlen with
      | [], _ => rfl
      | _ :: _ :: _, _ => rfl
    refine ⟨?_, ?_, _, by rw [hc test], ?_⟩
    · simp [MQuantity.orEqual, bind, Run.andThen, hc, htr, Run.raise]
    · simp [MQuantity.notEqual, bind, Run.andThen, hc, htr, Run.raise]
    · clear hc htr hpt h3 h4 h1 hp hp' hl hx
      induction xs generalizing ys with
      | nil => rfl
      | cons x xs ih =>
        cases ys with
        | nil => rfl
        | cons y ys =>
          simp only [List.map_cons, List.zipWith_cons_cons]
          rw [ih ys]
          simp [Quantity.compare, hsd, hk]
  · exfalso
    obtain ⟨s, e1, e2⟩ := sameDimension_true hsd
    have := he 0
    simp only [Quantity.to, Quantity.convertTo, e1, e2, ne_eq, not_true, if_false, hne] at this
    split at this <;> cases this

/-! ### Non-vacuity -/

/-- An array of three kilometre values, one of metres and one with a single element. -/
def demoMemory : Memory := [⟨false, [1, 2, 3]⟩, ⟨false, [500, 250, 0]⟩, ⟨false, [100]⟩]

example : Operands demoMemory (.array 0) (.array 1) [1, 2, 3] [500, 250, 0] ∧
    Operands demoMemory (.array 0) (.array 2) [1, 2, 3] [100, 100, 100] ∧
    Operands demoMemory (.number true 7) (.array 1) [7, 7, 7] [500, 250, 0] ∧
    NotIntArray demoMemory (.array 1) := by
  refine ⟨⟨rfl, .inl rfl, .inl rfl, .inl rfl⟩, ⟨rfl, .inl rfl, .inr ⟨100, rfl, .inr rfl⟩, .inl rfl⟩,
    ⟨rfl, .inr ⟨7, rfl, .inl rfl⟩, .inl rfl, .inr rfl⟩, ?_⟩
  intro p a hp ha
  cases hp
  cases ha
  rfl

example : ((MQuantity.add (fmtFixed 6) ⟨.array 0, .named km⟩ (.quantity ⟨.array 1, .named m⟩)
      demoMemory).1 = .ok ⟨.array 4, .named km⟩) ∧
    (MQuantity.add (fmtFixed 6) ⟨.array 0, .named km⟩ (.quantity ⟨.array 1, .named m⟩)
      demoMemory).2[4]? = some ⟨false, [3/2, 9/4, 3]⟩ ∧
    sameDimension (.named km) (.named m) = .ok true := by decide +kernel

end Celest.Units
