/-
Lemmas for C125: exponents, factors and texts of units with fractional powers.
-/
import Verif.Units.SpecFractional
import Verif.Units.LemmasStr
import Mathlib.Algebra.Order.BigOperators.Group.Finset
import Mathlib.Analysis.SpecialFunctions.Pow.NNReal
import Mathlib.Tactic.NormNum.Basic

namespace Celest.Units.Frac

open Celest.Text (Str natStr)

theorem Num.add_value (a b : Num) : (a.add id b).value = a.value + b.value := by
  cases a <;> cases b <;> simp [Num.add, Num.value]

theorem Num.mul_value (a b : Num) : (a.mul id b).value = a.value * b.value := by
  cases a <;> cases b <;> simp [Num.mul, Num.value]

theorem Num.mul_one' (a : Num) : a.mul id (.int 1) = a := by
  cases a <;> simp [Num.mul, Num.value]

theorem Num.one_mul' (a : Num) : (Num.int 1).mul id a = a := by
  cases a <;> simp [Num.mul, Num.value]

@[simp] theorem Num.one_value : (Num.int 1).value = 1 := by simp [Num.value]

@[simp] theorem Num.neg_one_value : (Num.int (-1)).value = -1 := by simp [Num.value]

/-! ### Lists of bases -/

/-- Exponent of `n` in a list of bases. -/
def lexpo (l : List (NamedUnit × Num)) (n : NamedUnit) : ℚ :=
  (l.map fun b => if b.1 = n then b.2.value else 0).sum

/-- All bases are in `S`. -/
def OverS (S : List NamedUnit) (l : List (NamedUnit × Num)) : Prop := ∀ b ∈ l, b.1 ∈ S

/-- No object is listed twice. -/
def NodupIds (l : List (NamedUnit × Num)) : Prop := (l.map fun b => b.1.id).Nodup

/-- Shape of the unit objects built by arithmetic. -/
def Good (S : List NamedUnit) : FUnit → Prop
  | .named n => n ∈ S
  | .compound c => OverS S c.bases ∧ NodupIds c.bases ∧ (c.unity = true → c.bases = [])

section
variable {S : List NamedUnit} (hS : UnitSystem S)

@[simp] theorem lexpo_nil (n : NamedUnit) : lexpo [] n = 0 := rfl

@[simp] theorem lexpo_cons (b : NamedUnit × Num) (l : List (NamedUnit × Num)) (n : NamedUnit) :
    lexpo (b :: l) n = (if b.1 = n then b.2.value else 0) + lexpo l n := by simp [lexpo]

theorem lexpo_append (l l' : List (NamedUnit × Num)) (n : NamedUnit) :
    lexpo (l ++ l') n = lexpo l n + lexpo l' n := by simp [lexpo]

theorem hasId_iff (id : ℕ) (l : List (NamedUnit × Num)) :
    hasId id l = true ↔ id ∈ l.map fun b => b.1.id := by
  simp [hasId, List.any_eq_true]

include hS in
theorem hasId_mem {n : NamedUnit} {l : List (NamedUnit × Num)} (hl : OverS S l) (hn : n ∈ S) :
    hasId n.id l = true ↔ ∃ p, (n, p) ∈ l := by
  rw [hasId_iff, List.mem_map]
  constructor
  · rintro ⟨⟨b, p⟩, hb, he⟩
    have := hS.ids b (hl _ hb) n hn he
    subst this
    exact ⟨p, hb⟩
  · rintro ⟨p, hp⟩
    exact ⟨(n, p), hp, rfl⟩

theorem lexpo_of_not_mem {l : List (NamedUnit × Num)} {n : NamedUnit}
    (h : hasId n.id l = false) : lexpo l n = 0 := by
  induction l with
  | nil => rfl
  | cons b l ih =>
    simp only [hasId, List.any_cons, Bool.or_eq_false_iff, decide_eq_false_iff_not] at h
    rw [lexpo_cons, ih h.2, if_neg]
    · norm_num
    · intro e; exact h.1 (by rw [e])

include hS in
theorem handleRepeated_expo (l : List (NamedUnit × Num)) (b : NamedUnit) (p : Num) (n : NamedUnit)
    (hl : OverS S l) (hb : b ∈ S) (h : hasId b.id l = true) :
    lexpo (handleRepeated id l b p) n = lexpo l n + if b = n then p.value else 0 := by
  induction l with
  | nil => simp [hasId] at h
  | cons a l ih =>
    obtain ⟨a, q⟩ := a
    rw [handleRepeated]
    by_cases hab : a.id = b.id
    · have hab' : a = b := hS.ids a (hl (a, q) (by simp)) b hb hab
      subst hab'
      rw [if_pos rfl]
      rw [Num.add_value]
      split_ifs with h0 hn hn
      · rw [lexpo_cons, if_pos hn]; linarith
      · rw [lexpo_cons, if_neg hn]; ring
      · rw [lexpo_cons, lexpo_cons, if_pos hn, if_pos hn, Num.add_value]; ring
      · rw [lexpo_cons, lexpo_cons, if_neg hn, if_neg hn]; ring
    · rw [if_neg hab, lexpo_cons, lexpo_cons, ih (fun x hx => hl x (by simp [hx]))]
      · ring
      · rw [hasId_iff] at h ⊢
        simpa [Ne.symm hab] using h

theorem handleRepeated_ids (l : List (NamedUnit × Num)) (b : NamedUnit) (p : Num) :
    (handleRepeated id l b p).map (fun b => b.1.id) = l.map (fun b => b.1.id) ∨
    (handleRepeated id l b p).map (fun b => b.1.id) = (l.map (fun b => b.1.id)).erase b.id := by
  induction l with
  | nil => left; rfl
  | cons a l ih =>
    obtain ⟨a, q⟩ := a
    rw [handleRepeated]
    split_ifs with h h0
    · right; simp [h]
    · left; simp
    · rcases ih with ih | ih
      · left; simp [ih]
      · right
        rw [List.map_cons, List.map_cons, List.erase_cons_tail (by simpa using h), ih]

theorem handleRepeated_over (l : List (NamedUnit × Num)) (b : NamedUnit) (p : Num)
    (hl : OverS S l) : OverS S (handleRepeated id l b p) := by
  induction l with
  | nil => exact hl
  | cons a l ih =>
    obtain ⟨a, q⟩ := a
    have ha : a ∈ S := hl (a, q) (by simp)
    have hl' : OverS S l := fun x hx => hl x (by simp [hx])
    rw [handleRepeated]
    split_ifs with h h0
    · exact hl'
    · intro x hx
      rcases List.mem_cons.1 hx with rfl | hx
      · exact ha
      · exact hl' _ hx
    · intro x hx
      rcases List.mem_cons.1 hx with rfl | hx
      · exact ha
      · exact ih hl' _ hx

theorem handleRepeated_nodup (l : List (NamedUnit × Num)) (b : NamedUnit) (p : Num)
    (hl : NodupIds l) : NodupIds (handleRepeated id l b p) := by
  unfold NodupIds at *
  rcases handleRepeated_ids l b p with h | h
  · rw [h]; exact hl
  · rw [h]; exact hl.erase _

theorem handleRepeated_hasId_other (l : List (NamedUnit × Num)) (b : NamedUnit) (p : Num) (i : ℕ)
    (hi : i ≠ b.id) : hasId i (handleRepeated id l b p) = hasId i l := by
  rw [Bool.eq_iff_iff, hasId_iff, hasId_iff]
  rcases handleRepeated_ids l b p with h | h
  · rw [h]
  · rw [h, List.mem_erase_of_ne hi]

/-! ### Adding one base -/

theorem addNested_over (k : Num) (l : List (NamedUnit × Num)) (b : NamedUnit × Num)
    (hl : OverS S l) (hb : b.1 ∈ S) : OverS S (addNested id k l b) := by
  unfold addNested
  split_ifs
  · exact handleRepeated_over _ _ _ hl
  · intro x hx
    rcases List.mem_append.1 hx with hx | hx
    · exact hl x hx
    · rw [List.mem_singleton] at hx; subst hx; exact hb

theorem nodup_append_new (l : List (NamedUnit × Num)) (n : NamedUnit) (p : Num) (hl : NodupIds l)
    (h : ¬ hasId n.id l = true) : NodupIds (l ++ [(n, p)]) := by
  unfold NodupIds at *
  rw [hasId_iff] at h
  rw [List.map_append, List.nodup_append]
  refine ⟨hl, by simp, ?_⟩
  intro a ha b hb
  simp only [List.map_cons, List.map_nil, List.mem_singleton] at hb
  subst hb
  rintro rfl
  exact h ha

theorem addNested_nodup (k : Num) (l : List (NamedUnit × Num)) (b : NamedUnit × Num)
    (hl : NodupIds l) : NodupIds (addNested id k l b) := by
  unfold addNested
  split_ifs with h
  · exact handleRepeated_nodup _ _ _ hl
  · exact nodup_append_new _ _ _ hl h

theorem addNested_hasId_other (k : Num) (l : List (NamedUnit × Num)) (b : NamedUnit × Num) (i : ℕ)
    (hi : i ≠ b.1.id) : hasId i (addNested id k l b) = hasId i l := by
  unfold addNested
  split_ifs
  · exact handleRepeated_hasId_other _ _ _ _ hi
  · simp [hasId, Ne.symm hi]

include hS in
theorem addNested_expo (k : Num) (l : List (NamedUnit × Num)) (b : NamedUnit × Num) (n : NamedUnit)
    (hl : OverS S l) (hb : b.1 ∈ S) :
    lexpo (addNested id k l b) n = lexpo l n +
      if b.1 = n then (if hasId n.id l then b.2.value else b.2.value * k.value) else 0 := by
  unfold addNested
  by_cases h : hasId b.1.id l = true
  · rw [if_pos h, handleRepeated_expo hS l b.1 b.2 n hl hb h]
    by_cases hn : b.1 = n
    · rw [if_pos hn, if_pos hn, if_pos (hn ▸ h)]
    · rw [if_neg hn, if_neg hn]
  · rw [if_neg h, lexpo_append, lexpo_cons, lexpo_nil]
    by_cases hn : b.1 = n
    · rw [if_pos hn, if_pos hn, if_neg (hn ▸ h), Num.mul_value]; ring
    · rw [if_neg hn, if_neg hn]; ring

/-! ### Adding a compound -/

theorem foldl_addNested_shape (k : Num) (c l : List (NamedUnit × Num)) (hc : OverS S c)
    (hl : OverS S l) (hn : NodupIds l) :
    OverS S (c.foldl (addNested id k) l) ∧ NodupIds (c.foldl (addNested id k) l) := by
  induction c generalizing l with
  | nil => exact ⟨hl, hn⟩
  | cons b c ih =>
    exact ih _ (fun x hx => hc x (by simp [hx])) (addNested_over k l b hl (hc b (by simp)))
      (addNested_nodup k l b hn)

include hS in
theorem foldl_addNested_expo (k : Num) (c l : List (NamedUnit × Num)) (n : NamedUnit)
    (hc : OverS S c) (hcn : NodupIds c) (hl : OverS S l) :
    lexpo (c.foldl (addNested id k) l) n =
      lexpo l n + lexpo c n * (if hasId n.id l then 1 else k.value) := by
  induction c generalizing l with
  | nil => simp
  | cons b c ih =>
    have hb : b.1 ∈ S := hc b (by simp)
    have hc' : OverS S c := fun x hx => hc x (by simp [hx])
    have hcn' : NodupIds c := (List.nodup_cons.1 hcn).2
    have hbc : hasId b.1.id c = false := by
      rw [Bool.eq_false_iff, Ne, hasId_iff]
      exact (List.nodup_cons.1 hcn).1
    rw [List.foldl_cons, ih _ hc' hcn' (addNested_over k l b hl hb),
      addNested_expo hS k l b n hl hb, lexpo_cons]
    by_cases hn : b.1 = n
    · subst hn
      rw [if_pos rfl, if_pos rfl, lexpo_of_not_mem hbc]
      split_ifs <;> ring
    · rw [if_neg hn, if_neg hn]
      by_cases hid : n.id = b.1.id
      · have : lexpo c n = 0 := lexpo_of_not_mem (by rw [hid]; exact hbc)
        rw [this]; ring
      · rw [addNested_hasId_other k l b _ hid]; ring

/-- The bases of a unit object, as `_expand_and_collect` sees them. -/
def FUnit.entries : FUnit → List (NamedUnit × Num)
  | .named n => [(n, .int 1)]
  | .compound c => c.bases

theorem exponent_eq (u : FUnit) (n : NamedUnit) : u.exponent n = lexpo u.entries n := by
  cases u with
  | named m => simp [FUnit.exponent, FUnit.entries, lexpo]
  | compound c => rfl

theorem Good.over {u : FUnit} (h : Good S u) : OverS S u.entries := by
  cases u with
  | named n =>
    intro x hx
    rw [FUnit.entries, List.mem_singleton] at hx
    subst hx; exact h
  | compound c => exact h.1

theorem Good.nodup {u : FUnit} (h : Good S u) : NodupIds u.entries := by
  cases u with
  | named n => simp [FUnit.entries, NodupIds]
  | compound c => exact h.2.1

theorem collectStep_shape (l : List (NamedUnit × Num)) (u : FUnit) (k : Num) (hu : Good S u)
    (hl : OverS S l) (hn : NodupIds l) :
    OverS S (collectStep id l (u, k)) ∧ NodupIds (collectStep id l (u, k)) := by
  cases u with
  | named n =>
    simp only [collectStep]
    split_ifs with h
    · exact ⟨handleRepeated_over _ _ _ hl, handleRepeated_nodup _ _ _ hn⟩
    · refine ⟨?_, nodup_append_new _ _ _ hn h⟩
      intro x hx
      rcases List.mem_append.1 hx with hx | hx
      · exact hl x hx
      · rw [List.mem_singleton] at hx; subst hx; exact hu
  | compound c => exact foldl_addNested_shape k c.bases l hu.1 hl hn

/-- What a part with power `k` is multiplied by: of a compound part, only the bases not yet
listed (`seen`) get the power. -/
def coeff (k : Num) (seen : Bool) : FUnit → ℚ
  | .named _ => k.value
  | .compound _ => if seen then 1 else k.value

include hS in
/-- Effect of one part on the exponents: of a compound part, only the bases not yet listed are
multiplied by the power. -/
theorem collectStep_expo (l : List (NamedUnit × Num)) (u : FUnit) (k : Num) (n : NamedUnit)
    (hu : Good S u) (hl : OverS S l) :
    lexpo (collectStep id l (u, k)) n = lexpo l n + u.exponent n *
      coeff k (hasId n.id l) u := by
  cases u with
  | named m =>
    simp only [collectStep, FUnit.exponent, coeff]
    split_ifs with h hm hm
    · rw [handleRepeated_expo hS l m k n hl hu h, if_pos hm]; ring
    · rw [handleRepeated_expo hS l m k n hl hu h, if_neg hm]; ring
    · rw [lexpo_append, lexpo_cons, if_pos hm]; simp
    · rw [lexpo_append, lexpo_cons, if_neg hm]; simp
  | compound c =>
    exact foldl_addNested_expo hS k c.bases l n hu.1 hu.2.1 hl

theorem foldl_addNested_new (k : Num) (c l : List (NamedUnit × Num)) (hcn : NodupIds c)
    (h : ∀ b ∈ c, hasId b.1.id l = false) :
    c.foldl (addNested id k) l = l ++ c.map fun b => (b.1, b.2.mul id k) := by
  induction c generalizing l with
  | nil => simp
  | cons b c ih =>
    have hb := h b (by simp)
    rw [List.foldl_cons, addNested, if_neg (by rw [hb]; simp), ih _ (List.nodup_cons.1 hcn).2]
    · simp
    · intro b' hb'
      have h1 := h b' (by simp [hb'])
      have h2 : b'.1.id ≠ b.1.id := by
        intro e
        apply (List.nodup_cons.1 hcn).1
        exact List.mem_map.2 ⟨b', hb', e⟩
      rw [Bool.eq_false_iff, Ne, hasId_iff] at h1 ⊢
      simp only [List.map_append, List.map_cons, List.map_nil, List.mem_append, List.mem_singleton,
        not_or]
      exact ⟨h1, h2⟩

theorem collectStep_nil (u : FUnit) (k : Num) (hu : Good S u) :
    collectStep id [] (u, k) = u.entries.map fun b => (b.1, b.2.mul id k) := by
  cases u with
  | named n => simp [collectStep, hasId, FUnit.entries, Num.one_mul']
  | compound c =>
    have := foldl_addNested_new k c.bases [] hu.2.1 (by simp [hasId])
    simpa [collectStep, FUnit.entries] using this

theorem lexpo_map_mul (l : List (NamedUnit × Num)) (k : Num) (n : NamedUnit) :
    lexpo (l.map fun b => (b.1, b.2.mul id k)) n = lexpo l n * k.value := by
  induction l with
  | nil => simp
  | cons b l ih =>
    rw [List.map_cons, lexpo_cons, lexpo_cons, ih]
    dsimp only
    rw [Num.mul_value]
    split_ifs <;> ring

theorem hasId_map_mul (l : List (NamedUnit × Num)) (k : Num) (i : ℕ) :
    hasId i (l.map fun b => (b.1, b.2.mul id k)) = hasId i l := by
  rw [Bool.eq_iff_iff, hasId_iff, hasId_iff, List.map_map]; rfl

theorem over_map_mul (l : List (NamedUnit × Num)) (k : Num) (h : OverS S l) :
    OverS S (l.map fun b => (b.1, b.2.mul id k)) := by
  intro x hx
  obtain ⟨y, hy, rfl⟩ := List.mem_map.1 hx
  exact h y hy

theorem nodup_map_mul (l : List (NamedUnit × Num)) (k : Num) (h : NodupIds l) :
    NodupIds (l.map fun b => (b.1, b.2.mul id k)) := by
  unfold NodupIds at *
  rw [List.map_map]; exact h

/-! ### Compound units of one or two parts -/

theorem init_one_bases (s : ℝ) (u : FUnit) (k : Num) (hu : Good S u) :
    (Compound.init id s [(u, k)]).bases = (u.entries.map fun b => (b.1, b.2.mul id k)) ∨
    (k.value = 0 ∧ (Compound.init id s [(u, k)]).bases = []) := by
  cases u with
  | named n =>
    simp only [Compound.init]
    split_ifs with h h0
    · right; exact ⟨h0, rfl⟩
    · left; simp [FUnit.entries, Num.one_mul']
    · left
      simp only [expandAndCollect, List.foldl_cons, List.foldl_nil]
      exact collectStep_nil _ _ hu
  | compound c =>
    left
    simp only [Compound.init, expandAndCollect, List.foldl_cons, List.foldl_nil]
    exact collectStep_nil _ _ hu

theorem init_one_good (s : ℝ) (u : FUnit) (k : Num) (hu : Good S u) :
    Good S (.compound (Compound.init id s [(u, k)])) := by
  refine ⟨?_, ?_, ?_⟩
  · rcases init_one_bases s u k hu with h | ⟨_, h⟩
    · rw [h]; exact over_map_mul _ _ hu.over
    · rw [h]; intro x hx; simp at hx
  · rcases init_one_bases s u k hu with h | ⟨_, h⟩
    · rw [h]; exact nodup_map_mul _ _ hu.nodup
    · rw [h]; simp [NodupIds]
  · cases u with
    | named n =>
      simp only [Compound.init]
      split_ifs <;> simp
    | compound c => simp [Compound.init]

theorem init_one_expo (s : ℝ) (u : FUnit) (k : Num) (hu : Good S u) (n : NamedUnit) :
    (FUnit.compound (Compound.init id s [(u, k)])).exponent n = k.value * u.exponent n := by
  rw [exponent_eq, exponent_eq, FUnit.entries]
  rcases init_one_bases s u k hu with h | ⟨hk, h⟩
  · rw [h, lexpo_map_mul]; ring
  · rw [h, hk]; simp

theorem init_two_bases (s : ℝ) (u v : FUnit) (k : Num) (hu : Good S u) :
    (Compound.init id s [(u, .int 1), (v, k)]).bases = collectStep id u.entries (v, k) := by
  have h : (Compound.init id s [(u, .int 1), (v, k)]).bases = expandAndCollect id [(u, .int 1), (v, k)] := by
    cases u <;> rfl
  rw [h, expandAndCollect, List.foldl_cons, List.foldl_cons, List.foldl_nil,
    collectStep_nil u (.int 1) hu]
  congr 1
  simp [Num.mul_one']

theorem init_two_good (s : ℝ) (u v : FUnit) (k : Num) (hu : Good S u) (hv : Good S v) :
    Good S (.compound (Compound.init id s [(u, .int 1), (v, k)])) := by
  have hb := init_two_bases s u v k hu
  have hs := collectStep_shape u.entries v k hv hu.over hu.nodup
  refine ⟨?_, ?_, ?_⟩
  · rw [hb]; exact hs.1
  · rw [hb]; exact hs.2
  · cases u <;> simp [Compound.init]

include hS in
theorem init_two_expo (s : ℝ) (u v : FUnit) (k : Num) (hu : Good S u) (hv : Good S v)
    (n : NamedUnit) :
    (FUnit.compound (Compound.init id s [(u, .int 1), (v, k)])).exponent n =
      u.exponent n + v.exponent n *
      coeff k (hasId n.id u.entries) v := by
  rw [exponent_eq, FUnit.entries, init_two_bases s u v k hu,
    collectStep_expo hS _ v k n hv hu.over, exponent_eq u]

include hS in
theorem lists_iff {u : FUnit} (hu : Good S u) {n : NamedUnit} (hn : n ∈ S) :
    hasId n.id u.entries = true ↔ u.lists n := by
  rw [hasId_mem hS hu.over hn]
  cases u with
  | named m =>
    simp only [FUnit.entries, List.mem_singleton, Prod.mk.injEq, FUnit.lists]
    exact ⟨fun ⟨_, h, _⟩ => h.symm, fun h => ⟨.int 1, h.symm, rfl⟩⟩
  | compound c => rfl

theorem exponent_of_not_mem {u : FUnit} (hu : Good S u) {n : NamedUnit} (hn : n ∉ S) :
    u.exponent n = 0 := by
  rw [exponent_eq]
  have h := hu.over
  generalize u.entries = l at h
  induction l with
  | nil => rfl
  | cons b l ih =>
    rw [lexpo_cons, ih (fun x hx => h x (by simp [hx])), if_neg]
    · norm_num
    · intro e; exact hn (e ▸ h b (by simp))

/-! ### Operations -/

theorem mul_good (u v : FUnit) (hu : Good S u) (hv : Good S v) : Good S (u.mul id v) := by
  unfold FUnit.mul
  split_ifs
  · exact hu
  · exact hv
  · exact init_two_good 1 u v (.int 1) hu hv

theorem unity_expo {u : FUnit} (hu : Good S u) (h : u.isUnity = true) (n : NamedUnit) :
    u.exponent n = 0 := by
  cases u with
  | named m => simp [FUnit.isUnity] at h
  | compound c =>
    rw [exponent_eq, FUnit.entries, hu.2.2 h]; rfl

include hS in
theorem mul_expo (u v : FUnit) (hu : Good S u) (hv : Good S v) (n : NamedUnit) :
    (u.mul id v).exponent n = u.exponent n + v.exponent n := by
  unfold FUnit.mul
  split_ifs with h1 h2
  · rw [unity_expo hv h1]; ring
  · rw [unity_expo hu h2]; ring
  · rw [init_two_expo hS 1 u v (.int 1) hu hv]
    cases v <;> simp [coeff]

theorem eval_good (e : FExpr) (h : ∀ n ∈ e.atoms, n ∈ S) : Good S (e.eval id) := by
  induction e with
  | unit n => exact h n (by simp [FExpr.atoms])
  | mul a b iha ihb =>
    exact mul_good _ _ (iha fun n hn => h n (by simp [FExpr.atoms, hn]))
      (ihb fun n hn => h n (by simp [FExpr.atoms, hn]))
  | div a b iha ihb =>
    exact init_two_good 1 _ _ _ (iha fun n hn => h n (by simp [FExpr.atoms, hn]))
      (ihb fun n hn => h n (by simp [FExpr.atoms, hn]))
  | inv a ih => exact init_one_good _ _ _ (ih h)
  | pow a k ih => exact init_one_good _ _ _ (ih h)
  | smul k a ih => exact init_one_good _ _ _ (ih h)

theorem built_good {u : FUnit} (h : Built id S u) : Good S u := by
  obtain ⟨e, he, rfl⟩ := h
  exact eval_good e he

/-- Bases listed by the unit of a formula occur in the formula. -/
theorem eval_over_atoms (e : FExpr) : OverS e.atoms (e.eval id).entries :=
  (eval_good e fun _ h => h).over

theorem lists_atoms {e : FExpr} {n : NamedUnit} (h : (e.eval id).lists n) : n ∈ e.atoms := by
  have ho := eval_over_atoms e
  revert h ho
  generalize (e.eval id) = u
  intro h ho
  cases u with
  | named m =>
    have : m = n := h
    subst this
    exact ho (m, .int 1) (by simp [FUnit.entries])
  | compound c =>
    obtain ⟨p, hp⟩ := h
    exact ho (n, p) hp

theorem isNamed_eval {e : FExpr} (h : e.isNamed = true) : ∃ n, (e.eval id) = .named n := by
  cases e <;> simp [FExpr.isNamed] at h
  exact ⟨_, rfl⟩

include hS in
/-- For safe formulas the unit object has the formula's exponents. -/
theorem eval_expo (e : FExpr) (h : ∀ n ∈ e.atoms, n ∈ S) (hs : e.Safe) (n : NamedUnit) :
    (e.eval id).exponent n = e.expo n := by
  induction e with
  | unit m => rfl
  | mul a b iha ihb =>
    have ha : ∀ n ∈ a.atoms, n ∈ S := fun n hn => h n (by simp [FExpr.atoms, hn])
    have hb : ∀ n ∈ b.atoms, n ∈ S := fun n hn => h n (by simp [FExpr.atoms, hn])
    rw [FExpr.eval, mul_expo hS _ _ (eval_good a ha) (eval_good b hb), iha ha hs.1, ihb hb hs.2,
      FExpr.expo]
  | div a b iha ihb =>
    have ha : ∀ n ∈ a.atoms, n ∈ S := fun n hn => h n (by simp [FExpr.atoms, hn])
    have hb : ∀ n ∈ b.atoms, n ∈ S := fun n hn => h n (by simp [FExpr.atoms, hn])
    have ga := eval_good a ha
    have gb := eval_good b hb
    rw [FExpr.eval, FUnit.div, init_two_expo hS 1 _ _ _ ga gb, iha ha hs.1, ihb hb hs.2.1,
      FExpr.expo]
    rcases hs.2.2 with hn | hd
    · obtain ⟨x, hx⟩ := isNamed_eval hn
      rw [hx, coeff, Num.neg_one_value]; ring
    · by_cases hnS : n ∈ S
      · by_cases hl : hasId n.id (a.eval id).entries = true
        · have h1 := lists_atoms ((lists_iff hS ga hnS).1 hl)
          have h2 : b.expo n = 0 := by
            rw [← ihb hb hs.2.1]
            exact exponent_of_not_mem (eval_good b fun _ h => h) (hd n h1)
          rw [h2]; ring
        · cases (b.eval id) <;> simp only [coeff, if_neg hl, Num.neg_one_value] <;> ring
      · have h2 : b.expo n = 0 := by
          rw [← ihb hb hs.2.1]; exact exponent_of_not_mem gb hnS
        rw [h2]; ring
  | inv a ih =>
    rw [FExpr.eval, FUnit.inv, init_one_expo (S := S) _ _ _ (eval_good a h), ih h hs, FExpr.expo,
      Num.neg_one_value]
    ring
  | pow a k ih =>
    rw [FExpr.eval, FUnit.pow, init_one_expo (S := S) _ _ _ (eval_good a h), ih h hs, FExpr.expo]
  | smul k a ih => exact hs.elim

/-! ### Factors and dimensions as sums over the exponents -/

include hS in
theorem prod_scale (l : List (NamedUnit × Num)) (hl : OverS S l) :
    (l.map fun b => (b.1.scale : ℝ) ^ (b.2.value : ℝ)).prod =
      ∏ n ∈ S.toFinset, (n.scale : ℝ) ^ (lexpo l n : ℝ) := by
  induction l with
  | nil => simp
  | cons b l ih =>
    have hb : b.1 ∈ S := hl b (by simp)
    rw [List.map_cons, List.prod_cons, ih fun x hx => hl x (by simp [hx])]
    have : ∀ n ∈ S.toFinset, (n.scale : ℝ) ^ (lexpo (b :: l) n : ℝ) =
        (if b.1 = n then (b.1.scale : ℝ) ^ (b.2.value : ℝ) else 1) * (n.scale : ℝ) ^ (lexpo l n : ℝ) := by
      intro n hn
      have h0 : (0 : ℝ) < n.scale := by exact_mod_cast hS.pos n (List.mem_toFinset.1 hn)
      rw [lexpo_cons, Rat.cast_add, Real.rpow_add h0]
      congr 1
      split_ifs with h
      · rw [h]
      · simp
    rw [Finset.prod_congr rfl this, Finset.prod_mul_distrib, Finset.prod_ite_eq,
      if_pos (List.mem_toFinset.2 hb)]

include hS in
theorem unitScale_eq {u : FUnit} (hu : Good S u) :
    unitScale u = ∏ n ∈ S.toFinset, (n.scale : ℝ) ^ (u.exponent n : ℝ) := by
  have h : unitScale u = (u.entries.map fun b => (b.1.scale : ℝ) ^ (b.2.value : ℝ)).prod := by
    cases u <;> simp [unitScale, FUnit.entries]
  rw [h, prod_scale hS _ hu.over]
  exact Finset.prod_congr rfl fun n _ => by rw [exponent_eq]

include hS in
theorem unitScale_pos {u : FUnit} (hu : Good S u) : 0 < unitScale u := by
  rw [unitScale_eq hS hu]
  exact Finset.prod_pos fun n hn =>
    Real.rpow_pos_of_pos (by exact_mod_cast hS.pos n (List.mem_toFinset.1 hn)) _

include hS in
theorem factor_eq (e : FExpr) (h : ∀ n ∈ e.atoms, n ∈ S) (hs : e.Safe) :
    e.factor = ∏ n ∈ S.toFinset, (n.scale : ℝ) ^ (e.expo n : ℝ) := by
  have h0 : ∀ n ∈ S.toFinset, (0 : ℝ) < n.scale := fun n hn => by
    exact_mod_cast hS.pos n (List.mem_toFinset.1 hn)
  induction e with
  | unit m =>
    have hm : m ∈ S := h m (by simp [FExpr.atoms])
    have : ∀ n ∈ S.toFinset, (n.scale : ℝ) ^ ((FExpr.unit m).expo n : ℝ) =
        if m = n then (m.scale : ℝ) else 1 := by
      intro n _
      simp only [FExpr.expo]
      split_ifs with hmn
      · simp [hmn]
      · simp
    rw [Finset.prod_congr rfl this, Finset.prod_ite_eq, if_pos (List.mem_toFinset.2 hm),
      FExpr.factor]
  | mul a b iha ihb =>
    rw [FExpr.factor, iha (fun n hn => h n (by simp [FExpr.atoms, hn])) hs.1,
      ihb (fun n hn => h n (by simp [FExpr.atoms, hn])) hs.2, ← Finset.prod_mul_distrib]
    exact Finset.prod_congr rfl fun n hn => by rw [FExpr.expo, Rat.cast_add, Real.rpow_add (h0 n hn)]
  | div a b iha ihb =>
    rw [FExpr.factor, iha (fun n hn => h n (by simp [FExpr.atoms, hn])) hs.1,
      ihb (fun n hn => h n (by simp [FExpr.atoms, hn])) hs.2.1, ← Finset.prod_div_distrib]
    exact Finset.prod_congr rfl fun n hn => by rw [FExpr.expo, Rat.cast_sub, Real.rpow_sub (h0 n hn)]
  | inv a ih =>
    rw [FExpr.factor, ih h hs, ← Finset.prod_inv_distrib]
    exact Finset.prod_congr rfl fun n hn => by rw [FExpr.expo, Rat.cast_neg, Real.rpow_neg (h0 n hn).le]
  | pow a k ih =>
    rw [FExpr.factor, ih h hs, ← Real.finset_prod_rpow _ _ fun n hn => (Real.rpow_pos_of_pos (h0 n hn) _).le]
    exact Finset.prod_congr rfl fun n hn => by
      rw [FExpr.expo, ← Real.rpow_mul (h0 n hn).le, Rat.cast_mul, mul_comm]
  | smul k a ih => exact hs.elim

include hS in
theorem unitScale_eval (e : FExpr) (h : ∀ n ∈ e.atoms, n ∈ S) (hs : e.Safe) :
    unitScale (e.eval id) = e.factor := by
  rw [unitScale_eq hS (eval_good e h), factor_eq hS e h hs]
  exact Finset.prod_congr rfl fun n _ => by rw [eval_expo hS e h hs]

/-- Contribution of a named unit to the dimension `d`. -/
def dimWeight (d : Char) (n : NamedUnit) : ℚ :=
  if dimensionDictionary.lookup n.name = some d then 1 else 0

theorem sum_dim (l : List (NamedUnit × Num)) (hl : OverS S l) (d : Char) :
    (l.map fun b => if dimensionDictionary.lookup b.1.name = some d then b.2.value else 0).sum =
      ∑ n ∈ S.toFinset, lexpo l n * dimWeight d n := by
  induction l with
  | nil => simp
  | cons b l ih =>
    have hb : b.1 ∈ S := hl b (by simp)
    rw [List.map_cons, List.sum_cons, ih fun x hx => hl x (by simp [hx])]
    have : ∀ n ∈ S.toFinset, lexpo (b :: l) n * dimWeight d n =
        (if b.1 = n then b.2.value * dimWeight d b.1 else 0) + lexpo l n * dimWeight d n := by
      intro n _
      rw [lexpo_cons, add_mul]
      congr 1
      split_ifs with h
      · rw [h]
      · simp
    rw [Finset.sum_congr rfl this, Finset.sum_add_distrib, Finset.sum_ite_eq,
      if_pos (List.mem_toFinset.2 hb)]
    congr 1
    unfold dimWeight
    split_ifs <;> ring

theorem dim_eq {u : FUnit} (hu : Good S u) (d : Char) :
    u.dim d = ∑ n ∈ S.toFinset, u.exponent n * dimWeight d n := by
  have h : u.dim d = (u.entries.map fun b =>
      if dimensionDictionary.lookup b.1.name = some d then b.2.value else 0).sum := by
    cases u <;> simp [FUnit.dim, FUnit.entries]
  rw [h, sum_dim _ hu.over]
  exact Finset.sum_congr rfl fun n _ => by rw [exponent_eq]

theorem expr_dim_eq (e : FExpr) (h : ∀ n ∈ e.atoms, n ∈ S) (d : Char) :
    e.dim d = ∑ n ∈ S.toFinset, e.expo n * dimWeight d n := by
  induction e with
  | unit m =>
    have hm : m ∈ S := h m (by simp [FExpr.atoms])
    have : ∀ n ∈ S.toFinset, (FExpr.unit m).expo n * dimWeight d n =
        if m = n then dimWeight d m else 0 := by
      intro n _
      simp only [FExpr.expo]
      split_ifs with hmn
      · rw [hmn, one_mul]
      · simp
    rw [Finset.sum_congr rfl this, Finset.sum_ite_eq, if_pos (List.mem_toFinset.2 hm)]
    rfl
  | mul a b iha ihb =>
    rw [FExpr.dim, iha (fun n hn => h n (by simp [FExpr.atoms, hn])),
      ihb (fun n hn => h n (by simp [FExpr.atoms, hn])), ← Finset.sum_add_distrib]
    exact Finset.sum_congr rfl fun n hn => by rw [FExpr.expo]; ring
  | div a b iha ihb =>
    rw [FExpr.dim, iha (fun n hn => h n (by simp [FExpr.atoms, hn])),
      ihb (fun n hn => h n (by simp [FExpr.atoms, hn])), ← Finset.sum_sub_distrib]
    exact Finset.sum_congr rfl fun n hn => by rw [FExpr.expo]; ring
  | inv a ih =>
    rw [FExpr.dim, ih h, ← Finset.sum_neg_distrib]
    exact Finset.sum_congr rfl fun n hn => by rw [FExpr.expo]; ring
  | pow a k ih =>
    rw [FExpr.dim, ih h, Finset.mul_sum]
    exact Finset.sum_congr rfl fun n hn => by rw [FExpr.expo]; ring
  | smul k a ih =>
    rw [FExpr.dim, ih h]
    exact Finset.sum_congr rfl fun n hn => by rw [FExpr.expo]

include hS in
theorem dim_eval (e : FExpr) (h : ∀ n ∈ e.atoms, n ∈ S) (hs : e.Safe) (d : Char) :
    (e.eval id).dim d = e.dim d := by
  rw [dim_eq (eval_good e h), expr_dim_eq e h]
  exact Finset.sum_congr rfl fun n _ => by rw [eval_expo hS e h hs]

end

end Celest.Units.Frac
