/-
Helper lemmas on the request handler and its operators.
-/
import Verif.Schedule.Spec
import Mathlib.Tactic.Linarith
import Mathlib.Tactic.Ring
import Mathlib.Tactic.FieldSimp
import Mathlib.Tactic.NormNum

namespace Celest.Schedule

/-! ### list facts -/

theorem modify_split {α : Type*} {l : List α} {i : ℕ} {r : α} (h : l[i]? = some r) :
    ∃ l₁ l₂, l = l₁ ++ r :: l₂ ∧ l₁.length = i ∧ ∀ f, l.modify i f = l₁ ++ f r :: l₂ := by
  obtain ⟨hi, hr⟩ := List.getElem?_eq_some_iff.1 h
  refine ⟨l.take i, l.drop (i + 1), ?_, by simp; omega, fun f => ?_⟩
  · rw [← hr, List.getElem_cons_drop, List.take_append_drop]
  · subst hr
    rw [List.modify_eq_take_cons_drop hi]

theorem forall₂_refl {α : Type*} {R : α → α → Prop} (hR : ∀ a, R a a) (l : List α) :
    List.Forall₂ R l l := by
  induction l with
  | nil => exact .nil
  | cons a l ih => exact .cons (hR a) ih

/-! ### iteration -/

theorem iterFrom_eq (h : Handler) : ∀ (fuel i : ℕ), h.requests.length ≤ fuel + i →
    h.iterFrom fuel i = (h.requests.drop i).dropLast := by
  intro fuel
  induction fuel with
  | zero =>
    intro i hi
    rw [List.drop_eq_nil_of_le (by omega)]; rfl
  | succ n ih =>
    intro i hi
    unfold Handler.iterFrom Handler.next
    by_cases hlt : i + 1 < h.requests.length
    · simp only [hlt, if_true]
      have hi' : i < h.requests.length := by omega
      rw [List.getElem?_eq_getElem hi']
      simp only
      rw [ih (i + 1) (by omega)]
      rw [List.drop_eq_getElem_cons hi']
      rw [List.dropLast_cons_of_ne_nil]
      intro hnil
      have := congrArg List.length hnil
      simp at this; omega
    · simp only [hlt, if_false]
      rcases Nat.lt_or_ge i h.requests.length with h1 | h1
      · rw [List.drop_eq_getElem_cons h1, List.drop_eq_nil_of_le (by omega)]; rfl
      · rw [List.drop_eq_nil_of_le h1]; rfl

theorem forLoop_eq (h : Handler) : h.forLoop = h.requests.dropLast := by
  rw [Handler.forLoop, iterFrom_eq h _ 0 (by omega), List.drop_zero]

end Celest.Schedule
