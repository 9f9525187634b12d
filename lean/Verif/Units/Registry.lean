/-
The package's own units form a unit system in the sense of the specification.
-/
import Verif.Units.LemmasQuantity

namespace Celest.Units

open Celest.Text (Str fmtFixed)

theorem registry_system : UnitSystem registry where
  ids := by decide +kernel
  pos := by decide +kernel
  stems := by decide +kernel
  letter := by
    have h : registry.all (fun a => match a.name with
        | [] => false
        | c :: _ => c.isAlpha) = true := by decide +kernel
    rw [List.all_eq_true] at h
    intro a ha
    have := h a ha
    cases hn : a.name with
    | nil => rw [hn] at this; cases this
    | cons c t => rw [hn] at this; exact ⟨c, rfl, this⟩
  plain := by decide +kernel
  dims := by
    have h : registry.all (fun a => match dimensionDictionary.lookup a.name, a.bases with
        | some d, [(b, p)] => p = 1 ∧ dimensionDictionary.lookup b = some d
        | _, _ => false) = true := by decide +kernel
    rw [List.all_eq_true] at h
    intro a ha
    have h := h a ha
    split at h
    · rename_i d b p h1 h2
      simp only [decide_eq_true_eq] at h
      obtain ⟨rfl, h⟩ := h
      exact ⟨d, h1, b, h2, h⟩
    · cases h

/-- Fixed-point text is one way of writing floats that meets `FloatStr`. -/
theorem floatStr_fixed : FloatStr (fmtFixed 6) := by
  intro x
  have hc := Celest.Text.fmtFixed_chars 6 x
  constructor
  · cases h : fmtFixed 6 x with
    | nil =>
      exfalso
      rw [Celest.Text.fmtFixed_eq] at h
      have := List.append_eq_nil_iff.1 h
      obtain ⟨c, t, ht, _⟩ := Celest.Text.unsignedText_head 6
        (Celest.Text.roundHalfEven (|x| * 10 ^ 6))
      simp_all
    | cons c t =>
      refine ⟨c, rfl, ?_⟩
      have := hc c (by rw [h]; simp)
      rcases this with h | rfl | rfl
      · refine ⟨?_, ?_⟩
        · simp only [Char.isAlpha, Char.isUpper, Char.isLower, Char.isDigit] at *
          simp only [Bool.and_eq_true, decide_eq_true_eq, Bool.or_eq_false_iff,
            Bool.and_eq_false_iff, decide_eq_false_iff_not] at *
          constructor
          · intro h'
            have := UInt32.le_trans h'.1 h.2
            revert this; decide
          · left
            intro h'
            have := UInt32.le_trans h' h.2
            revert this; decide
        · rintro rfl; revert h; decide
      · exact ⟨by decide, by decide⟩
      · exact ⟨by decide, by decide⟩
  · exact fun c h => (Celest.Text.fmtFixed_no_space 6 x c h).1

end Celest.Units
