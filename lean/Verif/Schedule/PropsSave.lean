/-
C69: saving the windows returned by `generate` to a text file (the part on windows with attitude is in
Verif/Windows/Saved.lean).
-/
import Verif.Schedule.PropsSchedule
import Verif.Text.Model

namespace Celest.Schedule

open Text (Str Files ObsRow saveObservations firstAttitude)

/-- The row `save_text_file` reads off a generated window (window_handling.py 238-261):
`nameOf` is the text of a location and `series` the attitude series of the window the
samples index into (scheduler.py 182-189). -/
def obsRow (nameOf : ℕ → Str) (series : Observation → ℕ → ℚ × ℚ × ℚ) (w : Observation) : ObsRow :=
  ⟨w.start, w.duration, nameOf w.location, w.attitudeSamples.map (series w)⟩

theorem toObservations_samples : ∀ {rs : List Request} {ws : List Observation},
    toObservations rs = .ok ws → ∀ w ∈ ws, w.attitudeSamples = [] := by
  intro rs
  induction rs with
  | nil => intro ws h w hw; cases h; cases hw
  | cons r rs ih =>
    intro ws h w hw
    unfold toObservations at h
    cases ho : toObservation r with
    | error e => rw [ho] at h; cases h
    | ok o =>
      rw [ho] at h
      simp only at h
      cases hos : toObservations rs with
      | error e => rw [hos] at h; cases h
      | ok os =>
        rw [hos] at h
        cases h
        rcases List.mem_append.1 hw with hw | hw
        · unfold toObservation at ho
          split at ho
          · split at ho
            · split at ho
              · cases ho
                simp only [Option.toList_some, List.mem_singleton] at hw
                rw [hw]
              · cases ho
            · cases ho
          · cases ho; cases hw
        · exact ih hos w hw

/-- **C69 (refutation, part 1).** No window returned by `generate`, after any history,
carries an attitude: its attitude series is empty. -/
theorem C69_windows_have_no_attitude (history : List Op) (a : GenerateArgs)
    (ws : List Observation) (h : (generate (run history) a).1 = .ok ws) :
    ∀ w ∈ ws, w.attitudeSamples = [] := by
  obtain ⟨h', best, -, -, ho⟩ := generate_ok h
  exact toObservations_samples ho

/-- **C69 (refutation, part 2).** Saving what `generate` returned never succeeds: for every
history and every result it raises — `Exception` if no request was scheduled and
`IndexError` otherwise — and writes no file. -/
theorem C69_saving_a_schedule_always_raises (history : List Op) (a : GenerateArgs)
    (ws : List Observation) (h : (generate (run history) a).1 = .ok ws)
    (nameOf : ℕ → Str) (series : Observation → ℕ → ℚ × ℚ × ℚ) (strOf : ℚ → Str) (name : Str)
    (fs : Files) :
    saveObservations strOf name (ws.map (obsRow nameOf series)) fs =
      (fs, some (if ws = [] then .exception else .indexError)) := by
  have hs := C69_windows_have_no_attitude history a ws h
  unfold saveObservations
  cases ws with
  | nil => rfl
  | cons w ws =>
    have hw : w.attitudeSamples = [] := hs w (List.mem_cons_self ..)
    have : ((w :: ws).map (obsRow nameOf series)).mapM firstAttitude = .error .indexError := by
      rw [List.map_cons, List.mapM_cons]
      have : firstAttitude (obsRow nameOf series w) = .error .indexError := by
        simp [firstAttitude, obsRow, hw]
      rw [this]; rfl
    rw [this]
    simp

/-- Such results exist, with two windows. -/
example : ∃ a ws, (generate (run (fourRequests.map Op.add)) a).1 = .ok ws ∧ ws.length = 2 :=
  ⟨args (fun _ => 0) (-1) [],
    [⟨15 / 2, 86400, 1, []⟩, ⟨13 / 2, 86400, 0, []⟩], by decide +kernel⟩

end Celest.Schedule
