/-
Vocabulary for stating the scheduling properties, independent of how the code
computes things.
-/
import Verif.Schedule.Scheduler
import Mathlib.Data.Multiset.Basic

namespace Celest.Schedule

/-- Two observations overlap in time when the open intervals
`(start, start + duration)` meet; durations in days. -/
def Overlap (s₁ d₁ s₂ d₂ : ℚ) : Prop := s₁ < s₂ + d₂ ∧ s₂ < s₁ + d₁

/-- Seconds as days. -/
def days (seconds : ℚ) : ℚ := seconds / 86400

/-- The documented 1..10 grade of observing at instant `s` in a window `[a, b]`:
10 at the midpoint, decreasing linearly to 1 at the ends, rounded down. -/
def grade (a b s : ℚ) : ℤ := ⌊10 - 9 * (|s - (a + b) / 2| / ((b - a) / 2))⌋

/-- The instant at which the code proposes to observe in window `v`: the requested look-angle
crossing if a look angle is given (theorem `C22_bisection` says which instant that is), otherwise
half an observation after the window's middle. -/
def StartTime (look : Option LookAngle) (duration : ℚ) (v : VTW) (s : ℚ) : Prop :=
  match look with
  | none => s = (v.rise + v.set + days duration) / 2
  | some (.quantity a) => lookAngleTime v.attPitch a v.attTime v.rise v.set = .ok (some s)
  | some (.raw _) => False

instance (look : Option LookAngle) (duration : ℚ) (v : VTW) (s : ℚ) :
    Decidable (StartTime look duration v s) := by
  unfold StartTime
  split <;> infer_instance

/-- An observation of `duration` seconds starting at `s` is feasible for a request
with the given look angle, deadline, minimum grade and windows. -/
def Feasible (windows : List VTW) (look : Option LookAngle) (deadline duration minGrade s : ℚ) :
    Prop :=
  ∃ v ∈ windows, v.rise < s ∧ s + days duration < v.set ∧ s + days duration < deadline ∧
    minGrade ≤ (grade v.rise v.set s : ℚ) ∧ StartTime look duration v s

/-- The observation `o` serves the submission `s`. -/
def Serves (s : Submission) (o : Observation) : Prop :=
  o.location = s.location ∧ o.duration = s.duration ∧
    Feasible s.vtws s.lookAngle s.deadline s.duration s.quality o.start

/-- The fields of a request that scheduling must not touch; the order of its
windows is immaterial. -/
structure Fixed where
  location : ℕ
  deadline : ℚ
  duration : ℚ
  priority : ℚ
  quality : ℚ
  lookAngle : Option LookAngle
  windows : Multiset VTW

/-- The fixed fields of a row. -/
def Request.fixed (r : Request) : Fixed :=
  ⟨r.location, r.deadline, r.duration, r.priority, r.quality, r.lookAngle, r.vtws⟩

/-- The fixed fields of a submission. -/
def Submission.fixed (s : Submission) : Fixed :=
  ⟨s.location, s.deadline, s.duration, s.priority, s.quality, s.lookAngle, s.vtws⟩

/-- A row carries no assignment. -/
def Request.Clear (r : Request) : Prop :=
  r.isScheduled = false ∧ r.vtwIndex = none ∧ r.start = none ∧ r.schedDuration = none

/-- A row carries a complete and feasible assignment. -/
def Request.Assigned (r : Request) : Prop :=
  r.isScheduled = true ∧ (∃ i, r.vtwIndex = some i ∧ i < r.vtws.length) ∧
    r.schedDuration = some r.duration ∧
    ∃ s, r.start = some s ∧ Feasible r.vtws r.lookAngle r.deadline r.duration r.quality s

/-- The number of rows marked scheduled. -/
def Handler.scheduledCount (h : Handler) : ℕ := h.requests.countP fun r => r.isScheduled

/-- The handler is consistent: every row is either clear or completely and feasibly
assigned, and the counter is exact. -/
structure Handler.Consistent (h : Handler) : Prop where
  rows : ∀ r ∈ h.requests, r.Clear ∨ r.Assigned
  counter : h.numScheduled = h.scheduledCount

/-- The handler holds exactly the submitted requests, in some order. -/
def Handler.Holds (h : Handler) (subs : List Submission) : Prop :=
  (h.requests.map Request.fixed).Perm (subs.map Submission.fixed)

/-- `r` with its assignment erased. -/
def Request.cleared (r : Request) : Request :=
  { r with isScheduled := false, vtwIndex := none, start := none, schedDuration := none }

/-- `r'` is `r` unchanged, or `r` was scheduled and `r'` is `r` without its
assignment. -/
def KeptOrCleared (r r' : Request) : Prop := r' = r ∨ r.isScheduled = true ∧ r' = r.cleared

/-- Equal up to the order of windows. -/
def SameRow (r r' : Request) : Prop := r'.vtws.Perm r.vtws ∧ r' = { r with vtws := r'.vtws }

/-- `r'` is `r` (up to window order), or `r` was unscheduled and `r'` is `r` with a
complete feasible assignment. -/
def KeptOrAssigned (r r' : Request) : Prop :=
  SameRow r r' ∨
    r.isScheduled = false ∧ r'.Assigned ∧ SameRow r.cleared r'.cleared

/-- Two scheduled rows overlap. -/
def RowsOverlap (r r' : Request) : Prop :=
  ∃ s d s' d', r.isScheduled = true ∧ r'.isScheduled = true ∧
    r.start = some s ∧ r.schedDuration = some d ∧ r'.start = some s' ∧ r'.schedDuration = some d' ∧
    Overlap s (days d) s' (days d')

/-- The instant at which the code proposes to observe for `r` in window `v`. -/
def StartsAt (r : Request) (v : VTW) (s : ℚ) : Prop := StartTime r.lookAngle r.duration v s

/-- Observing for the requested duration from `s` fits in the window `v`, ends before the
deadline and has the requested grade. -/
def FitsIn (r : Request) (v : VTW) (s : ℚ) : Prop :=
  v.rise < s ∧ s + days r.duration < v.set ∧ s + days r.duration < r.deadline ∧
    r.quality ≤ (grade v.rise v.set s : ℚ)

/-- The scheduled row `c` occupies part of the interval `(s, s + d)`; `d` in days. -/
def Occupies (c : Request) (s d : ℚ) : Prop :=
  c.isScheduled = true ∧ ∃ s' d', c.start = some s' ∧ c.schedDuration = some d' ∧
    Overlap s d s' (days d')

/-- The recorded window index names the window the observation lies in. -/
def IndexSound (r : Request) : Prop :=
  ∃ i v s, r.vtwIndex = some i ∧ r.vtws[i]? = some v ∧ r.start = some s ∧ StartsAt r v s ∧
    FitsIn r v s

/-- `h'` results from `h` by inserting requests of larger `key` first: whenever a request was
passed over in favour of one with a strictly smaller key, each place it could have taken is
occupied by a request that was scheduled before or that has at least its key. -/
def ServesLargestFirst (key : Request → ℚ) (h h' : Handler) : Prop :=
  ∃ l, l.Perm h.requests ∧ List.Forall₂ KeptOrAssigned l h'.requests ∧
    ∀ (i j : ℕ) (a a' b b' : Request), l[i]? = some a → h'.requests[i]? = some a' →
      a'.isScheduled = false →
      l[j]? = some b → b.isScheduled = false → h'.requests[j]? = some b' → b'.isScheduled = true →
      key b < key a →
      ∀ v ∈ a.vtws, ∀ s, StartsAt a v s → FitsIn a v s →
        ∃ (k : ℕ) (c c' : Request), l[k]? = some c ∧ h'.requests[k]? = some c' ∧
          Occupies c' s (days a.duration) ∧ (c.isScheduled = true ∨ key a ≤ key c)

end Celest.Schedule
