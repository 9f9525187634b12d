/-
Look angles that are not numbers: the search of `_look_angle_time` when the attitude series
contains NaN, as it does at samples whose position or velocity is NaN and for states without
angular momentum (`Frames.attitudeNan`).
-/
import Verif.Schedule.Model

namespace Celest.Schedule

/-- `x * y > 0` for two numpy floats (insertion_operators.py 111, 117): false if either is NaN
(`none`). -/
def productPositive : Option ℚ → Option ℚ → Bool
  | some a, some b => 0 < a * b
  | _, _ => false

/-- The bisection loop of `_look_angle_time` (insertion_operators.py 114-121) on a series
`look_angle - desired_look_angle` that may contain NaN. -/
def bisectNan (f : ℕ → Option ℚ) : ℕ → ℕ → ℕ → Option ℚ → ℕ
  | 0, left, _, _ => left
  | fuel + 1, left, right, leftValue =>
    if 1 < right - left then
      let mid := (left + right) / 2
      if productPositive leftValue (f mid) then bisectNan f fuel mid right (f mid)
      else bisectNan f fuel left mid leftValue
    else left

/-- `_look_angle_time` (insertion_operators.py 74-123) on a series that may contain NaN:
subtracting the requested angle from NaN is NaN. -/
def lookAngleTimeNan (lookAngle : List (Option ℚ)) (desired : ℚ) (julian : List ℚ)
    (start stop : ℚ) : Py (Option ℚ) :=
  match julian.idxOf? start, julian.idxOf? stop with
  | some l, some r =>
    match lookAngle[l]?, lookAngle[r]? with
    | some vl, some vr =>
      if productPositive (vl.map (· - desired)) (vr.map (· - desired)) then .ok none
      else
        let i := bisectNan (fun k => (lookAngle.getD k none).map (· - desired)) (r - l) l r
          (vl.map (· - desired))
        match julian[i]? with
        | some t => .ok (some t)
        | none => .error .indexError
    | _, _ => .error .indexError
  | _, _ => .error .indexError

/-- The proposed start time of an observation in a window whose attitude series has pitches that
may be NaN (insertion_operators.py 47-58). -/
def proposedStartNan (r : Request) (v : VTW) (pitch : List (Option ℚ)) : Py (Option ℚ) :=
  match r.lookAngle with
  | some (.raw _) => .error .attributeError
  | some (.quantity a) => lookAngleTimeNan pitch a v.attTime v.rise v.set
  | none => .ok (some ((v.rise + v.set + durationInDays r.duration) / 2))

/-- One pass of the window loop (insertion_operators.py 45-71) for a window whose attitude series
has pitches that may be NaN; the window's own pitches are not used. -/
def tryVtwNan (h : Handler) (r : Request) (v : VTW) (pitch : List (Option ℚ)) :
    Py (Option ℚ) :=
  match proposedStartNan r v pitch with
  | .error e => .error e
  | .ok none => .ok none
  | .ok (some start) =>
    let d := durationInDays r.duration
    if !isWithinBounds start d v then .ok none
    else if !meetsDeadline start d r.deadline then .ok none
    else
      match imageQuality v start with
      | .error e => .error e
      | .ok q =>
        if !(r.quality ≤ (q : ℚ)) then .ok none
        else
          match doesConflictExist h start d with
          | .error e => .error e
          | .ok true => .ok none
          | .ok false => .ok (some start)

end Celest.Schedule
