/-
Model of celest/schedule/request_handler.py, insertion_operators.py,
removal_operators.py and scheduling_utils.py.

Quantities: every time is a rational in the unit the code converts it to
(`jd2000` days for instants, seconds for durations, degrees for angles); the
conversions themselves are modelled in `Verif/Units`.  Floats are exact.
-/
import Verif.Py
import Mathlib.Data.Rat.Floor
import Mathlib.Data.List.Sort

namespace Celest.Schedule

/-- `VisibleTimeWindow` (celest/encounter/window_handling.py 12-64): rise and set
time in jd2000 and, of the attitude series, the sample times and pitch angles
(the only parts scheduling reads).  Simplified: roll, yaw and location dropped. -/
structure VTW where
  rise : ℚ
  set : ℚ
  attTime : List ℚ
  attPitch : List ℚ
deriving DecidableEq

/-- The `look_ang` argument of `Scheduler.add_request` (scheduler.py 78-118):
stored as passed, so it may be a bare number or a `Quantity` in degrees. -/
inductive LookAngle
  | raw (x : ℚ)
  | quantity (deg : ℚ)
deriving DecidableEq

/-- One row of `RequestHandler.requests` (request_handler.py 6-18, 53-67).
`location` is an opaque identifier of the ground location object. -/
structure Request where
  isScheduled : Bool
  vtwIndex : Option ℕ
  start : Option ℚ
  schedDuration : Option ℚ
  location : ℕ
  deadline : ℚ
  duration : ℚ
  priority : ℚ
  quality : ℚ
  lookAngle : Option LookAngle
  vtws : List VTW
deriving DecidableEq

/-- `RequestHandler` (request_handler.py 21-34).  Simplified:
`number_of_requests` is identified with `len(requests)`, since line 54 and line
55 change both together and nothing else changes either. -/
structure Handler where
  requests : List Request
  numScheduled : ℤ
deriving DecidableEq

namespace Handler

/-- `RequestHandler.__init__` (request_handler.py 31-34). -/
def empty : Handler := ⟨[], 0⟩

/-- `RequestHandler.__next__` (request_handler.py 46-51) on the iteration index;
`none` is `StopIteration`. -/
def next (h : Handler) (i : ℕ) : Option Request × ℕ :=
  let i' := i + 1
  if i' < h.requests.length then (h.requests[i]?, i') else (none, i')

/-- Repeated `__next__` until `StopIteration`, at most `fuel` steps. -/
def iterFrom (h : Handler) : ℕ → ℕ → List Request
  | 0, _ => []
  | fuel + 1, i =>
    match h.next i with
    | (some r, i') => r :: iterFrom h fuel i'
    | (none, _) => []

/-- The requests a `for request in handler` loop visits: `__iter__`
(request_handler.py 42-44) resets the index to 0, then `__next__` until
`StopIteration`.  The fuel is never exhausted (theorem `iterFrom_fuel`). -/
def forLoop (h : Handler) : List Request := h.iterFrom (h.requests.length + 1) 0

/-- `RequestHandler.add_request` (request_handler.py 53-67). -/
def addRequest (h : Handler) (location : ℕ) (deadline duration priority quality : ℚ)
    (look : Option LookAngle) (vtws : List VTW) : Handler :=
  { h with requests := h.requests ++
      [⟨false, none, none, none, location, deadline, duration, priority, quality, look, vtws⟩] }

/-- `RequestHandler.schedule_request` (request_handler.py 69-74); only called
with an index already read successfully. -/
def schedule (h : Handler) (i vtwIndex : ℕ) (start duration : ℚ) : Handler :=
  { requests := h.requests.modify i fun r =>
      { r with isScheduled := true, vtwIndex := some vtwIndex,
               start := some start, schedDuration := some duration }
    numScheduled := h.numScheduled + 1 }

/-- `RequestHandler.unschedule_request` (request_handler.py 81-86); only called
with an index already read successfully. -/
def unschedule (h : Handler) (i : ℕ) : Handler :=
  { requests := h.requests.modify i fun r =>
      { r with isScheduled := false, vtwIndex := none, start := none, schedDuration := none }
    numScheduled := h.numScheduled - 1 }

/-- `RequestHandler.unschedule_all_requests` (request_handler.py 76-79). -/
def unscheduleAll (h : Handler) : Handler :=
  { (List.range h.requests.length).foldl unschedule h with numScheduled := 0 }

/-- `RequestHandler.is_request_scheduled` (request_handler.py 88-89). -/
def isRequestScheduled (h : Handler) (i : ℕ) : Py Bool :=
  match h.requests[i]? with
  | some r => .ok r.isScheduled
  | none => .error .indexError

/-- `sort_by_decreasing_priority` (request_handler.py 118-120): stable, ties keep
their order (`reverse=True` preserves stability). -/
def sortByDecreasingPriority (h : Handler) : Handler :=
  { h with requests := h.requests.insertionSort fun a b => b.priority ≤ a.priority }

/-- `sort_by_decreasing_opportunity` (request_handler.py 122-124). -/
def sortByDecreasingOpportunity (h : Handler) : Handler :=
  { h with requests := h.requests.insertionSort fun a b => b.vtws.length ≤ a.vtws.length }

/-- `sort_by_increasing_opportunity` (request_handler.py 126-128). -/
def sortByIncreasingOpportunity (h : Handler) : Handler :=
  { h with requests := h.requests.insertionSort fun a b => a.vtws.length ≤ b.vtws.length }

/-- `_are_vtws_overlaping` (request_handler.py 166-167); `|` binds tighter than
`not`. -/
def areOverlapping (v1 v2 : VTW) : Bool := !(v1.set < v2.rise || v2.set < v1.rise)

/-- `_julian_day_overlap_between_vtws` (request_handler.py 169-182), branch by
branch; `none` is Python's `None` (no branch taken). -/
def julianDayOverlap (v1 v2 : VTW) : Option ℚ :=
  let s1 := v1.rise
  let s2 := v2.rise
  let e1 := v1.set
  let e2 := v2.set
  if e1 < s2 || e2 < s1 then some 0
  else if s1 < s2 && e2 < e1 then some (e2 - s2)
  else if s2 < s1 && e1 < e2 then some (e1 - s1)
  else if s2 < e1 then some (e1 - s2)
  else if s1 < e2 then some (e2 - s1)
  else none

/-- `_set_of_overlapping_vtws` (request_handler.py 157-164); iterates
`self.requests` directly, so the last request is included. -/
def overlappingVtws (h : Handler) (v : VTW) : List VTW :=
  h.requests.flatMap fun r => r.vtws.filter (areOverlapping v)

/-- The accumulation loop of `_conflict_degree` (request_handler.py 151-153);
adding `None` is a `TypeError`. -/
def sumOverlap (v : VTW) : List VTW → ℚ → Py ℚ
  | [], acc => .ok acc
  | w :: ws, acc =>
    match julianDayOverlap v w with
    | none => .error .typeError
    | some x => sumOverlap v ws (acc + x)

/-- `_conflict_degree` (request_handler.py 149-155). -/
def conflictDegree (h : Handler) (v : VTW) : Py ℚ :=
  match sumOverlap v (h.overlappingVtws v) 0 with
  | .error e => .error e
  | .ok total =>
    if (h.overlappingVtws v).length = 0 then .error .zeroDivisionError
    else .ok (total / (h.overlappingVtws v).length)

/-- The sort key of one request in `sort_by_decreasing_conflict_degree`
(request_handler.py 133-139): a `Quantity` (`some`) if scheduled, the integer 0
(`none`) otherwise. -/
def conflictKey (h : Handler) (r : Request) : Py (Option ℚ) :=
  if r.isScheduled then
    match r.vtwIndex with
    | none => .error .typeError
    | some i =>
      match r.vtws[i]? with
      | none => .error .indexError
      | some v =>
        match h.conflictDegree v with
        | .error e => .error e
        | .ok x => .ok (some x)
  else .ok none

/-- Lexicographic comparison of `(key, index)` tuples. -/
def keyLe (a b : ℚ × ℕ) : Prop := a.1 < b.1 ∨ a.1 = b.1 ∧ a.2 ≤ b.2

instance : DecidableRel keyLe := fun _ _ => inferInstanceAs (Decidable (_ ∨ _))

/-- `sort_by_decreasing_conflict_degree` (request_handler.py 130-147).  Any
comparison of a `Quantity` with the integer 0 is a `TypeError`; a comparison sort
of a list holding both kinds performs such a comparison. -/
def sortByDecreasingConflictDegree (h : Handler) : Py Handler :=
  match h.requests.mapM h.conflictKey with
  | .error e => .error e
  | .ok keys =>
    if keys.any Option.isSome && keys.any Option.isNone then .error .typeError
    else
      let indices := (((keys.map fun k => k.getD 0).zip (List.range keys.length)).insertionSort
        keyLe).reverse.map Prod.snd
      .ok { h with requests := indices.filterMap fun i => h.requests[i]? }

/-- One pass of the outer loop of `sort_vtws_by_increasing_conflict_degree`
(request_handler.py 185-194).  On equal keys the tuple comparison falls through to
comparing two `VisibleTimeWindow` objects, which is a `TypeError`; a comparison
sort compares elements that end up adjacent, so any tie raises. -/
def sortVtwsOf (h : Handler) (i : ℕ) : Py Handler :=
  match h.requests[i]? with
  | none => .error .indexError
  | some r =>
    match r.vtws.mapM h.conflictDegree with
    | .error e => .error e
    | .ok keys =>
      if keys.Nodup then
        .ok { h with requests := h.requests.modify i fun r =>
          { r with vtws := ((keys.zip r.vtws).insertionSort fun a b => a.1 ≤ b.1).map Prod.snd } }
      else .error .typeError

/-- The loop over request indices of `sort_vtws_by_increasing_conflict_degree`. -/
def sortVtwsLoop : List ℕ → Handler → Py Handler
  | [], h => .ok h
  | i :: is, h =>
    match h.sortVtwsOf i with
    | .error e => .error e
    | .ok h' => sortVtwsLoop is h'

/-- `sort_vtws_by_increasing_conflict_degree` (request_handler.py 184-194). -/
def sortVtwsByIncreasingConflictDegree (h : Handler) : Py Handler :=
  sortVtwsLoop (List.range h.requests.length) h

/-- `sort_vtws_by_increasing_rise_time` (request_handler.py 196-201). -/
def sortVtwsByIncreasingRiseTime (h : Handler) : Handler :=
  { h with requests := h.requests.map fun r =>
      { r with vtws := r.vtws.insertionSort fun a b => a.rise ≤ b.rise } }

end Handler

/-! ### insertion_operators.py -/

/-- `Quantity(duration.to(u.dy), u.jd2000)` (insertion_operators.py 43): seconds to
days. -/
def durationInDays (seconds : ℚ) : ℚ := seconds / 86400

/-- The bisection loop of `_look_angle_time` (insertion_operators.py 114-121).
`f` is the series `look_angle - desired_look_angle`.  Structural in `fuel`; the
loop exits by its own test when `fuel ≥ right - left` (theorem
`bisect_exits`). -/
def bisect (f : ℕ → ℚ) : ℕ → ℕ → ℕ → ℚ → ℕ
  | 0, left, _, _ => left
  | fuel + 1, left, right, leftValue =>
    if 1 < right - left then
      let mid := (left + right) / 2
      if 0 < leftValue * f mid then bisect f fuel mid right (f mid)
      else bisect f fuel left mid leftValue
    else left

/-- `_look_angle_time` (insertion_operators.py 74-123). -/
def lookAngleTime (lookAngle : List ℚ) (desired : ℚ) (julian : List ℚ) (start stop : ℚ) :
    Py (Option ℚ) :=
  match julian.idxOf? start, julian.idxOf? stop with
  | some l, some r =>
    match lookAngle[l]?, lookAngle[r]? with
    | some vl, some vr =>
      if 0 < (vl - desired) * (vr - desired) then .ok none
      else
        let i := bisect (fun k => lookAngle.getD k 0 - desired) (r - l) l r (vl - desired)
        match julian[i]? with
        | some t => .ok (some t)
        | none => .error .indexError
    | _, _ => .error .indexError
  | _, _ => .error .indexError

/-- The proposed start time of an observation in a window (insertion_operators.py
47-58).  A look angle that is a bare number has no `.to` method. -/
def proposedStart (r : Request) (v : VTW) : Py (Option ℚ) :=
  match r.lookAngle with
  | some (.raw _) => .error .attributeError
  | some (.quantity a) => lookAngleTime v.attPitch a v.attTime v.rise v.set
  | none => .ok (some ((v.rise + v.set + durationInDays r.duration) / 2))

/-- `is_window_within_vtw_bounds` (insertion_operators.py 126-127). -/
def isWithinBounds (start d : ℚ) (v : VTW) : Bool := v.rise < start && start + d < v.set

/-- `does_window_meet_deadline` (insertion_operators.py 130-131). -/
def meetsDeadline (start d deadline : ℚ) : Bool := start + d < deadline

/-- `image_quality` (insertion_operators.py 138-161).  Division by zero: with
Python floats a `ZeroDivisionError`; with numpy floats `math.floor` of an infinity
or NaN raises instead — one error value stands for both. -/
def imageQuality (v : VTW) (start : ℚ) : Py ℤ :=
  let nadir := (v.rise + v.set) / 2
  if nadir - v.rise = 0 then .error .zeroDivisionError
  else .ok ⌊10 - 9 * |start - nadir| / (nadir - v.rise)⌋

/-- The per-request test in the loop of `does_conflict_exist`
(insertion_operators.py 166-181). -/
def conflictsWith (r : Request) (start d : ℚ) : Py Bool :=
  if r.isScheduled then
    match r.start, r.schedDuration with
    | some ss, some sd =>
      let se := ss + durationInDays sd
      if start ≤ ss && ss < start + d then .ok true
      else if start < se && se ≤ start + d then .ok true
      else if ss ≤ start && start + d ≤ se then .ok true
      else .ok false
    | _, _ => .error .attributeError
  else .ok false

/-- The loop of `does_conflict_exist` over the visited requests. -/
def anyConflict : List Request → ℚ → ℚ → Py Bool
  | [], _, _ => .ok false
  | r :: rs, start, d =>
    match conflictsWith r start d with
    | .error e => .error e
    | .ok true => .ok true
    | .ok false => anyConflict rs start d

/-- `does_conflict_exist` (insertion_operators.py 164-183). -/
def doesConflictExist (h : Handler) (start d : ℚ) : Py Bool := anyConflict h.forLoop start d

/-- One pass of the window loop (insertion_operators.py 45-71): `none` is
`continue`, `some start` is the start time to schedule. -/
def tryVtw (h : Handler) (r : Request) (v : VTW) : Py (Option ℚ) :=
  match proposedStart r v with
  | .error e => .error e
  | .ok none => .ok none
  | .ok (some start) =>
    let d := durationInDays r.duration
    if !isWithinBounds start d v then .ok none
    else if !meetsDeadline start d r.deadline then .ok none
    else
      match imageQuality v start with
      | .error e => .error e
      | .ok q =>
        if !(r.quality ≤ (q : ℚ)) then .ok none
        else
          match doesConflictExist h start d with
          | .error e => .error e
          | .ok true => .ok none
          | .ok false => .ok (some start)

/-- The window loop (insertion_operators.py 45-71): first acceptable window. -/
def tryVtws (h : Handler) (r : Request) : List VTW → ℕ → Py (Option (ℕ × ℚ))
  | [], _ => .ok none
  | v :: vs, idx =>
    match tryVtw h r v with
    | .error e => .error e
    | .ok (some start) => .ok (some (idx, start))
    | .ok none => tryVtws h r vs (idx + 1)

/-- The request loop of `insert_first_n_requests` (insertion_operators.py 29-71).
Because the handler is mutated in place, a raised exception leaves the insertions
made so far: the result is the handler at that point and the exception, if any. -/
def insertLoop : List ℕ → Handler → ℤ → Handler × Option PyErr
  | [], h, _ => (h, none)
  | i :: is, h, n =>
    if n = 0 then (h, none)
    else
      match h.requests[i]? with
      | none => (h, some .indexError)
      | some r =>
        if r.isScheduled then insertLoop is h n
        else
          match tryVtws h r r.vtws 0 with
          | .error e => (h, some e)
          | .ok none => insertLoop is h n
          | .ok (some (idx, start)) => insertLoop is (h.schedule i idx start r.duration) (n - 1)

/-- `insert_first_n_requests` (insertion_operators.py 28-71), with the mutated
handler also in the exceptional case. -/
def insertFirstN (h : Handler) (n : ℤ) : Handler × Option PyErr :=
  insertLoop (List.range h.requests.length) h n

/-- Forget the half-mutated handler of a raising call. -/
def settle : Handler × Option PyErr → Py Handler
  | (h, none) => .ok h
  | (_, some e) => .error e

/-- `greedy_insertion` (insertion_operators.py 10-25). -/
def greedyInsertion (h : Handler) (n : ℤ) : Py Handler :=
  settle (insertFirstN h.sortByDecreasingPriority n)

/-- `minimum_opportunity_insertion` (insertion_operators.py 186-208). -/
def minimumOpportunityInsertion (h : Handler) (n : ℤ) : Py Handler :=
  settle (insertFirstN h.sortByIncreasingOpportunity n)

/-- `minimum_conflict_insertion` (insertion_operators.py 211-231). -/
def minimumConflictInsertion (h : Handler) (n : ℤ) : Py Handler :=
  match h.sortVtwsByIncreasingConflictDegree with
  | .error e => .error e
  | .ok h' => settle (insertFirstN h' n)

/-- `_INSERTION_FUNCTIONS` (insertion_operators.py 234-238). -/
def insertionFunctions : List (Handler → ℤ → Py Handler) :=
  [greedyInsertion, minimumOpportunityInsertion, minimumConflictInsertion]

/-! ### removal_operators.py -/

/-- The loop of `random_removal` (removal_operators.py 23-30).  `picks` is the
stream of `random.choice` draws, each reduced to a position in the list of
unchecked indices.  Every pass removes one unchecked index, so the number of
unchecked indices bounds the passes; `random.choice([])` is an `IndexError`. -/
def randomRemovalLoop (picks : ℕ → ℕ) : ℕ → List ℕ → Handler → ℤ → Py Handler
  | 0, _, h, n => if 0 < n then .error .indexError else .ok h
  | fuel + 1, unchecked, h, n =>
    if 0 < n then
      match unchecked[picks fuel % unchecked.length]? with
      | none => .error .indexError
      | some i =>
        match h.isRequestScheduled i with
        | .error e => .error e
        | .ok true => randomRemovalLoop picks fuel (unchecked.erase i) (h.unschedule i) (n - 1)
        | .ok false => randomRemovalLoop picks fuel (unchecked.erase i) h n
    else .ok h

/-- `random_removal` (removal_operators.py 6-32). -/
def randomRemoval (h : Handler) (n : ℤ) (picks : ℕ → ℕ) : Py Handler :=
  if h.numScheduled ≤ n then .ok h.unscheduleAll
  else
    let unchecked := List.range (h.requests.length - 1)
    randomRemovalLoop picks unchecked.length unchecked h n

/-- The loop of `_remove_first_n_scheduled_requests` (removal_operators.py 58-63).
Reading past the end is an `IndexError`, so `len + 1` passes bound the loop. -/
def removeLoop : ℕ → ℕ → Handler → ℤ → Py Handler
  | 0, _, h, n => if 0 < n then .error .indexError else .ok h
  | fuel + 1, i, h, n =>
    if 0 < n then
      match h.isRequestScheduled i with
      | .error e => .error e
      | .ok true => removeLoop fuel (i + 1) (h.unschedule i) (n - 1)
      | .ok false => removeLoop fuel (i + 1) h n
    else .ok h

/-- `_remove_first_n_scheduled_requests` (removal_operators.py 53-65). -/
def removeFirstN (h : Handler) (n : ℤ) : Py Handler :=
  if h.numScheduled ≤ n then .ok h.unscheduleAll
  else removeLoop (h.requests.length + 1) 0 h n

/-- `priority_removal` (removal_operators.py 35-50). -/
def priorityRemoval (h : Handler) (n : ℤ) (_ : ℕ → ℕ) : Py Handler :=
  removeFirstN h.sortByDecreasingPriority n

/-- `opportunity_removal` (removal_operators.py 68-90). -/
def opportunityRemoval (h : Handler) (n : ℤ) (_ : ℕ → ℕ) : Py Handler :=
  removeFirstN h.sortByDecreasingOpportunity n

/-- `conflict_removal` (removal_operators.py 93-115). -/
def conflictRemoval (h : Handler) (n : ℤ) (_ : ℕ → ℕ) : Py Handler :=
  match h.sortByDecreasingConflictDegree with
  | .error e => .error e
  | .ok h' => removeFirstN h' n

/-- `_REMOVAL_FUNCTIONS` (removal_operators.py 118-123). -/
def removalFunctions : List (Handler → ℤ → (ℕ → ℕ) → Py Handler) :=
  [randomRemoval, priorityRemoval, opportunityRemoval, conflictRemoval]

/-! ### scheduling_utils.py -/

/-- `initialize_solution` (scheduling_utils.py 7-25). -/
def initializeSolution (h : Handler) : Handler × Option PyErr :=
  let h' := h.sortByDecreasingPriority.sortVtwsByIncreasingRiseTime
  insertFirstN h' h'.requests.length

/-- `is_complete` (scheduling_utils.py 28-48). -/
def isComplete (h : Handler) : Bool := h.forLoop.all fun r => r.isScheduled

/-- `cost` (scheduling_utils.py 51-72). -/
def cost (h : Handler) : ℚ :=
  h.forLoop.foldl (fun c r => if r.isScheduled then c - r.priority else c) 0

end Celest.Schedule
