/-
Model of the scheduler in floating-point arithmetic: celest/schedule/request_handler.py,
insertion_operators.py, removal_operators.py, scheduling_utils.py and scheduler.py once more, with
every `+`, `-`, `*` and `/` on floats followed by the rounding `fl`; alns.py is in `AlnsRounded`.

Only the functions that do arithmetic are repeated; the others are those of `Schedule/Model`.
`C100_exact_arithmetic` (`PropsRounded`) proves that without rounding this is `Schedule/Scheduler`.

Simplified: no overflow, underflow or NaN.  A conversion between equal units multiplies by 1.0,
which changes nothing.  Submitted numbers are as stored, so already rounded.
-/
import Verif.Rounding
import Verif.Schedule.Scheduler
import Verif.Schedule.AlnsRounded

namespace Celest.Schedule.Rounded

variable (fl : ℚ → ℚ)

/-- `Quantity(duration.to(u.dy), u.jd2000)` (insertion_operators.py 43; units/quantity.py
`convert_to`): the number of seconds times the ratio of the two unit scales, 1 and 86400. -/
def durationInDays (seconds : ℚ) : ℚ := fl (seconds * fl (1 / 86400))

/-- The bisection loop of `_look_angle_time` (insertion_operators.py 114-121). -/
def bisect (f : ℕ → ℚ) : ℕ → ℕ → ℕ → ℚ → ℕ
  | 0, left, _, _ => left
  | fuel + 1, left, right, leftValue =>
    if 1 < right - left then
      let mid := (left + right) / 2
      if 0 < fl (leftValue * f mid) then bisect f fuel mid right (f mid)
      else bisect f fuel left mid leftValue
    else left

/-- `_look_angle_time` (insertion_operators.py 74-123). -/
def lookAngleTime (lookAngle : List ℚ) (desired : ℚ) (julian : List ℚ) (start stop : ℚ) :
    Py (Option ℚ) :=
  match julian.idxOf? start, julian.idxOf? stop with
  | some l, some r =>
    match lookAngle[l]?, lookAngle[r]? with
    | some vl, some vr =>
      if 0 < fl (fl (vl - desired) * fl (vr - desired)) then .ok none
      else
        let i := bisect fl (fun k => fl (lookAngle.getD k 0 - desired)) (r - l) l r
          (fl (vl - desired))
        match julian[i]? with
        | some t => .ok (some t)
        | none => .error .indexError
    | _, _ => .error .indexError
  | _, _ => .error .indexError

/-- The proposed start time (insertion_operators.py 47-58). -/
def proposedStart (r : Request) (v : VTW) : Py (Option ℚ) :=
  match r.lookAngle with
  | some (.raw _) => .error .attributeError
  | some (.quantity a) => lookAngleTime fl v.attPitch a v.attTime v.rise v.set
  | none => .ok (some (fl (fl (fl (v.rise + v.set) + durationInDays fl r.duration) / 2)))

/-- `is_window_within_vtw_bounds` (insertion_operators.py 126-127). -/
def isWithinBounds (start d : ℚ) (v : VTW) : Bool := v.rise < start && fl (start + d) < v.set

/-- `does_window_meet_deadline` (insertion_operators.py 130-131). -/
def meetsDeadline (start d deadline : ℚ) : Bool := fl (start + d) < deadline

/-- `image_quality` (insertion_operators.py 138-161). -/
def imageQuality (v : VTW) (start : ℚ) : Py ℤ :=
  let nadir := fl (fl (v.rise + v.set) / 2)
  let half := fl (nadir - v.rise)
  if half = 0 then .error .zeroDivisionError
  else .ok ⌊fl (10 - fl (fl (9 * |fl (start - nadir)|) / half))⌋

/-- The per-request test of `does_conflict_exist` (insertion_operators.py 166-181). -/
def conflictsWith (r : Request) (start d : ℚ) : Py Bool :=
  if r.isScheduled then
    match r.start, r.schedDuration with
    | some ss, some sd =>
      let se := fl (ss + durationInDays fl sd)
      if start ≤ ss && ss < fl (start + d) then .ok true
      else if start < se && se ≤ fl (start + d) then .ok true
      else if ss ≤ start && fl (start + d) ≤ se then .ok true
      else .ok false
    | _, _ => .error .attributeError
  else .ok false

/-- The loop of `does_conflict_exist` (insertion_operators.py 164-183). -/
def anyConflict : List Request → ℚ → ℚ → Py Bool
  | [], _, _ => .ok false
  | r :: rs, start, d =>
    match conflictsWith fl r start d with
    | .error e => .error e
    | .ok true => .ok true
    | .ok false => anyConflict rs start d

/-- `does_conflict_exist` (insertion_operators.py 164-183). -/
def doesConflictExist (h : Handler) (start d : ℚ) : Py Bool := anyConflict fl h.forLoop start d

/-- One pass of the window loop (insertion_operators.py 45-71). -/
def tryVtw (h : Handler) (r : Request) (v : VTW) : Py (Option ℚ) :=
  match proposedStart fl r v with
  | .error e => .error e
  | .ok none => .ok none
  | .ok (some start) =>
    let d := durationInDays fl r.duration
    if !isWithinBounds fl start d v then .ok none
    else if !meetsDeadline fl start d r.deadline then .ok none
    else
      match imageQuality fl v start with
      | .error e => .error e
      | .ok q =>
        if !(r.quality ≤ (q : ℚ)) then .ok none
        else
          match doesConflictExist fl h start d with
          | .error e => .error e
          | .ok true => .ok none
          | .ok false => .ok (some start)

/-- The window loop (insertion_operators.py 45-71). -/
def tryVtws (h : Handler) (r : Request) : List VTW → ℕ → Py (Option (ℕ × ℚ))
  | [], _ => .ok none
  | v :: vs, idx =>
    match tryVtw fl h r v with
    | .error e => .error e
    | .ok (some start) => .ok (some (idx, start))
    | .ok none => tryVtws h r vs (idx + 1)

/-- The request loop of `insert_first_n_requests` (insertion_operators.py 29-71). -/
def insertLoop : List ℕ → Handler → ℤ → Handler × Option PyErr
  | [], h, _ => (h, none)
  | i :: is, h, n =>
    if n = 0 then (h, none)
    else
      match h.requests[i]? with
      | none => (h, some .indexError)
      | some r =>
        if r.isScheduled then insertLoop is h n
        else
          match tryVtws fl h r r.vtws 0 with
          | .error e => (h, some e)
          | .ok none => insertLoop is h n
          | .ok (some (idx, start)) => insertLoop is (h.schedule i idx start r.duration) (n - 1)

/-- `insert_first_n_requests` (insertion_operators.py 28-71). -/
def insertFirstN (h : Handler) (n : ℤ) : Handler × Option PyErr :=
  insertLoop fl (List.range h.requests.length) h n

/-! ### request_handler.py -/

/-- `_julian_day_overlap_between_vtws` (request_handler.py 169-182). -/
def julianDayOverlap (v1 v2 : VTW) : Option ℚ :=
  let s1 := v1.rise
  let s2 := v2.rise
  let e1 := v1.set
  let e2 := v2.set
  if e1 < s2 || e2 < s1 then some 0
  else if s1 < s2 && e2 < e1 then some (fl (e2 - s2))
  else if s2 < s1 && e1 < e2 then some (fl (e1 - s1))
  else if s2 < e1 then some (fl (e1 - s2))
  else if s1 < e2 then some (fl (e2 - s1))
  else none

/-- The accumulation loop of `_conflict_degree` (request_handler.py 151-153). -/
def sumOverlap (v : VTW) : List VTW → ℚ → Py ℚ
  | [], acc => .ok acc
  | w :: ws, acc =>
    match julianDayOverlap fl v w with
    | none => .error .typeError
    | some x => sumOverlap v ws (fl (acc + x))

/-- `_conflict_degree` (request_handler.py 149-155). -/
def conflictDegree (h : Handler) (v : VTW) : Py ℚ :=
  match sumOverlap fl v (h.overlappingVtws v) 0 with
  | .error e => .error e
  | .ok total =>
    if (h.overlappingVtws v).length = 0 then .error .zeroDivisionError
    else .ok (fl (total / (h.overlappingVtws v).length))

/-- The sort key of one request in `sort_by_decreasing_conflict_degree`
(request_handler.py 133-139). -/
def conflictKey (h : Handler) (r : Request) : Py (Option ℚ) :=
  if r.isScheduled then
    match r.vtwIndex with
    | none => .error .typeError
    | some i =>
      match r.vtws[i]? with
      | none => .error .indexError
      | some v =>
        match conflictDegree fl h v with
        | .error e => .error e
        | .ok x => .ok (some x)
  else .ok none

/-- `sort_by_decreasing_conflict_degree` (request_handler.py 130-147). -/
def sortByDecreasingConflictDegree (h : Handler) : Py Handler :=
  match h.requests.mapM (conflictKey fl h) with
  | .error e => .error e
  | .ok keys =>
    if keys.any Option.isSome && keys.any Option.isNone then .error .typeError
    else
      let indices := (((keys.map fun k => k.getD 0).zip (List.range keys.length)).insertionSort
        Handler.keyLe).reverse.map Prod.snd
      .ok { h with requests := indices.filterMap fun i => h.requests[i]? }

/-- One pass of the outer loop of `sort_vtws_by_increasing_conflict_degree`
(request_handler.py 185-194). -/
def sortVtwsOf (h : Handler) (i : ℕ) : Py Handler :=
  match h.requests[i]? with
  | none => .error .indexError
  | some r =>
    match r.vtws.mapM (conflictDegree fl h) with
    | .error e => .error e
    | .ok keys =>
      if keys.Nodup then
        .ok { h with requests := h.requests.modify i fun r =>
          { r with vtws := ((keys.zip r.vtws).insertionSort fun a b => a.1 ≤ b.1).map Prod.snd } }
      else .error .typeError

/-- The loop of `sort_vtws_by_increasing_conflict_degree` (request_handler.py 184-194). -/
def sortVtwsLoop : List ℕ → Handler → Py Handler
  | [], h => .ok h
  | i :: is, h =>
    match sortVtwsOf fl h i with
    | .error e => .error e
    | .ok h' => sortVtwsLoop is h'

/-- `sort_vtws_by_increasing_conflict_degree` (request_handler.py 184-194). -/
def sortVtwsByIncreasingConflictDegree (h : Handler) : Py Handler :=
  sortVtwsLoop fl (List.range h.requests.length) h

/-! ### operators -/

/-- `greedy_insertion` (insertion_operators.py 10-25). -/
def greedyInsertion (h : Handler) (n : ℤ) : Py Handler :=
  settle (insertFirstN fl h.sortByDecreasingPriority n)

/-- `minimum_opportunity_insertion` (insertion_operators.py 186-208). -/
def minimumOpportunityInsertion (h : Handler) (n : ℤ) : Py Handler :=
  settle (insertFirstN fl h.sortByIncreasingOpportunity n)

/-- `minimum_conflict_insertion` (insertion_operators.py 211-231). -/
def minimumConflictInsertion (h : Handler) (n : ℤ) : Py Handler :=
  match sortVtwsByIncreasingConflictDegree fl h with
  | .error e => .error e
  | .ok h' => settle (insertFirstN fl h' n)

/-- `_INSERTION_FUNCTIONS` (insertion_operators.py 234-238). -/
def insertionFunctions : List (Handler → ℤ → Py Handler) :=
  [greedyInsertion fl, minimumOpportunityInsertion fl, minimumConflictInsertion fl]

/-- `conflict_removal` (removal_operators.py 93-115). -/
def conflictRemoval (h : Handler) (n : ℤ) (_ : ℕ → ℕ) : Py Handler :=
  match sortByDecreasingConflictDegree fl h with
  | .error e => .error e
  | .ok h' => removeFirstN h' n

/-- `_REMOVAL_FUNCTIONS` (removal_operators.py 118-123); the first three do no arithmetic on
floats. -/
def removalFunctions : List (Handler → ℤ → (ℕ → ℕ) → Py Handler) :=
  [randomRemoval, priorityRemoval, opportunityRemoval, conflictRemoval fl]

/-- `initialize_solution` (scheduling_utils.py 7-25). -/
def initializeSolution (h : Handler) : Handler × Option PyErr :=
  let h' := h.sortByDecreasingPriority.sortVtwsByIncreasingRiseTime
  insertFirstN fl h' h'.requests.length

/-- `cost` (scheduling_utils.py 51-72). -/
def cost (h : Handler) : ℚ :=
  h.forLoop.foldl (fun c r => if r.isScheduled then fl (c - r.priority) else c) 0

/-! ### scheduler.py -/

/-- The configuration of `generate` (scheduler.py 152-155). -/
def problem : Alns.Problem Handler :=
  { cost := cost fl, complete := isComplete
    destroy := removalFunctions fl, repair := insertionFunctions fl }

/-- Arguments `generate` passes to `solve` (scheduler.py 157-166).  Simplified: `sum` adds from left
to right and rounds every sum, as Python does up to version 3.11. -/
def solveParams (a : GenerateArgs) (n : ℕ) : Alns.Rounded.Params :=
  { p := a.annealing, l := a.react, toRemove := ((n + 3) / 4 : ℕ), toAdd := n
    sum := Alns.Rounded.total fl, exp := a.exp, logHalf := a.logHalf }

/-- `Scheduler.generate` (scheduler.py 120-168). -/
def generate (h : Handler) (a : GenerateArgs) : Py (List Observation) × Handler :=
  if h.requests.length = 0 then (.error .exception, h)
  else
    match initializeSolution fl h with
    | (h', some e) => (.error e, h')
    | (h', none) =>
      let res :=
        match Alns.Rounded.solve fl (problem fl) (solveParams fl a h'.requests.length) h' a.draws with
        | .error e => .error e
        | .ok best => outputWindows best
      (res, h')

/-- The scheduler's handler after one operation (scheduler.py 78-168). -/
def step (h : Handler) : Op → Handler
  | .add s => addSubmission h s
  | .generate a => (generate fl h a).2

/-- The scheduler's handler after any history of operations (scheduler.py 51-168). -/
def run (ops : List Op) : Handler := ops.foldl (step fl) Handler.empty

end Celest.Schedule.Rounded
