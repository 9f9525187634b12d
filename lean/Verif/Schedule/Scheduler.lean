/-
Model of celest/schedule/scheduler.py.
-/
import Verif.Schedule.Model
import Verif.Schedule.Alns

namespace Celest.Schedule

/-- The arguments of `Scheduler.add_request` (scheduler.py 78-118) with the visible
time windows `generate_vtws` returned for them (modelled in `Verif/Windows`). -/
structure Submission where
  location : ℕ
  deadline : ℚ
  duration : ℚ
  priority : ℚ
  quality : ℚ
  lookAngle : Option LookAngle
  vtws : List VTW
deriving DecidableEq

/-- `Scheduler.add_request` (scheduler.py 104-118). -/
def addSubmission (h : Handler) (s : Submission) : Handler :=
  h.addRequest s.location s.deadline s.duration s.priority s.quality s.lookAngle s.vtws

/-- The handler of a fresh scheduler after a list of `add_request` calls
(scheduler.py 51-76, 78-118). -/
def submit (subs : List Submission) : Handler := subs.foldl addSubmission Handler.empty

/-- `ObservationWindow` (celest/encounter/window_handling.py 67-125).
`attitudeSamples` are the indices into the window's attitude series. -/
structure Observation where
  start : ℚ
  duration : ℚ
  location : ℕ
  attitudeSamples : List ℕ
deriving DecidableEq

/-- One pass of the output loop (scheduler.py 173-196).  `attitude_idx` compares a
raw buffer (`ndarray.data`) with a `Quantity`, which is `False`, so `np.where`
yields no index. -/
def toObservation (r : Request) : Py (Option Observation) :=
  if r.isScheduled then
    match r.vtwIndex, r.start, r.schedDuration with
    | some i, some s, some d =>
      match r.vtws[i]? with
      | some _ => .ok (some ⟨s, d, r.location, []⟩)
      | none => .error .indexError
    | _, _, _ => .error .typeError
  else .ok none

/-- The output loop (scheduler.py 172-198). -/
def toObservations : List Request → Py (List Observation)
  | [] => .ok []
  | r :: rs =>
    match toObservation r with
    | .error e => .error e
    | .ok o =>
      match toObservations rs with
      | .error e => .error e
      | .ok os => .ok (o.toList ++ os)

/-- `_generate_window_handler_from_request_list` (scheduler.py 170-198). -/
def outputWindows (h : Handler) : Py (List Observation) := toObservations h.forLoop

/-- `max_iter` is the number of draws; `annealing_coeff`, `react_factor` and the two
transcendental values. -/
structure GenerateArgs where
  annealing : ℚ
  react : ℚ
  exp : ℚ → ℚ
  logHalf : ℚ
  draws : List Alns.Draw

/-- The configuration of `generate` (scheduler.py 152-155). -/
def problem : Alns.Problem Handler :=
  { cost := cost, complete := isComplete, destroy := removalFunctions, repair := insertionFunctions }

/-- Arguments `generate` passes to `solve` (scheduler.py 157-166). -/
def solveParams (a : GenerateArgs) (n : ℕ) : Alns.Params :=
  { p := a.annealing, l := a.react, toRemove := ((n + 3) / 4 : ℕ), toAdd := n
    exp := a.exp, logHalf := a.logHalf }

/-- `Scheduler.generate` (scheduler.py 120-168): the result, and the scheduler's
own handler afterwards (mutated by `initialize_solution` only, since `solve`
works on deep copies). -/
def generate (h : Handler) (a : GenerateArgs) : Py (List Observation) × Handler :=
  if h.requests.length = 0 then (.error .exception, h)
  else
    match initializeSolution h with
    | (h', some e) => (.error e, h')
    | (h', none) =>
      let res :=
        match Alns.solve problem (solveParams a h'.requests.length) h' a.draws with
        | .error e => .error e
        | .ok best => outputWindows best
      (res, h')

/-- The operations a user performs on a `Scheduler`. -/
inductive Op
  | add (s : Submission)
  | generate (a : GenerateArgs)

/-- The scheduler's handler after one operation. -/
def step (h : Handler) : Op → Handler
  | .add s => addSubmission h s
  | .generate a => (generate h a).2

/-- The scheduler's handler after any history of operations. -/
def run (ops : List Op) : Handler := ops.foldl step Handler.empty

/-- The submissions made in a history. -/
def submissions : List Op → List Submission
  | [] => []
  | .add s :: ops => s :: submissions ops
  | .generate _ :: ops => submissions ops

end Celest.Schedule
