/-
Model of celest/schedule/scheduler.py as a whole: `Scheduler.add_request` obtains the visible
time windows from `generate_vtws` and hands them to the request handler.
-/
import Verif.Windows.Model

namespace Celest.Planning

open Celest.Schedule Celest.Windows

variable {K : Type} [LinearOrder K] [Zero K] [OfNat K 90]

/-- What a `Scheduler` keeps from its constructor (scheduler.py 51-76): the satellite, here as the
scene each location sees, and the visibility threshold.  Simplified: locations are numbers. -/
structure Mission (K : Type) where
  scene : ℕ → Scene K
  threshold : K

/-- The arguments of `Scheduler.add_request` (scheduler.py 78-80). -/
structure Target where
  location : ℕ
  deadline : ℚ
  duration : ℚ
  priority : ℚ
  quality : ℚ
  lookAngle : Option LookAngle
  lighting : Lighting

/-- The request that reaches the handler (scheduler.py 110-118). -/
def Target.submission (x : Target) (vtws : List VTW) : Submission :=
  ⟨x.location, x.deadline, x.duration, x.priority, x.quality, x.lookAngle, vtws⟩

/-- `Scheduler.add_request` (scheduler.py 104-118): the handler afterwards and the exception
raised, if any.  `generate_vtws` runs first, so its exceptions leave the handler alone. -/
def addRequest (m : Mission K) (h : Handler) (x : Target) : Handler × Option PyErr :=
  match generateVtws (m.scene x.location) m.threshold x.lighting with
  | .error e => (h, some e)
  | .ok vtws => (addSubmission h (x.submission vtws), none)

/-- The calls a user makes on a `Scheduler` (scheduler.py 78-168). -/
inductive Call
  | add (x : Target)
  | generate (a : GenerateArgs)

/-- The scheduler's handler after one call (scheduler.py 78-168).  A call that raises is caught by the user. -/
def step (m : Mission K) (h : Handler) : Call → Handler
  | .add x => (addRequest m h x).1
  | .generate a => (Schedule.generate h a).2

/-- The scheduler's handler after any history of calls (scheduler.py 51-76 for the empty one). -/
def run (m : Mission K) (calls : List Call) : Handler := calls.foldl (step m) Handler.empty

end Celest.Planning
