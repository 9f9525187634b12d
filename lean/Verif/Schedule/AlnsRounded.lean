/-
The search of celest/schedule/alns.py again, with every float operation rounded, and doubles with
their smallest positive number.
-/
import Verif.Rounding
import Verif.Schedule.Alns

namespace Celest

/-- `x` rounded to the nearest number, ties to even, with a 53-bit significand that is a multiple
of `2 ^ -E`. -/
def gradualRound (E : ℕ) (x : ℚ) : ℚ :=
  nearestEven (x / 2 ^ max (Int.log 2 |x| - 52) (-E)) * 2 ^ max (Int.log 2 |x| - 52) (-E)

/-- `x` rounded to the nearest double, with gradual underflow.  Simplified: no overflow. -/
def doubleRound : ℚ → ℚ := gradualRound 1074

namespace Alns.Rounded

open Alns (Problem Draw bestScore betterScore acceptScore rejectScore sumScore)

/-- The arguments of `solve` (alns.py 89-110) other than `max_iter`, and the functions of Python's
libraries it uses: `sum`, which rounds differently from version to version, `math.exp` and
`math.log(0.5)`. -/
structure Params where
  p : ℚ
  l : ℚ
  toRemove : ℤ
  toAdd : ℤ
  sum : List ℚ → ℚ
  exp : ℚ → ℚ
  logHalf : ℚ

variable (fl : ℚ → ℚ)

/-- `_get_probabilities` (alns.py 166-180). -/
def getProbabilities (sum : List ℚ → ℚ) (w : List ℚ) : Py (List ℚ) :=
  if w ≠ [] ∧ sum w = 0 then .error .zeroDivisionError
  else .ok (w.map fun x => fl (x / sum w))

/-- `bisect(cumulative_weights, x, 0, n - 1)` of `random.choices`; the cumulative weights are those
of `itertools.accumulate`. -/
def choose (x : ℚ) : List ℚ → ℚ → ℕ
  | [], _ => 0
  | [_], _ => 0
  | w :: ws, acc => if x < fl (acc + w) then 0 else choose x ws (fl (acc + w)) + 1

/-- The last of the cumulative weights. -/
def total (p : List ℚ) : ℚ := p.foldl (fun acc w => fl (acc + w)) 0

/-- `random.choices([0..n-1], probabilities)[0]`: empty population is an `IndexError`, a total
weight that is not positive a `ValueError`. -/
def randomChoice (u : ℚ) (p : List ℚ) : Py ℕ :=
  if p = [] then .error .indexError
  else if total fl p ≤ 0 then .error .valueError
  else .ok (choose fl (fl (u * total fl p)) p 0)

/-- `_get_destroy_index` and `_get_repair_index` (alns.py 153-164, 182-193). -/
def getIndex (sum : List ℚ → ℚ) (w : List ℚ) (u : ℚ) : Py ℕ :=
  match getProbabilities fl sum w with
  | .error e => .error e
  | .ok p => randomChoice fl u p

/-- `_accept` (alns.py 225-254).  Only costs matter.  Simplified: a quotient too large for a double
is passed to `exp` as it is (in Python it is minus infinity, whose `exp` is zero). -/
def accept (exp : ℚ → ℚ) (temporaryCost currentCost T u : ℚ) : Py Bool :=
  if temporaryCost < currentCost then .ok true
  else if fl (T * currentCost) = 0 then .error .zeroDivisionError
  else
    let probability :=
      exp (fl (fl (100 * fl (temporaryCost - currentCost)) / fl (T * currentCost)))
    .ok (if u > probability then false else true)

/-- `_update_destroy_weights`, `_update_repair_weights` (alns.py 256-296). -/
def updateWeights (w : List ℚ) (l score : ℚ) (i : ℕ) : List ℚ :=
  w.modify i fun x => fl (fl (fl (1 - l) * x) + fl (fl (l * score) / sumScore))

/-- The local variables of `solve`'s loop (alns.py 112-117). -/
structure State (S : Type) where
  current : S
  best : S
  temperature : ℚ
  destroyWeights : List ℚ
  repairWeights : List ℚ
deriving DecidableEq

/-- What a pass of the loop (alns.py 120-149) determines: the operators it chose, the score they
got, and the local variables after it. -/
structure Pass (S : Type) where
  destroyIndex : ℕ
  repairIndex : ℕ
  score : ℚ
  next : State S
deriving DecidableEq

/-- One pass of the loop of `solve` (alns.py 120-149), up to the completeness test. -/
def pass {S : Type} (A : Problem S) (P : Params) (st : State S) (d : Draw) : Py (Pass S) := do
  let i ← getIndex fl P.sum st.destroyWeights d.destroyDraw
  let j ← getIndex fl P.sum st.repairWeights d.repairDraw
  match A.destroy[i]?, A.repair[j]? with
  | some destroy, some repair =>
    let destroyed ← destroy st.current P.toRemove d.picks
    let temporary ← repair destroyed P.toAdd
    let accepted ←
      accept fl P.exp (A.cost temporary) (A.cost st.current) st.temperature d.acceptDraw
    let current := if accepted then temporary else st.current
    let score :=
      if accepted then
        if A.cost temporary > A.cost current then betterScore else acceptScore
      else rejectScore
    let improved := decide (A.cost temporary < A.cost st.best)
    let best := if improved then temporary else st.best
    let score := if improved then bestScore else score
    return { destroyIndex := i
             repairIndex := j
             score := score
             next := { current := current
                       best := best
                       temperature := fl (P.p * st.temperature)
                       destroyWeights := updateWeights fl st.destroyWeights P.l score i
                       repairWeights := updateWeights fl st.repairWeights P.l score j } }
  | _, _ => .error .indexError

/-- The loop of `solve` (alns.py 120-151) and the passes it makes. -/
def loop {S : Type} (A : Problem S) (P : Params) : List Draw → State S → Py (S × List (Pass S))
  | [], st => .ok (st.best, [])
  | d :: ds, st =>
    match pass fl A P st d with
    | .error e => .error e
    | .ok ps =>
      if A.complete ps.next.best then .ok (ps.next.best, [ps])
      else
        match loop A P ds ps.next with
        | .error e => .error e
        | .ok (s, tr) => .ok (s, ps :: tr)

/-- The state before the loop (alns.py 112-117). -/
def initState {S : Type} (A : Problem S) (P : Params) (initial : S) : State S :=
  { current := initial
    best := initial
    temperature := fl (fl (fl (1 / 20) * A.cost initial) / P.logHalf)
    destroyWeights := List.replicate A.destroy.length 1
    repairWeights := List.replicate A.repair.length 1 }

/-- `ALNS.solve` (alns.py 89-151) and the passes it makes. -/
def solveTrace {S : Type} (A : Problem S) (P : Params) (initial : S) (draws : List Draw) :
    Py (S × List (Pass S)) :=
  if A.complete initial then .ok (initial, [])
  else loop fl A P draws (initState fl A P initial)

/-- `ALNS.solve` (alns.py 89-151). -/
def solve {S : Type} (A : Problem S) (P : Params) (initial : S) (draws : List Draw) : Py S :=
  (solveTrace fl A P initial draws).map Prod.fst

end Alns.Rounded

end Celest
