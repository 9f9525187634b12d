/-
Model of celest/schedule/alns.py: a generic adaptive large neighbourhood search.
-/
import Verif.Py
import Mathlib.Data.Rat.Floor

namespace Celest.Alns

/-- `_BEST_SCORE … _REJECT_SCORE` (alns.py 9-12). -/
def bestScore : ℚ := 3
def betterScore : ℚ := 2
def acceptScore : ℚ := 1
def rejectScore : ℚ := 0

/-- `_SUM_SCORE` (alns.py 13). -/
def sumScore : ℚ := bestScore + betterScore + acceptScore + rejectScore

/-- What the `add_*` methods configure (alns.py 38-87).  Destroy functions also
receive the stream of random draws they consume. -/
structure Problem (S : Type) where
  cost : S → ℚ
  complete : S → Bool
  destroy : List (S → ℤ → (ℕ → ℕ) → Py S)
  repair : List (S → ℤ → Py S)

/-- The arguments of `solve` (alns.py 89-110) other than `max_iter`, and the two
transcendental values it uses: `math.exp` and `math.log(0.5)`. -/
structure Params where
  p : ℚ
  l : ℚ
  toRemove : ℤ
  toAdd : ℤ
  exp : ℚ → ℚ
  logHalf : ℚ

/-- The random draws of one iteration: the two `random()` values behind
`random.choices`, the `random()` of the acceptance test, and the draws consumed by
the destroy function. -/
structure Draw where
  destroyDraw : ℚ
  repairDraw : ℚ
  acceptDraw : ℚ
  picks : ℕ → ℕ

/-- `_get_probabilities` (alns.py 166-180); `sum(weights)` zero is a
`ZeroDivisionError` unless there are no weights. -/
def getProbabilities (w : List ℚ) : Py (List ℚ) :=
  if w ≠ [] ∧ w.sum = 0 then .error .zeroDivisionError
  else .ok (w.map fun x => x / w.sum)

/-- `random.choices(population, weights)[0]` of CPython: the first position whose
cumulative weight exceeds `x = random() * total`, and the last position if none of
the earlier ones does (`bisect(..., hi = n - 1)`). -/
def choose (x : ℚ) : List ℚ → ℚ → ℕ
  | [], _ => 0
  | [_], _ => 0
  | w :: ws, acc => if x < acc + w then 0 else choose x ws (acc + w) + 1

/-- `random.choices([0..n-1], probabilities)[0]`: empty population is an
`IndexError`, a total weight that is not positive a `ValueError`. -/
def randomChoice (u : ℚ) (p : List ℚ) : Py ℕ :=
  if p = [] then .error .indexError
  else if p.sum ≤ 0 then .error .valueError
  else .ok (choose (u * p.sum) p 0)

/-- `_get_destroy_index` and `_get_repair_index` (alns.py 153-164, 182-193). -/
def getIndex (w : List ℚ) (u : ℚ) : Py ℕ :=
  match getProbabilities w with
  | .error e => .error e
  | .ok p => randomChoice u p

/-- `_accept` (alns.py 225-254).  Only costs matter. -/
def accept (exp : ℚ → ℚ) (temporaryCost currentCost T u : ℚ) : Py Bool :=
  if temporaryCost < currentCost then .ok true
  else if T * currentCost = 0 then .error .zeroDivisionError
  else
    let probability := exp (100 * (temporaryCost - currentCost) / (T * currentCost))
    .ok (if u > probability then false else true)

/-- `_update_destroy_weights`, `_update_repair_weights` (alns.py 256-296). -/
def updateWeights (w : List ℚ) (l score : ℚ) (i : ℕ) : List ℚ :=
  w.modify i fun x => (1 - l) * x + l * score / sumScore

/-- The local variables of `solve`'s loop. -/
structure State (S : Type) where
  current : S
  best : S
  temperature : ℚ
  destroyWeights : List ℚ
  repairWeights : List ℚ
deriving DecidableEq

/-- Everything one pass of the loop (alns.py 120-149) determines. -/
structure Pass (S : Type) where
  candidate : S
  accepted : Bool
  score : ℚ
  next : State S
deriving DecidableEq

/-- One pass of the loop of `solve` (alns.py 120-149), up to the completeness test
(which is made by `loop` on `next.best`; weights and temperature are updated only
afterwards, but nothing reads them if the loop returns). -/
def pass {S : Type} (A : Problem S) (P : Params) (st : State S) (d : Draw) : Py (Pass S) := do
  let i ← getIndex st.destroyWeights d.destroyDraw
  let j ← getIndex st.repairWeights d.repairDraw
  match A.destroy[i]?, A.repair[j]? with
  | some destroy, some repair =>
    let destroyed ← destroy st.current P.toRemove d.picks
    let temporary ← repair destroyed P.toAdd
    let accepted ← accept P.exp (A.cost temporary) (A.cost st.current) st.temperature d.acceptDraw
    let current := if accepted then temporary else st.current
    let score :=
      if accepted then
        -- line 132: `current_solution` has already been replaced at line 131
        if A.cost temporary > A.cost current then betterScore else acceptScore
      else rejectScore
    let improved := decide (A.cost temporary < A.cost st.best)
    let best := if improved then temporary else st.best
    let score := if improved then bestScore else score
    return { candidate := temporary
             accepted := accepted
             score := score
             next := { current := current
                       best := best
                       temperature := P.p * st.temperature
                       destroyWeights := updateWeights st.destroyWeights P.l score i
                       repairWeights := updateWeights st.repairWeights P.l score j } }
  | _, _ => .error .indexError

/-- The loop of `solve` (alns.py 120-151): one draw per iteration, so `max_iter` is
the length of the list of draws.  Also returns the passes made, newest last, for
stating properties of the search history. -/
def loop {S : Type} (A : Problem S) (P : Params) : List Draw → State S → Py (S × List (Pass S))
  | [], st => .ok (st.best, [])
  | d :: ds, st =>
    match pass A P st d with
    | .error e => .error e
    | .ok ps =>
      if A.complete ps.next.best then .ok (ps.next.best, [ps])
      else
        match loop A P ds ps.next with
        | .error e => .error e
        | .ok (s, tr) => .ok (s, ps :: tr)

/-- The state before the loop (alns.py 112-117). -/
def initState {S : Type} (A : Problem S) (P : Params) (initial : S) : State S :=
  { current := initial
    best := initial
    temperature := 1 / 20 * A.cost initial / P.logHalf
    destroyWeights := List.replicate A.destroy.length 1
    repairWeights := List.replicate A.repair.length 1 }

/-- `ALNS.solve` (alns.py 89-151) together with its search history. -/
def solveTrace {S : Type} (A : Problem S) (P : Params) (initial : S) (draws : List Draw) :
    Py (S × List (Pass S)) :=
  if A.complete initial then .ok (initial, [])
  else loop A P draws (initState A P initial)

/-- `ALNS.solve` (alns.py 89-151). -/
def solve {S : Type} (A : Problem S) (P : Params) (initial : S) (draws : List Draw) : Py S :=
  (solveTrace A P initial draws).map Prod.fst

end Celest.Alns
