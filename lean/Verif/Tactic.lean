/-
`kernel_decide`: like `decide +kernel`, but also for goals with free variables that the
evaluation never inspects.  It only builds the proof term `of_decide_eq_true rfl`; the
kernel checks it like any other.
-/
import Lean.Elab.Tactic.Basic

open Lean Elab Tactic Meta in
/-- Close a decidable goal by kernel evaluation of its `Decidable` instance. -/
elab "kernel_decide" : tactic => do
  let g ← getMainGoal
  g.withContext do
    let t ← instantiateMVars (← g.getType)
    let inst ← instantiateMVars (← synthInstance (mkApp (mkConst ``Decidable) t))
    let tt := mkApp2 (mkConst ``Eq.refl [1]) (mkConst ``Bool) (mkConst ``true)
    g.assign (mkApp3 (mkConst ``of_decide_eq_true) t inst tt)
