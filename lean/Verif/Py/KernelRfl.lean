import Lean.Elab.Tactic.Basic
import Lean.Meta.AppBuilder
/-!
# Evaluation by the kernel

For runs of the model on given arguments: the tactic `kernel_rfl` offers `Eq.refl` as the proof of an equation and lets the kernel,
which evaluates both sides, accept or refuse it.  (`decide +kernel` does so too, but only for equations without variables.)  Nothing
is added to what is trusted.
-/

namespace Verif

/-- Leaves an equation to the kernel. -/
elab "kernel_rfl" : tactic => do
  let goal ← Lean.Elab.Tactic.getMainGoal
  let some (_, a, _) := (← Lean.instantiateMVars (← goal.getType)).eq? | throwError "not an equation"
  goal.assign (← Lean.Meta.mkEqRefl a)

end Verif
