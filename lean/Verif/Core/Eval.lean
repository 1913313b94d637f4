/- Evaluation of closed facts by the kernel in the presence of an unused hypothesis (`decide +kernel` insists on a goal
without free variables). -/
import Lean

namespace Verif
open Lean Elab Tactic Meta

/-- Prove a decidable goal by having the kernel evaluate it; like `decide +kernel`, but local variables may occur. -/
elab "kernel_decide" : tactic => do
  let g ← getMainGoal
  g.withContext do
    let p ← instantiateMVars (← g.getType)
    let inst ← synthInstance (mkApp (mkConst ``Decidable) p)
    g.assign (mkApp3 (mkConst ``of_decide_eq_true) p inst (mkApp2 (mkConst ``Eq.refl [1]) (mkConst ``Bool) (mkConst ``true)))

end Verif
