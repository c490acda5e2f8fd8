import Verif.Sched.State

/-!
# Specification for C116: a scheduler on hold starts nothing new

Read off the record of an execution alone.
-/

namespace Rocketry.Spec
open Rocketry.Sched

/-- The scheduler starts a task of its own accord, in a cycle. -/
def StartsInCycle : Obs → Prop
  | .started _ _ .cycle => True
  | _ => False

/-- The scheduler turns to a task, begins or ends a cycle, begins to shut down or begins anew. -/
def TurnsAway : Obs → Prop
  | .inspected _ => True
  | .cycle => True
  | .cycleDone => True
  | .shutdown => True
  | .serve => True
  | _ => False

/-- The scheduler is released: `on_hold` is set to False. -/
@[reducible] def SetsFree : Obs := .env (.hold false)

/-- At the end of `a` the scheduler is busy with the task `n`, and has not started it. -/
def BusyWith (n : String) (a : List Obs) : Prop :=
  ∃ a1 a2, a = a1 ++ .inspected n :: a2 ∧ ∀ o ∈ a2, ¬ TurnsAway o ∧ ¬ StartsInCycle o

end Rocketry.Spec
