import Verif.Task.RunTimes

/-!
# The times of a run, in plain words
-/

namespace Rocketry.Spec
open Rocketry Rocketry.Task

/-- The step belongs to the start of a run (of the task at hand). -/
def StartsRun : TimesEv → Prop
  | .thread _ | .logRun _ _ _ | .childRun _ _ _ => True
  | _ => False

/-- The step belongs to the process of run `i`. -/
def InProcess (i : Nat) : TimesEv → Prop
  | .childRun j _ _ | .childEnd j _ _ _ => j = i
  | _ => False

/-- The record says that run `i` started at `x` and ended at `y`, and how long it took. -/
def TellsTimes (r : TimedRec) (i : Option Nat) (a : Action) (x y : Int) : Prop :=
  r.action = a ∧ r.run = i ∧ r.start = some x ∧ r.stop = some y ∧ r.runtime = some (y - x)

/-- The readings of the clock in a step. -/
def readings : TimesEv → List Int
  | .begin t | .thread t => [t]
  | .logRun _ n c | .logEnd _ _ n c | .childRun _ n c | .childEnd _ _ n c => [n, c]

/-- An outcome is not a start. -/
def OutcomeOnly : TimesEv → Prop
  | .logEnd _ a _ _ | .childEnd _ a _ _ => a ≠ .run
  | _ => True

end Rocketry.Spec
