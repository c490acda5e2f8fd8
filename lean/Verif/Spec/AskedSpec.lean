import Verif.Sched.Follow

/-!
# Calls of `task.terminate()`
-/

namespace Rocketry.Spec
open Rocketry.Sched

/-- Termination of the task called `n` was asked for, and its run with the given id goes on. -/
structure AskedToEnd (s : Sys) (n : String) (id : Nat) : Prop where
  task : ∃ t, s.find n = some t ∧ t.member = true ∧ t.forceTerm = true ∧ ∃ r ∈ t.stack, r.id = id ∧ r.alive = true

/-- Termination of the task called `n` was not asked for (or it was acted on). -/
def NotAsked (s : Sys) (n : String) : Prop := ∀ t ∈ s.tasks, t.name = n → t.forceTerm = false

end Rocketry.Spec
