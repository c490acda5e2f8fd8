import Verif.Spec.CommandSpec
import Verif.Task.CommandRun

/-!
# What becomes of the run of a command task, and of its command
-/

namespace Rocketry.Spec
open Rocketry.Command

/-- The outcome a run should have under a time limit: that of the command if it ends in time, otherwise a failure at the
limit. -/
def commandOutcome (limit : Option Nat) : Behaviour → Outcome
  | .missing => .fail 0
  | .ends n code out => match limit with
    | none => if code = 0 then .success n out else .fail n
    | some l => if n ≤ l then (if code = 0 then .success n out else .fail n) else .fail l
  | .endless => match limit with
    | none => .none
    | some l => .fail l

/-- By the time the command has ended, or it never began. -/
def CommandGone (b : Behaviour) (time : Nat) : Prop := b = .missing ∨ ∃ n code out, b = .ends n code out ∧ n ≤ time

/-- The time at which a run has ended. -/
def endedAt : Outcome → Option Nat
  | .success n _ => some n
  | .fail n => some n
  | .terminate n => some n
  | .none => none

end Rocketry.Spec
