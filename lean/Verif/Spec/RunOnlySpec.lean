import Verif.Sched.State

/-!
# Specification of `Session.run`
-/

namespace Rocketry.Spec
open Rocketry.Sched

/-- Number of times the task is started in a record of an execution. -/
def startsOf (n : String) (l : List Obs) : Nat :=
  l.countP (fun o => match o with | .started m _ _ => decide (m = n) | _ => false)

/-- The attributes of a task that belong to its definition, with its pending requests. -/
structure Attributes where
  priority : Int
  execution : Exec
  multilaunch : Option Bool
  disabled : Bool
  onStartup : Bool
  onShutdown : Bool
  permanent : Bool
  timeout : Option Int
  noCond : Bool
  forceTerm : Bool
  requests : List Batch
  deriving DecidableEq

/-- The attributes of the task called `n`, if the session has it. -/
def attributes (s : Sys) (n : String) : Option Attributes :=
  (s.tasks.find? (fun t => t.member && decide (t.name = n))).map (fun t =>
    ⟨t.priority, t.execution, t.multilaunch, t.disabled, t.onStartup, t.onShutdown, t.permanent, t.timeout, t.noCond,
      t.forceTerm, t.batches⟩)

/-- Nobody meanwhile asks for an unnamed task, enables or adds one. -/
def LeavesAlone (names : List String) : EnvEv → Prop
  | .request n _ => n ∈ names
  | .disable n b => n ∈ names ∨ b = true
  | .add t => t.name ∈ names
  | _ => True

/-- Meanwhile runs end and are asked to end, and the set of tasks may be iterated in any order. -/
def OnlyEnds : EnvEv → Prop
  | .ends .. => True
  | .terminate _ => True
  | .reorder _ => True
  | _ => False

/-- Nothing fails. -/
structure Gentle (c : Choice) : Prop where
  fault : c.fault = none
  cond : c.cond ≠ none
  events : ∀ e ∈ c.events, OnlyEnds e

end Rocketry.Spec
