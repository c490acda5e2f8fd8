import Verif.Session.AppLog

/-!
# The log of an application, in plain words
-/

namespace Rocketry.Spec
open Rocketry.Session

/-- The records logged under this name, in order. -/
def loggedUnder (n : LogName) (l : List AppOp) : List LRec :=
  l.filterMap (fun o => match o with
    | .log m _ r => if m = n then some r else none
    | _ => none)

/-- The program leaves the log of this name alone: no other application is made with this name, the level is not
raised, and tasks log as they do (INFO and above). -/
def LeavesLog (n : LogName) : AppOp → Prop
  | .app m _ => m ≠ n
  | .setLevel m lv => m = n → ∃ x, lv = some x ∧ x ≤ INFO
  | .log _ lv _ => INFO ≤ lv
  | _ => True

/-- Levels are only set to INFO and below, on any logger. -/
def LevelsLow : AppOp → Prop
  | .setLevel _ lv => ∃ x, lv = some x ∧ x ≤ INFO
  | _ => True

/-- Nobody else writes to this repository. -/
def LeavesRepo (k : Nat) : AppOp → Prop
  | .app _ repo => repo ≠ some k
  | .addHandler _ h => h ≠ some k
  | _ => True

/-- All records of the task are logged under this name. -/
def OnlyUnder (n : LogName) (task : String) : AppOp → Prop
  | .log m _ r => r.task = task → m = n
  | _ => True

/-- No handler writes to this repository. -/
def UnusedRepo (w : LogWorld) (k : Nat) : Prop := some k ∉ w.root ∧ ∀ l ∈ w.loggers, some k ∉ l.handlers

end Rocketry.Spec
