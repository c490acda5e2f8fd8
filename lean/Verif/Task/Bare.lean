import Verif.Task.Conditions
import Verif.Text.CondItems

/-!
# Model of status conditions without a period

`TaskStatusMixin.get_measurement` then asks the task for its period (`rocketry/conditions/task/utils.py:64`,
`rocketry/core/task.py:1343-1368`).
-/

namespace Rocketry

/-- `isinstance(cond, (TaskSucceeded, TaskFinished))`, core/task.py:1355. -/
def Cond.ownStatus : Cond Builtin → Bool
  | .leaf (.status .succeeded _ _ _) => true
  | .leaf (.status .finished _ _ _) => true
  | _ => false

/-- `isinstance(sub_stmt, (TaskFinished, TaskFinished))`, core/task.py:1362. -/
def Cond.finishStatus : Cond Builtin → Bool
  | .leaf (.status .finished _ _ _) => true
  | _ => false

/-- `Task.period`, core/task.py:1343-1368.  The conditions have no attribute `kwargs`, so each of the two places that
read it raises `AttributeError` when it is reached. -/
def taskPeriod (startCond : Cond Builtin) : Except PyErr Period :=
  if startCond.ownStatus then .error .attribute
  else match startCond with
    | .all subs => if subs.any Cond.finishStatus then .error .attribute else .ok (.static MINT MAXT)
    | _ => .ok (.static MINT MAXT)

/-- `TaskStatusMixin.get_measurement` and `observe` with `self.period is None`, conditions/task/utils.py:62-111;
`startCond` is the start condition of the task the condition is about. -/
def bareStatus (fuel : Nat) (fromLogs : Bool) (acts : Acts) (comps : Comps) (startCond : Cond Builtin) (now : Int)
    (name : String) (t : TaskMem) (repo : List Record) : Except PyErr Bool :=
  match taskPeriod startCond with
  | .error e => .error e
  | .ok p => statusCond fuel fromLogs acts comps (some p) now name t repo

/-- `_action`, conditions/task/task.py:32, 58, 84, 109, 135, 245. -/
def Verb.acts : Verb → Acts
  | .failed => .one .fail
  | .succeeded => .one .success
  | .finished => finishActs
  | .terminated => .one .terminate
  | .inacted => .one .inaction
  | .started => .one .run

end Rocketry
