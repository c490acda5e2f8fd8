import Verif.Time.Cron
import Verif.Task.Conditions

/-!
# Model of the start condition `cron(...)`
-/

namespace Rocketry

/-- `cron(...)`: `TaskRunnable(period=Cron(...))`, rocketry/conditions/api.py:233-240, with `TaskRunnable.get_state`,
rocketry/conditions/task/task.py:346-361 (two clock readings), for a period that is a `Cron` object. -/
def cronRunnable (fuel : Nat) (fromLogs : Bool) (c : CronExpr) (now now' : Int) (name : String) (t : TaskMem)
    (repo : List Record) : Except PyErr Bool :=
  andThen (c.contains fuel now)
    (match c.rollback fuel now' with
      | .error e => .error e
      | .ok i => .ok (statusObserve fromLogs (.one .run) [(.eq, 0)] (i.left, i.right) name t repo))

end Rocketry
