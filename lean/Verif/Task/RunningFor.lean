import Verif.Task.Conditions

/-!
# Model of `running` with a limit on how long

`running.more_than(d)`, `running.less_than(d)` and `running.between(a, b)` (rocketry/conditions/api.py:158-171) are
`TaskRunning` conditions with a `TimeSpanDelta` (rocketry/conditions/task/task.py:162-222), typically used as
`end_cond` of a task.  Sessions with the option `timezone` are in `Verif.Time.Zoned`.
-/

namespace Rocketry

/-- The period of `running.more_than(d)`, `running.less_than(d)`, `running.between(a, b)`, api.py:158-171. -/
def runningPeriod (moreThan lessThan : Option Int) : Period := Period.mkSpan moreThan lessThan

/-- `TaskRunning.get_measurement` with a period (task.py:167-222), compared with zero (`BaseComparable.observe`,
core/condition/base.py:265-272).  `runs` are the starts of the runs in `_run_stack` and whether they are alive. -/
def runningFor (fuel : Nat) (fromLogs hasRunId : Bool) (p : Option Period) (now : Int) (name : String)
    (runs : List (Int × Bool)) (repo : List Record) : Except PyErr Bool :=
  match Period.periodSpan fuel p now with
  | .error e => .error e
  | .ok span =>
    let n := if fromLogs then runningCount hasRunId repo name span
      else (runs.filter (fun r => r.2 && within span.1 span.2 r.1)).length
    .ok (compState [] n)

end Rocketry
