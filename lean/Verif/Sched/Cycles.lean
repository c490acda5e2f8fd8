import Verif.Session.RunOnly
import Verif.Text.CondItems

/-!
# Model of the scheduler conditions (`rocketry/conditions/scheduler.py`)

`SchedulerCycles` compares the number of cycles, `SchedulerStarted` the time of the startup.
-/

namespace Rocketry.Sched

open Rocketry (Comps compState)

/-- A shut condition that depends on the number of cycles only, `check_shut_cond`, core/schedule.py:193-197.  Reading
it takes no time. -/
def stopAt (P : Nat → Bool) : M Bool := do
  let s ← get
  pure (P s.nCycles)

/-- `SchedulerCycles` with comparisons: `get_measurement`, conditions/scheduler.py:12-14, and `observe`,
core/condition/base.py:265-272. -/
def cyclesState (comps : Comps) (nCycles : Nat) : Bool := compState comps nCycles

end Rocketry.Sched

namespace Rocketry

/-- `SchedulerStarted.get_state`, conditions/scheduler.py:57-60; `startup` is `scheduler.startup_time`, which is set
in `startup` (core/schedule.py:309) and there is no such attribute before. -/
def schedulerStarted (fuel : Nat) (period : Option Period) (startup : Option Int) (now : Int) : Except PyErr Bool :=
  match Period.periodSpan fuel period now with
  | .error e => .error e
  | .ok (s, e) =>
    match startup with
    | none => .error .attribute
    | some dt => .ok (decide (s ≤ dt) && decide (dt ≤ e))

/-- `scheduler_running(more_than, less_than)`, conditions/api.py:298-299, as observed; the durations are in
microseconds (their reading: `stringToTimedelta`). -/
def schedulerRunning (fuel : Nat) (more less : Option Int) (startup : Option Int) (now : Int) : Except PyErr Bool :=
  schedulerStarted fuel (some (Period.mkSpan more less)) startup now

/-- The conditions about the scheduler among the built-in conditions; the others are not about the scheduler. -/
def Builtin.schedObs (fuel : Nat) (startup : Option Int) (nCycles : Nat) (now : Int) : Builtin → Option (Except PyErr Bool)
  | .schedStarted past => some (schedulerStarted fuel (some (Period.mkDelta (some past) none)) startup now)
  | .cycles comps => some (.ok (Sched.cyclesState comps nCycles))
  | _ => none

end Rocketry
