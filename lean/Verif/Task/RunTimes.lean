import Verif.Task.Log

/-!
# Model of the times in the records of a task: `start`, `end` and `runtime`

`Task._set_status` (rocketry/core/task.py:1148-1195) for all runs of one task, in the scheduler's process (main, async,
threads) and in processes of their own.  The order of the steps of different runs is free.

Simplified: writing a record does not fail (see `Verif/Task/Log.lean` for that); the record of the start of a process is
handled in the step that writes it (`_lock_to_run_log`, task.py:1039-1072, waits for it); times are microseconds.
-/

namespace Rocketry.Task
open Rocketry

/-- A record with its times (rocketry/log/log_record.py:39-43).  `run` is the number of the run, if the record has a
`run_id`. -/
structure TimedRec where
  action : Action
  run : Option Nat
  start : Option Int
  stop : Option Int
  runtime : Option Int
  created : Int
  deriving DecidableEq, Repr

/-- `TaskRun.start` of each run (task.py:479), `_last_run` of the task in the scheduler's process, `_last_run` of the
copies of the task in the processes of its runs, and the log. -/
structure TimesSt where
  starts : List Int
  last : Option Int
  copies : Nat → Option Int
  log : List TimedRec

/-- A new task. -/
def TimesSt.init : TimesSt := ⟨[], none, fun _ => none, []⟩

/-- What happens, with the readings of the clock: `now` in line 1155 and `created` when the record is made.
* `begin`: task.py:479;
* `thread`: task.py:673;
* `logRun`, `logEnd`: `_set_status` in the scheduler's process, the latter for the outcome of a run or of none
  (`log_failure()` without a run, `log_crash`);
* `childRun`, `childEnd`: `_set_status` in the process of a run. -/
inductive TimesEv where
  | begin (t : Int)
  | thread (t : Int)
  | logRun (i : Nat) (now created : Int)
  | logEnd (i : Option Nat) (a : Action) (now created : Int)
  | childRun (i : Nat) (now created : Int)
  | childEnd (i : Nat) (a : Action) (now created : Int)
  deriving DecidableEq, Repr

/-- `_get_last_action_from_log("run")`, task.py:1262-1275. -/
def lastRunLogged (log : List TimedRec) : Option Int :=
  ((log.filter (fun r => decide (r.action = .run))).getLast?).map (·.created)

/-- `_get_last_action("run")`, task.py:1244-1260, in the scheduler's process. -/
def TimesSt.lastRun (fromLogs : Bool) (s : TimesSt) : Option Int := if fromLogs then lastRunLogged s.log else s.last

/-- An outcome record, task.py:1163-1168: `runtime = time_now - start_time if start_time is not None else None`. -/
def outcomeRec (i : Option Nat) (a : Action) (start : Option Int) (now created : Int) : TimedRec :=
  ⟨a, i, start, some now, start.map (fun x => now - x), created⟩

/-- One step.  In a process of its own the logger cannot be read (its only handler is a QueueHandler, task.py:757-763), so
with `force_status_from_logs` the last start is unknown there (task.py:1267-1270). -/
def TimesSt.step (fromLogs : Bool) (s : TimesSt) : TimesEv → TimesSt
  | .begin t => { s with starts := s.starts ++ [t] }
  | .thread t => { s with last := some t }
  | .logRun i now created => { s with
      last := some now
      log := s.log ++ [⟨.run, some i, s.starts[i]?, none, none, created⟩] }
  | .logEnd i a now created => { s with
      last := s.lastRun fromLogs
      log := s.log ++ [outcomeRec i a (s.lastRun fromLogs) now created] }
  -- the record is handled by `log_record` in the scheduler's process, task.py:1104-1128
  | .childRun i now created => { s with
      last := some created
      copies := fun j => if j = i then some now else s.copies j
      log := s.log ++ [⟨.run, some i, s.starts[i]?, none, none, created⟩] }
  | .childEnd i a now created =>
    let start := if fromLogs then none else s.copies i
    { s with
      copies := fun j => if j = i then start else s.copies j
      log := s.log ++ [outcomeRec (some i) a start now created] }

/-- A sequence of steps. -/
def TimesSt.run (fromLogs : Bool) : TimesSt → List TimesEv → TimesSt
  | s, [] => s
  | s, e :: es => (s.step fromLogs e).run fromLogs es

end Rocketry.Task
