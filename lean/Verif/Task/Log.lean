import Verif.Time.Period
import Verif.Cond.Cond

/-!
# Model of the task log and of the cached task status (`rocketry/core/task.py`, `rocketry/core/log/adapter.py`)

The log is a list of records in the order in which they were written (an in-memory repository; other redbird
repositories are not modelled).  Times are microseconds.
-/

namespace Rocketry

/-- The actions of `Task._actions`, rocketry/core/task.py:211. -/
inductive Action where | run | fail | success | inaction | terminate | crash
  deriving DecidableEq, Repr

/-- A log record (rocketry/log/log_record.py: `MinimalRecord`, `run_id` of `MinimalRunRecord`).  `noted` is the
time that the scheduler's process put into the task's cache when the record was logged (`time_now` of
`_set_status`, or `record.created` of `log_record`): it is stored as `end` in outcome records.  The texts, process
numbers etc. of a record are not modelled. -/
structure Record where
  task : String
  action : Action
  created : Int
  noted : Int
  runId : Option String
  deriving DecidableEq, Repr

/-- `TaskAdapter.filter_by(...).all()`, rocketry/core/log/adapter.py:53-59, 61-79: the records of the task that
satisfy the query. -/
def recordsBy (repo : List Record) (name : String) (q : Record → Bool) : List Record :=
  repo.filter (fun r => decide (r.task = name) && q r)

/-- `TaskAdapter.filter_by(...).last()`, adapter.py:53-59, 102-114. -/
def latestBy (repo : List Record) (name : String) (q : Record → Bool) : Option Record :=
  (recordsBy repo name q).getLast?

/-- `q` of `get_latest(action=...)`, adapter.py:113. -/
def isAction (a : Action) (r : Record) : Bool := decide (r.action = a)

/-- The mutable status of a task: `status` and the cached times `_last_run`, `_last_success` etc.,
task.py:242-247, 908-914. -/
structure TaskMem where
  status : Option Action
  last : Action → Option Int

/-- `_init_cache`, task.py:908-914, of a new task. -/
def TaskMem.fresh : TaskMem := ⟨none, fun _ => none⟩

/-- `setattr(self, f"_last_{action}", value)` -/
def TaskMem.setLast (t : TaskMem) (a : Action) (v : Option Int) : TaskMem :=
  { t with last := fun b => if b = a then v else t.last b }

/-- How the logging handlers of the task's logger fared: no error, an error before the record was stored, or an
error after it was stored. -/
inductive LogIO where | ok | lost | stored
  deriving DecidableEq, Repr

/-- The record is in the repository afterwards. -/
def LogIO.writes : LogIO → Bool
  | .lost => false
  | _ => true

/-- `_get_last_action_from_log`, task.py:1262-1275 (the logger is readable). -/
def lastActionFromLog (repo : List Record) (name : String) (a : Action) : Option Int :=
  (latestBy repo name (isAction a)).map Record.created

/-- `_get_last_action(action)`, task.py:1244-1260: the value and the memory afterwards (reading from the log
refreshes the cache). -/
def getLastAction (fromLogs : Bool) (repo : List Record) (name : String) (t : TaskMem) (a : Action) :
    Option Int × TaskMem :=
  if !fromLogs then (t.last a, t)
  else (lastActionFromLog repo name a, t.setLast a (lastActionFromLog repo name a))

/-- What a logging call does: the memory and the repository afterwards, and whether `TaskLoggingError` was raised. -/
structure Logged where
  mem : TaskMem
  repo : List Record
  raised : Bool

/-- `_set_status(action, task_run)`, task.py:1148-1195, called in the scheduler's process.  `now` is the reading of
the clock at line 1155, `created` the later reading made when the record is created (adapter.py:36-45).  Line 1164
reads the last start for the `start` and `runtime` fields of the record, which are not modelled; its effect on the
cache is. -/
def setStatus (fromLogs : Bool) (name : String) (t : TaskMem) (repo : List Record) (a : Action)
    (runId : Option String) (now created : Int) (io : LogIO) : Logged :=
  let t := if a = .run then t else (getLastAction fromLogs repo name t .run).2
  let repo' := if io.writes then repo ++ [⟨name, a, created, now, runId⟩] else repo
  match io with
  | .ok => ⟨{ t.setLast a (some now) with status := some a }, repo', false⟩
  | _ =>
    if a = .run then ⟨{ t.setLast a (some now) with status := some a }, repo', true⟩
    else ⟨{ t.setLast .fail (some now) with status := some .fail }, repo', true⟩

/-- `log_record(record)`, task.py:1104-1128: a record that was created in the task's process. -/
def logRecord (name : String) (t : TaskMem) (repo : List Record) (a : Action) (runId : Option String)
    (created : Int) (io : LogIO) : Logged :=
  let repo' := if io.writes then repo ++ [⟨name, a, created, created, runId⟩] else repo
  match io with
  | .ok => ⟨{ t.setLast a (some created) with status := some a }, repo', false⟩
  | _ =>
    if a = .run then ⟨{ t.setLast a (some created) with status := some a }, repo', true⟩
    else ⟨{ t.setLast .fail (some created) with status := some .fail }, repo', true⟩

/-- `get_status`, task.py:1130-1146. -/
def getStatus (fromLogs : Bool) (repo : List Record) (name : String) (t : TaskMem) : Option Action × TaskMem :=
  if fromLogs then
    match latestBy repo name (fun _ => true) with
    | none => (none, t)
    | some r => (some r.action, { t with status := some r.action })
  else (t.status, t)

/-- The order in which `set_cached` compares, task.py:930. -/
def cachedActions : List Action := [.run, .success, .fail, .terminate, .inaction, .crash]

/-- `max(times, key=times.get)`: the first action with the greatest time. -/
def latestAction : List (Action × Int) → Option Action
  | [] => none
  | p :: l => some (l.foldl (fun b q => if q.2 > b.2 then q else b) p).1

/-- The times found in the log, task.py:921-932. -/
def cachedTimes (repo : List Record) (name : String) : List (Action × Int) :=
  cachedActions.filterMap (fun a => (lastActionFromLog repo name a).map (fun t => (a, t)))

/-- `set_cached`, task.py:916-942 (called at startup, rocketry/core/schedule.py:312-318). -/
def setCached (fromLogs : Bool) (name : String) (t : TaskMem) (repo : List Record) (now created : Int)
    (io : LogIO) : Logged :=
  let t : TaskMem := { t with last := lastActionFromLog repo name }
  match latestAction (cachedTimes repo name) with
  | none => ⟨t, repo, false⟩
  | some .run => setStatus fromLogs name t repo .crash none now created io
  | some a => ⟨{ t with status := some a }, repo, false⟩

end Rocketry
