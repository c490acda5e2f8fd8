import Verif.Task.Log

/-!
# Model of one run of a task, from its start to its outcome record

`Task.start_async` (rocketry/core/task.py:454-542), `_run_as_async` (577-656), `run_as_thread`/`_run_as_thread`
(658-705), `_run_as_process` (741-783), `_terminate_run` (1026-1036) and `_lock_to_run_log` (1039-1072), as far as log
records and return values go.  Writing a record does not fail here; what a failing write does to the status is in
`Verif/Task/Log.lean`.
-/

namespace Rocketry.Run
open Rocketry

/-- `execution`. -/
inductive Exec where | main | async | thread | process
  deriving DecidableEq, Repr

/-- How the task function ends: it returns; it raises SchedulerRestart or SchedulerExit; TaskInactionException;
TaskTerminationException (or an asyncio task is cancelled at an `await` and lets the CancelledError pass); another
exception; or it raises SystemExit, KeyboardInterrupt or the like. -/
inductive Ending where
  | returns (v : String)
  | restart
  | inaction
  | terminated
  | fails
  | dies
  deriving DecidableEq, Repr

/-- What happens in a run: whether the first parts of the hooks (task.py:586) and the parameters (591-593) go well, the
end of the task function (596-599), whether `process_success` fails (603), whether the second parts of the hooks fail
(656). -/
structure Course where
  prerun : Bool
  params : Bool
  ending : Ending
  successFails : Bool
  postFails : Bool
  deriving DecidableEq, Repr

/-- A record of the run: `own` says that it has the run's id (otherwise it has none). -/
structure Rec where
  action : Action
  own : Bool
  deriving DecidableEq, Repr

/-- What comes out of a coroutine or function: SchedulerRestart or SchedulerExit; an exception that is no `Exception`;
another one. -/
inductive Raised where | restart | died | other
  deriving DecidableEq, Repr

/-- The records written, the return value stored or sent along with a success, and the exception. -/
structure Out where
  recs : List Rec
  value : Option String
  raised : Option Raised
  deriving DecidableEq, Repr

/-- The end of the `try` statement: `finally: ... hooker.postrun(...)`, task.py:654-656; an exception of a hook replaces
the one under way. -/
def finallyPost (c : Course) (o : Out) : Out := if c.postFails then { o with raised := some .other } else o

/-- `_run_as_async`, core/task.py:577-656.  `log_success(task_run)` in line 606 passes the run as return value and no
run. -/
def body (c : Course) : Out :=
  if c.prerun = false ∨ c.params = false then ⟨[], none, some .other⟩
  else finallyPost c (match c.ending with
    | .returns v => if c.successFails then ⟨[⟨.fail, true⟩], none, none⟩ else ⟨[⟨.success, true⟩], some v, none⟩
    | .restart => ⟨[⟨.success, false⟩], none, some .restart⟩
    | .inaction => ⟨[⟨.inaction, true⟩], none, none⟩
    | .terminated => ⟨[⟨.terminate, true⟩], none, none⟩
    | .fails => ⟨[⟨.fail, true⟩], none, none⟩
    | .dies => ⟨[], none, some .died⟩)

/-- The status after the records, starting from `run` (core/task.py:1193-1195). -/
def statusAfter (l : List Rec) : Action := match l.getLast? with
  | none => .run
  | some r => r.action

/-- Exceptions in `start_async` (task.py:517-537) after the records `l` (following the `run` record). -/
def setupError (l : List Rec) : List Rec :=
  (if statusAfter l ≠ .run then [⟨.run, true⟩] else []) ++ [⟨.fail, true⟩]

/-- A run with `execution="main"`, task.py:485-502, 517-537. -/
def runMain (c : Course) : List Rec × Option String :=
  let o := body c
  (⟨.run, true⟩ :: o.recs ++ (if o.raised = some .other then setupError o.recs else []), o.value)

/-- A run with `execution="async"`, task.py:485-500; what the asyncio task raises goes nowhere.  `cancelled`: it is
terminated before its first step, `_terminate_run` (1026-1036) then logs this; one that is cancelled later ends as
`terminated` or as it likes. -/
def runAsync (cancelled : Bool) (c : Course) : List Rec × Option String :=
  if cancelled then ([⟨.run, true⟩, ⟨.terminate, true⟩], none)
  else let o := body c; (⟨.run, true⟩ :: o.recs, o.value)

/-- A run with `execution="thread"`, task.py:680-705. -/
def runThread (c : Course) : List Rec × Option String :=
  let o := body c
  (⟨.run, true⟩ :: o.recs ++ (if o.raised = some .other ∨ o.raised = some .restart then [⟨.fail, false⟩] else []), o.value)

/-- The records sent by a process, task.py:741-783.  That some do not get through the queue (the success of a restart, values
that cannot be pickled) is in `Verif/Task/Returned.lean`. -/
def processRecs (c : Course) : List Rec :=
  let o := body c
  o.recs ++ (if o.raised = some .other ∨ o.raised = some .restart then [⟨.fail, false⟩] else [])

/-- A run with `execution="process"`: with `killed = some k` the process is terminated (66-80, 1026-1036) when `k`
records after the first have been sent; the value comes with the record of the success. -/
def runProcess (killed : Option Nat) (c : Course) : List Rec × Option String :=
  match killed with
  | none => (⟨.run, true⟩ :: processRecs c, (body c).value)
  | some k => (⟨.run, true⟩ :: (processRecs c).take k ++ [⟨.terminate, true⟩], if k = 0 then none else (body c).value)

/-- The process ends before its `run` record: `_lock_to_run_log` (1056-1058) logs a failure of its own and raises
TaskSetupError, which `start_async` treats as above; `status` is the status of the task before. -/
def runCrashed (status : Option Action) : List Rec :=
  ⟨.fail, false⟩ :: (if status ≠ some .run then [⟨.run, true⟩] else []) ++ [⟨.fail, true⟩]

/-- The setup fails before the run is put into the run stack, task.py:529-537; `status` is the status of the task
before. -/
def runSetupFails (status : Option Action) : List Rec :=
  (if status ≠ some .run then [⟨.run, true⟩] else []) ++ [⟨.fail, true⟩]

/-- A task that cannot be pickled, where processes are spawned and not forked: `Task.__getstate__` (task.py:1318-1327) logs a
start and a failure without a run, the failure by the logger alone, so that the status stays `run`; then it raises
PicklingError, which `start_async` (529-537) treats as above. -/
def runUnpicklable : List Rec :=
  [⟨.run, false⟩, ⟨.fail, false⟩] ++ (if (Action.run : Action) ≠ .run then [⟨.run, true⟩] else []) ++ [⟨.fail, true⟩]

end Rocketry.Run
